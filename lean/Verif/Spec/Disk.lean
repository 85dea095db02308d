import Verif.Model.Mcp
import Verif.Spec.Workspace

/-!
# Specification of what is on a disk and of what the server holds
-/

namespace Firm.Spec

/-- `Has t loc u`: following the names `loc` from `t` one finds `u`. -/
inductive Has : FsTree → List Str → FsTree → Prop
  | here (t : FsTree) : Has t [] t
  | inside {es : List (Str × FsTree)} {n : Str} {t u : FsTree} {loc : List Str} :
      (n, t) ∈ es → Has t loc u → Has (.dir (some es)) (n :: loc) u

/-- A name that a directory entry can have. -/
structure ValidName (n : Str) : Prop where
  nonempty : n ≠ []
  noSlash : '/' ∉ n
  notDot : n ≠ ['.']
  notDots : n ≠ ['.', '.']

/-- A disk as file systems have it: in every directory the names are valid and different. -/
inductive WellFormed : FsTree → Prop
  | file (t : Option Str) : WellFormed (.file t)
  | other : WellFormed .other
  | unreadable : WellFormed (.dir none)
  | dir {es : List (Str × FsTree)} : (es.map (·.1)).Nodup → (∀ p ∈ es, ValidName p.1) →
      (∀ p ∈ es, WellFormed p.2) → WellFormed (.dir (some es))

/-- `u` is something else than a readable directory. -/
def NotDir (u : FsTree) : Prop := ∀ es, u ≠ .dir (some es)

/-- The two disks have the same files with the same contents (directories may differ). -/
def SameFiles (d d' : FsTree) : Prop := ∀ loc u, NotDir u → (Has d loc u ↔ Has d' loc u)

/-- The two disks have the same files outside a directory. -/
def SameOutside (ws : List Str) (d d' : FsTree) : Prop :=
  ∀ loc u, NotDir u → ¬ ws <+: loc → (Has d loc u ↔ Has d' loc u)

/-- A file name with the extension `firm`: something and then `.firm`. -/
def FirmName (n : Str) : Prop := ∃ stem, stem ≠ [] ∧ n = stem ++ ".firm".toList

/-- A text file with the extension `firm` below the workspace directory `ws`, at `loc` from there. -/
def FirmFile (d : FsTree) (ws loc : List Str) (text : Str) : Prop :=
  (∃ dirs n, loc = dirs ++ [n] ∧ FirmName n) ∧ Has d (ws ++ loc) (.file (some text))

/-- The loaded workspace consists of exactly the firm files on the disk, each once. -/
def LoadsAs (grammar : Str → Node) (ws : List Str) (d : FsTree) (w : Workspace) : Prop :=
  (w.map (·.1)).Nodup ∧ ∀ path f, (path, f) ∈ w ↔ ∃ loc text, FirmFile d ws loc text ∧
    path = '/' :: joinWith ['/'] (ws ++ loc) ∧ f = ⟨grammar text, joinWith ['/'] loc⟩

/-- Nothing stops the workspace from being read: every directory below `ws` can be listed and every
firm file is readable text. -/
def Readable (ws : List Str) (d : FsTree) : Prop :=
  (∃ es, Has d ws (.dir (some es))) ∧
  (∀ loc, ¬ Has d (ws ++ loc) (.dir none)) ∧
  ∀ dirs n, FirmName n → ¬ Has d (ws ++ (dirs ++ [n])) (.file none)

/-- What the server holds in memory is the build of the files on disk. -/
def Serves (H : Host) (s : Server) : Prop :=
  LoadsAs H.grammar H.ws s.disk s.state.workspace ∧
  s.state.workspace.build H.lang = .ok s.state.build ∧
  s.state.build.toGraph = (s.state.graph, .ok ())

end Firm.Spec
