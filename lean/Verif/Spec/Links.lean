import Verif.Model.Links
import Verif.Spec.Disk

/-!
# Specification of disks with symbolic links
-/

namespace Firm.Spec

/-- There is a symbolic link with the given text at a place. -/
def IsLink (D : LinkDisk) (loc : List Str) (text : Str) : Prop := Has D.tree loc .other ∧ (loc, text) ∈ D.links

/-- A disk as file systems have it: names are valid and different, every link has one text, and the root is
a directory. -/
structure Sound (D : LinkDisk) : Prop where
  tree : WellFormed D.tree
  root : ∃ es, D.tree = .dir (some es)
  links : (D.links.map (·.1)).Nodup

/-- `Leads D loc cs l n`: following the components `cs` from the directory `loc` one comes to the place `l`,
through `n` links. Every component is taken from a directory; there need not be anything at `l`. -/
inductive Leads (D : LinkDisk) : List Str → List PathComp → List Str → Nat → Prop
  | done (loc : List Str) : Leads D loc [] loc 0
  | root {loc l cs n} : Leads D [] cs l n → Leads D loc (.rootDir :: cs) l n
  | here {loc l cs n e} : Has D.tree loc (.dir e) → Leads D loc cs l n → Leads D loc (.curDir :: cs) l n
  | up {loc l cs n e} : Has D.tree loc (.dir e) → Leads D loc.dropLast cs l n → Leads D loc (.parentDir :: cs) l n
  | down {loc l cs n e name} : Has D.tree loc (.dir e) → (∀ text, ¬ IsLink D (loc ++ [name]) text) →
      Leads D (loc ++ [name]) cs l n → Leads D loc (.normal name :: cs) l n
  | link {loc l cs n e name text} : Has D.tree loc (.dir e) → IsLink D (loc ++ [name]) text →
      Leads D loc (pathComponents text ++ cs) l n → Leads D loc (.normal name :: cs) l (n + 1)

/-- A path leads to a place, through no more links than the kernel follows. -/
def Reaches (D : LinkDisk) (cs : List PathComp) (l : List Str) : Prop := ∃ n, n ≤ D.limit ∧ Leads D [] cs l n

/-- Outside a directory, the two disks have the same files with the same contents, the same links and the
same directories. -/
def SameBeyond (base : List Str) (D D' : LinkDisk) : Prop :=
  SameOutside base D.tree D'.tree ∧
  (∀ loc text, ¬ base <+: loc → (IsLink D loc text ↔ IsLink D' loc text)) ∧
  ∀ loc, ¬ base <+: loc → ((∃ es, Has D.tree loc (.dir (some es))) ↔ ∃ es, Has D'.tree loc (.dir (some es)))

/-- The two disks have the same files with the same contents and the same links. -/
def SameDisk (D D' : LinkDisk) : Prop :=
  SameFiles D.tree D'.tree ∧ ∀ loc text, IsLink D loc text ↔ IsLink D' loc text

/-- There is no link in a directory or anywhere below it. -/
def NoLinks (D : LinkDisk) (base : List Str) : Prop := ∀ loc text, base <+: loc → ¬ IsLink D loc text

/-- A path of names below the workspace directory `ws`, the last with the extension `firm`, that leads to a
text file. -/
def LinkedFile (D : LinkDisk) (ws loc : List Str) (text : Str) : Prop :=
  (∃ dirs n, loc = dirs ++ [n] ∧ FirmName n) ∧
  ∃ l, Reaches D (placeComps (ws ++ loc)) l ∧ Has D.tree l (.file (some text))

/-- The loaded workspace consists of exactly the firm files to which paths below the directory lead, one for
each path. -/
def LoadsLinked (grammar : Str → Node) (ws : List Str) (D : LinkDisk) (w : Workspace) : Prop :=
  (w.map (·.1)).Nodup ∧ ∀ path f, (path, f) ∈ w ↔ ∃ loc text, LinkedFile D ws loc text ∧
    path = '/' :: joinWith ['/'] (ws ++ loc) ∧ f = ⟨grammar text, joinWith ['/'] loc⟩

/-- Nothing stops the workspace from being read: it is a directory that can be listed, and so is every
directory to which a path below it leads, and every firm file there is readable text. -/
def ReadableLinked (ws : List Str) (D : LinkDisk) : Prop :=
  (∃ l es, Reaches D (placeComps ws) l ∧ Has D.tree l (.dir (some es))) ∧
  (∀ loc l, Reaches D (placeComps (ws ++ loc)) l → ¬ Has D.tree l (.dir none)) ∧
  ∀ dirs n l, FirmName n → Reaches D (placeComps (ws ++ (dirs ++ [n]))) l → ¬ Has D.tree l (.file none)

end Firm.Spec
