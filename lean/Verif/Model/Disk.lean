import Verif.Model.Workspace

/-!
# The disk seen by the MCP server

Rust sources: the calls of `std::fs` and `std::path` made by `/repo/firm_mcp/src/resources.rs` and
`/repo/firm_mcp/src/tools/*.rs`.

A disk is a finite tree; a place on it is the list of names leading there from the root. There are no
symbolic links, no permissions beyond unreadable files and directories, and an operation fails only
because of the shape of the tree (no full disk, no half-written file).
-/

namespace Firm

/-- What is at a place. -/
def FsTree.lookup : FsTree → List Str → Option FsTree
  | t, [] => some t
  | .dir (some es), n :: ns =>
    match mapGet es n with
    | some t => t.lookup ns
    | none => none
  | _, _ :: _ => none

/-- Puts a tree at a place whose parent directory exists. -/
def FsTree.place : FsTree → List Str → FsTree → FsTree
  | _, [], new => new
  | .dir (some es), n :: ns, new =>
    .dir (some (mapInsert es n (((mapGet es n).getD (.dir (some []))).place ns new)))
  | t, _ :: _, _ => t

/-- Takes away what is at a place. -/
def FsTree.remove : FsTree → List Str → FsTree
  | .dir (some es), [n] => .dir (some (es.filter fun p => decide (p.1 ≠ n)))
  | .dir (some es), n :: m :: ns =>
    match mapGet es n with
    | some t => .dir (some (mapInsert es n (t.remove (m :: ns))))
    | none => .dir (some es)
  | t, _ => t

/-- `fs::create_dir_all`; `none` is an error, which leaves the disk as it was. -/
def FsTree.createDirAll : FsTree → List Str → Option FsTree
  | .dir d, [] => some (.dir d)
  | .dir (some es), n :: ns =>
    (((mapGet es n).getD (.dir (some []))).createDirAll ns).map fun t => .dir (some (mapInsert es n t))
  | _, _ => none

/-- `fs::read_to_string`; `none` is an error (nothing there, not a file, unreadable, not UTF-8). -/
def FsTree.readText (d : FsTree) (loc : List Str) : Option Str :=
  match d.lookup loc with
  | some (.file text) => text
  | _ => none

/-- `fs::write`; `none` is an error. -/
def FsTree.writeFile (d : FsTree) (loc : List Str) (text : Str) : Option FsTree :=
  match d.lookup loc with
  | some (.file _) => some (d.place loc (.file (some text)))
  | some _ => none
  | none =>
    match d.lookup loc.dropLast with
    | some (.dir (some _)) => some (d.place loc (.file (some text)))
    | _ => none

/-- `fs::remove_file`; `none` is an error. -/
def FsTree.removeFile (d : FsTree) (loc : List Str) : Option FsTree :=
  match d.lookup loc with
  | some (.file _) => some (d.remove loc)
  | some .other => some (d.remove loc)
  | _ => none

/-- One step down a path from an existing directory. -/
def stepFrom (loc : List Str) : PathComp → List Str
  | .rootDir => []
  | .curDir => loc
  | .parentDir => loc.dropLast
  | .normal n => loc ++ [n]

/-- The place a path leads to, starting from a directory, when every directory on the way exists.
`PathBuf::join` with an absolute path starts at the root, as the root component does here. -/
def FsTree.resolve (d : FsTree) : List Str → List PathComp → Option (List Str)
  | loc, [] => some loc
  | _, .rootDir :: cs => d.resolve [] cs
  | loc, c :: cs =>
    match d.lookup loc with
    | some (.dir _) => d.resolve (stepFrom loc c) cs
    | _ => none

/-- The place a path leads to once the missing directories on the way are created. -/
def lexicalPlace (loc : List Str) (cs : List PathComp) : List Str := cs.foldl stepFrom loc

/-- The place on which an operation on `base.join(path)` acts. -/
def FsTree.placeOf (d : FsTree) (base : List Str) (path : Str) : List Str :=
  match d.resolve base (pathComponents path) with
  | some loc => loc
  | none => lexicalPlace base (pathComponents path)

/-- The text of an absolute path. -/
def placeText (loc : List Str) : Str := '/' :: joinWith ['/'] loc

end Firm
