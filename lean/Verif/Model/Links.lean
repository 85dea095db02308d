import Verif.Model.Mcp

/-!
# Disks with symbolic links

Rust sources: the calls of `std::fs` and `std::path` made by `/repo/firm_mcp/src/resources.rs`,
`/repo/firm_mcp/src/tools/{write,delete,replace}_source.rs`, `/repo/firm_mcp/src/server.rs` and
`/repo/firm_lang/src/workspace/io.rs`, on a disk that may contain symbolic links.

In the tree (Model/Disk.lean) a link is something that is neither a file nor a directory; its text is kept
beside the tree. Paths are followed as the kernel does (`path_resolution(7)`): a link is replaced by its
text, and following more than `limit` links (40 on Linux) is an error. As on the disk without links,
operations fail only because of the shape of the tree.
-/

namespace Firm

/-- A disk with symbolic links. -/
structure LinkDisk where
  tree : FsTree
  /-- The texts of the links, by their places. -/
  links : List (List Str × Str)
  /-- How many links the kernel follows for one path. -/
  limit : Nat

/-- The text of the link at a place. -/
def LinkDisk.linkAt (D : LinkDisk) (loc : List Str) : Option Str :=
  match D.tree.lookup loc with
  | some .other => (D.links.find? fun p => decide (p.1 = loc)).map (·.2)
  | _ => none

/-- Follows a path from a directory. The last part need not exist, but everything before must be a
directory. `follow` goes on behind a link, `left` is the number of links that may still be followed. -/
def LinkDisk.walkWith (D : LinkDisk) (follow : List Str → List PathComp → Option (List Str × Nat)) (left : Nat) :
    List Str → List PathComp → Option (List Str × Nat)
  | loc, [] => some (loc, left)
  | _, .rootDir :: cs => D.walkWith follow left [] cs
  | loc, c :: cs =>
    match D.tree.lookup loc with
    | some (.dir _) =>
      match D.linkAt (stepFrom loc c) with
      | some text => follow loc (pathComponents text ++ cs)
      | none => D.walkWith follow left (stepFrom loc c) cs
    | _ => none

/-- Follows a path and at most `left` links: the place, and how many links may still be followed. -/
def LinkDisk.walk (D : LinkDisk) : Nat → List Str → List PathComp → Option (List Str × Nat)
  | 0 => D.walkWith (fun _ _ => none) 0
  | left + 1 => D.walkWith (D.walk left) (left + 1)

/-- The place to which an absolute path leads, given by its components. -/
def LinkDisk.find (D : LinkDisk) (cs : List PathComp) : Option (List Str) :=
  (D.walk D.limit [] cs).map (·.1)

/-- `Path::exists` and `Path::canonicalize`. -/
def LinkDisk.real (D : LinkDisk) (cs : List PathComp) : Option (List Str) :=
  (D.find cs).bind fun loc => if (D.tree.lookup loc).isSome then some loc else none

/-- The components of the absolute path of a place. -/
def placeComps (loc : List Str) : List PathComp := .rootDir :: loc.map .normal

/-- `fs::read_to_string`. -/
def LinkDisk.readText (D : LinkDisk) (cs : List PathComp) : Option Str := (D.find cs).bind D.tree.readText

/-- `fs::write`: follows a link that leads nowhere and creates its target. -/
def LinkDisk.writeFile (D : LinkDisk) (cs : List PathComp) (text : Str) : Option LinkDisk :=
  (D.find cs).bind fun loc => (D.tree.writeFile loc text).map fun t => { D with tree := t }

/-- `fs::remove_file`: the last part of the path is not followed. -/
def LinkDisk.removeFile (D : LinkDisk) (cs : List PathComp) : Option LinkDisk :=
  match cs.getLast? with
  | some (.normal n) =>
    (D.real cs.dropLast).bind fun loc => (D.tree.removeFile (loc ++ [n])).map fun t =>
      { D with tree := t, links := D.links.filter fun p => decide (p.1 ≠ loc ++ [n]) }
  | _ => none

/-- `mkdir`: the last part of the path is not followed. -/
def LinkDisk.mkdir (D : LinkDisk) (parent : List PathComp) : PathComp → Option LinkDisk
  | .normal n =>
    (D.real parent).bind fun loc =>
      match D.tree.lookup loc, D.tree.lookup (loc ++ [n]) with
      | some (.dir (some _)), none => some { D with tree := D.tree.place (loc ++ [n]) (.dir (some [])) }
      | _, _ => none
  | _ => none

/-- `fs::create_dir_all`, for the components in reverse order: what exists must be a directory, otherwise
the parent is created first. -/
def LinkDisk.createAll (D : LinkDisk) : List PathComp → Option LinkDisk
  | [] => some D
  | c :: cs =>
    match D.real (c :: cs).reverse with
    | some loc =>
      match D.tree.lookup loc with
      | some (.dir _) => some D
      | _ => none
    | none => (D.createAll cs).bind fun D1 => D1.mkdir cs.reverse c

/-! ## resources.rs -/

/-- `to_absolute_path` — resources.rs:62-87: the components of the resulting path. -/
def LinkDisk.toAbsolute (D : LinkDisk) (ws : List Str) (rel : Str) : Option (List PathComp) :=
  match D.real (joinComps ws rel) with
  | some loc =>
    (D.real (placeComps ws)).bind fun base => if base.isPrefixOf loc then some (placeComps loc) else none
  | none => if strContains rel "..".toList then none else some (joinComps ws rel)

/-- `Path::extension` is `firm`. -/
def firmComps (cs : List PathComp) : Bool :=
  match cs.getLast? with
  | some (.normal n) => isFirmFile n
  | _ => false

/-- `read_source_file` — resources.rs:90-103. -/
def LinkDisk.readSource (D : LinkDisk) (ws : List Str) (rel : Str) : Option Str :=
  (D.toAbsolute ws rel).bind fun cs =>
    (D.real cs).bind fun _ => if firmComps cs then D.readText cs else none

/-- `write_source_file` — resources.rs:109-132: the disk afterwards and whether it succeeded. -/
def LinkDisk.writeSource (D : LinkDisk) (ws : List Str) (rel content : Str) : LinkDisk × Bool :=
  if endsWith rel ".firm".toList then
    match D.toAbsolute ws rel with
    | none => (D, false)
    | some cs =>
      match D.createAll cs.dropLast.reverse with
      | none => (D, false)
      | some D1 =>
        match D1.writeFile cs content with
        | none => (D1, false)
        | some D2 => (D2, true)
  else (D, false)

/-! ## The tools -/

/-- `validate_and_write` — write_source.rs:45-84: the disk afterwards and, on success, the original
content kept for rollback. -/
def LinkDisk.validateAndWrite (H : Host) (D : LinkDisk) (path content : Str) : LinkDisk × Option (Option Str) :=
  if H.accepts content then
    match D.writeSource H.ws path content with
    | (D', true) => (D', some (D.readText (joinComps H.ws path)))
    | (D', false) => (D', none)
  else (D, none)

/-- `rollback` — write_source.rs:87-97. -/
def LinkDisk.rollbackWrite (D : LinkDisk) (ws : List Str) (path : Str) : Option Str → LinkDisk
  | some original => (D.writeFile (joinComps ws path) original).getD D
  | none => (D.removeFile (joinComps ws path)).getD D

/-- `execute` — delete_source.rs:34-56: the disk afterwards and the content of the deleted file. -/
def LinkDisk.deleteExecute (D : LinkDisk) (ws : List Str) (path : Str) : Option (LinkDisk × Str) :=
  if endsWith path ".firm".toList then
    (D.toAbsolute ws path).bind fun cs => (D.readText cs).bind fun original =>
      (D.removeFile cs).map fun D' => (D', original)
  else none

/-- `rollback` — delete_source.rs:59-67. -/
def LinkDisk.rollbackDelete (D : LinkDisk) (ws : List Str) (path content : Str) : LinkDisk :=
  match D.createAll (joinComps ws path).dropLast.reverse with
  | none => D
  | some D1 => (D1.writeFile (joinComps ws path) content).getD D1

/-- `execute` — replace_source.rs:51-92. -/
def LinkDisk.replaceExecute (D : LinkDisk) (ws : List Str) (path old new : Str) (all : Bool) : Option (Str × Nat) :=
  if old = [] then none else (D.readSource ws path).bind fun content => replaceText content old new all

/-! ## Loading -/

/-- What `load_directory_recursive` does with a directory entry that may be a link — workspace/io.rs:49-53:
`is_dir` and `is_file` follow links. `follow` loads a directory behind links. -/
def LinkDisk.loadLink (D : LinkDisk) (grammar : Str → Node) (base : Str)
    (follow : Nat → Workspace → List Str → Str → FsTree → Workspace × Except WorkspaceError Unit)
    (left : Nat) (w : Workspace) (loc : List Str) (path name : Str) : Workspace × Except WorkspaceError Unit :=
  match D.walk left loc [.normal name] with
  | none => (w, .ok ())
  | some (l, k) =>
    match D.tree.lookup l with
    | some (.dir d) => follow k w l (joinPath path name) (.dir d)
    | some (.file text) =>
      if isFirmFile name then w.loadFile grammar (joinPath path name) base text else (w, .ok ())
    | _ => (w, .ok ())

mutual
/-- `load_directory_recursive` — workspace/io.rs:38-57, for the directory at `loc`, which was reached by
`path`; `left` more links may be followed behind it. -/
def LinkDisk.loadTree (D : LinkDisk) (grammar : Str → Node) (base : Str)
    (follow : Nat → Workspace → List Str → Str → FsTree → Workspace × Except WorkspaceError Unit)
    (left : Nat) (w : Workspace) (loc : List Str) (path : Str) : FsTree → Workspace × Except WorkspaceError Unit
  | .dir none => (w, .error .io)
  | .dir (some es) => LinkDisk.loadEntries D grammar base follow left w loc path es
  | _ => (w, .error .io)
/-- The loop over the directory entries — workspace/io.rs:45-54. -/
def LinkDisk.loadEntries (D : LinkDisk) (grammar : Str → Node) (base : Str)
    (follow : Nat → Workspace → List Str → Str → FsTree → Workspace × Except WorkspaceError Unit)
    (left : Nat) (w : Workspace) (loc : List Str) (path : Str) :
    List (Str × FsTree) → Workspace × Except WorkspaceError Unit
  | [] => (w, .ok ())
  | (name, .dir d) :: es =>
    match LinkDisk.loadTree D grammar base follow left w (loc ++ [name]) (joinPath path name) (.dir d) with
    | (w, .ok _) => LinkDisk.loadEntries D grammar base follow left w loc path es
    | r => r
  | (name, .file text) :: es =>
    if isFirmFile name then
      match w.loadFile grammar (joinPath path name) base text with
      | (w, .ok _) => LinkDisk.loadEntries D grammar base follow left w loc path es
      | r => r
    else LinkDisk.loadEntries D grammar base follow left w loc path es
  | (name, .other) :: es =>
    match D.loadLink grammar base follow left w loc path name with
    | (w, .ok _) => LinkDisk.loadEntries D grammar base follow left w loc path es
    | r => r
end

/-- The recursion through links; each one followed leaves fewer, so the number bounds its depth. -/
def LinkDisk.loadAt (D : LinkDisk) (grammar : Str → Node) (base : Str) :
    Nat → Nat → Workspace → List Str → Str → FsTree → Workspace × Except WorkspaceError Unit
  | 0 => D.loadTree grammar base fun _ w _ _ _ => (w, .error .io)
  | n + 1 => D.loadTree grammar base (D.loadAt grammar base n)

/-- `Workspace::load_directory` — workspace/io.rs:33-35. -/
def LinkDisk.loadDirectory (D : LinkDisk) (grammar : Str → Node) (ws : List Str) :
    Workspace × Except WorkspaceError Unit :=
  match D.walk D.limit [] (placeComps ws) with
  | none => ([], .error .io)
  | some (loc, left) =>
    match D.tree.lookup loc with
    | none => ([], .error .io)
    | some t => D.loadAt grammar (placeText ws) D.limit left [] loc (placeText ws) t

/-! ## server.rs -/

/-- The server together with a disk with links. -/
structure LinkServer where
  disk : LinkDisk
  state : ServerState

/-- `rebuild` — server.rs:504-530. -/
def LinkDisk.rebuild (H : Host) (order : Workspace → Workspace) (D : LinkDisk) : Except WorkspaceError ServerState :=
  match D.loadDirectory H.grammar H.ws with
  | (_, .error e) => .error e
  | (w, .ok _) =>
    match (order w).build H.lang with
    | .error e => .error e
    | .ok b =>
      match b.toGraph with
      | (_, .error _) => .error (.validation (placeText H.ws))
      | (g, .ok _) => .ok ⟨order w, b, g⟩

/-- `write_source` — server.rs:245-296. -/
def LinkServer.write (H : Host) (order : Workspace → Workspace) (s : LinkServer) (path content : Str)
    (force : Bool) : LinkServer × Reply :=
  match s.disk.validateAndWrite H path content with
  | (D, none) => (⟨D, s.state⟩, .error)
  | (D, some original) =>
    match D.rebuild H order with
    | .ok st => (⟨D, st⟩, .success)
    | .error _ =>
      if force then (⟨D, s.state⟩, .warning)
      else (⟨D.rollbackWrite H.ws path original, s.state⟩, .error)

/-- `delete_source` — server.rs:302-337. -/
def LinkServer.delete (H : Host) (order : Workspace → Workspace) (s : LinkServer) (path : Str)
    (force : Bool) : LinkServer × Reply :=
  match s.disk.deleteExecute H.ws path with
  | none => (s, .error)
  | some (D, original) =>
    match D.rebuild H order with
    | .ok st => (⟨D, st⟩, .success)
    | .error _ =>
      if force then (⟨D, s.state⟩, .warning)
      else (⟨D.rollbackDelete H.ws path original, s.state⟩, .error)

/-- `replace_source` — server.rs:344-408. -/
def LinkServer.replace (H : Host) (order : Workspace → Workspace) (s : LinkServer) (path old new : Str)
    (all force : Bool) : LinkServer × Reply :=
  match s.disk.replaceExecute H.ws path old new all with
  | none => (s, .error)
  | some (content, _) => s.write H order path content force

/-- `build` — server.rs:414-430. -/
def LinkServer.build (H : Host) (order : Workspace → Workspace) (s : LinkServer) : LinkServer × Reply :=
  match s.disk.rebuild H order with
  | .ok st => (⟨s.disk, st⟩, .success)
  | .error _ => (s, .error)

/-- The requests that change source files, and `build`. `add_entity` is added in Model/LinkAdd.lean. -/
inductive Edit where
  | write (path content : Str) (force : Bool)
  | delete (path : Str) (force : Bool)
  | replace (path old new : Str) (all force : Bool)
  | build

/-- One of these requests, processed alone. -/
def LinkServer.edit (H : Host) (order : Workspace → Workspace) (s : LinkServer) : Edit → LinkServer × Reply
  | .write path content force => s.write H order path content force
  | .delete path force => s.delete H order path force
  | .replace path old new all force => s.replace H order path old new all force
  | .build => s.build H order

/-- Several of them, one after the other; each load has its own order. -/
def LinkServer.edits (H : Host) (s : LinkServer) : List ((Workspace → Workspace) × Edit) → LinkServer × List Reply
  | [] => (s, [])
  | (order, e) :: es =>
    (((s.edit H order e).1.edits H es).1, (s.edit H order e).2 :: ((s.edit H order e).1.edits H es).2)

end Firm
