import Verif.Model.Mcp

/-!
# Requests that are interrupted

Rust sources: the calls of `std::fs` made by `/repo/firm_mcp/src/resources.rs` and
`/repo/firm_mcp/src/tools/{write,delete,replace}_source.rs`, `add_entity.rs`, in the order in which they change the disk.

`Model/Mcp.lean` takes every call as done at once. Here a request is the list of its calls, and the process may be
stopped (killed, out of power) between two calls or inside one: `create_dir_all` makes one directory after the other,
`fs::write` empties the file and then writes byte after byte, an append writes byte after byte behind what is there.
Removing a file is one step. What the kernel had accepted is taken to be on the disk.
-/

namespace Firm

/-- A call that changes the disk. -/
inductive FsOp where
  /-- `fs::create_dir_all`. -/
  | mkdirs (loc : List Str)
  /-- `fs::write`. -/
  | write (loc : List Str) (text : Str)
  /-- `File::options().create(true).append(true).open(…)` and `write_all` — add_entity.rs:151-159. -/
  | append (loc : List Str) (text : Str)
  /-- `fs::remove_file`. -/
  | remove (loc : List Str)
  deriving DecidableEq

/-- The call done completely; `none` is an error, which leaves the disk as it was. -/
def FsOp.run (d : FsTree) : FsOp → Option FsTree
  | .mkdirs loc => d.createDirAll loc
  | .write loc text => d.writeFile loc text
  | .append loc text => d.writeFile loc ((d.readText loc).getD [] ++ text)
  | .remove loc => d.removeFile loc

/-- The first `k` bytes of a text, `none` when they end inside a character and so are no text. -/
def firstBytes : Nat → Str → Option Str
  | 0, _ => some []
  | _ + 1, [] => some []
  | k + 1, c :: s => if c.utf8Size ≤ k + 1 then (firstBytes (k + 1 - c.utf8Size) s).map (c :: ·) else none

/-- The disk when the process stops inside a call: after `k` directories or after `k` bytes. -/
def FsOp.cut (d : FsTree) (k : Nat) : FsOp → FsTree
  | .mkdirs loc =>
    match d.createDirAll loc with
    | none => d
    | some _ => (d.createDirAll (loc.take k)).getD d
  | .write loc text =>
    match d.writeFile loc text with
    | none => d
    | some _ => d.place loc (.file (firstBytes k text))
  | .append loc text =>
    match d.writeFile loc ((d.readText loc).getD [] ++ text) with
    | none => d
    | some _ => d.place loc (.file ((firstBytes k text).map ((d.readText loc).getD [] ++ ·)))
  | .remove _ => d

/-- The calls one after the other; a failed call changes nothing. -/
def runOps (d : FsTree) : List FsOp → FsTree
  | [] => d
  | op :: ops => runOps ((op.run d).getD d) ops

/-- The disks at which a list of calls can stop: before a call, inside one, after the last. -/
inductive StopsAt : FsTree → List FsOp → FsTree → Prop
  | here (d : FsTree) (ops : List FsOp) : StopsAt d ops d
  | inside (d : FsTree) (op : FsOp) (ops : List FsOp) (k : Nat) : StopsAt d (op :: ops) (op.cut d k)
  | later {d d' : FsTree} {op : FsOp} {ops : List FsOp} : StopsAt ((op.run d).getD d) ops d' → StopsAt d (op :: ops) d'

/-- The calls of `write_source` — server.rs:245-296, write_source.rs:45-97, resources.rs:109-132. -/
def writeOps (H : Host) (order : Workspace → Workspace) (d : FsTree) (path content : Str) (force : Bool) : List FsOp :=
  if H.accepts content then
    if endsWith path ".firm".toList then
      match toAbsolutePath d H.ws path with
      | none => []
      | some loc =>
        match d.createDirAll loc.dropLast with
        | none => [.mkdirs loc.dropLast]
        | some d1 =>
          match d1.writeFile loc content with
          | none => [.mkdirs loc.dropLast, .write loc content]
          | some d2 =>
            [.mkdirs loc.dropLast, .write loc content] ++
              match rebuild H order d2 with
              | .ok _ => []
              | .error _ =>
                if force then []
                else
                  match d.readText (d.placeOf H.ws path) with
                  | some original => [.write (d2.placeOf H.ws path) original]
                  | none => [.remove (d2.placeOf H.ws path)]
    else []
  else []

/-- The calls of `delete_source` — server.rs:302-337, delete_source.rs:34-67. -/
def deleteOps (H : Host) (order : Workspace → Workspace) (d : FsTree) (path : Str) (force : Bool) : List FsOp :=
  if endsWith path ".firm".toList then
    match toAbsolutePath d H.ws path with
    | none => []
    | some loc =>
      match d.readText loc with
      | none => []
      | some original =>
        match d.removeFile loc with
        | none => [.remove loc]
        | some d1 =>
          [.remove loc] ++
            match rebuild H order d1 with
            | .ok _ => []
            | .error _ =>
              if force then []
              else
                match d1.createDirAll (d1.placeOf H.ws path).dropLast with
                | none => [.mkdirs (d1.placeOf H.ws path).dropLast]
                | some _ => [.mkdirs (d1.placeOf H.ws path).dropLast, .write (d1.placeOf H.ws path) original]
  else []

/-- The calls of step 7 of `add_entity` — add_entity.rs:131-159. -/
def appendOps (d : FsTree) (loc : List Str) (dsl : Str) : List FsOp :=
  match d.createDirAll loc.dropLast with
  | none => [.mkdirs loc.dropLast]
  | some d1 =>
    match d1.lookup loc with
    | none => [.mkdirs loc.dropLast, .append loc dsl]
    | some _ =>
      match d1.readText loc with
      | none => [.mkdirs loc.dropLast]
      | some content => [.mkdirs loc.dropLast, .append loc (appendPrefix content ++ dsl)]

/-- The calls of a request. -/
def requestOps (H : Host) (order : Workspace → Workspace) (s : Server) : Request → List FsOp
  | .write path content force => writeOps H order s.disk path content force
  | .delete path force => deleteOps H order s.disk path force
  | .replace path old new all force =>
    match replaceExecute s.disk H.ws path old new all with
    | none => []
    | some (content, _) => writeOps H order s.disk path content force
  | .add p =>
    match entityToAdd H s.state p with
    | none => []
    | some e =>
      appendOps s.disk (s.disk.placeOf H.ws (p.toFile.getD (defaultTarget p.type))) (generateDsl H.lang .default [e])
  | .build => []

/-- The path a request writes to. -/
def Request.path : Request → Str
  | .write path _ _ => path
  | .delete path _ => path
  | .replace path _ _ _ _ => path
  | .add p => p.toFile.getD (defaultTarget p.type)
  | .build => []

end Firm
