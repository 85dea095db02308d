import Verif.Model.Links

/-!
# Adding entities on disks with symbolic links

Rust sources: `/repo/firm_mcp/src/tools/add_entity.rs` and `/repo/firm_mcp/src/server.rs`, on the disks of
Model/Links.lean. `create_dir_all` is the one defined there: it makes no directory whose path ends with two
dots, where the function of the standard library is content if such a directory has come into being.
-/

namespace Firm

/-- Step 7 of `execute` — add_entity.rs:131-159, for the components of the target path: the disk afterwards
and whether it succeeded. Opening a file for appending creates it when it does not exist, like `fs::write`. -/
def LinkDisk.appendDsl (D : LinkDisk) (cs : List PathComp) (dsl : Str) : LinkDisk × Bool :=
  match D.createAll cs.dropLast.reverse with
  | none => (D, false)
  | some D1 =>
    match D1.real cs with
    | none =>
      match D1.writeFile cs dsl with
      | none => (D1, false)
      | some D2 => (D2, true)
    | some _ =>
      match D1.readText cs with
      | none => (D1, false)
      | some content =>
        match D1.writeFile cs (content ++ (appendPrefix content ++ dsl)) with
        | none => (D1, false)
        | some D2 => (D2, true)

/-- `execute` — add_entity.rs:60-166. -/
def LinkServer.addExecute (H : Host) (s : LinkServer) (p : AddParams) : LinkDisk × Bool :=
  match entityToAdd H s.state p with
  | none => (s.disk, false)
  | some e =>
    s.disk.appendDsl (joinComps H.ws (p.toFile.getD (defaultTarget p.type))) (generateDsl H.lang .default [e])

/-- `add_entity` — server.rs:188-208. -/
def LinkServer.add (H : Host) (order : Workspace → Workspace) (s : LinkServer) (p : AddParams) :
    LinkServer × Reply :=
  match s.addExecute H p with
  | (D, false) => (⟨D, s.state⟩, .error)
  | (D, true) =>
    match D.rebuild H order with
    | .ok st => (⟨D, st⟩, .success)
    | .error _ => (⟨D, s.state⟩, .warning)

/-- One request, processed alone. -/
def LinkServer.handle (H : Host) (order : Workspace → Workspace) (s : LinkServer) : Request → LinkServer × Reply
  | .write path content force => s.write H order path content force
  | .delete path force => s.delete H order path force
  | .replace path old new all force => s.replace H order path old new all force
  | .add p => s.add H order p
  | .build => s.build H order

/-- Several of them, one after the other; each load has its own order. -/
def LinkServer.serve (H : Host) (s : LinkServer) : List ((Workspace → Workspace) × Request) → LinkServer × List Reply
  | [] => (s, [])
  | (order, r) :: rs =>
    (((s.handle H order r).1.serve H rs).1, (s.handle H order r).2 :: ((s.handle H order r).1.serve H rs).2)

end Firm
