import Verif.Model.Mcp

/-!
# Requests processed at the same time

The tools that write hold no lock between their steps (server.rs:188-430), so the steps of other requests
may come in between. What a tool does to the disk between two rebuilds is taken as one step, and a
rebuild reads the disk at one moment: `rebuild` holds the lock while it loads and stores
(server.rs:504-530), `add_entity` while it executes (server.rs:193-196).
-/

namespace Firm

/-- What a request remembers in order to take its change back: the original content that
`validate_and_write` returns (write_source.rs:31-36) or the one that `delete_source` returns
(delete_source.rs:23-28). -/
inductive Undo where
  | nothing
  | write (path : Str) (original : Option Str)
  | delete (path : Str) (original : Str)
  deriving DecidableEq, Repr, Inhabited

/-- Where a request is. `computed` is `replace_source` between reading and writing. -/
inductive Stage where
  | start
  | computed (content : Str)
  | changed (u : Undo)
  | failed (u : Undo)
  | done (r : Reply)
  deriving DecidableEq, Repr, Inhabited

/-- Both rollbacks — write_source.rs:87-97, delete_source.rs:59-67. -/
def rollback (H : Host) (d : FsTree) : Undo → FsTree
  | .nothing => d
  | .write path original => rollbackWrite d H.ws path original
  | .delete path original => rollbackDelete d H.ws path original

/-- Writing in `write_source` and `replace_source` — server.rs:258-262, 371-375. -/
def writeJob (H : Host) (s : Server) (path content : Str) : Server × Stage :=
  match validateAndWrite H s.disk path content with
  | (d, none) => (⟨d, s.state⟩, .done .error)
  | (d, some original) => (⟨d, s.state⟩, .changed (.write path original))

/-- What a request does when the rebuild has failed — server.rs:203 (`add_entity`), 274-293, 318-335,
386-405, 428 (`build`). -/
def afterFailure (u : Undo) : Request → Stage
  | .write _ _ force => if force then .done .warning else .failed u
  | .delete _ force => if force then .done .warning else .failed u
  | .replace _ _ _ _ force => if force then .done .warning else .failed u
  | .add _ => .done .warning
  | .build => .done .error

/-- The next step of a request — server.rs:188-208, 245-296, 302-337, 344-408, 414-430. `rb` is what
`rebuild` gives. -/
def jobStep (H : Host) (rb : FsTree → Except WorkspaceError ServerState) (r : Request) (s : Server) :
    Stage → Server × Stage
  | .start =>
    match r with
    | .write path content _ => writeJob H s path content
    | .delete path _ =>
      match deleteExecute s.disk H.ws path with
      | none => (s, .done .error)
      | some (d, original) => (⟨d, s.state⟩, .changed (.delete path original))
    | .replace path old new all _ =>
      match replaceExecute s.disk H.ws path old new all with
      | none => (s, .done .error)
      | some (content, _) => (s, .computed content)
    | .add p =>
      match addExecute H s p with
      | (d, false) => (⟨d, s.state⟩, .done .error)
      | (d, true) => (⟨d, s.state⟩, .changed .nothing)
    | .build => (s, .changed .nothing)
  | .computed content =>
    match r with
    | .replace path _ _ _ _ => writeJob H s path content
    | _ => (s, .done .error)
  | .changed u =>
    match rb s.disk with
    | .ok st => (⟨s.disk, st⟩, .done .success)
    | .error _ => (s, afterFailure u r)
  | .failed u => (⟨rollback H s.disk u, s.state⟩, .done .error)
  | .done reply => (s, .done reply)

/-- A server with the requests it is working on. -/
structure Busy where
  server : Server
  jobs : List (Request × Stage)

/-- A move: which request goes on, and what `rebuild` gives if it is called. -/
abbrev Move := Nat × (FsTree → Except WorkspaceError ServerState)

/-- One step of one request. -/
def Busy.step (H : Host) (x : Busy) (m : Move) : Busy :=
  match x.jobs[m.1]? with
  | none => x
  | some (r, st) => ⟨(jobStep H m.2 r x.server st).1, x.jobs.set m.1 (r, (jobStep H m.2 r x.server st).2)⟩

/-- The steps of a schedule. -/
def Busy.run (H : Host) (x : Busy) (sched : List Move) : Busy := sched.foldl (Busy.step H) x

/-- A server that has just received some requests. -/
def Busy.receive (s : Server) (reqs : List Request) : Busy := ⟨s, reqs.map fun r => (r, .start)⟩

/-- The place that a request can change: `to_absolute_path` (resources.rs:62-87), for `add_entity`
the target of add_entity.rs:84-91. -/
def Request.target (H : Host) : Request → Option (List Str)
  | .write path _ _ => some (lexicalPlace H.ws (pathComponents path))
  | .delete path _ => some (lexicalPlace H.ws (pathComponents path))
  | .replace path _ _ _ _ => some (lexicalPlace H.ws (pathComponents path))
  | .add p => some (lexicalPlace H.ws (pathComponents (p.toFile.getD (defaultTarget p.type))))
  | .build => none

end Firm
