import Verif.Model.Refusal

/-!
# Requests that crash

Rust sources: `/repo/firm_mcp/src/server.rs`.

`Model/Mcp.lean` takes a crash while the workspace is rebuilt for an error of `rebuild`, after which the tools undo what they
wrote. In fact a panic unwinds the whole request: nothing is undone and no reply is sent. The lock is released (tokio's mutex is
not poisoned) and the server goes on; that it goes on is an assumption about `rmcp`, which runs every request in a task of its
own.
-/

namespace Firm

/-- What the client sees of a request. -/
inductive Outcome where
  | reply (r : Reply)
  /-- The request panicked: no reply. -/
  | lost
  deriving DecidableEq, Repr, Inhabited

/-- The part of `write_source` and `replace_source` from the writing on — server.rs:257-295, 368-407. -/
def writeOutcome (H : Host) (order : Workspace → Workspace) (s : Server) (path content : Str) (force : Bool) :
    Server × Outcome :=
  match validateAndWrite H s.disk path content with
  | (d, none) => (⟨d, s.state⟩, .reply .error)
  | (d, some original) =>
    match rebuild H order d with
    | .ok st => (⟨d, st⟩, .reply .success)
    | .error .panic => (⟨d, s.state⟩, .lost)
    | .error _ =>
      if force then (⟨d, s.state⟩, .reply .warning)
      else (⟨rollbackWrite d H.ws path original, s.state⟩, .reply .error)

/-- `delete_source` — server.rs:302-337. -/
def deleteOutcome (H : Host) (order : Workspace → Workspace) (s : Server) (path : Str) (force : Bool) : Server × Outcome :=
  match deleteExecute s.disk H.ws path with
  | none => (s, .reply .error)
  | some (d, original) =>
    match rebuild H order d with
    | .ok st => (⟨d, st⟩, .reply .success)
    | .error .panic => (⟨d, s.state⟩, .lost)
    | .error _ =>
      if force then (⟨d, s.state⟩, .reply .warning)
      else (⟨rollbackDelete d H.ws path original, s.state⟩, .reply .error)

/-- `replace_source` — server.rs:344-408, replace_source.rs:51-92: the wording of a refusal may panic too. -/
def replaceOutcomeOf (H : Host) (order : Workspace → Workspace) (s : Server) (path old new : Str) (all force : Bool) :
    Server × Outcome :=
  if old = [] then (s, .reply .error)
  else
    match readSourceFile s.disk H.ws path with
    | none => (s, .reply .error)
    | some text =>
      match replaceOutcome text path old new all with
      | .crash => (s, .lost)
      | .refused _ => (s, .reply .error)
      | .replaced content _ => writeOutcome H order s path content force

/-- `add_entity` — server.rs:188-208. -/
def addOutcome (H : Host) (order : Workspace → Workspace) (s : Server) (p : AddParams) : Server × Outcome :=
  match addExecute H s p with
  | (d, false) => (⟨d, s.state⟩, .reply .error)
  | (d, true) =>
    match rebuild H order d with
    | .ok st => (⟨d, st⟩, .reply .success)
    | .error .panic => (⟨d, s.state⟩, .lost)
    | .error _ => (⟨d, s.state⟩, .reply .warning)

/-- `build` — server.rs:414-430. -/
def buildOutcome (H : Host) (order : Workspace → Workspace) (s : Server) : Server × Outcome :=
  match rebuild H order s.disk with
  | .ok st => (⟨s.disk, st⟩, .reply .success)
  | .error .panic => (s, .lost)
  | .error _ => (s, .reply .error)

/-- One request, processed alone, with what a panic does. -/
def Server.outcome (H : Host) (order : Workspace → Workspace) (s : Server) : Request → Server × Outcome
  | .write path content force => writeOutcome H order s path content force
  | .delete path force => deleteOutcome H order s path force
  | .replace path old new all force => replaceOutcomeOf H order s path old new all force
  | .add p => addOutcome H order s p
  | .build => buildOutcome H order s

end Firm
