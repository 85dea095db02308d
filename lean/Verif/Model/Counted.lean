import Verif.Model.Mcp

/-!
# What a build says

Rust sources: `/repo/firm_lang/src/workspace/build.rs` with its progress callback, and the reply of the server's
`build` tool, `/repo/firm_mcp/src/tools/build.rs`.
-/

namespace Firm

/-- One call of the callback: `progress(files_to_process, files_processed, phase)`. -/
structure Progress where
  total : Nat
  done : Nat
  phase : Str
  deriving DecidableEq, Repr, Inhabited

/-- Second pass with the calls of `progress` — workspace/build.rs:61-92: one before every file, none after the
last one. `done` is `files_processed`. -/
def entityPassP (L : Lang) (schemas : List (EntityType × EntitySchema)) (total : Nat) : Nat → Workspace →
    List Progress × Except WorkspaceError (List Entity)
  | _, [] => ([], .ok [])
  | done, (path, f) :: fs =>
    let call : Progress := ⟨total, done, "Building entities".toList⟩
    match collectResults (checkEntity L schemas path f.rel) f.entities with
    | .error e => ([call], .error e)
    | .ok es =>
      match entityPassP L schemas total (done + 1) fs with
      | (calls, .error e) => (call :: calls, .error e)
      | (calls, .ok rest) => (call :: calls, .ok (es ++ rest))

/-- `build_with_progress` — workspace/build.rs:28-96. The first pass calls once, before it starts. -/
def Workspace.buildP (L : Lang) (w : Workspace) : List Progress × Except WorkspaceError WorkspaceBuild :=
  let call : Progress := ⟨w.length, 0, "Building schemas".toList⟩
  match schemaPass L [] w with
  | .error e => ([call], .error e)
  | .ok m =>
    match entityPassP L m w.length 0 w with
    | (calls, .error e) => (call :: calls, .error e)
    | (calls, .ok es) => (call :: calls, .ok ⟨es, m.map (·.2)⟩)

/-- The line that `Workspace::build` logs for a call — workspace/build.rs:21-25. The closure takes its parameters in
the order `current, total, phase` and is called with `total, current, phase`. -/
def progressLine (p : Progress) : Str :=
  p.phase ++ ": ".toList ++ showNat p.total ++ "/".toList ++ showNat p.done

/-- `success_result` — tools/build.rs:12-17. -/
def buildReport (entities schemas : Nat) : Str :=
  "Workspace is valid. ".toList ++ showNat entities ++ " entities, ".toList ++ showNat schemas ++ " schemas.".toList

/-- `build` with the text of a success — server.rs:414-430; `buildTool` gives the kind of the reply only. The error
is the one that `error_result` — tools/build.rs:20-25 — puts into its text. -/
def buildToolText (H : Host) (order : Workspace → Workspace) (s : Server) : Server × Except WorkspaceError Str :=
  match rebuild H order s.disk with
  | .ok st => (⟨s.disk, st⟩, .ok (buildReport st.build.entities.length st.build.schemas.length))
  | .error e => (s, .error e)

end Firm
