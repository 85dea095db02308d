import Verif.Model.Init
import Verif.Model.Interrupted

/-!
# Setting up that is stopped

Rust sources: the calls of `std::fs` made by `/repo/firm_cli/src/commands/init.rs`, in the order in which they change the disk.

`Model/Init.lean` takes every call as done at once. Here the command may be stopped between two calls or inside one, as in
`Model/Interrupted.lean`. Every function below lists the calls of the function of `Model/Init.lean` whose name it has.
-/

namespace Firm

/-- The calls after a question. -/
def InitState.confirmOps (s : InitState) (q : Question) (k : Bool → InitState → List FsOp) : List FsOp :=
  match ask false (takeConfirm q.default) s.answers with
  | some (some b, rest) => k b ⟨s.disk, rest, s.log ++ [(q, b)]⟩
  | _ => []

/-- The calls after a line of text was entered. -/
def InitState.enterOps (s : InitState) (k : Str → InitState → List FsOp) : List FsOp :=
  match ask false (takeText some) s.answers with
  | some (some t, rest) => k t ⟨s.disk, rest, s.log⟩
  | _ => []

/-- The calls of a step and, unless there was an error, of the next. -/
def thenOps (ops : List FsOp) (r : InitState × Bool) (f : InitState → List FsOp) : List FsOp :=
  ops ++ if r.2 then f r.1 else []

/-- The loop of `create_default_schemas` — init.rs:182-190. `File::create` and `write_all` are one call here. -/
def writeSchemasOps (ws : List Str) : List EntitySchema → InitState → List FsOp
  | [], _ => []
  | sc :: scs, s =>
    thenOps [.write (schemaPlace ws sc.entityType) (generateSchema .default sc)]
      (s.write (schemaPlace ws sc.entityType) (generateSchema .default sc)) (writeSchemasOps ws scs)

/-- The second half of `create_default_schemas` — init.rs:177-197. -/
def makeSchemasOps (S : Shell) (s : InitState) : List FsOp :=
  .mkdirs (S.ws ++ ["schemas".toList]) ::
    match s.disk.createDirAll (S.ws ++ ["schemas".toList]) with
    | none => []
    | some d => writeSchemasOps S.ws (defaultSchemas S.lang) ⟨d, s.answers, s.log⟩

/-- `create_default_schemas` — init.rs:145-198. -/
def createDefaultSchemasOps (S : Shell) (s : InitState) : List FsOp :=
  if (defaultSchemas S.lang).any fun sc => (s.disk.lookup (schemaPlace S.ws sc.entityType)).isSome then
    s.confirmOps .overwriteSchemas fun b s => if b then makeSchemasOps S s else []
  else makeSchemasOps S s

/-- An existing `.gitignore` is extended — init.rs:213-241. -/
def extendGitignoreOps (S : Shell) (s : InitState) : List FsOp :=
  match s.disk.readText (S.ws ++ [".gitignore".toList]) with
  | none => []
  | some old =>
    match gitignoreAppended old with
    | none => []
    | some more => [.append (S.ws ++ [".gitignore".toList]) more]

/-- `create_or_update_gitignore` — init.rs:201-262. -/
def updateGitignoreOps (S : Shell) (s : InitState) : List FsOp :=
  if (s.disk.lookup (S.ws ++ [".gitignore".toList])).isSome then
    s.confirmOps .updateGitignore fun b s => if b then extendGitignoreOps S s else []
  else
    s.confirmOps .createGitignore fun b _ => if b then [.write (S.ws ++ [".gitignore".toList]) gitignoreEntries] else []

/-- The second half of `create_default_entities` — init.rs:102-141. -/
def makeEntitiesOps (S : Shell) (s : InitState) : List FsOp :=
  s.enterOps fun person s => s.enterOps fun org _ =>
    [.write (S.ws ++ ["main.firm".toList])
      (generateDsl S.lang .default [initEntity S "person" person, initEntity S "organization" org])]

/-- `create_default_entities` — init.rs:86-142. -/
def createDefaultEntitiesOps (S : Shell) (s : InitState) : List FsOp :=
  if (s.disk.lookup (S.ws ++ ["main.firm".toList])).isSome then
    s.confirmOps .overwriteMain fun b s => if b then makeEntitiesOps S s else []
  else makeEntitiesOps S s

/-- `create_ai_context` — init.rs:60-83. -/
def createContextOps (S : Shell) (template : Str) (s : InitState) : List FsOp :=
  if (s.disk.lookup (S.ws ++ ["AGENTS.md".toList])).isSome then
    s.confirmOps .overwriteContext fun b _ => if b then [.write (S.ws ++ ["AGENTS.md".toList]) template] else []
  else [.write (S.ws ++ ["AGENTS.md".toList]) template]

/-- `init_workspace` — init.rs:15-57. -/
def initOps (S : Shell) (template : Str) (s : InitState) : List FsOp :=
  s.confirmOps .schemas fun b s =>
    thenOps (if b then createDefaultSchemasOps S s else []) (if b then createDefaultSchemas S s else (s, true)) fun s =>
      thenOps (updateGitignoreOps S s) (updateGitignore S s) fun s =>
        s.confirmOps .entities fun b s =>
          thenOps (if b then createDefaultEntitiesOps S s else []) (if b then createDefaultEntities S s else (s, true)) fun s =>
            s.confirmOps .context fun b s => if b then createContextOps S template s else []

end Firm
