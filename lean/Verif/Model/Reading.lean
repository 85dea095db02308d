import Verif.Model.Cli
import Verif.Model.QueryText

/-!
# The tools that only read

Rust sources: `/repo/firm_mcp/src/tools/{list,get,related,find_source,query}.rs` and
`/repo/firm_cli/src/commands/{list,get,related}.rs`. Texts of errors are left out; an entity or schema
in a reply stands for its printed form.
-/

namespace Firm

/-- `list` — tools/list.rs:17-38. -/
def listTool (b : WorkspaceBuild) (type : Str) : Str :=
  if type = "schema".toList then joinWith ['\n'] (b.schemas.map (·.entityType))
  else joinWith ['\n'] ((b.entities.filter fun e => decide (e.entityType = type)).map (·.id))

/-- What `get` shows. -/
inductive Item where
  | entity (e : Entity)
  | schema (s : EntitySchema)
  deriving DecidableEq, Repr, Inhabited

/-- `get` — tools/get.rs:20-46; `none` is the error. -/
def getTool (T : CaseTable) (b : WorkspaceBuild) (type id : Str) : Option Item :=
  if type = "schema".toList then (b.schemas.find? fun s => decide (s.entityType = id)).map .schema
  else (b.entities.find? fun e => decide (e.id = T.composeEntityId type id)).map .entity

/-- The reply of `related` for an entity without relations — tools/related.rs:50-59. -/
def noRelations (dir : Option Direction) : Str :=
  "No related entities found".toList ++
    (match dir with
    | some .incoming => " (incoming)".toList
    | some .outgoing => " (outgoing)".toList
    | none => []) ++ ".".toList

/-- `related` — tools/related.rs:45-71; `none` is the error. -/
def relatedTool (T : CaseTable) (g : Graph) (type id : Str) (dir : Option Direction) : Option Str :=
  match g.getRelated (T.composeEntityId type id) dir with
  | none => none
  | some [] => some (noRelations dir)
  | some es => some (joinWith ['\n'] (es.map (·.id)))

/-- `find_source` — tools/find_source.rs:23-55; `none` is the error. -/
def findSourceTool (ws : Str) (w : Workspace) (type id : Str) : Option Str :=
  (if type = "schema".toList then w.findSchemaSource id else w.findEntitySource type id).map
    fun path => (toRelativePath ws path).getD path

/-- `get_entity` of the command line — commands/get.rs:26-57. -/
def cliGetEntity (T : CaseTable) (g : Graph) (type id : Str) : Option Entity :=
  g.getEntity (T.composeEntityId type id)

/-- `list_entities` of the command line — commands/list.rs:24-44. -/
def cliListEntities (g : Graph) (type : Str) : List Str := (g.listByType type).map (·.id)

/-- `CliDirection` — firm_cli/src/query.rs:5-9. -/
inductive CliDirection where
  | to
  | from
  deriving DecidableEq, Repr, Inhabited

/-- Its conversion — firm_cli/src/query.rs:11-18. -/
def CliDirection.direction : CliDirection → Direction
  | .to => .incoming
  | .from => .outgoing

/-- `get_related_entities` of the command line — commands/related.rs:10-53. -/
def cliRelated (T : CaseTable) (g : Graph) (type id : Str) (dir : Option CliDirection) :
    Option (List Entity) :=
  g.getRelated (T.composeEntityId type id) (dir.map CliDirection.direction)

end Firm
