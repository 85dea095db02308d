import Verif.Model.Workspace
import Verif.Model.Init
import Verif.Model.Printed

/-!
# The texts of the errors of a build

`Workspace.build` of Model/Workspace.lean leaves the texts of its errors out. Here the same steps keep them.
`q` is `Debug` of a text (quotation marks and escapes). Paths are shown as they are. The logging is left out.
-/

namespace Firm

/-- `WorkspaceError` with its texts — workspace_errors.rs:9-14; `panic` as in `WorkspaceError`. -/
inductive BuildFault where
  | io (reason : Str)
  | parse (path reason : Str)
  | validation (path reason : Str)
  | missingSchema (path : Str) (t : EntityType)
  | panic
  deriving DecidableEq, Repr, Inhabited

/-- The error without its texts. -/
def BuildFault.kind : BuildFault → WorkspaceError
  | .io _ => .io
  | .parse path _ => .parse path
  | .validation path _ => .validation path
  | .missingSchema path t => .missingSchema path t
  | .panic => .panic

/-- `EntityConversionError` as text — conversion_errors.rs:12-29; a panic has none. -/
def entityErrorText : EntityConversionError → Str
  | .missingEntityType => "Entity is missing required type".toList
  | .missingEntityId => "Entity is missing required id".toList
  | .missingFieldId => "Entity field is missing required id".toList
  | .invalidFieldValue => "Entity field contains an invalid value".toList
  | .panic => []

/-- `SchemaConversionError` as text — conversion_errors.rs:41-61; a panic has none. -/
def schemaErrorText : SchemaConversionError → Str
  | .missingSchemaName => "Schema is missing required name".toList
  | .missingFieldName => "Schema field is missing required name".toList
  | .missingFieldType => "Schema field is missing required type".toList
  | .unknownFieldType t => "Unknown field type: '".toList ++ t ++ "'".toList
  | .panic => []

/-- The `message` of a `ValidationError` — validation_errors.rs:44-47, 60-63, 80-83, 101-107. -/
def violationText (v : ValidationError) : Str :=
  let id := v.entityId.getD []
  let f := v.field.getD []
  match v.errorType with
  | .mismatchedEntityType expected actual =>
    "Expected entity '".toList ++ id ++ "' to be of type '".toList ++ expected ++ "' but it was '".toList ++ actual ++
      "'".toList
  | .missingRequiredField required =>
    "Missing required field '".toList ++ required ++ "' for entity '".toList ++ id ++ "'".toList
  | .mismatchedFieldType expected actual =>
    "Expected field '".toList ++ f ++ "' for entity '".toList ++ id ++ "' to be of type '".toList ++
      showFieldType expected ++ "' but it was '".toList ++ showFieldType actual ++ "'".toList
  | .invalidEnumValue actual allowed =>
    "Invalid value '".toList ++ actual ++ "' for enum field '".toList ++ f ++ "' in entity '".toList ++ id ++
      "'. Expected one of: [".toList ++ joinWith ", ".toList allowed ++ "]".toList

/-- The derived `Debug` of an optional id — id.rs:10-11, validation_errors.rs:28-29. -/
def debugId (q : Str → Str) (name : String) : Option Str → Str
  | none => "None".toList
  | some s => "Some(".toList ++ name.toList ++ "(".toList ++ q s ++ "))".toList

/-- The derived `Debug` of `ValidationErrorType` — validation_errors.rs:4-23, field.rs:12-24. -/
def debugErrorType (q : Str → Str) : ValidationErrorType → Str
  | .mismatchedEntityType expected actual =>
    "MismatchedEntityType { expected: EntityType(".toList ++ q expected ++ "), actual: EntityType(".toList ++ q actual ++
      ") }".toList
  | .missingRequiredField required =>
    "MissingRequiredField { required: FieldId(".toList ++ q required ++ ") }".toList
  | .mismatchedFieldType expected actual =>
    "MismatchedFieldType { expected: ".toList ++ showFieldType expected ++ ", actual: ".toList ++
      showFieldType actual ++ " }".toList
  | .invalidEnumValue actual allowed =>
    "InvalidEnumValue { actual: ".toList ++ q actual ++ ", allowed: [".toList ++
      joinWith ", ".toList (allowed.map q) ++ "] }".toList

/-- The derived `Debug` of `ValidationError` — validation_errors.rs:26-32. -/
def debugViolation (q : Str → Str) (v : ValidationError) : Str :=
  "ValidationError { entity_id: ".toList ++ debugId q "EntityId" v.entityId ++ ", field: ".toList ++
    debugId q "FieldId" v.field ++ ", message: ".toList ++ q (violationText v) ++ ", error_type: ".toList ++
    debugErrorType q v.errorType ++ " }".toList

/-- The text of a failed validation — workspace/build.rs:81-84. -/
def invalidText (q : Str → Str) (id : EntityId) (vs : List ValidationError) : Str :=
  "Entity '".toList ++ id ++ "' failed validation: [".toList ++ joinWith ", ".toList (vs.map (debugViolation q)) ++
    "]".toList

/-- The schemas of one file in the first pass — workspace/build.rs:44-57. -/
def addSchemasT (L : Lang) (path rel : Str) :
    List (EntityType × EntitySchema) → List Node → Except BuildFault (List (EntityType × EntitySchema))
  | m, [] => .ok m
  | m, n :: ns =>
    match toSchema L rel n with
    | .error .panic => .error .panic
    | .error e => .error (.parse path (schemaErrorText e))
    | .ok s =>
      if (mapGet m s.entityType).isSome then .error (.validation path "Stuff".toList)
      else addSchemasT L path rel (mapInsert m s.entityType s) ns

/-- First pass — workspace/build.rs:43-58. -/
def schemaPassT (L : Lang) : List (EntityType × EntitySchema) → Workspace →
    Except BuildFault (List (EntityType × EntitySchema))
  | m, [] => .ok m
  | m, (path, f) :: fs =>
    match addSchemasT L path f.rel m f.schemas with
    | .error e => .error e
    | .ok m => schemaPassT L m fs

/-- One entity of the second pass — workspace/build.rs:70-86. -/
def checkEntityT (q : Str → Str) (L : Lang) (schemas : List (EntityType × EntitySchema)) (path rel : Str) (n : Node) :
    Except BuildFault Entity :=
  match toEntity L rel n with
  | .error .panic => .error .panic
  | .error e => .error (.parse path (entityErrorText e))
  | .ok e =>
    match mapGet schemas e.entityType with
    | none => .error (.missingSchema path e.entityType)
    | some s =>
      match s.validate L.env e with
      | .error vs => .error (.validation path (invalidText q e.id vs))
      | .ok _ => .ok e

/-- Second pass — workspace/build.rs:65-92. -/
def entityPassT (q : Str → Str) (L : Lang) (schemas : List (EntityType × EntitySchema)) : Workspace →
    Except BuildFault (List Entity)
  | [] => .ok []
  | (path, f) :: fs =>
    match collectResults (checkEntityT q L schemas path f.rel) f.entities with
    | .error e => .error e
    | .ok es =>
      match entityPassT q L schemas fs with
      | .error e => .error e
      | .ok rest => .ok (es ++ rest)

/-- `Workspace::build` — workspace/build.rs:21-96. -/
def Workspace.buildT (q : Str → Str) (L : Lang) (w : Workspace) : Except BuildFault WorkspaceBuild :=
  match schemaPassT L [] w with
  | .error e => .error e
  | .ok m =>
    match entityPassT q L m w with
    | .error e => .error e
    | .ok es => .ok ⟨es, m.map (·.2)⟩

/-- `is_default_schema_type` — workspace_errors.rs:58-62. -/
def isDefaultSchemaType (L : Lang) (t : EntityType) : Bool := (defaultSchemas L).any fun s => s.entityType == t

/-- `WorkspaceError` as text — workspace_errors.rs:16-55; a panic has none. -/
def faultText (L : Lang) : BuildFault → Str
  | .io reason => "There was a problem reading workspace files: ".toList ++ reason
  | .parse path reason => "Workspace file at ".toList ++ path ++ " could not be parsed: ".toList ++ reason
  | .validation path reason => "Workspace file at ".toList ++ path ++ " was invalid: ".toList ++ reason
  | .missingSchema path t =>
    if isDefaultSchemaType L t then
      "No schema found for entity type '".toList ++ t ++ "' in ".toList ++ path ++ ("\n\nRun 'firm init' to create " ++
        "default schemas, or define your own schema in your workspace.").toList
    else
      "No schema found for entity type '".toList ++ t ++ "' in ".toList ++ path ++
        "\n\nDefine a schema for this type in your workspace.".toList
  | .panic => []

end Firm
