import Verif.Model.Literals
import Verif.Model.Schema
import Verif.Model.Filter

/-!
# From syntax trees to entities and schemas

Rust sources: `/repo/firm_lang/src/parser/dsl/` and `/repo/firm_lang/src/convert/{to_entity,to_schema}.rs`.
Tree-sitter's parser is outside the model: a concrete syntax tree is an input.
-/

namespace Firm

/-- A tree-sitter node: its kind, the source text it covers and its children (anonymous tokens
included). -/
inductive Node where
  | mk (kind text : Str) (children : List Node)
  deriving Repr, Inhabited

/-- `node.kind()`. -/
def Node.kind : Node → Str
  | .mk k _ _ => k
/-- `get_node_text` — parser_utils.rs:12-14. -/
def Node.text : Node → Str
  | .mk _ t _ => t
/-- `node.children(..)`. -/
def Node.children : Node → List Node
  | .mk _ _ cs => cs

/-- `find_child_of_kind` — parser_utils.rs:4-9. -/
def Node.childOfKind (n : Node) (kind : String) : Option Node :=
  n.children.find? fun c => c.kind = kind.toList

/-- `ParsedValue::from_node` for the kinds without children — parsed_value.rs:110-122, dispatching on
the kind of the value node's first child. -/
def parseLeaf (L : Lang) (source kind raw : Str) : ValueResult :=
  if kind = "boolean".toList then parseBoolean raw
  else if kind = "string".toList then parseString raw
  else if kind = "number".toList then parseNumber L raw
  else if kind = "currency".toList then parseCurrency L raw
  else if kind = "reference".toList then parseReference raw
  else if kind = "date".toList then parseDate L raw
  else if kind = "datetime".toList then parseDateTime L raw
  else if kind = "path".toList then parsePath raw source
  else if kind = "enum".toList then parseEnum raw
  else .error .missingParseMethod

mutual
/-- `ParsedValue::from_node` — parsed_value.rs:102-123; `source` is the path of the source file. -/
def fromNode (L : Lang) (source : Str) : Node → ValueResult
  | .mk _ _ [] => .error .unknownValueKind
  | .mk _ raw (.mk kind _ items :: _) =>
    if kind = "list".toList then
      match fromItems L source items with
      | .ok vs => parseListFromVec vs
      | .error e => .error e
    else parseLeaf L source kind raw
/-- The loop of `parse_list_from_node` — parsed_value.rs:261-267. -/
def fromItems (L : Lang) (source : Str) : List Node → Except ValueParseError (List ParsedValue)
  | [] => .ok []
  | n :: ns =>
    if n.kind = "value".toList then
      match fromNode L source n with
      | .error e => .error e
      | .ok v =>
        match fromItems L source ns with
        | .error e => .error e
        | .ok vs => .ok (v :: vs)
    else fromItems L source ns
end

/-- `ParsedField::id` — parsed_field.rs:31-34. -/
def fieldName (n : Node) : Option Str := (n.childOfKind "field_name").map Node.text

/-- `ParsedField::value` — parsed_field.rs:37-42. -/
def fieldValue (L : Lang) (source : Str) (n : Node) : ValueResult :=
  match n.childOfKind "value" with
  | none => .error .missingValue
  | some v => fromNode L source v

/-- The children of a given kind of a node's first `block` child — parsed_entity.rs:44-65,
parsed_schema.rs:37-52. -/
def Node.blockItems (n : Node) (kind : String) : List Node :=
  match n.childOfKind "block" with
  | none => []
  | some b => b.children.filter fun c => c.kind = kind.toList

/-- `ParsedEntity::entity_type` — parsed_entity.rs:32-35. -/
def entityTypeOf (n : Node) : Option Str := (n.childOfKind "entity_type").map Node.text
/-- `ParsedEntity::id` — parsed_entity.rs:38-41. -/
def entityIdOf (n : Node) : Option Str := (n.childOfKind "entity_id").map Node.text
/-- `ParsedEntity::fields` — parsed_entity.rs:44-65. -/
def entityFields (n : Node) : List Node := n.blockItems "field"

/-- `ParsedSchema::name` — parsed_schema.rs:31-34. -/
def schemaName (n : Node) : Option Str := (n.childOfKind "schema_name").map Node.text

/-- Is a nested block a `field` block? — parsed_schema.rs:53-62. -/
def isFieldBlock (n : Node) : Bool :=
  match n.childOfKind "block_type" with
  | none => false
  | some t => t.text = "field".toList

/-- `ParsedSchema::fields` — parsed_schema.rs:37-68. -/
def schemaFields (n : Node) : List Node := (n.blockItems "nested_block").filter isFieldBlock

/-- `find_field_by_name` — parsed_schema_field.rs:92-109. -/
def findFieldByName (n : Node) (name : String) : Option Node :=
  (n.blockItems "field").find? fun f => fieldName f = some name.toList

/-- `ParsedSchemaField::name` and `field_type` — parsed_schema_field.rs:35-56. -/
def stringField (L : Lang) (source : Str) (n : Node) (name : String) : Except ValueParseError Str :=
  match findFieldByName n name with
  | none => .error .missingValue
  | some f =>
    match fieldValue L source f with
    | .ok (.string s) => .ok s
    | .ok _ => .error .unknownValueKind
    | .error e => .error e

/-- `ParsedSchemaField::required` — parsed_schema_field.rs:60-67; `none` is a panic. -/
def requiredFlag (L : Lang) (source : Str) (n : Node) : Option Bool :=
  match findFieldByName n "required" with
  | none => some false
  | some f =>
    match fieldValue L source f with
    | .ok (.boolean b) => some b
    | .error .panic => none
    | _ => some false

/-- The strings of a list of values, `none` if one is not a string — parsed_schema_field.rs:76-85. -/
def stringItems : List ParsedValue → Option (List Str)
  | [] => some []
  | .string s :: vs => (stringItems vs).map (s :: ·)
  | _ :: _ => none

/-- `ParsedSchemaField::allowed_values` — parsed_schema_field.rs:71-89; the outer `none` is a panic. -/
def allowedValuesOf (L : Lang) (source : Str) (n : Node) : Option (Option (List Str)) :=
  match findFieldByName n "allowed_values" with
  | none => some none
  | some f =>
    match fieldValue L source f with
    | .ok (.list items) => some (stringItems items)
    | .error .panic => none
    | _ => some none

/-! ## Conversion -/

/-- `EntityConversionError` — convert/conversion_errors.rs:5-10; `panic` is a panic of a value parser. -/
inductive EntityConversionError where
  | missingEntityType
  | missingEntityId
  | missingFieldId
  | invalidFieldValue
  | panic
  deriving DecidableEq, Repr, Inhabited

mutual
/-- `TryFrom<ParsedValue> for FieldValue` — to_entity.rs:42-79. It never fails. -/
def toFieldValue (t : CaseTable) : ParsedValue → FieldValue
  | .boolean b => .boolean b
  | .string s => .string s
  | .integer n => .integer n
  | .float f => .float f
  | .currency a c => .currency a c
  | .entityRef ty i => .reference (.entity (t.composeEntityId ty i))
  | .fieldRef ty i f => .reference (.field (t.composeEntityId ty i) f)
  | .list vs => .list (toFieldValues t vs)
  | .dateTime d => .dateTime d
  | .path p => .path p
  | .enum s => .enum s
/-- The conversion of list items — to_entity.rs:70-71. -/
def toFieldValues (t : CaseTable) : List ParsedValue → List FieldValue
  | [] => []
  | v :: vs => toFieldValue t v :: toFieldValues t vs
end

/-- One iteration of the field loop — to_entity.rs:19-32. -/
def toField (L : Lang) (source : Str) (n : Node) : Except EntityConversionError (FieldId × FieldValue) :=
  match fieldName n with
  | none => .error .missingFieldId
  | some f =>
    match fieldValue L source n with
    | .ok v => .ok (f, toFieldValue L.cases v)
    | .error .panic => .error .panic
    | .error _ => .error .invalidFieldValue

/-- `TryFrom<&ParsedEntity> for Entity` — to_entity.rs:10-35. -/
def toEntity (L : Lang) (source : Str) (n : Node) : Except EntityConversionError Entity :=
  match entityTypeOf n with
  | none => .error .missingEntityType
  | some ty =>
    match entityIdOf n with
    | none => .error .missingEntityId
    | some i =>
      match collectResults (toField L source) (entityFields n) with
      | .error e => .error e
      | .ok fs => .ok ⟨L.cases.composeEntityId ty i, ty, fs⟩

/-- `SchemaConversionError` — convert/conversion_errors.rs:33-39 without the never
constructed `InvalidFieldDefinition`; `panic` as above. -/
inductive SchemaConversionError where
  | missingSchemaName
  | missingFieldName
  | missingFieldType
  | unknownFieldType (s : Str)
  | panic
  deriving DecidableEq, Repr, Inhabited

/-- `convert_field_type` — to_schema.rs:59-75. -/
def convertFieldType (s : Str) : Except SchemaConversionError FieldType :=
  if s = "boolean".toList then .ok .boolean
  else if s = "string".toList then .ok .string
  else if s = "integer".toList then .ok .integer
  else if s = "float".toList then .ok .float
  else if s = "currency".toList then .ok .currency
  else if s = "reference".toList then .ok .reference
  else if s = "list".toList then .ok .list
  else if s = "datetime".toList then .ok .dateTime
  else if s = "path".toList then .ok .path
  else if s = "enum".toList then .ok .enum
  else .error (.unknownFieldType s)

/-- A value error inside a schema field: `map_err` replaces it, a panic goes through. -/
def schemaErr (e : ValueParseError) (err : SchemaConversionError) : SchemaConversionError :=
  if e = .panic then .panic else err

/-- One iteration of the field loop — to_schema.rs:22-52. -/
def toSchemaField (L : Lang) (source : Str) (order : Nat) (n : Node) :
    Except SchemaConversionError (FieldId × FieldSchema) :=
  match stringField L source n "name" with
  | .error e => .error (schemaErr e .missingFieldName)
  | .ok name =>
    match stringField L source n "type" with
    | .error e => .error (schemaErr e .missingFieldType)
    | .ok ty =>
      match convertFieldType ty with
      | .error e => .error e
      | .ok t =>
        match requiredFlag L source n with
        | none => .error .panic
        | some req =>
          let mode := if req then FieldMode.required else .optional
          if t = .enum then
            match allowedValuesOf L source n with
            | none => .error .panic
            | some (some vs) => .ok (name, .newEnum L.env mode order vs)
            | some none => .ok (name, .new t mode order)
          else .ok (name, .new t mode order)

/-- The field loop with its insertions — to_schema.rs:22-52. -/
def toSchemaFields (L : Lang) (source : Str) :
    EntitySchema → Nat → List Node → Except SchemaConversionError EntitySchema
  | s, _, [] => .ok s
  | s, order, n :: ns =>
    match toSchemaField L source order n with
    | .error e => .error e
    | .ok p => toSchemaFields L source (s.addFieldSchema p.1 p.2) (order + 1) ns

/-- `TryFrom<&ParsedSchema> for EntitySchema` — to_schema.rs:14-55. -/
def toSchema (L : Lang) (source : Str) (n : Node) : Except SchemaConversionError EntitySchema :=
  match schemaName n with
  | none => .error .missingSchemaName
  | some name => toSchemaFields L source (.new (L.cases.snake name)) 0 (schemaFields n)

end Firm
