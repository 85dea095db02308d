import Verif.Model.Saved

/-!
# What is printed

Rust sources: the `Display` implementations of `/repo/firm_core/src/{entity,field,id}.rs`,
`/repo/firm_core/src/schema/mod.rs` and `/repo/firm_core/src/graph/query/types.rs`, their use in
`/repo/firm_mcp/src/tools/{get,query}.rs`, and the output functions of `/repo/firm_cli/src/ui.rs`.

Only standard output is modelled: headers, messages and progress bars are written to the error output.
-/

namespace Firm

/-- What the libraries do when values are shown. -/
structure Screen where
  codec : Codec
  cases : CaseTable
  /-- `char::to_uppercase`. -/
  upperChar : Char → Str
  /-- `f64::to_string()`. -/
  showF64 : F64 → Str
  /-- `Display` of `iso_currency::Currency`, given by its code. -/
  currencyName : Str → Str
  /-- `Display` of `DateTime<FixedOffset>`. -/
  showDate : DateTime → Str

/-! ## Texts of values -/

/-- `ReferenceValue` — firm_core/src/field.rs:50-57. -/
def showReference : ReferenceValue → Str
  | .entity id => id
  | .field id f => id ++ '.' :: f

/-- `bool`. -/
def showBool (b : Bool) : Str := if b then "true".toList else "false".toList

mutual
/-- `FieldValue` — firm_core/src/field.rs:74-98. -/
def showValue (S : Screen) : FieldValue → Str
  | .boolean b => showBool b
  | .string s => s
  | .integer n => showInt n
  | .float f => S.showF64 f
  | .currency d c => d.show ++ ' ' :: S.currencyName c
  | .reference r => showReference r
  | .list vs => '[' :: (joinWith [','] (showValues S vs) ++ [']'])
  | .dateTime d => S.showDate d
  | .path p => p
  | .enum s => s
/-- The items of a list — firm_core/src/field.rs:86-90. -/
def showValues (S : Screen) : List FieldValue → List Str
  | [] => []
  | v :: vs => showValue S v :: showValues S vs
end

/-- `convert_case`'s `capital`: the first character in upper case, the others in lower case. -/
def Screen.capital (S : Screen) : Str → Str
  | [] => []
  | c :: w => S.upperChar c ++ S.cases.lower w

/-- `to_case(Case::Sentence)`. -/
def Screen.sentence (S : Screen) (s : Str) : Str :=
  match S.cases.words s with
  | [] => []
  | w :: ws => joinWith [' '] (S.capital w :: ws.map S.cases.lower)

/-- One field of an entity — firm_core/src/entity.rs:47-52, without the line break. -/
def showField (S : Screen) (p : FieldId × FieldValue) : Str := S.sentence p.1 ++ ": ".toList ++ showValue S p.2

/-- `Entity` — firm_core/src/entity.rs:43-57. -/
def showEntity (S : Screen) (e : Entity) : Str :=
  e.id ++ "\n\n".toList ++ e.fields.flatMap fun p => showField S p ++ ['\n']

/-- `FieldType` — firm_core/src/field.rs:26-40. -/
def showFieldType : FieldType → Str
  | .boolean => "Boolean".toList
  | .string => "String".toList
  | .integer => "Integer".toList
  | .float => "Float".toList
  | .currency => "Currency".toList
  | .reference => "Reference".toList
  | .list => "List".toList
  | .dateTime => "DateTime".toList
  | .path => "Path".toList
  | .enum => "Enum".toList

/-- One field of a schema — firm_core/src/schema/mod.rs:163-168. -/
def showSchemaField (p : FieldId × FieldSchema) : Str :=
  '\n' :: p.1 ++ "\n- Type: ".toList ++ showFieldType p.2.fieldType ++ "\n- Required: ".toList ++
    showBool p.2.isRequired ++ ['\n'] ++
    (match p.2.allowedValues with
    | some vs => "- Allowed values: ".toList ++ joinWith ", ".toList vs ++ ['\n']
    | none => [])

/-- `EntitySchema` — firm_core/src/schema/mod.rs:158-173. -/
def showSchema (s : EntitySchema) : Str := s.entityType ++ '\n' :: s.orderedFields.flatMap showSchemaField

/-- `AggregateValue` — query/types.rs:102-112. -/
def showAggregate (S : Screen) : AggregateValue → Str
  | .integer n => showInt n
  | .float f => S.showF64 f
  | .currency d c => d.show ++ ' ' :: c

/-- A cell of a table — query/types.rs:78-81. -/
def showCell (S : Screen) : Option FieldValue → Str
  | some v => showValue S v
  | none => ['-']

/-- `AggregationResult` — query/types.rs:66-89. -/
def showResult (S : Screen) : AggregationResult → Str
  | .count n => showNat n
  | .sum v => showAggregate S v
  | .average f => S.showF64 f
  | .median f => S.showF64 f
  | .select columns rows =>
    joinWith ['\t'] columns ++ '\n' :: rows.flatMap fun row => joinWith ['\t'] (row.map (showCell S)) ++ ['\n']

/-! ## Replies of the tools -/

/-- The text of the reply of `get` — tools/get.rs:29, 41. -/
def showItem (S : Screen) : Item → Str
  | .entity e => showEntity S e
  | .schema s => showSchema s

/-- The text of the reply of `query` — tools/query.rs:55-69. -/
def queryReply (S : Screen) : QueryResult → Str
  | .entities [] => "No entities found matching the query.".toList
  | .entities es => joinWith "\n---\n".toList (es.map (showEntity S))
  | .aggregation r => showResult S r

/-! ## JSON -/

/-- The indentation of a line. -/
def jPad (n : Nat) : Str := '\n' :: List.replicate (2 * n) ' '

mutual
/-- `serde_json::to_string_pretty`; the number is the depth. -/
def jsonPretty (C : Codec) (n : Nat) : JVal → Str
  | .array [] => "[]".toList
  | .array vs => '[' :: (joinWith [','] (prettyItems C (n + 1) vs) ++ jPad n ++ [']'])
  | .object [] => "{}".toList
  | .object es => '{' :: (joinWith [','] (prettyEntries C (n + 1) es) ++ jPad n ++ ['}'])
  | v => jsonText C v
/-- Its items. -/
def prettyItems (C : Codec) (n : Nat) : List JVal → List Str
  | [] => []
  | v :: vs => (jPad n ++ jsonPretty C n v) :: prettyItems C n vs
/-- Its entries. -/
def prettyEntries (C : Codec) (n : Nat) : List (Str × JVal) → List Str
  | [] => []
  | e :: es => prettyEntry C n e :: prettyEntries C n es
/-- One entry. -/
def prettyEntry (C : Codec) (n : Nat) : Str × JVal → Str
  | (k, v) => jPad n ++ (jsonString k ++ ": ".toList ++ jsonPretty C n v)
end

/-- A cell of a table, as an `Option`. -/
def saveCell (C : Codec) : Option FieldValue → JVal
  | none => .null
  | some v => saveValue C v

/-- `AggregateValue` — query/types.rs:91-100. -/
def saveAggregate : AggregateValue → JVal
  | .integer n => jTag "Integer" (jInt n)
  | .float f => jTag "Float" (jFloat f)
  | .currency d c => jTag "Currency" (.object [("amount".toList, .string d.show), ("currency".toList, .string c)])

/-- `AggregationResult` — query/types.rs:49-64. -/
def saveResult (C : Codec) : AggregationResult → JVal
  | .select columns rows =>
    jTag "Select" (.object [("columns".toList, .array (columns.map .string)),
      ("rows".toList, .array (rows.map fun row => .array (row.map (saveCell C))))])
  | .count n => jTag "Count" (.number (.pos n))
  | .sum v => jTag "Sum" (saveAggregate v)
  | .average f => jTag "Average" (jFloat f)
  | .median f => jTag "Median" (jFloat f)

/-- `FieldSchema` — firm_core/src/schema/mod.rs:20-26; a type is written as its name. -/
def saveFieldSchema (s : FieldSchema) : JVal :=
  .object [("field_type".toList, .string (showFieldType s.fieldType)),
    ("field_mode".toList, .string (if s.isRequired then "Required".toList else "Optional".toList)),
    ("order".toList, .number (.pos s.order)),
    ("allowed_values".toList, match s.allowedValues with
      | none => .null
      | some vs => .array (vs.map .string))]

/-- `EntitySchema` — firm_core/src/schema/mod.rs:70-75; `insertion_order` is always 0. -/
def saveSchema (s : EntitySchema) : JVal :=
  .object [("entity_type".toList, .string s.entityType),
    ("fields".toList, .object (s.fields.map fun p => (p.1, saveFieldSchema p.2))),
    ("insertion_order".toList, .number (.pos 0))]

/-! ## Schemas of trees (derived `Deserialize`) -/

/-- `FieldType` — firm_core/src/field.rs:12-24. -/
def loadFieldType (j : JVal) : Option FieldType :=
  match j.text with
  | none => none
  | some s =>
    if s = "Boolean".toList then some .boolean
    else if s = "String".toList then some .string
    else if s = "Integer".toList then some .integer
    else if s = "Float".toList then some .float
    else if s = "Currency".toList then some .currency
    else if s = "Reference".toList then some .reference
    else if s = "List".toList then some .list
    else if s = "DateTime".toList then some .dateTime
    else if s = "Path".toList then some .path
    else if s = "Enum".toList then some .enum
    else none

/-- `FieldMode` — firm_core/src/schema/mod.rs:13-17. -/
def loadFieldMode (j : JVal) : Option FieldMode :=
  match j.text with
  | none => none
  | some s =>
    if s = "Required".toList then some .required
    else if s = "Optional".toList then some .optional
    else none

/-- `Option<Vec<String>>`. -/
def loadTexts : JVal → Option (Option (List Str))
  | .null => some none
  | .array vs => (readAll JVal.text vs).map some
  | _ => none

/-- `FieldSchema` — firm_core/src/schema/mod.rs:20-26. -/
def loadFieldSchema (j : JVal) : Option FieldSchema :=
  match (j.member "field_type").bind loadFieldType, (j.member "field_mode").bind loadFieldMode,
      (j.member "order").bind JVal.index, (j.member "allowed_values").bind loadTexts with
  | some t, some m, some o, some vs => some ⟨t, m, o, vs⟩
  | _, _, _, _ => none

/-- `EntitySchema` — firm_core/src/schema/mod.rs:70-75; `insertion_order` must be there and is not kept. -/
def loadSchema (j : JVal) : Option EntitySchema :=
  match (j.member "entity_type").bind JVal.text, (j.member "fields").bind (loadMap loadFieldSchema),
      (j.member "insertion_order").bind JVal.index with
  | some t, some fs, some _ => some ⟨t, fs⟩
  | _, _, _ => none

/-! ## Standard output (ui.rs) -/

/-- `OutputFormat` — ui.rs:80-86. -/
inductive OutputFormat where
  | pretty
  | json
  deriving DecidableEq, Repr, Inhabited

/-- `println!`. -/
def printLine (s : Str) : Str := s ++ ['\n']

/-- `json_output` — ui.rs:120-124. -/
def jsonOutput (C : Codec) (v : JVal) : Str := printLine (jsonPretty C 0 v)

/-- `pretty_output_entity_single` — ui.rs:98-100. -/
def prettyEntity (S : Screen) (e : Entity) : Str := printLine ('\n' :: showEntity S e)

/-- The line between two entities — ui.rs:109. -/
def separatorLine : Str := printLine "---------------------------------------".toList

/-- `pretty_output_entity_list` — ui.rs:103-112. -/
def prettyEntities (S : Screen) (es : List Entity) : Str := joinWith separatorLine (es.map (prettyEntity S))

/-- The output of `get` for an entity — commands/get.rs:43-46. -/
def outputEntity (S : Screen) (e : Entity) : OutputFormat → Str
  | .pretty => prettyEntity S e
  | .json => jsonOutput S.codec (saveEntity S.codec e)

/-- The output of `get` for a schema — commands/get.rs:80-83. -/
def outputSchema (S : Screen) (s : EntitySchema) : OutputFormat → Str
  | .pretty => printLine ('\n' :: showSchema s)
  | .json => jsonOutput S.codec (saveSchema s)

/-- The output of `query` and `related` for entities — commands/query.rs:42-45, commands/related.rs:37-40. -/
def outputEntities (S : Screen) (es : List Entity) : OutputFormat → Str
  | .pretty => prettyEntities S es
  | .json => jsonOutput S.codec (.array (es.map (saveEntity S.codec)))

/-- The output of `query` — commands/query.rs:39-51. -/
def outputResult (S : Screen) : QueryResult → OutputFormat → Str
  | .entities es, f => outputEntities S es f
  | .aggregation r, .pretty => printLine (showResult S r)
  | .aggregation r, .json => jsonOutput S.codec (saveResult S.codec r)

/-- `list_output` — ui.rs:127-136. -/
def listOutput (C : Codec) (items : List Str) : OutputFormat → Str
  | .pretty => items.flatMap printLine
  | .json => jsonOutput C (.array (items.map .string))

end Firm
