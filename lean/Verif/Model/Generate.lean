import Verif.Model.Literals
import Verif.Model.Schema

/-!
# Generating DSL text

Rust source: `/repo/firm_lang/src/generate/`.
-/

namespace Firm

/-- `IndentStyle` — generator_options.rs:19-22. -/
inductive IndentStyle where
  | spaces (size : Nat)
  | tabs
  deriving DecidableEq, Repr, Inhabited

/-- `indent_string` — generator_options.rs:25-30. -/
def IndentStyle.indentString (s : IndentStyle) (level : Nat) : Str :=
  match s with
  | .spaces size => List.replicate (level * size) ' '
  | .tabs => List.replicate level '\t'

/-- `GeneratorOptions` — generator_options.rs:3-6. -/
structure GeneratorOptions where
  indentStyle : IndentStyle
  blankLines : Bool
  deriving DecidableEq, Repr, Inhabited

/-- `GeneratorOptions::default` — generator_options.rs:9-14. -/
def GeneratorOptions.default : GeneratorOptions := ⟨.spaces 4, true⟩

/-- `generate_string` — from_value.rs:27-43. -/
def generateString (o : GeneratorOptions) (s : Str) : Str :=
  let indent := o.indentStyle.indentString 1
  if '\n' ∈ s then
    tripleQuote ++ '\n' :: ((strLines s).flatMap fun l => indent ++ l ++ ['\n']) ++ indent ++ tripleQuote
  else '"' :: s.flatMap (fun c => if c = '"' then ['\\', '"'] else [c]) ++ ['"']

/-- `generate_float` — from_value.rs:46-55. -/
def generateFloat (L : Lang) (f : F64) : Str :=
  let t := L.showF64 f
  if '.' ∈ t then t else t ++ ['.', '0']

/-- `Display for Decimal`: the digits of the mantissa with the point `scale` places from the right. -/
def Decimal.show (d : Decimal) : Str :=
  let ds := showNat d.mant.natAbs
  let ds := List.replicate (d.scale + 1 - ds.length) '0' ++ ds
  let body := if d.scale = 0 then ds
    else ds.take (ds.length - d.scale) ++ '.' :: ds.drop (ds.length - d.scale)
  if d.mant < 0 then '-' :: body else body

/-- `offset_seconds / 3600` on `i32` truncates toward zero. -/
def offsetHours (secs : Int) : Int := Int.tdiv secs 3600

/-- `generate_datetime` — from_value.rs:79-97. -/
def generateDateTime (d : DateTime) : Str :=
  let loc := d.secs + d.offset
  let date := (civilOf (loc / 86400)).show
  let time := showTime ((loc % 86400 / 60).toNat)
  let zone : Str :=
    if d.offset = 0 then "UTC".toList
    else
      let h := offsetHours d.offset
      if 0 < h then "UTC+".toList ++ showInt h else "UTC".toList ++ showInt h
  date ++ atMark ++ time ++ ' ' :: zone

mutual
/-- `generate_value` — from_value.rs:9-24. -/
def generateValue (L : Lang) (o : GeneratorOptions) : FieldValue → Str
  | .boolean b => if b then "true".toList else "false".toList
  | .string s => generateString o s
  | .integer n => showInt n
  | .float f => generateFloat L f
  | .currency a c => a.show ++ ' ' :: c
  | .reference r => r.display
  | .list items => '[' :: joinWith [',', ' '] (generateValues L o items) ++ [']']
  | .dateTime d => generateDateTime d
  | .path p => "path\"".toList ++ p ++ ['"']
  | .enum s => "enum\"".toList ++ s ++ ['"']
/-- The texts of the items of a list — from_value.rs:73. -/
def generateValues (L : Lang) (o : GeneratorOptions) : List FieldValue → List Str
  | [] => []
  | v :: vs => generateValue L o v :: generateValues L o vs
end

/-- `generate_field` — from_field.rs:6-13. -/
def generateField (L : Lang) (o : GeneratorOptions) (name : FieldId) (v : FieldValue) : Str :=
  name ++ " = ".toList ++ generateValue L o v

/-- `generate_entity` — from_entity.rs:6-45. -/
def generateEntity (L : Lang) (o : GeneratorOptions) (e : Entity) : Str :=
  L.cases.lower e.entityType ++ ' ' :: (decomposeEntityId e.id).2 ++ " {\n".toList ++
    (e.fields.flatMap fun p => o.indentStyle.indentString 1 ++ generateField L o p.1 p.2 ++ ['\n']) ++
    "}\n".toList

/-- The rest of `generate_dsl_with_options` after the first entity — generate/mod.rs:22-28. -/
def generateRest (L : Lang) (o : GeneratorOptions) (es : List Entity) : Str :=
  es.flatMap fun e => (if o.blankLines then ['\n'] else []) ++ generateEntity L o e

/-- `generate_dsl_with_options` — generate/mod.rs:19-31. -/
def generateDsl (L : Lang) (o : GeneratorOptions) : List Entity → Str
  | [] => []
  | e :: es => generateEntity L o e ++ generateRest L o es

/-- `field_type_to_string` — from_schema.rs:58-71. -/
def fieldTypeName : FieldType → Str
  | .string => "string".toList
  | .integer => "integer".toList
  | .float => "float".toList
  | .boolean => "boolean".toList
  | .currency => "currency".toList
  | .dateTime => "datetime".toList
  | .reference => "reference".toList
  | .list => "list".toList
  | .path => "path".toList
  | .enum => "enum".toList

/-- The lines of one field in `generate_schema` — from_schema.rs:13-48. -/
def generateSchemaField (o : GeneratorOptions) (p : FieldId × FieldSchema) : Str :=
  let i1 := o.indentStyle.indentString 1
  let i2 := o.indentStyle.indentString 2
  i1 ++ "field {\n".toList ++
  i2 ++ "name = \"".toList ++ p.1 ++ "\"\n".toList ++
  i2 ++ "type = \"".toList ++ fieldTypeName p.2.fieldType ++ "\"\n".toList ++
  (match p.2.allowedValues with
    | some vs => i2 ++ "allowed_values = [".toList ++
        joinWith [',', ' '] (vs.map fun v => '"' :: v ++ ['"']) ++ "]\n".toList
    | none => []) ++
  i2 ++ "required = ".toList ++ (if p.2.isRequired then "true".toList else "false".toList) ++
  ['\n'] ++ i1 ++ "}\n".toList

/-- `generate_schema` — from_schema.rs:6-55. -/
def generateSchema (o : GeneratorOptions) (s : EntitySchema) : Str :=
  "schema ".toList ++ s.entityType ++ " {\n".toList ++
    s.orderedFields.flatMap (generateSchemaField o) ++ "}\n".toList

end Firm
