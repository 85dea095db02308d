import Verif.Model.Generate
import Verif.Model.Dsl

/-!
# Specification of reading generated text back

Tree-sitter is outside the model; `valueNode` is the tree that its grammar gives the text of a
generated value.
-/

namespace Firm.Spec
open Firm

/-- The kind of literal a value is written as. -/
def literalKind : FieldValue → String
  | .boolean _ => "boolean"
  | .string _ => "string"
  | .integer _ => "number"
  | .float _ => "number"
  | .currency _ _ => "currency"
  | .reference _ => "reference"
  | .list _ => "list"
  | .dateTime _ => "datetime"
  | .path _ => "path"
  | .enum _ => "enum"

/-- A token such as a bracket or a comma. -/
def tokenNode (s : String) : Node := .mk s.toList s.toList []

mutual
/-- The tree of a generated value: a `value` node around the literal. -/
def valueNode (L : Lang) (o : GeneratorOptions) : FieldValue → Node
  | .list items =>
    .mk "value".toList (generateValue L o (.list items))
      [.mk "list".toList (generateValue L o (.list items)) (tokenNode "[" :: itemNodes L o [] items)]
  | v => .mk "value".toList (generateValue L o v) [.mk (literalKind v).toList (generateValue L o v) []]
/-- The items of a list with the tokens between them; `before` is in front of the first. -/
def itemNodes (L : Lang) (o : GeneratorOptions) (before : List Node) : List FieldValue → List Node
  | [] => [tokenNode "]"]
  | v :: vs => before ++ valueNode L o v :: itemNodes L o [tokenNode ","] vs
end

/-- The text generated for a value, read in the file `source`, gives this value. -/
def ReadsAs (L : Lang) (o : GeneratorOptions) (source : Str) (v v' : FieldValue) : Prop :=
  ∃ p, fromNode L source (valueNode L o v) = .ok p ∧ toFieldValue L.cases p = v'

/-- The text generated for a value reads back as the same value. -/
def ReadsBack (L : Lang) (o : GeneratorOptions) (source : Str) (v : FieldValue) : Prop :=
  ReadsAs L o source v v

/-- The kind of a list item; a list holds items of one kind. -/
def itemKind : FieldValue → String
  | .integer _ => "integer"
  | .float _ => "float"
  | .reference (.entity _) => "entity reference"
  | .reference (.field _ _) => "field reference"
  | v => literalKind v

/-- The tree of a line `name = value`. -/
def fieldNode (name : Str) (value : Node) : Node :=
  .mk "field".toList (name ++ " = ".toList ++ value.text)
    [.mk "field_name".toList name [], tokenNode "=", value]

/-- The tree of a block in braces, one item per line; `inner` and `outer` indent the items and the
closing brace. -/
def blockNode (inner outer : Str) (items : List Node) : Node :=
  .mk "block".toList
    ('{' :: '\n' :: (items.flatMap fun n => inner ++ n.text ++ ['\n']) ++ outer ++ ['}'])
    (tokenNode "{" :: items ++ [tokenNode "}"])

/-- The tree of the entity `id` of the type `ty` with these lines. -/
def entityBlock (ty id : Str) (block : Node) : Node :=
  .mk "entity_block".toList (ty ++ ' ' :: id ++ ' ' :: block.text)
    [.mk "entity_type".toList ty [], .mk "entity_id".toList id [], block]

/-- The tree of a generated entity. -/
def entityNode (L : Lang) (o : GeneratorOptions) (e : Entity) : Node :=
  entityBlock (L.cases.lower e.entityType) (decomposeEntityId e.id).2
    (blockNode (o.indentStyle.indentString 1) []
      (e.fields.map fun p => fieldNode p.1 (valueNode L o p.2)))

/-- The tree of a generated file of entities. -/
def fileNode (L : Lang) (o : GeneratorOptions) (es : List Entity) : Node :=
  .mk "source_file".toList (generateDsl L o es) (es.map (entityNode L o))

/-- The tree of a string literal without escapes. -/
def quotedNode (s : Str) : Node :=
  .mk "value".toList ('"' :: s ++ ['"']) [.mk "string".toList ('"' :: s ++ ['"']) []]

/-- The tree of a boolean literal. -/
def flagNode (b : Bool) : Node :=
  let text := if b then "true".toList else "false".toList
  .mk "value".toList text [.mk "boolean".toList text []]

/-- The items of a list of string literals with the tokens between them. -/
def quotedItems (before : List Node) : List Str → List Node
  | [] => [tokenNode "]"]
  | v :: vs => before ++ quotedNode v :: quotedItems [tokenNode ","] vs

/-- The tree of a list of string literals. -/
def quotedListNode (vs : List Str) : Node :=
  let text := '[' :: joinWith [',', ' '] (vs.map fun v => '"' :: v ++ ['"']) ++ [']']
  .mk "value".toList text [.mk "list".toList text (tokenNode "[" :: quotedItems [] vs)]

/-- The tree of a nested block. -/
def nestedNode (ty : Str) (block : Node) : Node :=
  .mk "nested_block".toList (ty ++ ' ' :: block.text) [.mk "block_type".toList ty [], block]

/-- The tree of a generated field block of a schema. -/
def schemaFieldNode (o : GeneratorOptions) (p : FieldId × FieldSchema) : Node :=
  nestedNode "field".toList
    (blockNode (o.indentStyle.indentString 2) (o.indentStyle.indentString 1)
      ([fieldNode "name".toList (quotedNode p.1),
        fieldNode "type".toList (quotedNode (fieldTypeName p.2.fieldType))] ++
       (match p.2.allowedValues with
        | some vs => [fieldNode "allowed_values".toList (quotedListNode vs)]
        | none => []) ++
       [fieldNode "required".toList (flagNode p.2.isRequired)]))

/-- The tree of the schema `name` with these lines. -/
def schemaBlock (name : Str) (block : Node) : Node :=
  .mk "schema_block".toList ("schema ".toList ++ name ++ ' ' :: block.text)
    [tokenNode "schema", .mk "schema_name".toList name [], block]

/-- The tree of a generated schema. -/
def schemaNode (o : GeneratorOptions) (s : EntitySchema) : Node :=
  schemaBlock s.entityType
    (blockNode (o.indentStyle.indentString 1) [] (s.orderedFields.map (schemaFieldNode o)))

/-! ## Trees over a text

The trees above are trees of the generated text: the texts of the children of a node are its own
text cut into pieces, with nothing but white space between them (tree-sitter lists every token). -/

/-- White space. -/
def Blank (s : Str) : Prop := ∀ c ∈ s, c = ' ' ∨ c = '\n' ∨ c = '\t'

/-- The nodes' texts follow each other in `s` with white space around them and nothing else. -/
inductive Pieces : Str → List Node → Prop
  | nil {w : Str} : Blank w → Pieces w []
  | cons {w s : Str} {n : Node} {ns : List Node} : Blank w → Pieces s ns →
      Pieces (w ++ n.text ++ s) (n :: ns)

/-- A tree over its text: every node with children consists of them. -/
inductive IsTree : Node → Prop
  | leaf {k t : Str} : IsTree (.mk k t [])
  | node {k t : Str} {ns : List Node} : Pieces t ns → (∀ n ∈ ns, IsTree n) → IsTree (.mk k t ns)

/-- The first line `name = …` of a block has this value. -/
def HasLine (L : Lang) (source : Str) (n : Node) (name : String) (r : ValueResult) : Prop :=
  ∃ pre f post, n.blockItems "field" = pre ++ f :: post ∧ fieldName f = some name.toList ∧
    (∀ g ∈ pre, fieldName g ≠ some name.toList) ∧ fieldValue L source f = r

/-- A block has no line `name = …`. -/
def NoLine (n : Node) (name : String) : Prop :=
  ∀ g ∈ n.blockItems "field", fieldName g ≠ some name.toList

end Firm.Spec
