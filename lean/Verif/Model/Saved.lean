import Verif.Model.Reading

/-!
# The saved graph

Rust sources: the `Serialize`/`Deserialize` implementations of `/repo/firm_core/src/graph/mod.rs`,
`entity.rs`, `field.rs` and `id.rs`, used by `/repo/firm_cli/src/files.rs:49-52, 82-85`.

The text layer is that of `serde_json` with its default settings: compact output, at most 127 nested arrays and
objects, non-finite floats written as `null`. Simplifications: the derived implementations are modelled on JSON
trees, and forms they accept but never write (structures as arrays) are left out; indices are not bounded by
`u32`.
-/

namespace Firm

/-- A JSON tree. -/
inductive JVal where
  | null
  | bool (b : Bool)
  | number (n : JsonNumber)
  | string (s : Str)
  | array (items : List JVal)
  | object (entries : List (Str × JVal))
  deriving Inhabited

/-- What the libraries do with single values. -/
structure Codec where
  /-- The shortest decimal text of a finite float, as `serde_json` writes it. -/
  floatText : F64 → Str
  /-- `serde_json`'s reading of a number that is not an integer. -/
  readFloat : Str → Option F64
  /-- `DateTime<FixedOffset>` as written by `chrono`'s `Serialize`. -/
  dateText : DateTime → Str
  /-- `DateTime<FixedOffset>` as read by `chrono`'s `Deserialize`. -/
  readDate : Str → Option DateTime
  /-- `Currency::from_str`, the code being a variant of the enumeration. -/
  knownCurrency : Str → Bool

/-! ## Text of a tree -/

/-- A digit of `\u00XX`. -/
def hexDigit (n : Nat) : Char := if n < 10 then Char.ofNat (48 + n) else Char.ofNat (87 + n)

/-- One character of a string. -/
def jsonChar (c : Char) : Str :=
  if c = '"' then ['\\', '"']
  else if c = '\\' then ['\\', '\\']
  else if c.toNat = 8 then ['\\', 'b']
  else if c.toNat = 12 then ['\\', 'f']
  else if c = '\n' then ['\\', 'n']
  else if c = '\r' then ['\\', 'r']
  else if c = '\t' then ['\\', 't']
  else if c.toNat < 32 then ['\\', 'u', '0', '0', hexDigit (c.toNat / 16), hexDigit (c.toNat % 16)]
  else [c]

/-- A string. -/
def jsonString (s : Str) : Str := '"' :: (s.flatMap jsonChar ++ ['"'])

/-- A number. -/
def jsonNumber (C : Codec) : JsonNumber → Str
  | .pos n => showNat n
  | .neg n => '-' :: showNat (n + 1)
  | .float f => C.floatText f

mutual
/-- `serde_json::to_string`. -/
def jsonText (C : Codec) : JVal → Str
  | .null => "null".toList
  | .bool true => "true".toList
  | .bool false => "false".toList
  | .number n => jsonNumber C n
  | .string s => jsonString s
  | .array vs => '[' :: (joinWith [','] (jsonTexts C vs) ++ [']'])
  | .object es => '{' :: (joinWith [','] (jsonEntries C es) ++ ['}'])
/-- Its items. -/
def jsonTexts (C : Codec) : List JVal → List Str
  | [] => []
  | v :: vs => jsonText C v :: jsonTexts C vs
/-- Its entries. -/
def jsonEntries (C : Codec) : List (Str × JVal) → List Str
  | [] => []
  | e :: es => jsonEntry C e :: jsonEntries C es
/-- One entry. -/
def jsonEntry (C : Codec) : Str × JVal → Str
  | (k, v) => jsonString k ++ ':' :: jsonText C v
end

/-! ## Reading a text -/

/-- White space. -/
def jWs (c : Char) : Bool := c == ' ' || c == '\n' || c == '\t' || c == '\r'

/-- White space is skipped. -/
def jSkip (s : Str) : Str := s.dropWhile jWs

/-- The value of a hexadecimal digit. -/
def hexVal (c : Char) : Option Nat :=
  if '0' ≤ c ∧ c ≤ '9' then some (c.toNat - 48)
  else if 'a' ≤ c ∧ c ≤ 'f' then some (c.toNat - 87)
  else if 'A' ≤ c ∧ c ≤ 'F' then some (c.toNat - 55)
  else none

/-- Four hexadecimal digits. -/
def hex4 : Str → Option (Nat × Str)
  | a :: b :: c :: d :: r =>
    match hexVal a, hexVal b, hexVal c, hexVal d with
    | some a, some b, some c, some d => some (((a * 16 + b) * 16 + c) * 16 + d, r)
    | _, _, _, _ => none
  | _ => none

/-- The rest of `\u`: one code unit, or two that are a surrogate pair. -/
def jUnicode (s : Str) : Option (Char × Str) :=
  match hex4 s with
  | none => none
  | some (n, r) =>
    if n < 0xD800 ∨ 0xE000 ≤ n then some (Char.ofNat n, r)
    else if 0xDC00 ≤ n then none
    else
      match r with
      | '\\' :: 'u' :: r =>
        match hex4 r with
        | none => none
        | some (m, r) =>
          if 0xDC00 ≤ m ∧ m < 0xE000 then some (Char.ofNat ((n - 0xD800) * 1024 + (m - 0xDC00) + 0x10000), r)
          else none
      | _ => none

/-- One character of a string that is not its end. -/
def jChar : Str → Option (Char × Str)
  | [] => none
  | '\\' :: [] => none
  | '\\' :: e :: r =>
    if e = '"' then some ('"', r)
    else if e = '\\' then some ('\\', r)
    else if e = '/' then some ('/', r)
    else if e = 'b' then some (Char.ofNat 8, r)
    else if e = 'f' then some (Char.ofNat 12, r)
    else if e = 'n' then some ('\n', r)
    else if e = 'r' then some ('\r', r)
    else if e = 't' then some ('\t', r)
    else if e = 'u' then jUnicode r
    else none
  | c :: r => if c.toNat < 32 then none else some (c, r)

/-- The rest of a string after its opening quote; the first argument bounds its length. -/
def jString : Nat → Str → Option (Str × Str)
  | 0, _ => none
  | n + 1, s =>
    match s with
    | '"' :: r => some ([], r)
    | _ =>
      match jChar s with
      | none => none
      | some (c, r) => (jString n r).map fun p => (c :: p.1, p.2)

/-- Characters of numbers. -/
def numChar (c : Char) : Bool := isDigit c || c == '-' || c == '+' || c == '.' || c == 'e' || c == 'E'

/-- Digits without a superfluous zero. -/
def isJsonNat (s : Str) : Bool := s.all isDigit && (s.head? != some '0' || s.length == 1) && s != []

/-- A number by its text: integers in the ranges of `u64` and `i64`, everything else as float. -/
def readJsonNumber (C : Codec) (s : Str) : Option JsonNumber :=
  match s with
  | '-' :: r =>
    match (if isJsonNat r then parseNat r else none) with
    | some (n + 1) => if n < 2 ^ 63 then some (.neg n) else (C.readFloat s).map .float
    | _ => (C.readFloat s).map .float
  | _ =>
    match (if isJsonNat s then parseNat s else none) with
    | some n => if n < 2 ^ 64 then some (.pos n) else (C.readFloat s).map .float
    | none => (C.readFloat s).map .float

/-- The rest of an array or object: items with commas between them, then the closing character. The first number
bounds the number of items. -/
def jTail {α : Type} (p : Str → Option (α × Str)) (close : Char) : Nat → Str → Option (List α × Str)
  | 0, _ => none
  | n + 1, s =>
    match jSkip s with
    | [] => none
    | c :: r =>
      if c = close then some ([], r)
      else if c = ',' then
        match p (jSkip r) with
        | none => none
        | some (a, r') => (jTail p close n r').map fun q => (a :: q.1, q.2)
      else none

/-- The inside of an array or object. -/
def jSeq {α : Type} (p : Str → Option (α × Str)) (close : Char) (s : Str) : Option (List α × Str) :=
  match jSkip s with
  | [] => none
  | c :: r =>
    if c = close then some ([], r)
    else
      match p (c :: r) with
      | none => none
      | some (a, r') => (jTail p close (r'.length + 1) r').map fun q => (a :: q.1, q.2)

/-- A key with its value. -/
def jEntry (p : Str → Option (JVal × Str)) : Str → Option ((Str × JVal) × Str)
  | '"' :: r =>
    match jString (r.length + 1) r with
    | none => none
    | some (k, r1) =>
      match jSkip r1 with
      | ':' :: r2 => (p (jSkip r2)).map fun q => ((k, q.1), q.2)
      | _ => none
  | _ => none

/-- A value; the first argument is the number of arrays and objects that may still be opened. -/
def jValue (C : Codec) : Nat → Str → Option (JVal × Str)
  | _, [] => none
  | n, c :: r =>
    if c = '"' then (jString (r.length + 1) r).map fun q => (.string q.1, q.2)
    else if c = '[' then
      match n with
      | 0 => none
      | n + 1 => (jSeq (jValue C n) ']' r).map fun q => (.array q.1, q.2)
    else if c = '{' then
      match n with
      | 0 => none
      | n + 1 => (jSeq (jEntry (jValue C n)) '}' r).map fun q => (.object q.1, q.2)
    else if c = 'n' then (qLit "ull".toList r).map fun q => (.null, q)
    else if c = 't' then (qLit "rue".toList r).map fun q => (.bool true, q)
    else if c = 'f' then (qLit "alse".toList r).map fun q => (.bool false, q)
    else if c = '-' ∨ isDigit c = true then
      (readJsonNumber C ((c :: r).takeWhile numChar)).map fun q => (.number q, (c :: r).dropWhile numChar)
    else none

/-- `serde_json::from_str` to a tree: 127 levels, nothing but white space after the value. -/
def jsonParse (C : Codec) (s : Str) : Option JVal :=
  match jValue C 127 (jSkip s) with
  | none => none
  | some (v, r) => if jSkip r = [] then some v else none

/-! ## Trees of entities (derived `Serialize`) -/

/-- A variant with its content. -/
def jTag (name : String) (v : JVal) : JVal := .object [(name.toList, v)]

/-- `i64`. -/
def jInt : Int → JVal
  | .ofNat n => .number (.pos n)
  | .negSucc n => .number (.neg n)

/-- `f64`: not a number and the infinities are `null`. -/
def jFloat : F64 → JVal
  | .nan => .null
  | .inf _ => .null
  | f => .number (.float f)

/-- `ReferenceValue` — firm_core/src/field.rs:42-46. -/
def saveReference : ReferenceValue → JVal
  | .entity id => jTag "Entity" (.string id)
  | .field id f => jTag "Field" (.array [.string id, .string f])

mutual
/-- `FieldValue` — firm_core/src/field.rs:58-71; amounts as text (`serde-with-str`). -/
def saveValue (C : Codec) : FieldValue → JVal
  | .boolean b => jTag "Boolean" (.bool b)
  | .string s => jTag "String" (.string s)
  | .integer n => jTag "Integer" (jInt n)
  | .float f => jTag "Float" (jFloat f)
  | .currency d c => jTag "Currency" (.object [("amount".toList, .string d.show), ("currency".toList, .string c)])
  | .reference r => jTag "Reference" (saveReference r)
  | .list vs => jTag "List" (.array (saveValues C vs))
  | .dateTime d => jTag "DateTime" (.string (C.dateText d))
  | .path p => jTag "Path" (.string p)
  | .enum s => jTag "Enum" (.string s)
/-- The items of a list. -/
def saveValues (C : Codec) : List FieldValue → List JVal
  | [] => []
  | v :: vs => saveValue C v :: saveValues C vs
end

/-- `Entity` — firm_core/src/entity.rs:8-13. -/
def saveEntity (C : Codec) (e : Entity) : JVal :=
  .object [("id".toList, .string e.id), ("entity_type".toList, .string e.entityType),
    ("fields".toList, .array (e.fields.map fun p => .array [.string p.1, saveValue C p.2]))]

/-- `Relationship` — firm_core/src/graph/mod.rs:19-28. -/
def saveRelationship : Relationship → JVal
  | .entityReference f => jTag "EntityReference" (.object [("from_field".toList, .string f)])
  | .fieldReference f t =>
    jTag "FieldReference" (.object [("from_field".toList, .string f), ("to_field".toList, .string t)])

/-- An index. -/
def jIndex (n : Nat) : JVal := .number (.pos n)

/-- `EntityGraph` — firm_core/src/graph/mod.rs:31-40 with petgraph's `Serialize`, and
`serialize_entity_type_map` — firm_core/src/graph/mod.rs:177-189. `ids` and `types` are the entries of the two maps in
the order of the hash maps. -/
def saveGraph (C : Codec) (nodes : List Entity) (edges : List Edge) (ids : List (EntityId × Nat))
    (types : List (EntityType × List Nat)) : JVal :=
  .object [
    ("graph".toList, .object [
      ("nodes".toList, .array (nodes.map (saveEntity C))),
      ("node_holes".toList, .array []),
      ("edge_property".toList, .string "directed".toList),
      ("edges".toList, .array (edges.map fun e => .array [jIndex e.src, jIndex e.dst, saveRelationship e.rel]))]),
    ("entity_map".toList, .object (ids.map fun p => (p.1, jIndex p.2))),
    ("entity_type_map".toList, .object (types.map fun p => (p.1, .array (p.2.map jIndex))))]

/-! ## Entities of trees (derived `Deserialize`) -/

/-- The entry of a structure; it must be there once. -/
def JVal.member (k : String) : JVal → Option JVal
  | .object es =>
    match es.filter fun p => decide (p.1 = k.toList) with
    | [p] => some p.2
    | _ => none
  | _ => none

/-- A variant and its content. -/
def JVal.variant : JVal → Option (Str × JVal)
  | .object [p] => some p
  | _ => none

/-- The items of an array. -/
def JVal.items : JVal → Option (List JVal)
  | .array vs => some vs
  | _ => none

/-- `String` and the newtypes of firm_core/src/id.rs:10-11, which are read as they are. -/
def JVal.text : JVal → Option Str
  | .string s => some s
  | _ => none

/-- An index. -/
def JVal.index : JVal → Option Nat
  | .number (.pos n) => some n
  | _ => none

/-- Every item must be read. -/
def readAll {α β : Type} (f : α → Option β) : List α → Option (List β)
  | [] => some []
  | a :: as =>
    match f a with
    | none => none
    | some b => (readAll f as).map (b :: ·)

/-- `ReferenceValue`. -/
def loadReference (j : JVal) : Option ReferenceValue :=
  match j.variant with
  | none => none
  | some (tag, v) =>
    if tag = "Entity".toList then v.text.map .entity
    else if tag = "Field".toList then
      match v with
      | .array [.string a, .string b] => some (.field a b)
      | _ => none
    else none

/-- `FieldValue`, given the reading of list items. -/
def loadValueWith (C : Codec) (item : JVal → Option FieldValue) (j : JVal) : Option FieldValue :=
  match j.variant with
  | none => none
  | some (tag, v) =>
    if tag = "Boolean".toList then
      match v with
      | .bool b => some (.boolean b)
      | _ => none
    else if tag = "String".toList then v.text.map .string
    else if tag = "Integer".toList then
      match v with
      | .number n => n.asI64.map .integer
      | _ => none
    else if tag = "Float".toList then
      match v with
      | .number n => some (.float n.asF64)
      | _ => none
    else if tag = "Currency".toList then
      match (v.member "amount").bind JVal.text, (v.member "currency").bind JVal.text with
      | some a, some c =>
        match parseDecimal a with
        | some d => if C.knownCurrency c then some (.currency d c) else none
        | none => none
      | _, _ => none
    else if tag = "Reference".toList then (loadReference v).map .reference
    else if tag = "List".toList then
      match v.items with
      | none => none
      | some vs => (readAll item vs).map .list
    else if tag = "DateTime".toList then (v.text.bind C.readDate).map .dateTime
    else if tag = "Path".toList then v.text.map .path
    else if tag = "Enum".toList then v.text.map .enum
    else none

/-- `FieldValue`; the first argument bounds the nesting of lists, which is bounded by the text layer. -/
def loadValue (C : Codec) : Nat → JVal → Option FieldValue
  | 0, _ => none
  | n + 1, j => loadValueWith C (loadValue C n) j

/-- One field of an entity. -/
def loadField (C : Codec) (j : JVal) : Option (FieldId × FieldValue) :=
  match j with
  | .array [.string f, v] => (loadValue C 127 v).map fun x => (f, x)
  | _ => none

/-- `Entity`. -/
def loadEntity (C : Codec) (j : JVal) : Option Entity :=
  match (j.member "id").bind JVal.text, (j.member "entity_type").bind JVal.text,
      ((j.member "fields").bind JVal.items).bind (readAll (loadField C)) with
  | some id, some t, some fs => some ⟨id, t, fs⟩
  | _, _, _ => none

/-- `Relationship`. -/
def loadRelationship (j : JVal) : Option Relationship :=
  match j.variant with
  | none => none
  | some (tag, v) =>
    if tag = "EntityReference".toList then ((v.member "from_field").bind JVal.text).map .entityReference
    else if tag = "FieldReference".toList then
      match (v.member "from_field").bind JVal.text, (v.member "to_field").bind JVal.text with
      | some f, some t => some (.fieldReference f t)
      | _, _ => none
    else none

/-- An edge of petgraph's format; it must lead from a node to a node. -/
def loadEdge (nodes : Nat) (j : JVal) : Option Edge :=
  match j with
  | .array [a, b, w] =>
    match a.index, b.index, loadRelationship w with
    | some a, some b, some r => if a < nodes ∧ b < nodes then some ⟨a, b, r⟩ else none
    | _, _, _ => none
  | _ => none

/-- A hash map with text keys: a later entry replaces an earlier one. For the types this is
`deserialize_entity_type_map` — firm_core/src/graph/mod.rs:192-221. -/
def loadMap {α : Type} (f : JVal → Option α) (j : JVal) : Option (List (Str × α)) :=
  match j with
  | .object es =>
    (readAll (fun p : Str × JVal => (f p.2).map fun a => (p.1, a)) es).map
      (·.foldl (fun m p => mapInsert m p.1 p.2) [])
  | _ => none

/-- `EntityGraph` — firm_core/src/graph/mod.rs:31-40. -/
def loadGraph (C : Codec) (j : JVal) : Option Graph :=
  match (((j.member "graph").bind (·.member "nodes")).bind JVal.items).bind (readAll (loadEntity C)) with
  | none => none
  | some nodes =>
    match (((j.member "graph").bind (·.member "edges")).bind JVal.items).bind (readAll (loadEdge nodes.length)),
        (j.member "entity_map").bind (loadMap JVal.index),
        (j.member "entity_type_map").bind (loadMap fun v => v.items.bind (readAll JVal.index)) with
    | some edges, some ids, some types => some ⟨nodes, edges, ids, types⟩
    | _, _, _ => none

/-- The orders in which the two hash maps of a graph are enumerated. -/
structure MapOrder where
  ids : List (EntityId × Nat) → List (EntityId × Nat)
  types : List (EntityType × List Nat) → List (EntityType × List Nat)

/-- The text that `save_graph_with_backup` writes — firm_cli/src/files.rs:50. -/
def graphText (C : Codec) (o : MapOrder) (g : Graph) : Str :=
  jsonText C (saveGraph C g.nodes g.edges (o.ids g.idMap) (o.types g.typeMap))

/-- The graph that `load_current_graph` reads — firm_cli/src/files.rs:82. -/
def readGraph (C : Codec) (s : Str) : Option Graph := (jsonParse C s).bind (loadGraph C)

end Firm
