import Verif.Model.Graph

/-!
# Filter conditions

Rust sources: `/repo/firm_core/src/graph/query/filter/*.rs`, `query_errors.rs`.
-/

namespace Firm

/-- `Combinator` — filter/types.rs:7-11. -/
inductive Combinator where
  | and | or
  deriving DecidableEq, Repr, Inhabited

/-- `MetadataField` — filter/types.rs:24-27. -/
inductive MetadataField where
  | type | id
  deriving DecidableEq, Repr, Inhabited

/-- `FieldRef` — filter/types.rs:15-20. -/
inductive FieldRef where
  | metadata (m : MetadataField)
  | regular (f : FieldId)
  deriving DecidableEq, Repr, Inhabited

/-- `FilterOperator` — filter/types.rs:31-42. -/
inductive FilterOperator where
  | equal | notEqual | greaterThan | lessThan | greaterOrEqual | lessOrEqual
  | contains | startsWith | endsWith | isIn
  deriving DecidableEq, Repr, Inhabited

/-- `FilterValue` — filter/types.rs:46-57. -/
inductive FilterValue where
  | string (s : Str)
  | integer (n : Int)
  | float (f : F64)
  | boolean (b : Bool)
  | currency (amount : F64) (code : Str)
  | dateTime (s : Str)
  | reference (s : Str)
  | path (s : Str)
  | enum (s : Str)
  | list (vs : List FilterValue)
  deriving Repr, Inhabited

/-- The kind of a filter value; stands for `FilterValue::type_name` — filter/types.rs:61-74. -/
inductive FilterKind where
  | string | integer | float | boolean | currency | dateTime | reference | path | enum | list
  deriving DecidableEq, Repr, Inhabited

/-- `FilterValue::type_name` — filter/types.rs:61-74. -/
def FilterValue.kind : FilterValue → FilterKind
  | .string _ => .string
  | .integer _ => .integer
  | .float _ => .float
  | .boolean _ => .boolean
  | .currency _ _ => .currency
  | .dateTime _ => .dateTime
  | .reference _ => .reference
  | .path _ => .path
  | .enum _ => .enum
  | .list _ => .list

/-- Reasons of `QueryError::InvalidAggregation`; the Rust message is a function of this data. -/
inductive AggError where
  | metadataField
  | emptyResult
  | nonNumeric (f : FieldId) (t : FieldType)
  | mixedCurrencyAndNumber
  | mixedCurrencies (expected found : Str)
  deriving DecidableEq, Repr, Inhabited

/-- `QueryError` — query_errors.rs:7-32, with the payload kept structured instead of rendered to
text. `panic` is not a `QueryError`: it stands for a panic of the running query (overflow of integer
or decimal addition, a sort that detects an inconsistent comparator). -/
inductive QueryError where
  | unsupportedOperator (t : FieldType) (op : FilterOperator) (supported : List FilterOperator)
  | typeMismatch (t : FieldType) (k : FilterKind)
  | unknownEntityType (requested : EntityType) (available : List EntityType)
  | invalidDateFormat (value : Str)
  | invalidAggregation (e : AggError)
  | panic
  deriving DecidableEq, Repr, Inhabited

/-- Supported operators of text fields — filter/string.rs:56-62. -/
def stringOps : List FilterOperator := [.equal, .notEqual, .contains, .startsWith, .endsWith]
/-- `SUPPORTED_OPS` — filter/numeric.rs:7, currency.rs:8, datetime.rs:8. -/
def orderOps : List FilterOperator :=
  [.equal, .notEqual, .greaterThan, .lessThan, .greaterOrEqual, .lessOrEqual]
/-- Supported operators of booleans and references — filter/boolean.rs:30, reference.rs:28. -/
def equalityOps : List FilterOperator := [.equal, .notEqual]
/-- Supported operators of lists — filter/list.rs:68. -/
def listOps : List FilterOperator := [.contains, .equal]

/-- The operator table shared by `compare_string` and `compare_path` — filter/string.rs:41-64 and 91-114. -/
def compareText (env : Env) (t : FieldType) (value : Str) (op : FilterOperator) (filterStr : Str) :
    Except QueryError Bool :=
  match op with
  | .equal => .ok (eqIgnoreAsciiCase value filterStr)
  | .notEqual => .ok (!eqIgnoreAsciiCase value filterStr)
  | .contains => .ok (strContains (env.lower value) (env.lower filterStr))
  | .startsWith => .ok (startsWith (env.lower value) (env.lower filterStr))
  | .endsWith => .ok (endsWith (env.lower value) (env.lower filterStr))
  | _ => .error (.unsupportedOperator t op stringOps)

/-- The text of a filter value accepted for text fields — filter/string.rs:29-39 and 79-89. -/
def FilterValue.text? : FilterValue → Option Str
  | .string s => some s
  | .enum s => some s
  | .path s => some s
  | _ => none

/-- `compare_string` — filter/string.rs:9-65, and `compare_path` — filter/string.rs:68-115.
Simplification: a path is always valid UTF-8 (the Rust code answers `Ok(false)` otherwise). -/
def compareString (env : Env) (fv : FieldValue) (op : FilterOperator) (v : FilterValue) :
    Except QueryError Bool :=
  match fv with
  | .string s | .enum s | .path s =>
    match v.text? with
    | some t => compareText env fv.getType s op t
    | none => .error (.typeMismatch fv.getType v.kind)
  | _ => .error (.typeMismatch fv.getType v.kind)

/-- `compare_integer` — filter/numeric.rs:10-49. -/
def compareInteger (fv : FieldValue) (op : FilterOperator) (v : FilterValue) :
    Except QueryError Bool :=
  match fv with
  | .integer value =>
    match v with
    | .integer n =>
      match op with
      | .equal => .ok (decide (value = n))
      | .notEqual => .ok (decide (value ≠ n))
      | .greaterThan => .ok (decide (value > n))
      | .lessThan => .ok (decide (value < n))
      | .greaterOrEqual => .ok (decide (value ≥ n))
      | .lessOrEqual => .ok (decide (value ≤ n))
      | _ => .error (.unsupportedOperator .integer op orderOps)
    | .float x =>
      match op with
      | .equal => .ok ((F64.ofInt value).eq x)
      | .notEqual => .ok (!(F64.ofInt value).eq x)
      | .greaterThan => .ok ((F64.ofInt value).gt x)
      | .lessThan => .ok ((F64.ofInt value).lt x)
      | .greaterOrEqual => .ok ((F64.ofInt value).ge x)
      | .lessOrEqual => .ok ((F64.ofInt value).le x)
      | _ => .error (.unsupportedOperator .integer op orderOps)
    | _ => .error (.typeMismatch .integer v.kind)
  | _ => .error (.typeMismatch fv.getType v.kind)

/-- The operator table of `compare_float` — filter/numeric.rs:68-85 (twice, once per filter kind). -/
def compareFloatOp (value : F64) (op : FilterOperator) (x : F64) : Except QueryError Bool :=
  match op with
  | .equal => .ok ((value.sub x).abs.lt F64.epsilon)
  | .notEqual => .ok ((value.sub x).abs.ge F64.epsilon)
  | .greaterThan => .ok (value.gt x)
  | .lessThan => .ok (value.lt x)
  | .greaterOrEqual => .ok (value.ge x)
  | .lessOrEqual => .ok (value.le x)
  | _ => .error (.unsupportedOperator .float op orderOps)

/-- `compare_float` — filter/numeric.rs:52-91. -/
def compareFloat (fv : FieldValue) (op : FilterOperator) (v : FilterValue) :
    Except QueryError Bool :=
  match fv with
  | .float value =>
    match v with
    | .float x => compareFloatOp value op x
    | .integer n => compareFloatOp value op (F64.ofInt n)
    | _ => .error (.typeMismatch .float v.kind)
  | _ => .error (.typeMismatch fv.getType v.kind)

/-- `compare_boolean` — filter/boolean.rs:8-38. -/
def compareBoolean (fv : FieldValue) (op : FilterOperator) (v : FilterValue) :
    Except QueryError Bool :=
  match fv with
  | .boolean value =>
    match v with
    | .boolean b =>
      match op with
      | .equal => .ok (value == b)
      | .notEqual => .ok (value != b)
      | _ => .error (.unsupportedOperator .boolean op equalityOps)
    | _ => .error (.typeMismatch .boolean v.kind)
  | _ => .error (.typeMismatch fv.getType v.kind)

/-- The operator table of an ordered comparison, given the result of `cmp` — filter/currency.rs:42-54,
filter/datetime.rs:56-68 and 78-90. -/
def orderedOp (t : FieldType) (o : Ordering) (op : FilterOperator) : Except QueryError Bool :=
  match op with
  | .equal => .ok (o == .eq)
  | .notEqual => .ok (o != .eq)
  | .greaterThan => .ok (o == .gt)
  | .lessThan => .ok (o == .lt)
  | .greaterOrEqual => .ok (o != .lt)
  | .lessOrEqual => .ok (o != .gt)
  | _ => .error (.unsupportedOperator t op orderOps)

/-- `compare_currency` — filter/currency.rs:11-64. -/
def compareCurrency (env : Env) (fv : FieldValue) (op : FilterOperator) (v : FilterValue) :
    Except QueryError Bool :=
  match fv with
  | .currency amount code =>
    match v with
    | .currency x filterCode =>
      if code ≠ filterCode then .ok false
      else
        match env.decOfF64 x with
        | some d => orderedOp .currency (amount.cmp d) op
        | none => .ok false
    | _ => .error (.typeMismatch .currency v.kind)
  | _ => .error (.typeMismatch fv.getType v.kind)

/-- `compare_with_date` compares calendar dates — filter/datetime.rs:71-91. -/
def compareWithDate (d : DateTime) (day : Int) (op : FilterOperator) : Except QueryError Bool :=
  orderedOp .dateTime (compare d.localDay day) op

/-- `compare_with_datetime` — filter/datetime.rs:50-69. -/
def compareWithDateTime (d x : DateTime) (op : FilterOperator) : Except QueryError Bool :=
  orderedOp .dateTime (d.cmp x) op

/-- `compare_datetime` — filter/datetime.rs:11-48. -/
def compareDateTime (env : Env) (fv : FieldValue) (op : FilterOperator) (v : FilterValue) :
    Except QueryError Bool :=
  match fv with
  | .dateTime d =>
    match v with
    | .dateTime s =>
      match env.parseDateTime s with
      | some x => compareWithDateTime d x op
      | none =>
        match env.parseDate s with
        | some day => compareWithDate d day op
        | none => .error (.invalidDateFormat s)
    | _ => .error (.typeMismatch .dateTime v.kind)
  | _ => .error (.typeMismatch fv.getType v.kind)

/-- `compare_reference` — filter/reference.rs:8-60. -/
def compareReference (fv : FieldValue) (op : FilterOperator) (v : FilterValue) :
    Except QueryError Bool :=
  match fv with
  | .reference r =>
    if op ≠ .equal ∧ op ≠ .notEqual then .error (.unsupportedOperator .reference op equalityOps)
    else
      match v with
      | .reference s | .string s =>
        let m := eqIgnoreAsciiCase r.display s
        .ok (if op = .equal then m else !m)
      | _ => .error (.typeMismatch .reference v.kind)
  | _ => .error (.typeMismatch fv.getType v.kind)

/-- `compare_list_item` — filter/list.rs:75-92. -/
def compareListItem (env : Env) (item : FieldValue) (op : FilterOperator) (v : FilterValue) :
    Except QueryError Bool :=
  match item with
  | .string _ | .enum _ | .path _ => compareString env item op v
  | .integer _ => compareInteger item op v
  | .float _ => compareFloat item op v
  | .boolean _ => compareBoolean item op v
  | .currency _ _ => compareCurrency env item op v
  | .dateTime _ => compareDateTime env item op v
  | .reference _ => compareReference item op v
  | .list _ => .ok false

/-- The match on item and filter value inside the `Contains` loop — filter/list.rs:30-37. -/
def listItemMatches (env : Env) (item : FieldValue) (v : FilterValue) : Except QueryError Bool :=
  match item, v with
  | .string _, .string _ => compareString env item .contains v
  | _, _ => compareListItem env item .equal v

/-- The `Contains` loop with early exit — filter/list.rs:29-42. -/
def listContains (env : Env) (v : FilterValue) : List FieldValue → Except QueryError Bool
  | [] => .ok false
  | item :: items =>
    match listItemMatches env item v with
    | .error e => .error e
    | .ok true => .ok true
    | .ok false => listContains env v items

/-- The zip loop of `Equal` with early exit — filter/list.rs:52-57. -/
def listEqualItems (env : Env) : List FieldValue → List FilterValue → Except QueryError Bool
  | item :: items, v :: vs =>
    match compareListItem env item .equal v with
    | .error e => .error e
    | .ok false => .ok false
    | .ok true => listEqualItems env items vs
  | _, _ => .ok true

/-- `compare_list` — filter/list.rs:9-71. -/
def compareList (env : Env) (fv : FieldValue) (op : FilterOperator) (v : FilterValue) :
    Except QueryError Bool :=
  match fv with
  | .list items =>
    match op with
    | .contains => listContains env v items
    | .equal =>
      match v with
      | .list vs => if items.length ≠ vs.length then .ok false else listEqualItems env items vs
      | _ => .error (.typeMismatch .list v.kind)
    | _ => .error (.unsupportedOperator .list op listOps)
  | _ => .error (.typeMismatch fv.getType v.kind)

/-- `FilterCondition` — filter/mod.rs:20-24. -/
structure FilterCondition where
  field : FieldRef
  operator : FilterOperator
  value : FilterValue
  deriving Repr, Inhabited

/-- The dispatch on the field value — filter/mod.rs:107-130. -/
def compareField (env : Env) (fv : FieldValue) (op : FilterOperator) (v : FilterValue) :
    Except QueryError Bool :=
  match fv with
  | .string _ | .enum _ | .path _ => compareString env fv op v
  | .integer _ => compareInteger fv op v
  | .float _ => compareFloat fv op v
  | .boolean _ => compareBoolean fv op v
  | .currency _ _ => compareCurrency env fv op v
  | .dateTime _ => compareDateTime env fv op v
  | .reference _ => compareReference fv op v
  | .list _ => compareList env fv op v

/-- `matches_metadata` — filter/mod.rs:86-97. -/
def FilterCondition.matchesMetadata (env : Env) (c : FilterCondition) (e : Entity)
    (m : MetadataField) : Except QueryError Bool :=
  let fv := match m with
    | .type => FieldValue.string e.entityType
    | .id => FieldValue.string e.id
  compareString env fv c.operator c.value

/-- `matches_field` — filter/mod.rs:99-131. -/
def FilterCondition.matchesField (env : Env) (c : FilterCondition) (e : Entity) (f : FieldId) :
    Except QueryError Bool :=
  match e.getField f with
  | some fv => compareField env fv c.operator c.value
  | none => .ok false

/-- `FilterCondition::matches` — filter/mod.rs:37-42. -/
def FilterCondition.matches (env : Env) (c : FilterCondition) (e : Entity) :
    Except QueryError Bool :=
  match c.field with
  | .metadata m => c.matchesMetadata env e m
  | .regular f => c.matchesField env e f

/-- `CompoundFilterCondition` — filter/mod.rs:46-50. -/
structure CompoundCondition where
  conditions : List FilterCondition
  combinator : Combinator
  deriving Repr, Inhabited

/-- `CompoundFilterCondition::single` — filter/mod.rs:62-67. -/
def CompoundCondition.single (c : FilterCondition) : CompoundCondition := ⟨[c], .and⟩

/-- `iter().map(f).collect::<Result<Vec<_>, _>>()`: stops at the first error. -/
def collectResults {α β ε : Type} (f : α → Except ε β) : List α → Except ε (List β)
  | [] => .ok []
  | a :: as =>
    match f a with
    | .error e => .error e
    | .ok b =>
      match collectResults f as with
      | .error e => .error e
      | .ok bs => .ok (b :: bs)

/-- `CompoundFilterCondition::matches` — filter/mod.rs:70-81. -/
def CompoundCondition.matches (env : Env) (c : CompoundCondition) (e : Entity) :
    Except QueryError Bool :=
  match collectResults (fun c => c.matches env e) c.conditions with
  | .error err => .error err
  | .ok rs =>
    match c.combinator with
    | .and => .ok (rs.all id)
    | .or => .ok (rs.any id)

end Firm
