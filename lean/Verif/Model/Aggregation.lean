import Verif.Model.Filter

/-!
# Aggregations

Rust sources: `/repo/firm_core/src/graph/query/aggregation/*.rs`.
-/

namespace Firm

/-- `Aggregation` — query/types.rs:26-37. -/
inductive Aggregation where
  | select (fields : List FieldRef)
  | count (field : Option FieldRef)
  | sum (field : FieldRef)
  | average (field : FieldRef)
  | median (field : FieldRef)
  deriving Repr, Inhabited

/-- `AggregateValue` — query/types.rs:93-100. -/
inductive AggregateValue where
  | integer (n : Int)
  | float (f : F64)
  | currency (amount : Decimal) (code : Str)
  deriving DecidableEq, Repr, Inhabited

/-- `AggregationResult` — query/types.rs:50-64. -/
inductive AggregationResult where
  | select (columns : List Str) (rows : List (List (Option FieldValue)))
  | count (n : Nat)
  | sum (v : AggregateValue)
  | average (f : F64)
  | median (f : F64)
  deriving DecidableEq, Repr, Inhabited

/-- `NumericValue` — aggregation/mod.rs:45-52. -/
inductive NumericValue where
  | integer (n : Int)
  | float (f : F64)
  | currency (amount : Decimal) (code : Str)
  deriving DecidableEq, Repr, Inhabited

/-- `NumericValue::as_f64` — aggregation/mod.rs:55-64. -/
def NumericValue.asF64 (env : Env) : NumericValue → F64
  | .integer n => F64.ofInt n
  | .float f => f
  | .currency d _ => (env.decToF64 d).getD (.fin 0)

/-- `require_regular_field` — aggregation/mod.rs:28-41. -/
def requireRegularField : FieldRef → Except QueryError FieldId
  | .regular f => .ok f
  | .metadata _ => .error (.invalidAggregation .metadataField)

/-- The match on one field value in `collect_numeric_values` — aggregation/mod.rs:116-138. -/
def numericOf (f : FieldId) : FieldValue → Except QueryError NumericValue
  | .integer n => .ok (.integer n)
  | .float x => .ok (.float x)
  | .currency d c => .ok (.currency d c)
  | other => .error (.invalidAggregation (.nonNumeric f other.getType))

/-- `collect_numeric_values` — aggregation/mod.rs:108-143. -/
def collectNumericValues (f : FieldId) : List Entity → Except QueryError (List NumericValue)
  | [] => .ok []
  | e :: es =>
    match e.getField f with
    | none => collectNumericValues f es
    | some v =>
      match numericOf f v with
      | .error err => .error err
      | .ok n =>
        match collectNumericValues f es with
        | .error err => .error err
        | .ok ns => .ok (n :: ns)

/-- `NumericType` — aggregation/mod.rs:68-72. -/
inductive NumericType where
  | integer | float | currency (code : Str)
  deriving DecidableEq, Repr, Inhabited

/-- State of the loop of `classify_numeric_type`. -/
structure ClassifyState where
  hasInteger : Bool
  hasFloat : Bool
  currency : Option Str
  deriving DecidableEq, Repr, Inhabited

/-- Loop body of `classify_numeric_type` — aggregation/mod.rs:80-88: the last currency wins. -/
def classifyStep (s : ClassifyState) : NumericValue → ClassifyState
  | .integer _ => { s with hasInteger := true }
  | .float _ => { s with hasFloat := true }
  | .currency _ c => { s with currency := some c }

/-- `classify_numeric_type` — aggregation/mod.rs:75-105. -/
def classifyNumericType (vs : List NumericValue) : Except QueryError NumericType :=
  let s := vs.foldl classifyStep ⟨false, false, none⟩
  if s.currency.isSome && (s.hasInteger || s.hasFloat) then
    .error (.invalidAggregation .mixedCurrencyAndNumber)
  else
    match s.currency with
    | some c => .ok (.currency c)
    | none => if s.hasFloat then .ok .float else .ok .integer

/-- Is `n` an `i64`? -/
def isI64 (n : Int) : Bool := -(2 ^ 63) ≤ n && n < 2 ^ 63

/-- Two's complement wrap-around to `i64`. -/
def wrapI64 (n : Int) : Int := (n + 2 ^ 63) % 2 ^ 64 - 2 ^ 63

/-- `i64` addition: panics on overflow with checks, wraps without. -/
def addI64 (env : Env) (a b : Int) : Except QueryError Int :=
  if isI64 (a + b) then .ok (a + b)
  else if env.overflowChecks then .error .panic
  else .ok (wrapI64 (a + b))

/-- `Iterator::sum::<i64>()`: left fold from 0. -/
def sumI64 (env : Env) : Int → List Int → Except QueryError Int
  | acc, [] => .ok acc
  | acc, n :: ns =>
    match addI64 env acc n with
    | .ok acc' => sumI64 env acc' ns
    | .error e => .error e

/-- `Iterator::sum::<f64>()`: left fold from `-0.0`. -/
def sumF64 (xs : List F64) : F64 := xs.foldl F64.add .negZero

/-- `Decimal + Decimal`: exact when the exact sum fits. -/
def addDecimal (env : Env) (a b : Decimal) : Except QueryError Decimal :=
  if (a.addExact b).fits then .ok (a.addExact b)
  else
    match env.decAddWide a b with
    | some d => .ok d
    | none => .error .panic

/-- The integer values, with `0` for the others (`_ => 0`) — aggregation/sum.rs:24-27. -/
def NumericValue.intOr0 : NumericValue → Int
  | .integer n => n
  | _ => 0

/-- The currency loop of `sum` — aggregation/sum.rs:36-56. The `unreachable!()` case cannot happen
after `classify_numeric_type`; it is rendered as skipping the value. -/
def sumCurrency (env : Env) (expected : Str) : Decimal → List NumericValue → Except QueryError Decimal
  | total, [] => .ok total
  | total, v :: vs =>
    match v with
    | .currency amount code =>
      if code ≠ expected then .error (.invalidAggregation (.mixedCurrencies expected code))
      else
        match addDecimal env total amount with
        | .ok t => sumCurrency env expected t vs
        | .error e => .error e
    | _ => sumCurrency env expected total vs

/-- `sum::execute` — aggregation/sum.rs:9-63. -/
def executeSum (env : Env) (field : FieldRef) (es : List Entity) :
    Except QueryError AggregationResult :=
  match requireRegularField field with
  | .error e => .error e
  | .ok f =>
    match collectNumericValues f es with
    | .error e => .error e
    | .ok values =>
      if values.isEmpty then .ok (.sum (.integer 0))
      else
        match classifyNumericType values with
        | .error e => .error e
        | .ok .integer =>
          match sumI64 env 0 (values.map (·.intOr0)) with
          | .ok n => .ok (.sum (.integer n))
          | .error e => .error e
        | .ok .float => .ok (.sum (.float (sumF64 (values.map (·.asF64 env)))))
        | .ok (.currency c) =>
          match sumCurrency env c ⟨0, 0⟩ values with
          | .ok d => .ok (.sum (.currency d c))
          | .error e => .error e

/-- `average::execute` — aggregation/average.rs:9-26. -/
def executeAverage (env : Env) (field : FieldRef) (es : List Entity) :
    Except QueryError AggregationResult :=
  match requireRegularField field with
  | .error e => .error e
  | .ok f =>
    match collectNumericValues f es with
    | .error e => .error e
    | .ok values =>
      if values.isEmpty then .error (.invalidAggregation .emptyResult)
      else .ok (.average ((sumF64 (values.map (·.asF64 env))).divPos (values.length : Rat)))

/-- The comparator of `median` — aggregation/median.rs:23. -/
def medianLe (a b : F64) : Bool := ((a.partialCmp b).getD .eq).isLE

/-- The median of sorted values — aggregation/median.rs:25-30. Indexing panics out of range, which
cannot happen for a non-empty list; rendered with `getD`. -/
def medianOf (sorted : List F64) : F64 :=
  let len := sorted.length
  if len % 2 = 0 then
    ((sorted.getD (len / 2 - 1) .nan).add (sorted.getD (len / 2) .nan)).divPos 2
  else sorted.getD (len / 2) .nan

/-- `median::execute` — aggregation/median.rs:9-33. -/
def executeMedian (env : Env) (field : FieldRef) (es : List Entity) :
    Except QueryError AggregationResult :=
  match requireRegularField field with
  | .error e => .error e
  | .ok f =>
    match collectNumericValues f es with
    | .error e => .error e
    | .ok values =>
      if values.isEmpty then .error (.invalidAggregation .emptyResult)
      else .ok (.median (medianOf (stableSort medianLe (values.map (·.asF64 env)))))

/-- `count::execute` — aggregation/count.rs:8-21. -/
def executeCount (field : Option FieldRef) (es : List Entity) : AggregationResult :=
  match field with
  | none => .count es.length
  | some (.metadata _) => .count es.length
  | some (.regular f) => .count (es.filter fun e => (e.getField f).isSome).length

/-- Column title — aggregation/select.rs:12-19. -/
def columnName : FieldRef → Str
  | .metadata .id => "@id".toList
  | .metadata .type => "@type".toList
  | .regular f => f

/-- Cell of a row — aggregation/select.rs:26-34. -/
def cellOf (e : Entity) : FieldRef → Option FieldValue
  | .metadata .id => some (.string e.id)
  | .metadata .type => some (.string e.entityType)
  | .regular f => e.getField f

/-- `select::execute` — aggregation/select.rs:8-40. -/
def executeSelect (fields : List FieldRef) (es : List Entity) : AggregationResult :=
  .select (fields.map columnName) (es.map fun e => fields.map (cellOf e))

/-- `Aggregation::execute` — aggregation/mod.rs:16-25. -/
def Aggregation.execute (env : Env) (a : Aggregation) (es : List Entity) :
    Except QueryError AggregationResult :=
  match a with
  | .select fields => .ok (executeSelect fields es)
  | .count field => .ok (executeCount field es)
  | .sum field => executeSum env field es
  | .average field => executeAverage env field es
  | .median field => executeMedian env field es

end Firm
