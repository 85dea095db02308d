import Verif.Model.Filter
import Verif.Model.Order
import Verif.Model.Aggregation
import Verif.Model.Generate

/-!
# The project's own unit tests, run on the model

These are tests, not proofs: each example is one unit test of the project with its assertions read
as statements about the model's functions on the same values. They support the claim that the model
is a model of this code; nothing else depends on them. This file has the vocabulary; the tests are
in the other files of this directory.
-/

namespace Firm.Conformance

/-- All assertions of one test. -/
abbrev checks (bs : List Bool) : Prop := bs.all id = true

/-- `assert!(r.unwrap())` or `assert!(!r.unwrap())`. -/
def answers (b : Bool) : Except QueryError Bool → Bool
  | .ok x => x == b
  | .error _ => false

/-- `assert_eq!(r.unwrap(), x)`. -/
def gives (r : Except QueryError AggregationResult) (x : AggregationResult) : Bool :=
  match r with
  | .ok y => y == x
  | .error _ => false

/-- `matches!(r, Err(QueryError::TypeMismatch { .. }))`. -/
def mismatched : Except QueryError Bool → Bool
  | .error (.typeMismatch _ _) => true
  | _ => false

/-- `matches!(r, Err(QueryError::UnsupportedOperator { .. }))`. -/
def unsupported : Except QueryError Bool → Bool
  | .error (.unsupportedOperator _ _ _) => true
  | _ => false

/-- `matches!(r, Err(QueryError::InvalidDateFormat { .. }))`. -/
def misdated : Except QueryError Bool → Bool
  | .error (.invalidDateFormat _) => true
  | _ => false

/-- `matches!(r, Err(QueryError::InvalidAggregation { .. }))`. -/
def unaggregated : Except QueryError AggregationResult → Bool
  | .error (.invalidAggregation _) => true
  | _ => false

/-- The external functions on the texts and numbers the tests use. -/
def projectEnv : Env where
  lower := asciiLower
  decOfF64 := fun x => match x with
    | .fin q => if (q * 100000).den = 1 then some ⟨(q * 100000).num, 5⟩ else none
    | .negZero => some ⟨0, 0⟩
    | _ => none
  decToF64 := fun d => some (F64.rnd d.val)
  decAddWide := fun _ _ => none
  overflowChecks := true
  parseDateTime := fun s => [
    ("2024-01-15T10:30:00+00:00".toList, ⟨1705314600, 0, 0⟩),
    ("2024-02-20T14:45:00+00:00".toList, ⟨1708440300, 0, 0⟩),
    ("2024-03-01T00:00:00+00:00".toList, ⟨1709251200, 0, 0⟩),
    ("2025-09-30T08:00:00+00:00".toList, ⟨1759219200, 0, 0⟩),
    ("2025-09-30T10:00:00+01:00".toList, ⟨1759222800, 0, 3600⟩),
    ("2025-09-30T10:00:00+02:00".toList, ⟨1759219200, 0, 7200⟩),
    ("2025-09-30T10:15:00+02:00".toList, ⟨1759220100, 0, 7200⟩),
    ("2025-09-30T11:15:00+02:00".toList, ⟨1759223700, 0, 7200⟩)].lookup s
  parseDate := fun s => [
    ("2024-02-29".toList, 19782),
    ("2024-12-31".toList, 20088),
    ("2025-09-01".toList, 20332),
    ("2025-09-30".toList, 20361),
    ("2025-10-01".toList, 20362)].lookup s

/-- Texts of the floats the tests print. -/
def projectLang : Lang where
  env := projectEnv
  cases := asciiTable
  localOffset := 0
  knownCurrency c := c == "EUR".toList || c == "USD".toList || c == "DKK".toList
  parseF64 _ := none
  showF64 f := if f = .fin 0 then "0".toList else if f = .fin (-5 / 2) then "-2.5".toList
    else "3.14159".toList

end Firm.Conformance
