import Verif.Spec.Graph
import Verif.Model.Query

/-!
# Specification of queries

Stated about plain lists of entities and exact numbers, without the model's loops.
-/

namespace Firm.Spec
open Firm

/-- `b` is reached from `a` over at most `n` links. -/
inductive Within {α : Type} (link : α → α → Prop) : Nat → α → α → Prop
  | here (n : Nat) (a : α) : Within link n a a
  | step (n : Nat) (a b c : α) : link a b → Within link n b c → Within link (n + 1) a c

/-- Both entities are in the collection and one refers to the other. -/
def RefLink (es : List Entity) (a b : Entity) : Prop :=
  a ∈ es ∧ b ∈ es ∧ (RefersTo a b.id ∨ RefersTo b a.id)

/-! ## Conditions -/

/-- Both characters are the same letter up to ASCII case. -/
def SameLetter (a b : Char) : Prop :=
  a = b ∨ (65 ≤ a.toNat ∧ a.toNat ≤ 90 ∧ b.toNat = a.toNat + 32) ∨
    (65 ≤ b.toNat ∧ b.toNat ≤ 90 ∧ a.toNat = b.toNat + 32)

/-- The texts agree up to ASCII case. -/
def SameText (a b : Str) : Prop :=
  a.length = b.length ∧ ∀ p ∈ a.zip b, SameLetter p.1 p.2

/-- `needle` occurs in `hay`. -/
def Occurs (needle hay : Str) : Prop := ∃ pre post, hay = pre ++ needle ++ post

/-- The answers of one condition for the six ordering operators are exactly those of the relations
`lt`, `eq`, `gt`. -/
structure AnswersOrder (answer : FilterOperator → Except QueryError Bool) (lt eq gt : Prop) :
    Prop where
  less : ∃ b, answer .lessThan = .ok b ∧ (b = true ↔ lt)
  equal : ∃ b, answer .equal = .ok b ∧ (b = true ↔ eq)
  greater : ∃ b, answer .greaterThan = .ok b ∧ (b = true ↔ gt)
  notEqual : ∃ b, answer .notEqual = .ok b ∧ (b = true ↔ ¬ eq)
  lessOrEqual : ∃ b, answer .lessOrEqual = .ok b ∧ (b = true ↔ lt ∨ eq)
  greaterOrEqual : ∃ b, answer .greaterOrEqual = .ok b ∧ (b = true ↔ gt ∨ eq)

/-- Nanoseconds since the epoch. -/
def instantNs (d : DateTime) : Int := d.secs * 1000000000 + d.nanos

/-- The number a finite `f64` stands for. -/
def finiteValue : F64 → Option Rat
  | .fin q => some q
  | .negZero => some 0
  | _ => none

/-- The text of a string, enum or path value. -/
def textOf : FieldValue → Option Str
  | .string s => some s
  | .enum s => some s
  | .path s => some s
  | _ => none

/-- Which filter kinds can be compared with a field of type `t`. -/
def comparable : FieldType → FilterKind → Bool
  | .string, .string | .string, .enum | .string, .path
  | .enum, .string | .enum, .enum | .enum, .path
  | .path, .string | .path, .enum | .path, .path
  | .integer, .integer | .integer, .float
  | .float, .integer | .float, .float
  | .boolean, .boolean
  | .currency, .currency
  | .dateTime, .dateTime
  | .reference, .reference | .reference, .string => true
  | _, _ => false

/-- Which operators a field of type `t` supports. -/
def operators : FieldType → List FilterOperator
  | .string | .enum | .path => [.equal, .notEqual, .contains, .startsWith, .endsWith]
  | .integer | .float | .currency | .dateTime =>
    [.equal, .notEqual, .greaterThan, .lessThan, .greaterOrEqual, .lessOrEqual]
  | .boolean | .reference => [.equal, .notEqual]
  | .list => [.contains, .equal]

/-- Fields of a scalar type: incomparable kinds are a type mismatch, other operators are unsupported;
for references the operator is looked at first. -/
def rejection (t : FieldType) (op : FilterOperator) (k : FilterKind) : Option QueryError :=
  if t = .reference then
    if op ∉ operators t then some (.unsupportedOperator t op (operators t))
    else if comparable t k = false then some (.typeMismatch t k) else none
  else
    if comparable t k = false then some (.typeMismatch t k)
    else if op ∉ operators t then some (.unsupportedOperator t op (operators t)) else none

/-- Comparing this currency field with this currency value has no answer: the codes differ or the
amount of the filter is not a decimal. -/
def CurrencyApart (env : Env) : FieldValue → FilterValue → Prop
  | .currency _ c, .currency x c' => c ≠ c' ∨ env.decOfF64 x = none
  | _, _ => False

/-- A date-time filter that can be read neither as date-time nor as date. -/
def Unreadable (env : Env) : FieldValue → FilterValue → Prop
  | .dateTime _, .dateTime s => env.parseDateTime s = none ∧ env.parseDate s = none
  | _, _ => False

/-- The difference of the two floats is not a number: one is NaN, or they are the same infinity. -/
def FloatApart : FieldValue → FilterValue → Prop
  | .float a, .float b => a = .nan ∨ b = .nan ∨ (∃ s, a = .inf s ∧ b = .inf s)
  | .float a, .integer _ => a = .nan
  | _, _ => False

/-! ## Order -/

/-- `a` equals `b` or is smaller at the first difference, a proper beginning being smaller. -/
def LexNotAfter {α : Type} (lt : α → α → Prop) (a b : List α) : Prop :=
  (∃ r, b = a ++ r) ∨ ∃ p x y r s, a = p ++ x :: r ∧ b = p ++ y :: s ∧ lt x y

/-- Texts in the order of their code points. -/
def TextNotAfter (a b : Str) : Prop := LexNotAfter (fun x y : Char => x < y) a b

/-- Path components: the root, then `.`, then `..`, then names by their text. -/
def CompBefore : PathComp → PathComp → Prop
  | .rootDir, .rootDir => False
  | .rootDir, _ => True
  | .curDir, .rootDir => False
  | .curDir, .curDir => False
  | .curDir, _ => True
  | .parentDir, .normal _ => True
  | .parentDir, _ => False
  | .normal a, .normal b => TextNotAfter a b ∧ a ≠ b
  | .normal _, _ => False

/-- Floats on the extended line, NaN after everything. -/
def FloatNotAfter (a b : F64) : Prop :=
  b = .nan ∨ (a ≠ .nan ∧ (a = .inf true ∨ b = .inf false ∨
    ∃ p q, finiteValue a = some p ∧ finiteValue b = some q ∧ p ≤ q))

/-- The order on values of one scalar kind: booleans `false` first, numbers and instants by size,
texts by their lower-cased code points, currency by code and then amount, references by their
lower-cased text, paths by components. -/
def NotAfter (env : Env) : FieldValue → FieldValue → Prop
  | .boolean a, .boolean b => a = true → b = true
  | .integer a, .integer b => a ≤ b
  | .float a, .float b => FloatNotAfter a b
  | .string a, .string b => TextNotAfter (env.lower a) (env.lower b)
  | .enum a, .enum b => TextNotAfter (env.lower a) (env.lower b)
  | .path a, .path b => LexNotAfter CompBefore (pathComponents a) (pathComponents b)
  | .dateTime a, .dateTime b => a.secs < b.secs ∨ (a.secs = b.secs ∧ a.nanos ≤ b.nanos)
  | .currency a ac, .currency b bc => (ac = bc ∧ a.val ≤ b.val) ∨ (ac ≠ bc ∧ TextNotAfter ac bc)
  | .reference a, .reference b => TextNotAfter (env.lower a.display) (env.lower b.display)
  | _, _ => False

/-- What an entity is ordered by: a field's value, or its id or type as text. -/
def valueAt (e : Entity) : FieldRef → Option FieldValue
  | .regular f => e.getField f
  | .metadata .id => some (.string e.id)
  | .metadata .type => some (.string e.entityType)

/-- The order with missing values at the end. -/
def OptNotAfter (env : Env) : Option FieldValue → Option FieldValue → Prop
  | _, none => True
  | none, some _ => False
  | some a, some b => NotAfter env a b

/-- `a` may stand before `b` when ordering by `f` in direction `dir`. -/
def InOrder (env : Env) (f : FieldRef) : SortDirection → Entity → Entity → Prop
  | .ascending, a, b => OptNotAfter env (valueAt a f) (valueAt b f)
  | .descending, a, b => OptNotAfter env (valueAt b f) (valueAt a f)

/-- The present values of the column are all of one scalar kind. -/
def OneKind (f : FieldRef) (es : List Entity) : Prop :=
  ∃ k : FieldType, k ≠ .list ∧ ∀ e ∈ es, ∀ v, valueAt e f = some v → v.getType = k

/-- Neither comes before the other. -/
def Tied (env : Env) (f : FieldRef) (a b : Entity) : Prop :=
  InOrder env f .ascending a b ∧ InOrder env f .ascending b a

mutual
/-- Values among which the comparator is consistent: of the three kinds of text only `text` occurs
(also inside lists), and integers that occur together with floats are exactly representable. -/
def Sortable (text : FieldType) (floats : Bool) : FieldValue → Prop
  | .string _ => text = .string
  | .enum _ => text = .enum
  | .path _ => text = .path
  | .integer n => floats = true → F64.ofInt n = .fin n
  | .float _ => floats = true
  | .list l => SortableList text floats l
  | _ => True
/-- All elements are. -/
def SortableList (text : FieldType) (floats : Bool) : List FieldValue → Prop
  | [] => True
  | v :: vs => Sortable text floats v ∧ SortableList text floats vs
end

/-! ## Aggregation -/

/-- The present values of a field, in order. -/
def present (f : FieldId) (es : List Entity) : List FieldValue := es.filterMap (·.getField f)

/-- Integers, floats and currency amounts. -/
def IsNumber : FieldValue → Prop
  | .integer _ => True
  | .float _ => True
  | .currency _ _ => True
  | _ => False

/-- A number without currency. -/
def IsPlain : FieldValue → Prop
  | .integer _ => True
  | .float _ => True
  | _ => False

/-- A currency amount with this code. -/
def HasCode (c : Str) : FieldValue → Prop
  | .currency _ c' => c' = c
  | _ => False

/-- Sum of integers. -/
def total : List Int → Int
  | [] => 0
  | n :: ns => n + total ns

/-- Sum of exact amounts. -/
def totalAmount : List Decimal → Rat
  | [] => 0
  | d :: ds => d.val + totalAmount ds

/-- Sum of the mantissas' sizes at a common scale. -/
def weight (s : Nat) : List Decimal → Nat
  | [] => 0
  | d :: ds => d.mant.natAbs * 10 ^ (s - d.scale) + weight s ds

/-- The amounts leave room for summing in any order: a common scale fits and the mantissas at that
scale add up to less than 96 bits. -/
def Summable (ds : List Decimal) : Prop :=
  ∃ s, s ≤ 28 ∧ (∀ d ∈ ds, d.scale ≤ s) ∧ weight s ds < 2 ^ 96

end Firm.Spec
