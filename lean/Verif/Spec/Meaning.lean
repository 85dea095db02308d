import Verif.Spec.Query
import Verif.Spec.QueryText
import Mathlib.Data.List.Forall2

/-!
# What a query asks for

The meaning of a query as it is written (`QTree`), stated about lists of entities and without the
conversion to the query of the core crate. How a single value is compared is the subject of C19–C28.
-/

namespace Firm.Spec
open Firm

/-- The text is the decimal notation of the number; leading zeros are allowed. -/
inductive Numeral : Str → Nat → Prop
  | one {c : Char} {d : Nat} : c.toNat = 48 + d → d < 10 → Numeral [c] d
  | more {s : Str} {n : Nat} {c : Char} {d : Nat} :
    Numeral s n → c.toNat = 48 + d → d < 10 → Numeral (s ++ [c]) (10 * n + d)

/-- The field that is meant: names are brought into snake case; `@id` is the id, every other name after
`@` the type (C76). -/
inductive FieldNamed (T : CaseTable) : QField → FieldRef → Prop
  | id : FieldNamed T (.metadata "id".toList) (.metadata .id)
  | type {n : Str} : n ≠ "id".toList → FieldNamed T (.metadata n) (.metadata .type)
  | regular (n : Str) : FieldNamed T (.regular n) (.regular (T.snake n))

/-- The value that is meant. A number that is whole is an integer of 64 bits (beyond them, the nearest
one), any other one is a float. -/
inductive ValueMeant (L : Lang) : QValue → FilterValue → Prop
  | string (s : Str) : ValueMeant L (.string s) (.string s)
  | whole {t : Str} {x : F64} {n : Int} : L.parseF64 t = some x → finiteValue x = some (n : Rat) →
    -(2 ^ 63) ≤ n → n < 2 ^ 63 → ValueMeant L (.number t) (.integer n)
  | tooLarge {t : Str} {x : F64} {n : Int} : L.parseF64 t = some x → finiteValue x = some (n : Rat) →
    2 ^ 63 ≤ n → ValueMeant L (.number t) (.integer (2 ^ 63 - 1))
  | tooSmall {t : Str} {x : F64} {n : Int} : L.parseF64 t = some x → finiteValue x = some (n : Rat) →
    n < -(2 ^ 63) → ValueMeant L (.number t) (.integer (-(2 ^ 63)))
  | fraction {t : Str} {x : F64} : L.parseF64 t = some x → (∀ n : Int, finiteValue x ≠ some (n : Rat)) →
    ValueMeant L (.number t) (.float x)
  | boolean (b : Bool) : ValueMeant L (.boolean b) (.boolean b)
  | currency {t : Str} {x : F64} (c : Str) : L.parseF64 t = some x →
    ValueMeant L (.currency t c) (.currency x c)
  | dateTime (t : Str) : ValueMeant L (.dateTime t) (.dateTime t)
  | reference (t : Str) : ValueMeant L (.reference t) (.reference t)
  | path (s : Str) : ValueMeant L (.path s) (.path s)
  | enum (s : Str) : ValueMeant L (.enum s) (.enum s)
  | list {vs : List QValue} {ws : List FilterValue} : List.Forall₂ (ValueMeant L) vs ws →
    ValueMeant L (.list vs) (.list ws)

/-- The entity has the field, and its value passes the comparison with the value that is meant. -/
def Passes (L : Lang) (e : Entity) (c : QCond) : Prop :=
  ∃ f w v, FieldNamed L.cases c.field f ∧ ValueMeant L c.value w ∧ valueAt e f = some v ∧
    compareField L.env v c.op w = .ok true

/-- The entity is of the type that the selector names, if it names one. -/
def Selects (T : CaseTable) : QSelector → Entity → Prop
  | .wildcard, _ => True
  | .type n, e => e.entityType = T.snake n

/-- The entities are kept, in their order, that have the property. -/
def Keeps (p : Entity → Prop) (es r : List Entity) : Prop :=
  ∃ keep : Entity → Bool, r = es.filter keep ∧ ∀ e ∈ es, keep e = true ↔ p e

/-- The same entities in the asked order, if the column is of one kind; ties keep their order. -/
def Ordered (env : Env) (f : FieldRef) (dir : SortDirection) (es r : List Entity) : Prop :=
  r.Perm es ∧ (OneKind f es → r.Pairwise (InOrder env f dir) ∧
    ∀ x ∈ es, ∀ keep : Entity → Bool, (∀ y, keep y = true ↔ Tied env f x y) → r.filter keep = es.filter keep)

/-- The entities around the given ones, each once. -/
def Around (all : List Entity) (n : Nat) (p : Entity → Prop) (es r : List Entity) : Prop :=
  r.Nodup ∧ ∀ e, e ∈ r ↔ e ∈ all ∧ (∃ s ∈ es, Within (RefLink all) n s e) ∧ p e

/-- What one clause makes of the entities before it, where `all` are the entities of the graph. -/
inductive Clause (L : Lang) (all : List Entity) : QOp → List Entity → List Entity → Prop
  | whereAll {c : QCond} {more : List (Combinator × QCond)} {es r : List Entity} :
    (∀ m ∈ more, m.1 = .and) → Keeps (fun e => Passes L e c ∧ ∀ m ∈ more, Passes L e m.2) es r →
    Clause L all (.where c more) es r
  | whereAny {c : QCond} {more : List (Combinator × QCond)} {es r : List Entity} :
    more ≠ [] → (∀ m ∈ more, m.1 = .or) → Keeps (fun e => Passes L e c ∨ ∃ m ∈ more, Passes L e m.2) es r →
    Clause L all (.where c more) es r
  | around {t : Str} {n : Nat} {sel : Option QSelector} {es r : List Entity} : Numeral t n → 1 ≤ n →
    Around all (min n 5) (fun e => ∀ s ∈ sel, Selects L.cases s e) es r → Clause L all (.related (some t) sel) es r
  | next {sel : Option QSelector} {es r : List Entity} :
    Around all 1 (fun e => ∀ s ∈ sel, Selects L.cases s e) es r → Clause L all (.related none sel) es r
  | none {t : Str} {sel : Option QSelector} {es : List Entity} : Numeral t 0 →
    Clause L all (.related (some t) sel) es es
  | order {n : QField} {f : FieldRef} {dir : SortDirection} {es r : List Entity} : FieldNamed L.cases n f →
    Ordered L.env f dir es r → Clause L all (.order n (some dir)) es r
  | orderUp {n : QField} {f : FieldRef} {es r : List Entity} : FieldNamed L.cases n f →
    Ordered L.env f .ascending es r → Clause L all (.order n none) es r
  | limit {t : Str} {n : Nat} {r rest : List Entity} : Numeral t n →
    r.length = n ∨ (r.length < n ∧ rest = []) → Clause L all (.limit t) (r ++ rest) r

/-- One clause after the other. -/
inductive Clauses (L : Lang) (all : List Entity) : List QOp → List Entity → List Entity → Prop
  | nil (es : List Entity) : Clauses L all [] es es
  | cons {o : QOp} {os : List QOp} {es es' r : List Entity} : Clause L all o es es' →
    Clauses L all os es' r → Clauses L all (o :: os) es r

/-- What the query starts from: the entities of the type, of which there is one, or all of them, sorted by
type in some order of the types. -/
inductive Starts (T : CaseTable) (all : List Entity) : QSelector → List Entity → Prop
  | type {n : Str} : (∃ e ∈ all, e.entityType = T.snake n) →
    Starts T all (.type n) (all.filter fun e => e.entityType = T.snake n)
  | wildcard {types : List EntityType} : types.Nodup → (∀ t, t ∈ types ↔ ∃ e ∈ all, e.entityType = t) →
    Starts T all .wildcard (types.flatMap fun t => all.filter fun e => e.entityType = t)

end Firm.Spec
