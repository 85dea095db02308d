import Verif.Model.Saved
import Verif.Spec.Graph

/-!
# What saving a graph has to achieve
-/

namespace Firm.Spec

/-- A value that is the given one or lies in it, at any depth of lists. -/
inductive PartOf (w : FieldValue) : FieldValue → Prop
  | self : PartOf w w
  | item {v : FieldValue} {vs : List FieldValue} : v ∈ vs → PartOf w v → PartOf w (.list vs)

mutual
/-- How many brackets are open at once in the saved form of a value. -/
def levels : FieldValue → Nat
  | .list vs => 2 + levelsOf vs
  | .reference (.field _ _) => 3
  | .reference (.entity _) => 2
  | .currency _ _ => 2
  | _ => 1
/-- The most of the items. -/
def levelsOf : List FieldValue → Nat
  | [] => 0
  | v :: vs => max (levels v) (levelsOf vs)
end

/-- A float that is a number. -/
def IsFinite (f : F64) : Prop := f ≠ .nan ∧ ∀ s, f ≠ .inf s

/-- The text of a float is a JSON number with a fraction or an exponent, and is read as that float. -/
def FloatReads (C : Codec) (f : F64) : Prop :=
  C.readFloat (C.floatText f) = some f ∧ (∀ c ∈ C.floatText f, numChar c = true) ∧
    (∃ c ∈ C.floatText f, isDigit c = false ∧ c ≠ '-') ∧
    ∀ c, (C.floatText f).head? = some c → c = '-' ∨ isDigit c = true

/-- The libraries give back a single value: integers are in the range of `i64`, amounts in that of `Decimal`,
currencies are known, floats and dates are read from their texts. -/
def Kept (C : Codec) : FieldValue → Prop
  | .integer n => -2 ^ 63 ≤ n ∧ n < 2 ^ 63
  | .float f => IsFinite f → FloatReads C f
  | .currency d c => d.fits = true ∧ C.knownCurrency c = true
  | .dateTime d => C.readDate (C.dateText d) = some d
  | _ => True

/-- Every value in these entities is given back by the libraries. -/
def AllKept (C : Codec) (es : List Entity) : Prop :=
  ∀ e ∈ es, ∀ p ∈ e.fields, ∀ w, PartOf w p.2 → Kept C w

/-- The entities have no infinite float and no value nested more than 121 deep. -/
def Tame (es : List Entity) : Prop :=
  ∀ e ∈ es, ∀ p ∈ e.fields, levels p.2 ≤ 121 ∧ ∀ f, PartOf (.float f) p.2 → IsFinite f

/-- An enumeration of the hash maps: some order of their entries. -/
def MapOrder.Lawful (o : MapOrder) : Prop := (∀ m, (o.ids m).Perm m) ∧ ∀ m, (o.types m).Perm m

/-- Two graphs answer every question in the same way; only the order of the types is open, which is that of a hash
map. -/
structure SameAnswers (g g' : Graph) : Prop where
  nodes : g'.nodes = g.nodes
  edges : g'.edges = g.edges
  getEntity : ∀ id, g'.getEntity id = g.getEntity id
  types : g'.getAllEntityTypes.Perm g.getAllEntityTypes
  listByType : ∀ t, g'.listByType t = g.listByType t
  getRelated : ∀ id dir, g'.getRelated id dir = g.getRelated id dir
  entityReference : ∀ v, g'.resolveEntityReference v = g.resolveEntityReference v
  fieldReference : ∀ v, g'.resolveFieldReference v = g.resolveFieldReference v
  add : ∀ e, (g'.addEntity e).2 = (g.addEntity e).2

end Firm.Spec
