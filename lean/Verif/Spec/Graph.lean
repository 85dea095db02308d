import Verif.Model.Graph

/-!
# Specification of the entity graph

Independent of the graph's maps, node indices and edges: everything is stated about a plain list of
entities.
-/

namespace Firm.Spec
open Firm

/-- Adding one entity to a collection without duplicate ids. -/
def acceptOne (acc : List Entity) (e : Entity) : List Entity :=
  if ∃ a ∈ acc, a.id = e.id then acc else acc ++ [e]

/-- Adding a batch: stop at the first entity whose id is taken. -/
def acceptAll (acc : List Entity) : List Entity → List Entity
  | [] => acc
  | e :: es => if ∃ a ∈ acc, a.id = e.id then acc else acceptAll (acc ++ [e]) es

/-- The entities accepted since the last `clear`, in order. -/
def accept (acc : List Entity) : GOp → List Entity
  | .add e => acceptOne acc e
  | .addAll es => acceptAll acc es
  | .build => acc
  | .clear => []

/-- The entities accepted by a history. -/
def accepted (ops : List GOp) : List Entity := ops.foldl accept []

/-- The id a reference points to. -/
def refTarget : ReferenceValue → EntityId
  | .entity id => id
  | .field id _ => id

/-- The value holds, at any list nesting depth, a reference to the entity with this id. -/
inductive HoldsRef : FieldValue → EntityId → Prop
  | ref (r : ReferenceValue) : HoldsRef (.reference r) (refTarget r)
  | item (vs : List FieldValue) (v : FieldValue) (id : EntityId) :
      v ∈ vs → HoldsRef v id → HoldsRef (.list vs) id

/-- Entity `a` refers to the id `id` in one of its fields. -/
def RefersTo (a : Entity) (id : EntityId) : Prop :=
  ∃ f v, (f, v) ∈ a.fields ∧ HoldsRef v id

/-- A field of an entity. -/
abbrev Key := EntityId × FieldId

/-- In the entities `es`, the field `k` has the value `v`. -/
def FieldAt (es : List Entity) (k : Key) (v : FieldValue) : Prop :=
  ∃ e ∈ es, e.id = k.1 ∧ e.getField k.2 = some v

/-- `v` is a field reference. -/
def IsFieldRef (v : FieldValue) : Prop := ∃ t f, v = .reference (.field t f)

/-- Following field references from `k` reaches after exactly `n` field look-ups a value `v` that
is not a field reference. -/
inductive ResolvesIn (es : List Entity) : Key → Nat → FieldValue → Prop
  | here (k : Key) (v : FieldValue) : FieldAt es k v → ¬ IsFieldRef v → ResolvesIn es k 1 v
  | step (k : Key) (t : EntityId) (f : FieldId) (n : Nat) (v : FieldValue) :
      FieldAt es k (.reference (.field t f)) → ResolvesIn es (t, f) n v → ResolvesIn es k (n + 1) v

/-- `n` field-reference hops lead from `k` to `q`. -/
inductive Hops (es : List Entity) : Nat → Key → Key → Prop
  | zero (k : Key) : Hops es 0 k k
  | succ (k : Key) (t : EntityId) (f : FieldId) (n : Nat) (q : Key) :
      FieldAt es k (.reference (.field t f)) → Hops es n (t, f) q → Hops es (n + 1) k q

/-- The chain of field references from `k` comes back to a field it has visited. -/
def Cyclic (es : List Entity) (k : Key) : Prop :=
  ∃ i n p, 0 < n ∧ Hops es i k p ∧ Hops es n p p

/-- It comes back at a look-up numbered at most `d` (the first look-up is the one of `k`). -/
def ClosesWithin (es : List Entity) (k : Key) (d : Nat) : Prop :=
  ∃ i n p, 0 < n ∧ Hops es i k p ∧ Hops es n p p ∧ i + n + 1 ≤ d

end Firm.Spec
