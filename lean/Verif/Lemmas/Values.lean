import Verif.Lemmas.Filter
import Verif.Lemmas.Sort
import Verif.Lemmas.F64
import Verif.Model.Order

/-! Lemmas about the comparator of field values. -/

namespace Firm
open Spec

/-- `cmp` behaves like an order on the triple: as long as it goes up, the outcomes compose. -/
def Composes {α : Type} (cmp : α → α → Ordering) (a b c : α) : Prop :=
  (cmp a b).isLE = true → (cmp b c).isLE = true → cmp a c = (cmp a b).then (cmp b c)

theorem Composes.of_trans {α : Type} (cmp : α → α → Ordering) [Std.TransCmp cmp] (a b c : α) :
    Composes cmp a b c := by
  intro h1 h2
  cases hab : cmp a b with
  | gt => rw [hab] at h1; simp at h1
  | lt =>
    rw [Ordering.lt_then]
    exact Std.TransCmp.lt_of_lt_of_isLE hab h2
  | eq =>
    rw [Ordering.eq_then]
    exact Std.TransCmp.congr_left hab

/-- Through a key. -/
theorem Composes.on {α β : Type} {cmp : β → β → Ordering} {f : α → β} {a b c : α}
    (h : Composes cmp (f a) (f b) (f c)) : Composes (fun x y => cmp (f x) (f y)) a b c := h

theorem Composes.isLE {α : Type} {cmp : α → α → Ordering} {a b c : α} (h : Composes cmp a b c)
    (h1 : (cmp a b).isLE = true) (h2 : (cmp b c).isLE = true) : (cmp a c).isLE = true := by
  rw [h h1 h2]
  cases hab : cmp a b <;> simp_all

instance : Std.OrientedCmp ratCmp where
  eq_swap {a b} := by
    rcases lt_trichotomy a b with h | h | h
    · rw [ratCmp_lt.2 h, ratCmp_gt.2 h]; rfl
    · rw [ratCmp_eq.2 h, ratCmp_eq.2 h.symm]; rfl
    · rw [ratCmp_gt.2 h, ratCmp_lt.2 h]; rfl

theorem ratCmp_isLE {a b : Rat} : (ratCmp a b).isLE = true ↔ a ≤ b := by
  rcases lt_trichotomy a b with h | h | h
  · rw [ratCmp_lt.2 h]; simp [le_of_lt h]
  · rw [ratCmp_eq.2 h]; simp [h]
  · rw [ratCmp_gt.2 h]; simp [h]

instance : Std.TransCmp ratCmp where
  isLE_trans h1 h2 := by rw [ratCmp_isLE] at *; exact le_trans h1 h2

/-- Position of a float including NaN at the end. -/
def floatPos : F64 → Int × Rat
  | .nan => (2, 0)
  | .inf true => (-1, 0)
  | .inf false => (1, 0)
  | .negZero => (0, 0)
  | .fin q => (0, q)

/-- Comparison of positions. -/
def posCmp (a b : Int × Rat) : Ordering := (compare a.1 b.1).then (ratCmp a.2 b.2)

instance : Std.TransCmp posCmp := by
  have h1 : Std.TransCmp (fun a b : Int × Rat => compare a.1 b.1) := by
    refine @Std.TransCmp.mk _ _ (@Std.OrientedCmp.mk _ _ ?_) ?_
    · intro a b; exact Std.OrientedCmp.eq_swap
    · intro a b c h1 h2; exact Std.TransCmp.isLE_trans h1 h2
  have h2 : Std.TransCmp (fun a b : Int × Rat => ratCmp a.2 b.2) := by
    refine @Std.TransCmp.mk _ _ (@Std.OrientedCmp.mk _ _ ?_) ?_
    · intro a b; exact Std.OrientedCmp.eq_swap
    · intro a b c h1 h2; exact Std.TransCmp.isLE_trans h1 h2
  exact inferInstanceAs (Std.TransCmp (compareLex (fun a b : Int × Rat => compare a.1 b.1)
    (fun a b : Int × Rat => ratCmp a.2 b.2)))

theorem floatCmp_pos (a b : F64) : floatCmp a b = posCmp (floatPos a) (floatPos b) := by
  cases a with
  | nan => cases b with
    | nan => rfl
    | inf s => cases s <;> rfl
    | _ => rfl
  | inf s => cases s <;> cases b with
    | inf t => cases t <;> rfl
    | _ => rfl
  | _ => cases b with
    | inf t => cases t <;> rfl
    | _ => rfl

theorem intFloat_pos (n : Int) (b : F64) :
    (if b.isNan then Ordering.lt else ((F64.ofInt n).partialCmp b).getD .eq) =
      floatCmp (F64.ofInt n) b := by
  have hn := F64.rnd_ne_nan (n : Rat)
  have h : (F64.ofInt n).isNan = false := by
    unfold F64.ofInt
    cases hr : F64.rnd (n : Rat) <;> simp_all [F64.isNan]
  unfold floatCmp
  rw [h]
  simp

theorem floatInt_pos (a : F64) (n : Int) :
    (if a.isNan then Ordering.gt else (a.partialCmp (F64.ofInt n)).getD .eq) =
      floatCmp a (F64.ofInt n) := by
  have hn := F64.rnd_ne_nan (n : Rat)
  have h : (F64.ofInt n).isNan = false := by
    unfold F64.ofInt
    cases hr : F64.rnd (n : Rat) <;> simp_all [F64.isNan]
  unfold floatCmp
  rw [h]
  simp

theorem floatCmp_swap (a b : F64) : floatCmp a b = (floatCmp b a).swap := by
  rw [floatCmp_pos, floatCmp_pos b a]; exact Std.OrientedCmp.eq_swap

theorem floatCmp_composes (a b c : F64) : Composes floatCmp a b c := by
  have := Composes.of_trans posCmp (floatPos a) (floatPos b) (floatPos c)
  unfold Composes at *
  simpa only [floatCmp_pos] using this

theorem Decimal.cmp_swap (a b : Decimal) : a.cmp b = (b.cmp a).swap :=
  Std.OrientedCmp.eq_swap (cmp := ratCmp)

theorem currencyCmp_swap (a : Decimal) (ac : Str) (b : Decimal) (bc : Str) :
    currencyCmp a ac b bc = (currencyCmp b bc a ac).swap := by
  unfold currencyCmp
  by_cases h : ac = bc
  · rw [if_pos h, if_pos h.symm]; exact Decimal.cmp_swap a b
  · rw [if_neg h, if_neg (Ne.symm h)]; exact strCmp_eq_swap _ _

theorem currencyCmp_eq (a : Decimal) (ac : Str) (b : Decimal) (bc : Str) :
    currencyCmp a ac b bc = (strCmp ac bc).then (ratCmp a.val b.val) := by
  unfold currencyCmp
  by_cases h : ac = bc
  · rw [if_pos h, strCmp_eq_iff.2 h]; rfl
  · rw [if_neg h]
    cases hc : strCmp ac bc with
    | eq => exact absurd (strCmp_eq_iff.1 hc) h
    | _ => rfl

/-- Lexicographic composition. -/
theorem Composes.then {α : Type} {c1 c2 : α → α → Ordering} {a b c : α} (h1 : Composes c1 a b c)
    (h2 : Composes c2 a b c) : Composes (fun x y => (c1 x y).then (c2 x y)) a b c := by
  unfold Composes at *
  cases h3 : c1 a b <;> cases h4 : c1 b c <;> simp_all
  cases c2 a b <;> simp

instance : Std.OrientedCmp PathComp.cmp where
  eq_swap {a b} := by
    unfold PathComp.cmp
    rw [Ordering.swap_then, ← Std.OrientedCmp.eq_swap, ← strCmp_eq_swap]

instance : Std.TransCmp PathComp.cmp where
  isLE_trans {a b c} h1 h2 := by
    have : Composes PathComp.cmp a b c :=
      Composes.then (c1 := fun x y : PathComp => compare x.rank y.rank)
        (c2 := fun x y : PathComp => strCmp x.text y.text)
        (Composes.of_trans (cmp := compare) _ _ _) (Composes.of_trans (cmp := strCmp) _ _ _)
    exact this.isLE h1 h2

instance : Std.TransCmp pathCmp where
  eq_swap {a b} := Std.OrientedCmp.eq_swap (cmp := List.compareLex PathComp.cmp)
  isLE_trans {a b c} h1 h2 := Std.TransCmp.isLE_trans (cmp := List.compareLex PathComp.cmp) h1 h2

theorem DateTime.cmp_swap (a b : DateTime) : a.cmp b = (b.cmp a).swap := by
  unfold DateTime.cmp
  rw [Ordering.swap_then, ← Std.OrientedCmp.eq_swap, ← Std.OrientedCmp.eq_swap]

theorem DateTime.cmp_composes (a b c : DateTime) : Composes DateTime.cmp a b c :=
  Composes.then (c1 := fun x y : DateTime => compare x.secs y.secs)
    (c2 := fun x y : DateTime => compare x.nanos y.nanos)
    (Composes.of_trans (cmp := compare) a.secs b.secs c.secs)
    (Composes.of_trans (cmp := compare) a.nanos b.nanos c.nanos)

/-- Values of different precedence are compared by precedence. -/
theorem compare_diff (env : Env) (a b : FieldValue) (h : typeOrder a ≠ typeOrder b) :
    compareFieldValues env a b = compare (typeOrder a) (typeOrder b) := by
  cases a <;> cases b <;> first | rfl | exact absurd rfl h

theorem nat_compare_swap (a b : Nat) : compare a b = (compare b a).swap := Std.OrientedCmp.eq_swap

mutual
/-- The comparator is antisymmetric, for all values. -/
theorem compareFieldValues_swap (env : Env) : ∀ a b : FieldValue,
    compareFieldValues env a b = (compareFieldValues env b a).swap
  | .list a, .list b => by
    simp only [compareFieldValues]
    exact compareFieldLists_swap env a b
  | .boolean a, b => by
    cases b <;> first | rfl | skip
    simp only [compareFieldValues]; exact Std.OrientedCmp.eq_swap
  | .integer a, b => by
    cases b <;> first | rfl | skip
    · simp only [compareFieldValues]; exact Std.OrientedCmp.eq_swap
    · simp only [compareFieldValues, intFloat_pos, floatInt_pos]; exact floatCmp_swap _ _
  | .float a, b => by
    cases b <;> first | rfl | skip
    · simp only [compareFieldValues, intFloat_pos, floatInt_pos]; exact floatCmp_swap _ _
    · simp only [compareFieldValues]; exact floatCmp_swap _ _
  | .string a, b => by
    cases b <;> first | rfl | skip
    simp only [compareFieldValues]; exact strCmp_eq_swap _ _
  | .enum a, b => by
    cases b <;> first | rfl | skip
    simp only [compareFieldValues]; exact strCmp_eq_swap _ _
  | .path a, b => by
    cases b <;> first | rfl | skip
    simp only [compareFieldValues]; exact Std.OrientedCmp.eq_swap
  | .dateTime a, b => by
    cases b <;> first | rfl | skip
    simp only [compareFieldValues]; exact DateTime.cmp_swap _ _
  | .currency a c, b => by
    cases b <;> first | rfl | skip
    simp only [compareFieldValues]; exact currencyCmp_swap _ _ _ _
  | .reference a, b => by
    cases b <;> first | rfl | skip
    simp only [compareFieldValues]; exact strCmp_eq_swap _ _
  | .list a, .boolean _ | .list a, .integer _ | .list a, .float _ | .list a, .string _
  | .list a, .enum _ | .list a, .path _ | .list a, .dateTime _ | .list a, .currency _ _
  | .list a, .reference _ => by rfl
/-- The same for the elements of lists. -/
theorem compareFieldLists_swap (env : Env) : ∀ a b : List FieldValue,
    compareFieldLists env a b = (compareFieldLists env b a).swap
  | [], [] => rfl
  | [], _ :: _ => by simp [compareFieldLists]
  | _ :: _, [] => by simp [compareFieldLists]
  | a :: as, b :: bs => by
    simp only [compareFieldLists]
    have h := compareFieldValues_swap env a b
    have h' := compareFieldLists_swap env as bs
    rw [h]
    cases compareFieldValues env b a <;> simp [h']
end

theorem compareFieldLists_cons (env : Env) (a b : FieldValue) (as bs : List FieldValue) :
    compareFieldLists env (a :: as) (b :: bs) =
      (compareFieldValues env a b).then (compareFieldLists env as bs) := by
  simp only [compareFieldLists]
  cases compareFieldValues env a b <;> rfl

theorem isLE_precedence {env : Env} {a b : FieldValue} (h : (compareFieldValues env a b).isLE = true) :
    typeOrder a ≤ typeOrder b := by
  by_cases hd : typeOrder a = typeOrder b
  · omega
  · rw [compare_diff env a b hd] at h
    exact Nat.isLE_compare.1 h

/-- The numeric value of integers and floats as `f64`. -/
def asFloat : FieldValue → F64
  | .integer n => F64.ofInt n
  | .float f => f
  | _ => .nan

theorem compare_numbers (env : Env) (t : FieldType) {a b : FieldValue} (ha : typeOrder a = 1)
    (hb : typeOrder b = 1) (sa : Sortable t true a) (sb : Sortable t true b) :
    compareFieldValues env a b = floatCmp (asFloat a) (asFloat b) := by
  cases a <;> simp [typeOrder] at ha <;> cases b <;> simp [typeOrder] at hb
  · rename_i m n
    simp only [Sortable, true_implies] at sa sb
    simp only [compareFieldValues, asFloat, sa, sb]
    have : floatCmp (.fin (m : Rat)) (.fin (n : Rat)) = ratCmp m n := by
      simp [floatCmp, F64.isNan, F64.partialCmp, F64.key]
    rw [this]
    rcases lt_trichotomy m n with h | h | h
    · rw [ratCmp_lt.2 (by exact_mod_cast h), Int.compare_eq_lt.2 h]
    · rw [ratCmp_eq.2 (by exact_mod_cast h), Int.compare_eq_eq.2 h]
    · rw [ratCmp_gt.2 (by exact_mod_cast h), Int.compare_eq_gt.2 h]
  · simp only [compareFieldValues, intFloat_pos]; rfl
  · simp only [compareFieldValues, floatInt_pos]; rfl
  · simp only [compareFieldValues]; rfl

/-- It suffices to look at values of the same precedence. -/
theorem composes_of_group (env : Env) (a b c : FieldValue)
    (h : typeOrder a = typeOrder b → typeOrder a = typeOrder c → Composes (compareFieldValues env) a b c) :
    Composes (compareFieldValues env) a b c := by
  intro h1 h2
  have o1 := isLE_precedence h1
  have o2 := isLE_precedence h2
  by_cases e1 : typeOrder a = typeOrder b
  · by_cases e2 : typeOrder a = typeOrder c
    · exact h e1 e2 h1 h2
    · have l : typeOrder a < typeOrder c := by omega
      have hac := compare_diff env a c e2
      have hbc := compare_diff env b c (by omega)
      rw [hac, hbc, Nat.compare_eq_lt.2 l, Nat.compare_eq_lt.2 (by omega : typeOrder b < typeOrder c)]
      cases hab : compareFieldValues env a b <;> simp_all
  · have l : typeOrder a < typeOrder b := by omega
    rw [compare_diff env a b e1, compare_diff env a c (by omega), Nat.compare_eq_lt.2 l,
      Nat.compare_eq_lt.2 (by omega : typeOrder a < typeOrder c)]
    rfl

theorem numbers_compose (env : Env) (t : FieldType) (fl : Bool) {a b c : FieldValue}
    (ha : typeOrder a = 1) (hb : typeOrder b = 1) (hc : typeOrder c = 1) (sa : Sortable t fl a)
    (sb : Sortable t fl b) (sc : Sortable t fl c) : Composes (compareFieldValues env) a b c := by
  cases fl with
  | true =>
    unfold Composes
    rw [compare_numbers env t ha hb sa sb, compare_numbers env t hb hc sb sc,
      compare_numbers env t ha hc sa sc]
    exact floatCmp_composes _ _ _
  | false =>
    cases a <;> simp [typeOrder] at ha <;> simp [Sortable] at sa
    cases b <;> simp [typeOrder] at hb <;> simp [Sortable] at sb
    cases c <;> simp [typeOrder] at hc <;> simp [Sortable] at sc
    exact Composes.of_trans (cmp := compare) _ _ _

mutual
/-- The comparator composes on sortable values. -/
theorem compareFieldValues_composes (env : Env) (t : FieldType) (fl : Bool) :
    ∀ a b c : FieldValue, Sortable t fl a → Sortable t fl b → Sortable t fl c →
      Composes (compareFieldValues env) a b c
  | .list a, b, c => by
    intro sa sb sc h1 h2
    have o1 := isLE_precedence h1
    have o2 := isLE_precedence h2
    have ob : typeOrder b = 6 := by
      have : typeOrder (.list a) = 6 := rfl
      cases b <;> simp [typeOrder] at * 
    have oc : typeOrder c = 6 := by
      cases c <;> simp [typeOrder] at * <;> omega
    cases b <;> simp [typeOrder] at ob
    cases c <;> simp [typeOrder] at oc
    simp only [compareFieldValues, Sortable] at *
    exact compareFieldLists_composes env t fl _ _ _ sa sb sc h1 h2
  | .boolean x, b, c => by
    intro sa sb sc
    refine composes_of_group env _ b c ?_
    intro e1 e2
    cases b <;> simp [typeOrder] at e1
    cases c <;> simp [typeOrder] at e2
    exact Composes.of_trans (cmp := compare) _ _ _
  | .integer x, b, c => by
    intro sa sb sc
    refine composes_of_group env _ b c ?_
    intro e1 e2
    exact numbers_compose env t fl rfl e1.symm e2.symm sa sb sc
  | .float x, b, c => by
    intro sa sb sc
    refine composes_of_group env _ b c ?_
    intro e1 e2
    exact numbers_compose env t fl rfl e1.symm e2.symm sa sb sc
  | .string x, b, c => by
    intro sa sb sc
    refine composes_of_group env _ b c ?_
    intro e1 e2
    cases b <;> simp [typeOrder] at e1 <;> simp_all [Sortable]
    cases c <;> simp [typeOrder] at e2 <;> simp_all [Sortable]
    exact Composes.of_trans (cmp := strCmp) _ _ _
  | .enum x, b, c => by
    intro sa sb sc
    refine composes_of_group env _ b c ?_
    intro e1 e2
    cases b <;> simp [typeOrder] at e1 <;> simp_all [Sortable]
    cases c <;> simp [typeOrder] at e2 <;> simp_all [Sortable]
    exact Composes.of_trans (cmp := strCmp) _ _ _
  | .path x, b, c => by
    intro sa sb sc
    refine composes_of_group env _ b c ?_
    intro e1 e2
    cases b <;> simp [typeOrder] at e1 <;> simp_all [Sortable]
    cases c <;> simp [typeOrder] at e2 <;> simp_all [Sortable]
    exact Composes.of_trans (cmp := pathCmp) _ _ _
  | .dateTime x, b, c => by
    intro sa sb sc
    refine composes_of_group env _ b c ?_
    intro e1 e2
    cases b <;> simp [typeOrder] at e1
    cases c <;> simp [typeOrder] at e2
    exact DateTime.cmp_composes _ _ _
  | .currency x code, b, c => by
    intro sa sb sc
    refine composes_of_group env _ b c ?_
    intro e1 e2
    cases b <;> simp [typeOrder] at e1
    cases c <;> simp [typeOrder] at e2
    rename_i y ycode z zcode
    have h := Composes.then (c1 := fun p q : Decimal × Str => strCmp p.2 q.2)
      (c2 := fun p q : Decimal × Str => ratCmp p.1.val q.1.val) (a := (x, code)) (b := (y, ycode))
      (c := (z, zcode)) (Composes.of_trans (cmp := strCmp) _ _ _)
      (Composes.of_trans (cmp := ratCmp) _ _ _)
    unfold Composes at *
    simpa only [compareFieldValues, currencyCmp_eq] using h
  | .reference x, b, c => by
    intro sa sb sc
    refine composes_of_group env _ b c ?_
    intro e1 e2
    cases b <;> simp [typeOrder] at e1
    cases c <;> simp [typeOrder] at e2
    exact Composes.of_trans (cmp := strCmp) _ _ _
/-- And on lists of them. -/
theorem compareFieldLists_composes (env : Env) (t : FieldType) (fl : Bool) :
    ∀ a b c : List FieldValue, SortableList t fl a → SortableList t fl b → SortableList t fl c →
      Composes (compareFieldLists env) a b c
  | [], b, c => by
    intro _ _ _ h1 h2
    cases b <;> cases c <;> simp_all [compareFieldLists]
  | a :: as, b, c => by
    intro sa sb sc h1 h2
    cases b with
    | nil => simp [compareFieldLists] at h1
    | cons b bs =>
      cases c with
      | nil => simp [compareFieldLists] at h2
      | cons c cs =>
        simp only [SortableList] at sa sb sc
        have k1 := compareFieldValues_composes env t fl a b c sa.1 sb.1 sc.1
        have k2 := compareFieldLists_composes env t fl as bs cs sa.2 sb.2 sc.2
        unfold Composes at k1 k2
        simp only [compareFieldLists_cons] at h1 h2 ⊢
        cases h3 : compareFieldValues env a b <;> cases h4 : compareFieldValues env b c <;> simp_all
        cases h5 : compareFieldLists env as bs <;> simp_all
end

end Firm
