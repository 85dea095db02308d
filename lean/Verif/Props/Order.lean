import Verif.Lemmas.Values
import Verif.Props.Filter
import Verif.Props.Related

/-!
# Properties of ordering (C29–C31, C35)
-/

namespace Firm
open Spec

/-! ## The comparator against the specification -/

theorem lex_isLE {α : Type} {cmp : α → α → Ordering} {lt : α → α → Prop}
    (hlt : ∀ x y, cmp x y = .lt ↔ lt x y) (heq : ∀ x y, cmp x y = .eq ↔ x = y) :
    ∀ a b : List α, (List.compareLex cmp a b).isLE = true ↔ LexNotAfter lt a b := by
  intro a
  induction a with
  | nil =>
    intro b
    constructor
    · intro _; exact .inl ⟨b, rfl⟩
    · intro _; cases b <;> simp [List.compareLex]
  | cons x xs ih =>
    intro b
    cases b with
    | nil =>
      simp only [List.compareLex, Ordering.isLE_gt, Bool.false_eq_true, false_iff]
      rintro (⟨r, h⟩ | ⟨p, x', y, r, s, h1, h2, _⟩)
      · simp at h
      · simp at h2
    | cons y ys =>
      have hstep : List.compareLex cmp (x :: xs) (y :: ys) =
          (cmp x y).then (List.compareLex cmp xs ys) := by
        simp only [List.compareLex]; cases cmp x y <;> rfl
      rw [hstep]
      cases hc : cmp x y with
      | lt =>
        simp only [Ordering.lt_then, Ordering.isLE_lt, true_iff]
        exact .inr ⟨[], x, y, xs, ys, rfl, rfl, (hlt x y).1 hc⟩
      | eq =>
        have hxy := (heq x y).1 hc
        subst hxy
        simp only [Ordering.eq_then]
        rw [ih ys]
        constructor
        · rintro (⟨r, h⟩ | ⟨p, u, v, r, s, h1, h2, h3⟩)
          · exact .inl ⟨r, by simp [h]⟩
          · exact .inr ⟨x :: p, u, v, r, s, by simp [h1], by simp [h2], h3⟩
        · rintro (⟨r, h⟩ | ⟨p, u, v, r, s, h1, h2, h3⟩)
          · simp at h; exact .inl ⟨r, h⟩
          · cases p with
            | nil =>
              simp at h1 h2
              rw [← h1.1, ← h2.1, ← hlt, hc] at h3; simp at h3
            | cons z p =>
              simp at h1 h2
              exact .inr ⟨p, u, v, r, s, h1.2, h2.2, h3⟩
      | gt =>
        simp only [Ordering.gt_then, Ordering.isLE_gt, Bool.false_eq_true, false_iff]
        rintro (⟨r, h⟩ | ⟨p, u, v, r, s, h1, h2, h3⟩)
        · simp at h; rw [(heq x y).2 h.1.symm] at hc; simp at hc
        · cases p with
          | nil =>
            simp at h1 h2
            rw [← h1.1, ← h2.1, ← hlt, hc] at h3; simp at h3
          | cons z p =>
            simp at h1 h2
            rw [(heq x y).2 (h1.1.trans h2.1.symm)] at hc; simp at hc

theorem char_cmp_lt (x y : Char) : compare x y = .lt ↔ x < y := by
  have h : compare x y = if x < y then .lt else if x = y then .eq else .gt := rfl
  rw [h]
  by_cases h1 : x < y
  · simp [h1]
  · rw [if_neg h1]; split <;> simp [h1]
theorem char_cmp_eq (x y : Char) : compare x y = .eq ↔ x = y := Std.compare_eq_iff_eq

theorem strCmp_isLE (a b : Str) : (strCmp a b).isLE = true ↔ TextNotAfter a b :=
  lex_isLE char_cmp_lt char_cmp_eq a b

theorem comp_eq (a b : PathComp) : a.cmp b = .eq ↔ a = b := by
  unfold PathComp.cmp
  cases a <;> cases b <;> simp [PathComp.rank, PathComp.text, strCmp_eq_iff, strCmp_refl] <;> decide

theorem strCmp_lt_iff (a b : Str) : strCmp a b = .lt ↔ TextNotAfter a b ∧ a ≠ b := by
  rw [← strCmp_isLE]
  constructor
  · intro h; rw [h]; refine ⟨rfl, ?_⟩
    rintro rfl; rw [strCmp_refl] at h; simp at h
  · rintro ⟨h, hne⟩
    cases hc : strCmp a b with
    | lt => rfl
    | eq => exact absurd (strCmp_eq_iff.1 hc) hne
    | gt => rw [hc] at h; simp at h

theorem comp_lt (a b : PathComp) : a.cmp b = .lt ↔ CompBefore a b := by
  cases a with
  | normal x => cases b with
    | normal y =>
      have : PathComp.cmp (.normal x) (.normal y) = strCmp x y := by
        simp [PathComp.cmp, PathComp.rank, PathComp.text]
      rw [this, strCmp_lt_iff]; rfl
    | _ =>
      simp only [PathComp.cmp, PathComp.rank, CompBefore, iff_false]
      rw [Nat.compare_eq_gt.2 (by omega)]; simp
  | _ => cases b with
    | normal y =>
      simp only [PathComp.cmp, PathComp.rank, CompBefore, iff_true]
      rw [Nat.compare_eq_lt.2 (by omega)]; simp
    | _ => simp [PathComp.cmp, PathComp.rank, PathComp.text, CompBefore, strCmp_refl] <;> decide

theorem float_isLE (a b : F64) : (floatCmp a b).isLE = true ↔ FloatNotAfter a b := by
  unfold FloatNotAfter
  have hfin : ∀ p q : Rat, ((compare (0 : Int) 0).then (ratCmp p q)).isLE = true ↔ p ≤ q := by
    intro p q
    have : compare (0 : Int) 0 = .eq := by decide
    rw [this, Ordering.eq_then, ratCmp_isLE]
  cases a with
  | nan => cases b with
    | inf s => cases s <;> simp [floatCmp, F64.isNan]
    | _ => simp [floatCmp, F64.isNan]
  | inf s => cases s <;> cases b with
    | inf t => cases t <;> simp [floatCmp, F64.isNan, F64.partialCmp, F64.key, finiteValue] <;> decide
    | nan => simp [floatCmp, F64.isNan]
    | _ =>
      simp [floatCmp, F64.isNan, F64.partialCmp, F64.key, finiteValue]
      try decide
      try rfl
  | negZero => cases b with
    | inf t => cases t <;> simp [floatCmp, F64.isNan, F64.partialCmp, F64.key, finiteValue] <;> decide
    | nan => simp [floatCmp, F64.isNan]
    | negZero => simp [floatCmp, F64.isNan, F64.partialCmp, F64.key, finiteValue, ratCmp]
    | fin q => simp [floatCmp, F64.isNan, F64.partialCmp, F64.key, finiteValue, ratCmp_isLE]
  | fin p => cases b with
    | inf t =>
      have c1 : compare (0 : Int) 1 = .lt := by decide
      have c2 : compare (0 : Int) (-1) = .gt := by decide
      cases t <;> simp [floatCmp, F64.isNan, F64.partialCmp, F64.key, finiteValue, c1, c2]
    | nan => simp [floatCmp, F64.isNan]
    | negZero => simp [floatCmp, F64.isNan, F64.partialCmp, F64.key, finiteValue, ratCmp_isLE]
    | fin q => simp [floatCmp, F64.isNan, F64.partialCmp, F64.key, finiteValue, ratCmp_isLE]

theorem dateTime_isLE (a b : DateTime) :
    (a.cmp b).isLE = true ↔ a.secs < b.secs ∨ (a.secs = b.secs ∧ a.nanos ≤ b.nanos) := by
  unfold DateTime.cmp
  rcases lt_trichotomy a.secs b.secs with h | h | h
  · rw [Int.compare_eq_lt.2 h]; simp [h]
  · rw [Int.compare_eq_eq.2 h]; simp [h, Nat.isLE_compare]
  · rw [Int.compare_eq_gt.2 h]; simp; omega

theorem currency_isLE (a : Decimal) (ac : Str) (b : Decimal) (bc : Str) :
    (currencyCmp a ac b bc).isLE = true ↔
      (ac = bc ∧ a.val ≤ b.val) ∨ (ac ≠ bc ∧ TextNotAfter ac bc) := by
  unfold currencyCmp
  by_cases h : ac = bc
  · rw [if_pos h]; simp only [h, true_and, ne_eq, not_true_eq_false, false_and, or_false]
    exact ratCmp_isLE
  · rw [if_neg h]; simp only [h, false_and, ne_eq, not_false_eq_true, true_and, false_or]
    exact strCmp_isLE _ _

/-- On values of one scalar kind the comparator decides the specified order. -/
theorem compare_isLE_iff (env : Env) (a b : FieldValue) (hk : a.getType = b.getType)
    (hl : a.getType ≠ .list) : (compareFieldValues env a b).isLE = true ↔ NotAfter env a b := by
  cases a <;> cases b <;> simp [FieldValue.getType] at hk hl <;> simp only [compareFieldValues, NotAfter]
  · rename_i a b; cases a <;> cases b <;> decide
  · exact strCmp_isLE _ _
  · exact Int.isLE_compare
  · exact float_isLE _ _
  · exact currency_isLE _ _ _ _
  · exact strCmp_isLE _ _
  · exact dateTime_isLE _ _
  · exact lex_isLE comp_lt comp_eq _ _
  · exact strCmp_isLE _ _

theorem compareEntitiesAsc_eq (env : Env) (f : FieldRef) (a b : Entity) :
    compareEntitiesAsc env f a b = compareOptValues env (valueAt a f) (valueAt b f) := by
  cases f with
  | regular f => rfl
  | metadata m => cases m <;> simp [compareEntitiesAsc, compareOptValues, valueAt, compareFieldValues]

theorem compareOpt_swap (env : Env) (a b : Option FieldValue) :
    compareOptValues env a b = (compareOptValues env b a).swap := by
  cases a <;> cases b <;> simp only [compareOptValues, Ordering.swap]
  exact compareFieldValues_swap env _ _

/-- A column without mixed texts and without inexact integers among floats. -/
def SortableColumn (t : FieldType) (fl : Bool) (f : FieldRef) (e : Entity) : Prop :=
  ∀ v, valueAt e f = some v → Sortable t fl v

theorem orderLe_asc (env : Env) (f : FieldRef) (a b : Entity) :
    orderLe env f .ascending a b = (compareOptValues env (valueAt a f) (valueAt b f)).isLE := by
  simp only [orderLe, compareEntitiesByField, compareEntitiesAsc_eq]

theorem orderLe_desc (env : Env) (f : FieldRef) (a b : Entity) :
    orderLe env f .descending a b = orderLe env f .ascending b a := by
  simp only [orderLe, compareEntitiesByField, compareEntitiesAsc_eq]
  rw [← compareOpt_swap]

theorem orderLe_total (env : Env) (f : FieldRef) (dir : SortDirection) (a b : Entity) :
    orderLe env f dir a b = true ∨ orderLe env f dir b a = true := by
  have h : ∀ a b, orderLe env f .ascending a b = true ∨ orderLe env f .ascending b a = true := by
    intro a b
    simp only [orderLe_asc]
    rw [compareOpt_swap env (valueAt b f)]
    cases compareOptValues env (valueAt a f) (valueAt b f) <;> simp
  cases dir with
  | ascending => exact h a b
  | descending => simp only [orderLe_desc]; exact h b a

theorem orderLe_trans (env : Env) (f : FieldRef) (dir : SortDirection) (t : FieldType) (fl : Bool)
    {a b c : Entity} (ha : SortableColumn t fl f a) (hb : SortableColumn t fl f b)
    (hc : SortableColumn t fl f c) (h1 : orderLe env f dir a b = true)
    (h2 : orderLe env f dir b c = true) : orderLe env f dir a c = true := by
  have h : ∀ {a b c : Entity}, SortableColumn t fl f a → SortableColumn t fl f b →
      SortableColumn t fl f c → orderLe env f .ascending a b = true →
      orderLe env f .ascending b c = true → orderLe env f .ascending a c = true := by
    intro a b c ha hb hc h1 h2
    simp only [orderLe_asc] at *
    unfold SortableColumn at *
    cases hva : valueAt a f <;> cases hvb : valueAt b f <;> cases hvc : valueAt c f <;>
      simp_all only [compareOptValues] <;> try simp_all
    exact (compareFieldValues_composes env t fl _ _ _ ha hb hc).isLE h1 h2
  cases dir with
  | ascending => exact h ha hb hc h1 h2
  | descending =>
    simp only [orderLe_desc] at *
    exact h hc hb ha h2 h1

theorem orderLe_preorder (env : Env) (f : FieldRef) (dir : SortDirection) (t : FieldType)
    (fl : Bool) : TotalPreorderOn (orderLe env f dir) (SortableColumn t fl f) :=
  ⟨fun a b _ _ => orderLe_total env f dir a b,
   fun _ _ _ ha hb hc h1 h2 => orderLe_trans env f dir t fl ha hb hc h1 h2⟩

/-- On such a column `sort_by` is the stable sort, for every runtime. -/
theorem orderBy_eq (env : Env) (rt : Runtime) (f : FieldRef) (dir : SortDirection) (t : FieldType)
    (fl : Bool) {es : List Entity} (h : ∀ e ∈ es, SortableColumn t fl f e) :
    orderBy env rt f dir es = .ok (stableSort (orderLe env f dir) es) := by
  unfold orderBy
  rw [rt.sort_stable _ _ (fun a _ b _ => orderLe_total env f dir a b)
    (fun a ha b hb c hc h1 h2 => orderLe_trans env f dir t fl (h a ha) (h b hb) (h c hc) h1 h2)]

theorem oneKind_sortable {f : FieldRef} {es : List Entity} (h : OneKind f es) :
    ∃ t fl, ∀ e ∈ es, SortableColumn t fl f e := by
  obtain ⟨k, hk, h⟩ := h
  refine ⟨k, k = .float, ?_⟩
  intro e he v hv
  have := h e he v hv
  cases v <;> simp_all [FieldValue.getType, Sortable] <;> (subst this; simp_all)

theorem orderLe_inOrder (env : Env) (f : FieldRef) (dir : SortDirection) {es : List Entity}
    (h : OneKind f es) {a b : Entity} (ha : a ∈ es) (hb : b ∈ es) :
    orderLe env f dir a b = true ↔ InOrder env f dir a b := by
  have key : ∀ {a b : Entity}, a ∈ es → b ∈ es →
      (orderLe env f .ascending a b = true ↔ InOrder env f .ascending a b) := by
    intro a b ha hb
    obtain ⟨k, hk, h⟩ := h
    rw [orderLe_asc]
    simp only [InOrder]
    cases hva : valueAt a f <;> cases hvb : valueAt b f <;>
      simp only [compareOptValues, OptNotAfter, Ordering.isLE_gt, Ordering.isLE_lt, Ordering.isLE_eq,
        Bool.false_eq_true]
    have h1 := h a ha _ hva
    have h2 := h b hb _ hvb
    exact compare_isLE_iff env _ _ (by rw [h1, h2]) (by rw [h1]; exact hk)
  cases dir with
  | ascending => exact key ha hb
  | descending => rw [orderLe_desc]; exact key hb ha

/-! ## C29 -/

open Classical in
/-- C29: ordering by a column of one scalar kind (ids and types included) returns the permutation that
is in order and keeps ties in their original order, and there is only one such list. -/
theorem C29_stable_sort (env : Env) (rt : Runtime) (f : FieldRef) (dir : SortDirection)
    (es : List Entity) (h : OneKind f es) :
    ∃ r, orderBy env rt f dir es = .ok r ∧ r.Perm es ∧ r.Pairwise (InOrder env f dir) ∧
      (∀ x ∈ es, r.filter (fun e => decide (Tied env f x e)) =
        es.filter (fun e => decide (Tied env f x e))) ∧
      ∀ r', r'.Perm es → r'.Pairwise (InOrder env f dir) →
        (∀ x ∈ es, r'.filter (fun e => decide (Tied env f x e)) =
          es.filter (fun e => decide (Tied env f x e))) → r' = r := by
  obtain ⟨t, fl, hs⟩ := oneKind_sortable h
  have hpre := orderLe_preorder env f dir t fl
  have hperm := stableSort_perm (orderLe env f dir) es
  have htie : ∀ x ∈ es, ∀ e ∈ es, decide (Tied env f x e) = equivTo (orderLe env f dir) x e := by
    intro x hx e he
    rw [Bool.eq_iff_iff, decide_eq_true_eq]
    unfold equivTo Tied
    rw [Bool.and_eq_true]
    rw [← orderLe_inOrder env f .ascending h hx he, ← orderLe_inOrder env f .ascending h he hx]
    cases dir with
    | ascending => exact and_comm
    | descending => simp only [orderLe_desc]
  refine ⟨_, orderBy_eq env rt f dir t fl hs, hperm, ?_, ?_, ?_⟩
  · refine (stableSort_sorted hpre hs).imp_of_mem ?_
    intro a b ha hb hab
    exact (orderLe_inOrder env f dir h (hperm.mem_iff.1 ha) (hperm.mem_iff.1 hb)).1 hab
  · intro x hx
    rw [List.filter_congr (fun e he => htie x hx e (hperm.mem_iff.1 he)),
      List.filter_congr (fun e he => htie x hx e he)]
    exact stableSort_stable hpre hs (hs x hx)
  · intro r' hp hsort hst
    refine stableSort_unique hpre hs hp ?_ ?_
    · refine hsort.imp_of_mem ?_
      intro a b ha hb hab
      exact (orderLe_inOrder env f dir h (hp.mem_iff.1 ha) (hp.mem_iff.1 hb)).2 hab
    · intro x hx
      rw [← List.filter_congr (fun e he => htie x hx e (hp.mem_iff.1 he)),
        ← List.filter_congr (fun e he => htie x hx e he)]
      exact hst x hx

/-- C29: reordering the input only affects ties: any two inputs with the same entities give results
that agree entry by entry up to ties. -/
theorem C29_input_order (env : Env) (rt rt' : Runtime) (f : FieldRef) (dir : SortDirection)
    (es es' r r' : List Entity) (h : OneKind f es) (hp : es.Perm es')
    (hr : orderBy env rt f dir es = .ok r) (hr' : orderBy env rt' f dir es' = .ok r') :
    ∀ (i : Nat) (a b : Entity), r[i]? = some a → r'[i]? = some b → Tied env f a b := by
  have h' : OneKind f es' := by
    obtain ⟨k, hk, h⟩ := h
    exact ⟨k, hk, fun e he => h e (hp.mem_iff.2 he)⟩
  obtain ⟨r1, e1, p1, s1, _, _⟩ := C29_stable_sort env rt f dir es h
  obtain ⟨r2, e2, p2, s2, _, _⟩ := C29_stable_sort env rt' f dir es' h'
  rw [hr] at e1; rw [hr'] at e2
  cases e1; cases e2
  obtain ⟨t, fl, hs⟩ := oneKind_sortable h
  have hpre := orderLe_preorder env f dir t fl
  have hrr : r.Perm r' := p1.trans (hp.trans p2.symm)
  have hmr : ∀ a ∈ r, a ∈ es := fun a ha => p1.mem_iff.1 ha
  have hmr' : ∀ a ∈ r', a ∈ es := fun a ha => hp.mem_iff.2 (p2.mem_iff.1 ha)
  -- counting: `r[i]` is not greater than `r'[i]` and vice versa
  have key : ∀ (u v : List Entity), u.Perm v → (∀ a ∈ u, a ∈ es) → (∀ a ∈ v, a ∈ es) →
      u.Pairwise (InOrder env f dir) → v.Pairwise (InOrder env f dir) →
      ∀ (i : Nat) (a b : Entity), u[i]? = some a → v[i]? = some b → orderLe env f dir a b = true := by
    intro u v huv hu hv su sv i a b ha hb
    obtain ⟨hiu, ha⟩ := List.getElem?_eq_some_iff.1 ha
    obtain ⟨hiv, hb⟩ := List.getElem?_eq_some_iff.1 hb
    by_contra hcon
    have hae : a ∈ es := hu a (ha ▸ List.getElem_mem hiu)
    have hbe : b ∈ es := hv b (hb ▸ List.getElem_mem hiv)
    -- elements not greater than b: at least i+1 in v, at most i in u
    let p : Entity → Bool := fun e => orderLe env f dir e b
    have hcount : u.countP p = v.countP p := huv.countP_eq p
    have hv1 : i + 1 ≤ v.countP p := by
      have htake : ∀ e ∈ v.take (i + 1), p e = true := by
        intro e he
        obtain ⟨j, hj, hje⟩ := List.getElem_of_mem he
        rw [List.length_take] at hj
        rw [List.getElem_take] at hje
        have hjv : j < v.length := by omega
        by_cases hji : j = i
        · subst hji; rw [← hje, hb]; exact hpre.refl (hs b hbe)
        · have := List.pairwise_iff_getElem.1 sv j i hjv hiv (by omega)
          rw [hje, hb] at this
          exact (orderLe_inOrder env f dir h (hv e (hje ▸ List.getElem_mem hjv)) hbe).2 this
      have h1 := List.countP_eq_length.2 htake
      have h2 : (v.take (i + 1)).countP p ≤ v.countP p := (List.take_sublist _ _).countP_le
      rw [List.length_take] at h1; omega
    have hu1 : u.countP p ≤ i := by
      have hdrop : ∀ e ∈ u.drop i, ¬ p e = true := by
        intro e he hpe
        obtain ⟨j, hj, hje⟩ := List.getElem_of_mem he
        rw [List.length_drop] at hj
        rw [List.getElem_drop] at hje
        have hju : i + j < u.length := by omega
        have hee : e ∈ es := hu e (hje ▸ List.getElem_mem hju)
        have hale : orderLe env f dir a e = true := by
          by_cases hj0 : j = 0
          · subst hj0
            have : e = a := by rw [← hje, ← ha]; simp
            rw [this]; exact hpre.refl (hs a hae)
          · have := List.pairwise_iff_getElem.1 su i (i + j) hiu hju (by omega)
            rw [hje, ha] at this
            exact (orderLe_inOrder env f dir h hae hee).2 this
        exact hcon (hpre.trans a e b (hs a hae) (hs e hee) (hs b hbe) hale hpe)
      have h1 := List.countP_eq_zero.2 hdrop
      have h2 : u.countP p = (u.take i).countP p + (u.drop i).countP p := by
        rw [← List.countP_append, List.take_append_drop]
      have h3 := List.countP_le_length (p := p) (l := u.take i)
      rw [List.length_take] at h3; omega
    omega
  intro i a b ha hb
  have hae : a ∈ es := hmr a (List.mem_of_getElem? ha)
  have hbe : b ∈ es := hmr' b (List.mem_of_getElem? hb)
  have k1 := key r r' hrr hmr hmr' s1 s2 i a b ha hb
  have k2 := key r' r hrr.symm hmr' hmr s2 s1 i b a hb ha
  rw [orderLe_inOrder env f dir h hae hbe] at k1
  rw [orderLe_inOrder env f dir h hbe hae] at k2
  cases dir with
  | ascending => exact ⟨k1, k2⟩
  | descending => exact ⟨k2, k1⟩

example : OneKind (.regular "name".toList) [exBob, exAlice, exTask] :=
  ⟨.string, by decide, by decide⟩
example : orderBy exEnv exRt (.regular "name".toList) .ascending [exTask, exBob, exAlice] =
    .ok [exAlice, exBob, exTask] := by decide

/-! ## C30 -/

/-- C30: comparing in the other direction gives the opposite outcome, for all values. -/
theorem C30_antisymmetric (env : Env) (a b : FieldValue) :
    compareFieldValues env a b = (compareFieldValues env b a).swap := compareFieldValues_swap env a b

/-- C30: every value compares equal to itself. -/
theorem C30_reflexive (env : Env) (a : FieldValue) : compareFieldValues env a a = .eq := by
  have := compareFieldValues_swap env a a
  cases h : compareFieldValues env a a with
  | eq => rfl
  | lt => rw [h] at this; simp at this
  | gt => rw [h] at this; simp at this

/-- C30, partial: the comparator is transitive among values that do not mix strings, enums and paths
and whose integers are exactly representable if floats occur, at any nesting depth. Missing: it is not
transitive in general (`C30_not_transitive`). -/
theorem C30_transitive_partial (env : Env) (t : FieldType) (fl : Bool) (a b c : FieldValue)
    (ha : Sortable t fl a) (hb : Sortable t fl b) (hc : Sortable t fl c)
    (h1 : (compareFieldValues env a b).isLE = true) (h2 : (compareFieldValues env b c).isLE = true) :
    (compareFieldValues env a c).isLE = true ∧
    (compareFieldValues env a b = .lt ∨ compareFieldValues env b c = .lt →
      compareFieldValues env a c = .lt) := by
  have h := compareFieldValues_composes env t fl a b c ha hb hc
  refine ⟨h.isLE h1 h2, ?_⟩
  rw [h h1 h2]
  cases h3 : compareFieldValues env a b <;> cases h4 : compareFieldValues env b c <;> simp_all

/-- C30: the comparator is not transitive: strings, enums and paths are mutually equal, and an integer
is compared with a float after rounding. -/
theorem C30_not_transitive :
    (∃ (env : Env) (a b c : FieldValue), compareFieldValues env a b = .eq ∧
      compareFieldValues env b c = .eq ∧ compareFieldValues env a c = .gt) ∧
    (∃ (env : Env) (m n : Int) (x : F64), compareFieldValues env (.integer m) (.float x) = .eq ∧
      compareFieldValues env (.float x) (.integer n) = .eq ∧
      compareFieldValues env (.integer m) (.integer n) = .gt) := by
  refine ⟨⟨exEnv, .string "b".toList, .path "x".toList, .string "a".toList, ?_⟩,
    ⟨exEnv, 2 ^ 53 + 1, 2 ^ 53, .fin (2 ^ 53), ?_⟩⟩ <;> decide +kernel

example : Sortable .string true (.list [.integer 3, .string "a".toList, .float .nan]) := by
  simp [Sortable, SortableList]; decide +kernel

/-! ## C31 -/

/-- C31, partial: in ascending order the entities that lack the field come last, in their original
relative order. Missing: in descending order they come first (`C31_descending_first`). -/
theorem C31_ascending_partial (env : Env) (rt : Runtime) (f : FieldRef) (t : FieldType) (fl : Bool)
    (es : List Entity) (h : ∀ e ∈ es, ∀ v, valueAt e f = some v → Sortable t fl v) :
    ∃ p, orderBy env rt f .ascending es =
        .ok (p ++ es.filter fun e => (valueAt e f).isNone) ∧
      p.Perm (es.filter fun e => (valueAt e f).isSome) := by
  have hpre := orderLe_preorder env f .ascending t fl
  rw [orderBy_eq env rt f .ascending t fl h]
  refine ⟨(stableSort (orderLe env f .ascending) es).filter fun e => (valueAt e f).isSome, ?_, ?_⟩
  · congr 1
    have hmiss : (stableSort (orderLe env f .ascending) es).filter (fun e => (valueAt e f).isNone) =
        es.filter fun e => (valueAt e f).isNone := by
      rw [filter_stableSort hpre _ h]
      apply stableSort_of_sorted
      apply List.Pairwise.imp_of_mem (R := fun _ _ => True)
      · intro a b ha hb _
        simp only [List.mem_filter, Option.isNone_iff_eq_none] at ha hb
        rw [orderLe_asc, ha.2, hb.2]; rfl
      · exact List.pairwise_of_forall (fun _ _ => trivial)
    rw [← hmiss]
    have hsorted := stableSort_sorted hpre h
    generalize stableSort (orderLe env f .ascending) es = l at hsorted
    induction l with
    | nil => rfl
    | cons x xs ih =>
      have hc := List.pairwise_cons.1 hsorted
      cases hx : valueAt x f with
      | some v => simp [hx, ← ih hc.2]
      | none =>
        have hall : ∀ y ∈ xs, valueAt y f = none := by
          intro y hy
          have := hc.1 y hy
          rw [orderLe_asc, hx] at this
          cases hv : valueAt y f with
          | none => rfl
          | some v => rw [hv] at this; simp [compareOptValues] at this
        have h1 : xs.filter (fun e => (valueAt e f).isSome) = [] := by
          rw [List.filter_eq_nil_iff]; intro y hy; simp [hall y hy]
        have h2 : xs.filter (fun e => (valueAt e f).isNone) = xs := by
          rw [List.filter_eq_self]; intro y hy; simp [hall y hy]
        simp [hx, h1, h2]
  · exact (stableSort_perm _ es).filter _

/-- C31: in descending order the entities that lack the field come first, in their original order. -/
theorem C31_descending_first (env : Env) (rt : Runtime) (f : FieldRef) (t : FieldType) (fl : Bool)
    (es : List Entity) (h : ∀ e ∈ es, ∀ v, valueAt e f = some v → Sortable t fl v) :
    ∃ p, orderBy env rt f .descending es =
        .ok ((es.filter fun e => (valueAt e f).isNone) ++ p) ∧
      p.Perm (es.filter fun e => (valueAt e f).isSome) := by
  have hpre := orderLe_preorder env f .descending t fl
  rw [orderBy_eq env rt f .descending t fl h]
  refine ⟨(stableSort (orderLe env f .descending) es).filter fun e => (valueAt e f).isSome, ?_, ?_⟩
  · congr 1
    have hmiss : (stableSort (orderLe env f .descending) es).filter (fun e => (valueAt e f).isNone) =
        es.filter fun e => (valueAt e f).isNone := by
      rw [filter_stableSort hpre _ h]
      apply stableSort_of_sorted
      apply List.Pairwise.imp_of_mem (R := fun _ _ => True)
      · intro a b ha hb _
        simp only [List.mem_filter, Option.isNone_iff_eq_none] at ha hb
        rw [orderLe_desc, orderLe_asc, ha.2, hb.2]; rfl
      · exact List.pairwise_of_forall (fun _ _ => trivial)
    rw [← hmiss]
    have hsorted := stableSort_sorted hpre h
    generalize stableSort (orderLe env f .descending) es = l at hsorted
    induction l with
    | nil => rfl
    | cons x xs ih =>
      have hc := List.pairwise_cons.1 hsorted
      cases hx : valueAt x f with
      | none => simp [hx, ← ih hc.2]
      | some v =>
        have hall : ∀ y ∈ xs, (valueAt y f).isSome := by
          intro y hy
          have := hc.1 y hy
          rw [orderLe_desc, orderLe_asc, hx] at this
          cases hv : valueAt y f with
          | some v => rfl
          | none => rw [hv] at this; simp [compareOptValues] at this
        have h1 : xs.filter (fun e => (valueAt e f).isNone) = [] := by
          rw [List.filter_eq_nil_iff]; intro y hy
          have := hall y hy
          cases hv : valueAt y f with
          | none => rw [hv] at this; simp at this
          | some _ => simp
        have h2 : xs.filter (fun e => (valueAt e f).isSome) = xs := by
          rw [List.filter_eq_self]; exact hall
        simp [hx, h1, h2]
  · exact (stableSort_perm _ es).filter _

/-- C31 is false for descending order: an entity without the field comes before one that has it. -/
theorem C31_not_last : ∃ (env : Env) (rt : Runtime) (f : FieldRef) (a b : Entity),
    valueAt a f = none ∧ (valueAt b f).isSome ∧ OneKind f [a, b] ∧
      orderBy env rt f .descending [b, a] = .ok [a, b] :=
  ⟨exEnv, exRt, .regular "name".toList, exTask, exAlice, by decide, by decide,
    ⟨.string, by decide, by decide⟩, by decide⟩

/-! ## C35 -/

/-- C35: filtering and ordering commute on sortable columns, whenever the condition can be evaluated
on all entities. -/
theorem C35_commute (env : Env) (rt : Runtime) (f : FieldRef) (dir : SortDirection) (t : FieldType)
    (fl : Bool) (c : CompoundCondition) (es kept : List Entity)
    (h : ∀ e ∈ es, ∀ v, valueAt e f = some v → Sortable t fl v)
    (hc : filterEntities env c es = .ok kept) :
    ∃ sorted r, orderBy env rt f dir es = .ok sorted ∧ filterEntities env c sorted = .ok r ∧
      orderBy env rt f dir kept = .ok r := by
  have hpre := orderLe_preorder env f dir t fl
  have hperm := stableSort_perm (orderLe env f dir) es
  obtain ⟨hok, rfl⟩ := (filterEntities_ok _ _ _ _).1 hc
  refine ⟨_, _, orderBy_eq env rt f dir t fl h,
    (filterEntities_ok _ _ _ _).2 ⟨fun e he => hok e (hperm.mem_iff.1 he), rfl⟩, ?_⟩
  rw [orderBy_eq env rt f dir t fl (fun e he => h e (List.mem_filter.1 he).1)]
  rw [filter_stableSort hpre _ h]

/-- C35 for the operations of a query on a column of one kind. -/
theorem C35_query (env : Env) (rt : Runtime) (g : Graph) (f : FieldRef) (dir : SortDirection)
    (c : CompoundCondition) (es kept : List Entity) (h : OneKind f es)
    (hc : applyOperations env rt g [.where c] es = .ok kept) :
    applyOperations env rt g [.where c, .order f dir] es =
      applyOperations env rt g [.order f dir, .where c] es := by
  obtain ⟨t, fl, hs⟩ := oneKind_sortable h
  have hk : filterEntities env c es = .ok kept := by
    simp only [applyOperations, applyOperation] at hc
    split at hc <;> simp_all
  obtain ⟨sorted, r, h1, h2, h3⟩ := C35_commute env rt f dir t fl c es kept hs hk
  simp only [applyOperations, applyOperation, hk, h1, h2, h3]

example : applyOperations exEnv exRt Graph.empty
    [.order (.regular "name".toList) .descending, .where (.single exNameB)] [exAlice, exBob] =
    .ok [exBob] := by decide

end Firm
