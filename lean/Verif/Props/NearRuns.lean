import Verif.Props.Agreement
import Verif.Props.Sums

/-!
# C95 for floats: how far the results of two runs can be apart
-/

namespace Firm
open Spec F64

theorem worth_sublist {vs ws : List FieldValue} {xs : List ℚ} (hs : ws.Sublist vs) (h : List.Forall₂ Worth vs xs) :
    ∃ ys, ys.Sublist xs ∧ List.Forall₂ Worth ws ys := by
  induction hs generalizing xs with
  | slnil => cases h; exact ⟨[], .slnil, .nil⟩
  | cons v _ ih =>
    cases h with
    | cons hv h =>
      obtain ⟨ys, h1, h2⟩ := ih h
      exact ⟨ys, .cons _ h1, h2⟩
  | cons_cons v _ ih =>
    cases h with
    | @cons _ x _ xs hv h =>
      obtain ⟨ys, h1, h2⟩ := ih h
      exact ⟨x :: ys, .cons_cons _ h1, .cons hv h2⟩

theorem sizes_sublist {ys xs : List ℚ} (h : ys.Sublist xs) : sizes ys ≤ sizes xs := by
  induction h with
  | slnil => exact le_refl _
  | @cons l₁ l₂ x _ ih =>
    have h2 : sizes (x :: l₂) = |x| + sizes l₂ := by simp [sizes]
    rw [h2]
    have := abs_nonneg x
    linarith
  | @cons_cons l₁ l₂ x _ ih =>
    have h1 : sizes (x :: l₁) = |x| + sizes l₁ := by simp [sizes]
    have h2 : sizes (x :: l₂) = |x| + sizes l₂ := by simp [sizes]
    rw [h1, h2]
    linarith

theorem drift_mono {m n : Nat} (h : m ≤ n) : drift m ≤ drift n := by
  unfold drift
  have : (1 + 1 / 2 ^ 53 : ℚ) ^ m ≤ (1 + 1 / 2 ^ 53) ^ n := pow_le_pow_right₀ (by norm_num) h
  linarith

theorem fits_sublist {ys xs : List ℚ} (h : ys.Sublist xs) (hb : (1 + 1 / 2 ^ 53) ^ xs.length * sizes xs ≤ pow2 1023) :
    (1 + 1 / 2 ^ 53) ^ ys.length * sizes ys ≤ pow2 1023 := by
  refine le_trans (mul_le_mul (pow_le_pow_right₀ (by norm_num) h.length_le) (sizes_sublist h) (sizes_nonneg _)
    (by positivity)) hb

/-- The numbers behind a column that was reached in some way, and in another order. -/
theorem worth_column {all vs part : List FieldValue} {xs : List ℚ} (h : List.Forall₂ Worth all xs)
    (hperm : part.Perm vs) (hsub : part.Sublist all) :
    ∃ ys zs, zs.Sublist xs ∧ ys.Perm zs ∧ List.Forall₂ Worth vs ys := by
  obtain ⟨zs, h1, h2⟩ := worth_sublist hsub h
  obtain ⟨ys, h3, h4⟩ := List.perm_comp_forall₂ hperm.symm h2
  exact ⟨ys, zs, h1, h4, h3⟩

theorem sizes_perm {ys zs : List ℚ} (h : ys.Perm zs) : sizes ys = sizes zs := (h.map _).sum_eq

/-- C95: the sum of floats of a query without `limit` is in every other run a sum of floats that differs by at most
twice the bound of `C145_sum`.  Missing: that they are equal, which is false (`C95_floats`), and sums that overflow. -/
theorem C95_near_partial (L : Lang) (rt rt' : Runtime) {ops ops' : List GOp}
    (hp : (accepted ops).Perm (accepted ops')) {q : QTree} (hq : ValidTree q) (ho : ∀ o ∈ q.operations, NoLimit o)
    {n : QField} (hn : q.aggregation = some (.sum n)) {f : FieldId} (hf : FieldNamed L.cases n (.regular f))
    {xs : List ℚ} (hw : List.Forall₂ Worth (present f (accepted ops)) xs)
    (hb : (1 + 1 / 2 ^ 53) ^ xs.length * sizes xs ≤ pow2 1023) {x : F64} {r : QueryResult}
    (h : runQuery L rt (Graph.run (ops ++ [.build])) (showQuery q) = .ok (.aggregation (.sum (.float x))))
    (h' : runQuery L rt' (Graph.run (ops' ++ [.build])) (showQuery q) = .ok r) :
    ∃ y a b, r = .aggregation (.sum (.float y)) ∧ finiteValue x = some a ∧ finiteValue y = some b ∧
      |a - b| ≤ 2 * (drift xs.length * sizes xs) := by
  obtain ⟨s, es, h1, h2, h3⟩ := C94_written L rt ops hq h
  obtain ⟨s', es', k1, k2, k3⟩ := C94_written L rt' ops' hq h'
  have hes := clauses_perm hp ho (starts_perm hp h1 k1) h2 k2
  rw [hn] at h3 k3
  cases h3 with
  | sum hn hv =>
    cases k3 with
    | @sum _ _ v kn kv =>
      cases fieldNamed_unique hn hf
      cases fieldNamed_unique kn hf
      obtain ⟨part, hperm, hsub⟩ := column_part h1 h2 f
      have hpres := present_perm (f := f) hes
      obtain ⟨ys, zs, z1, z2, z3⟩ := worth_column hw hperm hsub
      obtain ⟨us, u1, u2⟩ := List.perm_comp_forall₂ hpres.symm z3
      generalize present f es = vs at hv hpres z3
      generalize present f es' = vs' at kv hpres u1
      have hval : ∀ (ws : List FieldValue) (us : List ℚ), us.Perm zs → List.Forall₂ Worth ws us →
          ∃ a, finiteValue ((asFloats L.env ws).foldl F64.add .negZero) = some a ∧
            |a - zs.sum| ≤ drift xs.length * sizes xs := by
        intro ws us hu hws
        have hb' : (1 + half) ^ us.length * sizes us ≤ pow2 1023 := by
          rw [hu.length_eq, sizes_perm hu]; exact fits_sublist z1 hb
        obtain ⟨a, a1, -, -, a2⟩ := sumF64_near (floats_near L.env hws (fits_plain hb')) hb'
        rw [asFloats_eq] at a1
        refine ⟨a, a1, ?_⟩
        rw [hu.sum_eq, hu.length_eq, sizes_perm hu] at a2
        exact le_trans a2 (mul_le_mul (drift_mono z1.length_le) (sizes_sublist z1) (sizes_nonneg _) (drift_nonneg _))
      cases hv with
      | floats hpl hfl =>
        obtain ⟨x, hx⟩ := hfl
        have hx' := hpres.mem_iff.1 hx
        cases kv with
        | empty => cases hx'
        | exact => simp at hx'
        | wrapped => simp at hx'
        | amounts => simp at hx'
        | floats =>
          obtain ⟨a, a1, a2⟩ := hval vs ys z2 z3
          obtain ⟨b, b1, b2⟩ := hval vs' us (u2.trans z2) u1
          refine ⟨_, a, b, rfl, a1, b1, ?_⟩
          rw [abs_le] at a2 b2 ⊢
          constructor <;> linarith [a2.1, a2.2, b2.1, b2.2]

/-- C95: the same for averages of integers and floats. -/
theorem C95_near_average_partial (L : Lang) (rt rt' : Runtime) {ops ops' : List GOp}
    (hp : (accepted ops).Perm (accepted ops')) {q : QTree} (hq : ValidTree q) (ho : ∀ o ∈ q.operations, NoLimit o)
    {n : QField} (hn : q.aggregation = some (.average n)) {f : FieldId} (hf : FieldNamed L.cases n (.regular f))
    {xs : List ℚ} (hw : List.Forall₂ Worth (present f (accepted ops)) xs)
    (hb : (1 + 1 / 2 ^ 53) ^ xs.length * sizes xs ≤ pow2 1023) {r r' : QueryResult}
    (h : runQuery L rt (Graph.run (ops ++ [.build])) (showQuery q) = .ok r)
    (h' : runQuery L rt' (Graph.run (ops' ++ [.build])) (showQuery q) = .ok r') :
    ∃ x y a b, r = .aggregation (.average x) ∧ r' = .aggregation (.average y) ∧ finiteValue x = some a ∧
      finiteValue y = some b ∧ |a - b| ≤ 2 * (drift (xs.length + 1) * sizes xs + pow2 (-1075)) := by
  obtain ⟨s, es, h1, h2, h3⟩ := C94_written L rt ops hq h
  obtain ⟨s', es', k1, k2, k3⟩ := C94_written L rt' ops' hq h'
  have hes := clauses_perm hp ho (starts_perm hp h1 k1) h2 k2
  rw [hn] at h3 k3
  cases h3 with
  | average hn hv =>
    cases k3 with
    | average kn kv =>
      cases fieldNamed_unique hn hf
      cases fieldNamed_unique kn hf
      obtain ⟨part, hperm, hsub⟩ := column_part h1 h2 f
      have hpres := present_perm (f := f) hes
      obtain ⟨ys, zs, z1, z2, z3⟩ := worth_column hw hperm hsub
      obtain ⟨us, u1, u2⟩ := List.perm_comp_forall₂ hpres.symm z3
      generalize present f es = vs at hv hpres z3
      generalize present f es' = vs' at kv hpres u1
      have hval : ∀ (ws : List FieldValue) (us : List ℚ) (x : F64), us.Perm zs → List.Forall₂ Worth ws us →
          AverageOf L.env ws x → ∃ a, finiteValue x = some a ∧
            |a - zs.sum / zs.length| ≤ drift (xs.length + 1) * sizes xs + pow2 (-1075) := by
        intro ws us x hu hws ⟨hne, _, hx, _⟩
        have hb' : (1 + half) ^ us.length * sizes us ≤ pow2 1023 := by
          rw [hu.length_eq, sizes_perm hu]; exact fits_sublist z1 hb
        have hlen := (forall₂_worth hws).1
        have hne' : us ≠ [] := by
          rintro rfl
          exact hne (List.length_eq_zero_iff.1 hlen)
        obtain ⟨a, a1, a2⟩ := average_near (floats_near L.env hws (fits_plain hb')) hne' hb'
        rw [asFloats_eq] at a1
        refine ⟨a, by rw [hx, hlen]; exact a1, ?_⟩
        rw [hu.sum_eq, hu.length_eq, sizes_perm hu] at a2
        have hz : (1 : ℚ) ≤ zs.length := by
          have : 0 < us.length := List.length_pos_iff.2 hne'
          rw [hu.length_eq] at this
          exact_mod_cast this
        have hdiv : sizes zs / zs.length ≤ sizes xs :=
          le_trans (div_le_self (sizes_nonneg _) hz) (sizes_sublist z1)
        have := mul_le_mul (drift_mono (Nat.succ_le_succ z1.length_le)) hdiv
          (div_nonneg (sizes_nonneg _) (by linarith)) (drift_nonneg _)
        linarith
      obtain ⟨a, a1, a2⟩ := hval vs ys _ z2 z3 hv
      obtain ⟨b, b1, b2⟩ := hval vs' us _ (u2.trans z2) u1 kv
      refine ⟨_, _, a, b, rfl, rfl, a1, b1, ?_⟩
      rw [abs_le] at a2 b2 ⊢
      constructor <;> linarith [a2.1, a2.2, b2.1, b2.2]

/-! ### A case: the floats of `C95_floats` -/

theorem exFloats_worth : List.Forall₂ Worth (present "x".toList (accepted exFloats)) [2 ^ 53, 1, 1] := by
  have hone : Worth (.float (.fin 1)) 1 := .float _ _ rfl ⟨1, 0, by rw [pow2_eq]; norm_num, by decide, by decide⟩
    (lt_of_lt_of_le (b := pow2 1) (by rw [pow2_eq, abs_of_pos (by norm_num)]; norm_num) (pow2_le (by decide)))
  have hbig : Worth (.float (.fin (2 ^ 53))) (2 ^ 53) := .float _ _ rfl
    ⟨1, 53, by rw [pow2_eq]; norm_num, by decide, by decide⟩
    (lt_of_lt_of_le (b := pow2 54) (by rw [pow2_eq, abs_of_pos (by norm_num)]; norm_num) (pow2_le (by decide)))
  have : present "x".toList (accepted exFloats) = [.float (.fin (2 ^ 53)), .float (.fin 1), .float (.fin 1)] := by
    decide +kernel
  rw [this]
  exact .cons hbig (.cons hone (.cons hone .nil))

example : (1 + 1 / 2 ^ 53) ^ ([2 ^ 53, 1, 1] : List ℚ).length * sizes [2 ^ 53, 1, 1] ≤ pow2 1023 := by
  refine le_trans ?_ (pow2_le (a := 60) (by decide))
  rw [pow2_eq]
  simp only [sizes, List.map_cons, List.map_nil, List.sum_cons, List.sum_nil, List.length_cons, List.length_nil]
  rw [abs_of_pos (by norm_num), abs_of_pos (by norm_num)]
  norm_num

end Firm
