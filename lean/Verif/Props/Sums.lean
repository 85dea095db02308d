import Verif.Props.NearFloats
import Verif.Props.Aggregation
import Mathlib.Data.List.Perm.Basic
import Mathlib.Algebra.BigOperators.Group.List.Basic

/-!
# C145: sums and averages of floats are close to the exact ones
-/

namespace Firm
open Spec

namespace Spec

/-- The exact number that a value without currency stands for; a float has one when it is finite and has at
most 53 bits. -/
inductive Worth : FieldValue → ℚ → Prop
  | integer (n : Int) : Worth (.integer n) n
  | float (x : F64) (q : ℚ) : finiteValue x = some q → F64.OnGrid q → |q| < F64.pow2 1024 → Worth (.float x) q

/-- How far `n` roundings to 53 bits can move a number, relative to its size. -/
def drift (n : Nat) : ℚ := (1 + 1 / 2 ^ 53) ^ n - 1

/-- The sum of the sizes. -/
def sizes (xs : List ℚ) : ℚ := (xs.map fun x => |x|).sum

end Spec

open F64

theorem one_half : (1 : ℚ) + 1 / 2 ^ 53 = 1 + half := rfl

theorem sizes_nonneg (xs : List ℚ) : 0 ≤ sizes xs := by
  unfold sizes
  induction xs with
  | nil => simp
  | cons x xs ih => simp only [List.map_cons, List.sum_cons]; have := abs_nonneg x; linarith

theorem sum_le_sizes (xs : List ℚ) : |xs.sum| ≤ sizes xs := by
  unfold sizes
  induction xs with
  | nil => simp
  | cons x xs ih =>
    simp only [List.map_cons, List.sum_cons]
    have := abs_add_le x xs.sum
    linarith

theorem drift_succ (n : Nat) : drift (n + 1) = drift n + half * (1 + half) ^ n := by
  unfold drift
  rw [one_half, pow_succ]; ring

theorem drift_nonneg (n : Nat) : 0 ≤ drift n := by
  unfold drift
  have : (1 : ℚ) ≤ (1 + 1 / 2 ^ 53) ^ n := one_le_pow₀ (by norm_num)
  linarith

theorem half_le_drift (n : Nat) : half ≤ drift (n + 1) := by
  rw [drift_succ]
  have h1 := drift_nonneg n
  have h2 : (1 : ℚ) ≤ (1 + half) ^ n := one_le_pow₀ (by have := half_lt.1; linarith)
  have h3 := half_lt.1
  nlinarith

/-! ## One rounding -/

/-- Rounding a positive number moves it by at most half of the last bit. -/
theorem rndPos_err {q : ℚ} (h : 0 < q) : |rndPos q - q| ≤ half * q + pow2 (-1075) := by
  by_cases hq : pow2 (-1022) ≤ q
  · obtain ⟨h1, h2⟩ := rndPos_near hq
    have := pow2_pos (-1075)
    rw [abs_le]; constructor <;> nlinarith
  · have hl : ilog2 q < -1022 := by
      have := (ilog2_spec h).1
      have := lt_of_le_of_lt this (not_le.1 hq)
      rwa [pow2_lt] at this
    have hlast : lastBit q = -1074 := by unfold lastBit; omega
    have hb := pow2_pos (-1074)
    have hr := round_near (q / pow2 (-1074))
    have he : pow2 (-1075) = 1 / 2 * pow2 (-1074) := by
      rw [show (-1075 : Int) = -1 + -1074 by norm_num, pow2_add]
      congr 1
    rw [rndPos_eq, hlast]
    have : (roundHalfEven (q / pow2 (-1074)) : ℚ) * pow2 (-1074) - q =
        ((roundHalfEven (q / pow2 (-1074)) : ℚ) - q / pow2 (-1074)) * pow2 (-1074) := by
      field_simp
    rw [this, abs_mul, abs_of_pos hb, he]
    have h3 := mul_le_mul_of_nonneg_right hr (le_of_lt hb)
    have h4 : 0 ≤ half * q := mul_nonneg (le_of_lt half_lt.1) (le_of_lt h)
    linarith

/-- The value of a rounding. -/
theorem rnd_value {q : ℚ} (h : |q| ≤ pow2 1023) :
    ∃ v, finiteValue (rnd q) = some v ∧ OnGrid v ∧ |v| < pow2 1024 ∧
      ((q = 0 ∧ v = 0) ∨ (0 < q ∧ v = rndPos q) ∨ (q < 0 ∧ v = -rndPos (-q))) := by
  have hz : OnGrid 0 := ⟨0, 0, by simp, by simp, by omega⟩
  have hi := rnd_ne_inf h
  have hn := rnd_ne_nan q
  have hcases : (q = 0 ∧ rnd q = fin 0) ∨ (0 < q ∧ rnd q = fin (rndPos q)) ∨
      (q < 0 ∧ rndPos (-q) = 0 ∧ rnd q = negZero) ∨ (q < 0 ∧ rnd q = fin (-rndPos (-q))) := by
    have hi1 := hi true
    have hi2 := hi false
    unfold rnd at hi1 hi2 ⊢
    simp only at hi1 hi2 ⊢
    by_cases h0 : q = 0
    · exact .inl ⟨h0, if_pos h0⟩
    · rw [if_neg h0] at hi1 hi2 ⊢
      by_cases hp : 0 < q
      · rw [if_pos hp] at hi1 hi2 ⊢
        split at hi2
        · exact absurd rfl hi2
        · next hx => rw [if_neg hx]; exact .inr (.inl ⟨hp, rfl⟩)
      · have hlt : q < 0 := lt_of_le_of_ne (not_lt.1 hp) h0
        rw [if_neg hp] at hi1 hi2 ⊢
        split at hi1
        · exact absurd rfl hi1
        · next hx =>
          rw [if_neg hx]
          split
          · next hr => exact .inr (.inr (.inl ⟨hlt, hr, rfl⟩))
          · exact .inr (.inr (.inr ⟨hlt, rfl⟩))
  rcases hcases with ⟨h0, hr⟩ | ⟨hp, hr⟩ | ⟨hl, hz', hr⟩ | ⟨hl, hr⟩
  · exact ⟨0, by rw [hr]; rfl, hz, by simp [pow2_pos], .inl ⟨h0, rfl⟩⟩
  · exact ⟨rndPos q, by rw [hr]; rfl, (rnd_onGrid hr).1, (rnd_onGrid hr).2, .inr (.inl ⟨hp, rfl⟩)⟩
  · exact ⟨0, by rw [hr]; rfl, hz, by simp [pow2_pos], .inr (.inr ⟨hl, by rw [hz']; simp⟩)⟩
  · exact ⟨-rndPos (-q), by rw [hr]; rfl, (rnd_onGrid hr).1, (rnd_onGrid hr).2, .inr (.inr ⟨hl, rfl⟩)⟩

/-- Rounding any number of moderate size. -/
theorem rnd_err {q : ℚ} (h : |q| ≤ pow2 1023) :
    ∃ v, finiteValue (rnd q) = some v ∧ |v - q| ≤ half * |q| + pow2 (-1075) := by
  obtain ⟨v, hv, -, -, hc⟩ := rnd_value h
  refine ⟨v, hv, ?_⟩
  have hp := pow2_pos (-1075)
  rcases hc with ⟨rfl, rfl⟩ | ⟨hq, rfl⟩ | ⟨hq, rfl⟩
  · simp; exact le_of_lt hp
  · rw [abs_of_pos hq]; exact rndPos_err hq
  · have := rndPos_err (q := -q) (by linarith)
    rw [abs_of_neg hq]
    have he : -rndPos (-q) - q = -(rndPos (-q) - -q) := by ring
    rw [he, abs_neg]; exact this

/-- A number on the grid is a multiple of the smallest one. -/
theorem grid_multiple {q : ℚ} (h : OnGrid q) : ∃ m : Int, q = m * pow2 (-1074) := by
  obtain ⟨m, e, hq, -, he⟩ := h
  obtain ⟨k, hk⟩ := pow2_int (e := e + 1074) (by omega)
  refine ⟨m * k, ?_⟩
  rw [hq]
  push_cast
  rw [mul_assoc, ← hk, ← pow2_add]
  congr 2
  omega

/-- Multiples of the smallest number are rounded with a relative error only. -/
theorem rnd_multiple {q : ℚ} (hm : ∃ m : Int, q = m * pow2 (-1074)) (h : |q| ≤ pow2 1023) :
    ∃ v, finiteValue (rnd q) = some v ∧ OnGrid v ∧ |v| < pow2 1024 ∧ |v - q| ≤ half * |q| := by
  have key : ∀ p : ℚ, 0 < p → (∃ m : Int, p = m * pow2 (-1074)) → |rndPos p - p| ≤ half * p := by
    intro p hp ⟨m, hpm⟩
    by_cases hq : pow2 (-1022) ≤ p
    · obtain ⟨h1, h2⟩ := rndPos_near hq
      rw [abs_le]; constructor <;> linarith
    · have hg : OnGrid p := by
        refine ⟨m, -1074, hpm, ?_, by omega⟩
        have hb := pow2_pos (-1074)
        have h1 : (m : ℚ) < 2 ^ 52 := by
          have h2 := not_le.1 hq
          rw [show (-1022 : Int) = 52 + -1074 by norm_num, pow2_add, hpm] at h2
          have h3 := lt_of_mul_lt_mul_right h2 (le_of_lt hb)
          have : pow2 52 = 2 ^ 52 := by rw [pow2_eq]; norm_num
          rwa [this] at h3
        have h0 : (0 : ℚ) < m := by
          rw [hpm] at hp
          exact (mul_pos_iff_of_pos_right hb).1 hp
        have h1' : m < 2 ^ 52 := by exact_mod_cast h1
        have h0' : 0 < m := by exact_mod_cast h0
        omega
      rw [rndPos_grid hp hg]
      simp
      exact mul_nonneg (le_of_lt half_lt.1) (le_of_lt hp)
  obtain ⟨v, hv, hg, hb, hc⟩ := rnd_value h
  refine ⟨v, hv, hg, hb, ?_⟩
  rcases hc with ⟨rfl, rfl⟩ | ⟨hq, rfl⟩ | ⟨hq, rfl⟩
  · simp
  · rw [abs_of_pos hq]; exact key q hq hm
  · obtain ⟨m, hm⟩ := hm
    have := key (-q) (by linarith) ⟨-m, by rw [hm]; push_cast; ring⟩
    rw [abs_of_neg hq]
    have he : -rndPos (-q) - q = -(rndPos (-q) - -q) := by ring
    rw [he, abs_neg]; exact this

/-- An addition of two numbers on the grid. -/
theorem add_value {a b : F64} {p q : ℚ} (ha : finiteValue a = some p) (hb : finiteValue b = some q)
    (ga : OnGrid p) (gb : OnGrid q) (bq : |q| < pow2 1024) (bp : |p| < pow2 1024) (h : |p + q| ≤ pow2 1023) :
    ∃ v, finiteValue (a.add b) = some v ∧ OnGrid v ∧ |v| < pow2 1024 ∧ |v - (p + q)| ≤ half * |p + q| := by
  have hpos : 0 ≤ half * |p + q| := mul_nonneg (le_of_lt half_lt.1) (abs_nonneg _)
  cases a with
  | nan => cases ha
  | inf s => cases ha
  | negZero =>
    cases ha
    cases b with
    | nan => cases hb
    | inf s => cases hb
    | negZero => cases hb; exact ⟨0, rfl, ga, bp, by simp⟩
    | fin q' => cases hb; exact ⟨q, rfl, gb, bq, by simpa using hpos⟩
  | fin p' =>
    cases ha
    cases b with
    | nan => cases hb
    | inf s => cases hb
    | negZero => cases hb; exact ⟨p, rfl, ga, bp, by simpa using hpos⟩
    | fin q' =>
      cases hb
      obtain ⟨m, hm⟩ := grid_multiple ga
      obtain ⟨n, hn⟩ := grid_multiple gb
      exact rnd_multiple ⟨m + n, by rw [hm, hn]; push_cast; ring⟩ h

/-! ## The loop -/

/-- A float near the number that it stands for. -/
def NearTo (x : F64) (q : ℚ) : Prop :=
  ∃ p, finiteValue x = some p ∧ OnGrid p ∧ |p| < pow2 1024 ∧ |p - q| ≤ half * |q|

theorem worth_near (env : Env) {v : FieldValue} {q : ℚ} (h : Worth v q) (hb : |q| ≤ pow2 1023) :
    ∃ n, num? v = some n ∧ NearTo (n.asF64 env) q := by
  have hpos : 0 ≤ half * |q| := mul_nonneg (le_of_lt half_lt.1) (abs_nonneg _)
  cases h with
  | integer n =>
    refine ⟨_, rfl, ?_⟩
    obtain ⟨k, hk⟩ := pow2_int (e := 1074) (by omega)
    refine rnd_multiple ⟨n * k, ?_⟩ hb
    push_cast
    rw [mul_assoc, ← hk, ← pow2_add]
    simp [pow2_eq]
  | float x q h1 h2 h3 => exact ⟨_, rfl, q, h1, h2, h3, by simpa using hpos⟩

theorem fold_near (ys : List F64) (xs : List ℚ) (h : List.Forall₂ NearTo ys xs) :
    ∀ (k : Nat) (acc : F64) (a A B : ℚ), finiteValue acc = some a → OnGrid a → |a| < pow2 1024 →
      |A| ≤ B → |a - A| ≤ drift (k + 1) * B →
      (1 + half) ^ (k + 1 + xs.length) * (B + sizes xs) ≤ pow2 1023 →
      ∃ v, finiteValue (ys.foldl F64.add acc) = some v ∧ OnGrid v ∧ |v| < pow2 1024 ∧
        |v - (A + xs.sum)| ≤ drift (k + 1 + xs.length) * (B + sizes xs) := by
  induction h with
  | nil =>
    intro k acc a A B h1 h2 h3 h4 h5 _
    exact ⟨a, h1, h2, h3, by simpa [sizes] using h5⟩
  | @cons y x ys xs hy hys ih =>
    intro k acc a A B h1 h2 h3 h4 h5 h6
    obtain ⟨p, p1, p2, p3, p4⟩ := hy
    have hB : 0 ≤ B := le_trans (abs_nonneg _) h4
    have hx := abs_nonneg x
    have hs := sizes_nonneg xs
    have hsz : sizes (x :: xs) = |x| + sizes xs := by simp [sizes]
    have hc1 : (1 : ℚ) ≤ 1 + half := by have := half_lt.1; linarith
    have hck : (1 : ℚ) ≤ (1 + half) ^ (k + 1) := one_le_pow₀ hc1
    have hd : drift (k + 1) = (1 + half) ^ (k + 1) - 1 := rfl
    -- the exact sum of the two floats
    have hdist : |a + p - (A + x)| ≤ drift (k + 1) * (B + |x|) := by
      have e : a + p - (A + x) = (a - A) + (p - x) := by ring
      rw [e]
      have t := abs_add_le (a - A) (p - x)
      have u := mul_le_mul_of_nonneg_right (half_le_drift k) hx
      linarith
    have hsize : |a + p| ≤ (1 + half) ^ (k + 1) * (B + |x|) := by
      have e : a + p = (a + p - (A + x)) + (A + x) := by ring
      rw [e]
      have t := abs_add_le (a + p - (A + x)) (A + x)
      have u := abs_add_le A x
      rw [hd] at hdist
      linarith
    have hfit : |a + p| ≤ pow2 1023 := by
      refine le_trans hsize (le_trans ?_ h6)
      rw [hsz]
      refine mul_le_mul (pow_le_pow_right₀ hc1 (by simp)) (by linarith) (by linarith) (by positivity)
    obtain ⟨v, v1, v2, v3, v4⟩ := add_value h1 p1 h2 p2 p3 h3 hfit
    have hnew : |v - (A + x)| ≤ drift (k + 1 + 1) * (B + |x|) := by
      have e : v - (A + x) = (v - (a + p)) + (a + p - (A + x)) := by ring
      rw [e]
      have t := abs_add_le (v - (a + p)) (a + p - (A + x))
      have u := mul_le_mul_of_nonneg_left hsize (le_of_lt half_lt.1)
      rw [drift_succ]
      linarith
    have hlen : k + 1 + (x :: xs).length = k + 1 + 1 + xs.length := by simp; omega
    rw [hlen, hsz, ← add_assoc B] at h6
    obtain ⟨w, w1, w2, w3, w4⟩ := ih (k + 1) (acc.add y) v (A + x) (B + |x|) v1 v2 v3
      (le_trans (abs_add_le A x) (by linarith)) hnew h6
    refine ⟨w, w1, w2, w3, ?_⟩
    rw [hlen, hsz, List.sum_cons, ← add_assoc, ← add_assoc]
    exact w4

theorem sumF64_near {ys : List F64} {xs : List ℚ} (h : List.Forall₂ NearTo ys xs)
    (hb : (1 + half) ^ xs.length * sizes xs ≤ pow2 1023) :
    ∃ v, finiteValue (sumF64 ys) = some v ∧ OnGrid v ∧ |v| < pow2 1024 ∧
      |v - xs.sum| ≤ drift xs.length * sizes xs := by
  cases h with
  | nil =>
    exact ⟨0, rfl, ⟨0, 0, by simp, by simp, by omega⟩, by simp [pow2_pos], by simp [sizes]⟩
  | @cons y x ys xs hy hys =>
    obtain ⟨p, p1, p2, p3, p4⟩ := hy
    have hfirst : finiteValue (F64.add .negZero y) = some p := by
      cases y with
      | nan => cases p1
      | inf s => cases p1
      | negZero => exact p1
      | fin q => exact p1
    have hsz : sizes (x :: xs) = |x| + sizes xs := by simp [sizes]
    have hlen : (x :: xs).length = 0 + 1 + xs.length := by simp; omega
    rw [hsz, hlen] at hb ⊢
    obtain ⟨v, v1, v2, v3, v4⟩ := fold_near ys xs hys 0 (F64.add .negZero y) p x |x| hfirst p2 p3 (le_refl _)
      (by simpa [drift, half] using p4) hb
    exact ⟨v, v1, v2, v3, by simpa using v4⟩

theorem floats_near (env : Env) {vs : List FieldValue} {xs : List ℚ} (h : List.Forall₂ Worth vs xs)
    (hb : sizes xs ≤ pow2 1023) :
    List.Forall₂ NearTo ((vs.filterMap num?).map (·.asF64 env)) xs := by
  induction h with
  | nil => exact .nil
  | @cons v x vs xs hv _ ih =>
    have hsz : sizes (x :: xs) = |x| + sizes xs := by simp [sizes]
    rw [hsz] at hb
    have h1 := sizes_nonneg xs
    have h2 := abs_nonneg x
    obtain ⟨n, hn, hnear⟩ := worth_near env hv (by linarith)
    rw [List.filterMap_cons, hn]
    exact .cons hnear (ih (by linarith))

theorem Spec.Worth.number {v : FieldValue} {q : ℚ} (h : Worth v q) : IsNumber v ∧ IsPlain v := by
  cases h <;> exact ⟨trivial, trivial⟩

theorem forall₂_worth {vs : List FieldValue} {xs : List ℚ} (h : List.Forall₂ Worth vs xs) :
    vs.length = xs.length ∧ ∀ v ∈ vs, IsNumber v ∧ IsPlain v := by
  induction h with
  | nil => exact ⟨rfl, by simp⟩
  | cons hv _ ih =>
    refine ⟨by simp [ih.1], ?_⟩
    intro v hm
    rcases List.mem_cons.1 hm with rfl | hm
    · exact hv.number
    · exact ih.2 v hm

theorem fits_plain {xs : List ℚ} (hb : (1 + 1 / 2 ^ 53) ^ xs.length * sizes xs ≤ pow2 1023) :
    sizes xs ≤ pow2 1023 := by
  refine le_trans ?_ hb
  have h1 : (1 : ℚ) ≤ (1 + 1 / 2 ^ 53) ^ xs.length := one_le_pow₀ (by norm_num)
  have := sizes_nonneg xs
  nlinarith

/-! ## C145 -/

/-- C145: the sum of a column with floats differs from the exact sum by at most as much as one rounding per
value can move it. -/
theorem C145_sum (env : Env) (f : FieldId) (es : List Entity) (xs : List ℚ)
    (h : List.Forall₂ Worth (present f es) xs) (hf : ∃ x, FieldValue.float x ∈ present f es)
    (hb : (1 + 1 / 2 ^ 53) ^ xs.length * sizes xs ≤ pow2 1023) :
    ∃ s q, Aggregation.execute env (.sum (.regular f)) es = .ok (.sum (.float s)) ∧
      finiteValue s = some q ∧ |q - xs.sum| ≤ drift xs.length * sizes xs := by
  obtain ⟨x, hx⟩ := hf
  obtain ⟨v, v1, -, -, v4⟩ := sumF64_near (floats_near env h (fits_plain hb)) hb
  refine ⟨_, v, ?_, v1, v4⟩
  rw [executeSum_of_values env f es (fun w hw => ((forall₂_worth h).2 w hw).1) (List.ne_nil_of_mem hx),
    (classify_plain _ ?_).1 ⟨x, mem_nums_float.2 hx⟩]
  rintro ⟨d, c, hd⟩
  exact absurd ((forall₂_worth h).2 _ (mem_nums_currency.1 hd)).2 (by simp [IsPlain])

/-- A sum of floats near some numbers, divided by their number. -/
theorem average_near {ys : List F64} {xs : List ℚ} (h : List.Forall₂ NearTo ys xs) (hne : xs ≠ [])
    (hb : (1 + half) ^ xs.length * sizes xs ≤ pow2 1023) :
    ∃ q, finiteValue ((sumF64 ys).divPos (xs.length : Rat)) = some q ∧
      |q - xs.sum / xs.length| ≤ drift (xs.length + 1) * (sizes xs / xs.length) + pow2 (-1075) := by
  obtain ⟨v, v1, v2, v3, v4⟩ := sumF64_near h hb
  have hn0 : 0 < xs.length := List.length_pos_iff.2 hne
  have hn : (1 : ℚ) ≤ xs.length := by exact_mod_cast hn0
  have hnp : (0 : ℚ) < xs.length := by linarith
  have hp := pow2_pos (-1075)
  generalize sumF64 ys = s at v1 ⊢
  -- the size of the computed sum
  have hv : |v| ≤ (1 + half) ^ xs.length * sizes xs := by
    have e : v = (v - xs.sum) + xs.sum := by ring
    rw [e]
    have t := abs_add_le (v - xs.sum) xs.sum
    have u := sum_le_sizes xs
    have hd : drift xs.length = (1 + half) ^ xs.length - 1 := rfl
    rw [hd] at v4
    linarith
  have hdiv : ∀ r : ℚ, |r - v / xs.length| ≤ half * |v / xs.length| + pow2 (-1075) →
      |r - xs.sum / xs.length| ≤ drift (xs.length + 1) * (sizes xs / xs.length) + pow2 (-1075) := by
    intro r hr
    have e : r - xs.sum / xs.length = (r - v / xs.length) + (v - xs.sum) / xs.length := by field_simp; ring
    rw [e]
    have t := abs_add_le (r - v / xs.length) ((v - xs.sum) / xs.length)
    have u : |(v - xs.sum) / (xs.length : ℚ)| ≤ drift xs.length * (sizes xs / xs.length) := by
      rw [abs_div, abs_of_pos hnp, ← mul_div_assoc]
      exact div_le_div_of_nonneg_right v4 (le_of_lt hnp)
    have w : half * |v / (xs.length : ℚ)| ≤ half * (1 + half) ^ xs.length * (sizes xs / xs.length) := by
      rw [abs_div, abs_of_pos hnp, mul_assoc, ← mul_div_assoc ((1 + half) ^ xs.length)]
      exact mul_le_mul_of_nonneg_left (div_le_div_of_nonneg_right hv (le_of_lt hnp)) (le_of_lt half_lt.1)
    rw [drift_succ]
    linarith
  have hfit : |v / (xs.length : ℚ)| ≤ pow2 1023 := by
    rw [abs_div, abs_of_pos hnp]
    exact le_trans (div_le_self (abs_nonneg _) hn) (le_trans hv hb)
  cases s with
  | nan => cases v1
  | inf b => cases v1
  | negZero =>
    cases v1
    exact ⟨0, rfl, hdiv 0 (by simp; exact le_of_lt hp)⟩
  | fin q =>
    cases v1
    by_cases hq : v = 0
    · subst hq
      exact ⟨0, by simp [F64.divPos, finiteValue], hdiv 0 (by simp; exact le_of_lt hp)⟩
    · obtain ⟨r, r1, r2⟩ := rnd_err hfit
      refine ⟨r, ?_, hdiv r r2⟩
      simp only [F64.divPos]
      rw [if_neg hq]
      exact r1

/-- C145: the average of any numbers without currency differs from the exact mean by at most as much as one
rounding per value and one for the division can move it, and half of the smallest float. -/
theorem C145_average (env : Env) (f : FieldId) (es : List Entity) (xs : List ℚ)
    (h : List.Forall₂ Worth (present f es) xs) (hne : xs ≠ [])
    (hb : (1 + 1 / 2 ^ 53) ^ xs.length * sizes xs ≤ pow2 1023) :
    ∃ a q, Aggregation.execute env (.average (.regular f)) es = .ok (.average a) ∧
      finiteValue a = some q ∧
      |q - xs.sum / xs.length| ≤ drift (xs.length + 1) * (sizes xs / xs.length) + pow2 (-1075) := by
  have hnear := floats_near env h (fits_plain hb)
  have hlen : ((present f es).filterMap num?).length = xs.length := by
    have := hnear.length_eq
    simpa using this
  obtain ⟨q, q1, q2⟩ := average_near hnear hne hb
  refine ⟨_, q, ?_, q1, q2⟩
  simp only [Aggregation.execute, executeAverage, requireRegularField,
    collect_ok f es (fun w hw => ((forall₂_worth h).2 w hw).1)]
  rw [if_neg, hlen]
  intro hc
  rw [List.isEmpty_iff] at hc
  rw [hc] at hlen
  exact hne (List.length_eq_zero_iff.1 hlen.symm)

/-- C145 in plain numbers: for at most `2^52` values the relative error is at most twice their number times
`2^-53`. -/
theorem C145_drift (n : Nat) (h : n ≤ 2 ^ 52) : drift n ≤ 2 * n / 2 ^ 53 := by
  have key : ∀ m : Nat, m ≤ 2 ^ 52 → (1 + 1 / 2 ^ 53 : ℚ) ^ m ≤ 1 + 2 * m / 2 ^ 53 := by
    intro m hm
    induction m with
    | zero => simp
    | succ m ih =>
      have h1 := ih (by omega)
      have h2 : (m : ℚ) ≤ 2 ^ 52 := by exact_mod_cast (by omega : m ≤ 2 ^ 52)
      rw [pow_succ]
      refine le_trans (mul_le_mul_of_nonneg_right h1 (by norm_num)) ?_
      push_cast
      nlinarith
  have := key n h
  unfold drift
  linarith

/-- C145: two orders of the same values give sums that differ by at most twice that much. -/
theorem C145_order (env : Env) (f : FieldId) (es es' : List Entity) (xs : List ℚ) (hp : es.Perm es')
    (h : List.Forall₂ Worth (present f es) xs) (hf : ∃ x, FieldValue.float x ∈ present f es)
    (hb : (1 + 1 / 2 ^ 53) ^ xs.length * sizes xs ≤ pow2 1023) :
    ∃ s s' q q', Aggregation.execute env (.sum (.regular f)) es = .ok (.sum (.float s)) ∧
      Aggregation.execute env (.sum (.regular f)) es' = .ok (.sum (.float s')) ∧
      finiteValue s = some q ∧ finiteValue s' = some q' ∧ |q - q'| ≤ 2 * (drift xs.length * sizes xs) := by
  have hp' : (present f es).Perm (present f es') := hp.filterMap _
  obtain ⟨ys, hys, hperm⟩ := List.perm_comp_forall₂ hp'.symm h
  have hsum : ys.sum = xs.sum := hperm.sum_eq
  have hsz : sizes ys = sizes xs := (hperm.map _).sum_eq
  have hlen : ys.length = xs.length := hperm.length_eq
  obtain ⟨s, q, e1, e2, e3⟩ := C145_sum env f es xs h hf hb
  obtain ⟨s', q', d1, d2, d3⟩ := C145_sum env f es' ys hys
    (by obtain ⟨x, hx⟩ := hf; exact ⟨x, hp'.mem_iff.1 hx⟩) (by rw [hlen, hsz]; exact hb)
  refine ⟨s, s', q, q', e1, d1, e2, d2, ?_⟩
  rw [hsum, hsz, hlen] at d3
  rw [abs_le] at e3 d3 ⊢
  constructor <;> linarith [e3.1, e3.2, d3.1, d3.2]

/-- C145: when the sum is a float, the average is that sum divided by the number of values. -/
theorem C145_quotient (env : Env) (f : FieldId) (es : List Entity) (s : F64)
    (h : Aggregation.execute env (.sum (.regular f)) es = .ok (.sum (.float s))) :
    Aggregation.execute env (.average (.regular f)) es =
      .ok (.average (s.divPos ((present f es).length : Rat))) := by
  by_cases hnum : ∀ v ∈ present f es, IsNumber v
  · have hlen : ((present f es).filterMap num?).length = (present f es).length := by
      generalize present f es = vs at hnum
      clear h
      induction vs with
      | nil => rfl
      | cons v vs ih =>
        obtain ⟨x, hx⟩ := Option.isSome_iff_exists.1 (num?_isSome.2 (hnum v (by simp)))
        rw [List.filterMap_cons, hx]
        simp [ih (fun w hw => hnum w (by simp [hw]))]
    simp only [Aggregation.execute, executeSum, executeAverage, requireRegularField, collect_ok f es hnum] at h ⊢
    split at h
    · cases h
    · next he =>
      rw [if_neg he, ← hlen]
      split at h
      · cases h
      · split at h <;> cases h
      · cases h; rfl
      · split at h <;> cases h
  · obtain ⟨pre, v, post, -, -, -, e⟩ := C38_non_numeric env f es (by
      by_contra hc
      exact hnum fun v hv => by
        by_contra hn
        exact hc ⟨v, hv, hn⟩)
    rw [e] at h
    cases h

/-- C145: the average of integers lies between the smallest and the largest.  Missing: it does not for floats
(`C145_outside`) nor for values whose sum is too large (`C145_infinite`). -/
theorem C145_between_partial (env : Env) (f : FieldId) (es : List Entity) (ns : List Int) (lo hi : Int)
    (h : present f es = ns.map .integer) (hne : ns ≠ []) (hsize : absTotal ns ≤ 2 ^ 53)
    (hlo : ∀ n ∈ ns, lo ≤ n) (hhi : ∀ n ∈ ns, n ≤ hi) (hl : lo.natAbs ≤ 2 ^ 53) (hh : hi.natAbs ≤ 2 ^ 53) :
    ∃ a q, Aggregation.execute env (.average (.regular f)) es = .ok (.average a) ∧
      finiteValue a = some q ∧ (lo : ℚ) ≤ q ∧ q ≤ hi := by
  rw [C39_average_integers env f es ns h hne hsize]
  have hn0 : 0 < ns.length := List.length_pos_iff.2 hne
  have hn : (0 : ℚ) < ns.length := by exact_mod_cast hn0
  have hlow : ∀ l : List Int, (∀ n ∈ l, lo ≤ n) → lo * l.length ≤ total l := by
    intro l hl
    induction l with
    | nil => simp [total]
    | cons n l ih =>
      have h1 := ih fun m hm => hl m (by simp [hm])
      have h2 := hl n (by simp)
      simp only [List.length_cons, total]
      push_cast
      linarith
  have hup : ∀ l : List Int, (∀ n ∈ l, n ≤ hi) → total l ≤ hi * l.length := by
    intro l hl
    induction l with
    | nil => simp [total]
    | cons n l ih =>
      have h1 := ih fun m hm => hl m (by simp [hm])
      have h2 := hl n (by simp)
      simp only [List.length_cons, total]
      push_cast
      linarith
  have h1 : ((lo : ℚ)) ≤ (total ns : ℚ) / ns.length := by
    rw [le_div_iff₀ hn]
    exact_mod_cast hlow ns hlo
  have h2 : (total ns : ℚ) / ns.length ≤ hi := by
    rw [div_le_iff₀ hn]
    exact_mod_cast hup ns hhi
  have small : ∀ n : Int, n.natAbs ≤ 2 ^ 53 → |(n : ℚ)| < pow2 1024 := by
    intro n hn
    have h3 : pow2 53 = 2 ^ 53 := by rw [pow2_eq]; norm_num
    have h4 : |(n : ℚ)| ≤ pow2 53 := by
      rw [h3, abs_le]
      constructor
      · have : -(2 ^ 53 : ℤ) ≤ n := by omega
        exact_mod_cast this
      · have : n ≤ (2 ^ 53 : ℤ) := by omega
        exact_mod_cast this
    exact lt_of_le_of_lt h4 (pow2_lt.2 (by omega))
  obtain ⟨v, hv, l, u⟩ := rnd_between (int_grid hl) (int_grid hh) (small lo hl) (small hi hh) h1 h2
  refine ⟨_, v, rfl, ?_, l, u⟩
  rcases hv with hv | ⟨hv, rfl⟩ <;> rw [hv] <;> rfl

/-- One tenth, as a float. -/
def exTenth : ℚ := 3602879701896397 / 2 ^ 55

/-- C145 cannot be sharpened to exact results: the average of three times `0.1` is greater than `0.1`. -/
theorem C145_outside : ∃ (env : Env) (f : FieldId) (es : List Entity) (x q : ℚ),
    F64.rnd (1 / 10) = .fin x ∧ present f es = [.float (.fin x), .float (.fin x), .float (.fin x)] ∧
    Aggregation.execute env (.average (.regular f)) es = .ok (.average (.fin q)) ∧ x < q :=
  ⟨exEnv, "a".toList, [exAmount "1" (.float (.fin exTenth)), exAmount "2" (.float (.fin exTenth)),
    exAmount "3" (.float (.fin exTenth))], exTenth, 7205759403792795 / 2 ^ 56, by decide +kernel, by decide +kernel,
    by decide +kernel, by decide +kernel⟩

/-- C145: the sum of floats depends on their order. -/
theorem C145_reordered : ∃ (env : Env) (f : FieldId) (es es' : List Entity) (s s' : F64), es.Perm es' ∧
    Aggregation.execute env (.sum (.regular f)) es = .ok (.sum (.float s)) ∧
    Aggregation.execute env (.sum (.regular f)) es' = .ok (.sum (.float s')) ∧ s ≠ s' := by
  refine ⟨exEnv, "a".toList, [exAmount "1" (.float (.fin 1)), exAmount "2" (.float (.fin (2 ^ 53))),
    exAmount "3" (.float (.fin (-2 ^ 53)))], [exAmount "2" (.float (.fin (2 ^ 53))),
    exAmount "3" (.float (.fin (-2 ^ 53))), exAmount "1" (.float (.fin 1))], .fin 0, .fin 1, ?_, by decide +kernel,
    by decide +kernel, by decide +kernel⟩
  exact (List.Perm.swap _ _ _).trans ((List.Perm.swap _ _ _).cons _)

/-- C145: the average of finite values may be infinite. -/
theorem C145_infinite : ∃ (env : Env) (f : FieldId) (es : List Entity) (x : ℚ),
    F64.rnd x = .fin x ∧ present f es = [.float (.fin x), .float (.fin x)] ∧
    Aggregation.execute env (.average (.regular f)) es = .ok (.average (.inf false)) :=
  ⟨exEnv, "a".toList, [exAmount "1" (.float (.fin (2 ^ 1023))), exAmount "2" (.float (.fin (2 ^ 1023)))], 2 ^ 1023,
    by decide +kernel, by decide +kernel, by decide +kernel⟩

/-! ### A case -/

example : List.Forall₂ Worth (present "a".toList [exAmount "1" (.integer 3), exAmount "2" (.float (.fin (5 / 2)))])
    [3, 5 / 2] :=
  .cons (by exact_mod_cast Worth.integer 3) (.cons (.float _ _ rfl
    ⟨5, -1, by rw [pow2_eq]; norm_num, by decide, by decide⟩
    (lt_of_lt_of_le (b := pow2 2) (by rw [pow2_eq, abs_of_pos (by norm_num)]; norm_num) (pow2_le (by decide)))) .nil)

example : (1 + 1 / 2 ^ 53) ^ ([3, 5 / 2] : List ℚ).length * sizes [3, 5 / 2] ≤ pow2 1023 := by
  refine le_trans ?_ (pow2_le (a := 4) (by decide))
  rw [pow2_eq]
  simp only [sizes, List.map_cons, List.map_nil, List.sum_cons, List.sum_nil, List.length_cons, List.length_nil]
  rw [abs_of_pos (by norm_num), abs_of_pos (by norm_num)]
  norm_num

end Firm
