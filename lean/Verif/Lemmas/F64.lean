import Verif.Model.Basic
import Mathlib.Data.Rat.Floor
import Mathlib.Algebra.Order.Floor.Ring
import Mathlib.Algebra.Order.Field.Power
import Mathlib.Tactic.Linarith
import Mathlib.Tactic.NormNum
import Mathlib.Tactic.FieldSimp
import Mathlib.Tactic.Positivity
import Mathlib.Tactic.Ring

/-! # Rounding to binary64 -/

namespace Firm.F64

theorem pow2_eq (e : Int) : pow2 e = (2 : ℚ) ^ e := by
  unfold pow2
  split
  · rename_i h
    obtain ⟨n, rfl⟩ := Int.eq_ofNat_of_zero_le h
    simp
  · rename_i h
    obtain ⟨n, hn⟩ := Int.eq_ofNat_of_zero_le (a := -e) (by omega)
    have : e = -(n : Int) := by omega
    subst this
    simp

theorem pow2_pos (e : Int) : 0 < pow2 e := by rw [pow2_eq]; positivity

theorem pow2_le {a b : Int} (h : a ≤ b) : pow2 a ≤ pow2 b := by
  rw [pow2_eq, pow2_eq]; exact zpow_le_zpow_right₀ (by norm_num) h

theorem pow2_lt {a b : Int} : pow2 a < pow2 b ↔ a < b := by
  rw [pow2_eq, pow2_eq]; exact zpow_lt_zpow_iff_right₀ (by norm_num)

theorem pow2_add (a b : Int) : pow2 (a + b) = pow2 a * pow2 b := by
  rw [pow2_eq, pow2_eq, pow2_eq, zpow_add₀ (by norm_num)]

theorem pow2_sub (a b : Int) : pow2 (a - b) = pow2 a / pow2 b := by
  rw [pow2_eq, pow2_eq, pow2_eq, zpow_sub₀ (by norm_num)]

/-- Powers with non-negative exponent are integers. -/
theorem pow2_int {e : Int} (h : 0 ≤ e) : ∃ n : Int, pow2 e = n := by
  obtain ⟨n, rfl⟩ := Int.eq_ofNat_of_zero_le h
  exact ⟨2 ^ n, by rw [pow2_eq]; push_cast; simp⟩

theorem ilog2_spec {q : ℚ} (h : 0 < q) : pow2 (ilog2 q) ≤ q ∧ q < pow2 (ilog2 q + 1) := by
  have hn : q.num.natAbs ≠ 0 := by
    have := Rat.num_pos.2 h; omega
  have hd : q.den ≠ 0 := q.den_nz
  have n1 := Nat.log2_self_le hn
  have n2 := Nat.lt_log2_self (n := q.num.natAbs)
  have d1 := Nat.log2_self_le hd
  have d2 := Nat.lt_log2_self (n := q.den)
  set a := Nat.log2 q.num.natAbs
  set b := Nat.log2 q.den
  have hq : q = (q.num.natAbs : ℚ) / (q.den : ℚ) := by
    have h1 : ((q.num.natAbs : ℤ) : ℚ) = (q.num : ℚ) := by
      have := Rat.num_pos.2 h
      rw [Int.natAbs_of_nonneg (by omega)]
    have h2 : ((q.num.natAbs : ℤ) : ℚ) = (q.num.natAbs : ℚ) := Int.cast_natCast _
    rw [← h2, h1]; exact (Rat.num_div_den q).symm
  have pa : ∀ n : ℕ, pow2 (n : ℤ) = ((2 ^ n : ℕ) : ℚ) := by
    intro n; rw [pow2_eq]; push_cast; simp
  have hdp : (0 : ℚ) < (q.den : ℚ) := by exact_mod_cast Nat.pos_of_ne_zero hd
  have lo : pow2 ((a : ℤ) - b - 1) ≤ q := by
    have : ((a : ℤ) - b - 1) = (a : ℤ) - ((b + 1 : ℕ) : ℤ) := by push_cast; ring
    rw [this, pow2_sub, pa, pa]
    conv_rhs => rw [hq]
    rw [div_le_div_iff₀ (by positivity) hdp]
    exact_mod_cast Nat.mul_le_mul n1 (Nat.le_of_lt d2)
  have hi : q < pow2 ((a : ℤ) - b + 1) := by
    have : ((a : ℤ) - b + 1) = ((a + 1 : ℕ) : ℤ) - (b : ℤ) := by push_cast; ring
    rw [this, pow2_sub, pa, pa]
    conv_lhs => rw [hq]
    rw [div_lt_div_iff₀ hdp (by positivity)]
    exact_mod_cast Nat.mul_lt_mul_of_lt_of_le n2 d1 (by positivity)
  unfold ilog2
  simp only
  split
  · rename_i hk
    exact ⟨lo, by rw [sub_add_cancel]; exact hk⟩
  · rename_i hk
    exact ⟨not_lt.1 hk, hi⟩

theorem ilog2_mono {p q : ℚ} (hp : 0 < p) (h : p ≤ q) : ilog2 p ≤ ilog2 q := by
  have h1 := (ilog2_spec hp).1
  have h2 := (ilog2_spec (lt_of_lt_of_le hp h)).2
  have : pow2 (ilog2 p) < pow2 (ilog2 q + 1) := by linarith
  rw [pow2_lt] at this; omega

/-! ### Rounding to integers -/

theorem round_def (q : ℚ) : roundHalfEven q =
    if q - (⌊q⌋ : ℚ) < 1/2 then ⌊q⌋
    else if 1/2 < q - (⌊q⌋ : ℚ) then ⌊q⌋ + 1
    else if ⌊q⌋ % 2 = 0 then ⌊q⌋ else ⌊q⌋ + 1 := rfl

theorem round_cases (q : ℚ) : (roundHalfEven q = ⌊q⌋ ∧ q - ⌊q⌋ ≤ 1/2) ∨
    (roundHalfEven q = ⌊q⌋ + 1 ∧ 1/2 ≤ q - ⌊q⌋) := by
  rw [round_def]
  by_cases h1 : q - (⌊q⌋ : ℚ) < 1/2
  · rw [if_pos h1]; exact .inl ⟨rfl, le_of_lt h1⟩
  · rw [if_neg h1]
    by_cases h2 : 1/2 < q - (⌊q⌋ : ℚ)
    · rw [if_pos h2]; exact .inr ⟨rfl, le_of_lt h2⟩
    · rw [if_neg h2]
      split
      · exact .inl ⟨rfl, not_lt.1 h2⟩
      · exact .inr ⟨rfl, not_lt.1 h1⟩

theorem round_int (n : Int) : roundHalfEven (n : ℚ) = n := by
  rw [round_def, if_pos (by simp)]
  exact Int.floor_intCast n

theorem round_mono {p q : ℚ} (h : p ≤ q) : roundHalfEven p ≤ roundHalfEven q := by
  have hf : ⌊p⌋ ≤ ⌊q⌋ := Int.floor_le_floor h
  rcases lt_or_eq_of_le hf with hlt | heq
  · -- different integer parts
    have h1 : roundHalfEven p ≤ ⌊p⌋ + 1 := by rcases round_cases p with h | h <;> omega
    have h2 : ⌊q⌋ ≤ roundHalfEven q := by rcases round_cases q with h | h <;> omega
    omega
  · rw [round_def, round_def, ← heq]
    have hr : p - (⌊p⌋ : ℚ) ≤ q - (⌊p⌋ : ℚ) := by linarith
    by_cases a1 : p - (⌊p⌋ : ℚ) < 1/2
    · rw [if_pos a1]; repeat' split
      all_goals omega
    · rw [if_neg a1]
      have b1 : ¬ q - (⌊p⌋ : ℚ) < 1/2 := by linarith
      rw [if_neg b1]
      by_cases a2 : 1/2 < p - (⌊p⌋ : ℚ)
      · rw [if_pos a2, if_pos (by linarith)]
      · rw [if_neg a2]
        repeat' split
        all_goals omega

theorem round_le_int {q : ℚ} {n : Int} (h : q ≤ n) : roundHalfEven q ≤ n := by
  have := round_mono h; rwa [round_int] at this

theorem int_le_round {q : ℚ} {n : Int} (h : (n : ℚ) ≤ q) : n ≤ roundHalfEven q := by
  have := round_mono h; rwa [round_int] at this

/-! ### Rounding to 53 bits -/

/-- The exponent of the last kept bit. -/
def lastBit (q : ℚ) : Int := max (ilog2 q - 52) (-1074)

theorem rndPos_eq (q : ℚ) : rndPos q = (roundHalfEven (q / pow2 (lastBit q)) : ℚ) * pow2 (lastBit q) :=
  rfl

/-- A value on the grid of binary64 (53 bits, smallest exponent -1074), ignoring the largest one. -/
def OnGrid (q : ℚ) : Prop := ∃ (m e : Int), q = m * pow2 e ∧ m.natAbs ≤ 2 ^ 53 ∧ -1074 ≤ e

theorem rndPos_grid {q : ℚ} (h : 0 < q) (hg : OnGrid q) : rndPos q = q := by
  obtain ⟨m, e, hq, hm, he⟩ := hg
  -- `q` is an integral multiple of the last bit
  have key : ∃ n : Int, q / pow2 (lastBit q) = n := by
    have hmpos : 0 < m := by
      by_contra hc
      have : (m : ℚ) * pow2 e ≤ 0 :=
        mul_nonpos_of_nonpos_of_nonneg (by exact_mod_cast not_lt.1 hc) (le_of_lt (pow2_pos e))
      linarith
    rcases le_or_gt (lastBit q) e with hle | hgt
    · obtain ⟨n, hn⟩ := pow2_int (e := e - lastBit q) (by omega)
      refine ⟨m * n, ?_⟩
      rw [pow2_sub] at hn
      push_cast
      rw [← hn, hq]; ring
    · -- then `m = 2^53` exactly and `e + 1` is the last bit
      have hlb : lastBit q = ilog2 q - 52 := by unfold lastBit at hgt ⊢; omega
      have h1 := (ilog2_spec h).1
      have hmq : (m : ℚ) ≤ 2 ^ 53 := by
        have : m ≤ 2 ^ 53 := by omega
        exact_mod_cast this
      have h2 : pow2 (ilog2 q) ≤ pow2 (53 + e) := by
        rw [pow2_add]
        have : pow2 53 = 2 ^ 53 := by rw [pow2_eq]; norm_num
        rw [this]
        calc pow2 (ilog2 q) ≤ q := h1
          _ = m * pow2 e := hq
          _ ≤ 2 ^ 53 * pow2 e := mul_le_mul_of_nonneg_right hmq (le_of_lt (pow2_pos e))
      have h3 : ilog2 q ≤ 53 + e := by
        by_contra hc
        have := pow2_lt.2 (not_le.1 hc)
        linarith
      have h4 : ilog2 q = 53 + e := by omega
      have h5 : q = pow2 (53 + e) := by
        apply le_antisymm
        · rw [pow2_add]
          have : pow2 53 = 2 ^ 53 := by rw [pow2_eq]; norm_num
          rw [this, hq]
          exact mul_le_mul_of_nonneg_right hmq (le_of_lt (pow2_pos e))
        · rw [← h4]; exact h1
      obtain ⟨n, hn⟩ := pow2_int (e := 53 + e - lastBit q) (by omega)
      exact ⟨n, by rw [← hn, pow2_sub, ← h5]⟩
  obtain ⟨n, hn⟩ := key
  rw [rndPos_eq, hn, round_int, ← hn]
  exact div_mul_cancel₀ _ (ne_of_gt (pow2_pos _))

theorem lastBit_mono {p q : ℚ} (hp : 0 < p) (h : p ≤ q) : lastBit p ≤ lastBit q := by
  have := ilog2_mono hp h
  unfold lastBit; omega

theorem rndPos_mono {p q : ℚ} (hp : 0 < p) (h : p ≤ q) : rndPos p ≤ rndPos q := by
  rcases lt_or_eq_of_le (lastBit_mono hp h) with hlt | heq
  · have hq : 0 < q := lt_of_lt_of_le hp h
    have hlq : lastBit q = ilog2 q - 52 := by unfold lastBit at hlt ⊢; omega
    have hip : ilog2 p < ilog2 q := by unfold lastBit at hlt; omega
    have hp2 := (ilog2_spec hp).2
    have hplt : p ≤ pow2 (ilog2 q) := by
      have := pow2_le (show ilog2 p + 1 ≤ ilog2 q by omega)
      linarith
    calc rndPos p ≤ pow2 (ilog2 q) := by
          obtain ⟨n, hn⟩ := pow2_int (e := ilog2 q - lastBit p) (by omega)
          have hle : p / pow2 (lastBit p) ≤ n := by
            rw [← hn, pow2_sub]
            exact div_le_div_of_nonneg_right hplt (le_of_lt (pow2_pos _))
          have hr : (roundHalfEven (p / pow2 (lastBit p)) : ℚ) ≤ n := by
            exact_mod_cast round_le_int hle
          rw [rndPos_eq]
          calc _ ≤ (n : ℚ) * pow2 (lastBit p) :=
                mul_le_mul_of_nonneg_right hr (le_of_lt (pow2_pos _))
            _ = pow2 (ilog2 q) := by
                rw [← hn, pow2_sub]; exact div_mul_cancel₀ _ (ne_of_gt (pow2_pos _))
      _ ≤ rndPos q := by
          obtain ⟨n, hn⟩ := pow2_int (e := ilog2 q - lastBit q) (by omega)
          have hle : (n : ℚ) ≤ q / pow2 (lastBit q) := by
            rw [← hn, pow2_sub]
            exact div_le_div_of_nonneg_right (ilog2_spec hq).1 (le_of_lt (pow2_pos _))
          have hr : (n : ℚ) ≤ roundHalfEven (q / pow2 (lastBit q)) := by
            exact_mod_cast int_le_round hle
          rw [rndPos_eq]
          calc pow2 (ilog2 q) = (n : ℚ) * pow2 (lastBit q) := by
                rw [← hn, pow2_sub]; exact (div_mul_cancel₀ _ (ne_of_gt (pow2_pos _))).symm
            _ ≤ _ := mul_le_mul_of_nonneg_right hr (le_of_lt (pow2_pos _))
  · rw [rndPos_eq, rndPos_eq, heq]
    apply mul_le_mul_of_nonneg_right _ (le_of_lt (pow2_pos _))
    exact_mod_cast round_mono (div_le_div_of_nonneg_right h (le_of_lt (pow2_pos _)))

theorem rndPos_nonneg {q : ℚ} (h : 0 < q) : 0 ≤ rndPos q := by
  rw [rndPos_eq]
  have : 0 ≤ roundHalfEven (q / pow2 (lastBit q)) := by
    apply int_le_round
    have := pow2_pos (lastBit q)
    push_cast; positivity
  exact mul_nonneg (by exact_mod_cast this) (le_of_lt (pow2_pos _))

theorem pow2_grid {e : Int} (h : -1074 ≤ e) : OnGrid (pow2 e) := ⟨1, e, by simp, by decide, h⟩

theorem int_grid {n : Int} (h : n.natAbs ≤ 2 ^ 53) : OnGrid (n : ℚ) :=
  ⟨n, 0, by simp [pow2_eq], h, by omega⟩

theorem rnd_ne_nan (q : ℚ) : rnd q ≠ nan := by
  unfold rnd; simp only; repeat' split
  all_goals simp

/-- Rounding to infinity needs a value of at least `2^1023`. -/
theorem rnd_ne_inf {q : ℚ} (h : |q| ≤ pow2 1023) (s : Bool) : rnd q ≠ inf s := by
  have key : ∀ p : ℚ, 0 < p → p ≤ pow2 1023 → ¬ pow2 1024 ≤ rndPos p := by
    intro p hp hle hc
    have h1 := rndPos_mono hp hle
    rw [rndPos_grid (pow2_pos 1023) (pow2_grid (by omega))] at h1
    have h2 : pow2 1023 < pow2 1024 := pow2_lt.2 (by omega)
    linarith
  rw [abs_le] at h
  unfold rnd
  simp only
  by_cases h0 : q = 0
  · simp [h0]
  · rw [if_neg h0]
    by_cases hp : 0 < q
    · rw [if_pos hp, if_neg (key q hp h.2)]; simp
    · rw [if_neg hp]
      have hlt : q < 0 := lt_of_le_of_ne (not_lt.1 hp) h0
      rw [if_neg (key (-q) (by linarith) (by linarith))]
      split <;> simp

/-- Rounding a value that is on the grid and not too large changes nothing. -/
theorem rnd_grid {q : ℚ} (hg : OnGrid q) (h : |q| < pow2 1024) : rnd q = fin q := by
  rw [abs_lt] at h
  unfold rnd
  simp only
  by_cases h0 : q = 0
  · simp [h0]
  · rw [if_neg h0]
    by_cases hp : 0 < q
    · rw [if_pos hp, rndPos_grid hp hg, if_neg (by linarith)]
    · rw [if_neg hp]
      have hlt : q < 0 := lt_of_le_of_ne (not_lt.1 hp) h0
      have hg' : OnGrid (-q) := by
        obtain ⟨m, e, h1, h2, h3⟩ := hg
        exact ⟨-m, e, by rw [h1]; push_cast; ring, by rwa [Int.natAbs_neg], h3⟩
      rw [rndPos_grid (by linarith) hg', if_neg (by linarith), if_neg (by linarith)]
      simp

/-- Integers of at most 53 bits convert exactly. -/
theorem ofInt_exact {n : Int} (h : n.natAbs ≤ 2 ^ 53) : ofInt n = fin n := by
  unfold ofInt
  apply rnd_grid (int_grid h)
  have h1 : |(n : ℚ)| ≤ pow2 53 := by
    have h2 : pow2 53 = 2 ^ 53 := by rw [pow2_eq]; norm_num
    rw [h2, abs_le]
    constructor
    · have : -(2 ^ 53 : ℤ) ≤ n := by omega
      exact_mod_cast this
    · have : n ≤ (2 ^ 53 : ℤ) := by omega
      exact_mod_cast this
  exact lt_of_le_of_lt h1 (pow2_lt.2 (by omega))

/-- A 64-bit integer never converts to an infinity or NaN. -/
theorem ofInt_finite {n : Int} (h : n.natAbs ≤ 2 ^ 63) (s : Bool) : ofInt n ≠ inf s := by
  unfold ofInt
  apply rnd_ne_inf
  have h2 : pow2 63 = 2 ^ 63 := by rw [pow2_eq]; norm_num
  have h1 : |(n : ℚ)| ≤ pow2 63 := by
    rw [h2, abs_le]
    constructor
    · have : -(2 ^ 63 : ℤ) ≤ n := by omega
      exact_mod_cast this
    · have : n ≤ (2 ^ 63 : ℤ) := by omega
      exact_mod_cast this
  exact le_trans h1 (pow2_le (by omega))

theorem add_ne_nan {a b : F64} (ha : a ≠ nan) (hb : b ≠ nan)
    (h : ∀ s, ¬ (a = inf s ∧ b = inf (!s))) : a.add b ≠ nan := by
  cases a with
  | nan => exact absurd rfl ha
  | inf s =>
    cases b with
    | nan => exact absurd rfl hb
    | inf t =>
      have := h s
      cases s <;> cases t <;> simp [add] at this ⊢
    | negZero => simp [add]
    | fin q => simp [add]
  | negZero =>
    cases b with
    | nan => exact absurd rfl hb
    | _ => simp [add]
  | fin p =>
    cases b with
    | nan => exact absurd rfl hb
    | fin q => simp only [add]; exact rnd_ne_nan _
    | _ => simp [add]

theorem sub_ne_nan {a b : F64} (ha : a ≠ nan) (hb : b ≠ nan)
    (h : ∀ s, ¬ (a = inf s ∧ b = inf s)) : a.sub b ≠ nan := by
  unfold sub
  apply add_ne_nan ha
  · cases b with
    | nan => exact absurd rfl hb
    | fin q => simp only [neg]; split <;> simp
    | _ => simp [neg]
  · rintro s ⟨h1, h2⟩
    apply h s
    refine ⟨h1, ?_⟩
    cases b with
    | inf t => simp [neg] at h2; rw [h2]
    | fin q => simp only [neg] at h2; split at h2 <;> simp at h2
    | _ => simp [neg] at h2

theorem OnGrid.neg {q : ℚ} (h : OnGrid q) : OnGrid (-q) := by
  obtain ⟨m, e, h1, h2, h3⟩ := h
  exact ⟨-m, e, by rw [h1]; push_cast; ring, by rwa [Int.natAbs_neg], h3⟩

theorem OnGrid.double {q : ℚ} (h : OnGrid q) : OnGrid (2 * q) := by
  obtain ⟨m, e, h1, h2, h3⟩ := h
  refine ⟨m, e + 1, ?_, h2, by omega⟩
  have : pow2 1 = 2 := by rw [pow2_eq]; norm_num
  rw [pow2_add, this, h1]; ring

/-- Rounding stays between two values of the grid. The result may be `-0`, whose value is 0. -/
theorem rnd_between {lo hi q : ℚ} (hlo : OnGrid lo) (hhi : OnGrid hi) (blo : |lo| < pow2 1024)
    (bhi : |hi| < pow2 1024) (h1 : lo ≤ q) (h2 : q ≤ hi) :
    ∃ v, (rnd q = fin v ∨ (rnd q = negZero ∧ v = 0)) ∧ lo ≤ v ∧ v ≤ hi := by
  rw [abs_lt] at blo bhi
  unfold rnd
  simp only
  by_cases h0 : q = 0
  · rw [if_pos h0]; exact ⟨0, .inl rfl, by linarith, by linarith⟩
  · rw [if_neg h0]
    by_cases hp : 0 < q
    · rw [if_pos hp]
      have hh : 0 < hi := by linarith
      have u := rndPos_mono hp h2
      rw [rndPos_grid hh hhi] at u
      rw [if_neg (by linarith)]
      refine ⟨rndPos q, .inl rfl, ?_, u⟩
      by_cases hl : 0 < lo
      · have := rndPos_mono hl h1
        rwa [rndPos_grid hl hlo] at this
      · have := rndPos_nonneg hp; linarith
    · have hn : q < 0 := lt_of_le_of_ne (not_lt.1 hp) h0
      rw [if_neg hp]
      have hl : 0 < -lo := by linarith
      have u := rndPos_mono (show 0 < -q by linarith) (show -q ≤ -lo by linarith)
      rw [rndPos_grid hl hlo.neg] at u
      rw [if_neg (by linarith)]
      have low : -hi ≤ rndPos (-q) := by
        by_cases hh : 0 < -hi
        · have := rndPos_mono hh (show -hi ≤ -q by linarith)
          rwa [rndPos_grid hh hhi.neg] at this
        · have := rndPos_nonneg (show 0 < -q by linarith); linarith
      by_cases hr : rndPos (-q) = 0
      · rw [if_pos hr]; exact ⟨0, .inr ⟨rfl, rfl⟩, by linarith, by linarith⟩
      · rw [if_neg hr]; exact ⟨-rndPos (-q), .inl rfl, by linarith, by linarith⟩

theorem rndPos_onGrid {q : ℚ} (h : 0 < q) : OnGrid (rndPos q) := by
  refine ⟨roundHalfEven (q / pow2 (lastBit q)), lastBit q, rfl, ?_, by unfold lastBit; omega⟩
  have hb := pow2_pos (lastBit q)
  have h0 : 0 ≤ roundHalfEven (q / pow2 (lastBit q)) := by
    apply int_le_round
    push_cast; positivity
  have h1 : roundHalfEven (q / pow2 (lastBit q)) ≤ 2 ^ 53 := by
    apply round_le_int
    rw [div_le_iff₀ hb]
    have h2 := (ilog2_spec h).2
    have h3 : pow2 (ilog2 q + 1) ≤ pow2 (53 + lastBit q) := pow2_le (by unfold lastBit; omega)
    have h4 : pow2 53 = 2 ^ 53 := by rw [pow2_eq]; norm_num
    rw [pow2_add 53, h4] at h3
    push_cast
    linarith
  omega

/-- What rounding returns is on the grid. -/
theorem rnd_onGrid {q v : ℚ} (h : rnd q = fin v) : OnGrid v ∧ |v| < pow2 1024 := by
  unfold rnd at h
  simp only at h
  by_cases h0 : q = 0
  · rw [if_pos h0] at h
    cases h
    exact ⟨⟨0, 0, by simp, by simp, by omega⟩, by simp [pow2_pos]⟩
  · rw [if_neg h0] at h
    by_cases hp : 0 < q
    · rw [if_pos hp] at h
      split at h
      · cases h
      · rename_i hlt
        cases h
        exact ⟨rndPos_onGrid hp, by rw [abs_of_nonneg (rndPos_nonneg hp)]; exact not_le.1 hlt⟩
    · have hn : 0 < -q := by
        have := lt_of_le_of_ne (not_lt.1 hp) h0; linarith
      rw [if_neg hp] at h
      split at h
      · cases h
      · rename_i hlt
        split at h
        · cases h
        · cases h
          exact ⟨(rndPos_onGrid hn).neg, by
            rw [abs_neg, abs_of_nonneg (rndPos_nonneg hn)]; exact not_le.1 hlt⟩

end Firm.F64
