import Verif.Props.Floats
import Mathlib.Tactic.Linarith
import Mathlib.Tactic.NormNum
import Mathlib.Tactic.Positivity
import Mathlib.Tactic.FieldSimp
import Mathlib.Tactic.Ring

/-!
# C116: floats with any number of digits
-/

namespace Firm
open Spec F64

/-! ## Rounding -/

theorem round_near (x : ℚ) : |(roundHalfEven x : ℚ) - x| ≤ 1 / 2 := by
  rcases round_cases x with ⟨h1, h2⟩ | ⟨h1, h2⟩
  · rw [h1, abs_le]
    have := Int.floor_le x
    constructor <;> linarith
  · rw [h1, abs_le]
    have := Int.lt_floor_add_one x
    push_cast
    constructor <;> linarith

/-- The largest relative error of one rounding. -/
def half : ℚ := 1 / 2 ^ 53

theorem rndPos_near {q : ℚ} (h : pow2 (-1022) ≤ q) : q * (1 - half) ≤ rndPos q ∧ rndPos q ≤ q * (1 + half) := by
  have hq : 0 < q := lt_of_lt_of_le (pow2_pos _) h
  obtain ⟨l1, l2⟩ := ilog2_spec hq
  have hi : -1022 ≤ ilog2 q := by
    have : pow2 (-1022) < pow2 (ilog2 q + 1) := lt_of_le_of_lt h l2
    rw [pow2_lt] at this
    omega
  have hlast : lastBit q = ilog2 q - 52 := by unfold lastBit; omega
  have hb := pow2_pos (lastBit q)
  have hr := round_near (q / pow2 (lastBit q))
  have herr : |rndPos q - q| ≤ pow2 (lastBit q) / 2 := by
    rw [rndPos_eq]
    have : (roundHalfEven (q / pow2 (lastBit q)) : ℚ) * pow2 (lastBit q) - q =
        ((roundHalfEven (q / pow2 (lastBit q)) : ℚ) - q / pow2 (lastBit q)) * pow2 (lastBit q) := by
      field_simp
    rw [this, abs_mul, abs_of_pos hb]
    calc _ ≤ 1 / 2 * pow2 (lastBit q) := mul_le_mul_of_nonneg_right hr (le_of_lt hb)
      _ = _ := by ring
  have hsmall : pow2 (lastBit q) / 2 ≤ q * half := by
    rw [hlast, pow2_sub]
    have : pow2 52 = 2 ^ 52 := by rw [pow2_eq]; norm_num
    rw [this]
    unfold half
    have : pow2 (ilog2 q) / 2 ^ 52 / 2 = pow2 (ilog2 q) * (1 / 2 ^ 53) := by ring
    rw [this]
    exact mul_le_mul_of_nonneg_right l1 (by positivity)
  rw [abs_le] at herr
  constructor <;> linarith [herr.1, herr.2]

theorem rnd_near {q : ℚ} (h : pow2 (-1022) ≤ q) (hb : q * (1 + half) < pow2 1024) :
    ∃ r, rnd q = .fin r ∧ q * (1 - half) ≤ r ∧ r ≤ q * (1 + half) := by
  have hq : 0 < q := lt_of_lt_of_le (pow2_pos _) h
  obtain ⟨h1, h2⟩ := rndPos_near h
  refine ⟨rndPos q, ?_, h1, h2⟩
  unfold rnd
  rw [if_neg (ne_of_gt hq), if_pos hq]
  simp only
  rw [if_neg (by linarith)]

set_option exponentiation.threshold 2000 in
theorem pow2_tiny : pow2 (-1022) ≤ 1 / 10 ^ 300 := by
  rw [pow2_eq]
  norm_num

set_option exponentiation.threshold 2000 in
theorem pow2_huge : (16 : ℚ) / 10 * 10 ^ 308 < pow2 1024 ∧ pow2 1024 < 18 / 10 * 10 ^ 308 := by
  rw [pow2_eq]
  constructor <;> norm_num

theorem half_lt : 0 < half ∧ half ≤ 1 / 10 ^ 15 := by
  unfold half
  constructor <;> norm_num

set_option exponentiation.threshold 2000 in
/-- An entry of the table. -/
theorem powTen_near {k : Nat} (h : k ≤ 308) :
    (10 : ℚ) ^ k * (1 - half) ≤ powTen k ∧ powTen k ≤ 10 ^ k * (1 + half) ∧ 1 ≤ powTen k := by
  have h1 : (1 : ℚ) ≤ 10 ^ k := one_le_pow₀ (by norm_num)
  have h2 : (10 : ℚ) ^ k ≤ 10 ^ 308 := pow_le_pow_right₀ (by norm_num) h
  have ht : pow2 (-1022) ≤ (10 : ℚ) ^ k := le_trans pow2_tiny (le_trans (by norm_num) h1)
  obtain ⟨r, hr, k1, k2⟩ := rnd_near ht (by
    have := pow2_huge.1
    have hh := half_lt
    have : (10 : ℚ) ^ k * (1 + half) ≤ 10 ^ 308 * (1 + 1 / 10 ^ 15) :=
      mul_le_mul h2 (by linarith) (by linarith) (by positivity)
    refine lt_of_le_of_lt this (lt_trans ?_ pow2_huge.1)
    norm_num)
  have hp : powTen k = r := by
    unfold powTen
    push_cast
    rw [hr]
  rw [hp]
  refine ⟨k1, k2, ?_⟩
  have hmono := rndPos_mono (p := 1) (by norm_num) h1
  rw [rndPos_grid (by norm_num) (by simpa using int_grid (n := 1) (by decide))] at hmono
  have : rnd ((10 : ℚ) ^ k) = .fin (rndPos (10 ^ k)) := by
    have hr' := hr
    unfold rnd at hr' ⊢
    have hpos : (0 : ℚ) < 10 ^ k := by positivity
    rw [if_neg (ne_of_gt hpos), if_pos hpos] at hr' ⊢
    simp only at hr' ⊢
    split at hr'
    · cases hr'
    · next hn => rw [if_neg hn]
  rw [this] at hr
  cases hr
  exact hmono

/-! ## Digits -/

theorem digit_le {c : Char} (h : isDigit c = true) : digitVal c ≤ 9 := by
  unfold isDigit at h
  unfold digitVal
  simp only [Bool.and_eq_true, decide_eq_true_eq] at h
  omega

theorem digitsOn_base (n : Nat) (s : Str) : n * 10 ^ s.length ≤ digitsOn n s := by
  induction s generalizing n with
  | nil => simp [digitsOn]
  | cons c s ih =>
    have he : digitsOn n (c :: s) = digitsOn (n * 10 + digitVal c) s := rfl
    rw [he]
    refine Nat.le_trans ?_ (ih _)
    rw [List.length_cons, Nat.pow_succ, Nat.mul_comm (10 ^ s.length), ← Nat.mul_assoc]
    exact Nat.mul_le_mul_right _ (by omega)

theorem sigInt_spec {s : Str} (hs : ∀ c ∈ s, isDigit c = true) {n : Nat} (hn : n < 2 ^ 64) :
    (sigInt n s).1 < 2 ^ 64 ∧ (sigInt n s).1 * 10 ^ (sigInt n s).2 ≤ digitsOn n s ∧
      digitsOn n s < ((sigInt n s).1 + 1) * 10 ^ (sigInt n s).2 ∧ ((sigInt n s).2 = 0 ∨ 2 ^ 60 ≤ (sigInt n s).1) := by
  induction s generalizing n with
  | nil => exact ⟨hn, by simp [sigInt, digitsOn], by simp [sigInt, digitsOn], .inl rfl⟩
  | cons c s ih =>
    have hc := digit_le (hs c (by simp))
    have he : digitsOn n (c :: s) = digitsOn (n * 10 + digitVal c) s := rfl
    rw [sigInt]
    split
    · next h =>
      rw [he]
      exact ih (fun d hd => hs d (by simp [hd])) h
    · next h =>
      refine ⟨hn, ?_, ?_, .inr (by omega)⟩
      · exact digitsOn_base n (c :: s)
      · exact digitsOn_lt (c :: s) hs n

theorem sigFrac_spec {s : Str} (hs : ∀ c ∈ s, isDigit c = true) {n : Nat} (hn : n < 2 ^ 64) :
    ∃ t, (sigFrac n s).2 + t = s.length ∧ (sigFrac n s).1 < 2 ^ 64 ∧ (sigFrac n s).1 * 10 ^ t ≤ digitsOn n s ∧
      digitsOn n s < ((sigFrac n s).1 + 1) * 10 ^ t ∧ (t = 0 ∨ 2 ^ 60 ≤ (sigFrac n s).1) ∧
      n * 10 ^ (sigFrac n s).2 ≤ (sigFrac n s).1 ∧ (sigFrac n s).1 < (n + 1) * 10 ^ (sigFrac n s).2 := by
  induction s generalizing n with
  | nil => exact ⟨0, rfl, hn, by simp [sigFrac, digitsOn], by simp [sigFrac, digitsOn], .inl rfl, by simp [sigFrac],
      by simp [sigFrac]⟩
  | cons c s ih =>
    have hc := digit_le (hs c (by simp))
    have he : digitsOn n (c :: s) = digitsOn (n * 10 + digitVal c) s := rfl
    rw [sigFrac]
    split
    · next h =>
      obtain ⟨t, h1, h2, h3, h4, h5, h6, h7⟩ := ih (fun d hd => hs d (by simp [hd])) h
      rw [he]
      refine ⟨t, by simp only [List.length_cons]; omega, h2, h3, h4, h5, ?_, ?_⟩
      · refine Nat.le_trans ?_ h6
        rw [Nat.pow_succ, Nat.mul_comm (10 ^ _), ← Nat.mul_assoc]
        exact Nat.mul_le_mul_right _ (by omega)
      · refine Nat.lt_of_lt_of_le h7 ?_
        rw [Nat.pow_succ, Nat.mul_comm (10 ^ _) 10, ← Nat.mul_assoc]
        exact Nat.mul_le_mul_right _ (by omega)
    · next h =>
      exact ⟨(c :: s).length, by simp, hn, digitsOn_base n (c :: s), digitsOn_lt (c :: s) hs n, .inr (by omega), by simp,
        by simp⟩

/-- What is left of the digits is close to what was written. -/
theorem digits_near {a b : Str} (ha : ∀ c ∈ a, isDigit c = true) (hb : ∀ c ∈ b, isDigit c = true) :
    (sigFrac (sigInt 0 a).1 b).1 < 2 ^ 64 ∧
    |((sigFrac (sigInt 0 a).1 b).1 : ℚ) * 10 ^ (((sigInt 0 a).2 : Int) - ((sigFrac (sigInt 0 a).1 b).2 : Int)) -
        (digitsVal (a ++ b) : ℚ) * 10 ^ (-(b.length : Int))| ≤
      (digitsVal (a ++ b) : ℚ) * 10 ^ (-(b.length : Int)) / 2 ^ 60 := by
  obtain ⟨a1, a2, a3, a4⟩ := sigInt_spec ha (n := 0) (by norm_num)
  obtain ⟨t, b1, b2, b3, b4, b5, b6, b7⟩ := sigFrac_spec hb a1
  refine ⟨b2, ?_⟩
  rw [← digitsOn_append]
  generalize hm0 : (sigInt 0 a).1 = m0 at *
  generalize hk : (sigInt 0 a).2 = k at *
  generalize hm : (sigFrac m0 b).1 = m at *
  generalize hj : (sigFrac m0 b).2 = j at *
  have hA := digitsOn_lt b hb (digitsOn 0 a)
  have hA' := digitsOn_base (digitsOn 0 a) b
  generalize hAd : digitsOn 0 a = A at *
  have hten : (0 : ℚ) < 10 ^ b.length := by positivity
  have hzp : (10 : ℚ) ^ (-(b.length : Int)) = 1 / 10 ^ b.length := by rw [zpow_neg, zpow_natCast]; simp
  by_cases hk0 : k = 0
  · subst hk0
    have hAm : A = m0 := by simp only [Nat.pow_zero, Nat.mul_one] at a2 a3; omega
    rw [hAm] at *
    have hw : (m : ℚ) * 10 ^ (((0 : Nat) : Int) - (j : Int)) = (m : ℚ) * 10 ^ t / 10 ^ b.length := by
      rw [← b1, pow_add]
      have h1 : (10 : ℚ) ^ t ≠ 0 := by positivity
      have h2 : (10 : ℚ) ^ j ≠ 0 := by positivity
      simp only [Nat.cast_zero, zero_sub, zpow_neg, zpow_natCast]
      field_simp
    rw [hw, hzp]
    generalize digitsOn m0 b = D at *
    have q3 : (m : ℚ) * 10 ^ t ≤ D := by exact_mod_cast b3
    have q4 : (D : ℚ) < (m + 1) * 10 ^ t := by exact_mod_cast b4
    have key : |(m : ℚ) * 10 ^ t - D| ≤ D / 2 ^ 60 := by
      rw [abs_of_nonpos (by linarith)]
      rcases b5 with rfl | h5
      · have : D = m := by simp only [Nat.pow_zero, Nat.mul_one] at b3 b4; omega
        rw [this]
        simp only [pow_zero, mul_one, sub_self, neg_zero]
        positivity
      · have q5 : (2 : ℚ) ^ 60 ≤ m := by exact_mod_cast h5
        have hp : (0 : ℚ) < 10 ^ t := by positivity
        have : (10 : ℚ) ^ t * 2 ^ 60 ≤ D := le_trans (by rw [mul_comm]; exact mul_le_mul_of_nonneg_right q5 hp.le) q3
        rw [le_div_iff₀ (by positivity)]
        have : (-(m * 10 ^ t - (D : ℚ))) * 2 ^ 60 ≤ 10 ^ t * 2 ^ 60 :=
          mul_le_mul_of_nonneg_right (by linarith) (by positivity)
        linarith
    have : (m : ℚ) * 10 ^ t / 10 ^ b.length - D * (1 / 10 ^ b.length) = (m * 10 ^ t - D) / 10 ^ b.length := by ring
    rw [this, abs_div, abs_of_pos hten]
    have : (D : ℚ) * (1 / 10 ^ b.length) / 2 ^ 60 = D / 2 ^ 60 / 10 ^ b.length := by ring
    rw [this]
    exact div_le_div_of_nonneg_right key hten.le
  · have h60 : 2 ^ 60 ≤ m0 := by
      rcases a4 with h | h
      · exact absurd h hk0
      · exact h
    have q60 : (2 : ℚ) ^ 60 ≤ m0 := by exact_mod_cast h60
    have hkp : (0 : ℚ) < 10 ^ k := by positivity
    have hjp : (0 : ℚ) < 10 ^ j := by positivity
    have hw : (m : ℚ) * 10 ^ ((k : Int) - (j : Int)) = m / 10 ^ j * 10 ^ k := by
      rw [zpow_sub₀ (by norm_num), zpow_natCast, zpow_natCast]
      ring
    rw [hw, hzp]
    generalize digitsOn A b = D at *
    have w1 : (m0 : ℚ) ≤ m / 10 ^ j := by rw [le_div_iff₀ hjp]; exact_mod_cast b6
    have w2 : (m : ℚ) / 10 ^ j < m0 + 1 := by rw [div_lt_iff₀ hjp]; exact_mod_cast b7
    have v1 : (m0 : ℚ) * 10 ^ k ≤ D * (1 / 10 ^ b.length) := by
      have h1 : (m0 : ℚ) * 10 ^ k ≤ A := by exact_mod_cast a2
      have h2 : (A : ℚ) ≤ D * (1 / 10 ^ b.length) := by
        rw [mul_one_div, le_div_iff₀ hten]
        exact_mod_cast hA'
      linarith
    have v2 : (D : ℚ) * (1 / 10 ^ b.length) < (m0 + 1) * 10 ^ k := by
      have h1 : (A : ℚ) + 1 ≤ (m0 + 1) * 10 ^ k := by exact_mod_cast a3
      have h2 : (D : ℚ) * (1 / 10 ^ b.length) < A + 1 := by
        rw [mul_one_div, div_lt_iff₀ hten]
        exact_mod_cast hA
      linarith
    have w1' := mul_le_mul_of_nonneg_right w1 hkp.le
    have w2' := mul_lt_mul_of_pos_right w2 hkp
    have hb : (10 : ℚ) ^ k ≤ D * (1 / 10 ^ b.length) / 2 ^ 60 := by
      rw [le_div_iff₀ (by positivity)]
      have : (10 : ℚ) ^ k * 2 ^ 60 ≤ m0 * 10 ^ k := by
        rw [mul_comm]
        exact mul_le_mul_of_nonneg_right q60 hkp.le
      linarith
    refine le_trans ?_ hb
    rw [abs_le]
    constructor <;> nlinarith

/-! ## Scaling -/

theorem ofInt_near {m : Nat} (h0 : m ≠ 0) (hm : m < 2 ^ 64) :
    ∃ S, F64.ofInt m = .fin S ∧ (m : ℚ) * (1 - half) ≤ S ∧ S ≤ m * (1 + half) := by
  have h1 : (1 : ℚ) ≤ m := by exact_mod_cast Nat.one_le_iff_ne_zero.2 h0
  have h2 : (m : ℚ) < 2 ^ 64 := by exact_mod_cast hm
  have hh := half_lt
  unfold F64.ofInt
  rw [Int.cast_natCast]
  refine rnd_near (le_trans (le_trans pow2_tiny ?_) h1) ?_
  · rw [div_le_one (by positivity)]
    exact one_le_pow₀ (by norm_num)
  · have h3 : (m : ℚ) * (1 + half) ≤ 2 ^ 64 * 2 := mul_le_mul h2.le (by linarith) (by linarith) (by positivity)
    have h4 : pow2 65 = 2 ^ 64 * 2 := by rw [pow2_eq]; norm_num
    have h5 : pow2 65 < pow2 1024 := pow2_lt.2 (by norm_num)
    linarith

theorem zpow_split (e : Int) : (0 ≤ e → (10 : ℚ) ^ e = 10 ^ e.natAbs) ∧ (¬ 0 ≤ e → (10 : ℚ) ^ e = 1 / 10 ^ e.natAbs) := by
  constructor
  · intro h
    rw [← zpow_natCast, Int.natAbs_of_nonneg h]
  · intro h
    have : e = -(e.natAbs : Int) := by omega
    conv_lhs => rw [this]
    rw [zpow_neg, zpow_natCast, one_div]

/-- Three roundings. -/
theorem three_up {w S P u : ℚ} (hu : 0 < u) (hu' : u ≤ 1 / 10 ^ 15) (hw : 0 < w) (h : S * P ≤ w * ((1 + u) * (1 + u))) :
    S * P * (1 + u) ≤ w * (1 + 7 / 2 * u) := by
  have h1 : S * P * (1 + u) ≤ w * ((1 + u) * (1 + u)) * (1 + u) := mul_le_mul_of_nonneg_right h (by linarith)
  refine le_trans h1 ?_
  rw [mul_assoc]
  refine mul_le_mul_of_nonneg_left ?_ hw.le
  nlinarith [mul_pos hu hu, mul_pos (mul_pos hu hu) hu]

set_option exponentiation.threshold 2000 in
theorem fromParts_near {neg : Bool} {m : Nat} {e : Int} (hm : m < 2 ^ 64) (hlo : 1 / 10 ^ 289 < (m : ℚ) * 10 ^ e)
    (hhi : (m : ℚ) * 10 ^ e < 11 / 10 * 10 ^ 308) :
    ∃ R, fromParts neg m e = some (.fin (if neg then -R else R)) ∧
      (m : ℚ) * 10 ^ e * (1 - 7 / 2 * half) ≤ R ∧ R ≤ (m : ℚ) * 10 ^ e * (1 + 7 / 2 * half) := by
  have hh := half_lt
  have hwpos : (0 : ℚ) < (m : ℚ) * 10 ^ e := lt_trans (by positivity) hlo
  have hten : (0 : ℚ) < 10 ^ e := by positivity
  have hm0 : m ≠ 0 := by
    rintro rfl
    simp at hwpos
  have hm1 : (1 : ℚ) ≤ m := by exact_mod_cast Nat.one_le_iff_ne_zero.2 hm0
  have hm2 : (m : ℚ) < 10 ^ 20 := lt_trans (b := (2 : ℚ) ^ 64) (by exact_mod_cast hm) (by norm_num)
  have he1 : e ≤ 308 := by
    have h1 : (10 : ℚ) ^ e < 10 ^ (309 : Int) := by
      have h2 : (10 : ℚ) ^ e ≤ m * 10 ^ e := by nlinarith
      have h3 : (10 : ℚ) ^ (309 : Int) = 10 * 10 ^ 308 := by
        rw [show (309 : Int) = ((309 : Nat) : Int) from rfl, zpow_natCast, pow_succ]
        ring
      have h4 : (0 : ℚ) < 10 ^ 308 := by positivity
      rw [h3]
      generalize (10 : ℚ) ^ 308 = H at *
      linarith
    rw [zpow_lt_zpow_iff_right₀ (by norm_num)] at h1
    omega
  have he2 : -308 ≤ e := by
    have h1 : (10 : ℚ) ^ (-289 : Int) < 10 ^ (20 + e) := by
      have h2 : (m : ℚ) * 10 ^ e < 10 ^ 20 * 10 ^ e := mul_lt_mul_of_pos_right hm2 hten
      have h3 : (10 : ℚ) ^ (-289 : Int) = 1 / 10 ^ 289 := by
        rw [zpow_neg, show (289 : Int) = ((289 : Nat) : Int) from rfl, zpow_natCast, one_div]
      rw [h3, zpow_add₀ (by norm_num)]
      have : (10 : ℚ) ^ (20 : Int) = 10 ^ 20 := by
        rw [show (20 : Int) = ((20 : Nat) : Int) from rfl, zpow_natCast]
      rw [this]
      linarith
    rw [zpow_lt_zpow_iff_right₀ (by norm_num)] at h1
    omega
  have hk : e.natAbs ≤ 308 := by omega
  obtain ⟨S, hS, s1, s2⟩ := ofInt_near hm0 hm
  obtain ⟨p1, p2, p3⟩ := powTen_near hk
  have hSpos : 0 < S := lt_of_lt_of_le (by nlinarith) s1
  have hPpos : 0 < powTen e.natAbs := by linarith
  have hkp : (0 : ℚ) < 10 ^ e.natAbs := by positivity
  have huge : (m : ℚ) * 10 ^ e * (1 + 7 / 2 * half) < pow2 1024 := by
    refine lt_trans ?_ pow2_huge.1
    have h4 : (0 : ℚ) < 10 ^ 308 := by positivity
    have h5 : (m : ℚ) * 10 ^ e * (1 + 7 / 2 * half) ≤ 11 / 10 * 10 ^ 308 * (1 + 7 / 2 * half) :=
      mul_le_mul_of_nonneg_right hhi.le (by linarith)
    refine lt_of_le_of_lt h5 ?_
    have : (11 : ℚ) / 10 * 10 ^ 308 * (1 + 7 / 2 * half) = 10 ^ 308 * (11 / 10 * (1 + 7 / 2 * half)) := by ring
    rw [this, mul_comm ((16 : ℚ) / 10)]
    refine mul_lt_mul_of_pos_left ?_ h4
    linarith [hh.2, show (1 : ℚ) / 10 ^ 15 ≤ 1 / 100 by norm_num]
  -- the last rounding
  have fin : ∀ Q : ℚ, (m : ℚ) * 10 ^ e * (1 - 5 / 2 * half) ≤ Q → Q * (1 + half) ≤ (m : ℚ) * 10 ^ e * (1 + 7 / 2 * half) →
      ∃ R, rnd Q = .fin R ∧ R ≠ 0 ∧ (m : ℚ) * 10 ^ e * (1 - 7 / 2 * half) ≤ R ∧
        R ≤ (m : ℚ) * 10 ^ e * (1 + 7 / 2 * half) := by
    intro Q q1 q2
    have hQ : pow2 (-1022) ≤ Q := by
      refine le_trans pow2_tiny (le_trans ?_ q1)
      have h1 : (1 : ℚ) / 10 ^ 300 ≤ 1 / 10 ^ 289 * (1 / 2) := by
        rw [div_mul_div_comm, div_le_div_iff₀ (by positivity) (by positivity)]
        have : (10 : ℚ) ^ 300 = 10 ^ 289 * 10 ^ 11 := by rw [← pow_add]
        rw [this]
        have h4 : (0 : ℚ) < 10 ^ 289 := by positivity
        generalize (10 : ℚ) ^ 289 = H at *
        nlinarith
      refine le_trans h1 ?_
      exact mul_le_mul hlo.le (by linarith [hh.2, show (1 : ℚ) / 10 ^ 15 ≤ 1 / 100 by norm_num]) (by norm_num) hwpos.le
    obtain ⟨R, r1, r2, r3⟩ := rnd_near hQ (lt_of_le_of_lt q2 huge)
    have hQpos : 0 < Q := lt_of_lt_of_le (pow2_pos _) hQ
    refine ⟨R, r1, ?_, ?_, le_trans r3 q2⟩
    · have : 0 < Q * (1 - half) := mul_pos hQpos (by linarith [hh.2, show (1 : ℚ) / 10 ^ 15 ≤ 1 / 100 by norm_num])
      intro h
      rw [h] at r2
      linarith
    · refine le_trans ?_ r2
      have h1 : (m : ℚ) * 10 ^ e * (1 - 5 / 2 * half) * (1 - half) ≤ Q * (1 - half) :=
        mul_le_mul_of_nonneg_right q1 (by linarith [hh.2, show (1 : ℚ) / 10 ^ 15 ≤ 1 / 100 by norm_num])
      refine le_trans ?_ h1
      rw [mul_assoc ((m : ℚ) * 10 ^ e)]
      refine mul_le_mul_of_nonneg_left ?_ hwpos.le
      nlinarith [hh.1]
  have hu := hh.1
  have hu' : half ≤ 1 / 1000 := le_trans hh.2 (by norm_num)
  have hscale : ∃ R, scaleTen 4 (F64.ofInt m) e = some (.fin R) ∧ R ≠ 0 ∧ (m : ℚ) * 10 ^ e * (1 - 7 / 2 * half) ≤ R ∧
        R ≤ (m : ℚ) * 10 ^ e * (1 + 7 / 2 * half) := by
    rw [hS]
    unfold scaleTen
    rw [if_pos hk]
    by_cases h0 : 0 ≤ e
    · have hpow := (zpow_split e).1 h0
      rw [if_pos h0]
      obtain ⟨R, r1, r2, r3, r4⟩ := fin (S * powTen e.natAbs) (by
          rw [hpow]
          have h1 : (m : ℚ) * (1 - half) * (10 ^ e.natAbs * (1 - half)) ≤ S * powTen e.natAbs :=
            mul_le_mul s1 p1 (mul_nonneg hkp.le (by linarith)) hSpos.le
          refine le_trans ?_ h1
          have : (m : ℚ) * (1 - half) * (10 ^ e.natAbs * (1 - half)) = m * 10 ^ e.natAbs * ((1 - half) * (1 - half)) := by ring
          rw [this]
          refine mul_le_mul_of_nonneg_left ?_ (by positivity)
          nlinarith) (by
          rw [hpow]
          refine three_up hh.1 hh.2 (by positivity) ?_
          have h1 : S * powTen e.natAbs ≤ m * (1 + half) * (10 ^ e.natAbs * (1 + half)) :=
            mul_le_mul s2 p2 hPpos.le (by positivity)
          refine le_trans h1 (le_of_eq (by ring)))
      have hmul : F64.mulPos (.fin S) (powTen e.natAbs) = .fin R := by
        simp only [F64.mulPos, if_neg (ne_of_gt hSpos), r1]
      rw [hmul]
      exact ⟨R, rfl, r2, r3, r4⟩
    · have hpow := (zpow_split e).2 h0
      rw [if_neg h0]
      obtain ⟨R, r1, r2, r3, r4⟩ := fin (S / powTen e.natAbs) (by
          rw [hpow, le_div_iff₀ hPpos]
          have h1 : (m : ℚ) * (1 / 10 ^ e.natAbs) * (1 - 5 / 2 * half) * powTen e.natAbs ≤
              (m : ℚ) * (1 / 10 ^ e.natAbs) * (1 - 5 / 2 * half) * (10 ^ e.natAbs * (1 + half)) :=
            mul_le_mul_of_nonneg_left p2 (mul_nonneg (by positivity) (by linarith))
          refine le_trans h1 (le_trans ?_ s1)
          have : (m : ℚ) * (1 / 10 ^ e.natAbs) * (1 - 5 / 2 * half) * (10 ^ e.natAbs * (1 + half)) =
              m * ((1 - 5 / 2 * half) * (1 + half)) := by field_simp
          rw [this]
          refine mul_le_mul_of_nonneg_left ?_ (by positivity)
          nlinarith) (by
          rw [hpow, div_mul_eq_mul_div, div_le_iff₀ hPpos]
          have h1 : (m : ℚ) * (1 / 10 ^ e.natAbs) * (1 + 7 / 2 * half) * (10 ^ e.natAbs * (1 - half)) ≤
              (m : ℚ) * (1 / 10 ^ e.natAbs) * (1 + 7 / 2 * half) * powTen e.natAbs :=
            mul_le_mul_of_nonneg_left p1 (by positivity)
          refine le_trans ?_ h1
          have : (m : ℚ) * (1 / 10 ^ e.natAbs) * (1 + 7 / 2 * half) * (10 ^ e.natAbs * (1 - half)) =
              m * ((1 + 7 / 2 * half) * (1 - half)) := by field_simp
          rw [this]
          have h2 : S * (1 + half) ≤ m * (1 + half) * (1 + half) := mul_le_mul_of_nonneg_right s2 (by linarith)
          refine le_trans h2 ?_
          rw [mul_assoc]
          refine mul_le_mul_of_nonneg_left ?_ (by positivity)
          nlinarith)
      have hdiv : F64.divPos (.fin S) (powTen e.natAbs) = .fin R := by
        simp only [F64.divPos, if_neg (ne_of_gt hSpos), r1]
      rw [hdiv]
      exact ⟨R, rfl, r2, r3, r4⟩
  obtain ⟨R, r1, r2, r3, r4⟩ := hscale
  refine ⟨R, ?_, r3, r4⟩
  unfold fromParts
  rw [r1, Option.map_some]
  cases neg with
  | true => simp [F64.neg, r2]
  | false => simp

/-! ## Texts -/

namespace Spec

/-- The exponent of a number. -/
def exponentOf : Option (Bool × Str) → Int
  | none => 0
  | some (minus, x) => if minus then -(digitsVal x : Int) else digitsVal x

/-- The text of a number: sign, digits, perhaps a point and digits, perhaps an exponent. -/
def decimalText (neg : Bool) (a b : Str) (x : Option (Bool × Str)) : Str :=
  (if neg then ['-'] else []) ++ a ++ (if b = [] then [] else '.' :: b) ++
    match x with
    | none => []
    | some (minus, ds) => 'e' :: (if minus then '-' :: ds else ds)

/-- The number that the text writes, without its sign. -/
def written (a b : Str) (x : Option (Bool × Str)) : ℚ := (digitsVal (a ++ b) : ℚ) * 10 ^ (exponentOf x - b.length)

/-- The digits are digits. -/
structure IsDecimal (a b : Str) (x : Option (Bool × Str)) : Prop where
  whole : isJsonNat a = true
  fraction : ∀ c ∈ b, isDigit c = true
  exponent : ∀ minus ds, x = some (minus, ds) → ds ≠ [] ∧ ∀ c ∈ ds, isDigit c = true

end Spec

theorem readExp_digits {minus : Bool} {x : Str} (hx : ∀ c ∈ x, isDigit c = true) (hxe : x ≠ []) :
    readExp (if minus then '-' :: x else x) = some (if minus then -(digitsVal x : Int) else (digitsVal x : Int)) := by
  have hp : parseNat x = some (digitsVal x) := by
    unfold parseNat
    rw [if_pos]
    simp only [Bool.and_eq_true, List.all_eq_true, Bool.not_eq_true', List.isEmpty_eq_false_iff]
    exact ⟨hxe, hx⟩
  cases minus with
  | true =>
    simp only [if_true, readExp, hp]
    rfl
  | false =>
    simp only [Bool.false_eq_true, if_false]
    cases x with
    | nil => exact absurd rfl hxe
    | cons c x =>
      have hc := hx c (by simp)
      have h1 : c ≠ '-' := digit_ne_dash hc
      have h2 : c ≠ '+' := by rintro rfl; revert hc; decide
      rw [readExp, hp]
      · rfl
      · intro r hr; cases hr; exact h2 rfl
      · intro r hr; cases hr; exact h1 rfl

theorem serdeFloat_parts {neg : Bool} {a b : Str} {x : Option (Bool × Str)} (h : IsDecimal a b x) :
    serdeFloat (decimalText neg a b x) = fromParts neg (sigFrac (sigInt 0 a).1 b).1
      (((sigInt 0 a).2 : Int) - ((sigFrac (sigInt 0 a).1 b).2 : Int) + exponentOf x) := by
  have ha := h.whole
  have hb := h.fraction
  have had : ∀ c ∈ a, isDigit c = true := by
    simp only [isJsonNat, Bool.and_eq_true, List.all_eq_true] at ha
    exact ha.1.1
  unfold decimalText
  rw [List.append_assoc _ (if b = [] then [] else '.' :: b), serde_sign ha]
  unfold readUnsigned
  by_cases hbe : b = []
  · subst hbe
    rw [if_pos rfl, List.nil_append]
    cases x with
    | none =>
      obtain ⟨h1, h2⟩ := takeDigits had (r := []) (stops_nil _)
      rw [h1, h2, if_pos ha]
      simp [sigFrac, exponentOf]
    | some p =>
      obtain ⟨minus, ds⟩ := p
      obtain ⟨k1, k2⟩ := h.exponent minus ds rfl
      have hexp := readExp_digits (minus := minus) k2 k1
      simp only
      generalize (if minus then '-' :: ds else ds) = X at hexp ⊢
      obtain ⟨h1, h2⟩ := takeDigits had (r := 'e' :: X) (stops_cons (by decide))
      rw [h1, h2, if_pos ha]
      simp [hexp, sigFrac, exponentOf]
  · rw [if_neg hbe, List.cons_append]
    cases x with
    | none =>
      rw [List.append_nil]
      obtain ⟨h1, h2⟩ := takeDigits had (r := '.' :: b) (stops_cons (by decide))
      obtain ⟨h3, h4⟩ := takeDigits hb (r := []) (stops_nil _)
      rw [List.append_nil] at h3 h4
      rw [h1, h2, if_pos ha]
      simp only
      rw [h3, h4, if_neg hbe]
      simp [exponentOf]
    | some p =>
      obtain ⟨minus, ds⟩ := p
      obtain ⟨k1, k2⟩ := h.exponent minus ds rfl
      have hexp := readExp_digits (minus := minus) k2 k1
      simp only
      generalize (if minus then '-' :: ds else ds) = X at hexp ⊢
      obtain ⟨h1, h2⟩ := takeDigits had (r := '.' :: (b ++ 'e' :: X)) (stops_cons (by decide))
      obtain ⟨h3, h4⟩ := takeDigits hb (r := 'e' :: X) (stops_cons (by decide))
      rw [h1, h2, if_pos ha]
      simp only
      rw [h3, h4, if_neg hbe]
      simp only [true_or, if_true, hexp, exponentOf]

/-- The number that the parts stand for is close to the number that was written. -/
theorem parts_near {a b : Str} {x : Option (Bool × Str)} (h : IsDecimal a b x) :
    (sigFrac (sigInt 0 a).1 b).1 < 2 ^ 64 ∧
    |((sigFrac (sigInt 0 a).1 b).1 : ℚ) *
        10 ^ (((sigInt 0 a).2 : Int) - ((sigFrac (sigInt 0 a).1 b).2 : Int) + exponentOf x) - written a b x| ≤
      written a b x / 2 ^ 60 := by
  have had : ∀ c ∈ a, isDigit c = true := by
    have ha := h.whole
    simp only [isJsonNat, Bool.and_eq_true, List.all_eq_true] at ha
    exact ha.1.1
  obtain ⟨h1, h2⟩ := digits_near had h.fraction
  refine ⟨h1, ?_⟩
  have hx : (0 : ℚ) < 10 ^ exponentOf x := by positivity
  unfold written
  rw [zpow_add₀ (by norm_num), show exponentOf x - (b.length : Int) = -(b.length : Int) + exponentOf x by omega,
    zpow_add₀ (by norm_num), ← mul_assoc, ← mul_assoc, ← sub_mul, abs_mul, abs_of_pos hx]
  have := mul_le_mul_of_nonneg_right h2 hx.le
  refine le_trans this (le_of_eq (by ring))

set_option exponentiation.threshold 2000 in
/-- C116: a number of any length that is not too small and not too large is read with its sign and an error of at most one
part in 2^51. -/
theorem C116_near (neg : Bool) (a b : Str) (x : Option (Bool × Str)) (h : IsDecimal a b x)
    (hlo : 1 / 10 ^ 288 ≤ written a b x) (hhi : written a b x ≤ 10 ^ 308) :
    ∃ g : ℚ, serdeFloat (decimalText neg a b x) = some (.fin (if neg then -g else g)) ∧
      |g - written a b x| ≤ written a b x / 2 ^ 51 := by
  obtain ⟨h1, h2⟩ := parts_near h
  rw [serdeFloat_parts h]
  generalize (sigFrac (sigInt 0 a).1 b).1 = m at *
  generalize (((sigInt 0 a).2 : Int) - ((sigFrac (sigInt 0 a).1 b).2 : Int) + exponentOf x) = e at *
  generalize written a b x = v at *
  have hv : 0 < v := lt_of_lt_of_le (by positivity) hlo
  rw [abs_le] at h2
  have hsmall : v / 2 ^ 60 ≤ v / 100 := div_le_div_of_nonneg_left hv.le (by norm_num) (by norm_num)
  obtain ⟨R, r1, r2, r3⟩ := fromParts_near (neg := neg) (e := e) h1 (by
      have h3 : (1 : ℚ) / 10 ^ 289 = 1 / 10 ^ 288 / 10 := by rw [pow_succ]; field_simp
      rw [h3]
      generalize (1 : ℚ) / 10 ^ 288 = H at *
      linarith [h2.1]) (by
      generalize (10 : ℚ) ^ 308 = H at *
      linarith [h2.2])
  refine ⟨R, r1, ?_⟩
  have hu : half = 1 / 2 ^ 53 := rfl
  generalize (m : ℚ) * 10 ^ e = w at *
  rw [hu] at r2 r3
  rw [abs_le]
  constructor <;> nlinarith

/-- C116: zero is read as zero with its sign, whatever the exponent. -/
theorem C116_zero (neg : Bool) (a b : Str) (x : Option (Bool × Str)) (h : IsDecimal a b x) (h0 : written a b x = 0) :
    serdeFloat (decimalText neg a b x) = some (if neg then .negZero else .fin 0) := by
  obtain ⟨h1, h2⟩ := parts_near h
  rw [serdeFloat_parts h]
  generalize (sigFrac (sigInt 0 a).1 b).1 = m at *
  generalize (((sigInt 0 a).2 : Int) - ((sigFrac (sigInt 0 a).1 b).2 : Int) + exponentOf x) = e at *
  rw [h0] at h2
  simp only [sub_zero, zero_div, abs_nonpos_iff] at h2
  have hm : m = 0 := by
    rcases mul_eq_zero.1 h2 with h | h
    · exact_mod_cast h
    · exact absurd h (by positivity)
  subst hm
  have hz : F64.ofInt ((0 : Nat) : Int) = .fin 0 := by simpa using ofInt_exact (n := 0) (by decide)
  unfold fromParts
  have : scaleTen 4 (.fin 0) e = some (.fin 0) := by
    unfold scaleTen
    split
    · split
      · simp [F64.mulPos]
      · simp [F64.divPos]
    · simp
  rw [hz, this]
  cases neg <;> simp [F64.neg]

set_option exponentiation.threshold 2000 in
/-- C116: a number that is too large is refused. -/
theorem C116_refused (neg : Bool) (a b : Str) (x : Option (Bool × Str)) (h : IsDecimal a b x)
    (hbig : 2 * 10 ^ 308 ≤ written a b x) : serdeFloat (decimalText neg a b x) = none := by
  obtain ⟨h1, h2⟩ := parts_near h
  rw [serdeFloat_parts h]
  generalize (sigFrac (sigInt 0 a).1 b).1 = m at *
  generalize (((sigInt 0 a).2 : Int) - ((sigFrac (sigInt 0 a).1 b).2 : Int) + exponentOf x) = e at *
  generalize written a b x = v at *
  have hH : (0 : ℚ) < 10 ^ 308 := by positivity
  have hv : 0 < v := by generalize (10 : ℚ) ^ 308 = H at *; linarith
  rw [abs_le] at h2
  have hsmall : v / 2 ^ 60 ≤ v / 100 := div_le_div_of_nonneg_left hv.le (by norm_num) (by norm_num)
  have hw : (19 : ℚ) / 10 * 10 ^ 308 ≤ (m : ℚ) * 10 ^ e := by
    generalize (10 : ℚ) ^ 308 = H at *
    linarith [h2.1]
  have hten : (0 : ℚ) < 10 ^ e := by positivity
  have hm0 : m ≠ 0 := by
    rintro rfl
    simp at hw
    linarith
  have hm2 : (m : ℚ) < 2 ^ 64 := by exact_mod_cast h1
  obtain ⟨S, hS, s1, s2⟩ := ofInt_near hm0 h1
  have hh := half_lt
  have hu' : half ≤ 1 / 1000 := le_trans hh.2 (by norm_num)
  have hm1 : (1 : ℚ) ≤ m := by exact_mod_cast Nat.one_le_iff_ne_zero.2 hm0
  have hSpos : 0 < S := lt_of_lt_of_le (by nlinarith [hh.1]) s1
  have he : 0 ≤ e := by
    by_contra hneg
    have h3 : (10 : ℚ) ^ e ≤ 1 := zpow_le_one_of_nonpos₀ (by norm_num) (by omega)
    have h4 : (m : ℚ) * 10 ^ e ≤ 2 ^ 64 * 1 := mul_le_mul hm2.le h3 hten.le (by positivity)
    have h5 : (2 : ℚ) ^ 64 * 1 < 19 / 10 * 10 ^ 308 := by norm_num
    linarith
  unfold fromParts
  have : scaleTen 4 (F64.ofInt m) e = none := by
    rw [hS]
    unfold scaleTen
    split
    · next hk =>
      obtain ⟨p1, _, p3⟩ := powTen_near hk
      rw [(zpow_split e).1 he] at hw
      have hkp : (0 : ℚ) < 10 ^ e.natAbs := by positivity
      have hQ : (m : ℚ) * 10 ^ e.natAbs * (1 - 2 * half) ≤ S * powTen e.natAbs := by
        have h3 : (m : ℚ) * (1 - half) * (10 ^ e.natAbs * (1 - half)) ≤ S * powTen e.natAbs :=
          mul_le_mul s1 p1 (mul_nonneg hkp.le (by linarith)) hSpos.le
        refine le_trans ?_ h3
        have : (m : ℚ) * (1 - half) * (10 ^ e.natAbs * (1 - half)) = m * 10 ^ e.natAbs * ((1 - half) * (1 - half)) := by ring
        rw [this]
        refine mul_le_mul_of_nonneg_left ?_ (by positivity)
        nlinarith [hh.1]
      have hQ2 : (185 : ℚ) / 100 * 10 ^ 308 ≤ S * powTen e.natAbs := by
        refine le_trans ?_ hQ
        have h3 : (19 : ℚ) / 10 * 10 ^ 308 * (1 - 2 * half) ≤ m * 10 ^ e.natAbs * (1 - 2 * half) :=
          mul_le_mul_of_nonneg_right hw (by linarith)
        refine le_trans ?_ h3
        generalize (10 : ℚ) ^ 308 = H at *
        nlinarith
      have hQ3 : pow2 (-1022) ≤ S * powTen e.natAbs := by
        refine le_trans pow2_tiny (le_trans ?_ hQ2)
        have h3 : (1 : ℚ) / 10 ^ 300 ≤ 1 := by
          rw [div_le_one (by positivity)]
          exact one_le_pow₀ (by norm_num)
        refine le_trans h3 ?_
        have h4 : (1 : ℚ) ≤ 10 ^ 308 := one_le_pow₀ (by norm_num)
        generalize (10 : ℚ) ^ 308 = H at *
        linarith
      have hr := (rndPos_near hQ3).1
      have hinf : rnd (S * powTen e.natAbs) = .inf false := by
        have hQpos : 0 < S * powTen e.natAbs := lt_of_lt_of_le (pow2_pos _) hQ3
        unfold rnd
        rw [if_neg (ne_of_gt hQpos), if_pos hQpos]
        simp only
        rw [if_pos]
        refine le_trans (le_of_lt pow2_huge.2) (le_trans ?_ hr)
        have h3 : (185 : ℚ) / 100 * 10 ^ 308 * (1 - half) ≤ S * powTen e.natAbs * (1 - half) :=
          mul_le_mul_of_nonneg_right hQ2 (by linarith)
        refine le_trans ?_ h3
        generalize (10 : ℚ) ^ 308 = H at *
        nlinarith
      simp only [F64.mulPos, if_neg (ne_of_gt hSpos), hinf]
    · rw [if_neg (by simp [ne_of_gt hSpos])]
  rw [this]
  rfl

/-! ## No text is read as infinite -/

/-- Finite, and a float. -/
def Spec.FiniteFloat (f : F64) : Prop := f = .negZero ∨ ∃ q, f = .fin q ∧ OnGrid q ∧ |q| < pow2 1024

theorem rnd_finiteFloat {q : ℚ} (h : ∀ s, rnd q ≠ .inf s) : FiniteFloat (rnd q) := by
  cases hr : rnd q with
  | nan => exact absurd hr (rnd_ne_nan q)
  | inf s => exact absurd hr (h s)
  | negZero => exact .inl rfl
  | fin r => exact .inr ⟨r, rfl, rnd_onGrid hr⟩

theorem divPos_finite {f : F64} (h : FiniteFloat f) {P : ℚ} (hP : 1 ≤ P) : FiniteFloat (f.divPos P) := by
  rcases h with rfl | ⟨q, rfl, hg, hb⟩
  · exact .inl rfl
  · unfold F64.divPos
    simp only
    split
    · exact .inr ⟨0, rfl, by simpa using int_grid (n := 0) (by decide), by rw [abs_zero]; exact pow2_pos _⟩
    · refine rnd_finiteFloat fun s hs => ?_
      have habs : OnGrid |q| := by
        rcases abs_choice q with h | h <;> rw [h]
        · exact hg
        · exact hg.neg
      have hle : |q / P| ≤ |q| := by
        rw [abs_div, abs_of_pos (by linarith : (0 : ℚ) < P)]
        exact div_le_self (abs_nonneg q) hP
      rw [abs_le] at hle
      obtain ⟨v, hv, _⟩ := rnd_between habs.neg habs (by rw [abs_neg, abs_abs]; exact hb) (by rw [abs_abs]; exact hb)
        hle.1 hle.2
      rcases hv with hv | ⟨hv, _⟩ <;> rw [hv] at hs <;> cases hs

theorem scaleTen_finite : ∀ (n : Nat) {f g : F64} {e : Int}, FiniteFloat f → scaleTen n f e = some g → FiniteFloat g
  | 0, f, g, e, hf, h => by cases h; exact hf
  | n + 1, f, g, e, hf, h => by
    unfold scaleTen at h
    split at h
    · next hk =>
      split at h
      · split at h
        · cases h
        · next g' hg' =>
          cases h
          rcases hf with rfl | ⟨q, rfl, hg, hb⟩
          · exact .inl rfl
          · unfold F64.mulPos at hg' ⊢
            simp only at hg' ⊢
            split
            · exact .inr ⟨0, rfl, by simpa using int_grid (n := 0) (by decide), by rw [abs_zero]; exact pow2_pos _⟩
            · next hq => exact rnd_finiteFloat fun s hs => hg' s (by rw [if_neg hq]; exact hs)
      · cases h
        exact divPos_finite hf (powTen_near hk).2.2
    · split at h
      · cases h; exact hf
      · split at h
        · cases h
        · exact scaleTen_finite n (divPos_finite hf (powTen_near (by omega)).2.2) h

theorem fromParts_finite {neg : Bool} {m : Nat} {e : Int} {g : F64} (hm : m < 2 ^ 64) (h : fromParts neg m e = some g) :
    FiniteFloat g := by
  unfold fromParts at h
  obtain ⟨f, h1, rfl⟩ := Option.map_eq_some_iff.1 h
  have hf : FiniteFloat (F64.ofInt m) := by
    refine rnd_finiteFloat fun s => rnd_ne_inf ?_ s
    rw [Int.cast_natCast, abs_of_nonneg (by positivity)]
    have h2 : (m : ℚ) ≤ 2 ^ 64 := by exact_mod_cast hm.le
    have h3 : pow2 64 = 2 ^ 64 := by rw [pow2_eq]; norm_num
    have h4 : pow2 64 ≤ pow2 1023 := pow2_le (by norm_num)
    linarith
  have := scaleTen_finite 4 hf h1
  cases neg with
  | false => exact this
  | true =>
    rcases this with rfl | ⟨q, rfl, hg, hb⟩
    · exact .inr ⟨0, rfl, by simpa using int_grid (n := 0) (by decide), by rw [abs_zero]; exact pow2_pos _⟩
    · simp only [if_true, F64.neg]
      split
      · exact .inl rfl
      · exact .inr ⟨-q, rfl, hg.neg, by rw [abs_neg]; exact hb⟩

theorem sigInt_lt : ∀ {s : Str} {n : Nat}, n < 2 ^ 64 → (sigInt n s).1 < 2 ^ 64
  | [], n, h => h
  | c :: s, n, h => by
    rw [sigInt]
    split
    · next h' => exact sigInt_lt h'
    · exact h

theorem sigFrac_lt : ∀ {s : Str} {n : Nat}, n < 2 ^ 64 → (sigFrac n s).1 < 2 ^ 64
  | [], n, h => h
  | c :: s, n, h => by
    rw [sigFrac]
    split
    · next h' => exact sigFrac_lt h'
    · exact h

/-- C116: whatever the text, what is read is a finite float. -/
theorem C116_finite (s : Str) (f : F64) (h : serdeFloat s = some f) : f ≠ .nan ∧ ∀ b, f ≠ .inf b := by
  have key : FiniteFloat f := by
    have hun : ∀ neg t, readUnsigned neg t = some f → FiniteFloat f := by
      intro neg t ht
      have hi := sigInt_lt (s := t.takeWhile isDigit) (n := 0) (by norm_num)
      unfold readUnsigned at ht
      split at ht
      · split at ht
        · exact fromParts_finite hi ht
        · split at ht
          · cases ht
          · split at ht
            · exact fromParts_finite (sigFrac_lt hi) ht
            · split at ht
              · split at ht
                · cases ht
                · exact fromParts_finite (sigFrac_lt hi) ht
              · cases ht
        · split at ht
          · split at ht
            · cases ht
            · exact fromParts_finite hi ht
          · cases ht
      · cases ht
    unfold serdeFloat at h
    split at h
    · exact hun _ _ h
    · exact hun _ _ h
  rcases key with rfl | ⟨q, rfl, _⟩
  · exact ⟨by simp, by simp⟩
  · exact ⟨by simp, by simp⟩

/-! ## The hypotheses are met -/

/-- The number of C98 that changes: not the same float, but one close by. -/
example : ∃ g : ℚ, serdeFloat eleventhText = some (.fin g) ∧ |g - 9090909090909091 / 10 ^ 17| ≤ 9090909090909091 / 10 ^ 17 / 2 ^ 51 := by
  have hw : written "0".toList "09090909090909091".toList none = 9090909090909091 / 10 ^ 17 := by
    unfold written
    rw [show digitsVal ("0".toList ++ "09090909090909091".toList) = 9090909090909091 by decide,
      show exponentOf none - (("09090909090909091".toList.length : Nat) : Int) = -(17 : Nat) by decide, zpow_neg, zpow_natCast]
    norm_num
  have := C116_near false "0".toList "09090909090909091".toList none ⟨by decide, by decide, by simp⟩
    (by
      rw [hw]
      refine le_trans (b := 1 / 10 ^ 17) ?_ (by norm_num)
      exact div_le_div_of_nonneg_left (by norm_num) (by positivity) (pow_le_pow_right₀ (by norm_num) (by norm_num)))
    (by
      rw [hw]
      exact le_trans (by norm_num) (one_le_pow₀ (n := 308) (by norm_num : (1 : ℚ) ≤ 10)))
  rw [hw] at this
  exact this

/-- Thirty digits before the point. -/
example : serdeFloat "123456789012345678901234567890".toList = some (.fin 123456789012345677877719597056) := by decide +kernel

example : serdeFloat "-0.000e999".toList = some .negZero ∧ serdeFloat "3e308".toList = none := by decide +kernel

example : IsDecimal "3".toList [] (some (false, "308".toList)) ∧ written "3".toList [] (some (false, "308".toList)) = 3 * 10 ^ 308 := by
  refine ⟨⟨by decide, by simp, ?_⟩, ?_⟩
  · rintro minus ds ⟨⟩
    exact ⟨by decide, by decide⟩
  · unfold written
    rw [show digitsVal ("3".toList ++ []) = 3 by decide,
      show exponentOf (some (false, "308".toList)) - ((([] : Str).length : Nat) : Int) = (308 : Nat) by decide, zpow_natCast]
    norm_num

end Firm
