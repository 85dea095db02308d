import Verif.Props.NearFloats

/-!
# C116: the smallest floats
-/

namespace Firm
open Spec F64

/-- The largest absolute error of one rounding among the smallest floats. -/
def tiny : ℚ := pow2 (-1075)

theorem tiny_pos : 0 < tiny := pow2_pos _

theorem pow2_tinyTwice : pow2 (-1074) = 2 * tiny := by
  have : pow2 (-1074) = pow2 (-1075 - -1) := by norm_num
  rw [this, pow2_sub, tiny]
  have : pow2 (-1) = 1 / 2 := by rw [pow2_eq]; norm_num
  rw [this]
  ring

set_option exponentiation.threshold 2000 in
theorem tiny_low : 1 / 10 ^ 330 ≤ tiny := by
  unfold tiny
  rw [pow2_eq]
  norm_num

theorem rndPos_small {q : ℚ} (hq : 0 < q) (h : q < pow2 (-1022)) : 0 ≤ rndPos q ∧ |rndPos q - q| ≤ tiny ∧ (q < tiny → rndPos q = 0) := by
  obtain ⟨l1, l2⟩ := ilog2_spec hq
  have hi : ilog2 q < -1022 := by
    have : pow2 (ilog2 q) < pow2 (-1022) := lt_of_le_of_lt l1 h
    rwa [pow2_lt] at this
  have hlast : lastBit q = -1074 := by unfold lastBit; omega
  have hb := pow2_pos (lastBit q)
  have hr := round_near (q / pow2 (lastBit q))
  have hx : 0 < q / pow2 (lastBit q) := div_pos hq hb
  rw [rndPos_eq]
  have ht : pow2 (lastBit q) = 2 * tiny := by rw [hlast]; exact pow2_tinyTwice
  have hn : (0 : ℚ) ≤ roundHalfEven (q / pow2 (lastBit q)) := by
    rw [abs_le] at hr
    have : (-1 : ℚ) < roundHalfEven (q / pow2 (lastBit q)) := by linarith [hr.1]
    have : (-1 : Int) < roundHalfEven (q / pow2 (lastBit q)) := by exact_mod_cast this
    have : (0 : Int) ≤ roundHalfEven (q / pow2 (lastBit q)) := by omega
    exact_mod_cast this
  refine ⟨mul_nonneg hn hb.le, ?_, ?_⟩
  · have : (roundHalfEven (q / pow2 (lastBit q)) : ℚ) * pow2 (lastBit q) - q =
        ((roundHalfEven (q / pow2 (lastBit q)) : ℚ) - q / pow2 (lastBit q)) * pow2 (lastBit q) := by
      field_simp
    rw [this, abs_mul, abs_of_pos hb]
    calc _ ≤ 1 / 2 * pow2 (lastBit q) := mul_le_mul_of_nonneg_right hr (le_of_lt hb)
      _ = _ := by rw [ht]; ring
  · intro hs
    have h1 : q / pow2 (lastBit q) < 1 / 2 := by
      rw [div_lt_iff₀ hb, ht]
      linarith
    rw [abs_le] at hr
    have : (roundHalfEven (q / pow2 (lastBit q)) : ℚ) < 1 := by linarith [hr.2]
    have h2 : roundHalfEven (q / pow2 (lastBit q)) < 1 := by exact_mod_cast this
    have h3 : (0 : Int) ≤ roundHalfEven (q / pow2 (lastBit q)) := by exact_mod_cast hn
    have : roundHalfEven (q / pow2 (lastBit q)) = 0 := by omega
    rw [this]
    simp

/-- One rounding, of numbers up to one. -/
theorem rnd_close {q : ℚ} (h0 : 0 ≤ q) (h1 : q ≤ 1) :
    ∃ r, rnd q = .fin r ∧ 0 ≤ r ∧ q * (1 - half) - tiny ≤ r ∧ r ≤ q * (1 + half) + tiny ∧ (q < tiny → r = 0) := by
  have hh := half_lt
  have ht := tiny_pos
  have hu' : half ≤ 1 / 1000 := le_trans hh.2 (by norm_num)
  rcases h0.eq_or_lt with rfl | hq
  · exact ⟨0, by simp [rnd], le_refl _, by simp [ht.le], by simp [ht.le], fun _ => rfl⟩
  · by_cases hs : pow2 (-1022) ≤ q
    · obtain ⟨r, r1, r2, r3⟩ := rnd_near hs (by
        have : q * (1 + half) ≤ 2 := by nlinarith
        have h2 : pow2 1 = 2 := by rw [pow2_eq]; norm_num
        have h3 : pow2 1 < pow2 1024 := pow2_lt.2 (by norm_num)
        linarith)
      refine ⟨r, r1, ?_, by linarith, by linarith, ?_⟩
      · exact le_trans (mul_nonneg hq.le (by linarith)) r2
      · intro hlt
        have : tiny < pow2 (-1022) := pow2_lt.2 (by norm_num)
        linarith
    · obtain ⟨k1, k2, k3⟩ := rndPos_small hq (not_le.1 hs)
      rw [abs_le] at k2
      refine ⟨rndPos q, ?_, k1, ?_, ?_, k3⟩
      · unfold rnd
        rw [if_neg (ne_of_gt hq), if_pos hq]
        simp only
        rw [if_neg]
        have h2 : pow2 1 = 2 := by rw [pow2_eq]; norm_num
        have h3 : pow2 1 < pow2 1024 := pow2_lt.2 (by norm_num)
        have h4 : tiny < pow2 0 := pow2_lt.2 (by norm_num)
        have h5 : pow2 0 = 1 := by rw [pow2_eq]; norm_num
        linarith [k2.2]
      · nlinarith [k2.1, hh.1]
      · nlinarith [k2.2, hh.1]

theorem divPos_close {s P : ℚ} (hs : 0 ≤ s) (hP : 0 < P) (h1 : s / P ≤ 1) :
    ∃ r, F64.divPos (.fin s) P = .fin r ∧ 0 ≤ r ∧ s / P * (1 - half) - tiny ≤ r ∧ r ≤ s / P * (1 + half) + tiny ∧
      (s / P < tiny → r = 0) := by
  unfold F64.divPos
  simp only
  split
  · next h =>
    subst h
    have ht := tiny_pos
    exact ⟨0, rfl, le_refl _, by simp [ht.le], by simp [ht.le], fun _ => rfl⟩
  · exact rnd_close (div_nonneg hs hP.le) h1

/-- The quotient of two numbers that are known up to relative errors. -/
theorem quot_near {x T S P a : ℚ} (hx : 0 ≤ x) (hT : 0 < T) (ha : 0 ≤ a) (ha' : a ≤ 1 / 2) (hP : 0 < P) (s1 : x * (1 - a) ≤ S) (s2 : S ≤ x * (1 + a))
    (p1 : T * (1 - half) ≤ P) (p2 : P ≤ T * (1 + half)) :
    x / T * (1 - (a + 2 * half)) ≤ S / P ∧ S / P ≤ x / T * (1 + (a + 2 * half)) := by
  have hh := half_lt
  have hu' : half ≤ 1 / 1000 := le_trans hh.2 (by norm_num)
  constructor
  · rw [le_div_iff₀ hP]
    have h1 : x / T * (1 - (a + 2 * half)) * P ≤ x / T * (1 - (a + 2 * half)) * (T * (1 + half)) :=
      mul_le_mul_of_nonneg_left p2 (mul_nonneg (div_nonneg hx hT.le) (by linarith))
    refine le_trans h1 (le_trans ?_ s1)
    have : x / T * (1 - (a + 2 * half)) * (T * (1 + half)) = x * ((1 - (a + 2 * half)) * (1 + half)) := by field_simp
    rw [this]
    refine mul_le_mul_of_nonneg_left ?_ hx
    nlinarith [hh.1, mul_nonneg ha hh.1.le]
  · rw [div_le_iff₀ hP]
    have h1 : x / T * (1 + (a + 2 * half)) * (T * (1 - half)) ≤ x / T * (1 + (a + 2 * half)) * P :=
      mul_le_mul_of_nonneg_left p1 (mul_nonneg (div_nonneg hx hT.le) (by linarith [hh.1]))
    refine le_trans (le_trans s2 ?_) h1
    have : x / T * (1 + (a + 2 * half)) * (T * (1 - half)) = x * ((1 + (a + 2 * half)) * (1 - half)) := by field_simp
    rw [this]
    refine mul_le_mul_of_nonneg_left ?_ hx
    nlinarith [hh.1, mul_nonneg ha hh.1.le]

theorem scaleTen_zero (n : Nat) (e : Int) : scaleTen n (.fin 0) e = some (.fin 0) := by
  cases n with
  | zero => rfl
  | succ n =>
    unfold scaleTen
    split
    · split
      · simp [F64.mulPos]
      · simp [F64.divPos]
    · simp

theorem last_low {w u t : ℚ} (hw : 0 ≤ w) (hu : 0 < u) (ht : 0 < t) :
    w * (1 - 12 * u) - 3 / 2 * t ≤ (w * (1 - 7 * u) - t / 9) * (1 - u) - t := by
  have h : (w * (1 - 7 * u) - t / 9) * (1 - u) - t - (w * (1 - 12 * u) - 3 / 2 * t) =
      w * (4 * u + 7 * (u * u)) + t * (7 / 18 + u / 9) := by ring
  have : 0 ≤ w * (4 * u + 7 * (u * u)) + t * (7 / 18 + u / 9) := by positivity
  linarith

theorem last_up {w u t : ℚ} (hw : 0 ≤ w) (hu : 0 < u) (hu' : u ≤ 1 / 1000) (ht : 0 < t) :
    (w * (1 + 7 * u) + t / 9) * (1 + u) + t ≤ w * (1 + 12 * u) + 3 / 2 * t := by
  have h : w * (1 + 12 * u) + 3 / 2 * t - ((w * (1 + 7 * u) + t / 9) * (1 + u) + t) =
      w * (u * (4 - 7 * u)) + t * (7 / 18 - u / 9) := by ring
  have : 0 ≤ w * (u * (4 - 7 * u)) + t * (7 / 18 - u / 9) :=
    add_nonneg (mul_nonneg hw (mul_nonneg hu.le (by linarith))) (mul_nonneg ht.le (by linarith))
  linarith

theorem once_low {w u t q R : ℚ} (hw : 0 ≤ w) (hu : 0 < u) (hu' : u ≤ 1 / 1000) (h1 : w * (1 - (u + 2 * u)) ≤ q)
    (h2 : q * (1 - u) - t ≤ R) : w * (1 - 5 * u) - t ≤ R := by
  have h3 : w * (1 - (u + 2 * u)) * (1 - u) ≤ q * (1 - u) := mul_le_mul_of_nonneg_right h1 (by linarith)
  have h : w * (1 - (u + 2 * u)) * (1 - u) - w * (1 - 5 * u) = w * (u + 3 * (u * u)) := by ring
  have : 0 ≤ w * (u + 3 * (u * u)) := by positivity
  linarith

theorem once_up {w u t q R : ℚ} (hw : 0 ≤ w) (hu : 0 < u) (hu' : u ≤ 1 / 1000) (h1 : q ≤ w * (1 + (u + 2 * u)))
    (h2 : R ≤ q * (1 + u) + t) : R ≤ w * (1 + 5 * u) + t := by
  have h3 : q * (1 + u) ≤ w * (1 + (u + 2 * u)) * (1 + u) := mul_le_mul_of_nonneg_right h1 (by linarith)
  have h : w * (1 + 5 * u) - w * (1 + (u + 2 * u)) * (1 + u) = w * (u * (1 - 3 * u)) := by ring
  have : 0 ≤ w * (u * (1 - 3 * u)) := mul_nonneg hw (mul_nonneg hu.le (by linarith))
  linarith

theorem zero_low {w u t : ℚ} (hw : 0 ≤ w) (hu : 0 < u) (ht : 0 < t) (h : w ≤ t) : w * (1 - 12 * u) - 3 / 2 * t ≤ 0 := by
  have := mul_nonneg hw hu.le
  linarith

theorem wider {w u t : ℚ} (hw : 0 ≤ w) (hu : 0 < u) (ht : 0 < t) :
    w * (1 - 12 * u) - 3 / 2 * t ≤ w * (1 - 5 * u) - t ∧ w * (1 + 5 * u) + t ≤ w * (1 + 12 * u) + 3 / 2 * t := by
  have := mul_nonneg hw hu.le
  constructor <;> linarith

set_option exponentiation.threshold 2000 in
theorem scaleTen_small {m : Nat} {e : Int} (hm0 : m ≠ 0) (hm : m < 2 ^ 64) (hhi : (m : ℚ) * 10 ^ e < 1 / 10 ^ 287) :
    ∃ R, scaleTen 4 (F64.ofInt m) e = some (.fin R) ∧ 0 ≤ R ∧
      (m : ℚ) * 10 ^ e * (1 - 12 * half) - 3 / 2 * tiny ≤ R ∧ R ≤ (m : ℚ) * 10 ^ e * (1 + 12 * half) + 3 / 2 * tiny := by
  have hh := half_lt
  have hu' : half ≤ 1 / 1000 := le_trans hh.2 (by norm_num)
  have ht := tiny_pos
  have hten : (0 : ℚ) < 10 ^ e := by positivity
  have hm1 : (1 : ℚ) ≤ m := by exact_mod_cast Nat.one_le_iff_ne_zero.2 hm0
  have hm2 : (m : ℚ) < 10 ^ 20 := lt_trans (b := (2 : ℚ) ^ 64) (by exact_mod_cast hm) (by norm_num)
  have hw : (0 : ℚ) ≤ (m : ℚ) * 10 ^ e := by positivity
  have he : e < 0 := by
    by_contra hneg
    have h3 : (1 : ℚ) ≤ 10 ^ e := one_le_zpow₀ (by norm_num) (by omega)
    have h4 : (1 : ℚ) * 1 ≤ m * 10 ^ e := mul_le_mul hm1 h3 (by norm_num) (by positivity)
    have h5 : (1 : ℚ) / 10 ^ 287 ≤ 1 := by
      rw [div_le_one (by positivity)]
      exact one_le_pow₀ (by norm_num)
    linarith
  obtain ⟨S, hS, s1, s2⟩ := ofInt_near hm0 hm
  have hSpos : 0 < S := lt_of_lt_of_le (by nlinarith [hh.1]) s1
  rw [hS]
  unfold scaleTen
  by_cases hk : e.natAbs ≤ 308
  · rw [if_pos hk, if_neg (by omega)]
    obtain ⟨p1, p2, p3⟩ := powTen_near hk
    have hpow := (zpow_split e).2 (by omega)
    obtain ⟨q1, q2⟩ := quot_near (x := m) (T := 10 ^ e.natAbs) (a := half) (by positivity) (by positivity) hh.1.le (by linarith)
      (by linarith) s1 s2 p1 p2
    have hwe : (m : ℚ) / 10 ^ e.natAbs = m * 10 ^ e := by rw [hpow]; ring
    rw [hwe] at q1 q2
    have hw1 : (m : ℚ) * 10 ^ e ≤ 1 / 2 := by
      refine le_trans hhi.le ?_
      refine div_le_div_of_nonneg_left (by norm_num) (by norm_num) ?_
      exact le_trans (by norm_num) (pow_le_pow_right₀ (by norm_num : (1 : ℚ) ≤ 10) (by norm_num : 1 ≤ 287))
    obtain ⟨R, r1, r2, r3, r4, _⟩ := divPos_close hSpos.le (by linarith : 0 < powTen e.natAbs) (by nlinarith)
    rw [r1]
    refine ⟨R, rfl, r2, ?_, ?_⟩
    · exact le_trans (wider hw hh.1 ht).1 (once_low hw hh.1 hu' q1 r3)
    · exact le_trans (once_up hw hh.1 hu' q2 r4) (wider hw hh.1 ht).2
  · rw [if_neg hk, if_neg (by simp [ne_of_gt hSpos]), if_neg (by omega)]
    obtain ⟨p1, p2, p3⟩ := powTen_near (le_refl 308)
    obtain ⟨q1, q2⟩ := quot_near (x := m) (T := 10 ^ 308) (a := half) (by positivity) (by positivity) hh.1.le (by linarith)
      (by linarith) s1 s2 p1 p2
    have hX : (m : ℚ) / 10 ^ 308 ≤ 1 / 10 ^ 288 := by
      rw [div_le_div_iff₀ (by positivity) (by positivity)]
      have : (10 : ℚ) ^ 308 = 10 ^ 20 * 10 ^ 288 := by rw [← pow_add]
      rw [this, one_mul]
      exact mul_le_mul_of_nonneg_right hm2.le (by positivity)
    have hX1 : (1 : ℚ) / 10 ^ 288 ≤ 1 / 10 := by
      refine div_le_div_of_nonneg_left (by norm_num) (by norm_num) ?_
      exact le_trans (by norm_num) (pow_le_pow_right₀ (by norm_num : (1 : ℚ) ≤ 10) (by norm_num : 1 ≤ 288))
    have hX0 : (0 : ℚ) ≤ (m : ℚ) / 10 ^ 308 := by positivity
    obtain ⟨f, f1, f2, f3, f4, _⟩ := divPos_close hSpos.le (by linarith : 0 < powTen 308) (by nlinarith)
    rw [f1]
    have hfu : f ≤ (m : ℚ) / 10 ^ 308 * (1 + 5 * half) + tiny := once_up hX0 hh.1 hu' q2 f4
    have hfl : (m : ℚ) / 10 ^ 308 * (1 - 5 * half) - tiny ≤ f := once_low hX0 hh.1 hu' q1 f3
    have ht1 : tiny ≤ 1 / 10 := by
      have h1 : tiny ≤ pow2 (-1022) := pow2_le (by norm_num)
      have h2 := pow2_tiny
      have h3 : (1 : ℚ) / 10 ^ 300 ≤ 1 / 10 := by
        refine div_le_div_of_nonneg_left (by norm_num) (by norm_num) ?_
        exact le_trans (by norm_num) (pow_le_pow_right₀ (by norm_num : (1 : ℚ) ≤ 10) (by norm_num : 1 ≤ 300))
      linarith
    unfold scaleTen
    by_cases hk2 : (e + 308).natAbs ≤ 308
    · rw [if_pos hk2, if_neg (by omega)]
      obtain ⟨t1, t2, t3⟩ := powTen_near hk2
      have hT : (10 : ℚ) ≤ 10 ^ (e + 308).natAbs := by
        conv_lhs => rw [← pow_one (10 : ℚ)]
        exact pow_le_pow_right₀ (by norm_num) (by omega)
      have hP9 : 9 ≤ powTen (e + 308).natAbs := by nlinarith
      generalize powTen (e + 308).natAbs = P at *
      have hwe : (m : ℚ) / 10 ^ 308 / 10 ^ (e + 308).natAbs = m * 10 ^ e := by
        rw [div_div, ← pow_add, show 308 + (e + 308).natAbs = e.natAbs by omega, (zpow_split e).2 (by omega)]
        ring
      obtain ⟨v1, v2⟩ := quot_near (x := (m : ℚ) / 10 ^ 308) (T := 10 ^ (e + 308).natAbs) (a := 5 * half)
        (S := (m : ℚ) / 10 ^ 308 * (1 - 5 * half)) (P := P) hX0 (by positivity) (by linarith) (by linarith) (by linarith)
        (le_refl _) (mul_le_mul_of_nonneg_left (by linarith) hX0) t1 t2
      obtain ⟨v3, v4⟩ := quot_near (x := (m : ℚ) / 10 ^ 308) (T := 10 ^ (e + 308).natAbs) (a := 5 * half)
        (S := (m : ℚ) / 10 ^ 308 * (1 + 5 * half)) (P := P) hX0 (by positivity) (by linarith) (by linarith) (by linarith)
        (mul_le_mul_of_nonneg_left (by linarith) hX0) (le_refl _) t1 t2
      rw [hwe] at v1 v2 v3 v4
      have htP : tiny / P ≤ tiny / 9 := div_le_div_of_nonneg_left ht.le (by norm_num) hP9
      have hup : f / P ≤ (m : ℚ) * 10 ^ e * (1 + 7 * half) + tiny / 9 := by
        have : f / P ≤ ((m : ℚ) / 10 ^ 308 * (1 + 5 * half) + tiny) / P := div_le_div_of_nonneg_right hfu (by linarith)
        rw [add_div] at this
        linarith
      have hlow : (m : ℚ) * 10 ^ e * (1 - 7 * half) - tiny / 9 ≤ f / P := by
        have : ((m : ℚ) / 10 ^ 308 * (1 - 5 * half) - tiny) / P ≤ f / P := div_le_div_of_nonneg_right hfl (by linarith)
        rw [sub_div] at this
        linarith
      have hfP : f / P ≤ 1 := by
        rw [div_le_one (by linarith)]
        nlinarith
      obtain ⟨R, r1, r2, r3, r4, _⟩ := divPos_close f2 (by linarith : 0 < P) hfP
      rw [r1]
      refine ⟨R, rfl, r2, ?_, ?_⟩
      · refine le_trans ?_ r3
        have h1 : ((m : ℚ) * 10 ^ e * (1 - 7 * half) - tiny / 9) * (1 - half) ≤ f / P * (1 - half) :=
          mul_le_mul_of_nonneg_right hlow (by linarith)
        refine le_trans ?_ (sub_le_sub_right h1 _)
        exact last_low hw hh.1 ht
      · refine le_trans r4 ?_
        have h1 : f / P * (1 + half) ≤ ((m : ℚ) * 10 ^ e * (1 + 7 * half) + tiny / 9) * (1 + half) :=
          mul_le_mul_of_nonneg_right hup (by linarith)
        refine le_trans (add_le_add_left h1 _) ?_
        exact last_up hw hh.1 hu' ht
    · have hwt : (m : ℚ) * 10 ^ e ≤ tiny := by
        rw [(zpow_split e).2 (by omega), mul_one_div]
        have h1 : (10 : ℚ) ^ 617 ≤ 10 ^ e.natAbs := pow_le_pow_right₀ (by norm_num) (by omega)
        have h2 : (m : ℚ) / 10 ^ e.natAbs ≤ 10 ^ 20 / 10 ^ 617 := div_le_div₀ (by positivity) hm2.le (by positivity) h1
        have h3 : (10 : ℚ) ^ 20 / 10 ^ 617 ≤ 1 / 10 ^ 330 := by
          rw [div_le_div_iff₀ (by positivity) (by positivity), ← pow_add, one_mul]
          exact pow_le_pow_right₀ (by norm_num) (by norm_num)
        exact le_trans h2 (le_trans h3 tiny_low)
      rw [if_neg hk2]
      by_cases hf0 : f = 0
      · subst hf0
        rw [if_pos rfl]
        exact ⟨0, rfl, le_refl _, by exact zero_low hw hh.1 ht hwt, by linarith [mul_nonneg hw hh.1.le]⟩
      · rw [if_neg (by simp [hf0]), if_neg (by omega)]
        have hs : f / powTen 308 < tiny := by
          have a1 : (1 : ℚ) / 10 ^ 288 ≤ 1 / 10 ^ 101 :=
            div_le_div_of_nonneg_left (by norm_num) (by positivity) (pow_le_pow_right₀ (by norm_num) (by norm_num))
          have a2 : (1 : ℚ) / 10 ^ 300 ≤ 1 / 10 ^ 101 :=
            div_le_div_of_nonneg_left (by norm_num) (by positivity) (pow_le_pow_right₀ (by norm_num) (by norm_num))
          have a3 : tiny ≤ 1 / 10 ^ 300 := le_trans (pow2_le (by norm_num)) pow2_tiny
          have h1 : f ≤ 1 / 10 ^ 100 := by
            have a4 : (1 : ℚ) / 10 ^ 100 = 10 * (1 / 10 ^ 101) := by rw [pow_succ (10 : ℚ) 100]; field_simp
            have a5 : (m : ℚ) / 10 ^ 308 * (1 + 5 * half) ≤ (m : ℚ) / 10 ^ 308 * 2 :=
              mul_le_mul_of_nonneg_left (by linarith) hX0
            have a6 : (0 : ℚ) ≤ 1 / 10 ^ 101 := by positivity
            rw [a4]
            linarith
          have h2 : (10 : ℚ) ^ 307 ≤ powTen 308 := by
            refine le_trans ?_ p1
            rw [pow_succ (10 : ℚ) 307]
            have : (0 : ℚ) ≤ 10 ^ 307 := by positivity
            generalize (10 : ℚ) ^ 307 = H at *
            nlinarith
          have h3 : f / powTen 308 ≤ 1 / 10 ^ 100 / 10 ^ 307 := div_le_div₀ (by positivity) h1 (by positivity) h2
          have h4 : (1 : ℚ) / 10 ^ 100 / 10 ^ 307 < 1 / 10 ^ 330 := by
            rw [div_div, ← pow_add]
            exact div_lt_div_of_pos_left (by norm_num) (by positivity) (pow_lt_pow_right₀ (by norm_num) (by norm_num))
          exact lt_of_le_of_lt h3 (lt_of_lt_of_le h4 tiny_low)
        obtain ⟨R, r1, _, _, _, r5⟩ := divPos_close f2 (by linarith : 0 < powTen 308) (by linarith)
        rw [r1, r5 hs, scaleTen_zero]
        exact ⟨0, rfl, le_refl _, by exact zero_low hw hh.1 ht hwt, by linarith [mul_nonneg hw hh.1.le]⟩

/-- A number as a float, with its sign also for zero. -/
def Spec.signed (neg : Bool) (g : ℚ) : F64 := if neg then (if g = 0 then .negZero else .fin (-g)) else .fin g

set_option exponentiation.threshold 2000 in
/-- C116: a number of any length and size up to 10^308 is read with its sign and an error of at most one part in 2^49 and
2^-1074, the distance of the smallest floats. -/
theorem C116_any (neg : Bool) (a b : Str) (x : Option (Bool × Str)) (h : IsDecimal a b x) (hhi : written a b x ≤ 10 ^ 308) :
    ∃ g : ℚ, serdeFloat (decimalText neg a b x) = some (signed neg g) ∧ 0 ≤ g ∧
      |g - written a b x| ≤ written a b x / 2 ^ 49 + 1 / 2 ^ 1074 := by
  have htwo : (1 : ℚ) / 2 ^ 1074 = 2 * tiny := by
    rw [← pow2_tinyTwice, pow2_eq, zpow_neg, one_div]
    norm_cast
  have ht := tiny_pos
  have hv0 : 0 ≤ written a b x := by unfold written; positivity
  by_cases hlo : 1 / 10 ^ 288 ≤ written a b x
  · obtain ⟨g, h1, h2⟩ := C116_near neg a b x h hlo hhi
    have hv : 0 < written a b x := lt_of_lt_of_le (by positivity) hlo
    have hg : 0 < g := by
      rw [abs_le] at h2
      have : written a b x / 2 ^ 51 ≤ written a b x / 2 := div_le_div_of_nonneg_left hv.le (by norm_num) (by norm_num)
      linarith [h2.1]
    refine ⟨g, ?_, hg.le, ?_⟩
    · rw [h1, signed]
      cases neg <;> simp [ne_of_gt hg]
    · have : written a b x / 2 ^ 51 ≤ written a b x / 2 ^ 49 := div_le_div_of_nonneg_left hv.le (by norm_num) (by norm_num)
      rw [htwo]
      linarith
  · by_cases h0 : written a b x = 0
    · refine ⟨0, ?_, le_refl _, ?_⟩
      · rw [C116_zero neg a b x h h0, signed]
        cases neg <;> rfl
      · rw [h0, sub_zero, abs_zero, zero_div, zero_add]
        positivity
    · obtain ⟨h1, h2⟩ := parts_near h
      rw [serdeFloat_parts h]
      generalize (sigFrac (sigInt 0 a).1 b).1 = m at *
      generalize (((sigInt 0 a).2 : Int) - ((sigFrac (sigInt 0 a).1 b).2 : Int) + exponentOf x) = e at *
      generalize written a b x = v at *
      have hv : 0 < v := lt_of_le_of_ne hv0 (Ne.symm h0)
      rw [abs_le] at h2
      have hsmall : v / 2 ^ 60 ≤ v / 100 := div_le_div_of_nonneg_left hv.le (by norm_num) (by norm_num)
      have hm0 : m ≠ 0 := by
        rintro rfl
        rw [Nat.cast_zero, zero_mul] at h2
        linarith [h2.1]
      obtain ⟨R, r1, r2, r3, r4⟩ := scaleTen_small (e := e) hm0 h1 (by
        have h3 : (1 : ℚ) / 10 ^ 287 = 1 / 10 ^ 288 * 10 := by rw [pow_succ (10 : ℚ) 287]; field_simp
        rw [h3]
        have h4 := not_le.1 hlo
        generalize (1 : ℚ) / 10 ^ 288 = H at *
        linarith [h2.2])
      refine ⟨R, ?_, r2, ?_⟩
      · unfold fromParts signed
        rw [r1, Option.map_some]
        cases neg <;> simp [F64.neg]
      · have hu : half = 1 / 2 ^ 53 := rfl
        rw [htwo, abs_le]
        rw [hu] at r3 r4
        generalize (m : ℚ) * 10 ^ e = w at *
        constructor <;> nlinarith

set_option exponentiation.threshold 2000 in
/-- A number near the smallest floats, and one far below them. -/
example : serdeFloat "7e-324".toList = some (.fin (1 / 2 ^ 1074)) ∧ serdeFloat "-1e-400".toList = some .negZero ∧
    serdeFloat "123456789e-700".toList = some (.fin 0) := by
  decide +kernel

example : IsDecimal "7".toList [] (some (true, "324".toList)) ∧ written "7".toList [] (some (true, "324".toList)) ≤ 10 ^ 308 := by
  refine ⟨⟨by decide, by simp, ?_⟩, ?_⟩
  · rintro minus ds ⟨⟩
    exact ⟨by decide, by decide⟩
  · unfold written
    rw [show digitsVal ("7".toList ++ []) = 7 by decide,
      show exponentOf (some (true, "324".toList)) - ((([] : Str).length : Nat) : Int) = -(324 : Nat) by decide, zpow_neg,
      zpow_natCast]
    have h1 : ((10 : ℚ) ^ 324)⁻¹ ≤ 1 := inv_le_one_of_one_le₀ (one_le_pow₀ (by norm_num))
    have h2 : (10 : ℚ) ≤ 10 ^ 308 := le_self_pow₀ (by norm_num) (by norm_num)
    rw [Nat.cast_ofNat]
    generalize ((10 : ℚ) ^ 324)⁻¹ = y at *
    generalize (10 : ℚ) ^ 308 = z at *
    linarith

end Firm
