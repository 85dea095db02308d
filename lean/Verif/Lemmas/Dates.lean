import Verif.Model.Dates
import Verif.Lemmas.Calendar

/-!
# Lemmas on dates as text
-/

namespace Firm

theorem padNum_length : ∀ k n : Nat, (padNum k n).length = k
  | 0, _ => rfl
  | k + 1, n => by rw [padNum, List.length_append, padNum_length k]; rfl

theorem padNum_digits : ∀ k n : Nat, ∀ c ∈ padNum k n, isDigit c = true
  | 0, _, _, h => by cases h
  | k + 1, n, c, h => by
    rw [padNum] at h
    rcases List.mem_append.1 h with h | h
    · exact padNum_digits k _ c h
    · rw [List.mem_singleton] at h
      rw [h]
      exact isDigit_digitChar (by omega)

theorem digitsVal_padNum : ∀ k n : Nat, n < 10 ^ k → digitsVal (padNum k n) = n
  | 0, n, h => by
    have : n = 0 := by simpa using h
    subst this; rfl
  | k + 1, n, h => by
    rw [padNum, digitsVal_append, digitsVal_padNum k (n / 10) (by rw [Nat.pow_succ] at h; omega)]
    simp only [digitsVal, List.foldl_cons, List.foldl_nil, digitVal_digitChar (show n % 10 < 10 by omega),
      List.length_cons, List.length_nil]
    omega

/-- What ends a number. -/
def Ends (s : Str) : Prop := ∀ c, s.head? = some c → isDigit c = false ∧ c ≠ '.'

theorem dropWhile_ends {s : Str} (h : Ends s) : s.dropWhile isDigit = s := by
  cases s with
  | nil => rfl
  | cons c s => rw [List.dropWhile_cons, (h c rfl).1]; rfl

theorem scanFraction_pad {k n : Nat} {b : Str} (hk : 0 < k) (hk9 : k ≤ 9) (hn : n < 10 ^ k) (hb : Ends b) :
    scanFraction ('.' :: (padNum k n ++ b)) = some (n * 10 ^ (9 - k), b) := by
  rw [scanFraction, scanNum_append (padNum_digits k n)
    (by intro h; have := padNum_length k n; rw [h] at this; simp at this; omega)
    (Or.inr ⟨by rw [padNum_length]; exact hk9, fun c hc => (hb c hc).1⟩), digitsVal_padNum k n hn,
    Option.map_some]
  simp only [List.length_append, padNum_length, Nat.add_sub_cancel, dropWhile_ends hb]

theorem scanFraction_show {n : Nat} (h : n < 10 ^ 9) {b : Str} (hb : Ends b) :
    scanFraction (showFraction n ++ b) = some (n, b) := by
  unfold showFraction
  by_cases h0 : n = 0
  · subst h0
    rw [if_pos rfl, List.nil_append]
    cases b with
    | nil => rfl
    | cons c b =>
      unfold scanFraction
      split
      · rename_i heq; injection heq with h1 _; exact absurd h1 (hb c rfl).2
      · rfl
  · rw [if_neg h0]
    by_cases h1 : n % 1000000 = 0
    · rw [if_pos h1, List.cons_append, scanFraction_pad (by omega) (by omega) (by omega) hb]
      congr 2; omega
    · rw [if_neg h1]
      by_cases h2 : n % 1000 = 0
      · rw [if_pos h2, List.cons_append, scanFraction_pad (by omega) (by omega) (by omega) hb]
        congr 2; omega
      · rw [if_neg h2, List.cons_append, scanFraction_pad (by omega) (by omega) h hb]
        congr 2; omega

theorem scanExact_append {k : Nat} {a : Str} (hl : a.length = k) (ha : ∀ c ∈ a, isDigit c = true) (b : Str) :
    scanExact k (a ++ b) = some (digitsVal a, b) := by
  subst hl
  unfold scanExact
  rw [List.take_left, List.drop_left, if_pos ⟨rfl, by rw [List.all_eq_true]; exact ha⟩]

theorem scanExact_pad2 {n : Nat} (h : n < 100) (b : Str) : scanExact 2 (pad2 n ++ b) = some (n, b) := by
  obtain ⟨h1, h2⟩ := pad2_spec h
  rw [scanExact_append (k := 2) rfl h1, h2]

theorem scanDate_show {c : Civil} (hm : c.month < 100) (hd : c.day < 100) (b : Str) :
    scanDate (c.show ++ b) = some (c, b) := by
  unfold scanDate Civil.show
  rw [List.append_assoc, List.append_assoc, List.cons_append, scanYear_show]
  simp only [Option.bind_some]
  rw [show trimStart ('-' :: (pad2 c.month ++ ('-' :: pad2 c.day ++ b))) =
    '-' :: (pad2 c.month ++ ('-' :: pad2 c.day ++ b)) from trimStart_sign (Or.inl rfl)]
  simp only [scanChar, if_true, Option.bind_some]
  rw [scanItem_pad2 hm]
  simp only [Option.bind_some, List.cons_append]
  rw [trimStart_sign (Or.inl rfl)]
  simp only [if_true, Option.bind_some]
  rw [scanItem_pad2 hd]
  rfl

theorem trimStart_colon (s : Str) : trimStart (':' :: s) = ':' :: s := rfl

theorem scanTime_parts {h m x n : Nat} (hh : h < 100) (hm : m < 100) (hx : x < 100) (hn : n < 10 ^ 9)
    {b : Str} (hb : Ends b) :
    scanTime (pad2 h ++ ':' :: (pad2 m ++ ':' :: (pad2 x ++ (showFraction n ++ b)))) =
      some ((h, m, x, n), b) := by
  unfold scanTime
  rw [scanItem_pad2 hh]
  simp only [Option.bind_some, trimStart_colon, scanChar, if_true]
  rw [scanItem_pad2 hm]
  simp only [Option.bind_some, trimStart_colon, if_true]
  rw [scanItem_pad2 hx]
  simp only [Option.bind_some]
  rw [scanFraction_show hn hb, Option.map_some]

/-- One for a leap second. -/
def leapOf (nanos : Nat) : Nat := if 10 ^ 9 ≤ nanos then 1 else 0

theorem showClock_eq (clock nanos : Nat) (b : Str) : showClock clock nanos ++ b =
    pad2 (clock / 3600) ++ ':' :: (pad2 (clock / 60 % 60) ++ ':' :: (pad2 (clock % 60 + leapOf nanos) ++
      (showFraction (nanos - leapOf nanos * 10 ^ 9) ++ b))) := by
  unfold showClock
  rw [← leapOf]
  simp only [List.append_assoc, List.cons_append]

theorem leapOf_le (nanos : Nat) : leapOf nanos ≤ 1 := by unfold leapOf; split <;> omega

theorem leapOf_nanos {nanos : Nat} (h : nanos < 2 * 10 ^ 9) : nanos - leapOf nanos * 10 ^ 9 < 10 ^ 9 := by
  unfold leapOf; split <;> omega

/-- The parts of a time of day. -/
theorem scanTime_show {clock nanos : Nat} (hc : clock < 86400) (hn : nanos < 2 * 10 ^ 9) {b : Str}
    (hb : Ends b) :
    scanTime (showClock clock nanos ++ b) = some ((clock / 3600, clock / 60 % 60,
      clock % 60 + leapOf nanos, nanos - leapOf nanos * 10 ^ 9), b) := by
  have := leapOf_le nanos
  rw [showClock_eq]
  exact scanTime_parts (by omega) (by omega) (by omega) (leapOf_nanos hn) hb

theorem scanZone_minutes {sep : Str → Option Str}
    (hsep : ∀ m, m < 60 → sep (':' :: pad2 m) = some (pad2 m))
    (neg : Bool) {m : Nat} (h : m < 6000) :
    scanZone sep (showMinutes neg m) = some ((if neg then -1 else 1) * ((m * 60 : Nat) : Int), []) := by
  have hz : ∀ c : Char, c = '+' ∨ c = '-' → scanZone sep (c :: (pad2 (m / 60) ++ ':' :: pad2 (m % 60))) =
      some ((if c = '+' then 1 else -1) * ((m * 60 : Nat) : Int), []) := by
    intro c hc
    rw [scanZone, if_neg (by rcases hc with rfl | rfl <;> decide), if_pos (by rcases hc with rfl | rfl <;> decide),
      scanExact_pad2 (by omega)]
    simp only [Option.bind_some, hsep _ (show m % 60 < 60 by omega)]
    have := scanExact_pad2 (n := m % 60) (by omega) []
    rw [List.append_nil] at this
    rw [this]
    simp only [Option.bind_some]
    rw [if_pos (by omega)]
    congr 3
    omega
  cases neg with
  | false => exact hz '+' (Or.inl rfl)
  | true => exact hz '-' (Or.inr rfl)

theorem colonOrSpace_pad2 (m : Nat) (h : m < 60) : colonOrSpace (':' :: pad2 m) = some (pad2 m) := by
  unfold colonOrSpace
  have hd := (pad2_spec (n := m) (by omega)).1
  rw [List.dropWhile_cons, if_pos (by rfl)]
  congr 1
  unfold pad2 at *
  rw [List.dropWhile_cons, if_neg]
  have hc := hd (digitChar (m / 10)) (by simp)
  have hws : isWs (digitChar (m / 10)) = false := by
    unfold isDigit at hc
    unfold isWs
    simp only [Bool.and_eq_true, decide_eq_true_eq] at hc
    simp only [Bool.or_eq_false_iff, Bool.and_eq_false_iff, decide_eq_false_iff_not, beq_eq_false_iff_ne]
    omega
  rw [hws, Bool.or_false, beq_iff_eq]
  exact digit_ne hc (by decide)

end Firm
