import Verif.Lemmas.Text

/-!
# Lemmas on dates and times
-/

namespace Firm

/-! ## The calendar -/

/-- Shape of the date of a day number: the March-based year, month and day. -/
theorem civilOf_shape (n : Int) : ∃ (e : Int) (c q a mp d : Nat), c ≤ 3 ∧ q ≤ 24 ∧ a ≤ 3 ∧ mp ≤ 11 ∧
    n + 719468 = e * 146097 + (36524 * c + 1461 * q + 365 * a : Nat) + (daysBefore mp + d : Nat) ∧
    daysBefore mp + d ≤ 365 ∧ (daysBefore mp + d = 365 → a = 3 ∧ (q = 24 → c = 3)) ∧
    (mp ≠ 11 → daysBefore mp + d < daysBefore (mp + 1)) ∧
    civilOf n = ⟨e * 400 + (100 * c + 4 * q + a : Nat) + (if mp < 10 then 0 else 1),
      if mp < 10 then mp + 3 else mp - 9, d + 1⟩ := by
  generalize hz : n + 719468 = z
  have h0 : (z % 146097).toNat < 146097 := by omega
  have hzz : z = z / 146097 * 146097 + ((z % 146097).toNat : Int) := by omega
  generalize hdoe : (z % 146097).toNat = doe at *
  generalize hc : min (doe / 36524) 3 = c
  have hc3 : c ≤ 3 := by omega
  have hr1 : 36524 * c ≤ doe := by omega
  have hr1' : doe - 36524 * c ≤ 36524 := by omega
  have hr1'' : c < 3 → doe - 36524 * c < 36524 := by omega
  generalize hr : doe - 36524 * c = r1 at *
  generalize hq : r1 / 1461 = q
  have hq' : q ≤ 24 := by omega
  have hr2 : r1 - 1461 * q ≤ 1460 := by omega
  have hr3 : 1461 * q ≤ r1 := by omega
  have hr4 : q = 24 → c < 3 → r1 - 1461 * q < 1460 := by omega
  generalize hr2e : r1 - 1461 * q = r2 at *
  generalize ha : min (r2 / 365) 3 = a
  have ha3 : a ≤ 3 := by omega
  have hdoy : r2 - 365 * a ≤ 365 := by omega
  have hr5 : 365 * a ≤ r2 := by omega
  have hdoy' : r2 - 365 * a = 365 → a = 3 ∧ (q = 24 → c = 3) := by omega
  generalize hde : r2 - 365 * a = doy at *
  generalize hmp : (5 * doy + 2) / 153 = mp
  have hmp' : mp ≤ 11 := by omega
  have hdb : daysBefore mp ≤ doy := by unfold daysBefore; omega
  have hdb' : mp ≠ 11 → doy < daysBefore (mp + 1) := by unfold daysBefore; omega
  refine ⟨z / 146097, c, q, a, mp, doy - daysBefore mp, hc3, hq', ha3, hmp', ?_, ?_, ?_, ?_, ?_⟩
  · rw [Nat.add_sub_cancel' hdb]; omega
  · omega
  · rw [Nat.add_sub_cancel' hdb]; exact hdoy'
  · rw [Nat.add_sub_cancel' hdb]; exact hdb'
  · unfold civilOf
    simp only [hz, hdoe, hc, hr, hq, hr2e, ha, hde, hmp]
    by_cases h10 : mp < 10
    · simp only [h10, if_true]
      rw [if_neg (by omega)]
    · simp only [h10, if_false]
      rw [if_pos (by omega)]

theorem isLeap_iff (y : Int) : isLeap y = true ↔ y % 4 = 0 ∧ (y % 100 ≠ 0 ∨ y % 400 = 0) := by
  unfold isLeap; simp

theorem daysBefore_lt {mp : Nat} (h : mp < 11) (y : Int) :
   daysBefore (mp + 1) - daysBefore mp = daysInMonth y (if mp < 10 then mp + 3 else mp - 9) := by
  match mp, h with
  | 0, _ | 1, _ | 2, _ | 3, _ | 4, _ | 5, _ | 6, _ | 7, _ | 8, _ | 9, _ | 10, _ => simp [daysBefore, daysInMonth]

theorem civilOf_month (n : Int) : 1 ≤ (civilOf n).month ∧ (civilOf n).month ≤ 12 := by
  obtain ⟨e, c, q, a, mp, d, -, -, -, h4, -, -, -, -, h9⟩ := civilOf_shape n
  rw [h9]; simp only
  split <;> omega

theorem civilOf_day (n : Int) :
    1 ≤ (civilOf n).day ∧ (civilOf n).day ≤ daysInMonth (civilOf n).year (civilOf n).month := by
  obtain ⟨e, c, q, a, mp, d, h1, h2, h3, h4, h5, h6, h7, h8, h9⟩ := civilOf_shape n
  rw [h9]; simp only
  refine ⟨by omega, ?_⟩
  by_cases hmp : mp = 11
  · subst hmp
    simp only [show ¬ (11 < 10) by omega, if_false, daysInMonth]
    simp only [daysBefore] at h6 h7
    simp only [Nat.reduceSub, if_true]
    by_cases hd : d = 28
    · have := h7 (by omega)
      rw [if_pos (by rw [isLeap_iff]; omega), hd]; omega
    · split <;> omega
  · rw [← daysBefore_lt (by omega)]
    have := h8 hmp; omega

theorem toDays_civilOf (n : Int) : (civilOf n).toDays = n := by
  obtain ⟨e, c, q, a, mp, d, h1, h2, h3, h4, h5, h6, h7, h8, h9⟩ := civilOf_shape n
  rw [h9]; unfold Civil.toDays
  have hy : ∀ x : Int, x = e * 400 + (100 * c + 4 * q + a : Nat) →
      365 * x + x / 4 - x / 100 + x / 400 + (daysBefore mp : Nat) + ((d + 1 : Nat) : Int) - 719469 = n := by
    intro x hx
    have e4 : x / 4 = e * 100 + 25 * c + q := by omega
    have e100 : x / 100 = e * 4 + c := by omega
    have e400 : x / 400 = e := by omega
    rw [e4, e100, e400, hx]; omega
  by_cases h10 : mp < 10
  · simp only [h10, if_true, show ¬ (mp + 3 ≤ 2) by omega, if_false, Nat.add_sub_cancel]
    exact hy _ (by omega)
  · simp only [h10, if_false, show mp - 9 ≤ 2 by omega, if_true, show mp - 9 + 9 = mp by omega]
    exact hy _ (by omega)

/-! ## Texts -/

theorem trimStart_digit {c : Char} {s : Str} (h : isDigit c = true) : trimStart (c :: s) = c :: s := by
  have : isWs c = false := by
    unfold isDigit at h
    unfold isWs
    simp only [Bool.and_eq_true, decide_eq_true_eq] at h
    simp only [Bool.or_eq_false_iff, Bool.and_eq_false_iff, decide_eq_false_iff_not, beq_eq_false_iff_ne]
    omega
  simp [trimStart, this]

theorem takeWhile_digits {a b : Str} (ha : ∀ c ∈ a, isDigit c = true)
    (hb : ∀ c, b.head? = some c → isDigit c = false) : (a ++ b).takeWhile isDigit = a := by
  induction a with
  | nil =>
    cases b with
    | nil => rfl
    | cons c b => simp [hb c rfl]
  | cons c a ih =>
    simp only [List.cons_append, List.takeWhile_cons, ha c (by simp), if_true]
    rw [ih fun d hd => ha d (by simp [hd])]

/-- A number of exactly the greatest admitted width, or followed by something else. -/
theorem scanNum_append {max : Nat} {a b : Str} (ha : ∀ c ∈ a, isDigit c = true) (hne : a ≠ [])
    (hlen : a.length = max ∨ (a.length ≤ max ∧ ∀ c, b.head? = some c → isDigit c = false)) :
    scanNum max (a ++ b) = some (digitsVal a, b) := by
  have hds : ((a ++ b).take max).takeWhile isDigit = a := by
    rcases hlen with h | ⟨h1, h2⟩
    · subst h
      rw [List.take_left]
      simpa using takeWhile_digits (b := []) ha (by simp)
    · rw [List.take_append, List.take_of_length_le h1]
      apply takeWhile_digits ha
      intro c hc
      apply h2 c
      cases b with
      | nil => simp at hc
      | cons d b =>
        cases hk : max - a.length with
        | zero => simp [hk] at hc
        | succ k => simpa [hk] using hc
  unfold scanNum
  simp only [hds, List.isEmpty_iff, hne, if_false, List.drop_left]

theorem pad2_spec {n : Nat} (h : n < 100) : (∀ c ∈ pad2 n, isDigit c = true) ∧ digitsVal (pad2 n) = n := by
  have h1 : n / 10 < 10 := by omega
  have h2 : n % 10 < 10 := by omega
  constructor
  · intro c hc
    simp only [pad2, List.mem_cons, List.not_mem_nil, or_false] at hc
    rcases hc with rfl | rfl
    · exact isDigit_digitChar h1
    · exact isDigit_digitChar h2
  · simp only [pad2, digitsVal, List.foldl_cons, List.foldl_nil, digitVal_digitChar h1, digitVal_digitChar h2]
    omega

theorem scanItem_pad2 {n : Nat} (h : n < 100) (b : Str) : scanItem 2 (pad2 n ++ b) = some (n, b) := by
  obtain ⟨h1, h2⟩ := pad2_spec h
  have : trimStart (pad2 n ++ b) = pad2 n ++ b := by
    unfold pad2
    exact trimStart_digit (h1 _ (by simp [pad2]))
  unfold scanItem
  rw [this, scanNum_append (max := 2) h1 (by simp [pad2]) (Or.inl rfl), h2]

theorem pad4_spec (n : Nat) : (∀ c ∈ pad4 n, isDigit c = true) ∧ digitsVal (pad4 n) = n ∧ pad4 n ≠ [] ∧
    (n < 10000 → (pad4 n).length = 4) := by
  unfold pad4
  by_cases h : n < 10000
  · rw [if_pos h]
    obtain ⟨h1, h2⟩ := pad2_spec (n := n / 100) (by omega)
    obtain ⟨h3, h4⟩ := pad2_spec (n := n % 100) (by omega)
    refine ⟨?_, ?_, by simp [pad2], fun _ => rfl⟩
    · intro c hc
      rcases List.mem_append.1 hc with hc | hc
      · exact h1 c hc
      · exact h3 c hc
    · rw [digitsVal_append, h2, h4]
      simp only [pad2, List.length_cons, List.length_nil]; omega
  · rw [if_neg h]
    exact ⟨showNat_digits n, digitsVal_showNat n, showNat_ne_nil n, fun h' => absurd h' h⟩

theorem trimStart_sign {c : Char} {s : Str} (h : c = '-' ∨ c = '+') : trimStart (c :: s) = c :: s := by
  rcases h with rfl | rfl <;> rfl

theorem scanYear_show (y : Int) (b : Str) : scanYear (showYear y ++ '-' :: b) = some (y, '-' :: b) := by
  have hb : ∀ c, ('-' :: b).head? = some c → isDigit c = false := by
    intro c hc; injection hc with hc; subst hc; rfl
  unfold showYear
  by_cases hy : 0 ≤ y ∧ y ≤ 9999
  · rw [if_pos hy]
    obtain ⟨h1, h2, h3, h4⟩ := pad4_spec y.toNat
    have h4 := h4 (by omega)
    generalize pad4 y.toNat = a at *
    cases a with
    | nil => exact absurd rfl h3
    | cons c a =>
      have hc := h1 c (by simp)
      unfold scanYear
      rw [List.cons_append, trimStart_digit hc]
      have n1 : c ≠ '-' := digit_ne hc (by decide)
      have n2 : c ≠ '+' := digit_ne hc (by decide)
      split
      · rename_i heq; injection heq with h; exact absurd h n1
      · rename_i heq; injection heq with h; exact absurd h n2
      · rw [← List.cons_append, scanNum_append h1 h3 (Or.inl h4), h2, Option.map_some]
        congr 2; omega
  · rw [if_neg hy]
    obtain ⟨h1, h2, h3, -⟩ := pad4_spec y.natAbs
    by_cases hn : y < 0
    · rw [if_pos hn]
      unfold scanYear
      rw [List.cons_append, trimStart_sign (Or.inl rfl)]
      simp only
      rw [scanNum_append h1 h3 (Or.inr ⟨by simp, hb⟩), h2, Option.map_some]
      congr 2; omega
    · rw [if_neg hn]
      unfold scanYear
      rw [List.cons_append, trimStart_sign (Or.inr rfl)]
      simp only
      rw [scanNum_append h1 h3 (Or.inr ⟨by simp, hb⟩), h2, Option.map_some]
      congr 2; omega

theorem daysInMonth_le (y : Int) (m : Nat) : daysInMonth y m ≤ 31 := by
  unfold daysInMonth; split
  · split <;> omega
  · split <;> omega

theorem parseCivil_show {c : Civil} (h : c.valid = true) : parseCivil c.show = some c.toDays := by
  have hv := h
  unfold Civil.valid at hv
  simp only [Bool.and_eq_true, decide_eq_true_eq] at hv
  have hd := daysInMonth_le c.year c.month
  unfold parseCivil Civil.show
  rw [List.append_assoc, List.cons_append, scanYear_show]
  simp only [Option.bind_some, scanChar, if_true]
  rw [scanItem_pad2 (by omega)]
  simp only [Option.bind_some, scanChar, List.cons_append, List.nil_append, if_true]
  have := scanItem_pad2 (n := c.day) (by omega) []
  rw [List.append_nil] at this
  rw [this]
  simp [h]

theorem parseTime_show {m : Nat} (h : m < 1440) : parseTime (showTime m) = some m := by
  unfold parseTime showTime
  rw [scanItem_pad2 (by omega)]
  simp only [Option.bind_some, scanChar, if_true]
  have := scanItem_pad2 (n := m % 60) (by omega) []
  rw [List.append_nil] at this
  rw [this]
  simp only [Option.bind_some, true_and]
  rw [if_pos ⟨by omega, by omega⟩]
  congr 1; omega

theorem mem_showYear {y : Int} {c : Char} (h : c ∈ showYear y) : c = '-' ∨ c = '+' ∨ isDigit c = true := by
  unfold showYear at h
  split at h
  · exact Or.inr (Or.inr ((pad4_spec _).1 c h))
  · rcases List.mem_cons.1 h with h | h
    · split at h
      · exact Or.inl h
      · exact Or.inr (Or.inl h)
    · exact Or.inr (Or.inr ((pad4_spec _).1 c h))

theorem mem_civil_show {c : Civil} (hm : c.month < 100) (hd : c.day < 100) {x : Char} (h : x ∈ c.show) :
    x = '-' ∨ x = '+' ∨ isDigit x = true := by
  unfold Civil.show at h
  simp only [List.mem_append, List.mem_cons] at h
  rcases h with (h | h | h) | h | h
  · exact mem_showYear h
  · exact Or.inl h
  · exact Or.inr (Or.inr ((pad2_spec hm).1 x h))
  · exact Or.inl h
  · exact Or.inr (Or.inr ((pad2_spec hd).1 x h))

theorem mem_showTime {m : Nat} (h : m < 1440) {x : Char} (hx : x ∈ showTime m) : x = ':' ∨ isDigit x = true := by
  unfold showTime at hx
  simp only [List.mem_append, List.mem_cons] at hx
  rcases hx with hx | hx | hx
  · exact Or.inr ((pad2_spec (by omega)).1 x hx)
  · exact Or.inl hx
  · exact Or.inr ((pad2_spec (by omega)).1 x hx)

/-! ## Splitting at a text -/

theorem startsWith_mem {s p : Str} (h : startsWith s p = true) : ∀ c ∈ p, c ∈ s := by
  unfold startsWith at h
  obtain ⟨r, rfl⟩ := List.isPrefixOf_iff_prefix.1 h
  intro c hc; simp [hc]

theorem splitStr_none {sep s : Str} {c : Char} (hc : c ∈ sep) (h : c ∉ s) : splitStr sep s = [s] := by
  unfold splitStr
  induction s with
  | nil => rfl
  | cons d s ih =>
    have hn : ¬ startsWith (d :: s) sep = true := fun hs => h (startsWith_mem hs c hc)
    simp only [splitStrGo, hn, if_false, ih (fun hm => h (by simp [hm]))]
    rfl

theorem splitStrGo_skip (sep a b : Str) : splitStrGo sep a.length (a ++ b) = splitStrGo sep 0 b := by
  induction a with
  | nil => rfl
  | cons c a ih => simp only [List.length_cons, List.cons_append, splitStrGo, ih]

theorem replaceGo_skip (pat rep a b : Str) : replaceGo pat rep a.length (a ++ b) = replaceGo pat rep 0 b := by
  induction a with
  | nil => rfl
  | cons c a ih => rw [List.length_cons, List.cons_append, replaceGo, ih]

theorem splitStr_append {x : Char} {sep a : Str} (b : Str) (h : x ∉ a) :
    splitStr (x :: sep) (a ++ (x :: sep) ++ b) = a :: splitStr (x :: sep) b := by
  unfold splitStr
  induction a with
  | nil =>
    simp only [List.nil_append, List.cons_append, splitStrGo]
    rw [if_pos]
    · simp only [List.length_cons, Nat.add_sub_cancel, splitStrGo_skip]
    · unfold startsWith
      rw [List.isPrefixOf_iff_prefix]
      exact ⟨b, rfl⟩
  | cons d a ih =>
    simp only [List.mem_cons, not_or] at h
    have hn : ¬ startsWith (d :: (a ++ (x :: sep) ++ b)) (x :: sep) = true := by
      intro hs
      unfold startsWith at hs
      simp only [List.isPrefixOf, Bool.and_eq_true, beq_iff_eq] at hs
      exact h.1 hs.1
    simp only [List.cons_append] at hn ih ⊢
    simp only [splitStrGo, hn, if_false, ih h.2]
    rfl

theorem strContains_append (a p b : Str) : strContains (a ++ p ++ b) p = true := by
  induction a with
  | nil =>
    rw [List.nil_append]
    cases hp : p ++ b with
    | nil =>
      obtain ⟨rfl, rfl⟩ := List.append_eq_nil_iff.1 hp
      rfl
    | cons c s =>
      unfold strContains
      rw [← hp]
      have : startsWith (p ++ b) p = true := by
        unfold startsWith; rw [List.isPrefixOf_iff_prefix]; exact ⟨b, rfl⟩
      rw [this]; rfl
  | cons c a ih =>
    simp only [List.cons_append, strContains, ih, Bool.or_true]

end Firm
