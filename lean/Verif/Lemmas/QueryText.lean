import Verif.Spec.QueryText

/-!
# Reading back the words of the query language
-/

namespace Firm

open Spec

/-- The text does not begin with a character of the class. -/
def Stops (p : Char → Bool) (r : Str) : Prop := ∀ c, r.head? = some c → p c = false

theorem stops_nil (p : Char → Bool) : Stops p [] := by intro c h; cases h

theorem stops_cons {p : Char → Bool} {c : Char} {r : Str} (h : p c = false) : Stops p (c :: r) := by
  intro d hd; cases hd; exact h

theorem span_stop {p : Char → Bool} {a r : Str} (ha : ∀ c ∈ a, p c = true) (hr : Stops p r) :
    (a ++ r).takeWhile p = a ∧ (a ++ r).dropWhile p = r := by
  induction a with
  | nil =>
    cases r with
    | nil => exact ⟨rfl, rfl⟩
    | cons c r =>
      have := hr c rfl
      simp [this]
  | cons c a ih =>
    have hc := ha c (by simp)
    have := ih (fun d hd => ha d (by simp [hd]))
    simp [hc, this.1, this.2]

theorem mem_takeWhile_true {p : Char → Bool} {s : Str} {c : Char} (h : c ∈ s.takeWhile p) :
    p c = true := by
  induction s with
  | nil => cases h
  | cons d s ih =>
    rw [List.takeWhile_cons] at h
    split at h
    · rcases List.mem_cons.mp h with rfl | h
      · assumption
      · exact ih h
    · cases h

theorem stops_dropWhile (p : Char → Bool) (s : Str) : Stops p (s.dropWhile p) := by
  induction s with
  | nil => exact stops_nil p
  | cons d s ih =>
    rw [List.dropWhile_cons]
    split
    · exact ih
    · next h => exact stops_cons (by simpa using h)

theorem qSkip_stops {s : Str} (h : Stops qWs s) : qSkip s = s := by
  have := (span_stop (a := []) (by simp) h).2
  simpa [qSkip] using this

theorem qSkip_cons_ws {c : Char} {s : Str} (h : qWs c = true) : qSkip (c :: s) = qSkip s := by
  simp [qSkip, h]

theorem qSkip_space (s : Str) : qSkip (' ' :: s) = qSkip s := qSkip_cons_ws (by decide)

theorem qSkip_line (s : Str) : qSkip ('\n' :: s) = qSkip s := qSkip_cons_ws (by decide)

theorem qSkip_of {c : Char} {s : Str} (h : qWs c = false) : qSkip (c :: s) = c :: s :=
  qSkip_stops (stops_cons h)

theorem qSkip_length (s : Str) : (qSkip s).length ≤ s.length := by
  unfold qSkip
  exact List.IsSuffix.length_le (List.dropWhile_suffix _)

theorem qLit_append (k r : Str) : qLit k (k ++ r) = some r := by
  simp [qLit]

theorem qLit_eq {k s r : Str} (h : qLit k s = some r) : s = k ++ r := by
  unfold qLit at h
  split at h
  · next hp =>
    cases h
    rw [List.isPrefixOf_iff_prefix] at hp
    obtain ⟨t, rfl⟩ := hp
    simp
  · cases h

/-! ## Classes of characters -/

theorem digit_identChar {c : Char} (h : isDigit c = true) : identChar c = true := by
  simp [identChar, h]

theorem alpha_identChar {c : Char} (h : qAlpha c = true) : identChar c = true := by
  simp [identChar, h]

theorem start_identChar {c : Char} (h : identStart c = true) : identChar c = true := by
  unfold identStart at h
  unfold identChar
  rcases Bool.or_eq_true_iff.mp h with h | h <;> simp [h]

theorem identChar_not_ws {c : Char} (h : identChar c = true) : qWs c = false := by
  cases hw : qWs c with
  | false => rfl
  | true =>
    simp only [qWs, Bool.or_eq_true, beq_iff_eq] at hw
    rcases hw with (rfl | rfl) | rfl <;> revert h <;> decide

theorem start_not_digit {c : Char} (h : identStart c = true) : isDigit c = false := by
  cases hw : isDigit c with
  | false => rfl
  | true =>
    exfalso
    simp only [isDigit, Bool.and_eq_true, decide_eq_true_eq] at hw
    simp only [identStart, qAlpha, Char.isUpper, Char.isLower, Bool.or_eq_true, beq_iff_eq,
      Bool.and_eq_true, decide_eq_true_eq, ge_iff_le, UInt32.le_iff_toNat_le] at h
    have h1 : (65 : UInt32).toNat = 65 := rfl
    have h3 : (97 : UInt32).toNat = 97 := rfl
    have hv : c.val.toNat = c.toNat := rfl
    rcases h with (h | h) | h
    · have := h.1
      change 65 ≤ c.val.toNat at this
      omega
    · have := h.1
      change 97 ≤ c.val.toNat at this
      omega
    · subst h; revert hw; decide

/-! ## Identifiers -/

theorem ident_head {s : Str} (h : IsIdent s) : ∃ c cs, s = c :: cs ∧ identStart c = true := by
  obtain ⟨c, cs, rfl, hc, -⟩ := h
  exact ⟨c, cs, rfl, hc⟩

theorem qIdent_show {s r : Str} (h : IsIdent s) (hr : Stops identChar r) :
    qIdent (s ++ r) = some (s, r) := by
  obtain ⟨c, cs, rfl, hc, hcs⟩ := h
  have := span_stop hcs hr
  simp [qIdent, hc, this.1, this.2]

theorem qIdent_sound {s t r : Str} (h : qIdent s = some (t, r)) :
    IsIdent t ∧ s = t ++ r ∧ Stops identChar r := by
  cases s with
  | nil => cases h
  | cons c s =>
    simp only [qIdent] at h
    split at h
    · next hc =>
      cases h
      exact ⟨⟨c, _, rfl, hc, fun d hd => mem_takeWhile_true hd⟩,
        by simp [List.takeWhile_append_dropWhile], stops_dropWhile _ _⟩
    · cases h

theorem qIdent_none {s : Str} (h : Stops identStart s) : qIdent s = none := by
  cases s with
  | nil => rfl
  | cons c s => simp [qIdent, h c rfl]

/-! ## Numbers -/

theorem digits_head {ds r : Str} (h : IsDigits ds) : ∃ c cs, ds ++ r = c :: cs ∧ isDigit c = true := by
  obtain ⟨hne, hd⟩ := h
  cases ds with
  | nil => exact absurd rfl hne
  | cons c cs => exact ⟨c, cs ++ r, rfl, hd c (by simp)⟩

theorem digit_ne_minus {c : Char} (h : isDigit c = true) : c ≠ '-' := by
  rintro rfl; revert h; decide

theorem qSign_digits {ds r : Str} (h : IsDigits ds) : qSign (ds ++ r) = ([], ds ++ r) := by
  obtain ⟨c, cs, hc, hd⟩ := digits_head (r := r) h
  rw [hc]
  have := digit_ne_minus hd
  unfold qSign
  split
  · next heq => cases heq; exact absurd rfl this
  · rfl

theorem qFraction_stops {r : Str} (h : Stops (· == '.') r) : qFraction r = ([], r) := by
  unfold qFraction
  split
  · exact absurd (h '.' rfl) (by decide)
  · rfl

theorem qFraction_show {fs r : Str} (h : IsDigits fs) (hr : Stops isDigit r) :
    qFraction ('.' :: fs ++ r) = ('.' :: fs, r) := by
  have := span_stop h.2 hr
  simp [qFraction, this.1, this.2, h.1]

theorem stops_or_left {p q : Char → Bool} {r : Str} (h : Stops (fun c => p c || q c) r) :
    Stops p r := fun c hc => (Bool.or_eq_false_iff.mp (h c hc)).1

theorem stops_or_right {p q : Char → Bool} {r : Str} (h : Stops (fun c => p c || q c) r) :
    Stops q r := fun c hc => (Bool.or_eq_false_iff.mp (h c hc)).2

theorem qNumber_show {t r : Str} (h : IsNumberText t) (hd : Stops isDigit r)
    (hp : Stops (· == '.') r) : qNumber (t ++ r) = some (t, r) := by
  obtain ⟨sg, ds, fr, rfl, hsg, hds, hfr⟩ := h
  have hsign : qSign (sg ++ ds ++ fr ++ r) = (sg, ds ++ (fr ++ r)) := by
    rcases hsg with rfl | rfl
    · have := qSign_digits (r := fr ++ r) hds
      simpa using this
    · simp [qSign]
  have hrest : Stops isDigit (fr ++ r) ∧ qFraction (fr ++ r) = (fr, r) := by
    rcases hfr with rfl | ⟨fs, rfl, hfs⟩
    · exact ⟨hd, qFraction_stops hp⟩
    · exact ⟨stops_cons (by decide), qFraction_show hfs hd⟩
  have hspan := span_stop hds.2 hrest.1
  unfold qNumber
  simp only [hsign, hspan.1, hspan.2, hrest.2, hds.1, if_false]

theorem qFraction_sound (s : Str) :
    ((qFraction s).1 = [] ∨ ∃ fs, (qFraction s).1 = '.' :: fs ∧ IsDigits fs) ∧
      s = (qFraction s).1 ++ (qFraction s).2 := by
  unfold qFraction
  split
  · next r =>
    split
    · exact ⟨.inl rfl, rfl⟩
    · next h =>
      exact ⟨.inr ⟨_, rfl, h, fun d hd => mem_takeWhile_true hd⟩,
        by simp [List.takeWhile_append_dropWhile]⟩
  · exact ⟨.inl rfl, rfl⟩

theorem qSign_sound (s : Str) :
    ((qSign s).1 = [] ∨ (qSign s).1 = ['-']) ∧ s = (qSign s).1 ++ (qSign s).2 := by
  unfold qSign
  split <;> simp

theorem qNumber_sound {s t r : Str} (h : qNumber s = some (t, r)) : IsNumberText t ∧ s = t ++ r := by
  unfold qNumber at h
  simp only at h
  split at h
  · cases h
  · next hne =>
    cases h
    have h1 := qSign_sound s
    have h2 := qFraction_sound ((qSign s).2.dropWhile isDigit)
    refine ⟨⟨_, _, _, rfl, h1.1, ⟨hne, fun d hd => mem_takeWhile_true hd⟩, h2.1⟩, ?_⟩
    rw [List.append_assoc, ← h2.2, List.append_assoc, List.takeWhile_append_dropWhile, ← h1.2]

theorem number_head {t : Str} (h : IsNumberText t) :
    ∃ c cs, t = c :: cs ∧ (isDigit c = true ∨ c = '-') := by
  obtain ⟨sg, ds, fr, rfl, hsg, hds, -⟩ := h
  obtain ⟨c, cs, hc, hd⟩ := digits_head (r := fr) hds
  rcases hsg with rfl | rfl
  · exact ⟨c, cs, by simpa using hc, .inl hd⟩
  · exact ⟨'-', ds ++ fr, by simp, .inr rfl⟩

theorem qNumber_none {s : Str} (h : Stops (fun c => isDigit c || c == '-') s) : qNumber s = none := by
  have hs : qSign s = ([], s) := by
    unfold qSign
    split
    · exact absurd (h '-' rfl) (by decide)
    · rfl
  have := (span_stop (a := []) (by simp) (stops_or_left h)).1
  unfold qNumber
  simp only [hs]
  rw [if_pos (by simpa using this)]

/-! ## Fixed counts -/

theorem qCount_show {p : Char → Bool} {n : Nat} {s r : Str} (hl : s.length = n)
    (h : ∀ c ∈ s, p c = true) : qCount p n (s ++ r) = some (s, r) := by
  subst hl
  simpa [qCount] using h

theorem qCount_sound {p : Char → Bool} {n : Nat} {s t r : Str} (h : qCount p n s = some (t, r)) :
    t.length = n ∧ (∀ c ∈ t, p c = true) ∧ s = t ++ r := by
  unfold qCount at h
  split at h
  · next hc =>
    cases h
    exact ⟨hc.1, by simpa using hc.2, by simp⟩
  · cases h

theorem qCount_none {p : Char → Bool} {n : Nat} {s : Str} (hn : 0 < n) (h : Stops p s) :
    qCount p n s = none := by
  cases hq : qCount p n s with
  | none => rfl
  | some x =>
    obtain ⟨t, r⟩ := x
    obtain ⟨hl, ht, rfl⟩ := qCount_sound hq
    cases t with
    | nil => simp at hl; omega
    | cons c t => exact absurd (h c rfl) (by simp [ht c (by simp)])

/-! ## Currency codes -/

theorem qLitI_isSome (k s : Str) : (qLitI k s).isSome = true ↔ (s.take k.length).map lowerAscii = k := by
  unfold qLitI
  split <;> simp_all

theorem qCode_show {c r : Str} (h : IsCode c) : qCode (c ++ r) = some (c, r) := by
  obtain ⟨hl, ha, hand, hor⟩ := h
  have h1 : (qLitI "and".toList (c ++ r)).isSome = false := by
    rw [Bool.eq_false_iff, Ne, qLitI_isSome]
    have : (c ++ r).take ("and".toList).length = c := by
      show (c ++ r).take 3 = c
      rw [List.take_append_of_le_length (by omega), List.take_of_length_le (by omega)]
    rw [this]; exact hand
  have h2 : (qLitI "or".toList (c ++ r)).isSome = false := by
    rw [Bool.eq_false_iff, Ne, qLitI_isSome]
    have : (c ++ r).take ("or".toList).length = c.take 2 := by
      show (c ++ r).take 2 = _
      rw [List.take_append_of_le_length (by omega)]
    rw [this]; exact hor
  unfold qCode
  rw [h1, h2]
  exact qCount_show hl ha

theorem qCode_sound {s c r : Str} (h : qCode s = some (c, r)) : IsCode c ∧ s = c ++ r := by
  unfold qCode at h
  split at h
  · cases h
  · next hk =>
    obtain ⟨hl, ha, rfl⟩ := qCount_sound h
    simp only [Bool.or_eq_true, not_or, qLitI_isSome] at hk
    refine ⟨⟨hl, ha, ?_, ?_⟩, rfl⟩
    · intro e
      apply hk.1
      rw [show ("and".toList).length = 3 from rfl, List.take_append_of_le_length (by omega),
        List.take_of_length_le (by omega)]
      exact e
    · intro e
      apply hk.2
      rw [show ("or".toList).length = 2 from rfl, List.take_append_of_le_length (by omega)]
      exact e

theorem code_head {c : Str} (h : IsCode c) : ∃ d cs, c = d :: cs ∧ qAlpha d = true := by
  obtain ⟨hl, ha, -, -⟩ := h
  cases c with
  | nil => cases hl
  | cons d cs => exact ⟨d, cs, rfl, ha d (by simp)⟩

theorem qCode_none {s : Str} (h : Stops qAlpha s) : qCode s = none := by
  unfold qCode
  split
  · rfl
  · exact qCount_none (by omega) h

theorem qCurrency_show {t c r : Str} (ht : IsNumberText t) (hc : IsCode c) :
    qCurrency (t ++ ' ' :: c ++ r) = some ((t, c), r) := by
  have h1 : qNumber (t ++ (' ' :: c ++ r)) = some (t, ' ' :: c ++ r) :=
    qNumber_show ht (stops_cons (by decide)) (stops_cons (by decide))
  obtain ⟨d, cs, rfl, hd⟩ := code_head hc
  have h2 : qSkip (' ' :: (d :: cs) ++ r) = (d :: cs) ++ r := by
    rw [List.cons_append, qSkip_space]
    exact qSkip_of (identChar_not_ws (alpha_identChar hd))
  rw [List.append_assoc]
  unfold qCurrency
  rw [h1]
  simp only
  rw [h2, qCode_show hc]

theorem qCurrency_sound {s t c r : Str} (h : qCurrency s = some ((t, c), r)) :
    IsNumberText t ∧ IsCode c ∧ r.length < s.length := by
  unfold qCurrency at h
  split at h
  · cases h
  · next n r0 hn =>
    split at h
    · cases h
    · next c r1 hc =>
      cases h
      obtain ⟨h1, e1⟩ := qNumber_sound hn
      obtain ⟨h2, e2⟩ := qCode_sound hc
      refine ⟨h1, h2, ?_⟩
      have l1 := congrArg List.length e1
      have l2 := congrArg List.length e2
      have l3 := qSkip_length r0
      have l4 := h2.1
      simp only [List.length_append] at l1 l2
      omega

theorem qCurrency_none_of_number {s : Str} (h : Stops (fun c => isDigit c || c == '-') s) :
    qCurrency s = none := by
  unfold qCurrency
  rw [qNumber_none h]

/-! ## Dates -/

theorem qDate_show {d r : Str} (h : IsDate d) : qDate (d ++ r) = some (d, r) := by
  obtain ⟨y, m, dd, hy, hm, hd, rfl⟩ := h
  have e : (y ++ '-' :: m ++ '-' :: dd) ++ r = y ++ (['-'] ++ (m ++ (['-'] ++ (dd ++ r)))) := by simp
  rw [e]
  unfold qDate
  simp only [qCount_show hy.1 hy.2, qLit_append, qCount_show hm.1 hm.2, qCount_show hd.1 hd.2]

theorem qDate_sound {s d r : Str} (h : qDate s = some (d, r)) : IsDate d ∧ s = d ++ r := by
  unfold qDate at h
  split at h
  · cases h
  next y r0 h0 =>
  split at h
  · cases h
  next r1 h1 =>
  split at h
  · cases h
  next m r2 h2 =>
  split at h
  · cases h
  next r3 h3 =>
  split at h
  · cases h
  next dd r4 h4 =>
  cases h
  obtain ⟨a1, a2, rfl⟩ := qCount_sound h0
  have := qLit_eq h1; subst this
  obtain ⟨b1, b2, rfl⟩ := qCount_sound h2
  have := qLit_eq h3; subst this
  obtain ⟨c1, c2, rfl⟩ := qCount_sound h4
  exact ⟨⟨y, m, dd, ⟨a1, a2⟩, ⟨b1, b2⟩, ⟨c1, c2⟩, rfl⟩, by simp⟩

theorem qDateTime_none {s : Str} (h : Stops isDigit s) : qDateTime s = none := by
  unfold qDateTime qDate
  rw [qCount_none (by omega) h]

/-- A number is not the beginning of a day. -/
theorem qDate_number {t r : Str} (h : IsNumberText t) (hd : Stops (fun c => isDigit c || c == '-') r) :
    qDate (t ++ r) = none := by
  cases hq : qDate (t ++ r) with
  | none => rfl
  | some x =>
    exfalso
    obtain ⟨d, r'⟩ := x
    obtain ⟨⟨y, m, dd, hy, -, -, rfl⟩, e⟩ := qDate_sound hq
    obtain ⟨sg, ds, fr, rfl, hsg, hds, hfr⟩ := h
    -- the sign is empty, because a year starts with a digit
    have hy4 := hy.1
    obtain ⟨y0, y1, y2, y3, rfl⟩ : ∃ y0 y1 y2 y3, y = [y0, y1, y2, y3] := by
      match y, hy4 with
      | [a, b, c, d], _ => exact ⟨a, b, c, d, rfl⟩
    have hy0 := hy.2 y0 (by simp)
    rcases hsg with rfl | rfl
    · -- the minus after the year would be inside the number or right after it
      have hmem : ∀ (k : Nat) (ds : Str) , (∀ c ∈ ds, isDigit c = true) →
          ∀ (y z : Str), y.length = k → (∀ c ∈ y, isDigit c = true) →
          ds ++ (fr ++ r) = y ++ '-' :: z → False := by
        intro k
        induction k with
        | zero =>
          intro ds hds y z hy _ e
          have : y = [] := List.length_eq_zero_iff.mp hy
          subst this
          cases ds with
          | nil =>
            rcases hfr with rfl | ⟨fs, rfl, -⟩
            · simp only [List.nil_append] at e
              have := hd '-' (by rw [e]; rfl)
              revert this; decide
            · simp at e
          | cons a ds =>
            simp only [List.cons_append, List.nil_append, List.cons.injEq] at e
            exact digit_ne_minus (hds a (by simp)) e.1
        | succ k ih =>
          intro ds hds y z hy hyd e
          cases y with
          | nil => cases hy
          | cons a y =>
            cases ds with
            | nil =>
              rcases hfr with rfl | ⟨fs, rfl, hfs⟩
              · simp only [List.nil_append] at e
                have := stops_or_left hd a (by rw [e]; rfl)
                rw [hyd a (by simp)] at this; cases this
              · simp only [List.nil_append, List.cons_append, List.cons.injEq] at e
                have := hyd a (by simp)
                rw [← e.1] at this; revert this; decide
            | cons b ds =>
              simp only [List.cons_append, List.cons.injEq] at e
              exact ih ds (fun c hc => hds c (by simp [hc])) y z (by simpa using hy)
                (fun c hc => hyd c (by simp [hc])) e.2
      exact hmem 4 ds hds.2 [y0, y1, y2, y3] (m ++ '-' :: dd ++ r') rfl hy.2 (by simpa using e)
    · simp only [List.cons_append, List.nil_append, List.cons.injEq] at e
      exact digit_ne_minus hy0 e.1.symm

theorem qTime_show {t r : Str} (h : IsTime t) : qTime (t ++ r) = some (t, r) := by
  obtain ⟨hh, m, h1, h2, rfl⟩ := h
  have e : (" at ".toList ++ hh ++ ':' :: m) ++ r = " at ".toList ++ (hh ++ ([':'] ++ (m ++ r))) := by
    simp
  rw [e]
  unfold qTime
  simp only [qLit_append, qCount_show h1.1 h1.2, qCount_show h2.1 h2.2]

theorem qTime_sound {s t r : Str} (h : qTime s = some (t, r)) : IsTime t ∧ s = t ++ r := by
  unfold qTime at h
  split at h
  · cases h
  next r0 h0 =>
  split at h
  · cases h
  next hh r1 h1 =>
  split at h
  · cases h
  next r2 h2 =>
  split at h
  · cases h
  next m r3 h3 =>
  cases h
  have := qLit_eq h0; subst this
  obtain ⟨b1, b2, rfl⟩ := qCount_sound h1
  have := qLit_eq h2; subst this
  obtain ⟨c1, c2, rfl⟩ := qCount_sound h3
  exact ⟨⟨hh, m, ⟨b1, b2⟩, ⟨c1, c2⟩, rfl⟩, by simp⟩

theorem qZone_show {z r : Str} (hz : z ≠ []) (ha : ∀ c ∈ z, qAlpha c = true) (hr : Stops qAlpha r) :
    qZone (' ' :: z ++ r) = (' ' :: z, r) := by
  have := span_stop ha hr
  simp [qZone, this.1, this.2, hz]

theorem qZone_sound (s : Str) :
    ((qZone s).1 = [] ∨ ∃ z, (qZone s).1 = ' ' :: z ∧ z ≠ [] ∧ ∀ c ∈ z, qAlpha c = true) ∧
      s = (qZone s).1 ++ (qZone s).2 := by
  unfold qZone
  split
  · next r =>
    split
    · exact ⟨.inl rfl, rfl⟩
    · next h =>
      exact ⟨.inr ⟨_, rfl, h, fun d hd => mem_takeWhile_true hd⟩,
        by simp [List.takeWhile_append_dropWhile]⟩
  · exact ⟨.inl rfl, rfl⟩

theorem qDateTime_show {t r : Str} (h : IsDateTime t) (ht : qTime r = none)
    (hz : qZone r = ([], r)) (hr : Stops qAlpha r) : qDateTime (t ++ r) = some (t, r) := by
  obtain ⟨d, hd, rfl | ⟨tt, htt, rfl | ⟨z, hz1, hz2, rfl⟩⟩⟩ := h
  · unfold qDateTime
    rw [qDate_show hd]
    simp only [ht]
  · rw [List.append_assoc]
    unfold qDateTime
    rw [qDate_show hd]
    simp only [qTime_show htt, hz, List.append_nil]
  · have e : d ++ tt ++ ' ' :: z ++ r = d ++ (tt ++ (' ' :: z ++ r)) := by simp
    rw [e]
    unfold qDateTime
    rw [qDate_show hd]
    simp only [qTime_show htt, qZone_show hz1 hz2 hr]

theorem qDateTime_sound {s t r : Str} (h : qDateTime s = some (t, r)) :
    IsDateTime t ∧ s = t ++ r := by
  unfold qDateTime at h
  split at h
  · cases h
  next d r0 h0 =>
  obtain ⟨a1, rfl⟩ := qDate_sound h0
  split at h
  · cases h
    exact ⟨⟨_, a1, .inl rfl⟩, rfl⟩
  next tt r1 h1 =>
  cases h
  obtain ⟨b1, rfl⟩ := qTime_sound h1
  obtain ⟨c1, c2⟩ := qZone_sound r1
  refine ⟨⟨d, a1, .inr ⟨tt, b1, ?_⟩⟩, by rw [List.append_assoc, ← c2, List.append_assoc]⟩
  rcases c1 with c1 | ⟨z, c1, c3, c4⟩
  · left; rw [c1, List.append_nil]
  · right; exact ⟨z, c3, c4, by rw [c1]⟩

/-! ## References -/

theorem qDotIdent_show {a r : Str} (h : IsIdent a) (hr : Stops identChar r) :
    qDotIdent ('.' :: a ++ r) = some ('.' :: a, r) := by
  show (match qIdent (a ++ r) with | none => none | some (i, r') => some ('.' :: i, r')) = _
  rw [qIdent_show h hr]

theorem qDotIdent_none {r : Str} (h : Stops (· == '.') r) : qDotIdent r = none := by
  unfold qDotIdent
  split
  · exact absurd (h '.' rfl) (by decide)
  · rfl

theorem qDotIdent_sound {s t r : Str} (h : qDotIdent s = some (t, r)) :
    ∃ i, IsIdent i ∧ t = '.' :: i ∧ s = t ++ r ∧ Stops identChar r := by
  unfold qDotIdent at h
  split at h
  · split at h
    · cases h
    · next hi =>
      cases h
      obtain ⟨h1, rfl, h2⟩ := qIdent_sound hi
      exact ⟨_, h1, rfl, rfl, h2⟩
  · cases h

theorem qReference_show {t r : Str} (h : IsReference t) (hr : Stops identChar r)
    (hp : Stops (· == '.') r) : qReference (t ++ r) = some (t, r) := by
  obtain ⟨a, b, ha, hb, rfl | ⟨c, hc, rfl⟩⟩ := h
  · have e : a ++ '.' :: b ++ r = a ++ ('.' :: b ++ r) := by simp
    rw [e]
    unfold qReference
    rw [qIdent_show ha (r := '.' :: b ++ r) (stops_cons (by decide))]
    simp only [qDotIdent_show hb hr, qDotIdent_none hp]
  · have e : a ++ '.' :: b ++ '.' :: c ++ r = a ++ ('.' :: b ++ ('.' :: c ++ r)) := by simp
    rw [e]
    unfold qReference
    rw [qIdent_show ha (r := '.' :: b ++ ('.' :: c ++ r)) (stops_cons (by decide))]
    simp only [qDotIdent_show hb (r := '.' :: c ++ r) (stops_cons (by decide)), qDotIdent_show hc hr]

theorem qReference_sound {s t r : Str} (h : qReference s = some (t, r)) :
    IsReference t ∧ s = t ++ r := by
  unfold qReference at h
  split at h
  · cases h
  next a r0 h0 =>
  split at h
  · cases h
  next b r1 h1 =>
  obtain ⟨ha, rfl, -⟩ := qIdent_sound h0
  obtain ⟨b', hb, rfl, rfl, -⟩ := qDotIdent_sound h1
  split at h
  · cases h
    exact ⟨⟨a, b', ha, hb, .inl rfl⟩, by simp⟩
  · next c r2 h2 =>
    cases h
    obtain ⟨c', hc, rfl, rfl, -⟩ := qDotIdent_sound h2
    exact ⟨⟨a, b', ha, hb, .inr ⟨c', hc, rfl⟩⟩, by simp⟩

theorem qReference_none {s : Str} (h : Stops identStart s) : qReference s = none := by
  unfold qReference
  rw [qIdent_none h]

/-- A name without a dot after it is not a reference. -/
theorem qReference_word {a r : Str} (h : IsIdent a) (hr : Stops identChar r)
    (hp : Stops (· == '.') r) : qReference (a ++ r) = none := by
  unfold qReference
  rw [qIdent_show h hr]
  simp only [qDotIdent_none hp]

/-! ## Strings -/

theorem qQuoted_show {q : Char} {s r : Str} (hq : qWs q = false)
    (hs : ∀ c, s.head? = some c → qWs c = false) (hn : q ∉ s) :
    qQuoted q (s ++ q :: r) = some (s, r) := by
  have h1 : qSkip (s ++ q :: r) = s ++ q :: r := by
    apply qSkip_stops
    cases s with
    | nil => exact stops_cons hq
    | cons c s => exact stops_cons (hs c rfl)
  have h2 := span_stop (p := (· != q)) (a := s) (r := q :: r)
    (fun c hc => by simpa using fun (e : c = q) => hn (e ▸ hc)) (stops_cons (by simp))
  unfold qQuoted
  rw [h1, h2.1, h2.2]

theorem qQuoted_sound {q : Char} {s t r : Str} (h : qQuoted q s = some (t, r)) :
    (∀ c, t.head? = some c → qWs c = false) ∧ q ∉ t ∧ qSkip s = t ++ q :: r := by
  unfold qQuoted at h
  split at h
  · cases h
  · next c r' he =>
    cases h
    have hst := stops_dropWhile qWs s
    have hc : c = q := by
      have := stops_dropWhile (· != q) (qSkip s) c (by rw [he]; rfl)
      simpa using this
    subst hc
    refine ⟨?_, ?_, ?_⟩
    · intro d hd
      have : (qSkip s).head? = some d := by
        cases hk : qSkip s with
        | nil => rw [hk] at hd; cases hd
        | cons e k =>
          rw [hk, List.takeWhile_cons] at hd
          split at hd
          · exact hd
          · cases hd
      exact hst d this
    · intro hmem
      have := mem_takeWhile_true hmem
      simp at this
    · rw [← he, List.takeWhile_append_dropWhile]

theorem qString_show {s r : Str} (h : IsQuotable s) : qString (quoteText s ++ r) = some (s, r) := by
  obtain ⟨hw, hq⟩ := h
  unfold quoteText
  split
  · next hd =>
    have hs : '\'' ∉ s := hq.resolve_left (fun h => h hd)
    have := qQuoted_show (q := '\'') (r := r) (by decide) hw hs
    simpa [qString] using this
  · next hd =>
    have := qQuoted_show (q := '"') (r := r) (by decide) hw hd
    simpa [qString] using this

theorem qString_sound {s t r : Str} (h : qString s = some (t, r)) :
    IsQuotable t ∧ r.length < s.length := by
  cases s with
  | nil => cases h
  | cons c s =>
    simp only [qString] at h
    have hl := qSkip_length s
    split at h
    · obtain ⟨h1, h2, h3⟩ := qQuoted_sound h
      have := congrArg List.length h3
      simp at this ⊢
      exact ⟨⟨h1, .inl h2⟩, by omega⟩
    · split at h
      · obtain ⟨h1, h2, h3⟩ := qQuoted_sound h
        have := congrArg List.length h3
        simp at this ⊢
        exact ⟨⟨h1, .inr h2⟩, by omega⟩
      · cases h

theorem quote_head (s r : Str) : ∃ c cs, quoteText s ++ r = c :: cs ∧ (c = '"' ∨ c = '\'') := by
  unfold quoteText
  split
  · exact ⟨_, _, rfl, .inr rfl⟩
  · exact ⟨_, _, rfl, .inl rfl⟩

theorem qString_none {s : Str} (h : Stops (fun c => c == '"' || c == '\'') s) : qString s = none := by
  cases s with
  | nil => rfl
  | cons c s =>
    have := h c rfl
    simp only [Bool.or_eq_false_iff, beq_eq_false_iff_ne, ne_eq] at this
    simp [qString, this.1, this.2]

theorem qTagged_show {k s r : Str} (h : IsQuotable s) :
    qTagged k (k ++ quoteText s ++ r) = some (s, r) := by
  rw [List.append_assoc]
  unfold qTagged
  rw [qLit_append]
  simp only
  obtain ⟨c, cs, e, hc⟩ := quote_head s r
  have : qSkip (quoteText s ++ r) = quoteText s ++ r := by
    rw [e]
    apply qSkip_of
    rcases hc with rfl | rfl <;> decide
  rw [this, qString_show h]

theorem qTagged_sound {k s t r : Str} (h : qTagged k s = some (t, r)) :
    IsQuotable t ∧ r.length < s.length := by
  unfold qTagged at h
  split at h
  · cases h
  · next r0 h0 =>
    have := qLit_eq h0; subst this
    obtain ⟨h1, h2⟩ := qString_sound h
    have := qSkip_length r0
    simp only [List.length_append]
    exact ⟨h1, by omega⟩

end Firm
