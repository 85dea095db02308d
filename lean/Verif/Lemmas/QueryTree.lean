import Verif.Lemmas.QueryText

/-!
# Reading back values, clauses and whole queries
-/

namespace Firm

open Spec

/-! ## What may follow a value -/

/-- The text after a value cannot be taken for a part of the value, except that its first word may
be taken for a time zone. -/
structure FollowBlank (r : Str) : Prop where
  ident : Stops identChar r
  dot : Stops (· == '.') r
  minus : Stops (· == '-') r
  code : qCode (qSkip r) = none
  time : qTime r = none

/-- The text after a value cannot be taken for a part of the value. -/
structure Follow (r : Str) : Prop extends FollowBlank r where
  zone : qZone r = ([], r)

theorem qLit_none {a : Char} {k s : Str} (h : Stops (· == a) s) : qLit (a :: k) s = none := by
  cases s with
  | nil => rfl
  | cons c s =>
    have hc : (c == a) = false := h c rfl
    have : (a == c) = false := by
      rw [beq_eq_false_iff_ne] at hc ⊢
      exact fun e => hc e.symm
    simp [qLit, List.isPrefixOf, this]

theorem follow_nil : Follow [] where
  ident := stops_nil _
  dot := stops_nil _
  minus := stops_nil _
  code := by decide
  time := by decide
  zone := rfl

theorem follow_sep {c : Char} {r : Str} (h : c = ',' ∨ c = ']') : Follow (c :: r) where
  ident := stops_cons (by rcases h with rfl | rfl <;> decide)
  dot := stops_cons (by rcases h with rfl | rfl <;> decide)
  minus := stops_cons (by rcases h with rfl | rfl <;> decide)
  code := by
    rw [qSkip_of (by rcases h with rfl | rfl <;> decide)]
    exact qCode_none (stops_cons (by rcases h with rfl | rfl <;> decide))
  time := by
    have : qLit " at ".toList (c :: r) = none :=
      qLit_none (stops_cons (by rcases h with rfl | rfl <;> decide))
    unfold qTime
    rw [this]
  zone := by
    rcases h with rfl | rfl <;> rfl

theorem follow_bar (r : Str) : Follow (' ' :: '|' :: r) where
  ident := stops_cons (by decide)
  dot := stops_cons (by decide)
  minus := stops_cons (by decide)
  code := by
    rw [qSkip_space, qSkip_of (by decide)]
    exact qCode_none (stops_cons (by decide))
  time := by simp [qTime, qLit, List.isPrefixOf]
  zone := by
    simp only [qZone]
    rw [if_pos]
    rw [List.takeWhile_cons]
    rfl

theorem follow_line {r : Str} (h : qCode (qSkip r) = none) : Follow ('\n' :: r) where
  ident := stops_cons (by decide)
  dot := stops_cons (by decide)
  minus := stops_cons (by decide)
  code := by rw [qSkip_line]; exact h
  time := by simp [qTime, qLit, List.isPrefixOf]
  zone := rfl

theorem follow_more (m : Combinator × QCond) (r : Str) : Follow (showQMore m ++ r) := by
  obtain ⟨k, c⟩ := m
  cases k
  · show Follow ('\n' :: ("and".toList ++ ' ' :: showQCond c ++ r))
    apply follow_line
    show qCode (qSkip ('a' :: 'n' :: 'd' :: ' ' :: (showQCond c ++ r))) = none
    rw [qSkip_of (by decide)]
    unfold qCode
    rw [if_pos]
    have : (qLitI "and".toList ('a' :: 'n' :: 'd' :: ' ' :: (showQCond c ++ r))).isSome = true := by
      rw [qLitI_isSome]; rfl
    rw [this]; rfl
  · show Follow ('\n' :: ("or".toList ++ ' ' :: showQCond c ++ r))
    apply follow_line
    show qCode (qSkip ('o' :: 'r' :: ' ' :: (showQCond c ++ r))) = none
    rw [qSkip_of (by decide)]
    unfold qCode
    rw [if_pos]
    have : (qLitI "or".toList ('o' :: 'r' :: ' ' :: (showQCond c ++ r))).isSome = true := by
      rw [qLitI_isSome]; rfl
    rw [this, Bool.or_true]

/-! ## Single values -/

theorem FollowBlank.digit {r : Str} (h : FollowBlank r) : Stops isDigit r := fun c hc => by
  cases hd : isDigit c with
  | false => rfl
  | true => have := h.ident c hc; rw [digit_identChar hd] at this; cases this

theorem FollowBlank.alpha {r : Str} (h : FollowBlank r) : Stops qAlpha r := fun c hc => by
  cases hd : qAlpha c with
  | false => rfl
  | true => have := h.ident c hc; rw [alpha_identChar hd] at this; cases this

theorem FollowBlank.number {r : Str} (h : FollowBlank r) : Stops (fun c => isDigit c || c == '-') r :=
  fun c hc => Bool.or_eq_false_iff.mpr ⟨h.digit c hc, h.minus c hc⟩

theorem digit_not_start {c : Char} (h : isDigit c = true) : identStart c = false := by
  cases hs : identStart c with
  | false => rfl
  | true => rw [start_not_digit hs] at h; cases h

theorem start_ne_minus {c : Char} (h : identStart c = true) : (c == '-') = false := by
  rw [beq_eq_false_iff_ne]; rintro rfl; revert h; decide

theorem qTagged_none {a : Char} {k s : Str} (h : Stops (· == a) s) : qTagged (a :: k) s = none := by
  unfold qTagged
  rw [qLit_none h]

/-- What can be said from the first character alone. -/
theorem leaf_head {c : Char} {s : Str} (hd : isDigit c = false) (hm : c ≠ '-') :
    qCurrency (c :: s) = none ∧ qDateTime (c :: s) = none ∧ qNumber (c :: s) = none := by
  have : Stops (fun c => isDigit c || c == '-') (c :: s) := stops_cons (by simp [hd, hm])
  exact ⟨qCurrency_none_of_number this, qDateTime_none (stops_cons hd), qNumber_none this⟩

theorem qLeaf_string {s r : Str} (h : IsQuotable s) :
    qLeaf (quoteText s ++ r) = some (.string s, r) := by
  have hs := qString_show (r := r) h
  obtain ⟨c, cs, e, hc⟩ := quote_head s r
  rw [e] at hs ⊢
  have hh := leaf_head (s := cs) (c := c) (by rcases hc with rfl | rfl <;> decide)
    (by rcases hc with rfl | rfl <;> decide)
  unfold qLeaf
  rw [hh.1, hh.2.1, qReference_none (stops_cons (by rcases hc with rfl | rfl <;> decide)),
    show "path".toList = 'p' :: "ath".toList from rfl,
    qTagged_none (stops_cons (by rcases hc with rfl | rfl <;> decide)),
    show "enum".toList = 'e' :: "num".toList from rfl,
    qTagged_none (stops_cons (by rcases hc with rfl | rfl <;> decide)), hs]

theorem qCurrency_number {t r : Str} (h : IsNumberText t) (hr : FollowBlank r) : qCurrency (t ++ r) = none := by
  unfold qCurrency
  rw [qNumber_show h hr.digit hr.dot]
  simp only [hr.code]

theorem number_not {t r : Str} (h : IsNumberText t) {p : Char → Bool}
    (hd : ∀ c, isDigit c = true → p c = false) (hm : p '-' = false) : Stops p (t ++ r) := by
  obtain ⟨c, cs, rfl, hc⟩ := number_head h
  apply stops_cons
  rcases hc with hc | rfl
  · exact hd c hc
  · exact hm

theorem digit_neq_char {c d : Char} (h : isDigit c = true) (hd : isDigit d = false) : (c == d) = false := by
  rw [beq_eq_false_iff_ne]; rintro rfl; rw [h] at hd; cases hd

theorem qLeaf_number {t r : Str} (h : IsNumberText t) (hr : FollowBlank r) :
    qLeaf (t ++ r) = some (.number t, r) := by
  unfold qLeaf
  rw [qCurrency_number h hr]
  have h1 : qDateTime (t ++ r) = none := by
    unfold qDateTime; rw [qDate_number h hr.number]
  rw [h1, qReference_none (number_not h (fun c hc => digit_not_start hc) (by decide)),
    show "path".toList = 'p' :: "ath".toList from rfl,
    qTagged_none (number_not h (fun c hc => digit_neq_char hc (by decide)) (by decide)),
    show "enum".toList = 'e' :: "num".toList from rfl,
    qTagged_none (number_not h (fun c hc => digit_neq_char hc (by decide)) (by decide)),
    qString_none (number_not h (fun c hc => by
      rw [digit_neq_char hc (d := '"') (by decide), digit_neq_char hc (d := '\'') (by decide)]; rfl) (by decide)),
    qNumber_show h hr.digit hr.dot]

theorem qLeaf_currency {t c r : Str} (ht : IsNumberText t) (hc : IsCode c) :
    qLeaf (t ++ ' ' :: c ++ r) = some (.currency t c, r) := by
  unfold qLeaf
  rw [qCurrency_show ht hc]

theorem qCurrency_date {t r : Str} (h : IsDateTime t) : qCurrency (t ++ r) = none := by
  obtain ⟨d, ⟨y, m, dd, hy, -, -, rfl⟩, h⟩ := h
  obtain ⟨x, hx⟩ : ∃ x, t ++ r = y ++ '-' :: x := by
    rcases h with rfl | ⟨tt, -, rfl | ⟨z, -, -, rfl⟩⟩
    · exact ⟨m ++ '-' :: dd ++ r, by simp⟩
    · exact ⟨m ++ '-' :: dd ++ tt ++ r, by simp⟩
    · exact ⟨m ++ '-' :: dd ++ tt ++ ' ' :: z ++ r, by simp⟩
  rw [hx]
  have hn : IsNumberText y := by
    refine ⟨[], y, [], by simp, .inl rfl, ⟨?_, hy.2⟩, .inl rfl⟩
    rintro rfl
    cases hy.1
  unfold qCurrency
  rw [qNumber_show hn (stops_cons (by decide)) (stops_cons (by decide))]
  simp only
  rw [qSkip_of (by decide), qCode_none (stops_cons (by decide))]

theorem qLeaf_dateTime {t r : Str} (h : IsDateTime t) (hr : Follow r) :
    qLeaf (t ++ r) = some (.dateTime t, r) := by
  unfold qLeaf
  rw [qCurrency_date h, qDateTime_show h hr.time hr.zone hr.alpha]

theorem qLeaf_reference {t r : Str} (h : IsReference t) (hr : FollowBlank r) :
    qLeaf (t ++ r) = some (.reference t, r) := by
  have hs := qReference_show h hr.ident hr.dot
  obtain ⟨c, cs, e, hc⟩ : ∃ c cs, t ++ r = c :: cs ∧ identStart c = true := by
    obtain ⟨a, b, ⟨c, cs, rfl, hc, -⟩, -, rfl | ⟨d, -, rfl⟩⟩ := h
    · exact ⟨c, _, rfl, hc⟩
    · exact ⟨c, _, rfl, hc⟩
  rw [e] at hs ⊢
  have hm := start_ne_minus hc
  have hh := leaf_head (s := cs) (start_not_digit hc) (by simpa using hm)
  unfold qLeaf
  rw [hh.1, hh.2.1, hs]

theorem ident_path : IsIdent "path".toList := ⟨'p', "ath".toList, rfl, by decide, by decide⟩
theorem ident_enum : IsIdent "enum".toList := ⟨'e', "num".toList, rfl, by decide, by decide⟩
theorem ident_true : IsIdent "true".toList := ⟨'t', "rue".toList, rfl, by decide, by decide⟩
theorem ident_false : IsIdent "false".toList := ⟨'f', "alse".toList, rfl, by decide, by decide⟩

theorem quote_stops {s r : Str} {p : Char → Bool} (h1 : p '"' = false) (h2 : p '\'' = false) :
    Stops p (quoteText s ++ r) := by
  obtain ⟨c, cs, e, hc⟩ := quote_head s r
  rw [e]
  exact stops_cons (by rcases hc with rfl | rfl <;> assumption)

theorem qLeaf_path {s r : Str} (h : IsQuotable s) :
    qLeaf ("path".toList ++ quoteText s ++ r) = some (.path s, r) := by
  have hh : ∀ x, qCurrency ('p' :: x) = none ∧ qDateTime ('p' :: x) = none ∧ _ := fun x =>
    leaf_head (c := 'p') (s := x) (by decide) (by decide)
  have hr : qReference ("path".toList ++ quoteText s ++ r) = none := by
    rw [List.append_assoc]
    exact qReference_word ident_path (quote_stops (by decide) (by decide))
      (quote_stops (by decide) (by decide))
  have ht := qTagged_show (k := "path".toList) (r := r) h
  unfold qLeaf
  rw [hr, ht]
  rw [show "path".toList ++ quoteText s ++ r = 'p' :: ("ath".toList ++ quoteText s ++ r) from rfl,
    (hh _).1, (hh _).2.1]

theorem qLeaf_enum {s r : Str} (h : IsQuotable s) :
    qLeaf ("enum".toList ++ quoteText s ++ r) = some (.enum s, r) := by
  have hh : ∀ x, qCurrency ('e' :: x) = none ∧ qDateTime ('e' :: x) = none ∧ _ := fun x =>
    leaf_head (c := 'e') (s := x) (by decide) (by decide)
  have hr : qReference ("enum".toList ++ quoteText s ++ r) = none := by
    rw [List.append_assoc]
    exact qReference_word ident_enum (quote_stops (by decide) (by decide))
      (quote_stops (by decide) (by decide))
  have ht := qTagged_show (k := "enum".toList) (r := r) h
  have hp : qTagged "path".toList ("enum".toList ++ quoteText s ++ r) = none :=
    qTagged_none (a := 'p') (k := "ath".toList) (stops_cons (by decide))
  unfold qLeaf
  rw [hr, hp, ht]
  rw [show "enum".toList ++ quoteText s ++ r = 'e' :: ("num".toList ++ quoteText s ++ r) from rfl,
    (hh _).1, (hh _).2.1]

theorem qLeaf_boolean {b : Bool} {r : Str} (hr : FollowBlank r) :
    qLeaf ((if b then "true".toList else "false".toList) ++ r) = some (.boolean b, r) := by
  cases b with
  | true =>
    have hw := qReference_word (r := r) ident_true hr.ident hr.dot
    have hh := leaf_head (c := 't') (s := "rue".toList ++ r) (by decide) (by decide)
    have hp : qTagged "path".toList ("true".toList ++ r) = none :=
      qTagged_none (a := 'p') (k := "ath".toList) (stops_cons (by decide))
    have he : qTagged "enum".toList ("true".toList ++ r) = none :=
      qTagged_none (a := 'e') (k := "num".toList) (stops_cons (by decide))
    have hs : qString ("true".toList ++ r) = none := qString_none (stops_cons (by decide))
    have hn : qNumber ("true".toList ++ r) = none := hh.2.2
    have hc : qCurrency ("true".toList ++ r) = none := hh.1
    have hd : qDateTime ("true".toList ++ r) = none := hh.2.1
    have hb : qBoolean ("true".toList ++ r) = some (true, r) := by
      unfold qBoolean; rw [qLit_append]
    simp only [if_true]
    unfold qLeaf
    rw [hc, hd, hw, hp, he, hs, hn, hb]
  | false =>
    have hw := qReference_word (r := r) ident_false hr.ident hr.dot
    have hh := leaf_head (c := 'f') (s := "alse".toList ++ r) (by decide) (by decide)
    have hp : qTagged "path".toList ("false".toList ++ r) = none :=
      qTagged_none (a := 'p') (k := "ath".toList) (stops_cons (by decide))
    have he : qTagged "enum".toList ("false".toList ++ r) = none :=
      qTagged_none (a := 'e') (k := "num".toList) (stops_cons (by decide))
    have hs : qString ("false".toList ++ r) = none := qString_none (stops_cons (by decide))
    have hn : qNumber ("false".toList ++ r) = none := hh.2.2
    have hc : qCurrency ("false".toList ++ r) = none := hh.1
    have hd : qDateTime ("false".toList ++ r) = none := hh.2.1
    have ht : qLit "true".toList ("false".toList ++ r) = none :=
      qLit_none (a := 't') (k := "rue".toList) (stops_cons (by decide))
    have hb : qBoolean ("false".toList ++ r) = some (false, r) := by
      unfold qBoolean; rw [ht]; simp only [qLit_append]
    simp only [if_neg Bool.false_ne_true]
    unfold qLeaf
    rw [hc, hd, hw, hp, he, hs, hn, hb]

theorem qLeaf_bracket (s : Str) : qLeaf ('[' :: s) = none := by
  have hh := leaf_head (c := '[') (s := s) (by decide) (by decide)
  have hp : qTagged "path".toList ('[' :: s) = none :=
    qTagged_none (a := 'p') (k := "ath".toList) (stops_cons (by decide))
  have he : qTagged "enum".toList ('[' :: s) = none :=
    qTagged_none (a := 'e') (k := "num".toList) (stops_cons (by decide))
  have hs : qString ('[' :: s) = none := qString_none (stops_cons (by decide))
  have hr : qReference ('[' :: s) = none := qReference_none (stops_cons (by decide))
  have hb : qBoolean ('[' :: s) = none := by
    unfold qBoolean
    rw [show "true".toList = 't' :: "rue".toList from rfl, qLit_none (stops_cons (by decide)),
      show "false".toList = 'f' :: "alse".toList from rfl]
    simp only [qLit_none (a := 'f') (k := "alse".toList) (s := '[' :: s) (stops_cons (by decide))]
  unfold qLeaf
  rw [hh.1, hh.2.1, hr, hp, he, hs, hh.2.2, hb]

/-! ## Nested values -/

/-- A value starts with a character that is not white space. -/
theorem value_stops {v : QValue} (h : ValidValue v) (r : Str) : Stops qWs (showQValue v ++ r) := by
  cases v with
  | string s => exact quote_stops (by decide) (by decide)
  | number t =>
    exact number_not (t := t) h (fun c hc => identChar_not_ws (digit_identChar hc)) (by decide)
  | boolean b => cases b <;> exact stops_cons (by decide)
  | currency t c =>
    rw [showQValue, List.append_assoc]
    exact number_not (t := t) h.1 (fun c hc => identChar_not_ws (digit_identChar hc)) (by decide)
  | dateTime t =>
    obtain ⟨d, ⟨y, m, dd, hy, -, -, rfl⟩, h⟩ := h
    obtain ⟨x, hx⟩ : ∃ x, t = y ++ '-' :: x := by
      rcases h with rfl | ⟨tt, -, rfl | ⟨z, -, -, rfl⟩⟩
      · exact ⟨m ++ '-' :: dd, by simp⟩
      · exact ⟨m ++ '-' :: dd ++ tt, by simp⟩
      · exact ⟨m ++ '-' :: dd ++ tt ++ ' ' :: z, by simp⟩
    rw [showQValue, hx]
    cases y with
    | nil => cases hy.1
    | cons a y => exact stops_cons (identChar_not_ws (digit_identChar (hy.2 a (by simp))))
  | reference t =>
    obtain ⟨a, b, ⟨c, cs, rfl, hc, -⟩, -, rfl | ⟨d, -, rfl⟩⟩ := h <;>
      exact stops_cons (identChar_not_ws (start_identChar hc))
  | path s => exact stops_cons (by decide)
  | enum s => exact stops_cons (by decide)
  | list vs => cases vs <;> exact stops_cons (by decide)

mutual
/-- A value reads back, whatever follows it. -/
theorem qValue_show : ∀ (v : QValue), ValidValue v → ∀ (n : Nat), (showQValue v).length < n →
    ∀ r, Follow r → qValue n (showQValue v ++ r) = some (v, r)
  | _, _, 0, hn, _, _ => absurd hn (by omega)
  | .string s, h, n + 1, _, r, _ => by
    rw [showQValue, qValue, qLeaf_string h]
  | .number t, h, n + 1, _, r, hr => by
    rw [showQValue, qValue, qLeaf_number h hr.toFollowBlank]
  | .boolean b, _, n + 1, _, r, hr => by
    rw [showQValue, qValue, qLeaf_boolean hr.toFollowBlank]
  | .currency t c, h, n + 1, _, r, _ => by
    rw [showQValue, qValue, qLeaf_currency h.1 h.2]
  | .dateTime t, h, n + 1, _, r, hr => by
    rw [showQValue, qValue, qLeaf_dateTime h hr]
  | .reference t, h, n + 1, _, r, hr => by
    rw [showQValue, qValue, qLeaf_reference h hr.toFollowBlank]
  | .path s, h, n + 1, _, r, _ => by
    rw [showQValue, qValue, qLeaf_path h]
  | .enum s, h, n + 1, _, r, _ => by
    rw [showQValue, qValue, qLeaf_enum h]
  | .list [], h, n + 1, _, _, _ => absurd rfl h.1
  | .list (v :: vs), h, n + 1, hn, r, _ => by
    have hlen : (showQValue v).length < n ∧ (showQItems vs).length < n := by
      simp only [showQValue, List.length_append, List.length_cons] at hn
      constructor <;> omega
    have hv : ValidValue v := h.2.1
    have hf : Follow (showQItems vs ++ ']' :: r) := by
      cases vs with
      | nil => exact follow_sep (.inr rfl)
      | cons w ws => exact follow_sep (.inl rfl)
    have h1 := qValue_show v hv n hlen.1 (showQItems vs ++ ']' :: r) hf
    have h2 := qItems_show vs h.2.2 n hlen.2 r (showQItems vs ++ ']' :: r).length (by simp)
    have e : showQValue (.list (v :: vs)) ++ r =
        '[' :: (showQValue v ++ (showQItems vs ++ ']' :: r)) := by
      simp [showQValue]
    rw [e, qValue, qLeaf_bracket]
    simp only [qList, if_true]
    rw [qSkip_stops (value_stops hv _), h1]
    simp only [h2]
    rw [qSkip_of (by decide)]
    simp
/-- The further items of a list read back. -/
theorem qItems_show : ∀ (vs : List QValue), ValidValues vs → ∀ (n : Nat),
    (showQItems vs).length < n → ∀ r k, (showQItems vs).length ≤ k →
    qMany (qAfter ',' (qValue n)) k (showQItems vs ++ ']' :: r) = (vs, ']' :: r)
  | [], _, n, _, r, k, _ => by
    cases k with
    | zero => rfl
    | succ k =>
      rw [showQItems, List.nil_append, qMany, qSkip_of (by decide)]
      rfl
  | v :: vs, h, n, hn, r, k, hk => by
    have hlen : (showQValue v).length < n ∧ (showQItems vs).length < n ∧
        (showQItems vs).length + 1 ≤ k := by
      simp only [showQItems, List.length_append] at hn hk
      have : (", ".toList).length = 2 := rfl
      refine ⟨?_, ?_, ?_⟩ <;> omega
    obtain ⟨k, rfl⟩ : ∃ j, k = j + 1 := ⟨k - 1, by omega⟩
    have hf : Follow (showQItems vs ++ ']' :: r) := by
      cases vs with
      | nil => exact follow_sep (.inr rfl)
      | cons w ws => exact follow_sep (.inl rfl)
    have h1 := qValue_show v h.1 n hlen.1 (showQItems vs ++ ']' :: r) hf
    have h2 := qItems_show vs h.2 n hlen.2.1 r k (by omega)
    have e : showQItems (v :: vs) ++ ']' :: r =
        ',' :: ' ' :: (showQValue v ++ (showQItems vs ++ ']' :: r)) := by
      simp [showQItems]
    rw [e, qMany, qSkip_of (by decide)]
    simp only [qAfter, if_true]
    rw [qSkip_space, qSkip_stops (value_stops h.1 _), h1]
    simp only [h2]
end

/-! ## Fields, selectors and words -/

theorem field_stops {f : QField} (h : ValidField f) (r : Str) : Stops qWs (showQField f ++ r) := by
  cases f with
  | metadata n => exact stops_cons (by decide)
  | regular n =>
    obtain ⟨c, cs, rfl, hc, -⟩ := h
    exact stops_cons (identChar_not_ws (start_identChar hc))

theorem qField_show {f : QField} (h : ValidField f) {r : Str} (hr : Stops identChar r) :
    qField (showQField f ++ r) = some (f, r) := by
  cases f with
  | metadata n =>
    have hs : qSkip (n ++ r) = n ++ r := by
      obtain ⟨c, cs, rfl, hc, -⟩ := h
      exact qSkip_stops (stops_cons (identChar_not_ws (start_identChar hc)))
    show qField ('@' :: (n ++ r)) = _
    simp only [qField, if_true]
    rw [hs, qIdent_show h hr]
  | regular n =>
    have hi := qIdent_show (r := r) h hr
    obtain ⟨c, cs, rfl, hc, -⟩ := h
    have hne : c ≠ '@' := by rintro rfl; revert hc; decide
    show qField (c :: (cs ++ r)) = _
    simp only [qField, if_neg hne]
    rw [show c :: (cs ++ r) = (c :: cs) ++ r from rfl, hi]

theorem selector_stops {f : QSelector} (h : ValidSelector f) (r : Str) :
    Stops qWs (showQSelector f ++ r) := by
  cases f with
  | wildcard => exact stops_cons (by decide)
  | type n =>
    obtain ⟨c, cs, rfl, hc, -⟩ := h
    exact stops_cons (identChar_not_ws (start_identChar hc))

theorem qSelector_show {f : QSelector} (h : ValidSelector f) {r : Str} (hr : Stops identChar r) :
    qSelector (showQSelector f ++ r) = some (f, r) := by
  cases f with
  | wildcard => rfl
  | type n =>
    have hi := qIdent_show (r := r) h hr
    obtain ⟨c, cs, rfl, hc, -⟩ := h
    have hne : c ≠ '*' := by rintro rfl; revert hc; decide
    show qSelector (c :: (cs ++ r)) = _
    simp only [qSelector, if_neg hne]
    rw [show c :: (cs ++ r) = (c :: cs) ++ r from rfl, hi]

theorem qOperator_show (op : FilterOperator) (r : Str) :
    qWord operatorWords (showQOperator op ++ ' ' :: r) = some (op, ' ' :: r) := by
  cases op <;> rfl

theorem operator_stops (op : FilterOperator) (r : Str) : Stops qWs (showQOperator op ++ r) := by
  cases op <;> exact stops_cons (by decide)

/-! ## Conditions -/

theorem qCond_show {c : QCond} (h : ValidCond c) {n : Nat} (hn : (showQValue c.value).length < n)
    {r : Str} (hr : Follow r) : qCond n (showQCond c ++ r) = some (c, r) := by
  obtain ⟨f, op, v⟩ := c
  obtain ⟨hf, hv⟩ := h
  have e : showQCond ⟨f, op, v⟩ ++ r =
      showQField f ++ (' ' :: (showQOperator op ++ ' ' :: (showQValue v ++ r))) := by
    simp [showQCond]
  rw [e]
  unfold qCond
  rw [qField_show hf (stops_cons (by decide))]
  simp only
  rw [qSkip_space, qSkip_stops (operator_stops op _), qOperator_show]
  simp only
  rw [qSkip_space, qSkip_stops (value_stops hv _), qValue_show v hv n hn r hr]

theorem cond_stops {c : QCond} (h : ValidCond c) (r : Str) : Stops qWs (showQCond c ++ r) := by
  have e : showQCond c ++ r =
      showQField c.field ++ (' ' :: (showQOperator c.op ++ ' ' :: (showQValue c.value ++ r))) := by
    simp [showQCond]
  rw [e]
  exact field_stops h.1 _

theorem qCombinator_show (k : Combinator) (r : Str) :
    qCombinator (showQCombinator k ++ ' ' :: r) = some (k, ' ' :: r) := by
  cases k
  · show qCombinator ('a' :: 'n' :: 'd' :: ' ' :: r) = _
    unfold qCombinator
    have : qLitI "and".toList ('a' :: 'n' :: 'd' :: ' ' :: r) = some (' ' :: r) := by
      unfold qLitI
      rw [if_pos (by rfl)]
      rfl
    rw [this]
  · show qCombinator ('o' :: 'r' :: ' ' :: r) = _
    unfold qCombinator
    have h1 : qLitI "and".toList ('o' :: 'r' :: ' ' :: r) = none := by
      unfold qLitI
      rw [if_neg]
      show ¬ (['o', 'r', ' '].map lowerAscii = _)
      decide
    have h2 : qLitI "or".toList ('o' :: 'r' :: ' ' :: r) = some (' ' :: r) := by
      unfold qLitI
      rw [if_pos (by rfl)]
      rfl
    rw [h1]
    simp only [h2]

theorem qMore_show {m : Combinator × QCond} (h : ValidCond m.2) {n : Nat}
    (hn : (showQValue m.2.value).length < n) {r : Str} (hr : Follow r) :
    qMore n (qSkip (showQMore m ++ r)) = some (m, r) := by
  obtain ⟨k, c⟩ := m
  have e : showQMore (k, c) ++ r = '\n' :: (showQCombinator k ++ ' ' :: (showQCond c ++ r)) := by
    simp [showQMore]
  have hs : Stops qWs (showQCombinator k ++ ' ' :: (showQCond c ++ r)) := by
    cases k <;> exact stops_cons (by decide)
  rw [e, qSkip_line, qSkip_stops hs]
  unfold qMore
  rw [qCombinator_show]
  simp only
  rw [qSkip_space, qSkip_stops (cond_stops h _), qCond_show h hn hr]

/-! ## Repetition -/

theorem qMany_show {α : Type} {p : Str → Option (α × Str)} {sh : α → Str} {rest : Str}
    (G : Str → Prop) (hstop : p (qSkip rest) = none) (hG : G rest) :
    ∀ (as : List α), (∀ a ∈ as, ∀ r, G (sh a ++ r)) →
      (∀ a ∈ as, ∀ r, G r → p (qSkip (sh a ++ r)) = some (a, r)) →
      ∀ n, as.length ≤ n → qMany p n (as.flatMap sh ++ rest) = (as, rest)
  | [], _, _, n, _ => by
    cases n with
    | zero => rfl
    | succ n => simp [qMany, hstop]
  | a :: as, hGs, hp, n, hn => by
    obtain ⟨n, rfl⟩ : ∃ j, n = j + 1 := ⟨n - 1, by simp at hn; omega⟩
    have ih := qMany_show G hstop hG as (fun b hb => hGs b (by simp [hb]))
      (fun b hb => hp b (by simp [hb])) n (by simpa using hn)
    have hg : G (as.flatMap sh ++ rest) := by
      cases as with
      | nil => exact hG
      | cons b bs =>
        rw [List.flatMap_cons, List.append_assoc]
        exact hGs b (by simp) _
    rw [List.flatMap_cons, List.append_assoc, qMany, hp a (by simp) _ hg]
    simp only [ih]

theorem length_le_flatMap {α : Type} {sh : α → Str} : ∀ {as : List α}, (∀ a ∈ as, sh a ≠ []) →
    as.length ≤ (as.flatMap sh).length
  | [], _ => by simp
  | a :: as, h => by
    have := length_le_flatMap (as := as) (fun b hb => h b (by simp [hb]))
    have h1 : 0 < (sh a).length := List.length_pos_iff.mpr (h a (by simp))
    simp only [List.flatMap_cons, List.length_append, List.length_cons]
    omega

theorem mem_length_flatMap {α : Type} {sh : α → Str} : ∀ {as : List α} {a : α}, a ∈ as →
    (sh a).length ≤ (as.flatMap sh).length
  | [], _, h => by cases h
  | b :: as, a, h => by
    simp only [List.flatMap_cons, List.length_append]
    rcases List.mem_cons.mp h with rfl | h
    · omega
    · have := mem_length_flatMap (sh := sh) h
      omega

/-! ## Operations -/

theorem showQOp_where (c : QCond) (more : List (Combinator × QCond)) :
    showQOp (.where c more) = "where".toList ++ ' ' :: showQCond c ++ more.flatMap showQMore := rfl

theorem showQOp_related (d : Option Str) (sel : Option QSelector) :
    showQOp (.related d sel) = "related".toList ++ showQDegree d ++ showQTarget sel := rfl

theorem showQOp_order (f : QField) (d : Option SortDirection) :
    showQOp (.order f d) = "order".toList ++ ' ' :: showQField f ++ showQDirection d := rfl

theorem showQOp_limit (t : Str) : showQOp (.limit t) = "limit".toList ++ ' ' :: t := rfl

/-- What follows an operation: the end or the next clause. -/
def OpEnd (r : Str) : Prop := r = [] ∨ ∃ r', r = ' ' :: '|' :: r'

theorem OpEnd.follow {r : Str} (h : OpEnd r) : Follow r := by
  rcases h with rfl | ⟨r', rfl⟩
  · exact follow_nil
  · exact follow_bar r'

theorem OpEnd.skip {r : Str} (h : OpEnd r) : qSkip r = [] ∨ ∃ r', qSkip r = '|' :: r' := by
  rcases h with rfl | ⟨r', rfl⟩
  · exact .inl rfl
  · exact .inr ⟨r', by rw [qSkip_space, qSkip_of (by decide)]⟩

theorem qMore_end {r : Str} (h : OpEnd r) (n : Nat) : qMore n (qSkip r) = none := by
  have : qCombinator (qSkip r) = none := by
    rcases h.skip with h | ⟨r', h⟩
    · rw [h]; decide
    · rw [h]
      have h1 : qLitI "and".toList ('|' :: r') = none := by
        unfold qLitI
        rw [if_neg]
        show ¬ ('|' :: (r'.take 2).map lowerAscii = _)
        simp
      have h2 : qLitI "or".toList ('|' :: r') = none := by
        unfold qLitI
        rw [if_neg]
        show ¬ ('|' :: (r'.take 1).map lowerAscii = _)
        simp
      unfold qCombinator
      rw [h1]
      simp only [h2]
  unfold qMore
  rw [this]

theorem qWhere_show {c : QCond} {more : List (Combinator × QCond)} (hc : ValidCond c)
    (hm : ∀ m ∈ more, ValidCond m.2) {n : Nat} (hn : (showQOp (.where c more)).length < n) {r : Str}
    (hr : OpEnd r) : qWhere n (showQOp (.where c more) ++ r) = some (.where c more, r) := by
  have hlen : (showQCond c).length < n ∧ (more.flatMap showQMore).length < n := by
    simp only [showQOp_where, List.length_append, List.length_cons] at hn
    constructor <;> omega
  have hval : ∀ c : QCond, (showQValue c.value).length ≤ (showQCond c).length := by
    intro c
    simp only [showQCond, List.length_append, List.length_cons]
    omega
  have hf : Follow (more.flatMap showQMore ++ r) := by
    cases more with
    | nil => exact hr.follow
    | cons m ms =>
      rw [List.flatMap_cons, List.append_assoc]
      exact follow_more m _
  have h1 := qCond_show hc (n := n) (by have := hval c; omega) hf
  have h2 := qMany_show (p := qMore n) (sh := showQMore) (rest := r) Follow (qMore_end hr n) hr.follow
    more (fun m _ r => follow_more m r)
    (fun m hmm r hr => by
      apply qMore_show (hm m hmm) _ hr
      have h3 := mem_length_flatMap (sh := showQMore) hmm
      have h4 : (showQCond m.2).length ≤ (showQMore m).length := by
        simp only [showQMore, List.length_append, List.length_cons]
        omega
      have := hval m.2
      omega)
    (more.flatMap showQMore ++ r).length
    (by
      rw [List.length_append]
      exact Nat.le_trans (length_le_flatMap (fun m _ => by simp [showQMore])) (Nat.le_add_right _ _))
  have e : showQOp (.where c more) ++ r =
      "where".toList ++ (' ' :: (showQCond c ++ (more.flatMap showQMore ++ r))) := by
    rw [showQOp_where]; simp only [List.append_assoc, List.cons_append]
  rw [e]
  unfold qWhere
  rw [qLit_append]
  simp only
  rw [qSkip_space, qSkip_stops (cond_stops hc _), h1]
  simp only [h2]

theorem qDegree_show {t r : Str} (h : IsNumberText t) : qDegree ('(' :: t ++ ')' :: r) = some (t, r) := by
  have hs : qSkip (t ++ ')' :: r) = t ++ ')' :: r :=
    qSkip_stops (number_not h (fun c hc => identChar_not_ws (digit_identChar hc)) (by decide))
  have h1 : qNumber (t ++ ')' :: r) = some (t, ')' :: r) :=
    qNumber_show h (stops_cons (by decide)) (stops_cons (by decide))
  show qDegree ('(' :: (t ++ ')' :: r)) = _
  simp only [qDegree]
  rw [hs, h1]
  simp only
  rw [qSkip_of (by decide)]
  rfl

theorem qDegree_none {s : Str} (h : Stops (· == '(') s) : qDegree s = none := by
  unfold qDegree
  split
  · exact absurd (h '(' rfl) (by decide)
  · rfl

theorem qSelector_none {s : Str} (h1 : Stops (· == '*') s) (h2 : Stops identStart s) :
    qSelector s = none := by
  cases s with
  | nil => rfl
  | cons c s =>
    have := h1 c rfl
    simp only [beq_eq_false_iff_ne, ne_eq] at this
    simp only [qSelector, if_neg this]
    rw [qIdent_none h2]

theorem qOpt_some {α : Type} {p : Str → Option (α × Str)} {s r : Str} {a : α}
    (h : p (qSkip s) = some (a, r)) : qOpt p s = (some a, r) := by
  unfold qOpt; rw [h]

theorem qOpt_none {α : Type} {p : Str → Option (α × Str)} {s : Str}
    (h : p (qSkip s) = none) : qOpt p s = (none, s) := by
  unfold qOpt; rw [h]

theorem OpEnd.stops {r : Str} (h : OpEnd r) {p : Char → Bool} (hp : p '|' = false) :
    Stops p (qSkip r) := by
  rcases h.skip with h | ⟨r', h⟩ <;> rw [h]
  · exact stops_nil p
  · exact stops_cons hp

theorem OpEnd.head {r : Str} (h : OpEnd r) {p : Char → Bool} (hp : p ' ' = false) : Stops p r := by
  rcases h with rfl | ⟨r', rfl⟩
  · exact stops_nil p
  · exact stops_cons hp

theorem qRelated_show {d : Option Str} {sel : Option QSelector} (h : ValidOp (.related d sel)) {r : Str}
    (hr : OpEnd r) : qRelated (showQOp (.related d sel) ++ r) = some (.related d sel, r) := by
  obtain ⟨hd, hs⟩ := h
  have e : showQOp (.related d sel) ++ r =
      "related".toList ++ (showQDegree d ++ (showQTarget sel ++ r)) := by
    rw [showQOp_related]; simp only [List.append_assoc]
  have h2 : qOpt qSelector (showQTarget sel ++ r) = (sel, r) := by
    cases sel with
    | none => exact qOpt_none (qSelector_none (hr.stops (by decide)) (hr.stops (by decide)))
    | some x =>
      apply qOpt_some
      show qSelector (qSkip (' ' :: (showQSelector x ++ r))) = _
      rw [qSkip_space, qSkip_stops (selector_stops (hs x rfl) r)]
      exact qSelector_show (hs x rfl) (hr.head (by decide))
  have h1 : qOpt qDegree (showQDegree d ++ (showQTarget sel ++ r)) = (d, showQTarget sel ++ r) := by
    cases d with
    | none =>
      apply qOpt_none
      apply qDegree_none
      cases sel with
      | none => exact hr.stops (by decide)
      | some x =>
        show Stops _ (qSkip (' ' :: (showQSelector x ++ r)))
        rw [qSkip_space, qSkip_stops (selector_stops (hs x rfl) r)]
        cases x with
        | wildcard => exact stops_cons (by decide)
        | type n =>
          obtain ⟨c, cs, rfl, hc, -⟩ := hs _ rfl
          refine stops_cons ?_
          rw [beq_eq_false_iff_ne]; rintro rfl; revert hc; decide
    | some t =>
      apply qOpt_some
      have e2 : showQDegree (some t) ++ (showQTarget sel ++ r) =
          '(' :: t ++ ')' :: (showQTarget sel ++ r) := by simp [showQDegree]
      rw [e2, List.cons_append, qSkip_of (by decide)]
      exact qDegree_show (hd t rfl)
  rw [e]
  unfold qRelated
  rw [qLit_append]
  simp only [h1, h2]

theorem qDirection_show {d : Option SortDirection} {r : Str} (hr : OpEnd r) :
    qOpt (qWord directionWords) (showQDirection d ++ r) = (d, r) := by
  cases d with
  | none =>
    apply qOpt_none
    show qWord directionWords (qSkip r) = none
    simp only [directionWords, qWord]
    rw [show "asc".toList = 'a' :: "sc".toList from rfl, qLit_none (hr.stops (by decide)),
      show "desc".toList = 'd' :: "esc".toList from rfl, qLit_none (hr.stops (by decide))]
  | some x =>
    cases x
    · exact qOpt_some (by
        show qWord directionWords (qSkip (' ' :: 'a' :: 's' :: 'c' :: r)) = _
        rw [qSkip_space, qSkip_of (by decide)]
        simp [directionWords, qWord, qLit, List.isPrefixOf])
    · exact qOpt_some (by
        show qWord directionWords (qSkip (' ' :: 'd' :: 'e' :: 's' :: 'c' :: r)) = _
        rw [qSkip_space, qSkip_of (by decide)]
        simp [directionWords, qWord, qLit, List.isPrefixOf])

theorem qOrder_show {f : QField} {d : Option SortDirection} (h : ValidField f) {r : Str}
    (hr : OpEnd r) : qOrder (showQOp (.order f d) ++ r) = some (.order f d, r) := by
  have e : showQOp (.order f d) ++ r =
      "order".toList ++ (' ' :: (showQField f ++ (showQDirection d ++ r))) := by
    rw [showQOp_order]; simp only [List.append_assoc, List.cons_append]
  have hst : Stops identChar (showQDirection d ++ r) := by
    cases d with
    | none => exact hr.head (by decide)
    | some x => cases x <;> exact stops_cons (by decide)
  rw [e]
  unfold qOrder
  rw [qLit_append]
  simp only
  rw [qSkip_space, qSkip_stops (field_stops h _), qField_show h hst]
  simp only [qDirection_show hr]

theorem qLimit_show {t : Str} (h : IsNumberText t) {r : Str} (hr : OpEnd r) :
    qLimit (showQOp (.limit t) ++ r) = some (.limit t, r) := by
  have e : showQOp (.limit t) ++ r = "limit".toList ++ (' ' :: (t ++ r)) := by
    rw [showQOp_limit]; simp only [List.append_assoc, List.cons_append]
  have hs : qSkip (t ++ r) = t ++ r :=
    qSkip_stops (number_not h (fun c hc => identChar_not_ws (digit_identChar hc)) (by decide))
  rw [e]
  unfold qLimit
  rw [qLit_append]
  simp only
  rw [qSkip_space, hs, qNumber_show h hr.follow.digit hr.follow.dot]

theorem qWhere_none {n : Nat} {s : Str} (h : Stops (· == 'w') s) : qWhere n s = none := by
  unfold qWhere
  rw [show "where".toList = 'w' :: "here".toList from rfl, qLit_none h]

theorem qRelated_none {s : Str} (h : Stops (· == 'r') s) : qRelated s = none := by
  unfold qRelated
  rw [show "related".toList = 'r' :: "elated".toList from rfl, qLit_none h]

theorem qOrder_none {s : Str} (h : Stops (· == 'o') s) : qOrder s = none := by
  unfold qOrder
  rw [show "order".toList = 'o' :: "rder".toList from rfl, qLit_none h]

theorem qLimit_none {s : Str} (h : Stops (· == 'l') s) : qLimit s = none := by
  unfold qLimit
  rw [show "limit".toList = 'l' :: "imit".toList from rfl, qLit_none h]

theorem qOperation_show {o : QOp} (h : ValidOp o) {n : Nat} (hn : (showQOp o).length < n) {r : Str}
    (hr : OpEnd r) : qOperation n (showQOp o ++ r) = some (o, r) := by
  unfold qOperation
  cases o with
  | «where» c more => rw [qWhere_show h.1 h.2 hn hr]
  | related d sel =>
    rw [qRelated_show h hr]
    rw [qWhere_none (by exact stops_cons (by decide))]
  | order f d =>
    rw [qOrder_show h hr]
    rw [qWhere_none (by exact stops_cons (by decide)),
      qRelated_none (by exact stops_cons (by decide))]
  | limit t =>
    rw [qLimit_show h hr]
    rw [qWhere_none (by exact stops_cons (by decide)),
      qRelated_none (by exact stops_cons (by decide)),
      qOrder_none (by exact stops_cons (by decide))]

theorem op_stops {o : QOp} (r : Str) : Stops qWs (showQOp o ++ r) := by
  cases o <;> exact stops_cons (by decide)

/-! ## Aggregations -/

theorem agg_stops (a : QAgg) {p : Char → Bool} (h1 : p 's' = false) (h2 : p 'c' = false)
    (h3 : p 'a' = false) (h4 : p 'm' = false) : Stops p (showQAgg a) := by
  cases a with
  | select fs => cases fs <;> exact stops_cons h1
  | count f => cases f <;> exact stops_cons h2
  | sum f => exact stops_cons h1
  | average f => exact stops_cons h3
  | median f => exact stops_cons h4

theorem qOperation_agg (a : QAgg) (n : Nat) : qOperation n (showQAgg a) = none := by
  unfold qOperation
  rw [qWhere_none (agg_stops a (by decide) (by decide) (by decide) (by decide)),
    qRelated_none (agg_stops a (by decide) (by decide) (by decide) (by decide)),
    qOrder_none (agg_stops a (by decide) (by decide) (by decide) (by decide))]
  exact qLimit_none (agg_stops a (by decide) (by decide) (by decide) (by decide))

theorem qSelect_show {f : QField} {fs : List QField} (h : ∀ x ∈ f :: fs, ValidField x) :
    qSelect (showQAgg (.select (f :: fs))) = some (.select (f :: fs), []) := by
  have hc : Stops identChar (fs.flatMap (fun x => ", ".toList ++ showQField x) ++ []) := by
    cases fs with
    | nil => exact stops_nil _
    | cons x xs => exact stops_cons (by decide)
  have h1 := qMany_show (p := qAfter ',' qField) (sh := fun x => ", ".toList ++ showQField x)
    (rest := []) (Stops identChar) rfl (stops_nil _) fs (fun x _ r => stops_cons (by decide))
    (fun x hx r hr => by
      show qAfter ',' qField (qSkip (',' :: ' ' :: (showQField x ++ r))) = _
      rw [qSkip_of (by decide)]
      simp only [qAfter, if_true]
      rw [qSkip_space, qSkip_stops (field_stops (h x (by simp [hx])) r)]
      exact qField_show (h x (by simp [hx])) hr)
    (fs.flatMap (fun x => ", ".toList ++ showQField x) ++ []).length
    (by
      rw [List.length_append]
      exact Nat.le_trans (length_le_flatMap (fun m _ => by simp)) (Nat.le_add_right _ _))
  have e : showQAgg (.select (f :: fs)) = "select".toList ++
      (' ' :: (showQField f ++ (fs.flatMap (fun x => ", ".toList ++ showQField x) ++ []))) := by
    rw [List.append_nil]; rfl
  rw [e]
  unfold qSelect
  rw [qLit_append]
  simp only
  rw [qSkip_space, qSkip_stops (field_stops (h f (by simp)) _), qField_show (h f (by simp)) hc]
  simp only [h1]

theorem qOver_show {k : Str} {mk : QField → QAgg} {f : QField} (h : ValidField f) :
    qOver k mk (k ++ ' ' :: showQField f) = some (mk f, []) := by
  unfold qOver
  rw [qLit_append]
  simp only
  have e := qField_show h (stops_nil identChar)
  have hs := field_stops h []
  rw [List.append_nil] at e hs
  rw [qSkip_space, qSkip_stops hs, e]

theorem qSelect_none {s : Str} (h : qLit "select".toList s = none) : qSelect s = none := by
  unfold qSelect; rw [h]

theorem qCountClause_none {s : Str} (h : qLit "count".toList s = none) : qCountClause s = none := by
  unfold qCountClause; rw [h]

theorem qOver_none {k s : Str} {mk : QField → QAgg} (h : qLit k s = none) : qOver k mk s = none := by
  unfold qOver; rw [h]

theorem qAggregation_show {a : QAgg} (h : ValidAgg a) : qAggregation (showQAgg a) = some (a, []) := by
  unfold qAggregation
  cases a with
  | select fs =>
    cases fs with
    | nil => exact absurd rfl h.1
    | cons f fs => rw [qSelect_show h.2]
  | count f =>
    have hc : qCountClause (showQAgg (.count f)) = some (.count f, []) := by
      cases f with
      | none => rfl
      | some f =>
        have hf : ValidField f := h f rfl
        have e := qField_show hf (stops_nil identChar)
        have hs := field_stops hf []
        rw [List.append_nil] at e hs
        have : qOpt qField (' ' :: showQField f) = (some f, []) := by
          apply qOpt_some
          rw [qSkip_space, qSkip_stops hs, e]
        show qCountClause ("count".toList ++ ' ' :: showQField f) = _
        unfold qCountClause
        rw [qLit_append]
        simp only [this]
    rw [hc]
    rw [qSelect_none (by cases f <;> exact qLit_none (a := 's') (stops_cons (by decide)))]
  | sum f =>
    have := qOver_show (k := "sum".toList) (mk := .sum) (f := f) h
    rw [show showQAgg (.sum f) = "sum".toList ++ ' ' :: showQField f from rfl, this]
    rw [qSelect_none (by simp [qLit, List.isPrefixOf]),
      qCountClause_none (by simp [qLit, List.isPrefixOf])]
  | average f =>
    have := qOver_show (k := "average".toList) (mk := .average) (f := f) h
    rw [show showQAgg (.average f) = "average".toList ++ ' ' :: showQField f from rfl, this]
    rw [qSelect_none (by simp [qLit, List.isPrefixOf]),
      qCountClause_none (by simp [qLit, List.isPrefixOf]),
      qOver_none (by simp [qLit, List.isPrefixOf])]
  | median f =>
    have := qOver_show (k := "median".toList) (mk := .median) (f := f) h
    rw [show showQAgg (.median f) = "median".toList ++ ' ' :: showQField f from rfl, this]
    rw [qSelect_none (by simp [qLit, List.isPrefixOf]),
      qCountClause_none (by simp [qLit, List.isPrefixOf]),
      qOver_none (by simp [qLit, List.isPrefixOf]),
      qOver_none (by simp [qLit, List.isPrefixOf])]

/-! ## Whole queries -/

theorem qQuery_show {q : QTree} (h : ValidTree q) : qQuery (showQuery q) = some q := by
  obtain ⟨sel, ops, agg⟩ := q
  obtain ⟨h1, h2, h3⟩ := h
  generalize hsh : (fun o : QOp => " | ".toList ++ showQOp o) = sh
  have hshe : ∀ o, sh o = ' ' :: '|' :: ' ' :: showQOp o := by intro o; rw [← hsh]; rfl
  have e : showQuery ⟨sel, ops, agg⟩ =
      "from".toList ++ (' ' :: (showQSelector sel ++ (ops.flatMap sh ++ showQEnd agg))) := by
    simp [showQuery, ← hsh]
  generalize hN : (showQuery ⟨sel, ops, agg⟩).length + 1 = N
  have hend : OpEnd (showQEnd agg) := by
    cases agg with
    | none => exact .inl rfl
    | some a => exact .inr ⟨_, rfl⟩
  have hopen : OpEnd (ops.flatMap sh ++ showQEnd agg) := by
    cases ops with
    | nil => exact hend
    | cons o os => exact .inr ⟨_, by rw [List.flatMap_cons, hshe]; rfl⟩
  have hlen : ∀ o ∈ ops, (showQOp o).length < N := by
    intro o ho
    have h4 := mem_length_flatMap (sh := sh) ho
    rw [e] at hN
    simp only [List.length_append, List.length_cons] at hN
    have h5 : (showQOp o).length ≤ (sh o).length := by
      rw [hshe]
      simp only [List.length_cons]
      omega
    omega
  have hstop : qAfter '|' (qOperation N) (qSkip (showQEnd agg)) = none := by
    cases agg with
    | none => rfl
    | some a =>
      show qAfter '|' (qOperation N) (qSkip (' ' :: '|' :: ' ' :: showQAgg a)) = none
      rw [qSkip_space, qSkip_of (by decide)]
      simp only [qAfter, if_true]
      rw [qSkip_space, qSkip_stops (agg_stops a (by decide) (by decide) (by decide) (by decide))]
      exact qOperation_agg a N
  have hmany := qMany_show (p := qAfter '|' (qOperation N)) (sh := sh) (rest := showQEnd agg) OpEnd
    hstop hend ops (fun o _ r => .inr ⟨_, by rw [hshe]; rfl⟩)
    (fun o ho r hr => by
      rw [hshe]
      show qAfter '|' (qOperation N) (qSkip (' ' :: '|' :: ' ' :: (showQOp o ++ r))) = _
      rw [qSkip_space, qSkip_of (by decide)]
      simp only [qAfter, if_true]
      rw [qSkip_space, qSkip_stops (op_stops r)]
      exact qOperation_show (h2 o ho) (hlen o ho) hr)
    (ops.flatMap sh ++ showQEnd agg).length
    (by
      rw [List.length_append]
      exact Nat.le_trans (length_le_flatMap (fun m _ => by simp [hshe])) (Nat.le_add_right _ _))
  have hagg : qOpt (qAfter '|' qAggregation) (showQEnd agg) = (agg, []) := by
    cases agg with
    | none => rfl
    | some a =>
      apply qOpt_some
      show qAfter '|' qAggregation (qSkip (' ' :: '|' :: ' ' :: showQAgg a)) = _
      rw [qSkip_space, qSkip_of (by decide)]
      simp only [qAfter, if_true]
      rw [qSkip_space, qSkip_stops (agg_stops a (by decide) (by decide) (by decide) (by decide))]
      exact qAggregation_show (h3 a rfl)
  unfold qQuery
  rw [hN, e]
  rw [qSkip_stops (s := "from".toList ++ _) (stops_cons (by decide)), qLit_append]
  simp only
  rw [qSkip_space, qSkip_stops (selector_stops h1 _), qSelector_show h1 (hopen.head (by decide))]
  simp only [hmany, hagg]
  rfl

end Firm
