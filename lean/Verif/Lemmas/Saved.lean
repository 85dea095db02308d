import Verif.Spec.Saved
import Verif.Lemmas.QueryText
import Verif.Lemmas.Strings

/-!
# JSON texts: reading what was written
-/

namespace Firm
open Spec

/-! ## Strings -/

theorem hexVal_hexDigit : ∀ n < 16, hexVal (hexDigit n) = some n := by decide

theorem controls : ∀ n < 32, Char.ofNat (((0 * 16 + 0) * 16 + n / 16) * 16 + n % 16) = Char.ofNat n := by decide

theorem jChar_text (c : Char) (rest : Str) : jChar (jsonChar c ++ rest) = some (c, rest) := by
  unfold jsonChar
  by_cases h1 : c = '"'
  · subst h1; rfl
  by_cases h2 : c = '\\'
  · subst h2; rfl
  by_cases h3 : c.toNat = 8
  · have : c = Char.ofNat 8 := by rw [← h3, Char.ofNat_toNat]
    subst this; rfl
  by_cases h4 : c.toNat = 12
  · have : c = Char.ofNat 12 := by rw [← h4, Char.ofNat_toNat]
    subst this; rfl
  by_cases h5 : c = '\n'
  · subst h5; rfl
  by_cases h6 : c = '\r'
  · subst h6; rfl
  by_cases h7 : c = '\t'
  · subst h7; rfl
  rw [if_neg h1, if_neg h2, if_neg h3, if_neg h4, if_neg h5, if_neg h6, if_neg h7]
  by_cases h8 : c.toNat < 32
  · rw [if_pos h8]
    have ha : hexVal (hexDigit (c.toNat / 16)) = some (c.toNat / 16) := hexVal_hexDigit _ (by omega)
    have hb : hexVal (hexDigit (c.toNat % 16)) = some (c.toNat % 16) := hexVal_hexDigit _ (by omega)
    have h0 : hexVal '0' = some 0 := by decide
    show jUnicode ('0' :: '0' :: hexDigit (c.toNat / 16) :: hexDigit (c.toNat % 16) :: rest) = some (c, rest)
    unfold jUnicode hex4
    simp only [ha, hb, h0]
    rw [if_pos (by omega), controls _ h8, Char.ofNat_toNat]
  · rw [if_neg h8]
    show jChar (c :: rest) = some (c, rest)
    rw [jChar.eq_4 c rest (fun h _ => h2 h) (fun _ _ h _ => h2 h), if_neg h8]

theorem jsonChar_ne_nil (c : Char) : jsonChar c ≠ [] := by
  unfold jsonChar
  repeat' split
  all_goals simp

theorem jsonChar_head (c : Char) (rest : Str) : (jsonChar c ++ rest).head? ≠ some '"' := by
  unfold jsonChar
  repeat' split
  all_goals simp
  all_goals assumption

theorem jString_step {n : Nat} {s : Str} (h : s.head? ≠ some '"') :
    jString (n + 1) s = match jChar s with
      | none => none
      | some (c, r) => (jString n r).map fun p => (c :: p.1, p.2) := by
  cases s with
  | nil => rfl
  | cons c s =>
    have : c ≠ '"' := by simpa using h
    rw [jString]
    · rfl
    · intro r hr
      cases hr
      exact this rfl

theorem jString_text (s rest : Str) : ∀ n, s.length < n →
    jString n (s.flatMap jsonChar ++ '"' :: rest) = some (s, rest) := by
  induction s with
  | nil =>
    intro n hn
    cases n with
    | zero => simp at hn
    | succ n => rfl
  | cons c s ih =>
    intro n hn
    cases n with
    | zero => simp at hn
    | succ n =>
      rw [List.flatMap_cons, List.append_assoc, jString_step (jsonChar_head c _), jChar_text]
      simp only [ih n (by simpa using hn), Option.map_some]

theorem flatMap_length (s : Str) : s.length ≤ (s.flatMap jsonChar).length := by
  induction s with
  | nil => simp
  | cons c s ih =>
    rw [List.flatMap_cons, List.length_append]
    have := List.length_pos_iff.2 (jsonChar_ne_nil c)
    simp only [List.length_cons]
    omega

theorem jString_read (s rest : Str) :
    jString ((s.flatMap jsonChar ++ '"' :: rest).length + 1) (s.flatMap jsonChar ++ '"' :: rest) = some (s, rest) := by
  apply jString_text
  have := flatMap_length s
  simp only [List.length_append, List.length_cons]
  omega

/-! ## Numbers -/

theorem showNatGo_head (k n : Nat) (h : n < k) : (showNatGo k n).head? = some '0' → n = 0 := by
  induction k generalizing n with
  | zero => omega
  | succ k ih =>
    unfold showNatGo
    by_cases h10 : n < 10
    · rw [if_pos h10]
      intro h
      have hc : ∀ n < 10, digitChar n = '0' → n = 0 := by decide
      exact hc n h10 (by simpa using h)
    · rw [if_neg h10]
      intro hh
      have hne := (showNatGo_spec k (n / 10) (by omega)).2.1
      have : (showNatGo k (n / 10)).head? = some '0' := by
        cases hs : showNatGo k (n / 10) with
        | nil => exact absurd hs hne
        | cons c s =>
          rw [hs] at hh
          exact hh
      have := ih (n / 10) (by omega) this
      omega

theorem isJsonNat_show (n : Nat) : isJsonNat (showNat n) = true := by
  unfold isJsonNat
  simp only [Bool.and_eq_true, List.all_eq_true, bne_iff_ne, Bool.or_eq_true, beq_iff_eq]
  refine ⟨⟨showNat_digits n, ?_⟩, showNat_ne_nil n⟩
  by_cases h : (showNat n).head? = some '0'
  · have := showNatGo_head _ _ (Nat.lt_succ_self n) h
    subst this
    exact .inr rfl
  · exact .inl h

/-- Numbers that the text layer can hold. -/
def NumOk (C : Codec) : JsonNumber → Prop
  | .pos n => n < 2 ^ 64
  | .neg n => n < 2 ^ 63
  | .float f => FloatReads C f

theorem numChar_digit {c : Char} (h : isDigit c = true) : numChar c = true := by simp [numChar, h]

theorem digit_ne_dash {c : Char} (h : isDigit c = true) : c ≠ '-' := by
  rintro rfl; revert h; decide

theorem jsonNumber_shape {C : Codec} {k : JsonNumber} (h : NumOk C k) :
    (∀ c ∈ jsonNumber C k, numChar c = true) ∧ ∃ c s, jsonNumber C k = c :: s ∧ (c = '-' ∨ isDigit c = true) := by
  cases k with
  | pos n =>
    refine ⟨fun c hc => numChar_digit (showNat_digits n c hc), ?_⟩
    cases hs : showNat n with
    | nil => exact absurd hs (showNat_ne_nil n)
    | cons c s => exact ⟨c, s, hs, .inr (showNat_digits n c (by simp [hs]))⟩
  | neg n =>
    refine ⟨?_, '-', _, rfl, .inl rfl⟩
    intro c hc
    rcases List.mem_cons.1 hc with rfl | hc
    · decide
    · exact numChar_digit (showNat_digits _ c hc)
  | float f =>
    obtain ⟨_, h2, ⟨c, hc, _⟩, h4⟩ := h
    refine ⟨h2, ?_⟩
    cases hs : C.floatText f with
    | nil => rw [hs] at hc; cases hc
    | cons c s => exact ⟨c, s, hs, h4 c (by simp [hs])⟩

theorem readJsonNumber_text {C : Codec} {k : JsonNumber} (h : NumOk C k) :
    readJsonNumber C (jsonNumber C k) = some k := by
  cases k with
  | pos n =>
    have hs := isJsonNat_show n
    have hp := parseNat_showNat n
    have hd := showNat_digits n
    simp only [jsonNumber]
    generalize showNat n = s at hs hp hd
    unfold readJsonNumber
    split
    · next r => exact absurd rfl (digit_ne_dash (hd '-' (by simp)))
    · have h' : n < 2 ^ 64 := h
      simp only [hs, if_true, hp, if_pos h']
  | neg n =>
    have h' : n < 2 ^ 63 := h
    simp only [jsonNumber, readJsonNumber, isJsonNat_show, if_true, parseNat_showNat, if_pos h']
  | float f =>
    obtain ⟨h1, _, ⟨c, hc, h3, h3'⟩, _⟩ := h
    have hno : ∀ r : Str, c ∈ r → isJsonNat r = false := by
      intro r hr
      cases hn : isJsonNat r with
      | false => rfl
      | true =>
        simp only [isJsonNat, Bool.and_eq_true, List.all_eq_true] at hn
        rw [hn.1.1 c hr] at h3
        cases h3
    simp only [jsonNumber]
    generalize C.floatText f = s at h1 hc
    unfold readJsonNumber
    split
    · next r =>
      have hr : c ∈ r := (List.mem_cons.1 hc).resolve_left h3'
      simp [hno r hr, h1]
    · simp [hno s hc, h1]

/-! ## Trees -/

/-- Trees that can be read when so many levels may be opened. -/
inductive Readable (C : Codec) : Nat → JVal → Prop
  | null (n : Nat) : Readable C n .null
  | bool (n : Nat) (b : Bool) : Readable C n (.bool b)
  | string (n : Nat) (s : Str) : Readable C n (.string s)
  | number (n : Nat) {k : JsonNumber} : NumOk C k → Readable C n (.number k)
  | array {n : Nat} {vs : List JVal} : (∀ v ∈ vs, Readable C n v) → Readable C (n + 1) (.array vs)
  | object {n : Nat} {es : List (Str × JVal)} : (∀ e ∈ es, Readable C n e.2) → Readable C (n + 1) (.object es)

/-- The text that follows ends a number. -/
def EndsNumber (r : Str) : Prop := Stops numChar r

theorem jSkip_stops {s : Str} (h : Stops jWs s) : jSkip s = s := by
  have := (span_stop (a := []) (by simp) h).2
  simpa [jSkip] using this

theorem jSkip_cons {c : Char} {s : Str} (h : jWs c = false) : jSkip (c :: s) = c :: s := by
  simp [jSkip, h]

/-- `p` reads the text of `a` before anything that may follow an item. -/
def ReadsItem {α : Type} (p : Str → Option (α × Str)) (text : α → Str) (a : α) : Prop :=
  (∃ c s, text a = c :: s ∧ jWs c = false ∧ c ≠ ']' ∧ c ≠ '}') ∧
    ∀ r, EndsNumber r → p (text a ++ r) = some (a, r)

theorem jTail_text {α : Type} {p : Str → Option (α × Str)} {text : α → Str} {close : Char} (hc : close = ']' ∨ close = '}')
    (rest : Str) : ∀ (as : List α), (∀ a ∈ as, ReadsItem p text a) → ∀ n, as.length < n →
    jTail p close n ((as.flatMap fun a => ',' :: text a) ++ close :: rest) = some (as, rest) := by
  have hw : jWs close = false := by rcases hc with rfl | rfl <;> decide
  have hends : EndsNumber (close :: rest) := stops_cons (by rcases hc with rfl | rfl <;> decide)
  have hne : (',' : Char) ≠ close := by rcases hc with rfl | rfl <;> decide
  intro as
  induction as with
  | nil =>
    intro _ n hn
    cases n with
    | zero => simp at hn
    | succ n =>
      rw [List.flatMap_nil, List.nil_append, jTail, jSkip_cons hw]
      simp
  | cons a as ih =>
    intro ha n hn
    cases n with
    | zero => simp at hn
    | succ n =>
      obtain ⟨⟨c, s, hs, hcw, _⟩, hp⟩ := ha a (by simp)
      have hr : EndsNumber ((as.flatMap fun a => ',' :: text a) ++ close :: rest) := by
        cases as with
        | nil => simpa using hends
        | cons b bs =>
          rw [List.flatMap_cons]
          exact stops_cons (by decide)
      have hcomma : jWs ',' = false := by decide
      rw [List.flatMap_cons]
      simp only [List.cons_append, List.append_assoc]
      rw [jTail, jSkip_cons hcomma]
      simp only [if_neg hne, if_true]
      have : jSkip (text a ++ ((as.flatMap fun a => ',' :: text a) ++ close :: rest)) =
          text a ++ ((as.flatMap fun a => ',' :: text a) ++ close :: rest) := by
        rw [hs, List.cons_append]
        exact jSkip_cons hcw
      rw [this, hp _ hr]
      simp only [ih (fun b hb => ha b (by simp [hb])) n (by simpa using hn), Option.map_some]

theorem joinWith_comma {α : Type} (text : α → Str) (a : α) (as : List α) :
    joinWith [','] ((a :: as).map text) = text a ++ as.flatMap fun a => ',' :: text a := by
  induction as generalizing a with
  | nil => simp [joinWith]
  | cons b bs ih =>
    have := ih b
    simp only [List.map_cons] at this ⊢
    rw [joinWith, this]
    simp

theorem flatMap_commas {α : Type} (text : α → Str) (as : List α) :
    as.length ≤ (as.flatMap fun a => ',' :: text a).length := by
  induction as with
  | nil => simp
  | cons a as ih =>
    rw [List.flatMap_cons, List.length_append]
    simp only [List.length_cons]
    omega

theorem jSeq_text {α : Type} {p : Str → Option (α × Str)} {text : α → Str} {close : Char} (hc : close = ']' ∨ close = '}')
    (rest : Str) (as : List α) (ha : ∀ a ∈ as, ReadsItem p text a) :
    jSeq p close (joinWith [','] (as.map text) ++ close :: rest) = some (as, rest) := by
  have hw : jWs close = false := by rcases hc with rfl | rfl <;> decide
  have hends : EndsNumber (close :: rest) := stops_cons (by rcases hc with rfl | rfl <;> decide)
  cases as with
  | nil =>
    simp only [List.map_nil, joinWith, List.nil_append]
    rw [jSeq, jSkip_cons hw]
    simp
  | cons a as =>
    obtain ⟨⟨c, s, hs, hcw, h1, h2⟩, hp⟩ := ha a (by simp)
    have hr : EndsNumber ((as.flatMap fun a => ',' :: text a) ++ close :: rest) := by
      cases as with
      | nil => simpa using hends
      | cons b bs =>
        rw [List.flatMap_cons]
        exact stops_cons (by decide)
    have hne : c ≠ close := by rcases hc with rfl | rfl <;> assumption
    rw [joinWith_comma, List.append_assoc, jSeq]
    have hskip : jSkip (text a ++ ((as.flatMap fun a => ',' :: text a) ++ close :: rest)) =
        c :: (s ++ ((as.flatMap fun a => ',' :: text a) ++ close :: rest)) := by
      rw [hs, List.cons_append]
      exact jSkip_cons hcw
    rw [hskip]
    simp only [if_neg hne]
    have hp' := hp _ hr
    rw [hs, List.cons_append] at hp'
    rw [hp']
    simp only
    rw [jTail_text hc rest as (fun b hb => ha b (by simp [hb]))]
    · rfl
    · have := flatMap_commas text as
      simp only [List.length_append, List.length_cons]
      omega

theorem jsonTexts_map (C : Codec) (vs : List JVal) : jsonTexts C vs = vs.map (jsonText C) := by
  induction vs with
  | nil => rfl
  | cons v vs ih => simp [jsonTexts, ih]

theorem jsonEntries_map (C : Codec) (es : List (Str × JVal)) : jsonEntries C es = es.map (jsonEntry C) := by
  induction es with
  | nil => rfl
  | cons v vs ih => simp [jsonEntries, ih]

theorem start_plain {c : Char} (h : c = '-' ∨ isDigit c = true) : jWs c = false ∧ c ≠ ']' ∧ c ≠ '}' ∧ c ≠ '"' ∧ c ≠ '[' ∧
    c ≠ '{' ∧ c ≠ 'n' ∧ c ≠ 't' ∧ c ≠ 'f' := by
  rcases h with rfl | h
  · decide
  · refine ⟨?_, ?_, ?_, ?_, ?_, ?_, ?_, ?_, ?_⟩
    · unfold isDigit at h
      simp only [Bool.and_eq_true, decide_eq_true_eq] at h
      unfold jWs
      simp only [Bool.or_eq_false_iff, beq_eq_false_iff_ne]
      refine ⟨⟨⟨?_, ?_⟩, ?_⟩, ?_⟩ <;> (rintro rfl; revert h; decide)
    all_goals (rintro rfl; revert h; decide)

theorem jsonText_head {C : Codec} {n : Nat} {v : JVal} (h : Readable C n v) :
    ∃ c s, jsonText C v = c :: s ∧ jWs c = false ∧ c ≠ ']' ∧ c ≠ '}' := by
  cases h with
  | null => exact ⟨'n', "ull".toList, rfl, by decide⟩
  | bool n b => cases b with
    | true => exact ⟨'t', "rue".toList, rfl, by decide⟩
    | false => exact ⟨'f', "alse".toList, rfl, by decide⟩
  | string => exact ⟨'"', _, rfl, by decide⟩
  | number n hk =>
    obtain ⟨_, c, s, hs, hc⟩ := jsonNumber_shape hk
    obtain ⟨h1, h2, h3, _⟩ := start_plain hc
    exact ⟨c, s, hs, h1, h2, h3⟩
  | array => exact ⟨'[', _, rfl, by decide⟩
  | object => exact ⟨'{', _, rfl, by decide⟩

theorem jValue_text (C : Codec) : ∀ (n : Nat) {v : JVal}, Readable C n v → ∀ r, EndsNumber r →
    jValue C n (jsonText C v ++ r) = some (v, r) := by
  intro n
  induction n with
  | zero =>
    intro v h r hr
    cases h with
    | null => rfl
    | bool _ b => cases b <;> rfl
    | string _ s =>
      simp only [jsonText, jsonString, List.cons_append, List.append_assoc, List.nil_append]
      rw [jValue, if_pos rfl, jString_read]
      rfl
    | @number _ k hk =>
      obtain ⟨hall, c, s, hs, hc⟩ := jsonNumber_shape hk
      obtain ⟨_, _, _, h1, h2, h3, h4, h5, h6⟩ := start_plain hc
      have hspan := span_stop (p := numChar) hall hr
      have hread := readJsonNumber_text hk
      simp only [jsonText]
      rw [hs] at hspan hread ⊢
      rw [List.cons_append] at hspan ⊢
      rw [jValue, if_neg h1, if_neg h2, if_neg h3, if_neg h4, if_neg h5, if_neg h6, if_pos hc, hspan.1, hspan.2, hread]
      rfl
  | succ n ih =>
    intro v h r hr
    cases h with
    | null => rfl
    | bool _ b => cases b <;> rfl
    | string _ s =>
      simp only [jsonText, jsonString, List.cons_append, List.append_assoc, List.nil_append]
      rw [jValue, if_pos rfl, jString_read]
      rfl
    | @number _ k hk =>
      obtain ⟨hall, c, s, hs, hc⟩ := jsonNumber_shape hk
      obtain ⟨_, _, _, h1, h2, h3, h4, h5, h6⟩ := start_plain hc
      have hspan := span_stop (p := numChar) hall hr
      have hread := readJsonNumber_text hk
      simp only [jsonText]
      rw [hs] at hspan hread ⊢
      rw [List.cons_append] at hspan ⊢
      rw [jValue, if_neg h1, if_neg h2, if_neg h3, if_neg h4, if_neg h5, if_neg h6, if_pos hc, hspan.1, hspan.2, hread]
      rfl
    | @array _ vs hvs =>
      simp only [jsonText, jsonTexts_map, List.cons_append, List.append_assoc, List.nil_append]
      rw [jValue, if_neg (by decide), if_pos rfl]
      rw [jSeq_text (.inl rfl) r vs (fun v hv => ⟨jsonText_head (hvs v hv), fun r hr => ih (hvs v hv) r hr⟩)]
      rfl
    | @object _ es hes =>
      simp only [jsonText, jsonEntries_map, List.cons_append, List.append_assoc, List.nil_append]
      rw [jValue, if_neg (by decide), if_neg (by decide), if_pos rfl]
      rw [jSeq_text (.inr rfl) r es]
      · rfl
      · intro e he
        obtain ⟨k, v⟩ := e
        refine ⟨⟨'"', _, rfl, by decide⟩, ?_⟩
        intro r hr
        simp only [jsonEntry, jsonString, List.cons_append, List.append_assoc, List.nil_append]
        rw [jEntry, jString_read]
        have hcolon : jWs ':' = false := by decide
        simp only [jSkip_cons hcolon]
        obtain ⟨c, s, hs, hw, _⟩ := jsonText_head (hes _ he)
        have : jSkip (jsonText C v ++ r) = jsonText C v ++ r := by
          rw [hs, List.cons_append]
          exact jSkip_cons hw
        rw [this, ih (hes _ he) r hr]
        rfl

/-! ## More text, more levels -/

theorem hex4_append {s r : Str} {n : Nat} (t : Str) (h : hex4 s = some (n, r)) : hex4 (s ++ t) = some (n, r ++ t) := by
  match s, h with
  | a :: b :: c :: d :: s, h =>
    simp only [hex4, List.cons_append] at h ⊢
    cases ha : hexVal a <;> cases hb : hexVal b <;> cases hc : hexVal c <;> cases hd : hexVal d <;>
      simp only [ha, hb, hc, hd] at h ⊢ <;> cases h
    rfl

theorem jUnicode_append {s r : Str} {c : Char} (t : Str) (h : jUnicode s = some (c, r)) :
    jUnicode (s ++ t) = some (c, r ++ t) := by
  unfold jUnicode at h ⊢
  cases h4 : hex4 s with
  | none => rw [h4] at h; cases h
  | some x =>
    obtain ⟨n, r1⟩ := x
    rw [h4] at h
    rw [hex4_append t h4]
    simp only at h ⊢
    by_cases h1 : n < 0xD800 ∨ 0xE000 ≤ n
    · rw [if_pos h1] at h ⊢
      cases h
      rfl
    rw [if_neg h1] at h ⊢
    by_cases h2 : 0xDC00 ≤ n
    · rw [if_pos h2] at h; cases h
    rw [if_neg h2] at h ⊢
    split at h
    · rename_i r2
      simp only [List.cons_append]
      cases h5 : hex4 r2 with
      | none => rw [h5] at h; cases h
      | some y =>
        obtain ⟨m, r3⟩ := y
        rw [h5] at h
        rw [hex4_append t h5]
        simp only at h ⊢
        by_cases h3 : 0xDC00 ≤ m ∧ m < 0xE000
        · rw [if_pos h3] at h ⊢
          simp only [Option.some.injEq, Prod.mk.injEq] at h ⊢
          exact ⟨h.1, by rw [h.2]⟩
        · rw [if_neg h3] at h; cases h
    · cases h

theorem jChar_append {s r : Str} {c : Char} (t : Str) (h : jChar s = some (c, r)) :
    jChar (s ++ t) = some (c, r ++ t) := by
  cases s with
  | nil => cases h
  | cons a s =>
    by_cases ha : a = '\\'
    · subst ha
      cases s with
      | nil => cases h
      | cons e s =>
        simp only [List.cons_append, jChar] at h ⊢
        repeat
          first
          | exact jUnicode_append t h
          | (split at h
             · rename_i he; simp only [if_pos he]; first | (cases h; rfl) | exact jUnicode_append t h
             rename_i he
             rw [if_neg he])
        cases h
    · rw [List.cons_append, jChar.eq_4 a _ (fun h _ => ha h) (fun _ _ h _ => ha h)]
      rw [jChar.eq_4 a _ (fun h _ => ha h) (fun _ _ h _ => ha h)] at h
      split at h
      · cases h
      · rename_i hl
        rw [if_neg hl]
        cases h
        rfl

theorem jString_append {n : Nat} {s a r : Str} (t : Str) (h : jString n s = some (a, r)) :
    ∀ m, n ≤ m → jString m (s ++ t) = some (a, r ++ t) := by
  induction n generalizing s a with
  | zero => cases h
  | succ n ih =>
    intro m hm
    obtain ⟨m, rfl⟩ : ∃ k, m = k + 1 := ⟨m - 1, by omega⟩
    by_cases hq : s.head? = some '"'
    · cases s with
      | nil => cases hq
      | cons c s =>
        have : c = '"' := by simpa using hq
        subst this
        simp only [jString, List.cons_append] at h ⊢
        cases h
        rfl
    · rw [jString_step hq] at h
      cases hc : jChar s with
      | none => rw [hc] at h; cases h
      | some x =>
        obtain ⟨c, r1⟩ := x
        rw [hc] at h
        simp only [Option.map_eq_some_iff] at h
        obtain ⟨⟨b, r2⟩, hb, hbe⟩ := h
        cases hbe
        have hne : s ≠ [] := by rintro rfl; cases hc
        have hq' : (s ++ t).head? ≠ some '"' := by
          cases s with
          | nil => exact absurd rfl hne
          | cons c s => exact hq
        rw [jString_step hq', jChar_append t hc]
        simp only [ih hb m (by omega), Option.map_some]

theorem jSkip_append {s r : Str} {c : Char} (t : Str) (h : jSkip s = c :: r) : jSkip (s ++ t) = c :: (r ++ t) := by
  induction s with
  | nil => cases h
  | cons a s ih =>
    unfold jSkip at h ih ⊢
    rw [List.cons_append]
    by_cases ha : jWs a = true
    · rw [List.dropWhile_cons_of_pos ha] at h ⊢
      exact ih h
    · rw [List.dropWhile_cons_of_neg ha] at h ⊢
      cases h
      rfl

/-- `q` reads at least what `p` reads, also before more text. -/
def Extends {α : Type} (p q : Str → Option (α × Str)) : Prop :=
  p [] = none ∧ ∀ s a r t, p s = some (a, r) → r ≠ [] → q (s ++ t) = some (a, r ++ t)

theorem jTail_ne_nil {α : Type} {p : Str → Option (α × Str)} {close : Char} {n : Nat} {s : Str} {x : List α × Str}
    (h : jTail p close n s = some x) : s ≠ [] := by
  rintro rfl
  cases n <;> cases h

theorem jTail_append {α : Type} {p q : Str → Option (α × Str)} {close : Char} (hpq : Extends p q) {n : Nat}
    {s r : Str} {as : List α} (t : Str) (h : jTail p close n s = some (as, r)) :
    ∀ m, n ≤ m → jTail q close m (s ++ t) = some (as, r ++ t) := by
  induction n generalizing s as with
  | zero => cases h
  | succ n ih =>
    intro m hm
    obtain ⟨m, rfl⟩ : ∃ k, m = k + 1 := ⟨m - 1, by omega⟩
    rw [jTail] at h ⊢
    cases hs : jSkip s with
    | nil => rw [hs] at h; cases h
    | cons c r1 =>
      rw [hs] at h
      rw [jSkip_append t hs]
      simp only at h ⊢
      by_cases hc : c = close
      · rw [if_pos hc] at h ⊢
        cases h
        rfl
      rw [if_neg hc] at h ⊢
      by_cases hk : c = ','
      · rw [if_pos hk] at h ⊢
        cases hr : jSkip r1 with
        | nil => rw [hr, hpq.1] at h; cases h
        | cons d r2 =>
          rw [hr] at h
          rw [jSkip_append t hr]
          cases hp : p (d :: r2) with
          | none => rw [hp] at h; cases h
          | some x =>
            obtain ⟨a, r3⟩ := x
            rw [hp] at h
            simp only [Option.map_eq_some_iff] at h
            obtain ⟨⟨bs, r4⟩, hb, hbe⟩ := h
            cases hbe
            have := hpq.2 _ _ _ t hp (jTail_ne_nil hb)
            rw [List.cons_append] at this
            rw [this]
            simp only [ih hb m (by omega), Option.map_some]
      · rw [if_neg hk] at h; cases h

theorem jSeq_append {α : Type} {p q : Str → Option (α × Str)} {close : Char} (hpq : Extends p q)
    {s r : Str} {as : List α} (t : Str) (h : jSeq p close s = some (as, r)) :
    jSeq q close (s ++ t) = some (as, r ++ t) := by
  rw [jSeq] at h ⊢
  cases hs : jSkip s with
  | nil => rw [hs] at h; cases h
  | cons c r1 =>
    rw [hs] at h
    rw [jSkip_append t hs]
    simp only at h ⊢
    by_cases hc : c = close
    · rw [if_pos hc] at h ⊢
      cases h
      rfl
    rw [if_neg hc] at h ⊢
    cases hp : p (c :: r1) with
    | none => rw [hp] at h; cases h
    | some x =>
      obtain ⟨a, r3⟩ := x
      rw [hp] at h
      simp only [Option.map_eq_some_iff] at h
      obtain ⟨⟨bs, r4⟩, hb, hbe⟩ := h
      cases hbe
      have := hpq.2 _ _ _ t hp (jTail_ne_nil hb)
      rw [List.cons_append] at this
      rw [this]
      have := jTail_append hpq t hb ((r3 ++ t).length + 1) (by simp)
      simp only [this, Option.map_some]

theorem jEntry_append {p q : Str → Option (JVal × Str)} (hpq : Extends p q) : Extends (jEntry p) (jEntry q) := by
  refine ⟨rfl, ?_⟩
  intro s a r t h hr
  cases s with
  | nil => cases h
  | cons c s =>
    by_cases hc : c = '"'
    · subst hc
      simp only [jEntry, List.cons_append] at h ⊢
      cases hj : jString (s.length + 1) s with
      | none => rw [hj] at h; cases h
      | some x =>
        obtain ⟨k, r1⟩ := x
        rw [hj] at h
        rw [jString_append t hj _ (by simp)]
        simp only at h ⊢
        split at h
        · rename_i r2 hs
          rw [jSkip_append t hs]
          simp only
          cases hr2 : jSkip r2 with
          | nil => rw [hr2, hpq.1] at h; cases h
          | cons d r3 =>
            rw [hr2] at h
            rw [jSkip_append t hr2]
            simp only [Option.map_eq_some_iff] at h
            obtain ⟨⟨v, r4⟩, hv, hve⟩ := h
            cases hve
            have := hpq.2 _ _ _ t hv hr
            rw [List.cons_append] at this
            rw [this]
            rfl
        · cases h
    · rw [jEntry.eq_2] at h
      · cases h
      · intro r hr; cases hr; exact hc rfl

theorem qLit_more {w s r : Str} (t : Str) (h : qLit w s = some r) : qLit w (s ++ t) = some (r ++ t) := by
  unfold qLit at h ⊢
  split at h
  · rename_i hp
    obtain ⟨u, hu⟩ := List.isPrefixOf_iff_prefix.1 hp
    cases h
    subst hu
    have : w.isPrefixOf (w ++ u ++ t) = true := List.isPrefixOf_iff_prefix.2 ⟨u ++ t, by simp⟩
    rw [if_pos this]
    simp
  · cases h

theorem takeWhile_append_of {p : Char → Bool} {s t : Str} (h : s.dropWhile p ≠ [] ∨ t = []) :
    (s ++ t).takeWhile p = s.takeWhile p ∧ (s ++ t).dropWhile p = s.dropWhile p ++ t := by
  rcases h with h | rfl
  · induction s with
    | nil => exact absurd rfl h
    | cons a s ih =>
      rw [List.cons_append]
      by_cases ha : p a = true
      · rw [List.dropWhile_cons_of_pos ha] at h ⊢
        rw [List.takeWhile_cons_of_pos ha, List.takeWhile_cons_of_pos ha, List.dropWhile_cons_of_pos ha]
        exact ⟨by rw [(ih h).1], (ih h).2⟩
      · rw [List.dropWhile_cons_of_neg ha, List.takeWhile_cons_of_neg ha, List.takeWhile_cons_of_neg ha,
          List.dropWhile_cons_of_neg ha]
        exact ⟨rfl, rfl⟩
  · simp

theorem jValue_cons (C : Codec) (n : Nat) (c : Char) (r : Str) : jValue C n (c :: r) =
    if c = '"' then (jString (r.length + 1) r).map fun q => (.string q.1, q.2)
    else if c = '[' then
      match n with
      | 0 => none
      | n + 1 => (jSeq (jValue C n) ']' r).map fun q => (.array q.1, q.2)
    else if c = '{' then
      match n with
      | 0 => none
      | n + 1 => (jSeq (jEntry (jValue C n)) '}' r).map fun q => (.object q.1, q.2)
    else if c = 'n' then (qLit "ull".toList r).map fun q => (.null, q)
    else if c = 't' then (qLit "rue".toList r).map fun q => (.bool true, q)
    else if c = 'f' then (qLit "alse".toList r).map fun q => (.bool false, q)
    else if c = '-' ∨ isDigit c = true then
      (readJsonNumber C ((c :: r).takeWhile numChar)).map fun q => (.number q, (c :: r).dropWhile numChar)
    else none := by
  cases n <;> rw [jValue]

/-- Reading goes on as before when there is more text after the value and when more levels may be opened. Only a
number at the end of the text could be continued. -/
theorem jValue_append (C : Codec) : ∀ (n m : Nat), n ≤ m → ∀ {s r : Str} {v : JVal} (t : Str),
    jValue C n s = some (v, r) → (∀ k, v = .number k → r ≠ [] ∨ t = []) →
    jValue C m (s ++ t) = some (v, r ++ t) := by
  intro n
  induction n with
  | zero =>
    intro m hm s r v t h hnum
    exact step C (fun _ h => absurd h (by simp)) hm t h hnum
  | succ n ih =>
    intro m hm s r v t h hnum
    exact step C (fun k hk => by
      cases hk
      intro m' hm'
      exact ⟨by rw [jValue], fun s a r t h hr => ih m' hm' t h (fun _ _ => .inl hr)⟩) hm t h hnum
where
  step (C : Codec) {n m : Nat} (ih : ∀ k, n = k + 1 → ∀ m', k ≤ m' → Extends (jValue C k) (jValue C m')) (hm : n ≤ m)
      {s r : Str} {v : JVal} (t : Str) (h : jValue C n s = some (v, r)) (hnum : ∀ k, v = .number k → r ≠ [] ∨ t = []) :
      jValue C m (s ++ t) = some (v, r ++ t) := by
    cases s with
    | nil => rw [jValue] at h; cases h
    | cons c s =>
      rw [List.cons_append, jValue_cons]
      rw [jValue_cons] at h
      by_cases h1 : c = '"'
      · rw [if_pos h1] at h ⊢
        obtain ⟨⟨a, r1⟩, ha, hae⟩ := Option.map_eq_some_iff.1 h
        cases hae
        rw [jString_append t ha _ (by simp)]
        rfl
      rw [if_neg h1] at h ⊢
      by_cases h2 : c = '['
      · rw [if_pos h2] at h ⊢
        cases n with
        | zero => cases h
        | succ n =>
          obtain ⟨m, rfl⟩ : ∃ k, m = k + 1 := ⟨m - 1, by omega⟩
          obtain ⟨⟨a, r1⟩, ha, hae⟩ := Option.map_eq_some_iff.1 h
          cases hae
          simp only [jSeq_append (ih n rfl m (by omega)) t ha, Option.map_some]
      rw [if_neg h2] at h ⊢
      by_cases h3 : c = '{'
      · rw [if_pos h3] at h ⊢
        cases n with
        | zero => cases h
        | succ n =>
          obtain ⟨m, rfl⟩ : ∃ k, m = k + 1 := ⟨m - 1, by omega⟩
          obtain ⟨⟨a, r1⟩, ha, hae⟩ := Option.map_eq_some_iff.1 h
          cases hae
          simp only [jSeq_append (jEntry_append (ih n rfl m (by omega))) t ha, Option.map_some]
      rw [if_neg h3] at h ⊢
      by_cases h4 : c = 'n'
      · rw [if_pos h4] at h ⊢
        obtain ⟨a, ha, hae⟩ := Option.map_eq_some_iff.1 h
        cases hae
        rw [qLit_more t ha]
        rfl
      rw [if_neg h4] at h ⊢
      by_cases h5 : c = 't'
      · rw [if_pos h5] at h ⊢
        obtain ⟨a, ha, hae⟩ := Option.map_eq_some_iff.1 h
        cases hae
        rw [qLit_more t ha]
        rfl
      rw [if_neg h5] at h ⊢
      by_cases h6 : c = 'f'
      · rw [if_pos h6] at h ⊢
        obtain ⟨a, ha, hae⟩ := Option.map_eq_some_iff.1 h
        cases hae
        rw [qLit_more t ha]
        rfl
      rw [if_neg h6] at h ⊢
      by_cases h7 : c = '-' ∨ isDigit c = true
      · rw [if_pos h7] at h ⊢
        obtain ⟨a, ha, hae⟩ := Option.map_eq_some_iff.1 h
        cases hae
        have := takeWhile_append_of (hnum a rfl)
        rw [List.cons_append] at this
        rw [this.1, this.2, ha]
        rfl
      · rw [if_neg h7] at h; cases h

/-! ## Levels -/

/-- At most so many arrays and objects are open at once. -/
inductive Shallow : Nat → JVal → Prop
  | null (n : Nat) : Shallow n .null
  | bool (n : Nat) (b : Bool) : Shallow n (.bool b)
  | string (n : Nat) (s : Str) : Shallow n (.string s)
  | number (n : Nat) (k : JsonNumber) : Shallow n (.number k)
  | array {n : Nat} {vs : List JVal} : (∀ v ∈ vs, Shallow n v) → Shallow (n + 1) (.array vs)
  | object {n : Nat} {es : List (Str × JVal)} : (∀ e ∈ es, Shallow n e.2) → Shallow (n + 1) (.object es)

theorem Readable.within {C : Codec} {n : Nat} {v : JVal} (h : Readable C n v) : Shallow n v := by
  induction h with
  | null => exact .null _
  | bool => exact .bool _ _
  | string => exact .string _ _
  | number => exact .number _ _
  | array _ ih => exact .array ih
  | object _ ih => exact .object ih

theorem jTail_all {α : Type} {p : Str → Option (α × Str)} {P : α → Prop} (hp : ∀ s a r, p s = some (a, r) → P a)
    {close : Char} {n : Nat} {s r : Str} {as : List α} (h : jTail p close n s = some (as, r)) : ∀ a ∈ as, P a := by
  induction n generalizing s as with
  | zero => cases h
  | succ n ih =>
    rw [jTail] at h
    cases hs : jSkip s with
    | nil => rw [hs] at h; cases h
    | cons c r1 =>
      rw [hs] at h
      simp only at h
      by_cases hc : c = close
      · rw [if_pos hc] at h
        cases h
        simp
      rw [if_neg hc] at h
      by_cases hk : c = ','
      · rw [if_pos hk] at h
        cases hq : p (jSkip r1) with
        | none => rw [hq] at h; cases h
        | some x =>
          obtain ⟨a, r3⟩ := x
          rw [hq] at h
          simp only [Option.map_eq_some_iff] at h
          obtain ⟨⟨bs, r4⟩, hb, hbe⟩ := h
          cases hbe
          intro b hb'
          rcases List.mem_cons.1 hb' with rfl | hb'
          · exact hp _ _ _ hq
          · exact ih hb b hb'
      · rw [if_neg hk] at h; cases h

theorem jSeq_all {α : Type} {p : Str → Option (α × Str)} {P : α → Prop} (hp : ∀ s a r, p s = some (a, r) → P a)
    {close : Char} {s r : Str} {as : List α} (h : jSeq p close s = some (as, r)) : ∀ a ∈ as, P a := by
  rw [jSeq] at h
  cases hs : jSkip s with
  | nil => rw [hs] at h; cases h
  | cons c r1 =>
    rw [hs] at h
    simp only at h
    by_cases hc : c = close
    · rw [if_pos hc] at h
      cases h
      simp
    rw [if_neg hc] at h
    cases hq : p (c :: r1) with
    | none => rw [hq] at h; cases h
    | some x =>
      obtain ⟨a, r3⟩ := x
      rw [hq] at h
      simp only [Option.map_eq_some_iff] at h
      obtain ⟨⟨bs, r4⟩, hb, hbe⟩ := h
      cases hbe
      intro b hb'
      rcases List.mem_cons.1 hb' with rfl | hb'
      · exact hp _ _ _ hq
      · exact jTail_all hp hb b hb'

theorem jEntry_all {p : Str → Option (JVal × Str)} {P : JVal → Prop} (hp : ∀ s a r, p s = some (a, r) → P a)
    (s : Str) (e : Str × JVal) (r : Str) (h : jEntry p s = some (e, r)) : P e.2 := by
  cases s with
  | nil => cases h
  | cons c s =>
    by_cases hc : c = '"'
    · subst hc
      simp only [jEntry] at h
      cases hj : jString (s.length + 1) s with
      | none => rw [hj] at h; cases h
      | some x =>
        obtain ⟨k, r1⟩ := x
        rw [hj] at h
        simp only at h
        split at h
        · simp only [Option.map_eq_some_iff] at h
          obtain ⟨⟨v, r4⟩, hv, hve⟩ := h
          cases hve
          exact hp _ _ _ hv
        · cases h
    · rw [jEntry.eq_2] at h
      · cases h
      · intro r hr; cases hr; exact hc rfl

/-- What is read keeps to the number of levels. -/
theorem jValue_within (C : Codec) : ∀ (n : Nat) (s : Str) (v : JVal) (r : Str), jValue C n s = some (v, r) → Shallow n v := by
  intro n
  induction n with
  | zero => exact fun s v r h => step C (fun _ h => absurd h (by simp)) h
  | succ n ih =>
    exact fun s v r h => step C (fun k hk => by cases hk; exact ih) h
where
  step (C : Codec) {n : Nat} (ih : ∀ k, n = k + 1 → ∀ s v r, jValue C k s = some (v, r) → Shallow k v)
      {s : Str} {v : JVal} {r : Str} (h : jValue C n s = some (v, r)) : Shallow n v := by
    cases s with
    | nil => rw [jValue] at h; cases h
    | cons c s =>
      rw [jValue_cons] at h
      split at h
      · obtain ⟨a, ha, hae⟩ := Option.map_eq_some_iff.1 h
        cases hae
        exact .string _ _
      split at h
      · cases n with
        | zero => cases h
        | succ n =>
          obtain ⟨⟨a, r1⟩, ha, hae⟩ := Option.map_eq_some_iff.1 h
          cases hae
          exact .array (jSeq_all (ih n rfl) ha)
      split at h
      · cases n with
        | zero => cases h
        | succ n =>
          obtain ⟨⟨a, r1⟩, ha, hae⟩ := Option.map_eq_some_iff.1 h
          cases hae
          exact .object (jSeq_all (jEntry_all (ih n rfl)) ha)
      split at h
      · obtain ⟨a, ha, hae⟩ := Option.map_eq_some_iff.1 h
        cases hae
        exact .null _
      split at h
      · obtain ⟨a, ha, hae⟩ := Option.map_eq_some_iff.1 h
        cases hae
        exact .bool _ _
      split at h
      · obtain ⟨a, ha, hae⟩ := Option.map_eq_some_iff.1 h
        cases hae
        exact .bool _ _
      split at h
      · obtain ⟨a, ha, hae⟩ := Option.map_eq_some_iff.1 h
        cases hae
        exact .number _ _
      · cases h

end Firm
