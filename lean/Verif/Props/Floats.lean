import Verif.Model.Floats
import Verif.Lemmas.F64
import Verif.Props.Saved

/-!
# C98: floats in the saved graph
-/

namespace Firm
open Spec F64

/-- The float next to a decimal number with this sign. -/
def Spec.floatOf (neg : Bool) (v : Rat) : F64 := if neg then F64.neg (F64.rnd v) else F64.rnd v

/-- The text of a decimal number: sign, digits, point, digits. -/
def Spec.plainText (neg : Bool) (a b : Str) : Str := (if neg then ['-'] else []) ++ a ++ '.' :: b

/-- The text of a decimal number with an exponent. -/
def Spec.expText (neg : Bool) (a b : Str) (minus : Bool) (x : Str) : Str :=
  (if neg then ['-'] else []) ++ a ++ (if b = [] then [] else '.' :: b) ++ 'e' :: (if minus then '-' :: x else x)

/-! ## Digits -/

/-- Digits read from left to right, after a number. -/
def digitsOn (n : Nat) (s : Str) : Nat := s.foldl (fun a c => a * 10 + digitVal c) n

theorem digitsOn_ge (n : Nat) (s : Str) : n ≤ digitsOn n s := by
  unfold digitsOn
  induction s generalizing n with
  | nil => simp
  | cons c s ih =>
    rw [List.foldl_cons]
    exact Nat.le_trans (by omega) (ih (n * 10 + digitVal c))

theorem sigInt_fits {n : Nat} {s : Str} (h : digitsOn n s < 2 ^ 64) : sigInt n s = (digitsOn n s, 0) := by
  induction s generalizing n with
  | nil => rfl
  | cons c s ih =>
    have hge := digitsOn_ge (n * 10 + digitVal c) s
    have he : digitsOn n (c :: s) = digitsOn (n * 10 + digitVal c) s := rfl
    rw [he] at h ⊢
    rw [sigInt, if_pos (by omega), ih h]

theorem sigFrac_fits {n : Nat} {s : Str} (h : digitsOn n s < 2 ^ 64) : sigFrac n s = (digitsOn n s, s.length) := by
  induction s generalizing n with
  | nil => rfl
  | cons c s ih =>
    have hge := digitsOn_ge (n * 10 + digitVal c) s
    have he : digitsOn n (c :: s) = digitsOn (n * 10 + digitVal c) s := rfl
    rw [he] at h ⊢
    rw [sigFrac, if_pos (by omega), ih h]
    rfl

theorem digitsOn_append (a b : Str) : digitsOn (digitsOn 0 a) b = digitsVal (a ++ b) := by
  unfold digitsOn digitsVal
  rw [List.foldl_append]

/-! ## Powers of ten -/

theorem powTen_exact {k : Nat} (h : k ≤ 22) : powTen k = (10 : ℚ) ^ k := by
  have hg : OnGrid (((10 ^ k : Nat) : ℚ)) := by
    refine ⟨((5 ^ k : Nat) : Int), (k : Int), ?_, ?_, by omega⟩
    · rw [pow2_eq, zpow_natCast]
      push_cast
      rw [← mul_pow]
      norm_num
    · have : (5 : Nat) ^ k ≤ 5 ^ 22 := Nat.pow_le_pow_right (by norm_num) h
      rw [Int.natAbs_natCast]
      exact Nat.le_trans this (by norm_num)
  have hlt : |((10 ^ k : Nat) : ℚ)| < pow2 1024 := by
    rw [abs_of_nonneg (by positivity)]
    have h1 : ((10 ^ k : Nat) : ℚ) ≤ 10 ^ 22 := by
      push_cast
      exact pow_le_pow_right₀ (by norm_num) h
    refine lt_of_le_of_lt h1 ?_
    have : pow2 100 ≤ pow2 1024 := pow2_le (by norm_num)
    refine lt_of_lt_of_le ?_ this
    rw [pow2_eq]
    norm_num
  unfold powTen
  rw [rnd_grid hg hlt]
  push_cast
  rfl

theorem ofInt_small {m : Nat} (h : m ≤ 2 ^ 53) : F64.ofInt m = .fin (m : ℚ) := by
  have := ofInt_exact (n := (m : Int)) (by simpa using h)
  simpa using this

/-- One operation on exact floats: the float next to the exact result. -/
theorem fromParts_exact {neg : Bool} {m : Nat} {e : Int} (hm : m ≤ 2 ^ 53) (he : e.natAbs ≤ 22) :
    fromParts neg m e = some (floatOf neg ((m : ℚ) * 10 ^ e)) := by
  have h308 : e.natAbs ≤ 308 := by omega
  have hscale : scaleTen 4 (F64.ofInt m) e = some (F64.rnd ((m : ℚ) * 10 ^ e)) := by
    rw [ofInt_small hm]
    unfold scaleTen
    rw [if_pos h308]
    by_cases h0 : 0 ≤ e
    · rw [if_pos h0, powTen_exact he]
      have hpow : (10 : ℚ) ^ e = 10 ^ e.natAbs := by
        rw [← zpow_natCast, Int.natAbs_of_nonneg h0]
      rw [hpow]
      by_cases hz : (m : ℚ) = 0
      · rw [hz]
        simp [F64.mulPos, F64.rnd]
      · have hmul : F64.mulPos (.fin (m : ℚ)) (10 ^ e.natAbs) = F64.rnd ((m : ℚ) * 10 ^ e.natAbs) := by
          simp [F64.mulPos, hz]
        rw [hmul]
        have hb : |(m : ℚ) * 10 ^ e.natAbs| ≤ pow2 1023 := by
          rw [abs_of_nonneg (by positivity)]
          have h1 : (m : ℚ) ≤ 2 ^ 53 := by exact_mod_cast hm
          have h2 : (10 : ℚ) ^ e.natAbs ≤ 10 ^ 22 := pow_le_pow_right₀ (by norm_num) he
          have h3 : (m : ℚ) * 10 ^ e.natAbs ≤ 2 ^ 53 * 10 ^ 22 := mul_le_mul h1 h2 (by positivity) (by positivity)
          refine le_trans h3 (le_trans ?_ (pow2_le (show (200 : Int) ≤ 1023 by norm_num)))
          rw [pow2_eq]
          norm_num
        cases hr : F64.rnd ((m : ℚ) * 10 ^ e.natAbs) with
        | inf s => exact absurd hr (rnd_ne_inf hb s)
        | nan => rfl
        | negZero => rfl
        | fin q => rfl
    · rw [if_neg h0, powTen_exact he]
      have hpow : (m : ℚ) * (10 : ℚ) ^ e = m / 10 ^ e.natAbs := by
        have : e = -(e.natAbs : Int) := by omega
        conv_lhs => rw [this]
        rw [zpow_neg, zpow_natCast]
        rfl
      rw [hpow]
      by_cases hz : (m : ℚ) = 0
      · rw [hz]
        simp [F64.divPos, F64.rnd]
      · simp [F64.divPos, hz]
  unfold fromParts
  rw [hscale, Option.map_some]
  rfl

theorem takeDigits {a r : Str} (ha : ∀ c ∈ a, isDigit c = true) (hr : Stops isDigit r) :
    (a ++ r).takeWhile isDigit = a ∧ (a ++ r).dropWhile isDigit = r := span_stop ha hr

theorem readUnsigned_plain {neg : Bool} {a b : Str} (ha : isJsonNat a = true) (hb : ∀ c ∈ b, isDigit c = true) (hne : b ≠ [])
    (hm : digitsVal (a ++ b) ≤ 2 ^ 53) (hl : b.length ≤ 22) :
    readUnsigned neg (a ++ '.' :: b) = some (floatOf neg ((digitsVal (a ++ b) : ℚ) / 10 ^ b.length)) := by
  have had : ∀ c ∈ a, isDigit c = true := by
    simp only [isJsonNat, Bool.and_eq_true, List.all_eq_true] at ha
    exact ha.1.1
  obtain ⟨h1, h2⟩ := takeDigits had (r := '.' :: b) (stops_cons (by decide))
  obtain ⟨h3, h4⟩ := takeDigits hb (r := []) (stops_nil _)
  rw [List.append_nil] at h3 h4
  unfold readUnsigned
  rw [h1, h2, if_pos ha]
  simp only
  rw [h3, h4, if_neg hne]
  simp only
  have hda : digitsOn 0 a ≤ digitsVal (a ++ b) := by
    rw [← digitsOn_append]
    exact digitsOn_ge _ _
  rw [sigInt_fits (by omega), sigFrac_fits (by rw [digitsOn_append]; omega), digitsOn_append]
  rw [fromParts_exact hm (by simp only; omega)]
  simp only [Nat.cast_zero, zero_sub, zpow_neg, zpow_natCast]
  rfl

theorem digit_start {c : Char} (h : isDigit c = true) : c ≠ '-' := digit_ne_dash h

theorem serde_sign {neg : Bool} {a r : Str} (ha : isJsonNat a = true) :
    serdeFloat ((if neg then ['-'] else []) ++ a ++ r) = readUnsigned neg (a ++ r) := by
  cases neg with
  | true => rfl
  | false =>
    simp only [Bool.false_eq_true, if_false, List.nil_append]
    cases a with
    | nil => simp [isJsonNat] at ha
    | cons c a =>
      simp only [isJsonNat, Bool.and_eq_true, List.all_eq_true] at ha
      have hc := digit_start (ha.1.1 c (by simp))
      rw [List.cons_append]
      rw [serdeFloat]
      intro r hr
      cases hr
      exact hc rfl

/-- C98: a decimal number whose digits form a number up to 2^53 (in particular 15 digits), with at most 22 digits
after the point, is read as the float next to it. Missing for the full claim: numbers with more digits, for which it
is false (`C98_eleventh`). -/
theorem C98_plain_partial (neg : Bool) (a b : Str) (ha : isJsonNat a = true) (hb : ∀ c ∈ b, isDigit c = true) (hne : b ≠ [])
    (hm : digitsVal (a ++ b) ≤ 2 ^ 53) (hl : b.length ≤ 22) :
    serdeFloat (plainText neg a b) = some (floatOf neg ((digitsVal (a ++ b) : ℚ) / 10 ^ b.length)) := by
  unfold plainText
  rw [serde_sign ha, readUnsigned_plain ha hb hne hm hl]

/-- C98: the same for numbers with an exponent between -22 and 22 when the digits are taken as an integer. -/
theorem C98_exponent_partial (neg : Bool) (a b : Str) (minus : Bool) (x : Str) (ha : isJsonNat a = true)
    (hb : ∀ c ∈ b, isDigit c = true) (hx : ∀ c ∈ x, isDigit c = true) (hxe : x ≠ []) (hm : digitsVal (a ++ b) ≤ 2 ^ 53)
    (hl : ((if minus then -(digitsVal x : Int) else (digitsVal x : Int)) - b.length).natAbs ≤ 22) :
    serdeFloat (expText neg a b minus x) =
      some (floatOf neg ((digitsVal (a ++ b) : ℚ) * 10 ^ ((if minus then -(digitsVal x : Int) else (digitsVal x : Int)) - b.length))) := by
  have had : ∀ c ∈ a, isDigit c = true := by
    simp only [isJsonNat, Bool.and_eq_true, List.all_eq_true] at ha
    exact ha.1.1
  have hexp : readExp (if minus then '-' :: x else x) = some (if minus then -(digitsVal x : Int) else (digitsVal x : Int)) := by
    have hp : parseNat x = some (digitsVal x) := by
      unfold parseNat
      rw [if_pos]
      simp only [Bool.and_eq_true, List.all_eq_true, Bool.not_eq_true', List.isEmpty_eq_false_iff]
      exact ⟨hxe, hx⟩
    cases minus with
    | true =>
      simp only [if_true, readExp, hp]
      rfl
    | false =>
      simp only [Bool.false_eq_true, if_false]
      cases x with
      | nil => exact absurd rfl hxe
      | cons c x =>
        have hc := hx c (by simp)
        have h1 : c ≠ '-' := digit_ne_dash hc
        have h2 : c ≠ '+' := by rintro rfl; revert hc; decide
        rw [readExp, hp]
        · rfl
        · intro r hr; cases hr; exact h2 rfl
        · intro r hr; cases hr; exact h1 rfl
  have hda : digitsOn 0 a ≤ digitsVal (a ++ b) := by
    rw [← digitsOn_append]
    exact digitsOn_ge _ _
  unfold expText
  generalize hX : (if minus then '-' :: x else x) = X at hexp
  generalize (if minus then -(digitsVal x : Int) else (digitsVal x : Int)) = k at hexp hl
  by_cases hbe : b = []
  · subst hbe
    rw [if_pos rfl, List.append_nil, serde_sign ha]
    obtain ⟨h1, h2⟩ := takeDigits had (r := 'e' :: X) (stops_cons (by decide))
    unfold readUnsigned
    rw [h1, h2, if_pos ha]
    have hnd : ('e' : Char) ≠ '.' := by decide
    simp only [true_or, if_true, hexp]
    rw [sigInt_fits (by omega)]
    have hval : digitsOn 0 a = digitsVal (a ++ []) := digitsOn_append a []
    rw [hval] at *
    rw [fromParts_exact hm (by simpa using hl)]
    simp
  · rw [if_neg hbe]
    have : (if neg then ['-'] else []) ++ a ++ '.' :: b ++ 'e' :: X = (if neg then ['-'] else []) ++ a ++ ('.' :: (b ++ 'e' :: X)) := by simp
    rw [this, serde_sign ha]
    obtain ⟨h1, h2⟩ := takeDigits had (r := '.' :: (b ++ 'e' :: X)) (stops_cons (by decide))
    obtain ⟨h3, h4⟩ := takeDigits hb (r := 'e' :: X) (stops_cons (by decide))
    unfold readUnsigned
    rw [h1, h2, if_pos ha]
    simp only
    rw [h3, h4, if_neg hbe]
    simp only [true_or, if_true, hexp]
    rw [sigInt_fits (by omega), sigFrac_fits (by rw [digitsOn_append]; omega), digitsOn_append]
    rw [fromParts_exact hm (by simp only; omega)]
    have : ((0 : Nat) : Int) - (b.length : Int) + k = k - b.length := by omega
    rw [this]

/-- A float whose text has few digits: as an integer they are at most 2^53 (15 digits always are), and at most 22 of
them follow the point. The text is right: this float is the one next to the number. -/
def Spec.ShortText (t : Str) (f : F64) : Prop :=
  ∃ neg a b, t = plainText neg a b ∧ isJsonNat a = true ∧ (∀ c ∈ b, isDigit c = true) ∧ b ≠ [] ∧
    digitsVal (a ++ b) ≤ 2 ^ 53 ∧ b.length ≤ 22 ∧ f = floatOf neg ((digitsVal (a ++ b) : ℚ) / 10 ^ b.length)

theorem digitsOn_lt (s : Str) (hs : ∀ c ∈ s, isDigit c = true) (n : Nat) : digitsOn n s < (n + 1) * 10 ^ s.length := by
  unfold digitsOn
  induction s generalizing n with
  | nil => simp
  | cons c s ih =>
    rw [List.foldl_cons]
    have hc : digitVal c ≤ 9 := by
      have h := hs c (by simp)
      simp only [isDigit, Bool.and_eq_true, decide_eq_true_eq] at h
      have h1 : c.toNat ≤ ('9' : Char).toNat := h.2
      have h2 : ('9' : Char).toNat = 57 := by decide
      simp only [digitVal]
      omega
    have h1 := ih (fun d hd => hs d (by simp [hd])) (n * 10 + digitVal c)
    refine Nat.lt_of_lt_of_le h1 ?_
    rw [List.length_cons, Nat.pow_succ, ← Nat.mul_assoc, Nat.mul_right_comm]
    exact Nat.mul_le_mul_right _ (by omega)

/-- Fifteen digits are few. -/
theorem C98_fifteen_partial (neg : Bool) (a b : Str) (ha : isJsonNat a = true) (hb : ∀ c ∈ b, isDigit c = true) (hne : b ≠ [])
    (hl : a.length + b.length ≤ 15) :
    serdeFloat (plainText neg a b) = some (floatOf neg ((digitsVal (a ++ b) : ℚ) / 10 ^ b.length)) := by
  have had : ∀ c ∈ a, isDigit c = true := by
    simp only [isJsonNat, Bool.and_eq_true, List.all_eq_true] at ha
    exact ha.1.1
  refine C98_plain_partial neg a b ha hb hne ?_ (by omega)
  have h1 : digitsVal (a ++ b) < (0 + 1) * 10 ^ (a ++ b).length :=
    digitsOn_lt (a ++ b) (by
      intro c hc
      rcases List.mem_append.1 hc with h | h
      · exact had c h
      · exact hb c h) 0
  have h2 : 10 ^ (a ++ b).length ≤ 10 ^ 15 := Nat.pow_le_pow_right (by norm_num) (by rw [List.length_append]; exact hl)
  have h3 : (10 : Nat) ^ 15 ≤ 2 ^ 53 := by norm_num
  omega

/-- C98: a float with such a text is given back by the library. -/
theorem C98_kept_partial (C : Codec) (f : F64) (hC : C.readFloat = serdeFloat) (h : ShortText (C.floatText f) f) :
    FloatReads C f := by
  obtain ⟨neg, a, b, ht, ha, hb, hne, hm, hl, hf⟩ := h
  have had : ∀ c ∈ a, isDigit c = true := by
    simp only [isJsonNat, Bool.and_eq_true, List.all_eq_true] at ha
    exact ha.1.1
  have hane : a ≠ [] := by
    rintro rfl
    simp [isJsonNat] at ha
  refine ⟨?_, ?_, ?_, ?_⟩
  · rw [hC, ht, C98_plain_partial neg a b ha hb hne hm hl, ← hf]
  · rw [ht]
    intro c hc
    unfold plainText at hc
    rcases List.mem_append.1 hc with h1 | h1
    · rcases List.mem_append.1 h1 with h2 | h2
      · cases neg with
        | false => cases h2
        | true =>
          rw [if_pos rfl] at h2
          rw [List.mem_singleton.1 h2]
          decide
      · exact numChar_digit (had c h2)
    · rcases List.mem_cons.1 h1 with rfl | h2
      · decide
      · exact numChar_digit (hb c h2)
  · rw [ht]
    exact ⟨'.', by simp [plainText], by decide, by decide⟩
  · rw [ht]
    intro c hc
    cases neg with
    | true =>
      simp only [plainText, if_true, List.cons_append, List.head?_cons, Option.some.injEq] at hc
      exact .inl hc.symm
    | false =>
      cases a with
      | nil => exact absurd rfl hane
      | cons d a =>
        simp only [plainText, Bool.false_eq_true, if_false, List.nil_append, List.cons_append, List.head?_cons,
          Option.some.injEq] at hc
        exact .inr (hc ▸ had d (by simp))

/-- What else the libraries must give back: everything in `Kept` except floats. -/
def Spec.OthersKept (C : Codec) (es : List Entity) : Prop :=
  ∀ e ∈ es, ∀ p ∈ e.fields, ∀ w, PartOf w p.2 → (∀ f, w ≠ .float f) → Kept C w

/-- C98: a graph all of whose finite floats have short texts loads back as it was. -/
theorem C98_loads_partial (C : Codec) (hC : C.readFloat = serdeFloat) (o : MapOrder) (ho : MapOrder.Lawful o) (ops : List GOp)
    (hlen : (accepted ops).length < 2 ^ 32) (hk : OthersKept C (accepted ops)) (hp : Tame (accepted ops))
    (hf : ∀ e ∈ accepted ops, ∀ p ∈ e.fields, ∀ f, PartOf (.float f) p.2 → ShortText (C.floatText f) f) :
    ∃ g', readGraph C (graphText C o (Graph.run ops)) = some g' ∧ SameAnswers (Graph.run ops) g' := by
  refine C96_loads_partial C o ho ops hlen ?_ hp
  intro e he p hpe w hw
  cases w with
  | float f => exact fun _ => C98_kept_partial C f hC (hf e he p hpe f hw)
  | _ => exact hk e he p hpe _ hw (by rintro f ⟨⟩)

/-! ## A float that changes -/

/-- The float next to 1/11. -/
def eleventh : F64 := F64.rnd (1 / 11)

/-- Its shortest text; as an integer the digits are above 2^53. -/
def eleventhText : Str := "0.09090909090909091".toList

/-- C98 is false: the text of this float names the float (the number it writes is next to it), but another float is
read. -/
theorem C98_eleventh :
    eleventhText = plainText false "0".toList "09090909090909091".toList ∧
    floatOf false ((digitsVal ("0".toList ++ "09090909090909091".toList) : ℚ) / 10 ^ "09090909090909091".toList.length) =
      eleventh ∧
    ∃ g, serdeFloat eleventhText = some g ∧ g ≠ eleventh := by
  refine ⟨by decide, by decide +kernel, .fin (6550690367084359 / 72057594037927936), by decide +kernel, by decide +kernel⟩

/-- C98 is false of whole graphs: with a library that writes this float by that text, an entity with the float is saved
and loaded without an error, and comes back with another float. -/
theorem C98_changed (o : MapOrder) (ho : MapOrder.Lawful o) : ∃ g g',
    (Graph.run [.add (oneField (.float eleventh)), .build]).getEntity "person.ada".toList = some (oneField (.float eleventh)) ∧
    readGraph { exCodec with floatText := fun _ => eleventhText, readFloat := serdeFloat }
        (graphText { exCodec with floatText := fun _ => eleventhText, readFloat := serdeFloat } o
          (Graph.run [.add (oneField (.float eleventh)), .build])) = some g' ∧
      g'.getEntity "person.ada".toList = some (oneField (.float g)) ∧ g ≠ eleventh := by
  have hg : graphText { exCodec with floatText := fun _ => eleventhText, readFloat := serdeFloat } o
        (Graph.run [.add (oneField (.float eleventh)), .build]) =
      graphText { exCodec with floatText := fun _ => eleventhText, readFloat := serdeFloat } ⟨id, id⟩
        (Graph.run [.add (oneField (.float eleventh)), .build]) := by
    have hids : (Graph.run [.add (oneField (.float eleventh)), .build]).idMap = [("person.ada".toList, 0)] := by decide +kernel
    have htypes : (Graph.run [.add (oneField (.float eleventh)), .build]).typeMap = [("person".toList, [0])] := by
      decide +kernel
    have h1 : o.ids [("person.ada".toList, 0)] = [("person.ada".toList, 0)] := List.perm_singleton.1 (ho.1 _)
    have h2 : o.types [("person".toList, [0])] = [("person".toList, [0])] := List.perm_singleton.1 (ho.2 _)
    unfold graphText
    rw [hids, htypes, h1, h2]
    rfl
  rw [hg]
  refine ⟨.fin (6550690367084359 / 72057594037927936), ?_⟩
  have key : ((readGraph { exCodec with floatText := fun _ => eleventhText, readFloat := serdeFloat }
        (graphText { exCodec with floatText := fun _ => eleventhText, readFloat := serdeFloat } ⟨id, id⟩
          (Graph.run [.add (oneField (.float eleventh)), .build]))).bind fun g => g.getEntity "person.ada".toList) =
      some (oneField (.float (.fin (6550690367084359 / 72057594037927936)))) := by decide +kernel
  obtain ⟨g', h1, h2⟩ := Option.bind_eq_some_iff.1 key
  exact ⟨g', by decide +kernel, h1, h2, by decide +kernel⟩

/-! ## The hypotheses are met -/

example : serdeFloat "-12.75".toList = some (.fin (-51 / 4)) :=
  (C98_plain_partial true "12".toList "75".toList (by decide) (by decide) (by decide) (by decide) (by decide)).trans
    (by decide +kernel)

example : serdeFloat "0.1".toList = some (F64.rnd (1 / 10)) :=
  (C98_fifteen_partial false "0".toList "1".toList (by decide) (by decide) (by decide) (by decide)).trans (by decide +kernel)

example : serdeFloat "1.5e-7".toList = some (F64.rnd (3 / 20000000)) :=
  (C98_exponent_partial false "1".toList "5".toList true "7".toList (by decide) (by decide) (by decide) (by decide) (by decide)
    (by decide)).trans (by decide +kernel)

/-- A library that writes 0.1 for every float. -/
def tenthCodec : Codec := { exCodec with floatText := fun _ => "0.1".toList, readFloat := serdeFloat }

theorem tenth_short : ShortText "0.1".toList (F64.rnd (1 / 10)) :=
  ⟨false, "0".toList, "1".toList, by decide, by decide, by decide, by decide, by decide, by decide, by decide +kernel⟩

example : FloatReads tenthCodec (F64.rnd (1 / 10)) := C98_kept_partial _ _ rfl tenth_short

theorem oneField_parts {v : FieldValue} {ops : List GOp} (h : ops = [.add (oneField v), .build]) {e : Entity}
    (he : e ∈ accepted ops) {p : FieldId × FieldValue} (hp : p ∈ e.fields) : p.2 = v := by
  subst h
  have ha : accepted [.add (oneField v), .build] = [oneField v] := by simp [accepted, accept, acceptOne]
  rw [ha, List.mem_singleton] at he
  subst he
  have : p = ("size".toList, v) := List.mem_singleton.1 hp
  rw [this]

example : ∃ g', readGraph tenthCodec (graphText tenthCodec exOrder (Graph.run [.add (oneField (.float (F64.rnd (1 / 10)))), .build])) =
      some g' ∧ SameAnswers (Graph.run [.add (oneField (.float (F64.rnd (1 / 10)))), .build]) g' := by
  refine C98_loads_partial tenthCodec rfl exOrder exOrder_lawful _ (by decide +kernel) ?_ ?_ ?_
  · intro e he p hp w hw hne
    rw [oneField_parts rfl he hp] at hw
    cases hw
    exact absurd rfl (hne _)
  · intro e he p hp
    rw [oneField_parts rfl he hp]
    refine ⟨by decide, ?_⟩
    intro f hf
    cases hf
    have : F64.rnd (1 / 10) = .fin (3602879701896397 / 36028797018963968) := by decide +kernel
    rw [this]
    exact ⟨by simp, by simp⟩
  · intro e he p hp f hf
    rw [oneField_parts rfl he hp] at hf
    cases hf
    exact tenth_short

end Firm
