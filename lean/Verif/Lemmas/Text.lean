import Verif.Model.Generate
import Verif.Model.Aggregation

/-!
# Lemmas on texts and numbers in decimal notation
-/

namespace Firm

/-! ## Digits -/

theorem digitChar_toNat {d : Nat} (h : d < 10) : (digitChar d).toNat = 48 + d := by
  unfold digitChar
  have hv : (48 + d).isValidChar := by left; omega
  simp only [Char.ofNat, hv, dif_pos]
  rfl

theorem isDigit_digitChar {d : Nat} (h : d < 10) : isDigit (digitChar d) = true := by
  unfold isDigit
  rw [digitChar_toNat h]
  simp; omega

theorem digitVal_digitChar {d : Nat} (h : d < 10) : digitVal (digitChar d) = d := by
  unfold digitVal
  rw [digitChar_toNat h]; omega

theorem digitsVal_append (a b : Str) : digitsVal (a ++ b) = digitsVal a * 10 ^ b.length + digitsVal b := by
  have key : ∀ (b : Str) (n : Nat), b.foldl (fun a c => a * 10 + digitVal c) n =
      n * 10 ^ b.length + b.foldl (fun a c => a * 10 + digitVal c) 0 := by
    intro b
    induction b with
    | nil => simp
    | cons c b ih =>
      intro n
      simp only [List.foldl_cons, List.length_cons]
      rw [ih, ih (0 * 10 + digitVal c)]
      simp only [Nat.zero_mul, Nat.zero_add, Nat.pow_succ, Nat.add_mul]
      rw [Nat.mul_assoc, Nat.mul_comm 10, Nat.add_assoc]
  unfold digitsVal
  rw [List.foldl_append, key]

theorem digitsVal_zeros (k : Nat) : digitsVal (List.replicate k '0') = 0 := by
  induction k with
  | zero => rfl
  | succ k ih =>
    rw [List.replicate_succ', digitsVal_append, ih]; rfl

theorem showNatGo_spec (k n : Nat) (h : n < k) :
    (∀ c ∈ showNatGo k n, isDigit c = true) ∧ showNatGo k n ≠ [] ∧ digitsVal (showNatGo k n) = n := by
  induction k generalizing n with
  | zero => omega
  | succ k ih =>
    unfold showNatGo
    by_cases h10 : n < 10
    · simp only [h10, if_true]
      refine ⟨by simp [isDigit_digitChar h10], by simp, ?_⟩
      simp [digitsVal, digitVal_digitChar h10]
    · simp only [h10, if_false]
      obtain ⟨h1, h2, h3⟩ := ih (n / 10) (by omega)
      have hm : n % 10 < 10 := Nat.mod_lt _ (by omega)
      refine ⟨?_, by simp, ?_⟩
      · intro c hc
        rcases List.mem_append.1 hc with hc | hc
        · exact h1 c hc
        · simp only [List.mem_singleton] at hc; subst hc; exact isDigit_digitChar hm
      · rw [digitsVal_append, h3]
        simp only [List.length_singleton, Nat.pow_one, digitsVal, List.foldl_cons, List.foldl_nil,
          digitVal_digitChar hm]
        omega

theorem showNat_digits (n : Nat) : ∀ c ∈ showNat n, isDigit c = true := (showNatGo_spec _ _ (Nat.lt_succ_self n)).1
theorem showNat_ne_nil (n : Nat) : showNat n ≠ [] := (showNatGo_spec _ _ (Nat.lt_succ_self n)).2.1
theorem digitsVal_showNat (n : Nat) : digitsVal (showNat n) = n := (showNatGo_spec _ _ (Nat.lt_succ_self n)).2.2

theorem parseNat_of {s : Str} (h : ∀ c ∈ s, isDigit c = true) (hne : s ≠ []) :
    parseNat s = some (digitsVal s) := by
  unfold parseNat
  rw [if_pos]
  simp only [Bool.and_eq_true, Bool.not_eq_true', List.isEmpty_eq_false_iff, List.all_eq_true]
  exact ⟨hne, h⟩

theorem parseNat_showNat (n : Nat) : parseNat (showNat n) = some n := by
  rw [parseNat_of (showNat_digits n) (showNat_ne_nil n), digitsVal_showNat]

theorem digit_ne {c d : Char} (h : isDigit c = true) (hd : isDigit d = false) : c ≠ d := by
  rintro rfl; rw [h] at hd; cases hd

/-- A text beginning with a digit has no sign. -/
theorem parseSigned_digits {s : Str} (h : ∀ c ∈ s, isDigit c = true) :
    parseSigned s = (parseNat s).map fun n : Nat => (n : Int) := by
  cases s with
  | nil => rfl
  | cons c s =>
    have hc := h c (by simp)
    have h1 : c ≠ '-' := digit_ne hc (by decide)
    have h2 : c ≠ '+' := digit_ne hc (by decide)
    unfold parseSigned
    split
    · rename_i heq; injection heq with h3; exact absurd h3 h1
    · rename_i heq; injection heq with h3; exact absurd h3 h2
    · rfl

theorem parseSigned_showInt (n : Int) : parseSigned (showInt n) = some n := by
  unfold showInt
  by_cases h : n < 0
  · rw [if_pos h]
    simp only [parseSigned, parseNat_showNat, Option.map_some]
    congr 1; omega
  · rw [if_neg h, parseSigned_digits (showNat_digits _), parseNat_showNat, Option.map_some]
    congr 1; omega

theorem parseI64_showInt {n : Int} (h : isI64 n = true) : parseI64 (showInt n) = some n := by
  unfold parseI64
  rw [parseSigned_showInt]
  unfold isI64 at h
  simpa using h

theorem parseI32_showInt {n : Int} (h1 : -(2 ^ 31) ≤ n) (h2 : n < 2 ^ 31) : parseI32 (showInt n) = some n := by
  unfold parseI32
  rw [parseSigned_showInt]
  simp only [Option.filter_some, decide_eq_true h1, decide_eq_true h2, Bool.and_self, if_true]

/-- The characters of a number: digits and perhaps a minus sign. -/
theorem mem_showInt {n : Int} {c : Char} (h : c ∈ showInt n) : c = '-' ∨ isDigit c = true := by
  unfold showInt at h
  split at h
  · rcases List.mem_cons.1 h with h | h
    · exact Or.inl h
    · exact Or.inr (showNat_digits _ c h)
  · exact Or.inr (showNat_digits _ c h)

/-! ## Splitting -/

theorem splitChar_none {c : Char} {s : Str} (h : c ∉ s) : splitChar c s = [s] := by
  induction s with
  | nil => rfl
  | cons d s ih =>
    simp only [List.mem_cons, not_or] at h
    simp [splitChar, Ne.symm h.1, ih h.2]

theorem splitChar_append {c : Char} {a : Str} (b : Str) (h : c ∉ a) :
    splitChar c (a ++ c :: b) = a :: splitChar c b := by
  induction a with
  | nil => simp [splitChar]
  | cons d a ih =>
    simp only [List.mem_cons, not_or] at h
    simp [splitChar, Ne.symm h.1, ih h.2]

/-- The pieces joined again. -/
theorem joinWith_splitChar (c : Char) (s : Str) : joinWith [c] (splitChar c s) = s := by
  induction s with
  | nil => rfl
  | cons d s ih =>
    unfold splitChar
    by_cases h : d = c
    · rw [if_pos h, h]
      cases hs : splitChar c s with
      | nil => exfalso; revert hs; cases s <;> simp only [splitChar] <;> (try split) <;> (try split) <;> simp
      | cons p ps => rw [hs] at ih; simp [joinWith, ih]
    · rw [if_neg h]
      cases hs : splitChar c s with
      | nil => rw [hs] at ih; simp only [joinWith] at ih ⊢; rw [← ih]
      | cons p ps =>
        rw [hs] at ih
        cases ps with
        | nil => simp only [joinWith] at ih ⊢; rw [ih]
        | cons q qs => simp only [joinWith, List.cons_append] at ih ⊢; rw [ih]

theorem splitChar_ne_nil (c : Char) (s : Str) : splitChar c s ≠ [] := by
  cases s with
  | nil => simp [splitChar]
  | cons d s =>
    unfold splitChar
    split
    · simp
    · split <;> simp

theorem splitChar_no {c : Char} {s : Str} : ∀ p ∈ splitChar c s, c ∉ p := by
  induction s with
  | nil => simp [splitChar]
  | cons d s ih =>
    unfold splitChar
    by_cases h : d = c
    · rw [if_pos h]; simpa using ih
    · rw [if_neg h]
      cases hs : splitChar c s with
      | nil => simp [Ne.symm h]
      | cons p ps =>
        rw [hs] at ih
        simp only [List.mem_cons, forall_eq_or_imp] at ih ⊢
        exact ⟨by simp [Ne.symm h, ih.1], ih.2⟩

/-! ## Decimals -/

/-- Shape of the text of a decimal: sign, integer part, decimals. -/
theorem Decimal.show_shape (d : Decimal) : ∃ a b : Str,
    d.show = (if d.mant < 0 then ['-'] else []) ++ a ++ (if d.scale = 0 then [] else '.' :: b) ∧
    (∀ c ∈ a ++ b, isDigit c = true) ∧ a ≠ [] ∧ b.length = d.scale ∧ digitsVal (a ++ b) = d.mant.natAbs := by
  obtain ⟨m, k⟩ := d
  let ds : Str := List.replicate (k + 1 - (showNat m.natAbs).length) '0' ++ showNat m.natAbs
  have hlen : k + 1 ≤ ds.length := by
    simp only [ds, List.length_append, List.length_replicate]; omega
  have hds : ∀ c ∈ ds, isDigit c = true := by
    intro c hc
    rcases List.mem_append.1 hc with hc | hc
    · rw [List.eq_of_mem_replicate hc]; decide
    · exact showNat_digits _ c hc
  have hval : digitsVal ds = m.natAbs := by
    simp only [ds, digitsVal_append, digitsVal_zeros, digitsVal_showNat, Nat.zero_mul, Nat.zero_add]
  refine ⟨ds.take (ds.length - k), ds.drop (ds.length - k), ?_, ?_, ?_, ?_, ?_⟩
  · unfold Decimal.show
    change (if m < 0 then '-' :: (if k = 0 then ds else _ ++ '.' :: _) else (if k = 0 then ds else _ ++ '.' :: _)) = _
    by_cases hk : k = 0
    · subst hk
      by_cases hm : m < 0 <;> simp [hm]
    · by_cases hm : m < 0 <;> simp [hm, hk, ds]
  · rw [List.take_append_drop]; exact hds
  · intro h
    have := congrArg List.length h
    simp only [List.length_take, List.length_nil] at this
    omega
  · simp only [List.length_drop]; omega
  · rw [List.take_append_drop]; exact hval

theorem mem_show {d : Decimal} {c : Char} (h : c ∈ d.show) : c = '-' ∨ c = '.' ∨ isDigit c = true := by
  obtain ⟨a, b, h1, h2, -⟩ := d.show_shape
  rw [h1] at h
  simp only [List.mem_append] at h
  rcases h with (h | h) | h
  · split at h <;> simp at h; exact Or.inl h
  · exact Or.inr (Or.inr (h2 c (by simp [h])))
  · split at h
    · simp at h
    · rcases List.mem_cons.1 h with h | h
      · exact Or.inr (Or.inl h)
      · exact Or.inr (Or.inr (h2 c (by simp [h])))

/-- The parts a decimal text is read from. -/
def readDecimal (neg : Bool) (body : Str) : Option Decimal :=
  let parts := match splitChar '.' body with
    | [a] => some (a, [])
    | [a, b] => some (a, b)
    | _ => none
  parts.bind fun p =>
    (parseNat (p.1 ++ p.2)).bind fun m =>
      let d : Decimal := ⟨if neg then -(m : Int) else (m : Int), p.2.length⟩
      if d.fits then some d else none

theorem parseDecimal_neg (s : Str) : parseDecimal ('-' :: s) = readDecimal true s := rfl

theorem parseDecimal_pos {c : Char} {s : Str} (h : isDigit c = true) :
    parseDecimal (c :: s) = readDecimal false (c :: s) := by
  have h1 : c ≠ '-' := digit_ne h (by decide)
  have h2 : c ≠ '+' := digit_ne h (by decide)
  unfold parseDecimal readDecimal
  split
  rename_i neg body heq
  split at heq
  · rename_i h3; injection h3 with h3; exact absurd h3 h1
  · rename_i h3; injection h3 with h3; exact absurd h3 h2
  · injection heq with h3 h4; subst h3 h4; rfl

theorem readDecimal_body {neg : Bool} {a b : Str} {k : Nat} (hd : ∀ c ∈ a ++ b, isDigit c = true) (ha : a ≠ [])
    (hb : b.length = k)
    (hf : (⟨if neg then -(digitsVal (a ++ b) : Int) else (digitsVal (a ++ b) : Int), k⟩ : Decimal).fits = true) :
    readDecimal neg (a ++ (if k = 0 then [] else '.' :: b)) =
      some ⟨if neg then -(digitsVal (a ++ b) : Int) else (digitsVal (a ++ b) : Int), k⟩ := by
  have hdot : ∀ s : Str, (∀ c ∈ s, isDigit c = true) → '.' ∉ s := by
    intro s hs hm
    have := hs _ hm
    revert this; decide
  have hda : '.' ∉ a := hdot a fun c hc => hd c (by simp [hc])
  have hdb : '.' ∉ b := hdot b fun c hc => hd c (by simp [hc])
  unfold readDecimal
  by_cases hk : k = 0
  · subst hk
    have hb0 : b = [] := List.length_eq_zero_iff.1 hb
    subst hb0
    rw [if_pos rfl, List.append_nil, splitChar_none hda]
    simp only [Option.bind_some, List.append_nil] at hd hf ⊢
    rw [parseNat_of hd ha]
    simp [hf]
  · rw [if_neg hk, splitChar_append _ hda, splitChar_none hdb]
    simp only [Option.bind_some]
    rw [parseNat_of hd (by simp [ha])]
    simp only [Option.bind_some, hb, hf, if_true]

theorem parseDecimal_show {d : Decimal} (h : d.fits = true) : parseDecimal d.show = some d := by
  obtain ⟨a, b, h1, h2, h3, h4, h5⟩ := d.show_shape
  obtain ⟨m, k⟩ := d
  simp only at h1 h4 h5
  rw [h1]
  by_cases hm : m < 0
  · have he : (if (true : Bool) then -(digitsVal (a ++ b) : Int) else (digitsVal (a ++ b) : Int)) = m := by
      rw [h5]; simp; omega
    rw [if_pos hm, List.append_assoc, List.singleton_append, parseDecimal_neg,
      readDecimal_body h2 h3 h4 (by rw [he]; exact h), he]
  · have he : (if (false : Bool) then -(digitsVal (a ++ b) : Int) else (digitsVal (a ++ b) : Int)) = m := by
      rw [h5]; simp; omega
    cases a with
    | nil => exact absurd rfl h3
    | cons c a =>
      rw [if_neg hm, List.nil_append, List.cons_append, parseDecimal_pos (h2 c (by simp)), ← List.cons_append,
        readDecimal_body h2 h3 h4 (by rw [he]; exact h), he]

end Firm
