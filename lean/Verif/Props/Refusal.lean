import Verif.Model.Refusal
import Verif.Props.Tools

/-!
# C131: a refused replacement is answered
-/

namespace Firm
open Spec

theorem takeBytes_some {n : Nat} {s r : Str} : takeBytes n s = some r ↔ r <+: s ∧ byteLen r = n := by
  induction s generalizing n r with
  | nil =>
    cases n with
    | zero =>
      simp only [takeBytes, Option.some.injEq, List.prefix_nil]
      exact ⟨fun h => ⟨h.symm, by rw [← h]; rfl⟩, fun h => h.1.symm⟩
    | succ n =>
      simp only [takeBytes, List.prefix_nil]
      exact ⟨fun h => (by cases h), fun ⟨h1, h2⟩ => by rw [h1] at h2; cases h2⟩
  | cons c s ih =>
    cases n with
    | zero =>
      simp only [takeBytes, Option.some.injEq]
      constructor
      · rintro rfl
        exact ⟨List.nil_prefix, rfl⟩
      · rintro ⟨_, h⟩
        cases r with
        | nil => rfl
        | cons d r => have := byteLen_pos (c := d) (s := r); omega
    | succ n =>
      have hpos : 0 < c.utf8Size := Char.utf8Size_pos c
      rw [takeBytes]
      constructor
      · intro h
        split at h
        · next hle =>
          obtain ⟨r', h1, rfl⟩ := Option.map_eq_some_iff.1 h
          obtain ⟨h2, h3⟩ := ih.1 h1
          exact ⟨List.cons_prefix_cons.2 ⟨rfl, h2⟩, by simp only [byteLen]; omega⟩
        · cases h
      · rintro ⟨h1, h2⟩
        cases r with
        | nil => cases h2
        | cons d r =>
          obtain ⟨rfl, h3⟩ := List.cons_prefix_cons.1 h1
          simp only [byteLen] at h2
          rw [if_pos (by omega), ih.2 (⟨h3, by omega⟩ : r <+: s ∧ byteLen r = n + 1 - d.utf8Size)]
          rfl

theorem clip_none {s : Str} : clip s = none ↔ 100 < byteLen s ∧ ∀ p, p <+: s → byteLen p ≠ 100 := by
  unfold clip
  split
  · next h =>
    rw [Option.map_eq_none_iff]
    constructor
    · intro hn
      exact ⟨h, fun p hp hb => by rw [takeBytes_some.2 ⟨hp, hb⟩] at hn; cases hn⟩
    · rintro ⟨_, h2⟩
      cases ht : takeBytes 100 s with
      | none => rfl
      | some p => exact absurd (takeBytes_some.1 ht).2 (h2 p (takeBytes_some.1 ht).1)
  · next h => exact ⟨fun h' => (by cases h'), fun h' => absurd h'.1 h⟩

/-- How the reply shows the searched text: whole, or its first hundred bytes and three dots. -/
def Spec.Shown (old shown : Str) : Prop :=
  shown = old ∧ byteLen old ≤ 100 ∨ ∃ p, p <+: old ∧ byteLen p = 100 ∧ 100 < byteLen old ∧ shown = p ++ "...".toList

theorem clip_some {s r : Str} (h : clip s = some r) : Shown s r := by
  unfold clip at h
  split at h
  · next hl =>
    obtain ⟨p, h1, rfl⟩ := Option.map_eq_some_iff.1 h
    obtain ⟨h2, h3⟩ := takeBytes_some.1 h1
    exact .inr ⟨p, h2, h3, hl, rfl⟩
  · next hl => cases h; exact .inl ⟨rfl, by omega⟩

/-- The two models of the computation agree where a replacement is made. -/
theorem outcome_replaced {content path old new : Str} {all : Bool} {r : Str} {k : Nat} :
    replaceOutcome content path old new all = .replaced r k ↔ replaceText content old new all = some (r, k) := by
  have hno : ∀ t, ReplaceOutcome.ofText t ≠ .replaced r k := by intro t; cases t <;> exact ReplaceOutcome.noConfusion
  unfold replaceOutcome replaceText
  split
  · exact ⟨fun h => ReplaceOutcome.noConfusion h, fun h => (by cases h)⟩
  · split
    · exact ⟨fun h => absurd h (hno _), fun h => (by cases h)⟩
    · split
      · exact ⟨fun h => absurd h (hno _), fun h => (by cases h)⟩
      · split <;> simp [ReplaceOutcome.replaced.injEq]

/-- C131 is false exactly here: the request is lost when the text is refused and no character of it ends at the
hundredth byte, although there are more. -/
theorem C131_crashes (content path old new : Str) (all : Bool) :
    replaceOutcome content path old new all = .crash ↔
      (¬ Occurs old content ∨ all = false ∧ ∃ a b c, content = a ++ old ++ b ++ old ++ c) ∧
      100 < byteLen old ∧ ∀ p, p <+: old → byteLen p ≠ 100 := by
  rw [← clip_none]
  have hof : ∀ {α} (o : Option α) (f : α → Str), ReplaceOutcome.ofText (o.map f) = .crash ↔ o = none := by
    intro α o f
    cases o <;> simp [ReplaceOutcome.ofText]
  have hacc := C60_accepts content old new all
  by_cases ho : old = []
  · subst ho
    simp [replaceOutcome, clip, byteLen]
  have href : (¬ Occurs old content ∨ all = false ∧ ∃ a b c, content = a ++ old ++ b ++ old ++ c) ↔
      replaceText content old new all = none := by
    rw [← not_iff_not, ← Ne.eq_def (replaceText content old new all), hacc]
    have : all = true ↔ ¬ all = false := by cases all <;> simp
    rw [this]
    constructor
    · intro h
      refine ⟨ho, Classical.byContradiction fun h' => h (.inl h'), ?_⟩
      by_cases ha : all = false
      · exact .inr fun h' => h (.inr ⟨ha, h'⟩)
      · exact .inl ha
    · rintro ⟨_, h1, h2⟩ (h | ⟨ha, h⟩)
      · exact h h1
      · exact h2.elim (fun h' => h' ha) fun h' => h' h
  rw [href]
  unfold replaceOutcome replaceText
  rw [if_neg ho, if_neg ho]
  split
  · rw [notFoundText, hof]
    simp
  · split
    · rw [severalText, hof]
      simp
    · split <;> simp

/-- C131: otherwise a refused replacement is answered with a message that shows the searched text, or its first hundred
bytes, and how often it occurs. -/
theorem C131_answer_partial (content path old new : Str) (all : Bool) (h0 : old ≠ [])
    (href : ¬ Occurs old content ∨ all = false ∧ ∃ a b c, content = a ++ old ++ b ++ old ++ c)
    (hcut : 100 < byteLen old → ∃ p, p <+: old ∧ byteLen p = 100) :
    ∃ shown, Shown old shown ∧
      ((¬ Occurs old content ∧ replaceOutcome content path old new all =
          .refused ("old_string not found in '".toList ++ path ++ "': \"".toList ++ shown ++ "\"".toList)) ∨
        ∃ ps, Cut old content ps ∧ 2 < ps.length ∧ all = false ∧ ∃ rest, replaceOutcome content path old new all =
          .refused ("old_string found ".toList ++ showNat (ps.length - 1) ++ " times: \"".toList ++ shown ++ "\". ".toList ++ rest)) := by
  cases hclip : clip old with
  | none =>
    obtain ⟨h1, h2⟩ := clip_none.1 hclip
    obtain ⟨p, h3, h4⟩ := hcut h1
    exact absurd h4 (h2 p h3)
  | some shown =>
    refine ⟨shown, clip_some hclip, ?_⟩
    have hnone : replaceText content old new all = none := by
      by_contra hne
      obtain ⟨_, h1, h2⟩ := (C60_accepts content old new all).1 hne
      rcases href with h | ⟨ha, h⟩
      · exact h h1
      · rcases h2 with h2 | h2
        · rw [ha] at h2; cases h2
        · exact h2 h
    have hc := splitStr_cut h0 content
    unfold replaceText at hnone
    rw [if_neg h0] at hnone
    unfold replaceOutcome
    rw [if_neg h0]
    split
    · next hz =>
      refine .inl ⟨?_, by rw [notFoundText, hclip]; rfl⟩
      intro hocc
      have := (C60_accepts content old new true).2 ⟨h0, hocc, .inl rfl⟩
      unfold replaceText at this
      rw [if_neg h0, if_pos hz] at this
      exact this rfl
    · next hz =>
      rw [if_neg hz] at hnone
      split
      · next hs =>
        refine .inr ⟨_, hc, ?_, hs.2, "Set 'replace_all: true' to replace all occurrences, ".toList ++
            "or provide more surrounding context to make the match unique.".toList, ?_⟩
        · have := hs.1; unfold matchCount at this; omega
        · rw [severalText, hclip]
          unfold matchCount
          simp only [Option.map_some, ReplaceOutcome.ofText, List.append_assoc]
      · next hs =>
        rw [if_neg hs] at hnone
        split at hnone <;> cases hnone

/-- C131: a searched text of ASCII characters never loses the request. -/
theorem C131_ascii_partial (content path old new : Str) (all : Bool) (h : ∀ c ∈ old, c.val < 128) :
    replaceOutcome content path old new all ≠ .crash := by
  rw [Ne, C131_crashes]
  rintro ⟨_, h1, h2⟩
  have hone : ∀ s : Str, (∀ c ∈ s, c.val < 128) → byteLen s = s.length := by
    intro s hs
    induction s with
    | nil => rfl
    | cons c s ih =>
      have : c.utf8Size = 1 := by
        unfold Char.utf8Size
        have := hs c (by simp)
        rw [if_pos]
        rw [UInt32.le_iff_toNat_le]
        rw [UInt32.lt_iff_toNat_lt] at this
        exact Nat.le_of_lt_succ this
      simp only [byteLen, List.length_cons, this, ih fun d hd => hs d (by simp [hd])]
      omega
  rw [hone old h] at h1
  refine h2 (old.take 100) (List.take_prefix _ _) ?_
  rw [hone _ fun c hc => h c (List.mem_of_mem_take hc), List.length_take]
  omega

/-- A text of 99 letters and one that takes two bytes. -/
def exLongText : Str := List.replicate 99 'a' ++ ['é']

/-- C131 is false: this text is searched for in vain, and the reply is lost. -/
theorem C131_crash : replaceOutcome "person alice {}".toList "main.firm".toList exLongText "b".toList false = .crash ∧
    replaceOutcome "person alice {}".toList "main.firm".toList (exLongText.drop 1) "b".toList false =
      .refused ("old_string not found in 'main.firm': \"".toList ++ exLongText.drop 1 ++ "\"".toList) :=
  ⟨by decide +kernel, by decide +kernel⟩

/-- The hypotheses of `C131_answer_partial`: a text of 101 letters that does not occur, and a short one that occurs twice. -/
example : ¬ Occurs (List.replicate 101 'a') "person alice {}".toList ∧
    (∃ p, p <+: List.replicate 101 'a' ∧ byteLen p = 100) ∧
    (∃ a b c, "aba".toList = a ++ "a".toList ++ b ++ "a".toList ++ c) ∧ byteLen "a".toList ≤ 100 := by
  refine ⟨?_, ⟨List.replicate 100 'a', ⟨['a'], by decide⟩, by decide +kernel⟩, ⟨[], ['b'], [], by decide⟩, by decide⟩
  rintro ⟨x, y, h⟩
  have := congrArg List.length h
  simp at this
  omega

end Firm
