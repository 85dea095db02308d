import Verif.Model.Manual
import Verif.Lemmas.Filter
import Mathlib.Data.List.Forall2

/-!
# What the documentation tool answers (C176)
-/

namespace Firm

/-! ## Specification -/

/-- The topic is the word, in any mixture of small and capital ASCII letters. -/
def Spec.Spells (word : String) (topic : Str) : Prop := List.Forall₂ Spec.SameLetter word.toList topic

/-- What is used of Unicode: each character has a lower-case form that is not empty; the letters of the three topics and their
capitals have the usual one; no other character has a lower-case form with one of these letters in it. (The Kelvin
sign and the dotted capital I show that this is not so for `k` and `i`.) -/
structure Spec.OrdinaryLetters (t : CaseTable) : Prop where
  nonempty : ∀ c, t.lowerChar c ≠ []
  usual : ∀ x ∈ "dslqueryal".toList, ∀ c, Spec.SameLetter x c → t.lowerChar c = [x]
  noOther : ∀ x ∈ "dslqueryal".toList, ∀ c, x ∈ t.lowerChar c → Spec.SameLetter x c

open Spec

/-! ## Proofs -/

theorem lower_spelled {t : CaseTable} (h : OrdinaryLetters t) : ∀ (w topic : Str),
    (∀ x ∈ w, x ∈ "dslqueryal".toList) → (t.lower topic = w ↔ List.Forall₂ SameLetter w topic) := by
  intro w topic
  induction topic generalizing w with
  | nil =>
    intro _
    constructor
    · intro e; have : w = [] := e.symm
      subst this; exact .nil
    · intro e; cases e; rfl
  | cons c s ih =>
    intro hw
    have hl : t.lower (c :: s) = t.lowerChar c ++ t.lower s := by simp [CaseTable.lower]
    rw [hl]
    constructor
    · intro e
      cases hc : t.lowerChar c with
      | nil => exact absurd hc (h.nonempty c)
      | cons y ys =>
        rw [hc] at e
        cases w with
        | nil => cases e
        | cons x w' =>
          have hx : x ∈ "dslqueryal".toList := hw x (List.mem_cons_self ..)
          have hxy : y = x := by injection e
          have hs : SameLetter x c := h.noOther x hx c (by rw [hc, hxy]; exact List.mem_cons_self ..)
          have h1 := h.usual x hx c hs
          rw [hc] at h1
          have hys : ys = [] := by injection h1
          subst hys
          refine .cons hs ((ih w' fun z hz => hw z (List.mem_cons_of_mem _ hz)).1 ?_)
          simpa using (List.cons.inj e).2
    · intro e
      cases e with
      | @cons x _ w' _ hs hrest =>
        rw [h.usual x (hw x (List.mem_cons_self ..)) c hs,
          (ih w' fun z hz => hw z (List.mem_cons_of_mem _ hz)).2 hrest]
        rfl

/-- Each of the three topics, in any mixture of small and capital letters, gets its text and nothing else; an empty topic
and no topic get both texts. Everything else is refused. -/
theorem C176_answers {t : CaseTable} (h : OrdinaryLetters t) (M : Manual) (topic : Str) :
    (Spells "dsl" topic → dslReference t M topic = ⟨false, [M.dsl]⟩) ∧
    (Spells "query" topic → dslReference t M topic = ⟨false, [M.query]⟩) ∧
    (Spells "all" topic ∨ topic = [] →
      ∃ between, dslReference t M topic = ⟨false, [M.dsl ++ between ++ M.query]⟩) ∧
    ((dslReference t M topic).isError = true ↔
      ¬Spells "dsl" topic ∧ ¬Spells "query" topic ∧ ¬Spells "all" topic ∧ topic ≠ []) := by
  have h1 : t.lower topic = "dsl".toList ↔ Spells "dsl" topic := lower_spelled h _ _ (by decide)
  have h2 : t.lower topic = "query".toList ↔ Spells "query" topic := lower_spelled h _ _ (by decide)
  have h3 : t.lower topic = "all".toList ↔ Spells "all" topic := lower_spelled h _ _ (by decide)
  have h4 : t.lower topic = [] ↔ topic = [] := by
    rw [lower_spelled h [] topic (by simp)]
    constructor
    · intro e; cases e; rfl
    · intro e; subst e; exact .nil
  unfold dslReference
  dsimp only
  refine ⟨fun e => ?_, fun e => ?_, fun e => ⟨"\n\n---\n\n".toList, ?_⟩, ?_⟩
  · rw [if_pos (h1.2 e)]
  · have e' := h2.2 e
    rw [if_neg (by rw [e']; decide), if_pos e']
  · have e' : t.lower topic = "all".toList ∨ t.lower topic = [] := e.imp h3.2 h4.2
    rw [if_neg (by rcases e' with e' | e' <;> rw [e'] <;> decide),
      if_neg (by rcases e' with e' | e' <;> rw [e'] <;> decide), if_pos e']
  · rw [← h1, ← h2, ← h3, ne_eq, ← h4]
    split
    · rename_i g; exact ⟨fun k => (Bool.noConfusion k), fun k => absurd g k.1⟩
    · split
      · rename_i g; exact ⟨fun k => (Bool.noConfusion k), fun k => absurd g k.2.1⟩
      · split
        · rename_i g
          exact ⟨fun k => (Bool.noConfusion k), fun k => (g.elim k.2.2.1 k.2.2.2).elim⟩
        · rename_i g1 g2 g3
          exact ⟨fun _ => ⟨g1, g2, fun k => g3 (.inl k), fun k => g3 (.inr k)⟩, fun _ => rfl⟩

/-- A request without a topic is answered like one for both texts. -/
theorem C176_default {t : CaseTable} (h : OrdinaryLetters t) (M : Manual) (topic : Str)
    (hall : Spells "all" topic ∨ topic = []) :
    dslReference t M (topicOf none) = dslReference t M topic := by
  have key : ∀ u, Spells "all" u ∨ u = [] →
      dslReference t M u = ⟨false, [M.dsl ++ "\n\n---\n\n".toList ++ M.query]⟩ := by
    intro u hu
    have e' : t.lower u = "all".toList ∨ t.lower u = [] :=
      hu.imp (lower_spelled h _ _ (by decide)).2 (fun e => by subst e; rfl)
    unfold dslReference
    dsimp only
    rw [if_neg (by rcases e' with e' | e' <;> rw [e'] <;> decide),
      if_neg (by rcases e' with e' | e' <;> rw [e'] <;> decide), if_pos e']
  rw [key _ hall, key]
  exact .inl (.cons (.inl rfl) (.cons (.inl rfl) (.cons (.inl rfl) .nil)))

/-- A refusal shows the topic as it was asked for, provided that the topic has no capitals: what is shown is the lower-case
form. Missing: topics with capitals, see `C176_capitals`. -/
theorem C176_refusal_partial (t : CaseTable) (M : Manual) (topic : Str)
    (hsmall : ∀ c ∈ topic, t.lowerChar c = [c]) (he : (dslReference t M topic).isError = true) :
    ∃ before after, (dslReference t M topic).texts = [before ++ topic ++ after] := by
  have hl : t.lower topic = topic := by
    clear he
    induction topic with
    | nil => rfl
    | cons c s ih =>
      have := ih fun d hd => hsmall d (List.mem_cons_of_mem _ hd)
      simp only [CaseTable.lower, List.flatMap_cons] at this ⊢
      rw [this, hsmall c (List.mem_cons_self ..)]; rfl
  unfold dslReference at he ⊢
  dsimp only at he ⊢
  rw [hl] at he ⊢
  split at he
  · cases he
  · split at he
    · cases he
    · split at he
      · cases he
      · rename_i g1 g2 g3
        rw [if_neg g1, if_neg g2, if_neg g3]
        exact ⟨_, _, rfl⟩

/-- Two topics that differ in capitals only get the same refusal: it does not show which of them was asked for. -/
theorem C176_capitals (M : Manual) :
    dslReference asciiTable M "Queries".toList = dslReference asciiTable M "queries".toList ∧
    (dslReference asciiTable M "Queries".toList).isError = true ∧
    ¬∃ before after, (dslReference asciiTable M "Queries".toList).texts =
      [before ++ "Queries".toList ++ after] := by
  have e : dslReference asciiTable M "Queries".toList = ⟨true, ["Unknown topic '".toList ++
    "queries".toList ++ "'. Valid options: 'dsl', 'query', 'all'".toList]⟩ := rfl
  refine ⟨rfl, by rw [e], ?_⟩
  rintro ⟨b, a, h⟩
  rw [e] at h
  have h' := (List.cons.inj h).1
  have hm : 'Q' ∈ "Unknown topic '".toList ++ "queries".toList ++
      "'. Valid options: 'dsl', 'query', 'all'".toList := by
    rw [h']; simp
  exact absurd hm (by decide)

/-! ## The hypotheses are met -/

theorem topic_lower {x : Char} (hx : x ∈ "dslqueryal".toList) : x.toLower = x := by
  have h : ∀ y ∈ "dslqueryal".toList, y.toLower = y := by decide
  exact h x hx

theorem asciiTable_ordinary : OrdinaryLetters asciiTable where
  nonempty c := by simp [asciiTable]
  usual x hx c hs := by
    show [c.toLower] = [x]
    rw [← (toLower_eq_iff x c).2 hs, topic_lower hx]
  noOther x hx c hm := by
    have hm' : x = c.toLower := by simpa [asciiTable] using hm
    exact (toLower_eq_iff x c).1 (by rw [topic_lower hx]; exact hm')

example : Spells "dsl" "DsL".toList ∧ ¬Spells "dsl" "dsl ".toList := by
  refine ⟨.cons ((toLower_eq_iff _ _).1 rfl) (.cons ((toLower_eq_iff _ _).1 rfl)
    (.cons ((toLower_eq_iff _ _).1 rfl) .nil)), ?_⟩
  intro h
  cases h with | cons _ h => cases h with | cons _ h => cases h with | cons _ h => cases h

example (M : Manual) : (dslReference asciiTable M "DsL".toList).isError = false ∧
    (dslReference asciiTable M "dsl ".toList).isError = true := ⟨rfl, rfl⟩

end Firm
