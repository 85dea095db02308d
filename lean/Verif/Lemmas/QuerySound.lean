import Verif.Lemmas.QueryTree

/-!
# What the query grammar produces

Every matched tree can be written, every rule consumes text, and the bounds of the model on
repetition and nesting never matter.
-/

namespace Firm

open Spec

theorem validValues_iff {vs : List QValue} : ValidValues vs ↔ ∀ v ∈ vs, ValidValue v := by
  induction vs with
  | nil => simp [ValidValues]
  | cons v vs ih => simp [ValidValues, ih]

theorem qMany_sound {α : Type} {p : Str → Option (α × Str)} {P : α → Prop}
    (hp : ∀ s a r, p s = some (a, r) → P a ∧ r.length ≤ s.length) :
    ∀ (n : Nat) (s : Str), (∀ a ∈ (qMany p n s).1, P a) ∧ (qMany p n s).2.length ≤ s.length
  | 0, s => ⟨(by intro a h; cases h), Nat.le_refl _⟩
  | n + 1, s => by
    rw [qMany]
    split
    · exact ⟨(by intro a h; cases h), Nat.le_refl _⟩
    · next a r h =>
      obtain ⟨h1, h2⟩ := hp _ a r h
      have ih := qMany_sound hp n r
      have := qSkip_length s
      refine ⟨?_, ?_⟩
      · intro b hb
        rcases List.mem_cons.mp hb with rfl | hb
        · exact h1
        · exact ih.1 b hb
      · simp only
        omega

theorem qLeaf_sound {s r : Str} {v : QValue} (h : qLeaf s = some (v, r)) :
    ValidValue v ∧ r.length < s.length := by
  unfold qLeaf at h
  split at h
  · next n c r' hc =>
    cases h
    obtain ⟨h1, h2, h3⟩ := qCurrency_sound hc
    exact ⟨⟨h1, h2⟩, h3⟩
  split at h
  · next t r' hc =>
    cases h
    obtain ⟨h1, rfl⟩ := qDateTime_sound hc
    refine ⟨h1, ?_⟩
    obtain ⟨d, ⟨y, m, dd, hy, -, -, rfl⟩, h1⟩ := h1
    have := hy.1
    rcases h1 with rfl | ⟨tt, -, rfl | ⟨z, -, -, rfl⟩⟩ <;> simp <;> omega
  split at h
  · next t r' hc =>
    cases h
    obtain ⟨h1, rfl⟩ := qReference_sound hc
    refine ⟨h1, ?_⟩
    obtain ⟨a, b, -, -, rfl | ⟨d, -, rfl⟩⟩ := h1 <;> simp <;> omega
  split at h
  · next t r' hc => cases h; exact qTagged_sound hc
  split at h
  · next t r' hc => cases h; exact qTagged_sound hc
  split at h
  · next t r' hc => cases h; exact qString_sound hc
  split at h
  · next t r' hc =>
    cases h
    obtain ⟨h1, rfl⟩ := qNumber_sound hc
    refine ⟨h1, ?_⟩
    obtain ⟨c, cs, rfl, -⟩ := number_head h1
    simp; omega
  split at h
  · next b r' hc =>
    cases h
    refine ⟨trivial, ?_⟩
    unfold qBoolean at hc
    split at hc
    · next hl =>
      cases hc
      have := qLit_eq hl; subst this
      rw [List.length_append]
      have : ("true".toList).length = 4 := rfl
      omega
    · split at hc
      · next hl =>
        cases hc
        have := qLit_eq hl; subst this
        rw [List.length_append]
        have : ("false".toList).length = 5 := rfl
        omega
      · cases hc
  · cases h

theorem qAfter_sound {α : Type} {c : Char} {p : Str → Option (α × Str)} {P : α → Prop}
    (hp : ∀ s a r, p s = some (a, r) → P a ∧ r.length ≤ s.length) :
    ∀ s a r, qAfter c p s = some (a, r) → P a ∧ r.length < s.length := by
  intro s a r h
  cases s with
  | nil => cases h
  | cons d s =>
    simp only [qAfter] at h
    split at h
    · obtain ⟨h1, h2⟩ := hp _ _ _ h
      have := qSkip_length s
      simp only [List.length_cons]
      exact ⟨h1, by omega⟩
    · cases h

theorem qList_sound {α : Type} {p : Str → Option (α × Str)} {P : α → Prop}
    (hp : ∀ s a r, p s = some (a, r) → P a ∧ r.length ≤ s.length) {s : Str} {vs : List α} {r : Str}
    (h : qList p s = some (vs, r)) : vs ≠ [] ∧ (∀ v ∈ vs, P v) ∧ r.length < s.length := by
  cases s with
  | nil => cases h
  | cons c s =>
    simp only [qList] at h
    split at h
    · split at h
      · cases h
      · next v r1 h1 =>
        have hm := qMany_sound (p := qAfter ',' p) (P := P)
          (fun s a r h => ⟨(qAfter_sound hp s a r h).1, Nat.le_of_lt (qAfter_sound hp s a r h).2⟩)
          r1.length r1
        obtain ⟨h2, h3⟩ := hp _ _ _ h1
        split at h
        · cases h
        · next d r2 hd =>
          split at h
          · cases h
            refine ⟨by simp, ?_, ?_⟩
            · intro w hw
              rcases List.mem_cons.mp hw with rfl | hw
              · exact h2
              · exact hm.1 w hw
            · have l1 := qSkip_length s
              have l2 := qSkip_length (qMany (qAfter ',' p) r1.length r1).2
              rw [hd] at l2
              have := hm.2
              simp only [List.length_cons] at l2 ⊢
              omega
          · cases h
    · cases h

theorem qValue_sound : ∀ (n : Nat) (s : Str) (v : QValue) (r : Str), qValue n s = some (v, r) →
    ValidValue v ∧ r.length < s.length
  | 0, _, _, _, h => by cases h
  | n + 1, s, v, r, h => by
    rw [qValue] at h
    split at h
    · next x hx => cases h; exact qLeaf_sound hx
    · split at h
      · cases h
      · next vs r' hl =>
        cases h
        obtain ⟨h1, h2, h3⟩ := qList_sound (P := ValidValue)
          (fun s a r h => ⟨(qValue_sound n s a r h).1, Nat.le_of_lt (qValue_sound n s a r h).2⟩) hl
        exact ⟨⟨h1, validValues_iff.mpr h2⟩, h3⟩

theorem ident_pos {t : Str} (h : IsIdent t) : 0 < t.length := by
  obtain ⟨c, cs, rfl, -⟩ := h
  simp

theorem qField_sound {s r : Str} {f : QField} (h : qField s = some (f, r)) :
    ValidField f ∧ r.length < s.length := by
  cases s with
  | nil => cases h
  | cons c s =>
    simp only [qField] at h
    split at h
    · split at h
      · cases h
      · next i r' hi =>
        cases h
        obtain ⟨h1, h2, -⟩ := qIdent_sound hi
        have := qSkip_length s
        have l := congrArg List.length h2
        have := ident_pos h1
        simp only [List.length_append, List.length_cons] at l ⊢
        exact ⟨h1, by omega⟩
    · split at h
      · cases h
      · next i r' hi =>
        cases h
        obtain ⟨h1, h2, -⟩ := qIdent_sound hi
        have l := congrArg List.length h2
        have := ident_pos h1
        simp only [List.length_append] at l
        exact ⟨h1, by omega⟩

theorem qSelector_sound {s r : Str} {f : QSelector} (h : qSelector s = some (f, r)) :
    ValidSelector f ∧ r.length < s.length := by
  cases s with
  | nil => cases h
  | cons c s =>
    simp only [qSelector] at h
    split at h
    · cases h; exact ⟨trivial, by simp⟩
    · split at h
      · cases h
      · next i r' hi =>
        cases h
        obtain ⟨h1, h2, -⟩ := qIdent_sound hi
        have l := congrArg List.length h2
        have := ident_pos h1
        simp only [List.length_append] at l
        exact ⟨h1, by omega⟩

theorem qLit_length {k s r : Str} (h : qLit k s = some r) : r.length ≤ s.length := by
  have := qLit_eq h; subst this; simp

theorem qWord_length {α : Type} : ∀ (ws : List (Str × α)) {s r : Str} {a : α},
    qWord ws s = some (a, r) → r.length ≤ s.length
  | [], _, _, _, h => by cases h
  | (k, a) :: ws, s, r, b, h => by
    simp only [qWord] at h
    split at h
    · next hl => cases h; exact qLit_length hl
    · exact qWord_length ws h

theorem qCond_sound {n : Nat} {s r : Str} {c : QCond} (h : qCond n s = some (c, r)) :
    ValidCond c ∧ r.length < s.length := by
  unfold qCond at h
  split at h
  · cases h
  next f r1 h1 =>
  split at h
  · cases h
  next op r2 h2 =>
  split at h
  · cases h
  next v r3 h3 =>
  cases h
  obtain ⟨a1, a2⟩ := qField_sound h1
  obtain ⟨b1, b2⟩ := qValue_sound n _ _ _ h3
  have := qWord_length _ h2
  have := qSkip_length r1
  have := qSkip_length r2
  exact ⟨⟨a1, b1⟩, by omega⟩

theorem qLitI_length {k s r : Str} (h : qLitI k s = some r) : r.length ≤ s.length := by
  unfold qLitI at h
  split at h
  · cases h; simp
  · cases h

theorem qMore_sound {n : Nat} {s r : Str} {m : Combinator × QCond} (h : qMore n s = some (m, r)) :
    ValidCond m.2 ∧ r.length < s.length := by
  unfold qMore at h
  split at h
  · cases h
  next c r1 h1 =>
  split at h
  · cases h
  next q r2 h2 =>
  cases h
  obtain ⟨a1, a2⟩ := qCond_sound h2
  have := qSkip_length r1
  have : r1.length ≤ s.length := by
    unfold qCombinator at h1
    split at h1
    · next hl => cases h1; exact qLitI_length hl
    · split at h1
      · next hl => cases h1; exact qLitI_length hl
      · cases h1
  exact ⟨a1, by omega⟩

theorem qOpt_sound {α : Type} {p : Str → Option (α × Str)} {P : α → Prop}
    (hp : ∀ s a r, p s = some (a, r) → P a ∧ r.length ≤ s.length) (s : Str) :
    (∀ a, (qOpt p s).1 = some a → P a) ∧ (qOpt p s).2.length ≤ s.length := by
  unfold qOpt
  split
  · exact ⟨(fun a h => by cases h), Nat.le_refl _⟩
  · next a r h =>
    obtain ⟨h1, h2⟩ := hp _ _ _ h
    have := qSkip_length s
    exact ⟨fun b hb => by cases hb; exact h1, by simp only; omega⟩

theorem qDegree_sound {s t r : Str} (h : qDegree s = some (t, r)) :
    IsNumberText t ∧ r.length ≤ s.length := by
  unfold qDegree at h
  split at h
  · next s' =>
    split at h
    · cases h
    · next t' r1 h1 =>
      obtain ⟨a1, a2⟩ := qNumber_sound h1
      split at h
      · next r2 h2 =>
        cases h
        refine ⟨a1, ?_⟩
        have l1 := qSkip_length s'
        have l2 := qSkip_length r1
        have l3 := congrArg List.length a2
        rw [h2] at l2
        simp only [List.length_append, List.length_cons] at l2 l3 ⊢
        omega
      · cases h
  · cases h

theorem qOperation_sound {n : Nat} {s r : Str} {o : QOp} (h : qOperation n s = some (o, r)) :
    ValidOp o ∧ r.length ≤ s.length := by
  unfold qOperation at h
  split at h
  · next x hx =>
    cases h
    unfold qWhere at hx
    split at hx
    · cases hx
    next r1 h1 =>
    split at hx
    · cases hx
    next c r2 h2 =>
    cases hx
    obtain ⟨a1, a2⟩ := qCond_sound h2
    have hm := qMany_sound (p := qMore n) (P := fun m => ValidCond m.2)
      (fun s a r h => ⟨(qMore_sound h).1, Nat.le_of_lt (qMore_sound h).2⟩) r2.length r2
    have := qLit_length h1
    have := qSkip_length r1
    have := hm.2
    exact ⟨⟨a1, hm.1⟩, by omega⟩
  split at h
  · next x hx =>
    cases h
    unfold qRelated at hx
    split at hx
    · cases hx
    next r1 h1 =>
    cases hx
    have hd := qOpt_sound (p := qDegree) (P := IsNumberText) (fun s a r h => qDegree_sound h) r1
    have hs := qOpt_sound (p := qSelector) (P := ValidSelector)
      (fun s a r h => ⟨(qSelector_sound h).1, Nat.le_of_lt (qSelector_sound h).2⟩) (qOpt qDegree r1).2
    have := qLit_length h1
    exact ⟨⟨hd.1, hs.1⟩, by have := hd.2; have := hs.2; omega⟩
  split at h
  · next x hx =>
    cases h
    unfold qOrder at hx
    split at hx
    · cases hx
    next r1 h1 =>
    split at hx
    · cases hx
    next f r2 h2 =>
    cases hx
    obtain ⟨a1, a2⟩ := qField_sound h2
    have hd := qOpt_sound (p := qWord directionWords) (P := fun _ => True)
      (fun s a r h => ⟨trivial, qWord_length _ h⟩) r2
    have := qLit_length h1
    have := qSkip_length r1
    have := hd.2
    exact ⟨a1, by omega⟩
  · unfold qLimit at h
    split at h
    · cases h
    next r1 h1 =>
    split at h
    · cases h
    next t r2 h2 =>
    cases h
    obtain ⟨a1, a2⟩ := qNumber_sound h2
    have := qLit_length h1
    have := qSkip_length r1
    have l3 := congrArg List.length a2
    rw [List.length_append] at l3
    exact ⟨a1, by omega⟩

theorem qOver_sound {k s r : Str} {mk : QField → QAgg} {a : QAgg} (h : qOver k mk s = some (a, r)) :
    ∃ f, ValidField f ∧ a = mk f ∧ r.length ≤ s.length := by
  unfold qOver at h
  split at h
  · cases h
  next r1 h1 =>
  split at h
  · cases h
  next f r2 h2 =>
  cases h
  obtain ⟨a1, a2⟩ := qField_sound h2
  have := qLit_length h1
  have := qSkip_length r1
  exact ⟨f, a1, rfl, by omega⟩

theorem qAggregation_sound {s r : Str} {a : QAgg} (h : qAggregation s = some (a, r)) :
    ValidAgg a ∧ r.length ≤ s.length := by
  unfold qAggregation at h
  split at h
  · next x hx =>
    cases h
    unfold qSelect at hx
    split at hx
    · cases hx
    next r1 h1 =>
    split at hx
    · cases hx
    next f r2 h2 =>
    cases hx
    obtain ⟨a1, a2⟩ := qField_sound h2
    have hq : ∀ s a r, qField s = some (a, r) → ValidField a ∧ r.length ≤ s.length :=
      fun s a r h => ⟨(qField_sound h).1, Nat.le_of_lt (qField_sound h).2⟩
    have hm := qMany_sound (p := qAfter ',' qField) (P := ValidField)
      (fun s a r h => ⟨(qAfter_sound hq s a r h).1, Nat.le_of_lt (qAfter_sound hq s a r h).2⟩)
      r2.length r2
    have := qLit_length h1
    have := qSkip_length r1
    have := hm.2
    refine ⟨⟨by simp, ?_⟩, by omega⟩
    intro x hx
    rcases List.mem_cons.mp hx with rfl | hx
    · exact a1
    · exact hm.1 x hx
  split at h
  · next x hx =>
    cases h
    unfold qCountClause at hx
    split at hx
    · cases hx
    next r1 h1 =>
    cases hx
    have hf := qOpt_sound (p := qField) (P := ValidField)
      (fun s a r h => ⟨(qField_sound h).1, Nat.le_of_lt (qField_sound h).2⟩) r1
    have := qLit_length h1
    exact ⟨hf.1, by have := hf.2; omega⟩
  split at h
  · next x hx => cases h; obtain ⟨f, h1, rfl, h2⟩ := qOver_sound hx; exact ⟨h1, h2⟩
  split at h
  · next x hx => cases h; obtain ⟨f, h1, rfl, h2⟩ := qOver_sound hx; exact ⟨h1, h2⟩
  · obtain ⟨f, h1, rfl, h2⟩ := qOver_sound h; exact ⟨h1, h2⟩

theorem qQuery_sound {s : Str} {q : QTree} (h : qQuery s = some q) : ValidTree q := by
  unfold qQuery at h
  split at h
  · cases h
  next r h0 =>
  split at h
  · cases h
  next sel r1 h1 =>
  simp only at h
  split at h
  · cases h
    refine ⟨(qSelector_sound h1).1, ?_, ?_⟩
    · exact (qMany_sound (P := ValidOp) (fun s a r h =>
        ⟨(qAfter_sound (fun s a r h => qOperation_sound h) s a r h).1,
         Nat.le_of_lt (qAfter_sound (fun s a r h => qOperation_sound h) s a r h).2⟩) _ _).1
    · exact (qOpt_sound (P := ValidAgg) (fun s a r h =>
        ⟨(qAfter_sound (fun s a r h => qAggregation_sound h) s a r h).1,
         Nat.le_of_lt (qAfter_sound (fun s a r h => qAggregation_sound h) s a r h).2⟩) _).1
  · cases h

/-! ## The bounds of the model -/

/-- Two rules that agree on all texts up to a length repeat in the same way, for any number of
rounds that is at least the length of the text. -/
theorem qMany_bound {α : Type} {p p' : Str → Option (α × Str)}
    (hlt : ∀ s a r, p s = some (a, r) → r.length < s.length) :
    ∀ (n m : Nat) (s : Str), (∀ t : Str, t.length ≤ s.length → p t = p' t) → s.length ≤ n →
      s.length ≤ m → qMany p n s = qMany p' m s
  | n, m, s, hp, hn, hm => by
    have hq := hp (qSkip s) (qSkip_length s)
    cases n with
    | zero =>
      have : s = [] := List.length_eq_zero_iff.mp (by omega)
      subst this
      cases m with
      | zero => rfl
      | succ m =>
        rw [qMany, qMany, ← hq]
        cases hx : p (qSkip []) with
        | none => rfl
        | some x =>
          have := hlt _ x.1 x.2 (by rw [hx])
          simp [qSkip] at this
    | succ n =>
      cases m with
      | zero =>
        have : s = [] := List.length_eq_zero_iff.mp (by omega)
        subst this
        rw [qMany, qMany]
        cases hx : p (qSkip []) with
        | none => rfl
        | some x =>
          have := hlt _ x.1 x.2 (by rw [hx])
          simp [qSkip] at this
      | succ m =>
        rw [qMany, qMany, ← hq]
        cases hx : p (qSkip s) with
        | none => rfl
        | some x =>
          obtain ⟨a, r⟩ := x
          have h1 := hlt _ _ _ hx
          have h2 := qSkip_length s
          have := qMany_bound hlt n m r (fun t ht => hp t (by omega)) (by omega) (by omega)
          simp only [this]

theorem qValue_bound : ∀ (n m : Nat) (s : Str), s.length < n → s.length < m →
    qValue n s = qValue m s
  | 0, _, _, h, _ => absurd h (by omega)
  | _, 0, _, _, h => absurd h (by omega)
  | n + 1, m + 1, s, hn, hm => by
    rw [qValue, qValue]
    cases hl : qLeaf s with
    | some x => rfl
    | none =>
      simp only
      have : qList (qValue n) s = qList (qValue m) s := by
        cases s with
        | nil => rfl
        | cons c s =>
          simp only [qList]
          split
          · simp only [List.length_cons] at hn hm
            have hs := qSkip_length s
            rw [qValue_bound n m (qSkip s) (by omega) (by omega)]
            cases hv : qValue m (qSkip s) with
            | none => rfl
            | some x =>
              obtain ⟨v, r⟩ := x
              have h1 := (qValue_sound _ _ _ _ hv).2
              have hlt : ∀ s a r, qAfter ',' (qValue n) s = some (a, r) → r.length < s.length :=
                fun s a r h => (qAfter_sound (P := fun _ => True) (fun s a r h =>
                  ⟨trivial, Nat.le_of_lt (qValue_sound n s a r h).2⟩) s a r h).2
              have := qMany_bound (p := qAfter ',' (qValue n)) (p' := qAfter ',' (qValue m)) hlt
                r.length r.length r (fun t ht => by
                  cases t with
                  | nil => rfl
                  | cons d t =>
                    simp only [qAfter]
                    split
                    · have := qSkip_length t
                      simp only [List.length_cons] at ht
                      exact qValue_bound n m (qSkip t) (by omega) (by omega)
                    · rfl) (Nat.le_refl _) (Nat.le_refl _)
              simp only [this]
          · rfl
      rw [this]

end Firm
