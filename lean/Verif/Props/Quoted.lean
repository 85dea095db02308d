import Verif.Props.RoundTrip

/-!
# C69: enum values with quotation marks
-/

namespace Firm

open Firm.Spec

theorem replaceGo_len (pat : Str) (hp : pat ≠ []) (k : Nat) (s : Str) :
    (replaceGo pat [] k s).length + k ≤ s.length + k ∧
    (k = 0 → Occurs pat s → (replaceGo pat [] 0 s).length + pat.length ≤ s.length) ∧
    (k = 0 → ¬ Occurs pat s → replaceGo pat [] 0 s = s) := by
  induction hn : s.length using Nat.strong_induction_on generalizing s k with
  | _ n ih =>
    cases s with
    | nil =>
      refine ⟨by simp [replaceGo], fun _ h => ?_, fun _ _ => by simp [replaceGo]⟩
      obtain ⟨a, b, h⟩ := h
      have := congrArg List.length h
      simp only [List.length_nil, List.length_append] at this
      exact absurd (List.length_eq_zero_iff.1 (by omega)) hp
    | cons c s =>
      simp only [List.length_cons] at hn
      cases k with
      | succ k =>
        have := (ih s.length (by omega) k s rfl).1
        refine ⟨by simp only [replaceGo]; omega, fun h => (by cases h), fun h => (by cases h)⟩
      | zero =>
        by_cases hst : startsWith (c :: s) pat = true
        · have hlen : pat.length ≤ s.length + 1 := by
            have := (List.isPrefixOf_iff_prefix.1 hst).length_le
            simpa using this
          obtain ⟨r, hr⟩ := List.isPrefixOf_iff_prefix.1 hst
          have e : replaceGo pat [] 0 (c :: s) = replaceGo pat [] 0 r := by
            cases pat with
            | nil => exact absurd rfl hp
            | cons d pat =>
              rw [replaceGo, if_pos hst, List.nil_append]
              simp only [List.cons_append, List.cons.injEq] at hr
              rw [← hr.2, show (d :: pat).length - 1 = pat.length from rfl]
              exact replaceGo_skip ..
          have hrl : r.length + pat.length = s.length + 1 := by
            have := congrArg List.length hr
            simp only [List.length_append, List.length_cons] at this
            omega
          have hpos : 0 < pat.length := List.length_pos_iff.2 hp
          have hi := (ih r.length (by omega) 0 r rfl).1
          refine ⟨by rw [e]; omega, fun _ _ => by rw [e]; omega, fun _ hno => ?_⟩
          exact absurd ⟨[], r, by rw [← hr]; rfl⟩ hno
        · have e : replaceGo pat [] 0 (c :: s) = c :: replaceGo pat [] 0 s := by rw [replaceGo, if_neg hst]
          obtain ⟨i1, i2, i3⟩ := ih s.length (by omega) 0 s rfl
          have hocc : Occurs pat (c :: s) ↔ Occurs pat s := by
            constructor
            · rintro ⟨a, b, h⟩
              cases a with
              | nil =>
                exfalso
                exact hst (List.isPrefixOf_iff_prefix.2 ⟨b, by rw [h]; rfl⟩)
              | cons d a =>
                simp only [List.cons_append, List.cons.injEq] at h
                exact ⟨a, b, h.2⟩
            · rintro ⟨a, b, h⟩; exact ⟨c :: a, b, by rw [h]; rfl⟩
          refine ⟨by rw [e]; simp only [List.length_cons]; omega, fun _ h => ?_, fun _ h => ?_⟩
          · have := i2 rfl (hocc.1 h)
            rw [e]; simp only [List.length_cons]; omega
          · rw [e, i3 rfl (fun h' => h (hocc.2 h'))]

theorem dropWhile_eq_self_iff {c : Char} {s : Str} : s.dropWhile (· == c) = s ↔ s.head? ≠ some c := by
  cases s with
  | nil => simp
  | cons d s =>
    by_cases h : d = c
    · subst h
      simp only [List.dropWhile_cons, beq_self_eq_true, if_true, List.head?_cons, ne_eq, not_true, iff_false]
      intro h
      have := congrArg List.length h
      have hl := (List.dropWhile_sublist (l := s) (· == d)).length_le
      simp only [List.length_cons] at this
      omega
    · have : (d == c) = false := by simpa using h
      simp [this, h]

theorem dropWhile_head (c : Char) (s : Str) : (s.dropWhile (· == c)).head? ≠ some c := by
  induction s with
  | nil => simp
  | cons d s ih =>
    rw [List.dropWhile_cons]
    split
    · exact ih
    · next h => simpa using h

theorem trimMatches_length (c : Char) (s : Str) : (trimMatches c s).length ≤ s.length := by
  unfold trimMatches
  rw [List.length_reverse]
  refine (List.dropWhile_sublist _).length_le.trans ?_
  rw [List.length_reverse]
  exact (List.dropWhile_sublist _).length_le

/-- Trimming takes exactly the closing quotation mark iff there is no other one at the ends. -/
theorem trimMatches_close {c : Char} {s : Str} :
    trimMatches c (s ++ [c]) = s ↔ s.head? ≠ some c ∧ s.getLast? ≠ some c := by
  constructor
  · intro h
    have hlast : s.getLast? ≠ some c := by
      rw [← h]
      unfold trimMatches
      rw [List.getLast?_reverse]
      exact dropWhile_head _ _
    refine ⟨fun hh => ?_, hlast⟩
    cases s with
    | nil => cases hh
    | cons d s =>
      simp only [List.head?_cons, Option.some.injEq] at hh
      subst hh
      have hlen := congrArg List.length h
      unfold trimMatches at hlen
      rw [List.length_reverse, List.cons_append, List.dropWhile_cons, if_pos (by simp)] at hlen
      have h2 : ((s ++ [d]).dropWhile (· == d)).length ≤ s.length + 1 := by
        have := (List.dropWhile_sublist (l := s ++ [d]) (· == d)).length_le
        simpa using this
      have h3 : (((s ++ [d]).dropWhile (· == d)).reverse.dropWhile (· == d)).length + 1 ≤ s.length + 1 := by
        generalize hx : (s ++ [d]).dropWhile (· == d) = x at *
        cases hy : x.reverse with
        | nil => simp
        | cons y ys =>
          have hyd : y = d := by
            have : x ≠ [] := by rintro rfl; simp at hy
            have hsuf : x <:+ s ++ [d] := by rw [← hx]; exact List.dropWhile_suffix _
            obtain ⟨p, hp⟩ := hsuf
            have h4 := congrArg List.getLast? hp
            rw [List.getLast?_append_of_ne_nil _ this, List.getLast?_concat] at h4
            have : x = ys.reverse ++ [y] := by rw [← List.reverse_reverse x, hy]; simp
            rw [this, List.getLast?_concat] at h4
            exact Option.some.inj h4
          subst hyd
          rw [List.dropWhile_cons, if_pos (by simp)]
          have h5 := (List.dropWhile_sublist (l := ys) (· == y)).length_le
          have h6 : ys.length + 1 = x.length := by rw [← List.length_reverse (as := x), hy]; rfl
          omega
      simp only [List.length_cons] at hlen
      omega
  · rintro ⟨h1, h2⟩
    unfold trimMatches
    cases s with
    | nil => simp
    | cons d s =>
      have hd : (d == c) = false := by simpa using h1
      rw [List.cons_append, List.dropWhile_cons, hd, ← List.cons_append]
      simp only [Bool.false_eq_true, if_false]
      rw [List.reverse_append, List.reverse_singleton, List.singleton_append, List.dropWhile_cons, if_pos (by simp),
        dropWhile_eq_self_iff.2 (by rw [List.head?_reverse]; exact h2), List.reverse_reverse]

/-- What stands between the quotation marks of a prefixed literal is read as it is iff the opening of the literal does not
occur again and no quotation mark stands at either end. -/
theorem literal_exact {q s : Str} (hq : '"' ∉ q) (hne : q ≠ []) :
    trimMatches '"' (strReplace (q ++ ['"']) [] (q ++ ['"'] ++ s ++ ['"'])) = s ↔
      ¬ Occurs (q ++ ['"']) (s ++ ['"']) ∧ s.head? ≠ some '"' ∧ s.getLast? ≠ some '"' := by
  rw [List.append_assoc (q ++ ['"']), replace_literal hq hne]
  obtain ⟨_, h2, h3⟩ := replaceGo_len (q ++ ['"']) (by simp) 0 (s ++ ['"'])
  by_cases ho : Occurs (q ++ ['"']) (s ++ ['"'])
  · refine ⟨fun h => ?_, fun h => absurd ho h.1⟩
    have hl := h2 rfl ho
    have ht := trimMatches_length '"' (replaceGo (q ++ ['"']) [] 0 (s ++ ['"']))
    rw [h] at ht
    have : 0 < q.length := List.length_pos_iff.2 hne
    simp only [List.length_append, List.length_singleton] at hl
    omega
  · rw [h3 rfl ho, trimMatches_close]
    exact ⟨fun h => ⟨ho, h⟩, fun h => h.2⟩

/-- C69, all enum values: exactly when a value reads back. What is missing are the values that do not: those with a quotation
mark at an end, with `enum"` inside, or with `enum` at the end. That the grammar takes the generated text for one literal is
outside the model. -/
theorem C69_exact_partial {L : Lang} {o : GeneratorOptions} {source s : Str} :
    ReadsBack L o source (.enum s) ↔
      ¬ Occurs "enum\"".toList (s ++ ['"']) ∧ s.head? ≠ some '"' ∧ s.getLast? ≠ some '"' := by
  have hg : generateValue L o (.enum s) = "enum".toList ++ ['"'] ++ s ++ ['"'] := by
    simp only [generateValue]; rfl
  have hv : fromNode L source (valueNode L o (.enum s)) =
      .ok (.enum (trimMatches '"' (strReplace ("enum".toList ++ ['"']) [] ("enum".toList ++ ['"'] ++ s ++ ['"'])))) := by
    rw [fromNode_leaf (by simp), show (literalKind (.enum s)).toList = "enum".toList from rfl, parseLeaf_enum, hg]
    rfl
  rw [show "enum\"".toList = "enum".toList ++ ['"'] from rfl, ← literal_exact (by decide) (by decide)]
  constructor
  · rintro ⟨p, hp, e⟩
    rw [hv] at hp
    cases hp
    exact FieldValue.enum.inj e
  · intro h
    exact ⟨_, hv, congrArg FieldValue.enum h⟩

example : ReadsBack exLang .default [] (.enum "a \"b\" c".toList) ∧ ¬ ReadsBack exLang .default [] (.enum "\"b\"".toList) ∧
    ¬ ReadsBack exLang .default [] (.enum "an enum\"s".toList) := by
  refine ⟨⟨_, rfl, by decide⟩, ?_, ?_⟩
  · rw [C69_exact_partial]; exact fun h => h.2.1 rfl
  · rw [C69_exact_partial]; exact fun h => h.1 ⟨"an ".toList, "s\"".toList, rfl⟩

end Firm
