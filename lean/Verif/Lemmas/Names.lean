import Verif.Spec.Names
import Mathlib.Data.List.Chain
import Mathlib.Tactic.ByContra

namespace Firm
open Spec

theorem noNeighbours_iff {R : Char → Char → Prop} {s : Str} :
    NoNeighbours R s ↔ s.IsChain (fun a b => ¬ R a b) := by
  induction s with
  | nil => simp [NoNeighbours]
  | cons a s ih =>
    cases s with
    | nil => simp [NoNeighbours]
    | cons b s => simp only [NoNeighbours, ih, List.isChain_cons_cons]

variable {t : CaseTable}

/-- A letter or digit contact that the splitter always cuts. -/
def BadPair (t : CaseTable) (a b : Char) : Prop :=
  ((t.isUpper a = true ∨ t.isLower a = true) ∧ isDigit b = true) ∨
    (isDigit a = true ∧ (t.isUpper b = true ∨ t.isLower b = true))

theorem cut_of_bad {a b : Char} {n : Option Char} (h : BadPair t a b) : t.cut a b n = true := by
  rcases h with ⟨h1 | h1, h2⟩ | ⟨h1, h2 | h2⟩ <;> simp [CaseTable.cut, h1, h2]

/-- All words of a text, empty ones included. -/
def CaseTable.allWords (t : CaseTable) (s : Str) : List Str := (t.splitWords s).1 :: (t.splitWords s).2

theorem splitWords_cons (c : Char) (rest : Str) :
    t.splitWords (c :: rest) =
      if isDelim c then ([], t.allWords rest)
      else match rest with
        | [] => ([c], [])
        | d :: r => if t.cut c d r.head? then ([c], t.allWords rest)
          else (c :: (t.splitWords rest).1, (t.splitWords rest).2) := rfl

theorem splitWords_head (d : Char) (r : Str) :
    (isDelim d = true ∧ (t.splitWords (d :: r)).1 = []) ∨
    (isDelim d = false ∧ (t.splitWords (d :: r)).1.head? = some d) := by
  rw [splitWords_cons]
  cases hd : isDelim d with
  | true => simp
  | false =>
    cases r with
    | nil => simp
    | cons e r => simp only [Bool.false_eq_true, if_false]; split <;> simp

/-- A word as the splitter produces it. -/
def WordOk (t : CaseTable) (s w : Str) : Prop :=
  (∀ c ∈ w, c ∈ s ∧ isDelim c = false) ∧ w.IsChain (fun a b => ¬ BadPair t a b)

theorem WordOk.mono {s s' w : Str} (h : WordOk t s w) (hs : ∀ c ∈ s, c ∈ s') : WordOk t s' w :=
  ⟨fun c hc => ⟨hs c (h.1 c hc).1, (h.1 c hc).2⟩, h.2⟩

theorem allWords_ok (s : Str) : ∀ w ∈ t.allWords s, WordOk t s w := by
  induction s with
  | nil => simp [CaseTable.allWords, CaseTable.splitWords, WordOk]
  | cons c rest ih =>
    have ih' : ∀ w ∈ t.allWords rest, WordOk t (c :: rest) w :=
      fun w hw => (ih w hw).mono (fun x hx => by simp [hx])
    have hnil : WordOk t (c :: rest) [] := by simp [WordOk]
    intro w hw
    unfold CaseTable.allWords at hw
    rw [splitWords_cons] at hw
    cases hc : isDelim c with
    | true =>
      simp only [hc, if_true, List.mem_cons] at hw
      rcases hw with rfl | hw
      · exact hnil
      · exact ih' w hw
    | false =>
      have hone : WordOk t (c :: rest) [c] := by simp [WordOk, hc]
      cases rest with
      | nil =>
        simp only [hc, Bool.false_eq_true, if_false, List.mem_cons, List.not_mem_nil, or_false] at hw
        subst hw; exact hone
      | cons d r =>
        simp only [hc, Bool.false_eq_true, if_false] at hw
        split at hw
        · simp only [List.mem_cons] at hw
          rcases hw with rfl | hw
          · exact hone
          · exact ih' w hw
        · rename_i hcut
          rcases List.mem_cons.1 hw with rfl | hw
          · have h1 := ih' (t.splitWords (d :: r)).1 (by simp [CaseTable.allWords])
            refine ⟨?_, ?_⟩
            · intro x hx
              rcases List.mem_cons.1 hx with rfl | hx
              · exact ⟨by simp, hc⟩
              · exact h1.1 x hx
            · rw [List.isChain_cons]
              refine ⟨fun y hy hbad => ?_, h1.2⟩
              rcases splitWords_head (t := t) d r with ⟨_, h⟩ | ⟨_, h⟩
              · rw [h] at hy; simp at hy
              · rw [h] at hy; simp at hy; subst hy
                exact hcut (cut_of_bad hbad)
          · exact ih' w (List.mem_cons_of_mem _ hw)

/-- A lower-cased word. -/
structure CleanWord (t : CaseTable) (w : Str) : Prop where
  nonempty : w ≠ []
  chars : ∀ c ∈ w, t.isUpper c = false ∧ isDelim c = false
  contact : w.IsChain (fun a b => ¬ LetterDigit t a b)

theorem lower_cons (c : Char) (w : Str) : t.lower (c :: w) = t.lowerChar c ++ t.lower w := rfl

theorem lower_append (a b : Str) : t.lower (a ++ b) = t.lower a ++ t.lower b := by
  simp [CaseTable.lower]

theorem lower_ne_nil (ht : RegularCase t) {w : Str} (h : w ≠ []) : t.lower w ≠ [] := by
  cases w with
  | nil => exact absurd rfl h
  | cons c w =>
    rw [lower_cons]
    intro h
    exact ht.nonempty c (List.append_eq_nil_iff.1 h).1

/-- A character of a lower-cased text stems from a character of the text. -/
theorem mem_lower (ht : RegularCase t) {w : Str} {d : Char} (h : d ∈ t.lower w) :
    t.isUpper d = false ∧ (d ∈ w ∨ ∃ c ∈ w, t.isUpper c = true ∧ d ∈ t.lowerChar c) := by
  obtain ⟨c, hc, hd⟩ := List.mem_flatMap.1 h
  cases hu : t.isUpper c with
  | true => exact ⟨(ht.lowered c hu d hd).1, .inr ⟨c, hc, hu, hd⟩⟩
  | false =>
    rw [ht.keep c hu] at hd; simp at hd; subst hd
    exact ⟨hu, .inl hc⟩

theorem lower_fixed (ht : RegularCase t) {w : Str} (h : ∀ c ∈ w, t.isUpper c = false) :
    t.lower w = w := by
  induction w with
  | nil => rfl
  | cons c w ih =>
    rw [lower_cons, ht.keep c (h c (by simp)), ih (fun x hx => h x (by simp [hx]))]; rfl

theorem lower_head (ht : RegularCase t) {b : Char} {w : Str} {x : Char}
    (h : (t.lower (b :: w)).head? = some x) :
    (t.isUpper b = false ∧ x = b) ∨ (t.isUpper b = true ∧ x ∈ t.lowerChar b) := by
  rw [lower_cons] at h
  cases hu : t.isUpper b with
  | false => rw [ht.keep b hu] at h; simp at h; exact .inl ⟨rfl, h.symm⟩
  | true =>
    right
    refine ⟨rfl, ?_⟩
    cases hl : t.lowerChar b with
    | nil => exact absurd hl (ht.nonempty b)
    | cons y ys => rw [hl] at h; simp at h; subst h; simp

theorem lower_chain (ht : RegularCase t) {w : Str} (h : w.IsChain (fun a b => ¬ BadPair t a b)) :
    (t.lower w).IsChain (fun a b => ¬ LetterDigit t a b) := by
  induction w with
  | nil => simp [CaseTable.lower]
  | cons c w ih =>
    rw [List.isChain_cons] at h
    rw [lower_cons, List.isChain_append]
    refine ⟨?_, ih h.2, ?_⟩
    · cases hu : t.isUpper c with
      | false => rw [ht.keep c hu]; simp
      | true =>
        have hall := ht.lowered c hu
        generalize t.lowerChar c = l at hall
        rw [List.isChain_iff_getElem]
        intro i hi hbad
        have h1 := (hall _ (List.getElem_mem (n := i) (by omega))).2.1
        have h2 := (hall _ (List.getElem_mem (n := i + 1) (by omega))).2.1
        rcases hbad with ⟨_, hb⟩ | ⟨hb, _⟩
        · rw [h2] at hb; simp at hb
        · rw [h1] at hb; simp at hb
    · intro x hx y hy hbad
      cases w with
      | nil => simp [CaseTable.lower] at hy
      | cons b w =>
        have hnb := h.1 b (by simp)
        cases hu : t.isUpper c with
        | false =>
          rw [ht.keep c hu] at hx; simp at hx; subst hx
          rcases lower_head ht hy with ⟨hb, rfl⟩ | ⟨hb, hy'⟩
          · rcases hbad with ⟨h1, h2⟩ | ⟨h1, h2⟩
            · exact hnb (.inl ⟨.inr h1, h2⟩)
            · exact hnb (.inr ⟨h1, .inr h2⟩)
          · have hyd := (ht.lowered b hb y hy').2.1
            rcases hbad with ⟨_, h2⟩ | ⟨h1, _⟩
            · rw [hyd] at h2; simp at h2
            · exact hnb (.inr ⟨h1, .inl hb⟩)
        | true =>
          have hxd := (ht.lowered c hu x (List.mem_of_mem_getLast? hx)).2.1
          rcases hbad with ⟨_, h2⟩ | ⟨h1, _⟩
          · rcases lower_head ht hy with ⟨hb, rfl⟩ | ⟨hb, hy'⟩
            · exact hnb (.inl ⟨.inl hu, h2⟩)
            · rw [(ht.lowered b hb y hy').2.1] at h2; simp at h2
          · rw [hxd] at h1; simp at h1

theorem clean_words (ht : RegularCase t) (s : Str) : ∀ w ∈ (t.words s).map t.lower, CleanWord t w := by
  intro w hw
  obtain ⟨v, hv, rfl⟩ := List.mem_map.1 hw
  have hv' := List.mem_filter.1 hv
  have hok := allWords_ok (t := t) s v hv'.1
  refine ⟨lower_ne_nil ht (by intro h; subst h; simp at hv'), ?_, lower_chain ht hok.2⟩
  intro c hc
  obtain ⟨h1, h2⟩ := mem_lower ht hc
  refine ⟨h1, ?_⟩
  rcases h2 with h2 | ⟨d, _, hd, hc⟩
  · exact (hok.1 c h2).2
  · exact (ht.lowered d hd c hc).2.2.1

theorem join_cons_cons (w v : Str) (ws : List Str) :
    joinUnderscore (w :: v :: ws) = w ++ '_' :: joinUnderscore (v :: ws) := rfl

theorem underscore_no_contact (ht : RegularCase t) (c : Char) :
    ¬ LetterDigit t c '_' ∧ ¬ LetterDigit t '_' c := by
  have h := (ht.delim '_' (.inl rfl)).2
  have hd : isDigit '_' = false := by decide
  simp [LetterDigit, h, hd]

theorem delim_underscore {c : Char} (h : isDelim c = false) : c ≠ '_' ∧ c ≠ ' ' ∧ c ≠ '-' := by
  refine ⟨?_, ?_, ?_⟩ <;> rintro rfl <;> simp [isDelim] at h

/-- Clean words joined by underscores are snake case. -/
theorem join_isSnake (ht : RegularCase t) {ws : List Str} (h : ∀ w ∈ ws, CleanWord t w) :
    IsSnake t (joinUnderscore ws) := by
  induction ws with
  | nil => exact ⟨by simp [joinUnderscore], by simp [joinUnderscore], by simp [joinUnderscore], trivial, trivial⟩
  | cons w ws ih =>
    have hw := h w (by simp)
    have hfirst : w.head? ≠ some '_' := by
      intro hh
      exact (delim_underscore (hw.chars _ (List.mem_of_mem_head? hh)).2).1 rfl
    have hlast : w.getLast? ≠ some '_' := by
      intro hh
      exact (delim_underscore (hw.chars _ (List.mem_of_mem_getLast? hh)).2).1 rfl
    have hdoubled : w.IsChain (fun a b => ¬ (a = '_' ∧ b = '_')) := by
      rw [List.isChain_iff_getElem]
      rintro i hi ⟨h1, _⟩
      exact (delim_underscore (hw.chars _ (List.getElem_mem (n := i) (by omega))).2).1 h1
    have hchars : ∀ c ∈ w, t.isUpper c = false ∧ c ≠ ' ' ∧ c ≠ '-' := fun c hc =>
      ⟨(hw.chars c hc).1, (delim_underscore (hw.chars c hc).2).2⟩
    cases ws with
    | nil =>
      exact ⟨hchars, hfirst, hlast, noNeighbours_iff.2 hdoubled, noNeighbours_iff.2 hw.contact⟩
    | cons v ws =>
      have ih' := ih (fun u hu => h u (by simp [hu]))
      rw [join_cons_cons]
      generalize hj : joinUnderscore (v :: ws) = j at ih'
      have hjne : j ≠ [] := by
        have hv := (h v (by simp)).nonempty
        rw [← hj]
        cases ws <;> simp [joinUnderscore, hv]
      refine ⟨?_, ?_, ?_, ?_, ?_⟩
      · intro c hc
        rcases List.mem_append.1 hc with hc | hc
        · exact hchars c hc
        · rcases List.mem_cons.1 hc with rfl | hc
          · exact ⟨(ht.delim '_' (.inl rfl)).1, by decide, by decide⟩
          · exact ih'.chars c hc
      · rw [List.head?_append]
        cases hh : w.head? with
        | none => exact absurd (List.head?_eq_none_iff.1 hh) hw.nonempty
        | some c => rw [hh] at hfirst; simpa using hfirst
      · rw [List.getLast?_append, List.getLast?_cons]
        cases hh : j.getLast? with
        | none => exact absurd (List.getLast?_eq_none_iff.1 hh) hjne
        | some c => have := ih'.last; rw [hh] at this; simpa using this
      · rw [noNeighbours_iff, List.isChain_append, List.isChain_cons]
        refine ⟨hdoubled, ⟨?_, noNeighbours_iff.1 ih'.doubled⟩, ?_⟩
        · rintro y hy ⟨_, rfl⟩; exact ih'.first hy
        · rintro x hx y _ ⟨rfl, _⟩; exact hlast hx
      · rw [noNeighbours_iff, List.isChain_append, List.isChain_cons]
        refine ⟨hw.contact, ⟨?_, noNeighbours_iff.1 ih'.contact⟩, ?_⟩
        · intro y _; exact (underscore_no_contact ht y).2
        · intro x _ y hy; simp at hy; subst hy; exact (underscore_no_contact ht x).1

/-- On text without upper-case letters, blanks, hyphens and letter/digit contacts the splitter only
cuts at underscores. -/
theorem join_split (ht : RegularCase t) {s : Str}
    (hc : ∀ c ∈ s, t.isUpper c = false ∧ c ≠ ' ' ∧ c ≠ '-')
    (hn : s.IsChain (fun a b => ¬ LetterDigit t a b)) : joinUnderscore (t.allWords s) = s := by
  induction s with
  | nil => rfl
  | cons c rest ih =>
    have hc' := hc c (by simp)
    rw [List.isChain_cons] at hn
    have ih' := ih (fun x hx => hc x (by simp [hx])) hn.2
    unfold CaseTable.allWords
    rw [splitWords_cons]
    cases hd : isDelim c with
    | true =>
      have : c = '_' := by
        simp [isDelim, hc'.2.1, hc'.2.2] at hd; exact hd
      subst this
      show joinUnderscore ([] :: (t.splitWords rest).1 :: (t.splitWords rest).2) = _
      rw [join_cons_cons]
      show [] ++ '_' :: joinUnderscore (t.allWords rest) = _
      rw [ih']; rfl
    | false =>
      cases rest with
      | nil => rfl
      | cons d r =>
        simp only [Bool.false_eq_true, if_false]
        have hcut : t.cut c d r.head? = false := by
          have hd' := hc d (by simp)
          have hnb := hn.1 d (by simp)
          unfold LetterDigit at hnb
          simp only [not_or, not_and, Bool.not_eq_true] at hnb
          cases h1 : t.isLower c <;> cases h2 : isDigit c <;>
            simp_all [CaseTable.cut]
        rw [hcut]
        simp only [Bool.false_eq_true, if_false]
        unfold CaseTable.allWords at ih'
        cases hws : (t.splitWords (d :: r)).2 with
        | nil => rw [hws] at ih'; simp only [joinUnderscore] at ih' ⊢; rw [ih']
        | cons v vs => rw [hws, join_cons_cons] at ih'; rw [join_cons_cons, List.cons_append, ih']

/-- There is no cut in front of a delimiter or dot. -/
theorem cut_delim (ht : RegularCase t) {c d : Char} {n : Option Char} (h : isDelim d = true ∨ d = '.') :
    t.cut c d n = false := by
  have h1 := ht.delim d h
  have h2 : isDigit d = false := by
    cases h3 : isDigit d with
    | false => rfl
    | true =>
      exfalso
      rcases h with h | rfl
      · simp only [isDelim, Bool.or_eq_true, beq_iff_eq] at h
        rcases h with (rfl | rfl) | rfl <;> simp [isDigit] at h3
      · simp [isDigit] at h3
  simp [CaseTable.cut, h1, h2]

theorem splitWords_nonempty (ht : RegularCase t) {s : Str} (hd : s.IsChain (fun a b => ¬ (a = '_' ∧ b = '_')))
    (hc : ∀ c ∈ s, c ≠ ' ' ∧ c ≠ '-') (hl : s.getLast? ≠ some '_') :
    ∀ w ∈ (t.splitWords s).2, w ≠ [] := by
  induction s with
  | nil => simp [CaseTable.splitWords]
  | cons c rest ih =>
    rw [List.isChain_cons] at hd
    cases rest with
    | nil =>
      rw [splitWords_cons]
      cases hcd : isDelim c with
      | true =>
        have := hc c (by simp)
        have : c = '_' := by simp [isDelim, this.1, this.2] at hcd; exact hcd
        subst this; simp at hl
      | false => simp
    | cons d r =>
      have ih' := ih hd.2 (fun x hx => hc x (by simp [hx])) (by simpa using hl)
      have hfst : isDelim d = false → (t.splitWords (d :: r)).1 ≠ [] := by
        intro h h0
        rcases splitWords_head (t := t) d r with ⟨h1, _⟩ | ⟨_, h1⟩
        · rw [h] at h1; simp at h1
        · rw [h0] at h1; simp at h1
      rw [splitWords_cons]
      cases hcd : isDelim c with
      | true =>
        have h1 := hc c (by simp)
        have h2 : c = '_' := by simp [isDelim, h1.1, h1.2] at hcd; exact hcd
        have hdd : isDelim d = false := by
          have h3 := hc d (by simp)
          have h4 := hd.1 d (by simp)
          simp only [h2, true_and] at h4
          simp [isDelim, h3.1, h3.2, h4]
        simp only [if_true, CaseTable.allWords, List.mem_cons]
        rintro w (rfl | hw)
        · exact hfst hdd
        · exact ih' w hw
      | false =>
        simp only [Bool.false_eq_true, if_false]
        split
        · rename_i hcut
          simp only [CaseTable.allWords, List.mem_cons]
          rintro w (rfl | hw)
          · apply hfst
            by_contra hdel
            rw [Bool.not_eq_false] at hdel
            rw [cut_delim ht (.inl hdel)] at hcut
            exact absurd hcut (by simp)
          · exact ih' w hw
        · exact ih'

theorem filter_nonempty {l : List Str} (h : ∀ w ∈ l, w ≠ []) : l.filter (fun w => !w.isEmpty) = l := by
  rw [List.filter_eq_self]
  intro w hw
  cases w with
  | nil => exact absurd rfl (h [] hw)
  | cons _ _ => rfl

/-- Snake case text is left unchanged. -/
theorem snake_fixed (ht : RegularCase t) {s : Str} (h : IsSnake t s) : t.snake s = s := by
  cases s with
  | nil => rfl
  | cons c rest =>
    have hwords : t.words (c :: rest) = t.allWords (c :: rest) := by
      unfold CaseTable.words
      apply filter_nonempty
      intro w hw
      rcases List.mem_cons.1 hw with rfl | hw
      · intro h0
        rcases splitWords_head (t := t) c rest with ⟨h1, _⟩ | ⟨_, h1⟩
        · have h2 := h.chars c (by simp)
          have : c = '_' := by simp [isDelim, h2.2.1, h2.2.2] at h1; exact h1
          subst this; exact h.first rfl
        · rw [h0] at h1; simp at h1
      · exact splitWords_nonempty ht (noNeighbours_iff.1 h.doubled) (fun x hx => (h.chars x hx).2) h.last w hw
    unfold CaseTable.snake
    rw [hwords]
    have : (t.allWords (c :: rest)).map t.lower = t.allWords (c :: rest) := by
      conv_rhs => rw [← List.map_id (t.allWords (c :: rest))]
      apply List.map_congr_left
      intro w hw
      exact lower_fixed ht (fun x hx => (h.chars x ((allWords_ok _ w hw).1 x hx).1).1)
    rw [this]
    exact join_split ht h.chars (noNeighbours_iff.1 h.contact)

/-! ## Composition -/

theorem splitWords_dot (ht : RegularCase t) (b : Str) :
    t.splitWords ('.' :: b) = ('.' :: (t.splitWords b).1, (t.splitWords b).2) := by
  rw [splitWords_cons]
  have h1 : isDelim '.' = false := by decide
  rw [h1]
  simp only [Bool.false_eq_true, if_false]
  cases b with
  | nil => rfl
  | cons d r =>
    have h2 := ht.delim '.' (.inr rfl)
    have h3 : isDigit '.' = false := by decide
    have : t.cut '.' d r.head? = false := by simp [CaseTable.cut, h2, h3]
    simp only [this, Bool.false_eq_true, if_false]

/-- The words of `a.b`: those of `a` and those of `b`, the last of `a` and the first of `b` glued. -/
theorem allWords_dot (ht : RegularCase t) (a b : Str) : ∃ pre z,
    t.allWords a = pre ++ [z] ∧
    t.allWords (a ++ '.' :: b) = pre ++ (z ++ '.' :: (t.splitWords b).1) :: (t.splitWords b).2 := by
  induction a with
  | nil =>
    refine ⟨[], [], rfl, ?_⟩
    simp [CaseTable.allWords, splitWords_dot ht]
  | cons c a ih =>
    obtain ⟨pre, z, h1, h2⟩ := ih
    unfold CaseTable.allWords
    rw [List.cons_append, splitWords_cons, splitWords_cons]
    cases hd : isDelim c with
    | true =>
      refine ⟨[] :: pre, z, ?_, ?_⟩
      · simp [h1]
      · simp [h2]
    | false =>
      simp only [Bool.false_eq_true, if_false]
      cases a with
      | nil =>
        have hcut : t.cut c '.' b.head? = false := cut_delim ht (.inr rfl)
        simp only [List.nil_append, hcut, Bool.false_eq_true, if_false]
        refine ⟨[], [c], rfl, ?_⟩
        rw [splitWords_dot ht]; rfl
      | cons d r =>
        have hnext : t.cut c d (r ++ '.' :: b).head? = t.cut c d r.head? := by
          cases r with
          | nil => simp [CaseTable.cut, (ht.delim '.' (.inr rfl)).2]
          | cons e r => rfl
        rw [List.cons_append] at h2
        simp only [List.cons_append, hnext]
        cases t.cut c d r.head? with
        | true =>
          simp only [if_true]
          exact ⟨[c] :: pre, z, by rw [h1]; rfl, by rw [h2]; rfl⟩
        | false =>
          simp only [Bool.false_eq_true, if_false]
          unfold CaseTable.allWords at h1 h2
          cases pre with
          | nil =>
            simp only [List.nil_append, List.cons.injEq] at h1 h2
            exact ⟨[], c :: z, by rw [h1.1, h1.2]; rfl, by rw [h2.1, h2.2]; rfl⟩
          | cons p pre =>
            simp only [List.cons_append, List.cons.injEq] at h1 h2
            exact ⟨(c :: p) :: pre, z, by rw [h1.1, h1.2]; rfl, by rw [h2.1, h2.2]; rfl⟩

theorem join_glue (A B : List Str) (x y : Str) :
    joinUnderscore (A ++ (x ++ '.' :: y) :: B) =
      joinUnderscore (A ++ [x]) ++ '.' :: joinUnderscore (y :: B) := by
  induction A with
  | nil =>
    cases B with
    | nil => simp [joinUnderscore]
    | cons b B => simp [joinUnderscore]
  | cons a A ih =>
    cases A with
    | nil =>
      simp only [List.nil_append, List.cons_append] at ih ⊢
      rw [join_cons_cons, ih, join_cons_cons]; simp [joinUnderscore]
    | cons a' A =>
      simp only [List.cons_append] at ih ⊢
      rw [join_cons_cons, ih, join_cons_cons]; simp

theorem splitWords_last {a : Str} {pre : List Str} {z : Str} (h : t.allWords a = pre ++ [z])
    (hl : ∀ c, a.getLast? = some c → isDelim c = false) (hne : a ≠ []) : z ≠ [] := by
  induction a generalizing pre with
  | nil => exact absurd rfl hne
  | cons c a ih =>
    cases a with
    | nil =>
      have hc := hl c (by simp)
      unfold CaseTable.allWords at h
      rw [splitWords_cons, hc] at h
      cases pre with
      | nil => simp at h; rw [← h]; simp
      | cons p pre => simp at h
    | cons d r =>
      have ih' := fun {pre} (h : t.allWords (d :: r) = pre ++ [z]) =>
        ih h (by simpa using hl) (by simp)
      unfold CaseTable.allWords at h
      rw [splitWords_cons] at h
      have skip : ∀ w, w :: t.allWords (d :: r) = pre ++ [z] → z ≠ [] := by
        intro w hw
        cases pre with
        | nil => simp [CaseTable.allWords] at hw
        | cons p pre => simp only [List.cons_append, List.cons.injEq] at hw; exact ih' hw.2
      cases hd : isDelim c with
      | true => rw [hd] at h; exact skip _ h
      | false =>
        rw [hd] at h
        simp only [Bool.false_eq_true, if_false] at h
        cases hcut : t.cut c d r.head? with
        | true => rw [hcut] at h; exact skip _ h
        | false =>
          rw [hcut] at h
          simp only [Bool.false_eq_true, if_false] at h
          cases pre with
          | nil => simp at h; rw [← h.1]; simp
          | cons p pre =>
            simp only [List.cons_append, List.cons.injEq] at h
            exact ih' (pre := (t.splitWords (d :: r)).1 :: pre) (by
              unfold CaseTable.allWords; rw [h.2]; rfl)

/-- Normalising `a.b` normalises the parts, unless `a` ends or `b` begins with a delimiter. -/
theorem snake_dot (ht : RegularCase t) {a b : Str}
    (ha : ∀ c, a.getLast? = some c → isDelim c = false)
    (hb : ∀ c, b.head? = some c → isDelim c = false) :
    t.snake (a ++ '.' :: b) = t.snake a ++ '.' :: t.snake b := by
  obtain ⟨pre, z, h1, h2⟩ := allWords_dot ht a b
  have hdot : t.lower ['.'] = ['.'] := by
    simp [CaseTable.lower, ht.keep '.' (ht.delim '.' (.inr rfl)).1]
  have hw : ∀ s, t.words s = (t.allWords s).filter (fun w => !w.isEmpty) := fun _ => rfl
  have hz : ∀ pre' : List Str, joinUnderscore (((pre' ++ [z]).filter (fun w => !w.isEmpty)).map t.lower) =
      joinUnderscore ((pre'.filter (fun w => !w.isEmpty)).map t.lower ++ [t.lower z]) ∨ a = [] := by
    intro pre'
    by_cases hne : a = []
    · exact .inr hne
    · left
      have := splitWords_last h1 ha hne
      cases z with
      | nil => exact absurd rfl this
      | cons x z => simp
  have hleft : t.snake a = joinUnderscore ((pre.filter (fun w => !w.isEmpty)).map t.lower ++ [t.lower z]) := by
    rcases hz pre with h | h
    · unfold CaseTable.snake; rw [hw, h1, h]
    · subst h
      cases pre with
      | nil =>
        simp [CaseTable.allWords, CaseTable.splitWords] at h1
        subst h1; rfl
      | cons p pre => simp [CaseTable.allWords, CaseTable.splitWords] at h1
  have hright : t.snake b = joinUnderscore (t.lower (t.splitWords b).1 ::
      ((t.splitWords b).2.filter (fun w => !w.isEmpty)).map t.lower) := by
    cases b with
    | nil => rfl
    | cons d r =>
      have : (t.splitWords (d :: r)).1 ≠ [] := by
        intro h0
        rcases splitWords_head (t := t) d r with ⟨h, _⟩ | ⟨_, h⟩
        · rw [hb d rfl] at h; simp at h
        · rw [h0] at h; simp at h
      unfold CaseTable.snake CaseTable.words
      rw [List.filter_cons_of_pos (by
        cases h : (t.splitWords (d :: r)).1 with
        | nil => exact absurd h this
        | cons _ _ => rfl)]
      rfl
  rw [hleft, hright, ← join_glue]
  unfold CaseTable.snake
  rw [hw, h2, List.filter_append, List.filter_cons_of_pos (by simp), List.map_append, List.map_cons]
  congr 2
  rw [show z ++ '.' :: (t.splitWords b).1 = z ++ (['.'] ++ (t.splitWords b).1) from rfl, lower_append,
    lower_append, hdot]
  rfl

theorem mem_join {ws : List Str} {c : Char} (h : c ∈ joinUnderscore ws) :
    c = '_' ∨ ∃ w ∈ ws, c ∈ w := by
  induction ws with
  | nil => simp [joinUnderscore] at h
  | cons w ws ih =>
    cases ws with
    | nil => exact .inr ⟨w, by simp, h⟩
    | cons v ws =>
      rw [join_cons_cons] at h
      rcases List.mem_append.1 h with h | h
      · exact .inr ⟨w, by simp, h⟩
      · rcases List.mem_cons.1 h with h | h
        · exact .inl h
        · rcases ih h with h | ⟨u, hu, hc⟩
          · exact .inl h
          · exact .inr ⟨u, by simp [hu], hc⟩

/-- Normalisation introduces no dot. -/
theorem dot_mem_snake (ht : RegularCase t) {s : Str} (h : '.' ∈ t.snake s) : '.' ∈ s := by
  rcases mem_join h with h | ⟨w, hw, hc⟩
  · simp at h
  · obtain ⟨v, hv, rfl⟩ := List.mem_map.1 hw
    rcases (mem_lower ht hc).2 with h | ⟨d, _, hd, h⟩
    · exact ((allWords_ok (t := t) s v (List.mem_filter.1 hv).1).1 _ h).1
    · exact absurd rfl (ht.lowered d hd _ h).2.2.2

theorem dot_mem_lower (ht : RegularCase t) {s : Str} (h : '.' ∈ t.lower s) : '.' ∈ s := by
  rcases (mem_lower ht h).2 with h | ⟨d, _, hd, h⟩
  · exact h
  · exact absurd rfl (ht.lowered d hd _ h).2.2.2

theorem splitOnceDot_append {p q : Str} (h : '.' ∉ p) : splitOnceDot (p ++ '.' :: q) = some (p, q) := by
  induction p with
  | nil => simp [splitOnceDot]
  | cons c p ih =>
    simp only [List.mem_cons, not_or] at h
    simp [splitOnceDot, Ne.symm h.1, ih h.2]

theorem lower_last (ht : RegularCase t) {s : Str} (h : ∀ c, s.getLast? = some c → isDelim c = false) :
    ∀ c, (t.lower s).getLast? = some c → isDelim c = false := by
  intro c hc
  cases s using List.reverseRecOn with
  | nil => simp [CaseTable.lower] at hc
  | append_singleton s d =>
    have hd := h d (by simp)
    rw [lower_append] at hc
    have hone : t.lower [d] = t.lowerChar d := by simp [CaseTable.lower]
    rw [hone] at hc
    cases hu : t.isUpper d with
    | false => rw [ht.keep d hu] at hc; simp at hc; subst hc; exact hd
    | true =>
      rw [List.getLast?_append] at hc
      cases hl : (t.lowerChar d).getLast? with
      | none => exact absurd (List.getLast?_eq_none_iff.1 hl) (ht.nonempty d)
      | some x =>
        rw [hl] at hc; simp at hc; subst hc
        exact (ht.lowered d hu x (List.mem_of_mem_getLast? hl)).2.2.1

theorem asciiTable_regular : RegularCase asciiTable := by
  have low : ∀ c : Char, 65 ≤ c.toNat → c.toNat ≤ 90 → c.toLower.toNat = c.toNat + 32 := by
    intro c h1 h2
    have e : c = Char.ofNat c.toNat := by simp
    rw [e]
    generalize c.toNat = n at h1 h2
    have : ∀ m : Fin 26, (Char.ofNat (65 + m.1)).toLower.toNat = (Char.ofNat (65 + m.1)).toNat + 32 := by
      decide
    have := this ⟨n - 65, by omega⟩
    simpa [show 65 + (n - 65) = n by omega] using this
  constructor
  · intro c h
    simp only [asciiTable, Bool.and_eq_false_iff, decide_eq_false_iff_not] at h ⊢
    congr 1
    unfold Char.toLower
    rw [dif_neg]
    intro hh
    have h1 : 65 ≤ c.toNat := by
      exact UInt32.le_iff_toNat_le.1 hh.1
    have h2 : c.toNat ≤ 90 := by
      exact UInt32.le_iff_toNat_le.1 hh.2
    omega
  · intro c; simp [asciiTable]
  · intro c h d hd
    simp only [asciiTable, Bool.and_eq_true, decide_eq_true_eq, List.mem_singleton] at h hd
    subst hd
    have := low c h.1 h.2
    refine ⟨?_, ?_, ?_, ?_⟩
    · simp only [asciiTable, this, Bool.and_eq_false_iff, decide_eq_false_iff_not]; omega
    · simp only [isDigit, this, Bool.and_eq_false_iff, decide_eq_false_iff_not]; omega
    · cases hx : isDelim c.toLower with
      | false => rfl
      | true =>
        simp only [isDelim, Bool.or_eq_true, beq_iff_eq] at hx
        rcases hx with (hx | hx) | hx <;> rw [hx] at this <;> simp at this <;> omega
    · intro hx; rw [hx] at this; simp at this; omega
  · intro c h
    simp only [asciiTable, Bool.and_eq_true, decide_eq_true_eq] at h
    simp only [asciiTable, Bool.and_eq_false_iff, decide_eq_false_iff_not]; omega
  · intro c h
    simp only [isDigit, Bool.and_eq_true, decide_eq_true_eq] at h
    simp only [asciiTable, Bool.and_eq_false_iff, decide_eq_false_iff_not]; omega
  · rintro c (h | rfl)
    · simp only [isDelim, Bool.or_eq_true, beq_iff_eq] at h
      rcases h with (rfl | rfl) | rfl <;> decide
    · decide

end Firm
