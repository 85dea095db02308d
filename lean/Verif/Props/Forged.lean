import Verif.Props.Trees
import Verif.Props.Strings
import Verif.Props.Shown
import Verif.Props.Served
import Verif.Props.Asked

/-!
# What a generated text can be told from (C174)

Whatever grammar reads the files, it reads equal texts alike. The theorems here compare the texts and so do not depend on
the grammar.
-/

namespace Firm
open Spec

namespace Spec

/-- A value that is written on one line: no text in it contains a line break. -/
inductive KeepsLine (L : Lang) : FieldValue → Prop
  | boolean (b : Bool) : KeepsLine L (.boolean b)
  | string {s : Str} (h : '\n' ∉ s) : KeepsLine L (.string s)
  | integer (n : Int) : KeepsLine L (.integer n)
  | float {f : F64} (h : '\n' ∉ L.showF64 f) : KeepsLine L (.float f)
  | currency (a : Decimal) {c : Str} (h : '\n' ∉ c) : KeepsLine L (.currency a c)
  | entity {i : Str} (h : '\n' ∉ i) (hq : i ≠ "\"\"\"".toList) : KeepsLine L (.reference (.entity i))
  | field {i f : Str} (h : '\n' ∉ i) (hf : '\n' ∉ f) : KeepsLine L (.reference (.field i f))
  | dateTime (d : DateTime) : KeepsLine L (.dateTime d)
  | path {p : Str} (h : '\n' ∉ p) : KeepsLine L (.path p)
  | enum {s : Str} (h : '\n' ∉ s) : KeepsLine L (.enum s)
  | list {items : List FieldValue} (h : ∀ v ∈ items, KeepsLine L v) : KeepsLine L (.list items)

/-- A value that cannot be taken for further lines: it is written on one line, or it is a text of several lines none of which
consists of the three quotation marks that end such a text. -/
inductive Framed (L : Lang) : FieldValue → Prop
  | line {v : FieldValue} (h : KeepsLine L v) : Framed L v
  | block {s : Str} (h : '\n' ∈ s) (hl : "\"\"\"".toList ∉ strLines s) : Framed L (.string s)

/-- An entity whose names contain no blanks or line breaks where these end a name, and whose values are framed. -/
structure FramedEntity (L : Lang) (e : Entity) : Prop where
  type : ' ' ∉ e.entityType
  id : '\n' ∉ e.id
  fields : ∀ p ∈ e.fields, ' ' ∉ p.1 ∧ Framed L p.2

/-- The two entities have the same type and name in the file, and the same fields in the same order with values of the same
text. -/
structure AlikeInFile (L : Lang) (o : GeneratorOptions) (e e' : Entity) : Prop where
  type : L.cases.lower e.entityType = L.cases.lower e'.entityType
  name : (decomposeEntityId e.id).2 = (decomposeEntityId e'.id).2
  fields : List.Forall₂ (fun p q => p.1 = q.1 ∧ generateValue L o p.2 = generateValue L o q.2) e.fields e'.fields

/-- Entities as they are read from files: the type is in small letters, the id is the type, a dot and a name. -/
structure Filed (L : Lang) (e : Entity) : Prop where
  small : L.cases.lower e.entityType = e.entityType
  dot : '.' ∉ e.entityType
  id : ∃ n, e.id = e.entityType ++ '.' :: n

end Spec

/-! ## Texts that end at a character -/

theorem cut_inj {c : Char} : ∀ {a b x y : Str}, c ∉ a → c ∉ b → a ++ c :: x = b ++ c :: y → a = b ∧ x = y
  | [], [], _, _, _, _, h => ⟨rfl, (List.cons.inj h).2⟩
  | [], d :: b, _, _, _, hb, h => by
    rw [List.nil_append, List.cons_append, List.cons.injEq] at h
    exact absurd (h.1 ▸ List.mem_cons_self) hb
  | d :: a, [], _, _, ha, _, h => by
    rw [List.nil_append, List.cons_append, List.cons.injEq] at h
    exact absurd (h.1 ▸ List.mem_cons_self) ha
  | d :: a, d' :: b, x, y, ha, hb, h => by
    rw [List.cons_append, List.cons_append, List.cons.injEq] at h
    obtain ⟨h1, h2⟩ := cut_inj (fun hc => ha (by simp [hc])) (fun hc => hb (by simp [hc])) h.2
    exact ⟨by rw [h.1, h1], h2⟩

theorem not_digit_mem {c : Char} (hd : isDigit c = false) {s : Str} (h : ∀ x ∈ s, isDigit x = true) : c ∉ s := fun hc => by
  have := h c hc
  rw [hd] at this
  cases this

theorem showInt_not_mem {c : Char} (hd : isDigit c = false) (hm : c ≠ '-') (n : Int) : c ∉ showInt n := fun h => by
  rcases mem_showInt h with h | h
  · exact hm h
  · rw [hd] at h; cases h

theorem show_not_mem {c : Char} (hd : isDigit c = false) (hm : c ≠ '-') (hp : c ≠ '.') (d : Decimal) : c ∉ d.show := by
  obtain ⟨a, b, h, hdig, _⟩ := d.show_shape
  rw [h]
  intro hc
  rcases List.mem_append.1 hc with hc | hc
  · rcases List.mem_append.1 hc with hc | hc
    · split at hc
      · exact hm (List.mem_singleton.1 hc)
      · cases hc
    · exact not_digit_mem hd (fun x hx => hdig x (List.mem_append_left _ hx)) hc
  · split at hc
    · cases hc
    · rcases List.mem_cons.1 hc with hc | hc
      · exact hp hc
      · exact not_digit_mem hd (fun x hx => hdig x (List.mem_append_right _ hx)) hc

theorem dateTime_line (d : DateTime) : '\n' ∉ generateDateTime d ∧ ' ' ∈ generateDateTime d := by
  have hm := civilOf_month ((d.secs + d.offset) / 86400)
  have hb := civilOf_day ((d.secs + d.offset) / 86400)
  have hdm := daysInMonth_le (civilOf ((d.secs + d.offset) / 86400)).year (civilOf ((d.secs + d.offset) / 86400)).month
  have hd : '\n' ∉ (civilOf ((d.secs + d.offset) / 86400)).show := fun h => by
    rcases mem_civil_show (by omega) (by omega) h with h | h | h
    · exact absurd h (by decide)
    · exact absurd h (by decide)
    · revert h; decide
  have ht : '\n' ∉ showTime ((d.secs + d.offset) % 86400 / 60).toNat := fun h => by
    rcases mem_showTime (by omega) h with h | h
    · exact absurd h (by decide)
    · revert h; decide
  have hi := showInt_not_mem (c := '\n') (by decide) (by decide) (offsetHours d.offset)
  unfold generateDateTime
  dsimp only
  refine ⟨?_, by simp [atMark]⟩
  intro h
  simp only [List.mem_append, List.mem_cons] at h
  rcases h with (h | h) | h
  · exact absurd h (by
      intro h
      rcases h with h | h
      · exact hd h
      · revert h; decide)
  · exact ht h
  · rcases h with h | h
    · exact absurd h (by decide)
    · split at h
      · revert h; decide
      · split at h
        · rcases List.mem_append.1 h with h | h
          · revert h; decide
          · exact hi h
        · rcases List.mem_append.1 h with h | h
          · revert h; decide
          · exact hi h

theorem escaped_not_quote : ∀ (s : Str) (t : Str), (s.flatMap fun c => if c = '"' then ['\\', '"'] else [c]) ≠ '"' :: t
  | [], _ => by simp
  | c :: s, t => by
    rw [List.flatMap_cons]
    by_cases h : c = '"'
    · rw [if_pos h]; simp
    · rw [if_neg h]
      intro hh
      rw [List.cons_append, List.cons.injEq] at hh
      exact h hh.1

theorem join_not_mem {c : Char} {sep : Str} (hs : c ∉ sep) {ps : List Str} (h : ∀ p ∈ ps, c ∉ p) : c ∉ joinWith sep ps :=
  fun hc => by
    rcases mem_joinWith hc with hc | ⟨p, hp, hc⟩
    · exact hs hc
    · exact h p hp hc

/-- The text of a value that keeps its line, and that it does not open a text of several lines. -/
theorem keeps_line {L : Lang} {o : GeneratorOptions} {v : FieldValue} (h : KeepsLine L v) :
    '\n' ∉ generateValue L o v ∧ generateValue L o v ≠ tripleQuote := by
  induction h with
  | boolean b =>
    cases b
    · show '\n' ∉ "false".toList ∧ "false".toList ≠ tripleQuote
      decide
    · show '\n' ∉ "true".toList ∧ "true".toList ≠ tripleQuote
      decide
  | @string s h =>
    have hg : generateValue L o (.string s) = '"' :: (s.flatMap fun c => if c = '"' then ['\\', '"'] else [c]) ++ ['"'] := by
      show generateString o s = _
      unfold generateString; simp only [if_neg h]
    rw [hg]
    constructor
    · intro hc
      rw [List.cons_append, List.mem_cons, List.mem_append] at hc
      rcases hc with hc | hc | hc
      · exact absurd hc (by decide)
      · obtain ⟨x, hx, hc⟩ := List.mem_flatMap.1 hc
        split at hc
        · revert hc; decide
        · rw [List.mem_singleton] at hc
          exact h (hc ▸ hx)
      · revert hc; decide
    · intro hc
      unfold tripleQuote at hc
      rw [List.cons_append, List.cons.injEq] at hc
      have h2 := hc.2
      have h3 : (s.flatMap fun c => if c = '"' then ['\\', '"'] else [c]) = ['"'] :=
        List.append_cancel_right (bs := ['"']) h2
      exact escaped_not_quote s [] h3
  | integer n =>
    refine ⟨showInt_not_mem (by decide) (by decide) n, fun h => ?_⟩
    have := showInt_not_mem (c := '"') (by decide) (by decide) n
    change showInt n = _ at h
    rw [h] at this
    exact this (by decide)
  | @float f h =>
    show '\n' ∉ generateFloat L f ∧ generateFloat L f ≠ tripleQuote
    unfold generateFloat
    dsimp only
    split
    · rename_i hd
      refine ⟨h, fun hc => ?_⟩
      rw [hc] at hd
      exact absurd hd (by decide)
    · refine ⟨fun hc => ?_, fun hc => ?_⟩
      · rcases List.mem_append.1 hc with hc | hc
        · exact h hc
        · revert hc; decide
      · have : '.' ∈ L.showF64 f ++ ['.', '0'] := by simp
        rw [hc] at this
        exact absurd this (by decide)
  | @currency a c h =>
    show '\n' ∉ a.show ++ ' ' :: c ∧ a.show ++ ' ' :: c ≠ tripleQuote
    refine ⟨fun hc => ?_, fun hc => ?_⟩
    · rcases List.mem_append.1 hc with hc | hc
      · exact show_not_mem (by decide) (by decide) (by decide) a hc
      · rcases List.mem_cons.1 hc with hc | hc
        · exact absurd hc (by decide)
        · exact h hc
    · have : ' ' ∈ a.show ++ ' ' :: c := by simp
      rw [hc] at this
      exact absurd this (by decide)
  | @entity i h hq =>
    show '\n' ∉ i ∧ i ≠ tripleQuote
    exact ⟨h, fun hc => hq (hc.trans rfl)⟩
  | @field i f h hf =>
    show '\n' ∉ i ++ '.' :: f ∧ i ++ '.' :: f ≠ tripleQuote
    refine ⟨fun hc => ?_, fun hc => ?_⟩
    · rcases List.mem_append.1 hc with hc | hc
      · exact h hc
      · rcases List.mem_cons.1 hc with hc | hc
        · exact absurd hc (by decide)
        · exact hf hc
    · have : '.' ∈ i ++ '.' :: f := by simp
      rw [hc] at this
      exact absurd this (by decide)
  | dateTime d =>
    show '\n' ∉ generateDateTime d ∧ generateDateTime d ≠ tripleQuote
    refine ⟨(dateTime_line d).1, fun hc => ?_⟩
    have := (dateTime_line d).2
    rw [hc] at this
    exact absurd this (by decide)
  | @path p h =>
    show '\n' ∉ "path\"".toList ++ p ++ ['"'] ∧ "path\"".toList ++ p ++ ['"'] ≠ tripleQuote
    refine ⟨fun hc => ?_, fun hc => ?_⟩
    · rcases List.mem_append.1 hc with hc | hc
      · rcases List.mem_append.1 hc with hc | hc
        · revert hc; decide
        · exact h hc
      · revert hc; decide
    · have : 'p' ∈ "path\"".toList ++ p ++ ['"'] := List.mem_append_left _ (List.mem_append_left _ (by decide))
      rw [hc] at this
      exact absurd this (by decide)
  | @enum s h =>
    show '\n' ∉ "enum\"".toList ++ s ++ ['"'] ∧ "enum\"".toList ++ s ++ ['"'] ≠ tripleQuote
    refine ⟨fun hc => ?_, fun hc => ?_⟩
    · rcases List.mem_append.1 hc with hc | hc
      · rcases List.mem_append.1 hc with hc | hc
        · revert hc; decide
        · exact h hc
      · revert hc; decide
    · have : 'e' ∈ "enum\"".toList ++ s ++ ['"'] := List.mem_append_left _ (List.mem_append_left _ (by decide))
      rw [hc] at this
      exact absurd this (by decide)
  | @list items h ih =>
    have hg : generateValue L o (.list items) = '[' :: joinWith [',', ' '] (generateValues L o items) ++ [']'] := by
      unfold generateValue; rfl
    rw [hg, generateValues_eq]
    refine ⟨fun hc => ?_, fun hc => ?_⟩
    · rw [List.cons_append, List.mem_cons, List.mem_append] at hc
      rcases hc with hc | hc | hc
      · exact absurd hc (by decide)
      · refine join_not_mem (by decide) (fun p hp => ?_) hc
        obtain ⟨v, hv, rfl⟩ := List.mem_map.1 hp
        exact (ih v hv).1
      · revert hc; decide
    · unfold tripleQuote at hc
      rw [List.cons_append, List.cons.injEq] at hc
      exact absurd hc.1 (by decide)

/-! ## From the text to the parts -/

theorem generateString_block (o : GeneratorOptions) {s : Str} (h : '\n' ∈ s) :
    generateString o s = tripleQuote ++ '\n' :: ((strLines s).flatMap fun l => o.indentStyle.indentString 1 ++ l ++ ['\n']) ++
      o.indentStyle.indentString 1 ++ tripleQuote := by
  unfold generateString
  simp only [if_pos h]

theorem indent_no_newline (st : IndentStyle) (n : Nat) : '\n' ∉ st.indentString n := fun h => by
  rcases indent_chars st n _ h with h | h <;> exact absurd h (by decide)

theorem strLines_no_newline {s : Str} : ∀ l ∈ strLines s, '\n' ∉ l := fun l hl => by
  obtain ⟨p, hp, hc⟩ := mem_linesOf hl
  exact fun h => splitChar_no p hp (hc _ h)

theorem blockLines_inj {ind x y : Str} (hi : '\n' ∉ ind) : ∀ {ls ls' : List Str}, (∀ l ∈ ls, '\n' ∉ l) → (∀ l ∈ ls', '\n' ∉ l) →
    tripleQuote ∉ ls → tripleQuote ∉ ls' →
    (ls.flatMap fun l => ind ++ l ++ ['\n']) ++ (ind ++ (tripleQuote ++ '\n' :: x)) =
      (ls'.flatMap fun l => ind ++ l ++ ['\n']) ++ (ind ++ (tripleQuote ++ '\n' :: y)) → ls = ls' ∧ x = y
  | [], [], _, _, _, _, h => by
    have h1 := List.append_cancel_left (List.append_cancel_left (List.append_cancel_left h))
    exact ⟨rfl, (List.cons.inj h1).2⟩
  | [], l :: ls, _, h2, _, h4, h => by
    rw [List.flatMap_nil, List.nil_append, List.flatMap_cons] at h
    simp only [List.append_assoc] at h
    have h1 := List.append_cancel_left h
    rw [List.singleton_append] at h1
    exact absurd (cut_inj (by decide) (h2 l (by simp)) h1).1 (fun hc => h4 (hc ▸ by simp))
  | l :: ls, [], h1, _, h3, _, h => by
    rw [List.flatMap_nil, List.nil_append, List.flatMap_cons] at h
    simp only [List.append_assoc] at h
    have h2 := List.append_cancel_left h
    rw [List.singleton_append] at h2
    exact absurd (cut_inj (h1 l (by simp)) (by decide) h2).1 (fun hc => h3 (hc ▸ by simp))
  | l :: ls, l' :: ls', h1, h2, h3, h4, h => by
    rw [List.flatMap_cons, List.flatMap_cons] at h
    simp only [List.append_assoc] at h
    have h5 := List.append_cancel_left h
    rw [List.singleton_append, List.singleton_append] at h5
    obtain ⟨h6, h7⟩ := cut_inj (h1 l (by simp)) (h2 l' (by simp)) h5
    have h8 := blockLines_inj (ls := ls) (ls' := ls') (x := x) (y := y) hi (fun m hm => h1 m (by simp [hm])) (fun m hm => h2 m (by simp [hm]))
      (fun hm => h3 (by simp [hm])) (fun hm => h4 (by simp [hm])) (by simpa only [List.append_assoc] using h7)
    exact ⟨by rw [h6, h8.1], h8.2⟩

/-- Framed values end where the next line begins. -/
theorem value_inj {L : Lang} {o : GeneratorOptions} {v w : FieldValue} (hv : Framed L v) (hw : Framed L w) {x y : Str}
    (h : generateValue L o v ++ '\n' :: x = generateValue L o w ++ '\n' :: y) :
    generateValue L o v = generateValue L o w ∧ x = y := by
  cases hv with
  | line hv =>
    cases hw with
    | line hw => exact cut_inj (keeps_line hv).1 (keeps_line hw).1 h
    | @block s hs hl =>
      exfalso
      change generateValue L o v ++ '\n' :: x = generateString o s ++ '\n' :: y at h
      rw [generateString_block o hs] at h
      simp only [List.append_assoc, List.cons_append] at h
      exact (keeps_line (o := o) hv).2 (cut_inj (keeps_line hv).1 (by decide) h).1
  | @block s hs hl =>
    change generateString o s ++ '\n' :: x = _ at h
    show generateString o s = _ ∧ _
    rw [generateString_block o hs] at h ⊢
    cases hw with
    | line hw =>
      exfalso
      simp only [List.append_assoc, List.cons_append] at h
      exact (keeps_line (o := o) hw).2 (cut_inj (by decide) (keeps_line hw).1 h).1.symm
    | @block t ht hl' =>
      change _ = generateString o t ++ '\n' :: y at h
      show _ = generateString o t ∧ _
      rw [generateString_block o ht] at h ⊢
      simp only [List.append_assoc, List.cons_append] at h
      have h1 := (List.cons.inj (List.append_cancel_left h)).2
      obtain ⟨h2, h3⟩ := blockLines_inj (x := x) (y := y) (indent_no_newline o.indentStyle 1) strLines_no_newline strLines_no_newline
        hl hl' (by simpa only [List.append_assoc] using h1)
      exact ⟨by rw [h2], h3⟩

theorem fields_inj {L : Lang} {o : GeneratorOptions} (hi : o.indentStyle.indentString 1 ≠ []) {x y : Str} :
    ∀ {fs gs : List (FieldId × FieldValue)}, (∀ p ∈ fs, ' ' ∉ p.1 ∧ Framed L p.2) → (∀ p ∈ gs, ' ' ∉ p.1 ∧ Framed L p.2) →
      (fs.flatMap fun p => o.indentStyle.indentString 1 ++ generateField L o p.1 p.2 ++ ['\n']) ++ '}' :: x =
        (gs.flatMap fun p => o.indentStyle.indentString 1 ++ generateField L o p.1 p.2 ++ ['\n']) ++ '}' :: y →
      List.Forall₂ (fun p q => p.1 = q.1 ∧ generateValue L o p.2 = generateValue L o q.2) fs gs ∧ x = y
  | [], [], _, _, h => ⟨.nil, (List.cons.inj h).2⟩
  | [], q :: gs, _, _, h => by
    exfalso
    obtain ⟨c, cs, hc⟩ := List.exists_cons_of_ne_nil hi
    rw [List.flatMap_nil, List.nil_append, List.flatMap_cons, hc] at h
    simp only [List.cons_append, List.cons.injEq] at h
    have := indent_chars o.indentStyle 1 c (by rw [hc]; simp)
    rw [← h.1] at this
    revert this; decide
  | p :: fs, [], _, _, h => by
    exfalso
    obtain ⟨c, cs, hc⟩ := List.exists_cons_of_ne_nil hi
    rw [List.flatMap_nil, List.nil_append, List.flatMap_cons, hc] at h
    simp only [List.cons_append, List.cons.injEq] at h
    have := indent_chars o.indentStyle 1 c (by rw [hc]; simp)
    rw [h.1] at this
    revert this; decide
  | p :: fs, q :: gs, hf, hg, h => by
    rw [List.flatMap_cons, List.flatMap_cons] at h
    unfold generateField at h
    simp only [List.append_assoc] at h
    have h1 := List.append_cancel_left h
    have he : " = ".toList = ' ' :: ['=', ' '] := rfl
    rw [he] at h1
    simp only [List.cons_append, List.nil_append] at h1
    obtain ⟨h2, h3⟩ := cut_inj (hf p (by simp)).1 (hg q (by simp)).1 h1
    have h4 := (List.cons.inj (List.cons.inj h3).2).2
    obtain ⟨h5, h6⟩ := value_inj (hf p (by simp)).2 (hg q (by simp)).2 h4
    obtain ⟨h7, h8⟩ := fields_inj hi (fs := fs) (gs := gs) (fun r hr => hf r (by simp [hr])) (fun r hr => hg r (by simp [hr]))
      (by unfold generateField; rw [he]; simpa only [List.append_assoc, List.cons_append, List.nil_append] using h6)
    exact ⟨.cons ⟨h2, h5⟩ h7, h8⟩

theorem local_no_newline {i : Str} (h : '\n' ∉ i) : '\n' ∉ (decomposeEntityId i).2 := by
  rcases C48_decompose_all i with ⟨_, h2⟩ | ⟨p, q, h1, _, h2⟩
  · rw [h2]; exact h
  · rw [h2]
    exact fun hc => h (by rw [h1]; exact List.mem_append_right _ (List.mem_cons_of_mem _ hc))

theorem entity_inj {L : Lang} (ht : RegularCase L.cases) {o : GeneratorOptions} (hi : o.indentStyle.indentString 1 ≠ []) {e e' : Entity}
    (he : FramedEntity L e) (he' : FramedEntity L e') {x y : Str}
    (h : generateEntity L o e ++ x = generateEntity L o e' ++ y) : AlikeInFile L o e e' ∧ x = y := by
  unfold generateEntity at h
  have hb : " {\n".toList = [' ', '{'] ++ ['\n'] := rfl
  have hc : "}\n".toList = ['}', '\n'] := rfl
  rw [hb, hc] at h
  simp only [List.append_assoc, List.cons_append, List.nil_append] at h
  obtain ⟨h1, h2⟩ := cut_inj (not_mem_lower ht (by decide) he.type) (not_mem_lower ht (by decide) he'.type) h
  have hn : ∀ {i : Str}, '\n' ∉ i → '\n' ∉ (decomposeEntityId i).2 ++ [' ', '{'] := fun hi hc => by
    rcases List.mem_append.1 hc with hc | hc
    · exact local_no_newline hi hc
    · revert hc; decide
  have h3 := cut_inj (c := '\n') (hn he.id) (hn he'.id) (by simpa only [List.append_assoc, List.cons_append, List.nil_append] using h2)
  have h4 := List.append_cancel_right h3.1
  obtain ⟨h5, h6⟩ := fields_inj hi he.fields he'.fields (by simpa only [List.append_assoc, List.cons_append, List.nil_append] using h3.2)
  exact ⟨⟨h1, h4, h5⟩, (List.cons.inj h6).2⟩

theorem entity_ne_nil {L : Lang} {o : GeneratorOptions} (e : Entity) : generateEntity L o e ≠ [] := by
  unfold generateEntity
  intro h
  have := congrArg List.length h
  simp at this

theorem rest_inj {L : Lang} (ht : RegularCase L.cases) {o : GeneratorOptions} (hi : o.indentStyle.indentString 1 ≠ []) :
    ∀ {es es' : List Entity}, (∀ e ∈ es, FramedEntity L e) → (∀ e ∈ es', FramedEntity L e) →
      generateRest L o es = generateRest L o es' → List.Forall₂ (AlikeInFile L o) es es'
  | [], [], _, _, _ => .nil
  | [], e :: es, _, _, h => by
    exfalso
    unfold generateRest at h
    rw [List.flatMap_nil, List.flatMap_cons] at h
    exact entity_ne_nil e (List.append_eq_nil_iff.1 (List.append_eq_nil_iff.1 h.symm).1).2
  | e :: es, [], _, _, h => by
    exfalso
    unfold generateRest at h
    rw [List.flatMap_nil, List.flatMap_cons] at h
    exact entity_ne_nil e (List.append_eq_nil_iff.1 (List.append_eq_nil_iff.1 h).1).2
  | e :: es, e' :: es', h1, h2, h => by
    unfold generateRest at h
    rw [List.flatMap_cons, List.flatMap_cons] at h
    simp only [List.append_assoc] at h
    obtain ⟨h3, h4⟩ := entity_inj ht hi (h1 e (by simp)) (h2 e' (by simp)) (List.append_cancel_left h)
    exact .cons h3 (rest_inj ht hi (fun x hx => h1 x (by simp [hx])) (fun x hx => h2 x (by simp [hx])) h4)

/-- C174: files with framed entities that have the same text were made from entities with the same types, names and fields.
Missing for the full claim: values with line breaks that imitate further lines (see `C174_entities`, `C174_fields`). -/
theorem C174_apart_partial (L : Lang) (ht : RegularCase L.cases) (o : GeneratorOptions) (hi : o.indentStyle.indentString 1 ≠ [])
    (es es' : List Entity) (h : ∀ e ∈ es, FramedEntity L e) (h' : ∀ e ∈ es', FramedEntity L e)
    (heq : generateDsl L o es = generateDsl L o es') : List.Forall₂ (AlikeInFile L o) es es' := by
  cases es with
  | nil =>
    cases es' with
    | nil => exact .nil
    | cons e es' => exact absurd (List.append_eq_nil_iff.1 heq.symm).1 (entity_ne_nil e)
  | cons e es =>
    cases es' with
    | nil => exact absurd (List.append_eq_nil_iff.1 heq).1 (entity_ne_nil e)
    | cons e' es' =>
      obtain ⟨h1, h2⟩ := entity_inj ht hi (h e (by simp)) (h' e' (by simp)) heq
      exact .cons h1 (rest_inj ht hi (fun x hx => h x (by simp [hx])) (fun x hx => h' x (by simp [hx])) h2)

/-- C174: two values of the same kind that read back and have the same text are equal. Missing for the full claim: lists
(see C177). -/
theorem C174_values_partial (L : Lang) (o : GeneratorOptions) (source : Str) (v w : FieldValue) (hk : literalKind v = literalKind w)
    (hl : ∀ items, v ≠ .list items) (hv : ReadsBack L o source v) (hw : ReadsBack L o source w)
    (h : generateValue L o v = generateValue L o w) : v = w := by
  have node : ∀ u : FieldValue, (∀ items, u ≠ .list items) →
      valueNode L o u = .mk "value".toList (generateValue L o u) [.mk (literalKind u).toList (generateValue L o u) []] := by
    intro u hu
    cases u <;> first | rfl | exact absurd rfl (hu _)
  have hl' : ∀ items, w ≠ .list items := by
    rintro items rfl
    cases v <;> first | exact absurd rfl (hl _) | exact absurd hk (by simp [literalKind])
  obtain ⟨p, hp, h1⟩ := hv
  obtain ⟨q, hq, h2⟩ := hw
  rw [node v hl, h, hk] at hp
  rw [node w hl'] at hq
  rw [hp] at hq
  cases hq
  rw [← h1, ← h2]

/-- C174: so two files of framed entities as they are read from files, with values that read back and are no lists, hold the
same entities when they have the same text and agree on the kinds of the fields. With lists: `C177_same_partial`. -/
theorem C174_same_partial (L : Lang) (ht : RegularCase L.cases) (o : GeneratorOptions) (hi : o.indentStyle.indentString 1 ≠ [])
    (source : Str) (es es' : List Entity)
    (h : ∀ e ∈ es, FramedEntity L e ∧ Filed L e) (h' : ∀ e ∈ es', FramedEntity L e ∧ Filed L e)
    (hr : ∀ e ∈ es, ∀ p ∈ e.fields, ReadsBack L o source p.2 ∧ ∀ items, p.2 ≠ .list items)
    (hr' : ∀ e ∈ es', ∀ p ∈ e.fields, ReadsBack L o source p.2)
    (hk : ∀ e ∈ es, ∀ e' ∈ es', e.entityType = e'.entityType → ∀ p ∈ e.fields, ∀ q ∈ e'.fields, p.1 = q.1 →
      literalKind p.2 = literalKind q.2)
    (heq : generateDsl L o es = generateDsl L o es') : es = es' := by
  have hF := C174_apart_partial L ht o hi es es' (fun e he => (h e he).1) (fun e he => (h' e he).1) heq
  clear heq
  induction hF with
  | nil => rfl
  | @cons e e' es es' ha _ ih =>
    have htl := ih (fun x hx => h x (by simp [hx])) (fun x hx => h' x (by simp [hx])) (fun x hx => hr x (by simp [hx]))
      (fun x hx => hr' x (by simp [hx])) (fun x hx y hy => hk x (by simp [hx]) y (by simp [hy]))
    have f1 := (h e (by simp)).2
    have f2 := (h' e' (by simp)).2
    have hty : e.entityType = e'.entityType := by rw [← f1.small, ← f2.small]; exact ha.type
    obtain ⟨n, hn⟩ := f1.id
    obtain ⟨m, hm⟩ := f2.id
    have hname := ha.name
    rw [hn, hm] at hname
    unfold decomposeEntityId at hname
    rw [splitOnceDot_append f1.dot, splitOnceDot_append f2.dot] at hname
    change n = m at hname
    have hid : e.id = e'.id := by rw [hn, hm, hty, hname]
    have hfs : e.fields = e'.fields := by
      have hkf := hk e (by simp) e' (by simp) hty
      have h1 := hr e (by simp)
      have h2 := hr' e' (by simp)
      have := ha.fields
      clear ha ih htl hk hr hr' h h'
      generalize e.fields = fs at *
      generalize e'.fields = gs at *
      induction this with
      | nil => rfl
      | @cons p q fs gs hpq _ ih =>
        have hpv := C174_values_partial L o source p.2 q.2 (hkf p (by simp) q (by simp) hpq.1) (h1 p (by simp)).2 (h1 p (by simp)).1
          (h2 q (by simp)) hpq.2
        rw [ih (fun a ha => h1 a (by simp [ha])) (fun a ha => h2 a (by simp [ha])) (fun a ha b hb => hkf a (by simp [ha]) b (by simp [hb]))]
        rw [show p = q from Prod.ext hpq.1 hpv]
    have : e = e' := by
      cases e; cases e'
      dsimp only at hid hty hfs
      rw [hid, hty, hfs]
    rw [this, htl]

/-! ## Forged lines -/

/-- C174 is false for paths: behind any entity whose last field is a path, any entity whose last field is a text of one line
can be hidden in this path. The one entity has the text of the two. -/
theorem C174_entities (L : Lang) (o : GeneratorOptions) (id id' : Str) (ty ty' : EntityType) (fs gs : List (FieldId × FieldValue))
    (f g : FieldId) (p s : Str) (hs : '\n' ∉ s) :
    ∃ p', generateDsl L o [⟨id, ty, fs ++ [(f, .path p')]⟩] =
      generateDsl L o [⟨id, ty, fs ++ [(f, .path p)]⟩, ⟨id', ty', gs ++ [(g, .string s)]⟩] := by
  refine ⟨p ++ '"' :: '\n' :: ("}\n".toList ++ ((if o.blankLines then ['\n'] else []) ++ (L.cases.lower ty' ++ ' ' ::
    (decomposeEntityId id').2 ++ " {\n".toList ++
    (gs.flatMap fun p => o.indentStyle.indentString 1 ++ generateField L o p.1 p.2 ++ ['\n']) ++
    (o.indentStyle.indentString 1 ++ g ++ " = ".toList ++ '"' :: s.flatMap fun c => if c = '"' then ['\\', '"'] else [c])))), ?_⟩
  have hg : generateValue L o (.string s) = '"' :: (s.flatMap fun c => if c = '"' then ['\\', '"'] else [c]) ++ ['"'] := by
    show generateString o s = _
    unfold generateString; simp only [if_neg hs]
  have hp : ∀ q : Str, generateValue L o (.path q) = "path\"".toList ++ q ++ ['"'] := fun q => rfl
  unfold generateDsl generateRest generateEntity generateField
  simp only [List.flatMap_append, List.flatMap_cons, List.flatMap_nil, hg, hp, List.append_assoc, List.cons_append, List.nil_append,
    List.append_nil]

/-- C174 is false for texts of several lines: a further field can be hidden in such a text. -/
theorem C174_fields (L : Lang) (o : GeneratorOptions) (id : Str) (ty : EntityType) (fs gs : List (FieldId × FieldValue))
    (f g : FieldId) (s t : Str) (hs : '\n' ∈ s) (ht : '\n' ∈ t) (hr : '\r' ∉ s ∧ '\r' ∉ t ∧ '\r' ∉ g) (hg : '\n' ∉ g)
    (hl : t.getLast? ≠ some '\n') (hl' : s.getLast? ≠ some '\n') :
    generateDsl L o [⟨id, ty, fs ++ (f, .string (s ++ "\n\"\"\"\n".toList ++ g ++ " = \"\"\"\n".toList ++ t)) :: gs⟩] =
      generateDsl L o [⟨id, ty, fs ++ (f, .string s) :: (g, .string t) :: gs⟩] := by
  have nocr : ∀ {u : Str}, '\r' ∉ u → NoCrLf u := fun hu a b h => hu (by rw [h]; simp)
  have ne : ∀ {u : Str}, '\n' ∈ u → u ≠ [] := by rintro u hu rfl; cases hu
  have hq : ("\n\"\"\"\n".toList : Str) = '\n' :: (tripleQuote ++ '\n' :: []) := rfl
  have hq' : (" = \"\"\"\n".toList : Str) = " = \"\"\"".toList ++ '\n' :: [] := rfl
  have hall : s ++ "\n\"\"\"\n".toList ++ g ++ " = \"\"\"\n".toList ++ t =
      s ++ '\n' :: (tripleQuote ++ '\n' :: ((g ++ " = \"\"\"".toList) ++ '\n' :: t)) := by
    rw [hq, hq']
    simp only [List.append_assoc, List.cons_append, List.nil_append]
  have one : ∀ {u : Str}, '\n' ∉ u → splitChar '\n' u = [u] := fun h => splitChar_none h
  have hlines : strLines (s ++ '\n' :: (tripleQuote ++ '\n' :: ((g ++ " = \"\"\"".toList) ++ '\n' :: t))) =
      strLines s ++ (tripleQuote :: (g ++ " = \"\"\"".toList) :: strLines t) := by
    rw [strLines_eq (by simp) (nocr (by
        simp only [List.mem_append, List.mem_cons, not_or]
        exact ⟨hr.1, by decide, by decide, by decide, ⟨hr.2.2, by decide⟩, by decide, hr.2.1⟩))
      (by
        have h1 : t ≠ [] := ne ht
        rw [List.getLast?_append_of_ne_nil _ (by simp), List.getLast?_cons, List.getLast?_append_of_ne_nil _ (by simp),
          List.getLast?_cons, List.getLast?_append_of_ne_nil _ (by simp), List.getLast?_cons]
        obtain ⟨c, hc⟩ : ∃ c, t.getLast? = some c := Option.isSome_iff_exists.1 (by simpa using h1)
        rw [hc] at hl ⊢
        simpa using hl),
      strLines_eq (ne hs) (nocr hr.1) hl', strLines_eq (ne ht) (nocr hr.2.1) hl,
      splitChar_two, splitChar_two, splitChar_two, one (u := tripleQuote) (by decide),
      one (u := g ++ " = \"\"\"".toList) (by
        simp only [List.mem_append, not_or]
        exact ⟨hg, by decide⟩)]
    rfl
  have hv : generateValue L o (.string (s ++ "\n\"\"\"\n".toList ++ g ++ " = \"\"\"\n".toList ++ t)) =
      generateValue L o (.string s) ++ '\n' :: (o.indentStyle.indentString 1 ++ g ++ " = ".toList ++ generateValue L o (.string t)) := by
    show generateString o _ = generateString o s ++ '\n' :: (o.indentStyle.indentString 1 ++ g ++ " = ".toList ++ generateString o t)
    rw [hall, generateString_block o (by simp), generateString_block o hs, generateString_block o ht, hlines]
    have he : (" = \"\"\"".toList : Str) = " = ".toList ++ tripleQuote := rfl
    rw [he]
    simp only [List.flatMap_append, List.flatMap_cons, List.append_assoc, List.cons_append, List.nil_append]
  generalize s ++ "\n\"\"\"\n".toList ++ g ++ " = \"\"\"\n".toList ++ t = big at hv ⊢
  unfold generateDsl generateRest generateEntity generateField
  simp only [List.flatMap_append, List.flatMap_cons, List.flatMap_nil, hv, List.append_assoc, List.cons_append, List.nil_append,
    List.append_nil]

/-- A schema of documents: a file, and a title if there is one. -/
def exDocument : EntitySchema :=
  ⟨"doc".toList, [("file".toList, .new .path .required 0), ("title".toList, .new .string .optional 1)]⟩

theorem exDocument_conforms (env : Env) (id p : Str) (rest : List (FieldId × FieldValue))
    (h : rest = [] ∨ ∃ t, rest = [("title".toList, .string t)]) :
    Conforms env exDocument ⟨id, "doc".toList, ("file".toList, .path p) :: rest⟩ := by
  refine ⟨rfl, fun f fs hf => ?_⟩
  rcases List.mem_cons.1 hf with hf | hf
  · obtain ⟨rfl, rfl⟩ := Prod.mk.inj hf
    refine ⟨fun v hv => ?_, fun _ => ⟨_, .here _ _ _⟩⟩
    cases hv with
    | here => exact ⟨rfl, fun x hx => by cases hx⟩
    | there _ _ _ _ _ hne _ => exact absurd rfl hne
  · obtain ⟨rfl, rfl⟩ := Prod.mk.inj (List.mem_singleton.1 hf)
    refine ⟨fun v hv => ?_, fun hr => by cases hr⟩
    cases hv with
    | there _ _ _ _ _ _ hv =>
      rcases h with rfl | ⟨t, rfl⟩
      · cases hv
      · cases hv with
        | here => exact ⟨rfl, fun x hx => by cases hx⟩
        | there _ _ _ _ _ hne _ => exact absurd rfl hne

/-- C174: no grammar, whatever it is, reads all generated files of valid entities as the entities they were generated from. -/
theorem C174_no_grammar (L : Lang) (o : GeneratorOptions) : ∃ sc : EntitySchema, ¬ ∃ grammar : Str → Node, ∀ es : List Entity,
    (∀ e ∈ es, Conforms L.env sc e) → (grammar (generateDsl L o es)).children = es.map (entityNode L o) := by
  refine ⟨exDocument, ?_⟩
  rintro ⟨grammar, hg⟩
  obtain ⟨p', hp⟩ := C174_entities L o "doc.a".toList "doc.b".toList "doc".toList "doc".toList [] [("file".toList, .path "y".toList)]
    "file".toList "title".toList "x".toList "B".toList (by decide)
  have h1 := hg _ (fun e he => by rw [List.mem_singleton.1 he]; exact exDocument_conforms L.env "doc.a".toList p' [] (.inl rfl))
  have h2 := hg [⟨"doc.a".toList, "doc".toList, [] ++ [("file".toList, .path "x".toList)]⟩,
      ⟨"doc.b".toList, "doc".toList, [("file".toList, .path "y".toList)] ++ [("title".toList, .string "B".toList)]⟩]
    (fun e he => by
      rcases List.mem_cons.1 he with he | he
      · rw [he]; exact exDocument_conforms L.env "doc.a".toList "x".toList [] (.inl rfl)
      · rw [List.mem_singleton.1 he]
        exact exDocument_conforms L.env "doc.b".toList "y".toList [("title".toList, .string "B".toList)] (.inr ⟨_, rfl⟩))
  change (grammar (generateDsl L o [⟨"doc.a".toList, "doc".toList, [] ++ [("file".toList, .path p')]⟩])).children = _ at h1
  rw [hp, h2] at h1
  exact absurd (congrArg List.length h1) (by simp)

/-! ## A forged field on the server -/

/-- Carol with a role. -/
def exRole : Entity := ⟨"person.carol".toList, "person".toList,
  [("name".toList, .string "Carol\nC.".toList), ("role".toList, .string "chief\nof all".toList)]⟩

/-- A request to add Carol: a name is all it gives. -/
def exForge : AddParams := ⟨"person".toList, "carol".toList,
  [("name".toList, .string "Carol\nC.\n\"\"\"\nrole = \"\"\"\nchief\nof all".toList)], some "b.firm".toList, []⟩

/-- The sample grammar, which also reads the longer text: as Carol with a role, whose text it is. -/
def exForgedGrammar (text : Str) : Node :=
  if text = [] then .mk "source_file".toList [] []
  else if text = "B\n".toList ++ generateDsl exLang .default [exRole] then
    .mk "source_file".toList text ((exGrammar "B".toList).children ++ [entityNode exLang .default exRole])
  else exGrammar text

def exForgedHost : Host := { exHost with grammar := exForgedGrammar }

def exForgedServer : Server :=
  ⟨exDisk, match rebuild exForgedHost id exDisk with
    | .ok st => st
    | .error _ => ⟨[], ⟨[], []⟩, .empty⟩⟩

theorem exForgedServer_serves : Serves exForgedHost exForgedServer := by
  have h : rebuild exForgedHost id exDisk = .ok exForgedServer.state := by
    unfold exForgedServer
    cases hr : rebuild exForgedHost id exDisk with
    | ok st => rfl
    | error e =>
      have : (match rebuild exForgedHost id exDisk with | .ok _ => true | .error _ => false) = true := by decide +kernel
      rw [hr] at this
      cases this
  exact rebuild_serves exDisk_wf exHost_ws (fun w => List.Perm.refl w) h

/-- C174: on the server. The grammar reads the text that is written as the entity that has this text and reads back, and the
entity that is served afterwards has a field that the request did not give. -/
theorem C174_served : ∃ (H : Host) (s : Server) (p : AddParams) (e : Entity), Serves H s ∧
    ReadsAppended H.grammar "B".toList ("B".toList ++ ("\n".toList ++ generateDsl H.lang .default [e])) (entityNode H.lang .default e) ∧
    (∀ q ∈ e.fields, ReadsBack H.lang .default "b.firm".toList q.2) ∧
    (addEntityTool H id s p).2 = .success ∧
    (addEntityTool H id s p).1.state.build.entities = s.state.build.entities ++ [e] ∧
    p.fields.map (·.1) = ["name".toList] ∧ e.fields.map (·.1) = ["name".toList, "role".toList] := by
  refine ⟨exForgedHost, exForgedServer, exForge, exRole, exForgedServer_serves, ⟨rfl, rfl⟩, ?_, ?_⟩
  · intro q hq
    rcases List.mem_cons.1 hq with hq | hq
    · rw [hq]; exact ⟨.string "Carol\nC.".toList, rfl, rfl⟩
    · rw [List.mem_singleton.1 hq]; exact ⟨.string "chief\nof all".toList, rfl, rfl⟩
  · decide +kernel

/-! ## Requests -/

/-- No text in the value contains a line break, and none is three quotation marks once it is normalised as a name. -/
inductive Spec.OneLined (t : CaseTable) : Json → Prop
  | null : OneLined t .null
  | bool (b : Bool) : OneLined t (.bool b)
  | number (n : JsonNumber) : OneLined t (.number n)
  | string {s : Str} (h : '\n' ∉ s) (hq : t.snake s ≠ "\"\"\"".toList) : OneLined t (.string s)
  | array {items : List Json} (h : ∀ v ∈ items, OneLined t v) : OneLined t (.array items)
  | object (entries : List (Str × Json)) : OneLined t (.object entries)

/-- Nothing but a line break becomes a text with a line break in small letters. -/
def Spec.KeepsLines (t : CaseTable) : Prop := ∀ c, '\n' ∈ t.lowerChar c → c = '\n'

theorem lower_line {t : CaseTable} (hl : KeepsLines t) {s : Str} (h : '\n' ∉ s) : '\n' ∉ t.lower s := fun hm => by
  obtain ⟨c, hc, hm⟩ := List.mem_flatMap.1 hm
  exact h (hl c hm ▸ hc)

theorem snake_line {t : CaseTable} (hl : KeepsLines t) {s : Str} (h : '\n' ∉ s) : '\n' ∉ t.snake s := fun hm => by
  rcases mem_join hm with hm | ⟨w, hw, hm⟩
  · exact absurd hm (by decide)
  · obtain ⟨v, hv, rfl⟩ := List.mem_map.1 hw
    exact lower_line hl (fun hc => h ((words_ok hv).2 _ hc).1) hm

theorem snake_blank {t : CaseTable} (ht : RegularCase t) (s : Str) : ' ' ∉ t.snake s := fun hm => by
  rcases mem_join hm with hm | ⟨w, hw, hm⟩
  · exact absurd hm (by decide)
  · obtain ⟨v, hv, rfl⟩ := List.mem_map.1 hw
    exact not_mem_lower ht (by decide) (fun hc => absurd ((words_ok hv).2 _ hc).2 (by decide)) hm

theorem compose_line {t : CaseTable} (hl : KeepsLines t) {a b : Str} (ha : '\n' ∉ a) (hb : '\n' ∉ b) :
    '\n' ∉ t.composeEntityId a b := by
  refine snake_line hl fun hm => ?_
  rcases List.mem_append.1 hm with hm | hm
  · exact lower_line hl ha hm
  · rcases List.mem_cons.1 hm with hm | hm
    · exact absurd hm (by decide)
    · exact hb hm

theorem showComps_line {cs : List PathComp} (h : ∀ n, PathComp.normal n ∈ cs → '\n' ∉ n) : '\n' ∉ showComps cs := by
  have hj : ∀ {ds : List PathComp}, (∀ n, PathComp.normal n ∈ ds → '\n' ∉ n) → '\n' ∉ joinWith ['/'] (ds.map compText) := by
    intro ds hd hm
    rcases mem_joinWith hm with hm | ⟨w, hw, hm⟩
    · revert hm; decide
    · obtain ⟨c, hc, rfl⟩ := List.mem_map.1 hw
      cases c with
      | normal n => exact hd n hc hm
      | rootDir => revert hm; decide
      | curDir => revert hm; decide
      | parentDir => revert hm; decide
  unfold showComps
  split
  · intro hm
    rcases List.mem_cons.1 hm with hm | hm
    · exact absurd hm (by decide)
    · exact hj (fun n hn => h n (List.mem_cons_of_mem _ hn)) hm
  · exact hj h

theorem mem_diffComps {as bs rel : List PathComp} (h : diffComps as bs = some rel) {n : Str} (hn : PathComp.normal n ∈ rel) :
    PathComp.normal n ∈ as := by
  induction as generalizing bs with
  | nil =>
    cases bs with
    | nil => unfold diffComps at h; cases h; exact hn
    | cons b bs =>
      unfold diffComps at h
      cases h
      obtain ⟨_, _, h⟩ := List.mem_map.1 hn
      cases h
  | cons a as ih =>
    cases bs with
    | nil => unfold diffComps at h; cases h; exact hn
    | cons b bs =>
      unfold diffComps at h
      split at h
      · exact List.mem_cons_of_mem _ (ih h)
      · split at h
        · cases h
        · cases h
          rcases List.mem_append.1 hn with hn | hn
          · obtain ⟨_, _, h⟩ := List.mem_map.1 hn
            cases h
          · exact hn

theorem joinComps_line {ws : List Str} (hw : ∀ n ∈ ws, '\n' ∉ n) {s : Str} (h : '\n' ∉ s) :
    ∀ n, PathComp.normal n ∈ joinComps ws s → '\n' ∉ n := by
  intro n hn hm
  unfold joinComps at hn
  split at hn
  · exact h (mem_component hn hm)
  · rcases List.mem_cons.1 hn with hn | hn
    · cases hn
    · rcases List.mem_append.1 hn with hn | hn
      · obtain ⟨k, hk, he⟩ := List.mem_map.1 hn
        cases he
        exact hw _ hk hm
      · exact h (mem_component (List.mem_of_mem_filter hn) hm)

theorem jsonPath_line {ws : List Str} (hw : ∀ n ∈ ws, '\n' ∉ n) (target : List PathComp) {s : Str} (h : '\n' ∉ s) :
    '\n' ∉ jsonPath ws target s := by
  unfold jsonPath
  split
  · next rel hr => exact showComps_line fun n hn => joinComps_line hw h n (mem_diffComps hr hn)
  · exact showComps_line (joinComps_line hw h)

theorem words_no_line {s : Str} {l : List Str} (h : Words s l) : ∀ w ∈ l, '\n' ∉ w := by
  induction h with
  | nil => intro w hw; cases hw
  | cons _ _ ha _ _ ih =>
    intro w hw
    rcases List.mem_cons.1 hw with rfl | hw
    · exact fun hm => absurd (ha _ hm) (by decide)
    · exact ih w hw

theorem jsonReference_line {t : CaseTable} (hl : KeepsLines t) {s : Str} (h : '\n' ∉ s) (hq : t.snake s ≠ "\"\"\"".toList)
    (L : Lang) : KeepsLine L (.reference (jsonReference t s)) := by
  unfold jsonReference
  split
  · next a b f rest heq =>
    have hm : ∀ p ∈ splitChar '.' s, '\n' ∉ p := fun p hp hc => h (splitChar_mem hp hc)
    rw [heq] at hm
    exact .field (compose_line hl (hm a (by simp)) (hm b (by simp))) (snake_line hl (hm f (by simp)))
  · exact .entity (snake_line hl h) hq

theorem jsonScalar_line {H : Host} (hl : KeepsLines H.lang.cases) (hf : ∀ f, '\n' ∉ H.lang.showF64 f)
    (hw : ∀ n ∈ H.ws, '\n' ∉ n) {target : List PathComp} {t : FieldType} {v : Json} {x : FieldValue}
    (hv : OneLined H.lang.cases v) (h : jsonScalar H target t v = some x) : KeepsLine H.lang x := by
  unfold jsonScalar at h
  split at h
  · cases h; cases hv with | string h hq => exact .string h
  · obtain ⟨n, _, rfl⟩ := Option.map_eq_some_iff.1 h; exact .integer n
  · cases h; exact .float (hf _)
  · cases h; exact .boolean _
  · cases h; cases hv with | string h hq => exact jsonReference_line hl h hq _
  · cases h; cases hv with | string h hq => exact .enum h
  · cases h; cases hv with | string h hq => exact .path (jsonPath_line hw _ h)
  · split at h
    · next amount code heq =>
      split at h
      · split at h
        · cases h
          exact .currency _ (words_no_line ((splitWhitespace_iff _ _).1 heq) _ (by simp))
        · cases h
      · cases h
    · cases h
  · obtain ⟨d, _, rfl⟩ := Option.map_eq_some_iff.1 h; exact .dateTime d
  · cases h

theorem jsonItems_line {H : Host} (hl : KeepsLines H.lang.cases) (hf : ∀ f, '\n' ∉ H.lang.showF64 f)
    (hw : ∀ n ∈ H.ws, '\n' ∉ n) {target : List PathComp} {t : FieldType} : ∀ {vs : List Json} {xs : List FieldValue},
    (∀ v ∈ vs, OneLined H.lang.cases v) → jsonItems H target t vs = some xs → ∀ x ∈ xs, KeepsLine H.lang x
  | [], xs, _, h => by rw [jsonItems] at h; cases h; intro x hx; cases hx
  | v :: vs, xs, hv, h => by
    rw [jsonItems] at h
    split at h
    · cases h
    · next y hy =>
      obtain ⟨ys, hys, rfl⟩ := Option.map_eq_some_iff.1 h
      intro x hx
      rcases List.mem_cons.1 hx with rfl | hx
      · exact jsonScalar_line hl hf hw (hv v (by simp)) hy
      · exact jsonItems_line hl hf hw (fun v hm => hv v (by simp [hm])) hys x hx

theorem jsonValue_line {H : Host} (hl : KeepsLines H.lang.cases) (hf : ∀ f, '\n' ∉ H.lang.showF64 f)
    (hw : ∀ n ∈ H.ws, '\n' ∉ n) {target : List PathComp} {types : List (Str × Str)} {name : Str} {t : FieldType} {v : Json}
    {x : FieldValue} (hv : OneLined H.lang.cases v) (h : jsonToFieldValue H target types name t v = some x) :
    KeepsLine H.lang x := by
  unfold jsonToFieldValue at h
  split at h
  · cases h; exact .list (by simp)
  · split at h
    · cases h
    · split at h
      · cases h
      · obtain ⟨xs, hx, rfl⟩ := Option.map_eq_some_iff.1 h
        cases hv with | array hv => exact .list (jsonItems_line hl hf hw hv hx)
  · exact jsonScalar_line hl hf hw hv h

theorem valuesOf_line {H : Host} (ht : RegularCase H.lang.cases) (hl : KeepsLines H.lang.cases)
    (hf : ∀ f, '\n' ∉ H.lang.showF64 f) (hw : ∀ n ∈ H.ws, '\n' ∉ n) {target : List PathComp} {types : List (Str × Str)}
    {sc : EntitySchema} {fs : List (Str × Json)} {new : List (FieldId × FieldValue)}
    (h : List.Forall₂ (valueOf H target types sc) fs new) (hp : ∀ q ∈ fs, OneLined H.lang.cases q.2) :
    (∀ r ∈ new, ' ' ∉ r.1 ∧ Framed H.lang r.2) ∧ new.map (·.1) = fs.map fun q => H.lang.cases.snake q.1 := by
  induction h with
  | nil => exact ⟨(fun r hr => by cases hr), rfl⟩
  | @cons q r fs new hq _ ih =>
    obtain ⟨h1, h2⟩ := ih (fun x hx => hp x (by simp [hx]))
    refine ⟨fun x hx => ?_, by rw [List.map_cons, List.map_cons, hq.1, h2]⟩
    rcases List.mem_cons.1 hx with rfl | hx
    · obtain ⟨hn, fd, _, hv⟩ := hq
      exact ⟨by rw [hn]; exact snake_blank ht _, .line (jsonValue_line hl hf hw (hp q (by simp)) hv)⟩
    · exact h1 x hx

/-- C174 for requests to add an entity: if no text of the request contains a line break and none is three quotation marks,
the text that is written is not the text of any other framed entities: one entity is written and no other reading of the
text has other fields. Missing for the full claim: texts of several lines (see `C174_served`). -/
theorem C174_request_partial (H : Host) (ht : RegularCase H.lang.cases) (hl : KeepsLines H.lang.cases)
    (hf : ∀ f, '\n' ∉ H.lang.showF64 f) (hw : ∀ n ∈ H.ws, '\n' ∉ n) (o : GeneratorOptions)
    (hi : o.indentStyle.indentString 1 ≠ []) (st : ServerState) (p : AddParams) (hid : '\n' ∉ p.type ∧ '\n' ∉ p.id)
    (hp : ∀ q ∈ p.fields, OneLined H.lang.cases q.2) (e : Entity) (he : entityToAdd H st p = some e) (es : List Entity)
    (hes : ∀ e' ∈ es, FramedEntity H.lang e') (heq : generateDsl H.lang o [e] = generateDsl H.lang o es) :
    ∃ e', es = [e'] ∧ AlikeInFile H.lang o e e' ∧ e'.fields.map (·.1) = p.fields.map fun q => H.lang.cases.snake q.1 := by
  have hspec : FramedEntity H.lang e ∧ e.fields.map (·.1) = p.fields.map fun q => H.lang.cases.snake q.1 := by
    unfold entityToAdd at he
    split at he
    · cases he
    · next sc _ =>
      dsimp only at he
      split at he
      · cases he
      · split at he
        · cases he
        · next e1 h1 =>
          split at he
          · cases he
          · cases he
            obtain ⟨new, rfl, h2⟩ := addFields_iff.1 h1
            obtain ⟨h3, h4⟩ := valuesOf_line ht hl hf hw h2 hp
            exact ⟨⟨snake_blank ht _, compose_line hl hid.1 (snake_line hl hid.2), h3⟩, h4⟩
  have hF := C174_apart_partial H.lang ht o hi [e] es (fun x hx => by rw [List.mem_singleton.1 hx]; exact hspec.1) hes heq
  cases hF with
  | @cons _ e' _ es' ha hr =>
    cases hr
    refine ⟨e', rfl, ha, ?_⟩
    rw [← hspec.2]
    have := ha.fields
    generalize e.fields = xs at this
    generalize e'.fields = ys at this
    induction this with
    | nil => rfl
    | cons h _ ih => rw [List.map_cons, List.map_cons, h.1, ih]

/-! ## Examples -/

example : FramedEntity exLang exCarol ∧ Filed exLang exCarol ∧ FramedEntity exLang exRole ∧ Filed exLang exRole := by
  refine ⟨⟨by decide, by decide, ?_⟩, ⟨by decide, by decide, "carol".toList, rfl⟩, ⟨by decide, by decide, ?_⟩,
    ⟨by decide, by decide, "carol".toList, rfl⟩⟩
  · intro p hp
    rw [List.mem_singleton.1 hp]
    exact ⟨by decide, .line (.string (by decide))⟩
  · intro p hp
    rcases List.mem_cons.1 hp with hp | hp
    · rw [hp]; exact ⟨by decide, .block (by decide) (by decide)⟩
    · rw [List.mem_singleton.1 hp]; exact ⟨by decide, .block (by decide) (by decide)⟩

example : GeneratorOptions.default.indentStyle.indentString 1 ≠ [] := by decide

/-- The value that the request gives is not framed. -/
example : '\n' ∈ "Carol\nC.\n\"\"\"\nrole = \"\"\"\nchief\nof all".toList ∧
    "\"\"\"".toList ∈ strLines "Carol\nC.\n\"\"\"\nrole = \"\"\"\nchief\nof all".toList := by decide

theorem exLang_lines : KeepsLines exLang.cases := by
  intro c h
  by_cases hu : exLang.cases.isUpper c = true
  · exfalso
    have hd := List.mem_singleton.1 h
    have h2 : 65 ≤ c.toNat ∧ c.toNat ≤ 90 := by
      have : (decide (65 ≤ c.toNat) && decide (c.toNat ≤ 90)) = true := hu
      simpa using this
    have h3 := congrArg Char.toNat hd
    rw [toLower_toNat, if_pos h2] at h3
    have h4 : ('\n' : Char).toNat = 10 := rfl
    omega
  · have := exLang_regular.keep c (by simpa using hu)
    rw [this] at h
    exact (List.mem_singleton.1 h).symm

/-- A request that meets the hypotheses of `C174_request_partial`. -/
example : KeepsLines exHost.lang.cases ∧ (∀ f, '\n' ∉ exHost.lang.showF64 f) ∧ (∀ n ∈ exHost.ws, '\n' ∉ n) ∧
    ('\n' ∉ (exAdd "carol").type ∧ '\n' ∉ (exAdd "carol").id) ∧
    (∀ q ∈ (exAdd "carol").fields, OneLined exHost.lang.cases q.2) ∧
    entityToAdd exHost exServer.state (exAdd "carol") = some exCarol := by
  refine ⟨exLang_lines, (fun _ h => by cases h), by decide, by decide, ?_, by decide +kernel⟩
  intro q hq
  rw [List.mem_singleton.1 hq]
  exact .string (by decide) (by decide)

end Firm
