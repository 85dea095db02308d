import Verif.Lemmas.Strings
import Verif.Props.Literals
import Mathlib.Tactic.ByContra

/-!
# Properties of strings (C51, C54)
-/

namespace Firm
open Spec

variable {L : Lang} {o : GeneratorOptions} {source : Str}

theorem parseLeaf_string (raw : Str) : parseLeaf L source "string".toList raw = parseString raw := by
  unfold parseLeaf
  rw [if_neg (by decide), if_pos rfl]

/-- Reading the literal of a string. -/
theorem reads_string {s : Str} {v : FieldValue} :
    ReadsAs L o source (.string s) v ↔ ∃ p, parseString (generateString o s) = .ok p ∧ toFieldValue L.cases p = v := by
  unfold ReadsAs
  rw [fromNode_leaf (by simp)]
  exact Iff.of_eq (by rw [show (literalKind (.string s)).toList = "string".toList from rfl, parseLeaf_string]; rfl)

/-! ## C54 -/

/-- The width `n` is the indentation common to the non-blank lines. -/
def CommonIndent (n : Nat) (lines : List Str) : Prop :=
  (∀ l ∈ lines, (∃ c ∈ l, isWs c = false) → ∃ w rest, l = w ++ rest ∧ (∀ c ∈ w, isWs c = true) ∧ n ≤ byteLen w) ∧
  ((∃ l ∈ lines, ∃ c ∈ l, isWs c = false) →
    ∃ l ∈ lines, (∃ c ∈ l, isWs c = false) ∧
      ∀ w rest, l = w ++ rest → (∀ c ∈ w, isWs c = true) → byteLen w ≤ n)

theorem nonblank_iff {l : Str} : (!(trim l).isEmpty) = true ↔ ∃ c ∈ l, isWs c = false := by
  rw [Bool.not_eq_true', Bool.eq_false_iff, ne_eq, List.isEmpty_iff, trim_nil_iff]
  simp

theorem lineIndent_le {l w rest : Str} (h : l = w ++ rest) (hw : ∀ c ∈ w, isWs c = true) :
    byteLen w ≤ lineIndent l := by
  rw [h, lineIndent_ws hw]; omega

theorem lineIndent_prefix (l : Str) :
    ∃ w rest, l = w ++ rest ∧ (∀ c ∈ w, isWs c = true) ∧ byteLen w = lineIndent l := by
  obtain ⟨w, hw, hws⟩ := trimStart_append l
  refine ⟨w, trimStart l, hw, hws, ?_⟩
  unfold lineIndent
  have : byteLen l = byteLen w + byteLen (trimStart l) := by
    conv => lhs; rw [hw]
    exact byteLen_append ..
  omega

theorem minIndent_common (lines : List Str) : CommonIndent (minIndent lines) lines := by
  have hmem : ∀ l ∈ lines, (∃ c ∈ l, isWs c = false) →
      lineIndent l ∈ (lines.filter fun l => !(trim l).isEmpty).map lineIndent :=
    fun l hl hb => List.mem_map.2 ⟨l, List.mem_filter.2 ⟨hl, nonblank_iff.2 hb⟩, rfl⟩
  unfold minIndent
  cases hm : ((lines.filter fun l => !(trim l).isEmpty).map lineIndent).min? with
  | none =>
    rw [List.min?_eq_none_iff] at hm
    rw [hm] at hmem
    exact ⟨fun l hl hb => (List.not_mem_nil (hmem l hl hb)).elim,
      fun ⟨l, hl, hb⟩ => (List.not_mem_nil (hmem l hl hb)).elim⟩
  | some n =>
    rw [List.min?_eq_some_iff] at hm
    obtain ⟨hin, hle⟩ := hm
    refine ⟨fun l hl hb => ?_, fun _ => ?_⟩
    · obtain ⟨w, rest, h1, h2, h3⟩ := lineIndent_prefix l
      exact ⟨w, rest, h1, h2, by rw [h3]; exact hle _ (hmem l hl hb)⟩
    · obtain ⟨l, hl, rfl⟩ := List.mem_map.1 hin
      obtain ⟨hl, hb⟩ := List.mem_filter.1 hl
      exact ⟨l, hl, nonblank_iff.1 hb, fun w rest h hw => lineIndent_le h hw⟩

theorem commonIndent_unique {n m : Nat} {lines : List Str} (hn : CommonIndent n lines) (hm : CommonIndent m lines)
    (h : ∃ l ∈ lines, ∃ c ∈ l, isWs c = false) : n = m := by
  have key : ∀ {n m}, CommonIndent n lines → CommonIndent m lines → n ≤ m := by
    intro n m hn hm
    obtain ⟨l, hl, hb, hmax⟩ := hm.2 h
    obtain ⟨w, rest, h1, h2, h3⟩ := hn.1 l hl hb
    exact Nat.le_trans h3 (hmax w rest h1 h2)
  exact Nat.le_antisymm (key hn hm) (key hm hn)

/-- What is done to one line: a non-blank line loses a white-space prefix of exactly `n` bytes, a blank
line is shortened at most. -/
def CutBy (n : Nat) (l l' : Str) : Prop :=
  ((∃ c ∈ l, isWs c = false) → ∃ w, l = w ++ l' ∧ (∀ c ∈ w, isWs c = true) ∧ byteLen w = n) ∧
  ((∀ c ∈ l, isWs c = true) → ∃ w, l = w ++ l')

/-- A prefix not wider than the leading white space is white space. -/
theorem prefix_ws {l w rest v r : Str} (h : l = w ++ rest) (hw : ∀ c ∈ w, isWs c = true)
    (hv : l = v ++ r) (hle : byteLen v ≤ byteLen w) : ∀ c ∈ v, isWs c = true := by
  rw [h] at hv
  rcases List.append_eq_append_iff.1 hv with ⟨x, h1, h2⟩ | ⟨x, h1, h2⟩
  · cases x with
    | nil => rw [h1, List.append_nil]; exact hw
    | cons c x =>
      rw [h1, byteLen_append] at hle
      have := byteLen_pos (c := c) (s := x)
      omega
  · intro c hc; exact hw c (by rw [h1]; exact List.mem_append_left _ hc)

theorem cutLine_cuts {n : Nat} {l l' : Str} (h : cutLine n l = some l')
    (hn : (∃ c ∈ l, isWs c = false) → ∃ w rest, l = w ++ rest ∧ (∀ c ∈ w, isWs c = true) ∧ n ≤ byteLen w) :
    CutBy n l l' := by
  unfold cutLine at h
  split at h
  · obtain ⟨a, ha, hb⟩ := dropBytes_some h
    refine ⟨fun hl => ?_, fun _ => ⟨a, ha⟩⟩
    obtain ⟨w, rest, h1, h2, h3⟩ := hn hl
    exact ⟨a, ha, prefix_ws h1 h2 ha (by omega), hb⟩
  · rename_i hlt
    simp only [Option.some.injEq] at h
    refine ⟨fun hl => ?_, fun _ => ⟨[], by simp [h]⟩⟩
    obtain ⟨w, rest, h1, h2, h3⟩ := hn hl
    rw [h1, byteLen_append] at hlt
    omega

theorem mapM_option {α β : Type} {f : α → Option β} {as : List α} {bs : List β} (h : as.mapM f = some bs) :
    List.Forall₂ (fun a b => f a = some b) as bs := by
  induction as generalizing bs with
  | nil => simp only [List.mapM_nil, Option.pure_def, Option.some.injEq] at h; subst h; exact .nil
  | cons a as ih =>
    rw [List.mapM_cons] at h
    cases ha : f a with
    | none => simp [ha] at h
    | some b =>
      cases hs : as.mapM f with
      | none => simp [ha, hs] at h
      | some bs' =>
        simp only [ha, hs, Option.bind_eq_bind, Option.bind_some, Option.pure_def, Option.some.injEq] at h
        subst h
        exact .cons ha (ih hs)

theorem mapM_some {α β : Type} {f : α → Option β} {g : α → β} {as : List α} (h : ∀ a ∈ as, f a = some (g a)) :
    as.mapM f = some (as.map g) := by
  induction as with
  | nil => rfl
  | cons a as ih =>
    rw [List.mapM_cons, h a (by simp), ih fun b hb => h b (by simp [hb])]; rfl

/-- C54: a text that is read loses on every line the common indentation of the non-blank lines, and the
white space around the whole text.  Missing: relative indentation is lost on the first line
(`C54_first_line`), and the reader can panic (`C54_panic`). -/
theorem C54_removes_partial {s r : Str} (h : trimCommonIndentation s = some r) :
    ∃ n ls, CommonIndent n (strLines s) ∧ List.Forall₂ (CutBy n) (strLines s) ls ∧
      r = trim (joinWith ['\n'] ls) := by
  unfold trimCommonIndentation at h
  cases hm : (strLines s).mapM (cutLine (minIndent (strLines s))) with
  | none => simp [hm] at h
  | some ls =>
    simp only [hm, Option.map_some, Option.some.injEq] at h
    have hc := minIndent_common (strLines s)
    refine ⟨_, ls, hc, ?_, h.symm⟩
    have hf := mapM_option hm
    have : ∀ {as : List Str} {bs : List Str}, (∀ a ∈ as, a ∈ strLines s) →
        List.Forall₂ (fun a b => cutLine (minIndent (strLines s)) a = some b) as bs →
        List.Forall₂ (CutBy (minIndent (strLines s))) as bs := by
      intro as bs hsub hf
      induction hf with
      | nil => exact .nil
      | cons hab _ ih =>
        exact .cons (cutLine_cuts hab (hc.1 _ (hsub _ (by simp)))) (ih fun a ha => hsub a (by simp [ha]))
    exact this (fun _ h => h) hf

/-- Only one-byte white space (blank, tab and so on), no other white space. -/
def PlainSpace (s : Str) : Prop := ∀ c ∈ s, isWs c = true → c.utf8Size = 1

theorem dropBytes_plain {n : Nat} {s : Str} (hs : ∀ c ∈ s, c.utf8Size = 1) (hn : n ≤ byteLen s) :
    dropBytes n s ≠ none := by
  induction s generalizing n with
  | nil => simp only [byteLen, Nat.le_zero] at hn; subst hn; simp [dropBytes]
  | cons c s ih =>
    cases n with
    | zero => simp [dropBytes]
    | succ n =>
      have hc := hs c (by simp)
      simp only [byteLen, hc] at hn
      rw [dropBytes, hc, if_pos (by omega)]
      exact ih (fun d hd => hs d (by simp [hd])) (by omega)

/-- Dropping fewer bytes than a plain prefix has. -/
theorem dropBytes_prefix {n : Nat} {w rest : Str} (hs : ∀ c ∈ w, c.utf8Size = 1) (hn : n ≤ byteLen w) :
    dropBytes n (w ++ rest) ≠ none := by
  induction w generalizing n with
  | nil => simp only [byteLen, Nat.le_zero] at hn; subst hn; simp [dropBytes]
  | cons c w ih =>
    cases n with
    | zero => simp [dropBytes]
    | succ n =>
      have hc := hs c (by simp)
      simp only [byteLen, hc] at hn
      rw [List.cons_append, dropBytes, hc, if_pos (by omega)]
      exact ih (fun d hd => hs d (by simp [hd])) (by omega)

theorem mapM_ne_none {α β : Type} {f : α → Option β} {as : List α} (h : ∀ a ∈ as, f a ≠ none) :
    as.mapM f ≠ none := by
  induction as with
  | nil => simp
  | cons a as ih =>
    rw [List.mapM_cons]
    cases ha : f a with
    | none => exact absurd ha (h a (by simp))
    | some b =>
      cases hs : as.mapM f with
      | none => exact absurd hs (ih fun b hb => h b (by simp [hb]))
      | some bs => simp

theorem mem_linesOf {ps : List Str} {l : Str} (h : l ∈ linesOf ps) : ∃ p ∈ ps, ∀ c ∈ l, c ∈ p := by
  have hstrip : ∀ p : Str, ∀ c ∈ stripCr p, c ∈ p := by
    intro p c hc
    unfold stripCr at hc
    split at hc
    · exact List.dropLast_subset _ hc
    · exact hc
  induction ps with
  | nil => simp [linesOf] at h
  | cons p ps ih =>
    cases ps with
    | nil =>
      unfold linesOf at h
      split at h
      · simp at h
      · simp only [List.mem_singleton] at h; subst h; exact ⟨_, by simp, fun c hc => hc⟩
    | cons q ps =>
      simp only [linesOf, List.mem_cons] at h
      rcases h with rfl | h
      · exact ⟨p, by simp, hstrip p⟩
      · obtain ⟨x, hx, hc⟩ := ih h
        exact ⟨x, by simp only [List.mem_cons] at hx ⊢; exact Or.inr hx, hc⟩

theorem mem_splitChar {c : Char} {s p : Str} (h : p ∈ splitChar c s) : ∀ d ∈ p, d ∈ s := by
  induction s generalizing p with
  | nil => simp only [splitChar, List.mem_singleton] at h; subst h; simp
  | cons e s ih =>
    unfold splitChar at h
    split at h
    · rcases List.mem_cons.1 h with rfl | h
      · simp
      · exact fun d hd => List.mem_cons_of_mem _ (ih h d hd)
    · cases hsp : splitChar c s with
      | nil => exact absurd hsp (splitChar_ne_nil _ _)
      | cons q qs =>
        rw [hsp] at h ih
        rcases List.mem_cons.1 h with rfl | h
        · intro d hd
          rcases List.mem_cons.1 hd with rfl | hd
          · simp
          · exact List.mem_cons_of_mem _ (ih (by simp) d hd)
        · exact fun d hd => List.mem_cons_of_mem _ (ih (by simp [h]) d hd)

/-- The characters of the lines are characters of the text. -/
theorem mem_strLines {s l : Str} (h : l ∈ strLines s) : ∀ c ∈ l, c ∈ s := by
  obtain ⟨p, hp, hc⟩ := mem_linesOf h
  exact fun c hcl => mem_splitChar hp c (hc c hcl)

/-- C54: with plain white space only, the reader never panics. -/
theorem C54_no_panic {s : Str} (h : PlainSpace s) : trimCommonIndentation s ≠ none := by
  unfold trimCommonIndentation
  simp only [ne_eq, Option.map_eq_none_iff]
  refine mapM_ne_none fun l hl => ?_
  have hps : ∀ c ∈ l, isWs c = true → c.utf8Size = 1 := fun c hc => h c (mem_strLines hl c hc)
  unfold cutLine
  split
  · rename_i hle
    by_cases hb : ∃ c ∈ l, isWs c = false
    · obtain ⟨w, rest, h1, h2, h3⟩ := (minIndent_common (strLines s)).1 l hl hb
      rw [h1]
      exact dropBytes_prefix (fun c hc => hps c (by rw [h1]; exact List.mem_append_left _ hc) (h2 c hc)) h3
    · refine dropBytes_plain (fun c hc => hps c hc ?_) hle
      cases hw : isWs c with
      | true => rfl
      | false => exact absurd ⟨c, hc, hw⟩ hb
  · simp

/-- C54: the reader panics when it cuts a wide blank in two. -/
theorem C54_panic : ∃ s, trimCommonIndentation s = none :=
  ⟨" x\n y".toList, by decide⟩

/-- C54: the first line loses its relative indentation. -/
theorem C54_first_line : trimCommonIndentation "\n    a\n  b".toList = some "a\nb".toList := by decide

/-- The first piece of a text that begins with no white space. -/
theorem splitChar_head {c d : Char} {s : Str} (hd : d ≠ c) :
    ∃ p ps, splitChar c (d :: s) = (d :: p) :: ps := by
  unfold splitChar
  rw [if_neg hd]
  cases hsp : splitChar c s with
  | nil => exact absurd hsp (splitChar_ne_nil _ _)
  | cons q qs => exact ⟨q, qs, rfl⟩

theorem cutLine_zero (l : Str) : cutLine 0 l = some l := by
  unfold cutLine
  rw [if_pos (Nat.zero_le _)]
  cases l <;> rfl

theorem lineIndent_zero {d : Char} {p : Str} (hd : isWs d = false) : lineIndent (d :: p) = 0 := by
  have := lineIndent_eq (w := []) (s := d :: p) (by simp) (by simpa using hd)
  simpa [byteLen] using this

theorem minIndent_eq {lines : List Str} {n : Nat} (h1 : ∃ l ∈ lines, (∃ c ∈ l, isWs c = false) ∧ lineIndent l = n)
    (h2 : ∀ l ∈ lines, (∃ c ∈ l, isWs c = false) → n ≤ lineIndent l) : minIndent lines = n := by
  unfold minIndent
  have : ((lines.filter fun l => !(trim l).isEmpty).map lineIndent).min? = some n := by
    rw [List.min?_eq_some_iff]
    constructor
    · obtain ⟨l, hl, hb, rfl⟩ := h1
      exact List.mem_map.2 ⟨l, List.mem_filter.2 ⟨hl, nonblank_iff.2 hb⟩, rfl⟩
    · intro b hb
      obtain ⟨l, hl, rfl⟩ := List.mem_map.1 hb
      obtain ⟨hl, hnb⟩ := List.mem_filter.1 hl
      exact h2 l hl (nonblank_iff.1 hnb)
  rw [this]; rfl

theorem trim_last {s : Str} (h : trim s = s) {c : Char} (hc : s.getLast? = some c) : isWs c = false := by
  obtain ⟨-, h2⟩ := trim_eq_self.1 h
  rw [trimEnd_eq] at h2
  have h3 : trimStart s.reverse = s.reverse := by
    rw [← List.reverse_reverse (trimStart s.reverse), h2]
  exact trimStart_eq_self.1 h3 c (by rw [List.head?_reverse]; exact hc)

/-- A trimmed text with plain line feeds is left alone. -/
theorem trimCommon_self {r : Str} (ht : trim r = r) (hcr : NoCrLf r) : trimCommonIndentation r = some r := by
  cases r with
  | nil => rfl
  | cons d r =>
    have hd : isWs d = false := trimStart_eq_self.1 (trim_eq_self.1 ht).1 d rfl
    have hnl : d ≠ '\n' := by rintro rfl; exact absurd hd (by decide)
    have hlast : (d :: r).getLast? ≠ some '\n' := fun h => absurd (trim_last ht h) (by decide)
    have hl := strLines_eq (by simp) hcr hlast
    obtain ⟨p, ps, hp⟩ := splitChar_head (s := r) hnl
    have hmin : minIndent (strLines (d :: r)) = 0 := by
      rw [hl, hp]
      exact minIndent_eq ⟨d :: p, by simp, ⟨d, by simp, hd⟩, lineIndent_zero hd⟩ (fun _ _ _ => Nat.zero_le _)
    unfold trimCommonIndentation
    simp only [hmin]
    rw [mapM_some (g := id) (fun l _ => cutLine_zero l), List.map_id, hl, Option.map_some,
      joinWith_splitChar, ht]

theorem mem_trim {s : Str} {c : Char} (h : c ∈ trim s) : c ∈ s := by
  unfold trim at h
  obtain ⟨u, hu, -⟩ := trimStart_append s
  obtain ⟨v, hv, -⟩ := trimEnd_append (trimStart s)
  rw [hu, hv]; simp [h]

theorem mem_joinWith {sep : Str} {ps : List Str} {c : Char} (h : c ∈ joinWith sep ps) :
    c ∈ sep ∨ ∃ p ∈ ps, c ∈ p := by
  induction ps with
  | nil => simp [joinWith] at h
  | cons p ps ih =>
    cases ps with
    | nil => exact Or.inr ⟨p, by simp, h⟩
    | cons q ps =>
      rw [joinWith_cons (by simp)] at h
      simp only [List.mem_append] at h
      rcases h with (h | h) | h
      · exact Or.inr ⟨p, by simp, h⟩
      · exact Or.inl h
      · rcases ih h with h | ⟨x, hx, hc⟩
        · exact Or.inl h
        · exact Or.inr ⟨x, List.mem_cons_of_mem _ hx, hc⟩

/-- C54: reading again changes nothing, for texts without carriage returns.  Missing: with carriage
returns it can (`C54_not_idempotent`). -/
theorem C54_idempotent_partial {s r : Str} (hcr : '\r' ∉ s) (h : trimCommonIndentation s = some r) :
    trimCommonIndentation r = some r := by
  obtain ⟨n, ls, -, hf, rfl⟩ := C54_removes_partial h
  have hmem : ∀ l' ∈ ls, ∀ c ∈ l', c ∈ s := by
    have : ∀ {as bs : List Str}, List.Forall₂ (CutBy n) as bs → (∀ a ∈ as, a ∈ strLines s) →
        ∀ b ∈ bs, ∀ c ∈ b, c ∈ s := by
      intro as bs hf
      induction hf with
      | nil => simp
      | @cons a b as bs hab _ ih =>
        intro hsub x hx
        rcases List.mem_cons.1 hx with rfl | hx
        · intro c hc
          apply mem_strLines (hsub a (by simp))
          by_cases hb : ∃ c ∈ a, isWs c = false
          · obtain ⟨w, hw, -⟩ := hab.1 hb
            rw [hw]; exact List.mem_append_right _ hc
          · obtain ⟨w, hw⟩ := hab.2 (fun c hc => by
              cases hw : isWs c with
              | true => rfl
              | false => exact absurd ⟨c, hc, hw⟩ hb)
            rw [hw]; exact List.mem_append_right _ hc
        · exact ih (fun a ha => hsub a (by simp [ha])) x hx
    exact this hf (fun _ h => h)
  refine trimCommon_self (trim_idem _) fun a b he => hcr ?_
  have : '\r' ∈ trim (joinWith ['\n'] ls) := by rw [he]; simp
  rcases mem_joinWith (mem_trim this) with h | ⟨p, hp, hc⟩
  · exact absurd h (by decide)
  · exact hmem p hp _ hc

/-- C54: reading again can change the text. -/
theorem C54_not_idempotent : ∃ s r, trimCommonIndentation s = some r ∧ trimCommonIndentation r ≠ some r :=
  ⟨"a\r\r\nb".toList, "a\r\nb".toList, by decide, by decide⟩

example : trimCommonIndentation "\n    a\n      b\n\n    c\n    ".toList = some "a\n  b\n\nc".toList := by decide
example : PlainSpace "\n    a\n\tb".toList := by
  intro c hc; simp at hc; rcases hc with rfl | rfl | rfl | rfl | rfl | rfl <;> decide

/-! ## C51 -/

theorem escape_quotes_length (s : Str) : s.length ≤ (s.flatMap fun c => if c = '"' then ['\\', '"'] else [c]).length := by
  induction s with
  | nil => simp
  | cons c s ih =>
    rw [List.flatMap_cons, List.length_append, List.length_cons]
    split <;> simp only [List.length_cons, List.length_nil] <;> omega

theorem escape_none {s : Str} (h : '"' ∉ s) : (s.flatMap fun c => if c = '"' then ['\\', '"'] else [c]) = s := by
  induction s with
  | nil => rfl
  | cons c s ih =>
    rw [List.flatMap_cons, if_neg (by rintro rfl; simp at h), ih (by intro h'; exact h (by simp [h']))]; rfl

theorem count_escape (s : Str) : (s.flatMap fun c => if c = '"' then ['\\', '"'] else [c]).count '\\' =
    s.count '\\' + s.count '"' := by
  induction s with
  | nil => rfl
  | cons c s ih =>
    rw [List.flatMap_cons, List.count_append, ih, List.count_cons, List.count_cons]
    by_cases hc : c = '"'
    · subst hc; simp; omega
    · rw [if_neg hc]
      simp [hc, List.count_cons]; omega

theorem count_trimMatches {c d : Char} (h : d ≠ c) (s : Str) : (trimMatches c s).count d = s.count d := by
  have hdrop : ∀ s : Str, (s.dropWhile (· == c)).count d = s.count d := by
    intro s
    induction s with
    | nil => rfl
    | cons e s ih =>
      rw [List.dropWhile_cons]
      split
      · rename_i he
        have : e = c := by simpa using he
        subst this
        rw [ih, List.count_cons, if_neg (by simpa using Ne.symm h)]; rfl
      · rfl
  unfold trimMatches
  rw [List.count_reverse, hdrop, List.count_reverse, hdrop]

/-- C51: a string of one line reads back iff it contains no quotation mark. -/
theorem C51_single_line_partial {s : Str} (hn : '\n' ∉ s) :
    ReadsBack L o source (.string s) ↔ '"' ∉ s := by
  unfold ReadsBack
  rw [reads_string]
  have hg : generateString o s = '"' :: (s.flatMap fun c => if c = '"' then ['\\', '"'] else [c]) ++ ['"'] := by
    unfold generateString; simp only [if_neg hn]
  constructor
  · rintro ⟨p, hp, hv⟩ hq
    rw [hg] at hp
    unfold parseString at hp
    have hns : startsWith ('"' :: (s.flatMap fun c => if c = '"' then ['\\', '"'] else [c]) ++ ['"']) tripleQuote = false ∨
        s = [] := by
      cases s with
      | nil => exact Or.inr rfl
      | cons c s =>
        left
        by_cases hc : c = '"'
        · subst hc; rfl
        · rw [List.flatMap_cons, if_neg hc]
          simp only [tripleQuote, List.cons_append, List.nil_append, startsWith, List.isPrefixOf]
          have : ('"' == c) = false := by simpa using fun h => hc (Eq.symm h)
          simp [this]
    rcases hns with hns | rfl
    · rw [hns] at hp
      simp only [Bool.false_and, Bool.false_eq_true, if_false, Except.ok.injEq] at hp
      subst hp
      simp only [toFieldValue, FieldValue.string.injEq] at hv
      have := congrArg (List.count '\\') hv
      rw [count_trimMatches (by decide), List.count_append, List.count_cons, count_escape] at this
      have h1 : 0 < s.count '"' := List.count_pos_iff.2 hq
      simp at this
      omega
    · simp at hq
  · intro hq
    rw [escape_none hq] at hg
    refine ⟨.string s, ?_, rfl⟩
    rw [hg]
    unfold parseString
    have hns : (startsWith ('"' :: s ++ ['"']) tripleQuote) = false := by
      cases s with
      | nil => rfl
      | cons c s =>
        have : ('"' == c) = false := by
          simp only [beq_eq_false_iff_ne, ne_eq]; rintro rfl; simp at hq
        simp [tripleQuote, startsWith, List.isPrefixOf, this]
    rw [hns]
    simp only [Bool.false_and, Bool.false_eq_true, if_false]
    rw [trimMatches_quoted]
    · intro h; exact hq (List.mem_of_mem_head? h)
    · intro h; exact hq (List.mem_of_getLast? h)

theorem indent_chars (st : IndentStyle) (n : Nat) : ∀ c ∈ st.indentString n, c = ' ' ∨ c = '\t' := by
  intro c hc
  cases st with
  | spaces k => exact Or.inl (List.eq_of_mem_replicate hc)
  | tabs => exact Or.inr (List.eq_of_mem_replicate hc)

theorem splitChar_block {ind : Str} (hi : '\n' ∉ ind) : ∀ {ls : List Str}, (∀ l ∈ ls, '\n' ∉ l) →
    splitChar '\n' ((ls.flatMap fun l => ind ++ l ++ ['\n']) ++ ind) = ls.map (ind ++ ·) ++ [ind]
  | [], _ => splitChar_none hi
  | l :: ls, h => by
    have hl : '\n' ∉ ind ++ l := by
      intro hm; rcases List.mem_append.1 hm with hm | hm
      · exact hi hm
      · exact h l (by simp) hm
    rw [List.flatMap_cons, List.append_assoc, List.append_assoc, List.singleton_append,
      splitChar_append _ hl, splitChar_block hi fun x hx => h x (by simp [hx])]
    rfl

/-- Reading the lines of a generated block. -/
theorem strLines_block {ind : Str} (hi : ∀ c ∈ ind, c = ' ' ∨ c = '\t') {ls : List Str}
    (h : ∀ l ∈ ls, '\n' ∉ l) (hcr : ∀ l ∈ ls, l.getLast? ≠ some '\r') :
    strLines ('\n' :: ((ls.flatMap fun l => ind ++ l ++ ['\n']) ++ ind)) =
      [] :: (ls.map (ind ++ ·) ++ if ind = [] then [] else [ind]) := by
  have hi' : '\n' ∉ ind := fun hm => by rcases hi _ hm with h | h <;> exact absurd h (by decide)
  unfold strLines
  have : splitChar '\n' ('\n' :: ((ls.flatMap fun l => ind ++ l ++ ['\n']) ++ ind)) =
      ([] :: ls.map (ind ++ ·)) ++ [ind] := by
    rw [splitChar, if_pos rfl, splitChar_block hi' h]; rfl
  rw [this, linesOf_snoc, List.map_cons, List.map_map, stripCr_of (s := []) (by simp), List.cons_append]
  congr 2
  refine List.map_congr_left fun l hl => stripCr_of ?_
  rw [List.getLast?_append]
  cases hg : l.getLast? with
  | some c => have := hcr l hl; rw [hg] at this; simpa using this
  | none =>
    simp only [Option.none_or]
    intro hc
    rcases hi _ (List.mem_of_getLast? hc) with h | h <;> exact absurd h (by decide)

/-- Reading a generated block gives its lines. -/
theorem trimCommon_block {ind : Str} (hi : ∀ c ∈ ind, c = ' ' ∨ c = '\t') {ls : List Str}
    (h : ∀ l ∈ ls, '\n' ∉ l) (hcr : ∀ l ∈ ls, l.getLast? ≠ some '\r')
    (hz : ∃ l ∈ ls, ∃ d p, l = d :: p ∧ isWs d = false) :
    trimCommonIndentation ('\n' :: ((ls.flatMap fun l => ind ++ l ++ ['\n']) ++ ind)) =
      some (trim (joinWith ['\n'] ls)) := by
  have hws : ∀ c ∈ ind, isWs c = true := fun c hc => by rcases hi c hc with rfl | rfl <;> decide
  have hl := strLines_block hi h hcr
  have hmin : minIndent (strLines ('\n' :: ((ls.flatMap fun l => ind ++ l ++ ['\n']) ++ ind))) = byteLen ind := by
    rw [hl]
    refine minIndent_eq ?_ ?_
    · obtain ⟨l, hl, d, p, rfl, hd⟩ := hz
      refine ⟨ind ++ d :: p, ?_, ⟨d, by simp, hd⟩, lineIndent_eq hws (by simpa using hd)⟩
      exact List.mem_cons_of_mem _ (List.mem_append_left _ (List.mem_map.2 ⟨_, hl, rfl⟩))
    · intro l hl hb
      rcases List.mem_cons.1 hl with rfl | hl
      · simp at hb
      · rcases List.mem_append.1 hl with hl | hl
        · obtain ⟨x, -, rfl⟩ := List.mem_map.1 hl
          rw [lineIndent_ws hws]; omega
        · split at hl
          · simp at hl
          · simp only [List.mem_singleton] at hl; subst hl
            obtain ⟨c, hc, hf⟩ := hb
            rw [hws c hc] at hf; cases hf
  have hne : ls ≠ [] := by rintro rfl; simp at hz
  unfold trimCommonIndentation
  simp only [hmin]
  have hcut : ∀ l, cutLine (byteLen ind) (ind ++ l) = some l := by
    intro l
    unfold cutLine
    rw [if_pos (by rw [byteLen_append]; omega), dropBytes_append]
  have h0 : cutLine (byteLen ind) [] = some [] := by
    unfold cutLine
    split
    · rename_i hle
      simp only [byteLen, Nat.le_zero] at hle
      rw [hle]; rfl
    · rfl
  have hm : (strLines ('\n' :: ((ls.flatMap fun l => ind ++ l ++ ['\n']) ++ ind))).mapM (cutLine (byteLen ind)) =
      some ([] :: (ls ++ if ind = [] then [] else [[]])) := by
    rw [hl, List.mapM_cons, h0, List.mapM_append]
    have h1 : (ls.map (ind ++ ·)).mapM (cutLine (byteLen ind)) = some ls := by
      clear hl hmin hne hz h hcr
      induction ls with
      | nil => rfl
      | cons l ls ih => rw [List.map_cons, List.mapM_cons, hcut, ih]; rfl
    have h2 : (if ind = [] then [] else [ind]).mapM (cutLine (byteLen ind)) =
        some (if ind = [] then [] else [[]]) := by
      split
      · rfl
      · have := hcut []
        rw [List.append_nil] at this
        rw [List.mapM_cons, this]; rfl
    rw [h1, h2]; rfl
  rw [hm, Option.map_some]
  congr 1
  rw [joinWith_cons (by simp [hne])]
  have hnl : ∀ c ∈ ['\n'], isWs c = true := by decide
  split
  · rw [List.append_nil]
    have := trim_around (w := ['\n']) (s := joinWith ['\n'] ls) (v := []) hnl (by simp)
    rw [List.append_nil] at this
    exact this
  · rw [joinWith_snoc hne, List.append_nil]
    have := trim_around (w := ['\n']) (s := joinWith ['\n'] ls) (v := ['\n']) hnl hnl
    rw [List.append_assoc] at this
    simpa using this

theorem parse_block {body : Str} {c : Char} (h : ('\n' :: body).getLast? = some c) (hc : c ≠ '"') :
    parseString (tripleQuote ++ '\n' :: body ++ tripleQuote) =
      match trimCommonIndentation ('\n' :: body) with
      | some s => .ok (.string s)
      | none => .error .panic := by
  have h1 : startsWith (tripleQuote ++ '\n' :: body ++ tripleQuote) tripleQuote = true := by
    rw [List.append_assoc]; exact List.isPrefixOf_iff_prefix.2 (List.prefix_append _ _)
  have h2 : endsWith (tripleQuote ++ '\n' :: body ++ tripleQuote) tripleQuote = true :=
    List.isSuffixOf_iff_suffix.2 (List.suffix_append _ _)
  unfold parseString
  rw [h1, h2]
  simp only [Bool.and_self, if_true]
  rw [List.append_assoc, trimTriple_quoted (by simp), trimTripleEnd_quoted (by rw [h]; simpa using hc)]
  rfl

/-- A trimmed string of several lines with plain line feeds reads back. -/
theorem reads_block {s : Str} (hn : '\n' ∈ s) (ht : trim s = s) (hcr : NoCrLf s) :
    ReadsBack L o source (.string s) := by
  unfold ReadsBack
  rw [reads_string]
  refine ⟨.string s, ?_, rfl⟩
  have hi := indent_chars o.indentStyle 1
  generalize hind : o.indentStyle.indentString 1 = ind at hi
  have hg : generateString o s = tripleQuote ++ '\n' :: (((strLines s).flatMap fun l => ind ++ l ++ ['\n']) ++ ind) ++
      tripleQuote := by
    unfold generateString
    simp only [if_pos hn, hind, List.append_assoc, List.cons_append]
  have hs : s ≠ [] := by rintro rfl; simp at hn
  have hlast : s.getLast? ≠ some '\n' := fun h => absurd (trim_last ht h) (by decide)
  have hl := strLines_eq hs hcr hlast
  have hnlb : ∀ l ∈ strLines s, '\n' ∉ l := by rw [hl]; exact fun l hl => splitChar_no l hl
  have hcrb : ∀ l ∈ (strLines s).dropLast, l.getLast? ≠ some '\r' := by rw [hl]; exact splitChar_crlf hcr
  have hcrl : ∀ l ∈ strLines s, l.getLast? ≠ some '\r' := by
    intro l hlm hc
    have hne : strLines s ≠ [] := by rw [hl]; exact splitChar_ne_nil _ _
    rw [← List.dropLast_concat_getLast hne] at hlm
    rcases List.mem_append.1 hlm with h | h
    · exact hcrb l h hc
    · simp only [List.mem_singleton] at h
      subst h
      have hj := joinWith_splitChar '\n' s
      rw [← hl, ← List.dropLast_concat_getLast hne] at hj
      have : s.getLast? = some '\r' := by
        rw [← hj]
        by_cases hd : (strLines s).dropLast = []
        · rw [hd]; exact hc
        · rw [joinWith_snoc hd, List.getLast?_append, hc]; rfl
      exact absurd (trim_last ht this) (by decide)
  have hz : ∃ l ∈ strLines s, ∃ d p, l = d :: p ∧ isWs d = false := by
    cases s with
    | nil => exact absurd rfl hs
    | cons d r =>
      have hd : isWs d = false := trimStart_eq_self.1 (trim_eq_self.1 ht).1 d rfl
      have hnl : d ≠ '\n' := by rintro rfl; exact absurd hd (by decide)
      obtain ⟨p, ps, hp⟩ := splitChar_head (s := r) hnl
      rw [hl, hp]
      exact ⟨d :: p, by simp, d, p, rfl, hd⟩
  have hb := trimCommon_block hi hnlb hcrl hz
  have hend : ∃ c, ('\n' :: (((strLines s).flatMap fun l => ind ++ l ++ ['\n']) ++ ind)).getLast? = some c ∧ c ≠ '"' := by
    cases hx : ind.getLast? with
    | some c =>
      refine ⟨c, ?_, by rcases hi c (List.mem_of_getLast? hx) with rfl | rfl <;> decide⟩
      rw [← List.cons_append, List.getLast?_append, hx]; rfl
    | none =>
      have : ind = [] := by simpa using hx
      subst this
      have hne : strLines s ≠ [] := by rw [hl]; exact splitChar_ne_nil _ _
      refine ⟨'\n', ?_, by decide⟩
      rw [← List.dropLast_concat_getLast hne, List.flatMap_append]
      simp only [List.flatMap_cons, List.flatMap_nil, List.append_nil, List.nil_append]
      rw [← List.append_assoc, ← List.cons_append, List.getLast?_append]; rfl
  obtain ⟨c, hc1, hc2⟩ := hend
  rw [hg, parse_block hc1 hc2, hb, hl, joinWith_splitChar, ht]

/-- Carriage returns are never added, line by line. -/
def crs (ls : List Str) : Nat := (ls.map (List.count '\r')).sum

theorem crs_append (a b : List Str) : crs (a ++ b) = crs a + crs b := by simp [crs]

theorem crs_cons (a : Str) (b : List Str) : crs (a :: b) = a.count '\r' + crs b := by simp [crs]

theorem count_join (ls : List Str) : (joinWith ['\n'] ls).count '\r' = crs ls := by
  induction ls with
  | nil => rfl
  | cons l ls ih =>
    cases ls with
    | nil => simp [joinWith, crs]
    | cons m ls =>
      rw [joinWith_cons (by simp), List.count_append, List.count_append, ih, crs_cons l]
      simp

theorem crs_splitChar (s : Str) : crs (splitChar '\n' s) = s.count '\r' := by
  rw [← count_join, joinWith_splitChar]

theorem count_sublist_trim (s : Str) : (trim s).count '\r' ≤ s.count '\r' := by
  unfold trim
  obtain ⟨u, hu, -⟩ := trimStart_append s
  obtain ⟨v, hv, -⟩ := trimEnd_append (trimStart s)
  conv => rhs; rw [hu, hv]
  simp only [List.count_append]; omega

theorem count_stripCr (p : Str) : (stripCr p).count '\r' ≤ p.count '\r' := by
  unfold stripCr
  split
  · exact (List.dropLast_sublist p).count_le _
  · exact Nat.le_refl _

theorem crs_strip (ps : List Str) : crs (ps.map stripCr) ≤ crs ps := by
  induction ps with
  | nil => exact Nat.le_refl _
  | cons p ps ih => rw [List.map_cons, crs_cons, crs_cons]; have := count_stripCr p; omega

theorem crs_linesOf (ps : List Str) : crs (linesOf ps) ≤ crs ps := by
  by_cases h : ps = []
  · subst h; exact Nat.le_refl _
  · rw [← List.dropLast_concat_getLast h, linesOf_snoc, crs_append, crs_append]
    have h1 := crs_strip ps.dropLast
    have h2 : crs (if ps.getLast h = [] then [] else [ps.getLast h]) ≤ crs [ps.getLast h] := by
      split <;> simp [crs]
    omega

theorem crs_cut {n : Nat} {as bs : List Str} (h : List.Forall₂ (CutBy n) as bs) : crs bs ≤ crs as := by
  induction h with
  | nil => exact Nat.le_refl _
  | @cons a b as bs hab _ ih =>
    have : ∃ w, a = w ++ b := by
      by_cases hb : ∃ c ∈ a, isWs c = false
      · obtain ⟨w, hw, -⟩ := hab.1 hb; exact ⟨w, hw⟩
      · exact hab.2 (fun c hc => by
          cases hw : isWs c with
          | true => rfl
          | false => exact absurd ⟨c, hc, hw⟩ hb)
    obtain ⟨w, rfl⟩ := this
    rw [crs_cons, crs_cons, List.count_append]; omega

theorem splitChar_two (c : Char) (x y : Str) : splitChar c (x ++ c :: y) = splitChar c x ++ splitChar c y := by
  induction x with
  | nil => simp [splitChar]
  | cons d x ih =>
    rw [List.cons_append, splitChar, splitChar, ih]
    split
    · rfl
    · cases hx : splitChar c x with
      | nil => exact absurd hx (splitChar_ne_nil _ _)
      | cons p ps => rfl

theorem splitChar_snoc {c d : Char} (h : d ≠ c) (x : Str) :
    ∃ ps q, splitChar c (x ++ [d]) = ps ++ [q ++ [d]] := by
  induction x with
  | nil => exact ⟨[], [], by simp [splitChar, h]⟩
  | cons e x ih =>
    obtain ⟨ps, q, hx⟩ := ih
    rw [List.cons_append, splitChar, hx]
    split
    · exact ⟨[] :: ps, q, rfl⟩
    · cases ps with
      | nil => exact ⟨[], e :: q, rfl⟩
      | cons p ps => exact ⟨(e :: p) :: ps, q, rfl⟩

/-- A carriage return before a line feed is lost by reading lines. -/
theorem crs_lost {s : Str} (h : ¬ NoCrLf s) : crs (strLines s) < s.count '\r' := by
  unfold NoCrLf at h
  simp only [ne_eq, not_forall, not_not] at h
  obtain ⟨a, b, rfl⟩ := h
  have e : a ++ '\r' :: '\n' :: b = (a ++ ['\r']) ++ '\n' :: b := by simp
  have hc := crs_splitChar (a ++ '\r' :: '\n' :: b)
  rw [← hc]
  unfold strLines
  rw [e, splitChar_two]
  obtain ⟨ps, q, hx⟩ := splitChar_snoc (c := '\n') (d := '\r') (by decide) a
  have hne := splitChar_ne_nil '\n' b
  rw [hx, ← List.dropLast_concat_getLast hne, ← List.append_assoc, linesOf_snoc, List.map_append, List.map_append,
    crs_append, crs_append, crs_append, crs_append, crs_append, crs_append]
  have h1 := crs_strip ps
  have h2 := crs_strip (splitChar '\n' b).dropLast
  have h3 : crs (if (splitChar '\n' b).getLast hne = [] then [] else [(splitChar '\n' b).getLast hne]) ≤
      crs [(splitChar '\n' b).getLast hne] := by
    split <;> simp [crs]
  have h4 : crs ([q ++ ['\r']].map stripCr) < crs [q ++ ['\r']] := by
    simp [crs, stripCr]
  omega

theorem crs_flatMap {ind : Str} (hi : ∀ c ∈ ind, c = ' ' ∨ c = '\t') (ls : List Str) :
    (ls.flatMap fun l => ind ++ l ++ ['\n']).count '\r' = crs ls := by
  have hz : ind.count '\r' = 0 := List.count_eq_zero.2 fun hm => by
    rcases hi _ hm with h | h <;> exact absurd h (by decide)
  induction ls with
  | nil => rfl
  | cons l ls ih =>
    rw [List.flatMap_cons, crs_cons, List.count_append, ih, List.count_append, List.count_append, hz]
    simp

theorem count_trimTriple (s : Str) : (trimTriple s).count '\r' = s.count '\r' := by
  fun_induction trimTriple s with
  | case1 s ih => rw [ih]; simp
  | case2 s => rfl

/-- Reading a string of several lines loses a carriage return before a line feed. -/
theorem reads_crs {s r : Str} (hn : '\n' ∈ s) (h : ReadsAs L o source (.string s) (.string r)) :
    trim r = r ∧ r.count '\r' ≤ crs (strLines s) := by
  rw [reads_string] at h
  obtain ⟨p, hp, hv⟩ := h
  have hi := indent_chars o.indentStyle 1
  unfold generateString at hp
  simp only [if_pos hn] at hp
  unfold parseString at hp
  have h1 : ∀ x, startsWith (tripleQuote ++ x) tripleQuote = true := fun x =>
    List.isPrefixOf_iff_prefix.2 (List.prefix_append _ _)
  have h2 : ∀ x, endsWith (x ++ tripleQuote) tripleQuote = true := fun x =>
    List.isSuffixOf_iff_suffix.2 (List.suffix_append _ _)
  rw [h2] at hp
  simp only [List.append_assoc, h1, Bool.and_self, if_true] at hp
  split at hp
  · rename_i x hx
    simp only [Except.ok.injEq] at hp
    subst hp
    simp only [toFieldValue, FieldValue.string.injEq] at hv
    subst hv
    obtain ⟨n, ls, -, hf, rfl⟩ := C54_removes_partial hx
    refine ⟨trim_idem _, ?_⟩
    refine Nat.le_trans (count_sublist_trim _) ?_
    rw [count_join]
    refine Nat.le_trans (crs_cut hf) (Nat.le_trans (crs_linesOf _) ?_)
    rw [crs_splitChar]
    unfold trimTripleEnd
    rw [List.count_reverse, count_trimTriple, List.count_reverse, count_trimTriple]
    have hz : (o.indentStyle.indentString 1).count '\r' = 0 := List.count_eq_zero.2 fun hm => by
      rcases hi _ hm with h | h <;> exact absurd h (by decide)
    have hb := crs_flatMap hi (strLines s)
    simp only [List.append_assoc] at hb
    simp [List.count_append, hz, hb, tripleQuote]
  · cases hp

/-- C51: a string of several lines reads back iff it is trimmed and has plain line feeds.  Missing: white
space around the string and carriage returns before line feeds are lost. -/
theorem C51_multi_line_partial {s : Str} (hn : '\n' ∈ s) :
    ReadsBack L o source (.string s) ↔ trim s = s ∧ NoCrLf s := by
  constructor
  · intro h
    obtain ⟨h1, h2⟩ := reads_crs hn h
    refine ⟨h1, ?_⟩
    by_contra hcr
    have := crs_lost hcr
    omega
  · rintro ⟨h1, h2⟩
    exact reads_block hn h1 h2

/-- C51: carriage returns before line feeds are lost. -/
theorem C51_carriage_return :
    ReadsAs exLang .default source (.string "a\r\nb".toList) (.string "a\nb".toList) :=
  reads_string.2 ⟨.string "a\nb".toList, rfl, rfl⟩

/-- C51: what is read for a quotation mark. -/
theorem C51_quotation_mark :
    ReadsAs exLang .default source (.string "say \"hi\" now".toList) (.string "say \\\"hi\\\" now".toList) :=
  reads_string.2 ⟨.string "say \\\"hi\\\" now".toList, rfl, rfl⟩

example : '\n' ∈ "a\n  b".toList ∧ trim "a\n  b".toList = "a\n  b".toList ∧
    ReadsBack exLang .default [] (.string "a\n  b".toList) :=
  ⟨by decide, by decide, reads_string.2 ⟨.string "a\n  b".toList, rfl, rfl⟩⟩

end Firm
