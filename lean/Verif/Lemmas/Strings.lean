import Verif.Lemmas.Calendar

/-!
# Lemmas on lines, indentation and quotes
-/

namespace Firm

/-! ## Trimming -/

theorem trimStart_eq_self {s : Str} : trimStart s = s ↔ ∀ c, s.head? = some c → isWs c = false := by
  cases s with
  | nil => simp [trimStart]
  | cons d s =>
    unfold trimStart
    cases h : isWs d with
    | false => simp [h]
    | true =>
      simp only [List.dropWhile_cons, h, if_true, List.head?_cons, Option.some.injEq, forall_eq', Bool.true_eq_false,
        iff_false]
      intro he
      have := congrArg List.length he
      have hl := (List.dropWhile_sublist (p := isWs) (l := s)).length_le
      simp only [List.length_cons] at this
      omega

theorem trimStart_idem (s : Str) : trimStart (trimStart s) = trimStart s := by
  rw [trimStart_eq_self]
  intro c hc
  unfold trimStart at hc
  have := List.head?_dropWhile_not isWs s
  rw [hc] at this
  simpa using this

theorem trimEnd_eq (s : Str) : trimEnd s = (trimStart s.reverse).reverse := rfl

theorem trimEnd_idem (s : Str) : trimEnd (trimEnd s) = trimEnd s := by
  simp only [trimEnd_eq, List.reverse_reverse, trimStart_idem]

theorem mem_takeWhile_ws {c : Char} {s : Str} (h : c ∈ s.takeWhile isWs) : isWs c = true := by
  induction s with
  | nil => simp at h
  | cons d s ih =>
    rw [List.takeWhile_cons] at h
    split at h
    · rcases List.mem_cons.1 h with rfl | h
      · assumption
      · exact ih h
    · simp at h

/-- The text before the white space at the end. -/
theorem trimEnd_append (s : Str) : ∃ w, s = trimEnd s ++ w ∧ ∀ c ∈ w, isWs c = true := by
  refine ⟨(s.reverse.takeWhile isWs).reverse, ?_, ?_⟩
  · unfold trimEnd
    rw [← List.reverse_append, List.takeWhile_append_dropWhile, List.reverse_reverse]
  · intro c hc
    exact mem_takeWhile_ws (List.mem_reverse.1 hc)

theorem trimStart_append (s : Str) : ∃ w, s = w ++ trimStart s ∧ ∀ c ∈ w, isWs c = true :=
  ⟨s.takeWhile isWs, (List.takeWhile_append_dropWhile ..).symm, fun _ hc => mem_takeWhile_ws hc⟩

theorem trim_idem (s : Str) : trim (trim s) = trim s := by
  unfold trim
  have h : trimStart (trimEnd (trimStart s)) = trimEnd (trimStart s) := by
    rw [trimStart_eq_self]
    intro c hc
    obtain ⟨w, hw, -⟩ := trimEnd_append (trimStart s)
    have h2 : (trimStart s).head? = some c := by
      rw [hw]
      cases hx : trimEnd (trimStart s) with
      | nil => rw [hx] at hc; simp at hc
      | cons d x => rw [hx] at hc; simpa using hc
    exact trimStart_eq_self.1 (trimStart_idem s) c h2
  rw [h, trimEnd_idem]

theorem trim_eq_self {s : Str} : trim s = s ↔ trimStart s = s ∧ trimEnd s = s := by
  constructor
  · intro h
    have h1 : trimStart s = s := by
      have : trimStart (trim s) = trim s := by
        have := trim_idem s
        rw [trimStart_eq_self]
        intro c hc
        obtain ⟨w, hw, -⟩ := trimEnd_append (trimStart s)
        have h2 : (trimStart s).head? = some c := by
          rw [hw]
          unfold trim at hc
          cases hx : trimEnd (trimStart s) with
          | nil => rw [hx] at hc; simp at hc
          | cons d x => rw [hx] at hc; simpa using hc
        exact trimStart_eq_self.1 (trimStart_idem s) c h2
      rwa [h] at this
    refine ⟨h1, ?_⟩
    unfold trim at h
    rwa [h1] at h
  · rintro ⟨h1, h2⟩
    unfold trim
    rw [h1, h2]

theorem trimStart_ws {w s : Str} (h : ∀ c ∈ w, isWs c = true) : trimStart (w ++ s) = trimStart s := by
  unfold trimStart
  induction w with
  | nil => rfl
  | cons c w ih =>
    simp only [List.cons_append, List.dropWhile_cons, h c (by simp), if_true]
    exact ih fun d hd => h d (by simp [hd])

theorem trimEnd_ws {w s : Str} (h : ∀ c ∈ w, isWs c = true) : trimEnd (s ++ w) = trimEnd s := by
  rw [trimEnd_eq, trimEnd_eq, List.reverse_append, trimStart_ws]
  intro c hc; exact h c (List.mem_reverse.1 hc)

/-- White space around a text is trimmed away. -/
theorem trim_around {w s v : Str} (hw : ∀ c ∈ w, isWs c = true) (hv : ∀ c ∈ v, isWs c = true) :
    trim (w ++ s ++ v) = trim s := by
  unfold trim
  rw [List.append_assoc, trimStart_ws hw]
  by_cases hs : trimStart s = []
  · have hall : ∀ c ∈ s, isWs c = true := by
      obtain ⟨u, hu, hu'⟩ := trimStart_append s
      rw [hs, List.append_nil] at hu
      rw [hu]; exact hu'
    rw [trimStart_ws hall, hs]
    obtain ⟨u, hu, hu'⟩ := trimStart_append v
    have : trimStart v = [] := by
      have := trimStart_ws (s := []) hv
      rw [List.append_nil] at this
      rw [this]; rfl
    rw [this]
  · have : trimStart (s ++ v) = trimStart s ++ v := by
      obtain ⟨u, hu, hu'⟩ := trimStart_append s
      conv => lhs; rw [hu, List.append_assoc, trimStart_ws hu']
      rw [trimStart_eq_self]
      intro c hc
      apply trimStart_eq_self.1 (trimStart_idem s) c
      cases hx : trimStart s with
      | nil => exact absurd hx hs
      | cons d x => rw [hx] at hc; simpa using hc
    rw [this, trimEnd_ws hv]

theorem trim_nil_iff {s : Str} : trim s = [] ↔ ∀ c ∈ s, isWs c = true := by
  constructor
  · intro h
    unfold trim at h
    obtain ⟨u, hu, hu'⟩ := trimStart_append s
    obtain ⟨v, hv, hv'⟩ := trimEnd_append (trimStart s)
    rw [h, List.nil_append] at hv
    rw [hu]
    intro c hc
    rcases List.mem_append.1 hc with hc | hc
    · exact hu' c hc
    · rw [hv] at hc; exact hv' c hc
  · intro h
    have := trim_around (w := s) (s := []) (v := []) h (by simp)
    rw [List.append_nil, List.append_nil] at this
    rw [this]; rfl

/-! ## Bytes -/

theorem byteLen_append (a b : Str) : byteLen (a ++ b) = byteLen a + byteLen b := by
  induction a with
  | nil => simp [byteLen]
  | cons c a ih => simp only [List.cons_append, byteLen, ih]; omega

theorem byteLen_pos {c : Char} {s : Str} : 0 < byteLen (c :: s) := by
  have := c.utf8Size_pos
  simp only [byteLen]; omega

theorem dropBytes_append (a b : Str) : dropBytes (byteLen a) (a ++ b) = some b := by
  induction a with
  | nil => simp [byteLen, dropBytes]
  | cons c a ih =>
    have hc := c.utf8Size_pos
    have hl : byteLen (c :: a) = (c.utf8Size + byteLen a - 1) + 1 := by simp only [byteLen]; omega
    rw [hl, List.cons_append, dropBytes, if_pos (by omega),
      show c.utf8Size + byteLen a - 1 + 1 - c.utf8Size = byteLen a by omega, ih]

theorem dropBytes_some {n : Nat} {s r : Str} (h : dropBytes n s = some r) :
    ∃ a, s = a ++ r ∧ byteLen a = n := by
  induction s generalizing n with
  | nil =>
    cases n with
    | zero => simp only [dropBytes, Option.some.injEq] at h; exact ⟨[], by simp [h], rfl⟩
    | succ n => simp [dropBytes] at h
  | cons c s ih =>
    cases n with
    | zero => simp only [dropBytes, Option.some.injEq] at h; exact ⟨[], by simp [h], rfl⟩
    | succ n =>
      unfold dropBytes at h
      split at h
      · rename_i hle
        obtain ⟨a, rfl, ha⟩ := ih h
        refine ⟨c :: a, rfl, ?_⟩
        simp only [byteLen, ha]; omega
      · cases h

theorem lineIndent_eq {w s : Str} (hw : ∀ c ∈ w, isWs c = true)
    (hs : ∀ c, s.head? = some c → isWs c = false) : lineIndent (w ++ s) = byteLen w := by
  unfold lineIndent
  rw [trimStart_ws hw, trimStart_eq_self.2 hs, byteLen_append]; omega

theorem lineIndent_ws {w s : Str} (hw : ∀ c ∈ w, isWs c = true) :
    lineIndent (w ++ s) = byteLen w + lineIndent s := by
  obtain ⟨u, hu, hu'⟩ := trimStart_append s
  unfold lineIndent
  rw [trimStart_ws hw, byteLen_append]
  have : byteLen s = byteLen u + byteLen (trimStart s) := by
    conv => lhs; rw [hu]
    exact byteLen_append ..
  omega

/-! ## Lines -/

theorem linesOf_snoc (ps : List Str) (q : Str) :
    linesOf (ps ++ [q]) = ps.map stripCr ++ (if q = [] then [] else [q]) := by
  induction ps with
  | nil => rfl
  | cons p ps ih =>
    cases ps with
    | nil => simp only [List.cons_append, List.nil_append, linesOf, List.map_cons, List.map_nil]
    | cons p' ps =>
      simp only [List.cons_append, linesOf, List.map_cons] at ih ⊢
      rw [ih]

theorem joinWith_cons {sep p : Str} {ps : List Str} (h : ps ≠ []) :
    joinWith sep (p :: ps) = p ++ sep ++ joinWith sep ps := by
  cases ps with
  | nil => exact absurd rfl h
  | cons q ps => rfl

theorem joinWith_snoc {sep q : Str} {ps : List Str} (h : ps ≠ []) :
    joinWith sep (ps ++ [q]) = joinWith sep ps ++ sep ++ q := by
  induction ps with
  | nil => exact absurd rfl h
  | cons p ps ih =>
    cases ps with
    | nil => rfl
    | cons p' ps =>
      rw [List.cons_append, joinWith_cons (by simp), ih (by simp),
        joinWith_cons (p := p) (ps := p' :: ps) (by simp)]
      simp only [List.append_assoc]

/-- The last piece is empty only at a separator. -/
theorem splitChar_last {c : Char} {s : Str} (hs : s ≠ []) (h : s.getLast? ≠ some c) :
    (splitChar c s).getLast? ≠ some [] := by
  induction s with
  | nil => exact absurd rfl hs
  | cons d s ih =>
    cases s with
    | nil =>
      have hd : d ≠ c := by rintro rfl; exact h rfl
      simp [splitChar, hd]
    | cons e s =>
      have h' : (e :: s).getLast? ≠ some c := by simpa [List.getLast?_cons_cons] using h
      have := ih (by simp) h'
      unfold splitChar
      by_cases hd : d = c
      · rw [if_pos hd]
        cases hsp : splitChar c (e :: s) with
        | nil => exact absurd hsp (splitChar_ne_nil _ _)
        | cons p ps => rw [hsp] at this; simpa [List.getLast?_cons_cons] using this
      · rw [if_neg hd]
        cases hsp : splitChar c (e :: s) with
        | nil => exact absurd hsp (splitChar_ne_nil _ _)
        | cons p ps =>
          rw [hsp] at this
          cases ps with
          | nil => simp
          | cons q ps => simpa [List.getLast?_cons_cons] using this

/-- No carriage return directly before a line feed. -/
def NoCrLf (s : Str) : Prop := ∀ a b, s ≠ a ++ '\r' :: '\n' :: b

theorem splitChar_crlf {s : Str} (h : NoCrLf s) : ∀ p ∈ (splitChar '\n' s).dropLast, p.getLast? ≠ some '\r' := by
  induction s with
  | nil => simp [splitChar]
  | cons d s ih =>
    have ih := ih (fun a b he => h (d :: a) b (by rw [he]; rfl))
    unfold splitChar
    by_cases hd : d = '\n'
    · rw [if_pos hd]
      cases hsp : splitChar '\n' s with
      | nil => simp
      | cons p ps =>
        rw [hsp] at ih
        intro q hq
        simp only [List.dropLast_cons_cons, List.mem_cons] at hq
        rcases hq with rfl | hq
        · simp
        · exact ih q hq
    · rw [if_neg hd]
      cases hsp : splitChar '\n' s with
      | nil => simp
      | cons p ps =>
        rw [hsp] at ih
        cases ps with
        | nil => simp
        | cons p' ps =>
          intro q hq
          simp only [List.dropLast_cons_cons, List.mem_cons] at hq ih
          rcases hq with rfl | hq
          · cases p with
            | nil =>
              simp only [List.getLast?_singleton, ne_eq, Option.some.injEq]
              rintro rfl
              have hj := joinWith_splitChar '\n' s
              rw [hsp, joinWith_cons (by simp)] at hj
              exact h [] (joinWith ['\n'] (p' :: ps)) (by rw [← hj]; rfl)
            | cons x p =>
              rw [List.getLast?_cons_cons]
              exact ih (x :: p) (Or.inl rfl)
          · exact ih q (Or.inr hq)

theorem stripCr_of {s : Str} (h : s.getLast? ≠ some '\r') : stripCr s = s := by
  unfold stripCr; rw [if_neg h]

/-- The lines of a text with plain line feeds that does not end with one are its pieces. -/
theorem strLines_eq {s : Str} (hs : s ≠ []) (hcr : NoCrLf s) (hl : s.getLast? ≠ some '\n') :
    strLines s = splitChar '\n' s := by
  have h1 := splitChar_crlf hcr
  have h2 := splitChar_last hs hl
  unfold strLines
  have hne := splitChar_ne_nil '\n' s
  obtain ⟨init, last, he⟩ : ∃ init last, splitChar '\n' s = init ++ [last] :=
    ⟨_, _, (List.dropLast_concat_getLast hne).symm⟩
  rw [he] at h1 h2 ⊢
  rw [linesOf_snoc, if_neg (by simpa using h2)]
  congr 1
  rw [List.dropLast_concat] at h1
  conv => rhs; rw [← List.map_id init]
  exact List.map_congr_left fun p hp => stripCr_of (h1 p hp)

/-! ## Quotes -/

theorem trimTriple_quoted {s : Str} (h : s.head? ≠ some '"') : trimTriple (tripleQuote ++ s) = s := by
  show trimTriple ('"' :: '"' :: '"' :: s) = s
  rw [trimTriple]
  cases s with
  | nil => rfl
  | cons c s =>
    unfold trimTriple
    split
    · rename_i heq; injection heq with h1; subst h1; exact absurd rfl h
    · rfl

theorem trimTripleEnd_quoted {s : Str} (h : s.getLast? ≠ some '"') : trimTripleEnd (s ++ tripleQuote) = s := by
  unfold trimTripleEnd
  have : (s ++ tripleQuote).reverse = tripleQuote ++ s.reverse := by simp [tripleQuote]
  rw [this, trimTriple_quoted (by simpa using h), List.reverse_reverse]

theorem trimMatches_quoted {s : Str} {c : Char} (h1 : s.head? ≠ some c) (h2 : s.getLast? ≠ some c) :
    trimMatches c (c :: s ++ [c]) = s := by
  have drop_self : ∀ s : Str, s.head? ≠ some c → s.dropWhile (· == c) = s := by
    intro s hs
    cases s with
    | nil => rfl
    | cons d s =>
      have : (d == c) = false := by simpa using hs
      simp [this]
  unfold trimMatches
  cases s with
  | nil => simp
  | cons d s =>
    have e1 : (c :: (d :: s) ++ [c]).dropWhile (· == c) = (d :: s) ++ [c] := by
      rw [List.cons_append, List.dropWhile_cons, if_pos (by simp)]
      exact drop_self _ (by simpa using h1)
    rw [e1, List.reverse_append, List.reverse_singleton, List.singleton_append, List.dropWhile_cons,
      if_pos (by simp), drop_self _ (by rw [List.head?_reverse]; exact h2), List.reverse_reverse]

end Firm
