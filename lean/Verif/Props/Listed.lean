import Verif.Props.Forged
import Verif.Props.Quoted

/-!
# Lists in generated files (C177)
-/

namespace Firm
open Spec

/-! ## Specification -/

namespace Spec

/-- An item that can be told apart in a list: a text of one line, a path without a second opening of a path literal, or an
enum, a boolean, an integer, a date or another single value written without commas that reads back. -/
def PlainItem (L : Lang) (o : GeneratorOptions) (source : Str) : FieldValue → Prop
  | .string s => '\n' ∉ s
  | .path p => ¬ Occurs "path\"".toList (p ++ ['"'])
  | .list _ => False
  | .float f => ReadsBack L o source (.float f) ∧ ',' ∉ generateValue L o (.float f)
  | .currency a c => ReadsBack L o source (.currency a c) ∧ ',' ∉ c
  | .reference r => ReadsBack L o source (.reference r) ∧ ',' ∉ r.display ∧ r.display ≠ []
  | v => ReadsBack L o source v

/-- All items have the kind `k` and can be told apart. -/
def PlainList (L : Lang) (o : GeneratorOptions) (source : Str) (k : String) (items : List FieldValue) : Prop :=
  ∀ v ∈ items, literalKind v = k ∧ PlainItem L o source v

end Spec

/-! ## Lists of texts -/

/-- The inside of a text literal. -/
def escaped (s : Str) : Str := s.flatMap fun c => if c = '"' then ['\\', '"'] else [c]

theorem escaped_cons (c : Char) (s : Str) :
    escaped (c :: s) = (if c = '"' then ['\\', '"'] else [c]) ++ escaped s := rfl

/-- What follows a literal in a list of texts. -/
def afterText : List Str → Str
  | [] => [']']
  | x :: xs => ',' :: ' ' :: '"' :: (escaped x ++ '"' :: afterText xs)

/-- A quote that is not first in what is escaped has a backslash in front of it. -/
theorem escaped_quote : ∀ (u a b : Str) (c : Char), escaped u = a ++ c :: '"' :: b → c = '\\' := by
  intro u
  induction u with
  | nil => intro a b c h; simp [escaped] at h
  | cons x u ih =>
    intro a b c h
    rw [escaped_cons] at h
    split at h
    · cases a with
      | nil =>
        have h' : '\\' :: '"' :: escaped u = c :: '"' :: b := h
        injection h' with h1 h2; exact h1.symm
      | cons y a =>
        cases a with
        | nil =>
          have h' : '\\' :: '"' :: escaped u = y :: c :: '"' :: b := h
          injection h' with h1 h2
          injection h2 with h2 h3
          -- the rest begins with a quote: not possible
          cases u with
          | nil => simp [escaped] at h3
          | cons z u =>
            rw [escaped_cons] at h3
            split at h3
            · injection h3 with h4; exact absurd h4 (by decide)
            · rename_i hz; injection h3 with h4; exact absurd h4 hz
        | cons z a =>
          have h' : '\\' :: '"' :: escaped u = y :: z :: (a ++ c :: '"' :: b) := h
          injection h' with h1 h2
          injection h2 with h2 h3
          exact ih a b c h3
    · cases a with
      | nil =>
        have h' : x :: escaped u = c :: '"' :: b := h
        injection h' with h1 h2
        cases u with
        | nil => simp [escaped] at h2
        | cons z u =>
          rw [escaped_cons] at h2
          split at h2
          · injection h2 with h4; exact absurd h4 (by decide)
          · rename_i hz; injection h2 with h4; exact absurd h4 hz
      | cons y a =>
        have h' : x :: escaped u = y :: (a ++ c :: '"' :: b) := h
        injection h' with h1 h2
        exact ih a b c h2

theorem escaped_head (u b : Str) : escaped u ≠ '"' :: b := by
  intro h
  cases u with
  | nil => simp [escaped] at h
  | cons z u =>
    rw [escaped_cons] at h
    split at h
    · injection h with h4; exact absurd h4 (by decide)
    · rename_i hz; injection h with h4; exact absurd h4 hz

theorem escaped_injective : ∀ s s' : Str, escaped s = escaped s' → s = s' := by
  intro s
  induction s with
  | nil =>
    intro s' h
    cases s' with
    | nil => rfl
    | cons c s' => rw [escaped_cons] at h; split at h <;> cases h
  | cons c s ih =>
    intro s' h
    cases s' with
    | nil => rw [escaped_cons] at h; split at h <;> cases h
    | cons d s' =>
      rw [escaped_cons, escaped_cons] at h
      split at h <;> split at h
      · rename_i hc hd; rw [hc, hd, ih s' (List.append_cancel_left h)]
      · rename_i hc hd
        have h' : '\\' :: '"' :: escaped s = d :: escaped s' := h
        injection h' with h1 h2
        exact absurd h2.symm (escaped_head _ _)
      · rename_i hc hd
        have h' : c :: escaped s = '\\' :: '"' :: escaped s' := h
        injection h' with h1 h2
        exact absurd h2 (escaped_head _ _)
      · have h' : c :: escaped s = d :: escaped s' := h
        injection h' with h1 h2
        rw [h1, ih s' h2]

/-- If what is escaped and its closing quote begin with a comma, a blank and a quote, then the quote is the closing one. -/
theorem escaped_separator {u r b : Str} (h : escaped u ++ '"' :: r = ',' :: ' ' :: '"' :: b) :
    escaped u = [',', ' '] ∧ r = b := by
  cases hu : escaped u with
  | nil => rw [hu] at h; injection h with h1; exact absurd h1 (by decide)
  | cons x u1 =>
    rw [hu] at h
    have h' : x :: (u1 ++ '"' :: r) = ',' :: ' ' :: '"' :: b := h
    injection h' with h1 h2
    cases u1 with
    | nil => injection h2 with h3; exact absurd h3 (by decide)
    | cons y u2 =>
      have h2' : y :: (u2 ++ '"' :: r) = ' ' :: '"' :: b := h2
      injection h2' with h3 h4
      cases u2 with
      | nil => injection h4 with _ h5; rw [h1, h3]; exact ⟨rfl, h5⟩
      | cons z u3 =>
        have h4' : z :: (u3 ++ '"' :: r) = '"' :: b := h4
        injection h4' with h5 h6
        have := escaped_quote u [x] u3 y (by rw [hu, h5]; rfl)
        rw [h3] at this
        exact absurd this (by decide)

/-- Inside a literal on one side and after a literal on the other: the texts differ. -/
theorem out_of_step : ∀ (xs ys : List Str) (u : Str), escaped u ++ '"' :: afterText xs ≠ afterText ys := by
  intro xs
  induction xs with
  | nil =>
    intro ys u h
    cases ys with
    | nil =>
      have := congrArg List.length h
      simp [afterText] at this
    | cons y ys =>
      obtain ⟨_, h2⟩ := escaped_separator h
      have h3 := congrArg (fun l => decide ('"' ∈ l)) h2
      simp [afterText] at h3
  | cons x xs ih =>
    intro ys u h
    cases ys with
    | nil =>
      have := congrArg List.length h
      simp [afterText] at this
      omega
    | cons y ys =>
      obtain ⟨_, h2⟩ := escaped_separator h
      obtain ⟨_, h4⟩ := escaped_separator h2.symm
      exact ih ys x h4.symm

theorem in_step_aux {s s' m : Str} {xs ys : List Str} (h1 : escaped s' = escaped s ++ '"' :: m)
    (h2 : afterText xs = m ++ '"' :: afterText ys) : False := by
  cases xs with
  | nil =>
    have h3 : '"' ∈ afterText [] := by rw [h2]; simp
    simp [afterText] at h3
  | cons x xs =>
    cases m with
    | nil => injection h2 with h3; exact absurd h3 (by decide)
    | cons c m =>
      have h2' : ',' :: ' ' :: '"' :: (escaped x ++ '"' :: afterText xs) = c :: (m ++ '"' :: afterText ys) := h2
      injection h2' with h3 h4
      cases m with
      | nil => injection h4 with h5; exact absurd h5 (by decide)
      | cons d m =>
        have h4' : ' ' :: '"' :: (escaped x ++ '"' :: afterText xs) = d :: (m ++ '"' :: afterText ys) := h4
        injection h4' with h5 h6
        cases m with
        | nil => injection h6 with _ h7; exact out_of_step xs ys x h7
        | cons f m =>
          have h6' : '"' :: (escaped x ++ '"' :: afterText xs) = f :: (m ++ '"' :: afterText ys) := h6
          injection h6' with h7 h8
          have := escaped_quote s' (escaped s ++ ['"', c]) m d (by rw [h1, ← h7]; simp)
          rw [← h5] at this
          exact absurd this (by decide)

/-- Both inside a literal: it is the same one, and so are the following ones. -/
theorem in_step : ∀ (xs ys : List Str) (s s' : Str),
    escaped s ++ '"' :: afterText xs = escaped s' ++ '"' :: afterText ys → s = s' ∧ xs = ys := by
  have one : ∀ (xs ys : List Str) (s s' : Str),
      escaped s ++ '"' :: afterText xs = escaped s' ++ '"' :: afterText ys → s = s' ∧ afterText xs = afterText ys := by
    intro xs ys s s' h
    rcases List.append_eq_append_iff.1 h with ⟨m, h1, h2⟩ | ⟨m, h1, h2⟩
    · cases m with
      | nil =>
        rw [List.append_nil] at h1
        injection h2 with _ h3
        exact ⟨(escaped_injective _ _ h1).symm, h3⟩
      | cons c m =>
        have h2' : '"' :: afterText xs = c :: (m ++ '"' :: afterText ys) := h2
        injection h2' with h3 h4
        rw [← h3] at h1
        exact (in_step_aux h1 h4).elim
    · cases m with
      | nil =>
        rw [List.append_nil] at h1
        injection h2 with _ h3
        exact ⟨escaped_injective _ _ h1, h3.symm⟩
      | cons c m =>
        have h2' : '"' :: afterText ys = c :: (m ++ '"' :: afterText xs) := h2
        injection h2' with h3 h4
        rw [← h3] at h1
        exact (in_step_aux h1 h4).elim
  intro xs
  induction xs with
  | nil =>
    intro ys s s' h
    obtain ⟨h1, h2⟩ := one _ _ _ _ h
    cases ys with
    | nil => exact ⟨h1, rfl⟩
    | cons y ys => injection h2 with h3; exact absurd h3 (by decide)
  | cons x xs ih =>
    intro ys s s' h
    obtain ⟨h1, h2⟩ := one _ _ _ _ h
    cases ys with
    | nil => injection h2 with h3; exact absurd h3 (by decide)
    | cons y ys =>
      injection h2 with _ h3
      injection h3 with _ h4
      injection h4 with _ h5
      obtain ⟨h6, h7⟩ := ih ys x y h5
      exact ⟨h1, by rw [h6, h7]⟩

theorem texts_written (L : Lang) (o : GeneratorOptions) (s : Str) (xs : List Str) (hs : '\n' ∉ s) (hx : ∀ x ∈ xs, '\n' ∉ x) :
    generateValue L o (.list ((s :: xs).map .string)) = '[' :: '"' :: (escaped s ++ '"' :: afterText xs) := by
  have one : ∀ u : Str, '\n' ∉ u → generateValue L o (.string u) = '"' :: (escaped u ++ ['"']) := by
    intro u hu
    show generateString o u = _
    unfold generateString
    rw [if_neg hu]; rfl
  have rest : ∀ (xs : List Str) (s : Str), '\n' ∉ s → (∀ x ∈ xs, '\n' ∉ x) →
      joinWith [',', ' '] (generateValues L o ((s :: xs).map .string)) ++ [']'] = '"' :: (escaped s ++ '"' :: afterText xs) := by
    intro xs
    induction xs with
    | nil =>
      intro s hs _
      show generateValue L o (.string s) ++ [']'] = _
      rw [one s hs]; simp [afterText]
    | cons x xs ih =>
      intro s hs hx
      have := ih x (hx x (by simp)) fun y hy => hx y (by simp [hy])
      show (generateValue L o (.string s) ++ [',', ' '] ++ joinWith [',', ' '] (generateValues L o ((x :: xs).map .string))) ++ [']'] = _
      rw [List.append_assoc, this, one s hs]
      simp [afterText]
  show '[' :: joinWith [',', ' '] (generateValues L o ((s :: xs).map .string)) ++ [']'] = _
  rw [List.cons_append, rest xs s hs hx]

/-- Two lists of texts without line breaks that are written the same are the same, whatever quotes, commas and backslashes the
texts have. -/
theorem C177_texts (L : Lang) (o : GeneratorOptions) (xs ys : List Str) (hx : ∀ x ∈ xs, '\n' ∉ x) (hy : ∀ y ∈ ys, '\n' ∉ y)
    (h : generateValue L o (.list (xs.map .string)) = generateValue L o (.list (ys.map .string))) : xs = ys := by
  have empty : generateValue L o (.list (([] : List Str).map .string)) = ['[', ']'] := rfl
  cases xs with
  | nil =>
    cases ys with
    | nil => rfl
    | cons y ys =>
      rw [empty, texts_written L o y ys (hy y (by simp)) fun z hz => hy z (by simp [hz])] at h
      injection h with _ h; injection h with h; exact absurd h (by decide)
  | cons x xs =>
    rw [texts_written L o x xs (hx x (by simp)) fun z hz => hx z (by simp [hz])] at h
    cases ys with
    | nil => rw [empty] at h; injection h with _ h; injection h with h; exact absurd h (by decide)
    | cons y ys =>
      rw [texts_written L o y ys (hy y (by simp)) fun z hz => hy z (by simp [hz])] at h
      injection h with _ h
      injection h with _ h
      obtain ⟨h1, h2⟩ := in_step _ _ _ _ h
      rw [h1, h2]

/-! ## Lists of other values -/

/-- Texts without commas, joined by commas, can be told apart. -/
theorem joined_inj : ∀ xs ys : List Str, (∀ x ∈ xs, ',' ∉ x ∧ x ≠ []) → (∀ y ∈ ys, ',' ∉ y ∧ y ≠ []) →
    joinWith [',', ' '] xs = joinWith [',', ' '] ys → xs = ys := by
  have split : ∀ (x y a b : Str), ',' ∉ x → ',' ∉ y → x ++ ',' :: a = y ++ ',' :: b → x = y ∧ a = b := by
    intro x
    induction x with
    | nil =>
      intro y a b _ hy h
      cases y with
      | nil => injection h with _ h; exact ⟨rfl, h⟩
      | cons c y => injection h with h _; exact absurd (by simp [← h]) hy
    | cons c x ih =>
      intro y a b hx hy h
      cases y with
      | nil => injection h with h _; exact absurd (by simp [h]) hx
      | cons d y =>
        injection h with h1 h2
        obtain ⟨h3, h4⟩ := ih y a b (fun k => hx (by simp [k])) (fun k => hy (by simp [k])) h2
        exact ⟨by rw [h1, h3], h4⟩
  intro xs
  induction xs with
  | nil =>
    intro ys _ hy h
    cases ys with
    | nil => rfl
    | cons y ys =>
      cases ys with
      | nil => exact absurd h.symm (hy y (by simp)).2
      | cons z ys =>
        have := congrArg List.length h
        simp [joinWith] at this
  | cons x xs ih =>
    intro ys hx hy h
    cases ys with
    | nil =>
      cases xs with
      | nil => exact absurd h (hx x (by simp)).2
      | cons z xs =>
        have := congrArg List.length h
        simp [joinWith] at this
    | cons y ys =>
      have hcx := (hx x (by simp)).1
      have hcy := (hy y (by simp)).1
      cases xs with
      | nil =>
        cases ys with
        | nil => rw [show x = y from h]
        | cons z ys =>
          have h' : x = y ++ [',', ' '] ++ joinWith [',', ' '] (z :: ys) := h
          exact absurd (by rw [h']; simp) hcx
      | cons w xs =>
        cases ys with
        | nil =>
          have h' : x ++ [',', ' '] ++ joinWith [',', ' '] (w :: xs) = y := h
          exact absurd (by rw [← h']; simp) hcy
        | cons z ys =>
          have h' : x ++ [',', ' '] ++ joinWith [',', ' '] (w :: xs) = y ++ [',', ' '] ++ joinWith [',', ' '] (z :: ys) := h
          obtain ⟨h1, h2⟩ := split x y (' ' :: joinWith [',', ' '] (w :: xs)) (' ' :: joinWith [',', ' '] (z :: ys)) hcx hcy
            (by simpa using h')
          injection h2 with _ h2
          rw [h1, ih (z :: ys) (fun k hk => hx k (by simp [hk])) (fun k hk => hy k (by simp [hk])) h2]

theorem generateValues_map (L : Lang) (o : GeneratorOptions) : ∀ vs, generateValues L o vs = vs.map (generateValue L o)
  | [] => rfl
  | v :: vs => by rw [generateValues, generateValues_map L o vs]; rfl

/-- Two lists with items of one kind that read back are the same when they are written the same, provided that the items are
no lists and are written without commas. Missing for the full claim: items with commas (but see `C177_texts` and
`C177_enums`), and lists of lists. -/
theorem C177_items_partial (L : Lang) (o : GeneratorOptions) (source : Str) (k : String) (vs ws : List FieldValue)
    (hv : ∀ v ∈ vs, literalKind v = k ∧ ReadsBack L o source v ∧ ',' ∉ generateValue L o v ∧ generateValue L o v ≠ [])
    (hw : ∀ v ∈ ws, literalKind v = k ∧ ReadsBack L o source v ∧ ',' ∉ generateValue L o v ∧ generateValue L o v ≠ [])
    (hk : k ≠ "list") (h : generateValue L o (.list vs) = generateValue L o (.list ws)) : vs = ws := by
  have h1 : joinWith [',', ' '] (generateValues L o vs) = joinWith [',', ' '] (generateValues L o ws) := by
    have h' : '[' :: (joinWith [',', ' '] (generateValues L o vs) ++ [']']) =
      '[' :: (joinWith [',', ' '] (generateValues L o ws) ++ [']']) := h
    injection h' with _ h'
    exact List.append_cancel_right h'
  rw [generateValues_map, generateValues_map] at h1
  have h2 := joined_inj _ _ (fun x hx => by
    obtain ⟨v, hv', rfl⟩ := List.mem_map.1 hx; exact (hv v hv').2.2) (fun x hx => by
    obtain ⟨v, hv', rfl⟩ := List.mem_map.1 hx; exact (hw v hv').2.2) h1
  clear h h1
  induction vs generalizing ws with
  | nil => cases ws with
    | nil => rfl
    | cons w ws => cases h2
  | cons v vs ih =>
    cases ws with
    | nil => cases h2
    | cons w ws =>
      have h2' : generateValue L o v :: vs.map (generateValue L o) = generateValue L o w :: ws.map (generateValue L o) := h2
      injection h2' with h3 h4
      have a := hv v (by simp)
      have b := hw w (by simp)
      rw [C174_values_partial L o source v w (a.1.trans b.1.symm)
        (by rintro items rfl; exact hk (a.1.symm)) a.2.1 b.2.1 h3,
        ih ws (fun x hx => hv x (by simp [hx])) (fun x hx => hw x (by simp [hx])) h4]

/-! ## Lists of enums and paths -/

/-- What is written of a list of literals with the opening `m`, without the opening of the first; `b` and `bs` follow the
openings. -/
def afterOpening (m b : Str) : List Str → Str
  | [] => b ++ [']']
  | c :: bs => b ++ ',' :: ' ' :: (m ++ afterOpening m c bs)

theorem afterOpening_inj {m : Str} (hm : ',' ∉ m ∧ ']' ∉ m) : ∀ (bs cs : List Str) (b c : Str),
    (∀ x ∈ b :: bs, ¬ Occurs m x) → (∀ x ∈ c :: cs, ¬ Occurs m x) → afterOpening m b bs = afterOpening m c cs →
    b = c ∧ bs = cs := by
  -- an opening without commas that begins where a separator is expected later lies before it
  have pre : ∀ (m a r t : Str) (d : Char), d ∉ m → m ++ r = a ++ d :: t → ∃ k, a = m ++ k := by
    intro m
    induction m with
    | nil => intro a _ _ _ _ _; exact ⟨a, rfl⟩
    | cons x m ih =>
      intro a r t d hd h
      cases a with
      | nil => injection h with h _; exact absurd (by simp [h]) hd
      | cons y a =>
        injection h with h1 h2
        obtain ⟨k, hk⟩ := ih a r t d (fun h => hd (by simp [h])) h2
        exact ⟨k, by rw [h1, hk]; rfl⟩
  -- a longer part before the separator would hold an opening
  have long : ∀ (b c n r t : Str) (d : Char), d ∉ m → d ≠ ',' → d ≠ ' ' → c = b ++ n → n ≠ [] → ¬ Occurs m c →
      ',' :: ' ' :: (m ++ r) = n ++ d :: t → False := by
    intro b c n r t d hd h1 h2 hc hn ho h
    cases n with
    | nil => exact hn rfl
    | cons x n =>
      injection h with hx h
      cases n with
      | nil => injection h with h _; exact h2 h.symm
      | cons y n =>
        injection h with hy h
        obtain ⟨k, hk⟩ := pre m n r t d hd h
        exact ho ⟨b ++ [x, y], k, by rw [hc, hk]; simp⟩
  have longc : ∀ (b c n r t : Str), c = b ++ n → n ≠ [] → ¬ Occurs m c →
      ',' :: ' ' :: (m ++ r) = n ++ ',' :: t → False := by
    intro b c n r t hc hn ho h
    cases n with
    | nil => exact hn rfl
    | cons x n =>
      injection h with hx h
      cases n with
      | nil => injection h with h _; exact absurd h (by decide)
      | cons y n =>
        injection h with hy h
        obtain ⟨k, hk⟩ := pre m n r t ',' hm.1 h
        exact ho ⟨b ++ [x, y], k, by rw [hc, hk]; simp⟩
  -- a list that ends here and one that goes on
  have ends : ∀ (b c r : Str), ¬ Occurs m b → b ++ [']'] = c ++ ',' :: ' ' :: (m ++ r) → False := by
    intro b c r ho h
    rcases List.append_eq_append_iff.1 h with ⟨n, h1, h2⟩ | ⟨n, h1, h2⟩
    · have := congrArg List.length h2
      simp at this
      omega
    · cases n with
      | nil => injection h2 with h2 _; exact absurd h2 (by decide)
      | cons x n => exact long c b (x :: n) r [] ']' hm.2 (by decide) (by decide) h1 (by simp) ho h2
  intro bs
  induction bs with
  | nil =>
    intro cs b c hb hc h
    cases cs with
    | nil => exact ⟨List.append_cancel_right h, rfl⟩
    | cons c' cs => exact (ends b c _ (hb b (by simp)) h).elim
  | cons b' bs ih =>
    intro cs b c hb hc h
    cases cs with
    | nil => exact (ends c b _ (hc c (by simp)) h.symm).elim
    | cons c' cs =>
      have h' : b ++ ',' :: ' ' :: (m ++ afterOpening m b' bs) = c ++ ',' :: ' ' :: (m ++ afterOpening m c' cs) := h
      have hbc : b = c := by
        rcases List.append_eq_append_iff.1 h' with ⟨n, h1, h2⟩ | ⟨n, h1, h2⟩
        · by_cases hn : n = []
          · rw [h1, hn, List.append_nil]
          · exact (longc b c n _ _ h1 hn (hc c (by simp)) h2).elim
        · by_cases hn : n = []
          · rw [h1, hn, List.append_nil]
          · exact (longc c b n _ _ h1 hn (hb b (by simp)) h2).elim
      rw [hbc] at h'
      have h2 := List.append_cancel_left h'
      injection h2 with _ h2
      injection h2 with _ h2
      obtain ⟨h3, h4⟩ := ih cs b' c' (fun x hx => hb x (by simp [List.mem_cons.1 hx])) (fun x hx => hc x (by
        simp [List.mem_cons.1 hx])) (List.append_cancel_left h2)
      exact ⟨hbc, by rw [h3, h4]⟩

theorem marked_written (L : Lang) (o : GeneratorOptions) (m : Str) (mk : Str → FieldValue)
    (hk : ∀ s, generateValue L o (mk s) = m ++ (s ++ ['"'])) (s : Str) (xs : List Str) :
    generateValue L o (.list ((s :: xs).map mk)) = '[' :: (m ++ afterOpening m (s ++ ['"']) (xs.map (· ++ ['"']))) := by
  have rest : ∀ (xs : List Str) (s : Str), joinWith [',', ' '] (generateValues L o ((s :: xs).map mk)) ++ [']'] =
      m ++ afterOpening m (s ++ ['"']) (xs.map (· ++ ['"'])) := by
    intro xs
    induction xs with
    | nil =>
      intro s
      show generateValue L o (mk s) ++ [']'] = _
      rw [hk]; simp [afterOpening]
    | cons x xs ih =>
      intro s
      show (generateValue L o (mk s) ++ [',', ' '] ++ joinWith [',', ' '] (generateValues L o ((x :: xs).map mk))) ++ [']'] = _
      rw [List.append_assoc, ih x, hk]
      simp [afterOpening]
  show '[' :: joinWith [',', ' '] (generateValues L o ((s :: xs).map mk)) ++ [']'] = _
  rw [List.cons_append, rest xs s]

theorem marked_inj (L : Lang) (o : GeneratorOptions) {m : Str} (hm : ',' ∉ m ∧ ']' ∉ m) (hne : m ≠ []) (mk : Str → FieldValue)
    (hk : ∀ s, generateValue L o (mk s) = m ++ (s ++ ['"'])) (xs ys : List Str) (hx : ∀ x ∈ xs, ¬ Occurs m (x ++ ['"']))
    (hy : ∀ y ∈ ys, ¬ Occurs m (y ++ ['"']))
    (h : generateValue L o (.list (xs.map mk)) = generateValue L o (.list (ys.map mk))) : xs = ys := by
  have empty : generateValue L o (.list (([] : List Str).map mk)) = ['[', ']'] := rfl
  have inj : ∀ a b : List Str, a.map (· ++ ['"']) = b.map (· ++ ['"']) → a = b :=
    fun a b e => List.map_injective_iff.2 (fun _ _ e => List.append_cancel_right e) e
  have differ : ∀ t : Str, ['[', ']'] ≠ '[' :: (m ++ t) := by
    intro t e
    injection e with _ e
    cases hmm : m with
    | nil => exact hne hmm
    | cons c r => rw [hmm] at e; injection e with e _; exact hm.2 (by rw [hmm, ← e]; simp)
  cases xs with
  | nil =>
    cases ys with
    | nil => rfl
    | cons y ys => rw [empty, marked_written L o m mk hk] at h; exact absurd h (differ _)
  | cons x xs =>
    rw [marked_written L o m mk hk] at h
    cases ys with
    | nil => rw [empty] at h; exact absurd h.symm (differ _)
    | cons y ys =>
      rw [marked_written L o m mk hk] at h
      injection h with _ h
      obtain ⟨h1, h2⟩ := afterOpening_inj hm _ _ _ _ (fun z hz => by
        rcases List.mem_cons.1 hz with rfl | hz
        · exact hx x (by simp)
        · obtain ⟨w, hw, rfl⟩ := List.mem_map.1 hz; exact hx w (by simp [hw])) (fun z hz => by
        rcases List.mem_cons.1 hz with rfl | hz
        · exact hy y (by simp)
        · obtain ⟨w, hw, rfl⟩ := List.mem_map.1 hz; exact hy w (by simp [hw])) (List.append_cancel_left h)
      rw [List.append_cancel_right h1, inj _ _ h2]

/-- Two lists of enums that read back are the same when they are written the same, whatever quotes and commas the enums have. -/
theorem C177_enums (L : Lang) (o : GeneratorOptions) (source : Str) (xs ys : List Str)
    (hx : ∀ x ∈ xs, ReadsBack L o source (.enum x)) (hy : ∀ y ∈ ys, ReadsBack L o source (.enum y))
    (h : generateValue L o (.list (xs.map .enum)) = generateValue L o (.list (ys.map .enum))) : xs = ys :=
  marked_inj L o (m := "enum\"".toList) (by decide) (by decide) .enum
    (fun s => by simp only [generateValue, List.append_assoc]) xs ys
    (fun x h => (C69_exact_partial.1 (hx x h)).1) (fun y h => (C69_exact_partial.1 (hy y h)).1) h

/-- The same for lists of paths in which the opening of a path literal does not occur again. Missing for the full claim:
paths with `path"` in them that read back, which takes a directory of that name. -/
theorem C177_paths_partial (L : Lang) (o : GeneratorOptions) (xs ys : List Str)
    (hx : ∀ x ∈ xs, ¬ Occurs "path\"".toList (x ++ ['"'])) (hy : ∀ y ∈ ys, ¬ Occurs "path\"".toList (y ++ ['"']))
    (h : generateValue L o (.list (xs.map .path)) = generateValue L o (.list (ys.map .path))) : xs = ys :=
  marked_inj L o (m := "path\"".toList) (by decide) (by decide) .path
    (fun s => by simp only [generateValue, List.append_assoc]) xs ys hx hy h

/-- Reading back is needed: a list with one enum more is written the same as a list in which it is hidden in the enum
before. -/
theorem C177_hidden (L : Lang) (o : GeneratorOptions) (vs ws : List FieldValue) (a b : Str) :
    generateValue L o (.list (vs ++ .enum (a ++ "\", enum\"".toList ++ b) :: ws)) =
      generateValue L o (.list (vs ++ .enum a :: .enum b :: ws)) := by
  have key : ∀ vs : List FieldValue,
      joinWith [',', ' '] (generateValues L o (vs ++ .enum (a ++ "\", enum\"".toList ++ b) :: ws)) =
      joinWith [',', ' '] (generateValues L o (vs ++ .enum a :: .enum b :: ws)) := by
    intro vs
    rw [generateValues_map, generateValues_map]
    induction vs with
    | nil =>
      cases ws with
      | nil => simp [joinWith, generateValue]
      | cons w ws => simp [joinWith, generateValue]
    | cons v vs ih =>
      cases vs with
      | nil => simpa [joinWith] using ih
      | cons v' vs => simpa [joinWith] using ih
  show '[' :: joinWith [',', ' '] _ ++ [']'] = '[' :: joinWith [',', ' '] _ ++ [']']
  rw [key]

/-! ## Lists of plain items -/

theorem dateTime_no_comma (d : DateTime) : ',' ∉ generateDateTime d := by
  have hm := civilOf_month ((d.secs + d.offset) / 86400)
  have hb := civilOf_day ((d.secs + d.offset) / 86400)
  have hdm := daysInMonth_le (civilOf ((d.secs + d.offset) / 86400)).year (civilOf ((d.secs + d.offset) / 86400)).month
  have hd : ',' ∉ (civilOf ((d.secs + d.offset) / 86400)).show := fun h => by
    rcases mem_civil_show (by omega) (by omega) h with h | h | h
    · exact absurd h (by decide)
    · exact absurd h (by decide)
    · revert h; decide
  have ht : ',' ∉ showTime ((d.secs + d.offset) % 86400 / 60).toNat := fun h => by
    rcases mem_showTime (by omega) h with h | h
    · exact absurd h (by decide)
    · revert h; decide
  have hi := showInt_not_mem (c := ',') (by decide) (by decide) (offsetHours d.offset)
  unfold generateDateTime
  dsimp only
  intro h
  simp only [List.mem_append, List.mem_cons] at h
  rcases h with (h | h) | h
  · exact absurd h (by
      intro h
      rcases h with h | h
      · exact hd h
      · revert h; decide)
  · exact ht h
  · rcases h with h | h
    · exact absurd h (by decide)
    · split at h
      · revert h; decide
      · split at h
        · rcases List.mem_append.1 h with h | h
          · revert h; decide
          · exact hi h
        · rcases List.mem_append.1 h with h | h
          · revert h; decide
          · exact hi h

/-- What is written for a plain item that is no text, enum or path has no comma and is not empty. -/
theorem plain_no_comma (L : Lang) (o : GeneratorOptions) (source : Str) (v : FieldValue) (h : PlainItem L o source v) (h1 : literalKind v ≠ "string")
    (h2 : literalKind v ≠ "enum") (h3 : literalKind v ≠ "path") :
    ReadsBack L o source v ∧ ',' ∉ generateValue L o v ∧ generateValue L o v ≠ [] := by
  refine ⟨by cases v <;> first | exact h | exact h.1 | exact h.elim | exact absurd rfl h1 | exact absurd rfl h3, ?_⟩
  cases v with
  | boolean b =>
    cases b
    · show ',' ∉ "false".toList ∧ "false".toList ≠ []
      decide
    · show ',' ∉ "true".toList ∧ "true".toList ≠ []
      decide
  | string s => exact absurd rfl h1
  | integer n =>
    refine ⟨showInt_not_mem (by decide) (by decide) n, fun e => ?_⟩
    change showInt n = [] at e
    unfold showInt at e
    split at e
    · cases e
    · exact showNat_ne_nil _ e
  | float f =>
    refine ⟨h.2, fun e => ?_⟩
    change generateFloat L f = [] at e
    unfold generateFloat at e
    dsimp only at e
    split at e
    · rename_i hd; rw [e] at hd; exact absurd hd (by decide)
    · simp at e
  | currency a c =>
    show ',' ∉ a.show ++ ' ' :: c ∧ a.show ++ ' ' :: c ≠ []
    refine ⟨fun hc => ?_, by simp⟩
    rcases List.mem_append.1 hc with hc | hc
    · exact show_not_mem (by decide) (by decide) (by decide) a hc
    · rcases List.mem_cons.1 hc with hc | hc
      · exact absurd hc (by decide)
      · exact h.2 hc
  | reference r => exact h.2
  | list items => exact h.elim
  | dateTime d =>
    refine ⟨dateTime_no_comma d, fun e => ?_⟩
    have := (dateTime_line d).2
    change generateDateTime d = [] at e
    rw [e] at this
    cases this
  | path p => exact absurd rfl h3
  | enum s => exact absurd rfl h2

/-- The text in a text, an enum or a path. -/
def innerText : FieldValue → Str
  | .string s | .enum s | .path s => s
  | _ => []

theorem map_innerText (mk : Str → FieldValue) (vs : List FieldValue) (h : ∀ v ∈ vs, mk (innerText v) = v) :
    (vs.map innerText).map mk = vs := by
  rw [List.map_map]
  exact (List.map_congr_left h).trans (List.map_id vs)

/-- Two lists of plain items of one kind that are written the same are the same. Missing for the full claim: lists of lists,
texts with line breaks, paths with a second opening of a path literal, and numbers and currencies with commas. -/
theorem C177_lists_partial (L : Lang) (o : GeneratorOptions) (source : Str) (k : String) (vs ws : List FieldValue)
    (hv : PlainList L o source k vs) (hw : PlainList L o source k ws)
    (h : generateValue L o (.list vs) = generateValue L o (.list ws)) : vs = ws := by
  by_cases k1 : k = "string"
  · have one : ∀ us, PlainList L o source k us → ∀ v ∈ us, FieldValue.string (innerText v) = v ∧ '\n' ∉ innerText v := by
      intro us hu v hm
      obtain ⟨a, b⟩ := hu v hm
      rw [k1] at a
      cases v <;> first | exact ⟨rfl, b⟩ | exact absurd a (by simp [literalKind])
    have ev := map_innerText .string vs fun v hm => (one vs hv v hm).1
    have ew := map_innerText .string ws fun v hm => (one ws hw v hm).1
    rw [← ev, ← ew] at h ⊢
    rw [C177_texts L o _ _ (fun x hx => by obtain ⟨v, hm, rfl⟩ := List.mem_map.1 hx; exact (one vs hv v hm).2)
      (fun x hx => by obtain ⟨v, hm, rfl⟩ := List.mem_map.1 hx; exact (one ws hw v hm).2) h]
  by_cases k2 : k = "enum"
  · have one : ∀ us, PlainList L o source k us → ∀ v ∈ us,
        FieldValue.enum (innerText v) = v ∧ ReadsBack L o source (.enum (innerText v)) := by
      intro us hu v hm
      obtain ⟨a, b⟩ := hu v hm
      rw [k2] at a
      cases v <;> first | exact ⟨rfl, b⟩ | exact absurd a (by simp [literalKind])
    have ev := map_innerText .enum vs fun v hm => (one vs hv v hm).1
    have ew := map_innerText .enum ws fun v hm => (one ws hw v hm).1
    rw [← ev, ← ew] at h ⊢
    rw [C177_enums L o source _ _ (fun x hx => by obtain ⟨v, hm, rfl⟩ := List.mem_map.1 hx; exact (one vs hv v hm).2)
      (fun x hx => by obtain ⟨v, hm, rfl⟩ := List.mem_map.1 hx; exact (one ws hw v hm).2) h]
  by_cases k3 : k = "path"
  · have one : ∀ us, PlainList L o source k us → ∀ v ∈ us,
        FieldValue.path (innerText v) = v ∧ ¬ Occurs "path\"".toList (innerText v ++ ['"']) := by
      intro us hu v hm
      obtain ⟨a, b⟩ := hu v hm
      rw [k3] at a
      cases v <;> first | exact ⟨rfl, b⟩ | exact absurd a (by simp [literalKind])
    have ev := map_innerText .path vs fun v hm => (one vs hv v hm).1
    have ew := map_innerText .path ws fun v hm => (one ws hw v hm).1
    rw [← ev, ← ew] at h ⊢
    rw [C177_paths_partial L o _ _ (fun x hx => by obtain ⟨v, hm, rfl⟩ := List.mem_map.1 hx; exact (one vs hv v hm).2)
      (fun x hx => by obtain ⟨v, hm, rfl⟩ := List.mem_map.1 hx; exact (one ws hw v hm).2) h]
  have plain : ∀ us, PlainList L o source k us → ∀ v ∈ us,
      literalKind v = k ∧ ReadsBack L o source v ∧ ',' ∉ generateValue L o v ∧ generateValue L o v ≠ [] := by
    intro us hu v hm
    obtain ⟨a, c⟩ := hu v hm
    exact ⟨a, plain_no_comma L o source v c (a ▸ k1) (a ▸ k2) (a ▸ k3)⟩
  by_cases k4 : k = "list"
  · have none : ∀ us, PlainList L o source k us → us = [] := by
      intro us hu
      cases us with
      | nil => rfl
      | cons v us =>
        obtain ⟨a, c⟩ := hu v (by simp)
        rw [k4] at a
        cases v <;> first | exact c.elim | exact absurd a (by simp [literalKind])
    rw [none vs hv, none ws hw]
  · exact C177_items_partial L o source k vs ws (plain vs hv) (plain ws hw) k4 h

/-- Two files of framed entities as they are read from files, with values that read back and lists of plain items, hold the
same entities when they have the same text and agree on the kinds of the fields and of the items of their lists. This is
`C174_same_partial` with lists. -/
theorem C177_same_partial (L : Lang) (ht : RegularCase L.cases) (o : GeneratorOptions) (hi : o.indentStyle.indentString 1 ≠ [])
    (source : Str) (es es' : List Entity)
    (h : ∀ e ∈ es, FramedEntity L e ∧ Filed L e) (h' : ∀ e ∈ es', FramedEntity L e ∧ Filed L e)
    (hr : ∀ e ∈ es ++ es', ∀ p ∈ e.fields, (∀ items, p.2 ≠ .list items) → ReadsBack L o source p.2)
    (hk : ∀ e ∈ es, ∀ e' ∈ es', e.entityType = e'.entityType → ∀ p ∈ e.fields, ∀ q ∈ e'.fields, p.1 = q.1 →
      literalKind p.2 = literalKind q.2 ∧ ∀ vs ws, p.2 = .list vs → q.2 = .list ws →
        ∃ k, PlainList L o source k vs ∧ PlainList L o source k ws)
    (heq : generateDsl L o es = generateDsl L o es') : es = es' := by
  have hF := C174_apart_partial L ht o hi es es' (fun e he => (h e he).1) (fun e he => (h' e he).1) heq
  clear heq
  induction hF with
  | nil => rfl
  | @cons e e' es es' ha _ ih =>
    have htl := ih (fun x hx => h x (by simp [hx])) (fun x hx => h' x (by simp [hx]))
      (fun x hx => hr x (by rcases List.mem_append.1 hx with hx | hx <;> simp [hx]))
      (fun x hx y hy => hk x (by simp [hx]) y (by simp [hy]))
    have f1 := (h e (by simp)).2
    have f2 := (h' e' (by simp)).2
    have hty : e.entityType = e'.entityType := by rw [← f1.small, ← f2.small]; exact ha.type
    obtain ⟨n, hn⟩ := f1.id
    obtain ⟨m, hm⟩ := f2.id
    have hname := ha.name
    rw [hn, hm] at hname
    unfold decomposeEntityId at hname
    rw [splitOnceDot_append f1.dot, splitOnceDot_append f2.dot] at hname
    change n = m at hname
    have hid : e.id = e'.id := by rw [hn, hm, hty, hname]
    have hfs : e.fields = e'.fields := by
      have hkf := hk e (by simp) e' (by simp) hty
      have h1 := hr e (by simp)
      have h2 := hr e' (by simp)
      have := ha.fields
      clear ha ih htl hk hr h h'
      generalize e.fields = fs at *
      generalize e'.fields = gs at *
      induction this with
      | nil => rfl
      | @cons p q fs gs hpq _ ih =>
        obtain ⟨hkind, hlist⟩ := hkf p (by simp) q (by simp) hpq.1
        have hpv : p.2 = q.2 := by
          by_cases hl : ∃ vs, p.2 = .list vs
          · obtain ⟨vs, hvs⟩ := hl
            obtain ⟨ws, hws⟩ : ∃ ws, q.2 = .list ws := by
              rw [hvs] at hkind
              cases hq : q.2 <;> first | exact ⟨_, rfl⟩ | (rw [hq] at hkind; exact absurd hkind (by simp [literalKind]))
            obtain ⟨k, hpl, hql⟩ := hlist vs ws hvs hws
            have e1 := hpq.2
            rw [hvs, hws] at e1 ⊢
            rw [C177_lists_partial L o source k vs ws hpl hql e1]
          · refine C174_values_partial L o source p.2 q.2 hkind (fun items e => hl ⟨items, e⟩)
              (h1 p (by simp) fun items e => hl ⟨items, e⟩) (h2 q (by simp) fun items e => ?_) hpq.2
            rw [e] at hkind
            cases hp : p.2 <;> first | exact hl ⟨_, hp⟩ | (rw [hp] at hkind; exact absurd hkind (by simp [literalKind]))
        rw [ih (fun a ha => h1 a (by simp [ha])) (fun a ha => h2 a (by simp [ha]))
          (fun a ha b hb => hkf a (by simp [ha]) b (by simp [hb]))]
        rw [show p = q from Prod.ext hpq.1 hpv]
    have : e = e' := by
      cases e; cases e'
      dsimp only at hid hty hfs
      rw [hid, hty, hfs]
    rw [this, htl]

/-! ## The hypotheses are met -/

/- Texts with quotes, commas and backslashes at their ends. -/
example : (∀ x ∈ ["a\\".toList, ", ".toList, "\", \"".toList], '\n' ∉ x) ∧
    generateValue exLang .default (.list (["a\\".toList, ", ".toList].map .string)) ≠
      generateValue exLang .default (.list (["a\", \", ".toList].map .string)) :=
  ⟨by decide, fun h => absurd (C177_texts _ _ _ _ (by decide) (by decide) h) (by decide)⟩

/- Numbers. -/
example : ∀ v ∈ [FieldValue.integer 1, .integer (-20)], literalKind v = "number" ∧ ReadsBack exLang .default [] v ∧
    ',' ∉ generateValue exLang .default v ∧ generateValue exLang .default v ≠ [] := by
  intro v hv
  simp only [List.mem_cons, List.not_mem_nil, or_false] at hv
  rcases hv with rfl | rfl
  · exact ⟨rfl, ⟨.integer 1, rfl, rfl⟩, by decide +kernel, by decide +kernel⟩
  · exact ⟨rfl, ⟨.integer (-20), rfl, rfl⟩, by decide +kernel, by decide +kernel⟩

/- Enums with quotes and commas that read back. -/
example : ∀ x ∈ ["a\", \"b".toList, "c, d".toList], ReadsBack exLang .default [] (.enum x) := by
  intro x hx
  simp only [List.mem_cons, List.not_mem_nil, or_false] at hx
  rcases hx with rfl | rfl <;> exact ⟨.enum _, rfl, by decide⟩

/- A path with quotes and a comma. -/
example : ¬ Occurs "path\"".toList ("./a\", b".toList ++ ['"']) := by
  rintro ⟨p, q, h⟩
  have h1 : 'h' ∈ "./a\", b".toList ++ ['"'] := by rw [h]; simp
  exact absurd h1 (by decide)

/-- A person with a list of texts and a list of numbers. -/
def exLists : Entity :=
  ⟨"person.carol".toList, "person".toList,
    [("tags".toList, .list [.string "a, b".toList, .string "\"".toList]), ("years".toList, .list [.integer 1, .integer (-20)])]⟩

/- Entities with lists that meet the hypotheses of `C177_same_partial`. -/
example : FramedEntity exLang exLists ∧ Filed exLang exLists ∧
    (∀ p ∈ exLists.fields, (∀ items, p.2 ≠ .list items) → ReadsBack exLang .default [] p.2) ∧
    PlainList exLang .default [] "string" [.string "a, b".toList, .string "\"".toList] ∧
    PlainList exLang .default [] "number" [.integer 1, .integer (-20)] := by
  refine ⟨⟨by decide, by decide, ?_⟩, ⟨by decide, by decide, "carol".toList, rfl⟩, ?_, ?_, ?_⟩
  · intro p hp
    rcases List.mem_cons.1 hp with hp | hp
    · rw [hp]
      refine ⟨by decide, .line (.list fun v hv => ?_)⟩
      rcases List.mem_cons.1 hv with hv | hv
      · rw [hv]; exact .string (by decide)
      · rw [List.mem_singleton.1 hv]; exact .string (by decide)
    · rw [List.mem_singleton.1 hp]
      refine ⟨by decide, .line (.list fun v hv => ?_)⟩
      rcases List.mem_cons.1 hv with hv | hv
      · rw [hv]; exact .integer _
      · rw [List.mem_singleton.1 hv]; exact .integer _
  · intro p hp h
    rcases List.mem_cons.1 hp with hp | hp
    · rw [hp] at h; exact absurd rfl (h _)
    · rw [List.mem_singleton.1 hp] at h; exact absurd rfl (h _)
  · intro v hv
    rcases List.mem_cons.1 hv with hv | hv
    · rw [hv]; exact ⟨rfl, by show '\n' ∉ "a, b".toList; decide⟩
    · rw [List.mem_singleton.1 hv]; exact ⟨rfl, by show '\n' ∉ "\"".toList; decide⟩
  · intro v hv
    rcases List.mem_cons.1 hv with hv | hv
    · rw [hv]; exact ⟨rfl, ⟨.integer 1, rfl, rfl⟩⟩
    · rw [List.mem_singleton.1 hv]; exact ⟨rfl, ⟨.integer (-20), rfl, rfl⟩⟩

end Firm
