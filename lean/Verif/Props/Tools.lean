import Verif.Props.Mcp

/-! # Properties of the MCP tools: replacing, searching, adding, listing (C60–C63) -/

namespace Firm

open Spec

/-! ## C60: replacing text -/

/-- `Cut old s ps`: cutting `s` at the occurrences of `old`, each time at the first one, leaves the
pieces `ps`. -/
inductive Spec.Cut (old : Str) : Str → List Str → Prop
  | last {s : Str} : ¬ Occurs old s → Cut old s [s]
  | next {a b : Str} {ps : List Str} : (∀ a' b', a ++ old ++ b = a' ++ old ++ b' → a.length ≤ a'.length) →
      Cut old b ps → Cut old (a ++ old ++ b) (a :: ps)

theorem joinWith_push (sep : Str) (c : Char) (p : Str) (ps : List Str) :
    joinWith sep ((c :: p) :: ps) = c :: joinWith sep (p :: ps) := by
  cases ps <;> rfl

theorem cut_ne_nil {old s : Str} {ps : List Str} (h : Cut old s ps) : ps ≠ [] := by cases h <;> simp

/-- The pieces put together again. -/
theorem cut_join {old s : Str} {ps : List Str} (h : Cut old s ps) : s = joinWith old ps := by
  induction h with
  | last h => rfl
  | next h hc ih => rw [joinWith_cons (cut_ne_nil hc), ← ih]

theorem splitStr_prefix {old : Str} (h : old ≠ []) (b : Str) : splitStr old (old ++ b) = [] :: splitStr old b := by
  cases old with
  | nil => exact absurd rfl h
  | cons c r =>
    unfold splitStr
    rw [List.cons_append, splitStrGo, if_pos ((startsWith_iff _ _).2 ⟨b, by rw [List.cons_append]⟩), List.length_cons, Nat.add_sub_cancel,
      splitStrGo_skip]

theorem splitStr_cons {old : Str} {c : Char} {s p : Str} {ps : List Str} (h : startsWith (c :: s) old = false)
    (hs : splitStr old s = p :: ps) : splitStr old (c :: s) = (c :: p) :: ps := by
  unfold splitStr at hs ⊢
  rw [splitStrGo, if_neg (by rw [h]; decide), hs]

/-- Splitting a text cuts it at the first occurrences. -/
theorem splitStr_cut {old : Str} (ho : old ≠ []) (s : Str) : Cut old s (splitStr old s) := by
  induction hn : s.length using Nat.strong_induction_on generalizing s with
  | _ n ih =>
    cases s with
    | nil =>
      exact .last fun ⟨a, b, h⟩ => ho (by
        have := congrArg List.length h
        simp at this
        exact List.length_eq_zero_iff.1 (by omega))
    | cons c s =>
      cases hp : startsWith (c :: s) old with
      | true =>
        obtain ⟨b, hb⟩ := (startsWith_iff _ _).1 hp
        rw [hb, splitStr_prefix ho]
        have hl : b.length < n := by
          have := congrArg List.length hb
          simp only [List.length_append] at this
          have h0 : 0 < old.length := List.length_pos_iff.2 ho
          omega
        exact .next (a := []) (fun a' b' _ => Nat.zero_le _) (ih _ hl b rfl)
      | false =>
        have ihs := ih s.length (by rw [← hn]; simp) s rfl
        have hno : ∀ b, c :: s ≠ old ++ b := by
          intro b hb
          rw [(startsWith_iff _ _).2 ⟨b, hb⟩] at hp
          cases hp
        generalize hq : splitStr old s = q at ihs
        cases ihs with
        | last h =>
          rw [splitStr_cons hp hq]
          refine .last ?_
          rintro ⟨a, b, hab⟩
          cases a with
          | nil => exact hno b hab
          | cons d a =>
            rw [List.cons_append, List.cons_append] at hab
            injection hab with _ hab
            exact h ⟨a, b, hab⟩
        | @next a b ps hmin hc =>
          rw [splitStr_cons hp hq]
          have : c :: (a ++ old ++ b) = (c :: a) ++ old ++ b := rfl
          rw [this]
          refine .next ?_ hc
          intro a' b' hab
          cases a' with
          | nil => exact absurd hab (hno b')
          | cons d a' =>
            simp only [List.cons_append] at hab
            injection hab with _ hab
            have := hmin a' b' hab
            simpa using this

theorem cut_unique {old s : Str} {ps qs : List Str} (h : Cut old s ps) (h' : Cut old s qs) :
    ps = qs := by
  induction h generalizing qs with
  | last h =>
    cases h' with
    | last h' => rfl
    | next _ _ => exact absurd ⟨_, _, rfl⟩ h
  | @next a b ps hm hc ih =>
    generalize hs : a ++ old ++ b = s at h'
    cases h' with
    | last h' => exact absurd ⟨a, b, hs.symm⟩ h'
    | @next a' b' qs hm' hc' =>
      have h1 := hm a' b' hs
      have h2 := hm' a b hs.symm
      rw [List.append_assoc, List.append_assoc] at hs
      obtain ⟨e1, e2⟩ := List.append_inj hs (by omega)
      subst e1
      have e3 := List.append_cancel_left e2
      subst e3
      rw [ih hc']

theorem strReplace_eq {old : Str} (ho : old ≠ []) (new s : Str) :
    strReplace old new s = joinWith new (splitStr old s) := by
  induction hn : s.length using Nat.strong_induction_on generalizing s with
  | _ n ih =>
    cases s with
    | nil => rfl
    | cons c s =>
      cases hp : startsWith (c :: s) old with
      | true =>
        obtain ⟨b, hb⟩ := (startsWith_iff _ _).1 hp
        have hl : b.length < n := by
          have := congrArg List.length hb
          simp only [List.length_append] at this
          have h0 : 0 < old.length := List.length_pos_iff.2 ho
          omega
        rw [hb, splitStr_prefix ho, joinWith_cons (cut_ne_nil (splitStr_cut ho b)), ← ih _ hl b rfl]
        cases old with
        | nil => exact absurd rfl ho
        | cons d r =>
          unfold strReplace
          rw [List.cons_append, replaceGo, if_pos ((startsWith_iff _ _).2 ⟨b, by rw [List.cons_append]⟩), List.length_cons, Nat.add_sub_cancel,
            replaceGo_skip]
          rfl
      | false =>
        have ihs := ih s.length (by rw [← hn]; simp) s rfl
        cases hq : splitStr old s with
        | nil => exact absurd hq (cut_ne_nil (splitStr_cut ho s))
        | cons p ps =>
          rw [splitStr_cons hp hq, joinWith_push, ← hq, ← ihs]
          unfold strReplace
          rw [replaceGo, if_neg (by rw [hp]; decide)]

theorem replaceFirst_eq {old : Str} (ho : old ≠ []) (new : Str) {s p q : Str} {ps : List Str}
    (h : splitStr old s = p :: q :: ps) : replaceFirst old new s = p ++ new ++ joinWith old (q :: ps) := by
  induction s generalizing p with
  | nil => cases h
  | cons c s ih =>
    cases hp : startsWith (c :: s) old with
    | true =>
      obtain ⟨b, hb⟩ := (startsWith_iff _ _).1 hp
      rw [hb, splitStr_prefix ho] at h
      injection h with h1 h2
      subst h1
      rw [← h2, ← cut_join (splitStr_cut ho b), replaceFirst, if_pos hp, hb, List.drop_left]
      rfl
    | false =>
      cases hq : splitStr old s with
      | nil => exact absurd hq (cut_ne_nil (splitStr_cut ho s))
      | cons p' ps' =>
        rw [splitStr_cons hp hq] at h
        injection h with h1 h2
        subst h1
        rw [replaceFirst, if_neg (by rw [hp]; decide),
          ih (hq.trans (by rw [h2]))]
        rfl

/-- C60: what `replace_source` computes. The text is cut at the occurrences of `old`, found from the
left; the number reported is the number of cuts, and the new text has `new` at the cuts. -/
theorem C60_replaces (content old new r : Str) (all : Bool) (k : Nat) :
    replaceText content old new all = some (r, k) ↔
      old ≠ [] ∧ ∃ ps, Cut old content ps ∧ ps.length = k + 1 ∧ 1 ≤ k ∧ (k = 1 ∨ all = true) ∧ r = joinWith new ps := by
  unfold replaceText matchCount
  by_cases ho : old = []
  · rw [if_pos ho]; simp [ho]
  rw [if_neg ho]
  have hc := splitStr_cut ho content
  have hu := fun ps (h : Cut old content ps) => cut_unique h hc
  have key : (∃ ps, Cut old content ps ∧ ps.length = k + 1 ∧ 1 ≤ k ∧ (k = 1 ∨ all = true) ∧ r = joinWith new ps) ↔
      (splitStr old content).length = k + 1 ∧ 1 ≤ k ∧ (k = 1 ∨ all = true) ∧ r = joinWith new (splitStr old content) := by
    constructor
    · rintro ⟨ps, h, h2⟩; rw [hu ps h] at h2; exact h2
    · exact fun h => ⟨_, hc, h⟩
  rw [key]
  have hne := List.length_pos_iff.2 (cut_ne_nil hc)
  by_cases h0 : (splitStr old content).length - 1 = 0
  · rw [if_pos h0]
    constructor
    · intro h; cases h
    · rintro ⟨_, h1, h2, _⟩; omega
  rw [if_neg h0]
  by_cases h1 : (splitStr old content).length - 1 > 1 ∧ all = false
  · rw [if_pos h1]
    constructor
    · intro h; cases h
    · rintro ⟨_, e1, e2, e3, _⟩
      rcases e3 with e3 | e3
      · omega
      · rw [e3] at h1; cases h1.2
  rw [if_neg h1]
  cases all with
  | true =>
    rw [if_pos rfl, strReplace_eq ho]
    constructor
    · intro h; cases h; exact ⟨ho, by omega, by omega, .inr rfl, rfl⟩
    · rintro ⟨_, e1, _, _, rfl⟩; rw [e1]; rfl
  | false =>
    rw [if_neg (by decide)]
    have hl : (splitStr old content).length = 2 := by
      have : ¬ (splitStr old content).length - 1 > 1 := fun h => h1 ⟨h, rfl⟩
      clear hu hc key
      omega
    match hs : splitStr old content, hl with
    | [p, q], _ =>
      rw [replaceFirst_eq ho new hs]
      constructor
      · intro h; cases h; exact ⟨ho, rfl, by omega, .inl rfl, rfl⟩
      · rintro ⟨_, e1, _, _, rfl⟩
        simp only [List.length_cons, List.length_nil] at e1
        have : k = 1 := by omega
        rw [this]; rfl

/-- The number of cuts is the largest number of occurrences that do not overlap. -/
theorem cut_max {old s : Str} {ps : List Str} (h : Cut old s ps) {qs : List Str} (hq : qs ≠ [])
    (hs : s = joinWith old qs) : qs.length ≤ ps.length := by
  induction h generalizing qs with
  | last h =>
    match qs, hq with
    | [q], _ => simp
    | q :: q' :: qs, _ => exact absurd ⟨q, _, hs⟩ h
  | @next a b ps hm hc ih =>
    match qs, hq with
    | [q], _ => simp
    | q :: q' :: qs, _ =>
      have hl := hm q _ hs
      have hs' : a ++ old ++ b = q ++ old ++ joinWith old (q' :: qs) := hs
      have : joinWith old (q' :: qs) <:+ b := by
        have h1 : joinWith old (q' :: qs) <:+ a ++ old ++ b := hs' ▸ List.suffix_append _ _
        have h2 : b <:+ a ++ old ++ b := List.suffix_append _ _
        refine List.suffix_of_suffix_length_le h1 h2 ?_
        have := congrArg List.length hs'
        simp only [List.length_append] at this
        omega
      obtain ⟨w, hw⟩ := this
      have := ih (qs := (w ++ q') :: qs) (by simp) (by
        rw [← hw]
        cases qs with
        | nil => rfl
        | cons x xs => simp only [joinWith, List.append_assoc])
      simpa using this

/-- C60: when it succeeds. With `replace_all` the text must occur; without, it must occur and there must
not be two occurrences that do not overlap. -/
theorem C60_accepts (content old new : Str) (all : Bool) :
    replaceText content old new all ≠ none ↔ old ≠ [] ∧ Occurs old content ∧
      (all = true ∨ ¬ ∃ a b c, content = a ++ old ++ b ++ old ++ c) := by
  rw [Option.ne_none_iff_exists']
  constructor
  · rintro ⟨⟨r, k⟩, h⟩
    obtain ⟨ho, ps, hc, hl, hk, ha, _⟩ := (C60_replaces content old new r all k).1 h
    have hj := cut_join hc
    refine ⟨ho, ?_, ?_⟩
    · match ps, hl with
      | p :: q :: ps, _ => exact ⟨p, _, hj⟩
      | [p], hl => simp at hl; omega
    · rcases ha with rfl | ha
      · right
        rintro ⟨a, b, c, habc⟩
        have := cut_max hc (qs := [a, b, c]) (by simp) (by rw [habc]; simp [joinWith])
        simp at this
        omega
      · exact .inl ha
  · rintro ⟨ho, ⟨a, b, hab⟩, hall⟩
    have hc := splitStr_cut ho content
    have hm := cut_max hc (qs := [a, b]) (by simp) hab
    refine ⟨(joinWith new (splitStr old content), (splitStr old content).length - 1),
      (C60_replaces _ _ _ _ _ _).2 ⟨ho, _, hc, ?_, ?_, ?_, rfl⟩⟩
    · simp at hm; omega
    · simp at hm; omega
    · rcases hall with h | h
      · exact .inr h
      · left
        have hj := cut_join hc
        match hs : splitStr old content, hm with
        | [p], hm => simp at hm
        | [p, q], _ => rfl
        | p :: q :: r :: ps, _ =>
          rw [hs] at hj
          cases ps with
          | nil => exact absurd ⟨p, q, r, by rw [hj]; simp [joinWith]⟩ h
          | cons x xs => exact absurd ⟨p, q, _, by rw [hj, joinWith, joinWith, ← List.append_assoc, ← List.append_assoc]⟩ h

/-- Without `replace_all` one occurrence is replaced and everything else stays. -/
theorem C60_one (content old new r : Str) (k : Nat) (h : replaceText content old new false = some (r, k)) :
    k = 1 ∧ ∃ a b, content = a ++ old ++ b ∧ r = a ++ new ++ b := by
  obtain ⟨ho, ps, hc, hl, hk, ha, hr⟩ := (C60_replaces content old new r false k).1 h
  have hk1 : k = 1 := by simpa using ha
  subst hk1
  have hj := cut_join hc
  match ps, hl with
  | [p, q], _ => exact ⟨rfl, p, q, hj, hr⟩

/-- C60 read strictly: for texts that do not overlap themselves, success without `replace_all` means
that there is exactly one occurrence. What is missing: `C60_overlap`. -/
theorem C60_exactly_once_partial (content old new : Str) (ho : old ≠ [])
    (hself : ∀ x y z, old = x ++ y → old = y ++ z → y ≠ [] → x = []) :
    replaceText content old new false ≠ none ↔ ∃! a, ∃ b, content = a ++ old ++ b := by
  rw [C60_accepts]
  constructor
  · rintro ⟨_, ⟨a, b, hab⟩, h⟩
    refine ⟨a, ⟨b, hab⟩, ?_⟩
    have hn : ¬ ∃ a b c, content = a ++ old ++ b ++ old ++ c := by simpa using h
    have key : ∀ a b a' b', content = a ++ old ++ b → content = a' ++ old ++ b' → a.length ≤ a'.length → a' = a := by
      intro a b a' b' h1 h2 hl
      have e : a ++ (old ++ b) = a' ++ (old ++ b') := by rw [← List.append_assoc, ← List.append_assoc, ← h1, h2]
      obtain ⟨w, rfl⟩ : ∃ w, a' = a ++ w := by
        have h3 : a <+: a' := List.prefix_of_prefix_length_le (List.prefix_append a (old ++ b)) (e ▸ List.prefix_append _ _) hl
        exact ⟨_, h3.choose_spec.symm⟩
      rw [List.append_assoc] at e
      have e := List.append_cancel_left e
      by_cases hw : old.length ≤ w.length
      · obtain ⟨v, rfl⟩ : ∃ v, w = old ++ v := by
          have h3 : old <+: w := List.prefix_of_prefix_length_le (List.prefix_append old b) (e ▸ List.prefix_append _ _) hw
          exact ⟨_, h3.choose_spec.symm⟩
        exact absurd ⟨a, v, b', by rw [h2]; simp⟩ hn
      · obtain ⟨y, hy⟩ : ∃ y, old = w ++ y := by
          have h3 : w <+: old := List.prefix_of_prefix_length_le (List.prefix_append w (old ++ b')) (e ▸ List.prefix_append _ _)
            (by omega)
          exact ⟨_, h3.choose_spec.symm⟩
        have hyne : y ≠ [] := by
          rintro rfl
          rw [List.append_nil] at hy
          rw [hy] at hw; omega
        have e2 : y ++ b = old ++ b' := by
          rw [hy, List.append_assoc] at e
          have := List.append_cancel_left e
          rw [this, ← hy]
        have h4 : y <+: old := List.prefix_of_prefix_length_le (List.prefix_append y b) (e2 ▸ List.prefix_append _ _)
          (by have := congrArg List.length hy; simp at this; omega)
        obtain ⟨z, hz⟩ := h4
        have := hself w y z hy hz.symm hyne
        rw [this, List.append_nil]
    rintro a' ⟨b', hab'⟩
    rcases Nat.le_total a.length a'.length with hl | hl
    · exact key a b a' b' hab hab' hl
    · exact (key a' b' a b hab' hab hl).symm
  · rintro ⟨a, ⟨b, hab⟩, huniq⟩
    refine ⟨ho, ⟨a, b, hab⟩, .inr ?_⟩
    rintro ⟨x, y, z, hxyz⟩
    have e1 := huniq x ⟨y ++ old ++ z, by rw [hxyz]; simp⟩
    have e2 := huniq (x ++ old ++ y) ⟨z, hxyz⟩
    rw [← e1, List.append_assoc, List.append_right_eq_self] at e2
    exact ho (List.append_eq_nil_iff.1 e2).1

/-- C60 is false for texts that overlap themselves: `aa` occurs twice in `aaa`, the request without
`replace_all` is accepted and one occurrence is reported. -/
theorem C60_overlap : (∃ a b, "aaa".toList = a ++ "aa".toList ++ b ∧ a = []) ∧
    (∃ a b, "aaa".toList = a ++ "aa".toList ++ b ∧ a = ['a']) ∧
    replaceText "aaa".toList "aa".toList "b".toList false = some ("ba".toList, 1) :=
  ⟨⟨[], ['a'], by decide, rfl⟩, ⟨['a'], [], by decide, rfl⟩, by decide⟩

/-- C60: what a replacement that is not refused does to the file: the pieces around the occurrences are kept, and
without `replace_all` there was one occurrence. -/
theorem C60_tool (H : Host) (hws : ∀ n ∈ H.ws, ValidName n) (order : Workspace → Workspace) (s : Server)
    (hd : WellFormed s.disk) (path old new : Str) (all force : Bool)
    (h : (replaceSource H order s path old new all force).2 ≠ .error) :
    ∃ content ps, Has s.disk (lexicalPlace H.ws (pathComponents path)) (.file (some content)) ∧ old ≠ [] ∧
      Cut old content ps ∧ 2 ≤ ps.length ∧ (ps.length = 2 ∨ all = true) ∧
      Has (replaceSource H order s path old new all force).1.disk (lexicalPlace H.ws (pathComponents path))
        (.file (some (joinWith new ps))) := by
  unfold replaceSource at h ⊢
  cases hx : replaceExecute s.disk H.ws path old new all with
  | none => rw [hx] at h; exact absurd rfl h
  | some r =>
    obtain ⟨text, k⟩ := r
    rw [hx] at h
    dsimp only at h ⊢
    obtain ⟨content, hread, hrep⟩ : ∃ content, readSourceFile s.disk H.ws path = some content ∧
        replaceText content old new all = some (text, k) := by
      unfold replaceExecute at hx
      split at hx
      · cases hx
      · split at hx
        · cases hx
        · next heq => exact ⟨_, heq, hx⟩
    have hlk := (readSourceFile_spec hread).1
    obtain ⟨ho, ps, hc, hl, hk, ha, ht⟩ := (C60_replaces content old new text all k).1 hrep
    cases hv : validateAndWrite H s.disk path text with
    | mk d o =>
      obtain ⟨h1, h2, h3⟩ := validateAndWrite_spec hd hws hv
      rw [hv] at h
      cases o with
      | none => exact absurd rfl h
      | some original =>
        dsimp only at h ⊢
        obtain ⟨a, b, c, _, e⟩ := h3 _ rfl
        have hnew : Has d (lexicalPlace H.ws (pathComponents path)) (.file (some (joinWith new ps))) := by
          refine (has_iff_lookup h1).2 ?_
          have := a (placeFor H.ws path)
          rw [if_pos rfl, leafAt_eq_some] at this
          rw [← ht]
          exact this.1
        refine ⟨content, ps, (has_iff_lookup hd).2 hlk, ho, hc, by omega, ha.imp (fun h => by omega) id, ?_⟩
        cases hr : rebuild H order d with
        | ok st => exact hnew
        | error err =>
          rw [hr] at h
          dsimp only at h ⊢
          split
          · exact hnew
          · next hf => rw [if_neg hf] at h; exact absurd rfl h

/-- C60: a text that occurs twice is not replaced unless `replace_all` is given; nothing changes then. -/
theorem C60_tool_twice (H : Host) (order : Workspace → Workspace) (s : Server) (path old new : Str) (force : Bool)
    {a b c : Str} (ho : old ≠ []) (h : readSourceFile s.disk H.ws path = some (a ++ old ++ b ++ old ++ c)) :
    replaceSource H order s path old new false force = (s, .error) := by
  have hn : replaceText (a ++ old ++ b ++ old ++ c) old new false = none := by
    by_contra hne
    obtain ⟨_, _, h3⟩ := (C60_accepts _ old new false).1 hne
    rcases h3 with h3 | h3
    · cases h3
    · exact h3 ⟨a, b, c, rfl⟩
  unfold replaceSource replaceExecute
  rw [if_neg ho, h]
  simp only [hn]

example : (replaceSource exHost id exServer "b.firm".toList "B".toList "S".toList false true).2 ≠ .error ∧
    readSourceFile exServer.disk exHost.ws "b.firm".toList = some "B".toList := by decide +kernel

example : replaceText "x = 1\ny = 1".toList "1".toList "22".toList true = some ("x = 22\ny = 22".toList, 2) ∧
    replaceText "x = 1\ny = 1".toList "1".toList "22".toList false = none ∧
    replaceText "x = 1\ny = 1".toList "y = 1".toList "".toList false = some ("x = 1\n".toList, 1) := by decide

example : ∀ x y z : Str, "ab".toList = x ++ y → "ab".toList = y ++ z → y ≠ [] → x = [] := by
  intro x y z h1 h2 hy
  match x, y, h1, hy with
  | [], _, _, _ => rfl
  | [a], [b], h1, _ =>
    have h1 : ['a', 'b'] = [a, b] := h1
    have h2 : ['a', 'b'] = b :: z := h2
    cases h1; cases h2
  | [a, b], [c], h1, _ => cases h1

/-! ## C61: searching -/

/-- All matching lines of the files, in file order and line order: path, line number, line. -/
def Spec.allMatches (read : Str → Option Str) (hit : Str → Bool) (paths : List Str) : List (Str × Nat × Str) :=
  paths.flatMap fun p =>
    match read p with
    | none => []
    | some content => (((strLines content).zipIdx 1).filter fun l => hit l.1).map fun l => (p, l.2, l.1)

/-- The matching lines of one file from line `n + 1` on. -/
def Spec.lineHits (hit : Str → Bool) (n : Nat) (lines : List Str) : List (Nat × Str) :=
  ((lines.zipIdx (n + 1)).filter fun l => hit l.1).map fun l => (l.2, l.1)

theorem searchLines_spec (hit : Str → Bool) (max total n : Nat) (lines : List Str) (ht : total ≤ max) :
    searchLines hit max total n lines =
      ((lineHits hit n lines).take (max - total), min max (total + (lineHits hit n lines).length),
        decide (max < total + (lineHits hit n lines).length)) := by
  induction lines generalizing total n with
  | nil => simp [searchLines, lineHits]; omega
  | cons l rest ih =>
    rw [searchLines]
    by_cases hl : hit l = true
    · have e : lineHits hit n (l :: rest) = (n + 1, l) :: lineHits hit (n + 1) rest := by
        simp [lineHits, List.zipIdx_cons, hl]
      rw [if_pos hl, e]
      by_cases hm : total ≥ max
      · have : total = max := by omega
        subst this
        rw [if_pos (Nat.le_refl _)]
        simp
      · rw [if_neg hm]
        dsimp only
        rw [ih (total + 1) (n + 1) (by omega)]
        have e2 : max - total = (max - (total + 1)) + 1 := by omega
        rw [e2, List.take_succ_cons, List.length_cons]
        refine Prod.ext rfl (Prod.ext ?_ ?_)
        · dsimp only; congr 1; omega
        · dsimp only
          rw [decide_eq_decide]
          omega
    · have e : lineHits hit n (l :: rest) = lineHits hit (n + 1) rest := by
        simp [lineHits, List.zipIdx_cons, hl]
      rw [if_neg hl, e, ih total (n + 1) ht]

/-- The groups printed, as one list. -/
def Spec.flatGroups (gs : List (Str × List (Nat × Str))) : List (Str × Nat × Str) :=
  gs.flatMap fun g => g.2.map fun l => (g.1, l.1, l.2)

theorem searchFiles_spec (read : Str → Option Str) (hit : Str → Bool) (max total : Nat) (paths : List Str)
    (ht : total ≤ max) :
    flatGroups (searchFiles read hit max total paths).1 = (allMatches read hit paths).take (max - total) ∧
    (searchFiles read hit max total paths).2 = decide (max < total + (allMatches read hit paths).length) ∧
    (∀ g ∈ (searchFiles read hit max total paths).1, g.2 ≠ []) ∧
    ((searchFiles read hit max total paths).1.map (·.1)).Sublist paths := by
  induction paths generalizing total with
  | nil => simp [searchFiles, flatGroups, allMatches]; omega
  | cons p rest ih =>
    rw [searchFiles]
    cases hr : read p with
    | none =>
      have e : allMatches read hit (p :: rest) = allMatches read hit rest := by simp [allMatches, hr]
      rw [e]
      obtain ⟨h1, h2, h3, h4⟩ := ih total ht
      exact ⟨h1, h2, h3, h4.cons p⟩
    | some content =>
      have e : allMatches read hit (p :: rest) =
          ((lineHits hit 0 (strLines content)).map fun l => (p, l.1, l.2)) ++ allMatches read hit rest := by
        simp [allMatches, hr, lineHits]
      rw [e]
      dsimp only
      rw [searchLines_spec _ _ _ _ _ ht]
      dsimp only
      generalize hL : lineHits hit 0 (strLines content) = ls
      have hg : ∀ xs : List (Nat × Str), flatGroups (if xs = [] then [] else [(p, xs)]) = xs.map fun l => (p, l.1, l.2) := by
        intro xs
        split
        · next h => rw [h]; rfl
        · simp [flatGroups]
      have hne : ∀ xs : List (Nat × Str), ∀ g ∈ (if xs = [] then [] else [(p, xs)]), g.2 ≠ [] := by
        intro xs g hg
        split at hg
        · cases hg
        · next h => rw [List.mem_singleton.1 hg]; exact h
      have hsub : ∀ xs : List (Nat × Str), ((if xs = [] then [] else [(p, xs)]).map (·.1)).Sublist [p] := by
        intro xs
        split
        · simp
        · simp
      by_cases hc : max < total + ls.length
      · rw [if_pos (by simpa using hc)]
        refine ⟨?_, ?_, hne _, (hsub _).trans (by simp)⟩
        · rw [hg, List.take_append_of_le_length (by rw [List.length_map]; omega), List.map_take]
        · symm
          rw [decide_eq_true_iff, List.length_append, List.length_map]
          omega
      · rw [if_neg (by simpa using hc)]
        have e3 : min max (total + ls.length) = total + ls.length := by omega
        rw [e3]
        obtain ⟨h1, h2, h3, h4⟩ := ih (total + ls.length) (by omega)
        refine ⟨?_, ?_, ?_, ?_⟩
        · unfold flatGroups at h1 ⊢
          rw [List.flatMap_append, h1]
          have := hg (ls.take (max - total))
          unfold flatGroups at this
          have t1 : (ls.map fun l => (p, l.1, l.2)).take (max - total) = ls.map fun l => (p, l.1, l.2) :=
            List.take_of_length_le (by rw [List.length_map]; omega)
          rw [this, List.take_of_length_le (by omega), List.take_append, t1, List.length_map, Nat.sub_add_eq]
        · rw [h2, decide_eq_decide, List.length_append, List.length_map]
          omega
        · intro g hg'
          rcases List.mem_append.1 hg' with hg' | hg'
          · exact hne _ g hg'
          · exact h3 g hg'
        · rw [List.map_append]
          exact (hsub _).append h4

/-- C61: the lines shown are the first fifty matching lines, and the result is marked as cut off
exactly when there are more. -/
theorem C61_first_fifty (H : Host) (s : Server) (query : Str) (cs : Bool) (groups : List (Str × List (Nat × Str)))
    (cut : Bool) (h : searchSource H s query cs = some (groups, cut)) :
    flatGroups groups = (allMatches (fun rel => s.disk.readText (s.disk.placeOf H.ws rel))
      (lineMatches H.lang.env query cs) (relativePaths (placeText H.ws) s.state.workspace)).take 50 ∧
    (cut = true ↔ 50 < (allMatches (fun rel => s.disk.readText (s.disk.placeOf H.ws rel))
      (lineMatches H.lang.env query cs) (relativePaths (placeText H.ws) s.state.workspace)).length) ∧
    ∀ g ∈ groups, g.2 ≠ [] := by
  unfold searchSource at h
  split at h
  · cases h
  · obtain ⟨h1, h2, h3, h4⟩ := searchFiles_spec (fun rel => s.disk.readText (s.disk.placeOf H.ws rel))
      (lineMatches H.lang.env query cs) 50 0 (relativePaths (placeText H.ws) s.state.workspace) (by omega)
    injection h with h
    rw [h] at h1 h2 h3
    refine ⟨h1, ?_, h3⟩
    rw [show cut = _ from h2, decide_eq_true_iff, Nat.zero_add]

/-- C61: which lines match. -/
theorem C61_line (env : Env) (query line : Str) (cs : Bool) :
    lineMatches env query cs line = true ↔
      (cs = true ∧ Occurs query line) ∨ (cs = false ∧ Occurs (env.lower query) (env.lower line)) := by
  unfold lineMatches
  cases cs <;> simp [strContains_iff]

/-- C61: only the empty search text is an error. -/
theorem C61_error (H : Host) (s : Server) (query : Str) (cs : Bool) :
    searchSource H s query cs = none ↔ query = [] := by
  unfold searchSource
  split <;> simp [*]

example : searchSource exHost exServer "s".toList false =
    some ([("a.firm".toList, [(1, "S".toList)])], false) := by rfl

/-! ## C62: adding an entity -/

theorem addFields_id {H : Host} {target : List PathComp} {lt : List (Str × Str)} {sc : EntitySchema}
    {fs : List (Str × Json)} {e e' : Entity} (h : addFields H target lt sc e fs = some e') : e'.id = e.id := by
  induction fs generalizing e with
  | nil => rw [addFields] at h; cases h; rfl
  | cons p fs ih =>
    obtain ⟨name, v⟩ := p
    rw [addFields] at h
    split at h
    · cases h
    · split at h
      · cases h
      · have := ih h
        rw [this]; rfl

theorem entityToAdd_spec {H : Host} {st : ServerState} {p : AddParams} {e : Entity}
    (h : entityToAdd H st p = some e) :
    e.id = H.lang.cases.composeEntityId p.type (H.lang.cases.snake p.id) ∧ st.graph.getEntity e.id = none := by
  unfold entityToAdd at h
  split at h
  · cases h
  · dsimp only at h
    split at h
    · cases h
    · next hg =>
      split at h
      · cases h
      · next hf =>
        split at h
        · cases h
        · cases h
          have := addFields_id hf
          rw [this]
          exact ⟨rfl, hg⟩

/-- C62: if an entity with the id exists, the request is refused and nothing changes.  Missing: a server
whose state is older than the files (`C62_stale`). -/
theorem C62_existing_partial (H : Host) (order : Workspace → Workspace) (s : Server) (hs : Serves H s) (p : AddParams)
    (e : Entity) (he : e ∈ s.state.build.entities)
    (hid : e.id = H.lang.cases.composeEntityId p.type (H.lang.cases.snake p.id)) :
    addEntityTool H order s p = (s, .error) := by
  have hg : s.state.graph.getEntity e.id = some e := by
    have := (C44_lookup s.state.build (by rw [hs.2.2]) e.id e).2 ⟨he, rfl⟩
    rw [hs.2.2] at this
    exact this
  have hn : entityToAdd H s.state p = none := by
    cases h : entityToAdd H s.state p with
    | none => rfl
    | some e' =>
      obtain ⟨h1, h2⟩ := entityToAdd_spec h
      rw [h1, ← hid, hg] at h2
      cases h2
  unfold addEntityTool addExecute
  rw [hn]

/-- What a request that is not refused does. -/
theorem add_appends (H : Host) (hws : ∀ n ∈ H.ws, ValidName n) (order : Workspace → Workspace) (s : Server)
    (hd : WellFormed s.disk) (hs : Serves H s) (p : AddParams) (h : (addEntityTool H order s p).2 ≠ .error) :
    ∃ (e : Entity) (loc : List Str) (old sep : Str), entityToAdd H s.state p = some e ∧
      e.id = H.lang.cases.composeEntityId p.type (H.lang.cases.snake p.id) ∧
      (∀ e' ∈ s.state.build.entities, e'.id ≠ e.id) ∧
      loc = lexicalPlace H.ws (pathComponents (p.toFile.getD (defaultTarget p.type))) ∧
      (Has s.disk loc (.file (some old)) ∨ (old = [] ∧ ∀ u, NotDir u → ¬ Has s.disk loc u)) ∧
      Has (addEntityTool H order s p).1.disk loc (.file (some (old ++ (sep ++ generateDsl H.lang .default [e])))) ∧
      (sep = ['\n'] ∨ (sep = [] ∧ (old = [] ∨ old.getLast? = some '\n'))) ∧
      ∀ l u, l ≠ loc → NotDir u → (Has s.disk l u ↔ Has (addEntityTool H order s p).1.disk l u) := by
  have hdisk : (addEntityTool H order s p).1.disk = (addExecute H s p).1 := by
    unfold addEntityTool
    split
    · next heq => rw [heq]
    · next heq => rw [heq]; dsimp only; split <;> rfl
  have hok : (addExecute H s p).2 = true := by
    unfold addEntityTool at h
    split at h
    · exact absurd rfl h
    · next heq => rw [heq]
  cases hx : addExecute H s p with
  | mk d ok =>
    rw [hx] at hdisk hok
    dsimp only at hdisk hok
    subst hok
    unfold addExecute at hx
    cases he : entityToAdd H s.state p with
    | none => rw [he] at hx; cases hx
    | some e =>
      rw [he] at hx
      obtain ⟨h1, h2⟩ := entityToAdd_spec he
      obtain ⟨a1, _, a3⟩ := appendDsl_spec hd (placeOf_valid hws _) hx
      obtain ⟨old, b1, b2⟩ := a3 rfl
      rw [placeOf_eq] at b1 b2
      rw [hdisk]
      refine ⟨e, _, old, appendPrefix old, rfl, h1, ?_, rfl, ?_, ?_, ?_, ?_⟩
      · intro e' he' hid
        have := (C44_lookup s.state.build (by rw [hs.2.2]) e.id e').2 ⟨he', hid⟩
        rw [hs.2.2] at this
        rw [h2] at this
        cases this
      · rcases b2 with ⟨e1, e2⟩ | e2
        · right
          refine ⟨e1, fun u hu hh => ?_⟩
          rw [leafAt_eq_some.2 ⟨(has_iff_lookup hd).1 hh, hu⟩] at e2
          cases e2
        · left; exact (has_iff_lookup hd).2 (leafAt_eq_some.1 e2).1
      · have := b1 (lexicalPlace H.ws (pathComponents (p.toFile.getD (defaultTarget p.type))))
        rw [if_pos rfl] at this
        exact (has_iff_lookup a1).2 (leafAt_eq_some.1 this).1
      · unfold appendPrefix
        split
        · next hc => exact .inr ⟨rfl, hc⟩
        · exact .inl rfl
      · intro l u hl hu
        have := b1 l
        rw [if_neg hl] at this
        rw [has_iff_lookup hd, has_iff_lookup a1]
        have k1 := leafAt_eq_some (d := s.disk) (u := u) (loc := l)
        have k2 := leafAt_eq_some (d := d) (u := u) (loc := l)
        rw [this] at k2
        exact ⟨fun hh => (k2.1 (k1.2 ⟨hh, hu⟩)).1, fun hh => (k1.1 (k2.2 ⟨hh, hu⟩)).1⟩

/-- C62: what a request that is not refused does. The id is new; the text of the entity is appended to
the file at the target, on a new line; nothing else changes.  Missing: a server whose state is older than
the files (`C62_stale`). -/
theorem C62_appends_partial (H : Host) (hws : ∀ n ∈ H.ws, ValidName n) (order : Workspace → Workspace) (s : Server)
    (hd : WellFormed s.disk) (hs : Serves H s) (p : AddParams) (h : (addEntityTool H order s p).2 ≠ .error) :
    ∃ (e : Entity) (loc : List Str) (old sep : Str),
      e.id = H.lang.cases.composeEntityId p.type (H.lang.cases.snake p.id) ∧
      (∀ e' ∈ s.state.build.entities, e'.id ≠ e.id) ∧
      loc = lexicalPlace H.ws (pathComponents (p.toFile.getD (defaultTarget p.type))) ∧
      (Has s.disk loc (.file (some old)) ∨ (old = [] ∧ ∀ u, NotDir u → ¬ Has s.disk loc u)) ∧
      Has (addEntityTool H order s p).1.disk loc (.file (some (old ++ (sep ++ generateDsl H.lang .default [e])))) ∧
      (sep = ['\n'] ∨ (sep = [] ∧ (old = [] ∨ old.getLast? = some '\n'))) ∧
      ∀ l u, l ≠ loc → NotDir u → (Has s.disk l u ↔ Has (addEntityTool H order s p).1.disk l u) := by
  obtain ⟨e, loc, old, sep, _, h⟩ := add_appends H hws order s hd hs p h
  exact ⟨e, loc, old, sep, h⟩

/-- C62: a refused request changes no file and leaves the state alone. -/
theorem C62_refused (H : Host) (hws : ∀ n ∈ H.ws, ValidName n) (order : Workspace → Workspace) (s : Server)
    (hd : WellFormed s.disk) (p : AddParams) (h : (addEntityTool H order s p).2 = .error) :
    SameFiles s.disk (addEntityTool H order s p).1.disk ∧ (addEntityTool H order s p).1.state = s.state := by
  unfold addEntityTool at h ⊢
  cases hx : addExecute H s p with
  | mk d ok =>
    obtain ⟨h1, h2⟩ := addExecute_spec hd hws hx
    rw [hx] at h
    cases ok with
    | false => exact ⟨(sameFiles_iff hd h1).2 (h2 rfl), rfl⟩
    | true =>
      dsimp only at h
      cases hr : rebuild H order d with
      | ok st => rw [hr] at h; cases h
      | error err => rw [hr] at h; cases h

/-- A request for the sample server. -/
def exAdd (id : String) : AddParams :=
  ⟨"person".toList, id.toList, [("name".toList, .string "Carol".toList)], some "b.firm".toList, []⟩

example : (addEntityTool exHost id exServer (exAdd "bob")).2 = .error ∧
    (addEntityTool exHost id exServer (exAdd "carol")).2 ≠ .error ∧
    (addEntityTool exHost id exServer (exAdd "carol")).1.disk.readText ["w".toList, "b.firm".toList] =
      some "B\nperson carol {\n    name = \"Carol\"\n}\n".toList := by decide +kernel

/-- C50: `add_entity` makes a reference without a dot from a text without a dot; `C50_no_dot` says that it
does not read back. -/
theorem C50_json_reference (H : Host) (target : List PathComp) {s : Str} (hs : '.' ∉ s) :
    jsonScalar H target .reference (.string s) = some (.reference (.entity (H.lang.cases.snake s))) := by
  simp [jsonScalar, jsonReference, splitChar_none hs]

example : asciiTable.snake "bob".toList = "bob".toList := by decide

/-- C62 is false once the server has failed to rebuild: the same entity is added again. -/
theorem C62_stale : ∃ (H : Host) (s : Server) (p : AddParams) (loc : List Str) (text block : Str), Serves H s ∧
    s.disk.readText loc = some text ∧
    (addEntityTool H id s p).2 = .warning ∧ (addEntityTool H id (addEntityTool H id s p).1 p).2 = .warning ∧
    (addEntityTool H id s p).1.disk.readText loc = some (text ++ '\n' :: block) ∧
    (addEntityTool H id (addEntityTool H id s p).1 p).1.disk.readText loc = some (text ++ '\n' :: (block ++ block)) :=
  ⟨exHost, exServer, exAdd "carol", ["w".toList, "b.firm".toList], "B".toList,
    "person carol {\n    name = \"Carol\"\n}\n".toList, exServer_serves, by decide +kernel⟩

/-! ## C63: listing the files -/

theorem valid_of_firmFile {d : FsTree} {ws loc : List Str} {text : Str} (hd : WellFormed d)
    (h : FirmFile d ws loc text) : (∀ n ∈ ws, ValidName n) ∧ (∀ n ∈ loc, ValidName n) ∧ loc ≠ [] := by
  obtain ⟨⟨dirs, n, rfl, _⟩, hh⟩ := h
  have := (lookup_valid hd ((has_iff_lookup hd).1 hh)).2
  exact ⟨fun n hn => this n (List.mem_append_left _ hn), fun n hn => this n (List.mem_append_right _ hn), by simp⟩

theorem toRelativePath_place {ws loc : List Str} (h1 : ∀ n ∈ ws, ValidName n) (h2 : ∀ n ∈ loc, ValidName n) :
    toRelativePath (placeText ws) (placeText (ws ++ loc)) = some (joinWith ['/'] loc) := by
  unfold toRelativePath
  rw [pathComponents_placeText h1, pathComponents_placeText (fun n hn => (List.mem_append.1 hn).elim (h1 n) (h2 n)),
    List.map_append, ← List.cons_append, stripComps_append, Option.map_some, showComps_normal]

/-- C63: the paths that the tools list are those of the firm files, sorted, each once. -/
theorem C63_paths (H : Host) (d : FsTree) (hd : WellFormed d) (w : Workspace) (hw : LoadsAs H.grammar H.ws d w) :
    (relativePaths (placeText H.ws) w).Nodup ∧
    ((relativePaths (placeText H.ws) w).Pairwise fun a b => strCmp a b ≠ .gt) ∧
    ∀ rel, rel ∈ relativePaths (placeText H.ws) w ↔
      ∃ loc text, FirmFile d H.ws loc text ∧ rel = joinWith ['/'] loc := by
  have key : ∀ p ∈ w, ∃ loc text, FirmFile d H.ws loc text ∧ p.1 = placeText (H.ws ++ loc) ∧
      toRelativePath (placeText H.ws) p.1 = some (joinWith ['/'] loc) := by
    rintro ⟨path, f⟩ hp
    obtain ⟨loc, text, h1, h2, _⟩ := (hw.2 path f).1 hp
    obtain ⟨v1, v2, _⟩ := valid_of_firmFile hd h1
    refine ⟨loc, text, h1, h2, ?_⟩
    dsimp only
    rw [show path = placeText (H.ws ++ loc) from h2]
    exact toRelativePath_place v1 v2
  have hperm : (relativePaths (placeText H.ws) w).Perm (w.filterMap fun p => toRelativePath (placeText H.ws) p.1) := by
    unfold relativePaths sortStrs; exact stableSort_perm _ _
  refine ⟨hperm.nodup_iff.2 ?_, ?_, fun rel => ?_⟩
  · have hnd := hw.1
    clear hperm
    have hw' : ∀ p ∈ w, p ∈ w := fun _ h => h
    generalize hgen : w = w' at hnd hw' key ⊢
    clear hgen hw'
    induction w' with
    | nil => exact List.Pairwise.nil
    | cons p ps ih =>
      rw [List.map_cons, List.nodup_cons] at hnd
      obtain ⟨loc, text, h1, h2, h3⟩ := key p (by simp)
      rw [List.filterMap_cons_some (f := fun p : Str × SourceFile => toRelativePath (placeText H.ws) p.1) h3, List.nodup_cons]
      refine ⟨?_, ih hnd.2 fun q hq => key q (List.mem_cons_of_mem _ hq)⟩
      intro hm
      obtain ⟨q, hq, hq2⟩ := List.mem_filterMap.1 hm
      obtain ⟨loc', text', k1, k2, k3⟩ := key q (List.mem_cons_of_mem _ hq)
      rw [k3] at hq2
      injection hq2 with hq2
      obtain ⟨v1, v2, v3⟩ := valid_of_firmFile hd h1
      obtain ⟨_, v2', v3'⟩ := valid_of_firmFile hd k1
      have e1 := splitChar_join v3 fun n hn => (v2 n hn).noSlash
      have e2 := splitChar_join v3' fun n hn => (v2' n hn).noSlash
      rw [hq2, e1] at e2
      subst e2
      exact hnd.1 (List.mem_map.2 ⟨q, hq, by rw [k2, h2]⟩)
  · have : TotalPreorderOn (fun a b : Str => strCmp a b != .gt) (fun _ => True) := by
      refine ⟨fun a b _ _ => ?_, fun a b c _ _ _ h1 h2 => ?_⟩
      · have := strCmp_le_total a b
        revert this
        cases strCmp a b <;> cases strCmp b a <;> simp
      · have := @strCmp_isLE_trans a b c
        revert this h1 h2
        cases strCmp a b <;> cases strCmp b c <;> cases strCmp a c <;> simp
    have := stableSort_sorted (l := w.filterMap fun p => toRelativePath (placeText H.ws) p.1) this (fun _ _ => trivial)
    exact this.imp (by simp)
  · rw [hperm.mem_iff, List.mem_filterMap]
    constructor
    · rintro ⟨p, hp, hrel⟩
      obtain ⟨loc, text, h1, _, h3⟩ := key p hp
      rw [h3] at hrel
      injection hrel with hrel
      exact ⟨loc, text, h1, hrel.symm⟩
    · rintro ⟨loc, text, h1, rfl⟩
      refine ⟨(placeText (H.ws ++ loc), _), (hw.2 _ _).2 ⟨loc, text, h1, rfl, rfl⟩, ?_⟩
      obtain ⟨v1, v2, _⟩ := valid_of_firmFile hd h1
      exact toRelativePath_place v1 v2

/-- C63: reading the resource listed for a firm file yields its content. -/
theorem C63_resource (H : Host) (d : FsTree) (hd : WellFormed d) (w : Workspace) (hw : LoadsAs H.grammar H.ws d w) :
    (listResources (placeText H.ws) w).Nodup ∧
    (∀ uri ∈ listResources (placeText H.ws) w, ∃ loc text, FirmFile d H.ws loc text ∧ readResource H d uri = some text) ∧
    ∀ loc text, FirmFile d H.ws loc text → ∃ uri ∈ listResources (placeText H.ws) w, uri = sourceFileUri (joinWith ['/'] loc) ∧
      readResource H d uri = some text := by
  obtain ⟨h1, _, h3⟩ := C63_paths H d hd w hw
  have read : ∀ loc text, FirmFile d H.ws loc text → readResource H d (sourceFileUri (joinWith ['/'] loc)) = some text := by
    intro loc text hf
    obtain ⟨v1, v2, v3⟩ := valid_of_firmFile hd hf
    have hlk : d.lookup (H.ws ++ loc) = some (.file (some text)) := (has_iff_lookup hd).1 hf.2
    have huri : parseSourceUri (sourceFileUri (joinWith ['/'] loc)) = some (joinWith ['/'] loc) := by
      unfold parseSourceUri sourceFileUri
      rw [if_pos ((startsWith_iff _ _).2 ⟨_, rfl⟩), List.drop_left]
    have habs : toAbsolutePath d H.ws (joinWith ['/'] loc) = some (H.ws ++ loc) := by
      unfold toAbsolutePath
      rw [pathComponents_relative v3 v2, resolve_normal hlk]
      dsimp only
      rw [hlk]
      dsimp only
      rw [if_pos (List.isPrefixOf_iff_prefix.2 (List.prefix_append _ _))]
    have hext : hasFirmExtension (H.ws ++ loc) = true := by
      obtain ⟨⟨dirs, n, rfl, hn⟩, _⟩ := hf
      unfold hasFirmExtension
      rw [← List.append_assoc, List.getLast?_concat]
      exact isFirmFile_iff.2 hn
    unfold readResource
    rw [huri]
    dsimp only
    unfold readSourceFile
    rw [habs]
    dsimp only
    rw [hlk]
    dsimp only
    rw [if_pos hext, FsTree.readText, hlk]
  refine ⟨?_, ?_, ?_⟩
  · unfold listResources
    exact h1.map fun a b hab => List.append_cancel_left hab
  · intro uri hu
    obtain ⟨rel, hrel, rfl⟩ := List.mem_map.1 hu
    obtain ⟨loc, text, hf, rfl⟩ := (h3 rel).1 hrel
    exact ⟨loc, text, hf, read loc text hf⟩
  · intro loc text hf
    exact ⟨_, List.mem_map.2 ⟨_, (h3 _).2 ⟨loc, text, hf, rfl⟩, rfl⟩, rfl, read loc text hf⟩

/-! The tree -/

theorem splitDir_join {dirs : List Str} {n : Str} (h : ∀ m ∈ dirs ++ [n], ValidName m) :
    splitDir (joinWith ['/'] (dirs ++ [n])) = (joinWith ['/'] dirs, n) := by
  unfold splitDir
  rw [splitChar_join (by simp) fun m hm => (h m hm).noSlash, List.reverse_append]
  cases dirs using List.reverseRecOn with
  | nil => rfl
  | append_singleton ds d => simp

/-- Directory and file, as one list. -/
def Spec.flatTree (t : List (Str × List Str)) : List (Str × Str) := t.flatMap fun g => g.2.map fun f => (g.1, f)

theorem pushFile_flat (dir file : Str) (t : List (Str × List Str)) :
    (flatTree (pushFile dir file t)).Perm ((dir, file) :: flatTree t) := by
  induction t with
  | nil => simp [pushFile, flatTree]
  | cons g t ih =>
    obtain ⟨d, fs⟩ := g
    rw [pushFile]
    cases hc : strCmp dir d with
    | lt => simp [flatTree]
    | eq =>
      have := strCmp_eq_iff.1 hc
      subst this
      simp only [flatTree, List.flatMap_cons, List.map_append, List.map_cons, List.map_nil, List.append_assoc]
      exact List.perm_middle
    | gt =>
      simp only [flatTree, List.flatMap_cons] at ih ⊢
      exact (ih.append_left _).trans List.perm_middle

theorem pushFile_keys (dir file : Str) (t : List (Str × List Str))
    (h : (t.map (·.1)).Pairwise fun a b => strCmp a b = .lt) :
    ((pushFile dir file t).map (·.1)).Pairwise (fun a b => strCmp a b = .lt) ∧
    ∀ k ∈ (pushFile dir file t).map (·.1), k = dir ∨ k ∈ t.map (·.1) := by
  induction t with
  | nil => simp [pushFile]
  | cons g t ih =>
    obtain ⟨d, fs⟩ := g
    rw [List.map_cons, List.pairwise_cons] at h
    obtain ⟨i1, i2⟩ := ih h.2
    rw [pushFile]
    cases hc : strCmp dir d with
    | lt =>
      refine ⟨?_, by simp⟩
      simp only [List.map_cons, List.pairwise_cons]
      refine ⟨?_, h.1, h.2⟩
      intro k hk
      rcases List.mem_cons.1 hk with rfl | hk
      · exact hc
      · exact strCmp_lt_trans hc (h.1 k hk)
    | eq => exact ⟨by simpa using h, fun k hk => .inr hk⟩
    | gt =>
      refine ⟨?_, ?_⟩
      · simp only [List.map_cons, List.pairwise_cons]
        refine ⟨fun k hk => ?_, i1⟩
        rcases i2 k hk with rfl | hk
        · rw [strCmp_eq_swap, hc]; rfl
        · exact h.1 k hk
      · intro k hk
        simp only [List.map_cons, List.mem_cons] at hk ⊢
        rcases hk with rfl | hk
        · exact .inr (.inl rfl)
        · rcases i2 k hk with rfl | hk
          · exact .inl rfl
          · exact .inr (.inr hk)

theorem foldl_push (ps : List Str) (t : List (Str × List Str)) (h : (t.map (·.1)).Pairwise fun a b => strCmp a b = .lt) :
    (flatTree (ps.foldl (fun t p => pushFile (splitDir p).1 (splitDir p).2 t) t)).Perm
      (ps.map splitDir ++ flatTree t) ∧
    ((ps.foldl (fun t p => pushFile (splitDir p).1 (splitDir p).2 t) t).map (·.1)).Pairwise fun a b => strCmp a b = .lt := by
  induction ps generalizing t with
  | nil => exact ⟨List.Perm.refl _, h⟩
  | cons p ps ih =>
    rw [List.foldl_cons]
    obtain ⟨h1, h2⟩ := ih _ (pushFile_keys (splitDir p).1 (splitDir p).2 t h).1
    refine ⟨h1.trans ?_, h2⟩
    refine ((pushFile_flat _ _ t).append_left _).trans ?_
    rw [List.map_cons, List.cons_append]
    exact List.perm_middle

/-- C63: the source tree has every firm file exactly once, under the path of its directory, and every
directory once. -/
theorem C63_tree (H : Host) (d : FsTree) (hd : WellFormed d) (w : Workspace) (hw : LoadsAs H.grammar H.ws d w) :
    (flatTree (sourceTree (placeText H.ws) w)).Nodup ∧
    ((sourceTree (placeText H.ws) w).map (·.1)).Pairwise (fun a b => strCmp a b = .lt) ∧
    ∀ dir file, (dir, file) ∈ flatTree (sourceTree (placeText H.ws) w) ↔
      ∃ dirs text, FirmFile d H.ws (dirs ++ [file]) text ∧ dir = joinWith ['/'] dirs := by
  obtain ⟨h1, _, h3⟩ := C63_paths H d hd w hw
  obtain ⟨k1, k2⟩ := foldl_push (relativePaths (placeText H.ws) w) [] (by simp)
  have k1 : (flatTree (sourceTree (placeText H.ws) w)).Perm ((relativePaths (placeText H.ws) w).map splitDir) := by
    have : flatTree [] = [] := rfl
    rw [this, List.append_nil] at k1
    exact k1
  have hsplit : ∀ rel ∈ relativePaths (placeText H.ws) w, ∃ dirs n text, FirmFile d H.ws (dirs ++ [n]) text ∧
      rel = joinWith ['/'] (dirs ++ [n]) ∧ splitDir rel = (joinWith ['/'] dirs, n) := by
    intro rel hrel
    obtain ⟨loc, text, hf, rfl⟩ := (h3 rel).1 hrel
    obtain ⟨⟨dirs, n, rfl, _⟩, _⟩ := id hf
    exact ⟨dirs, n, text, hf, rfl, splitDir_join (valid_of_firmFile hd hf).2.1⟩
  refine ⟨k1.nodup_iff.2 ?_, k2, fun dir file => ?_⟩
  · refine List.Nodup.map_on ?_ h1
    intro a ha b hb hab
    obtain ⟨da, na, ta, fa, rfl, ea⟩ := hsplit a ha
    obtain ⟨db, nb, tb, fb, rfl, eb⟩ := hsplit b hb
    rw [ea, eb] at hab
    injection hab with e1 e2
    subst e2
    have va := (valid_of_firmFile hd fa).2.1
    have vb := (valid_of_firmFile hd fb).2.1
    have : da = db := by
      by_cases hda : da = []
      · subst hda
        rcases joinWith_eq_nil (c := '/') (ps := db) e1.symm with h | h
        · exact h.symm
        · rw [h] at vb; exact absurd rfl (vb [] (by simp)).nonempty
      · by_cases hdb : db = []
        · subst hdb
          rcases joinWith_eq_nil (c := '/') (ps := da) e1 with h | h
          · exact h
          · rw [h] at va; exact absurd rfl (va [] (by simp)).nonempty
        · have x1 := splitChar_join hda fun n hn => (va n (List.mem_append_left _ hn)).noSlash
          have x2 := splitChar_join hdb fun n hn => (vb n (List.mem_append_left _ hn)).noSlash
          rw [e1, x2] at x1
          exact x1.symm
    rw [this]
  · rw [k1.mem_iff, List.mem_map]
    constructor
    · rintro ⟨rel, hrel, he⟩
      obtain ⟨dirs, n, text, hf, rfl, e⟩ := hsplit rel hrel
      rw [e] at he
      cases he
      exact ⟨dirs, text, hf, rfl⟩
    · rintro ⟨dirs, text, hf, rfl⟩
      exact ⟨_, (h3 _).2 ⟨_, text, hf, rfl⟩, splitDir_join (valid_of_firmFile hd hf).2.1⟩

example : LoadsAs exHost.grammar exHost.ws exServer.disk exServer.state.workspace := exServer_serves.1

example : sourceTree (placeText exHost.ws) exServer.state.workspace = [([], ["a.firm".toList, "b.firm".toList])] := by
  decide +kernel

end Firm
