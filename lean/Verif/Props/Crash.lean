import Verif.Props.Moments
import Verif.Props.Strings
import Verif.Props.Tools
import Verif.Props.Workspace

/-!
# What can crash the build of a workspace

C136: only a multi-line string whose common indentation ends inside a character, and a zone whose number of seconds
is too large for 32 bits.
-/

namespace Firm
open Spec

/-! ## Strings -/

/-- The common indentation of the lines ends inside a character of one of them. -/
def Spec.SplitsCharacter (lines : List Str) : Prop :=
  ∃ n, CommonIndent n lines ∧ (∃ l ∈ lines, ∃ c ∈ l, isWs c = false) ∧
    ∃ l ∈ lines, n < byteLen l ∧ ∀ p, p <+: l → byteLen p ≠ n

theorem dropBytes_none {n : Nat} {s : Str} : dropBytes n s = none ↔ ∀ p, p <+: s → byteLen p ≠ n := by
  constructor
  · rintro h p ⟨r, rfl⟩ rfl
    rw [dropBytes_append] at h
    cases h
  · intro h
    cases hd : dropBytes n s with
    | none => rfl
    | some r =>
      obtain ⟨a, rfl, ha⟩ := dropBytes_some hd
      exact absurd ha (h a ⟨r, rfl⟩)

theorem cutLine_none {n : Nat} {l : Str} : cutLine n l = none ↔ n < byteLen l ∧ ∀ p, p <+: l → byteLen p ≠ n := by
  unfold cutLine
  split
  · next h =>
    rw [dropBytes_none]
    refine ⟨fun h' => ⟨?_, h'⟩, fun h' => h'.2⟩
    have := h' l (List.prefix_refl l)
    omega
  · next h => exact ⟨fun h' => (by cases h'), fun h' => by omega⟩

theorem mapM_none {α β : Type} {f : α → Option β} {as : List α} : as.mapM f = none ↔ ∃ a ∈ as, f a = none := by
  induction as with
  | nil => simp
  | cons a as ih =>
    rw [List.mapM_cons]
    cases ha : f a with
    | none => exact ⟨fun _ => ⟨a, by simp, ha⟩, fun _ => rfl⟩
    | some b =>
      cases hm : as.mapM f with
      | none =>
        obtain ⟨x, hx, hf⟩ := ih.1 hm
        exact ⟨fun _ => ⟨x, by simp [hx], hf⟩, fun _ => rfl⟩
      | some bs =>
        refine ⟨fun h => (by cases h), ?_⟩
        rintro ⟨x, hx, hf⟩
        rcases List.mem_cons.1 hx with rfl | hx
        · rw [ha] at hf; cases hf
        · have := ih.2 ⟨x, hx, hf⟩
          rw [hm] at this; cases this

theorem minIndent_blank {lines : List Str} (h : ¬ ∃ l ∈ lines, ∃ c ∈ l, isWs c = false) : minIndent lines = 0 := by
  unfold minIndent
  have : (lines.filter fun l => !(trim l).isEmpty) = [] := by
    rw [List.filter_eq_nil_iff]
    intro l hl hc
    exact h ⟨l, hl, nonblank_iff.1 hc⟩
  rw [this]
  rfl

/-- C136: cutting the common indentation of a text crashes exactly when that indentation ends inside a character. -/
theorem C136_string (s : Str) : trimCommonIndentation s = none ↔ SplitsCharacter (strLines s) := by
  unfold trimCommonIndentation
  rw [Option.map_eq_none_iff, mapM_none]
  constructor
  · rintro ⟨l, hl, hc⟩
    rw [cutLine_none] at hc
    refine ⟨_, minIndent_common _, ?_, l, hl, hc⟩
    apply Decidable.byContradiction
    intro hb
    rw [minIndent_blank hb] at hc
    exact hc.2 [] List.nil_prefix rfl
  · rintro ⟨n, hn, hb, l, hl, hc⟩
    rw [commonIndent_unique hn (minIndent_common _) hb] at hc
    exact ⟨l, hl, cutLine_none.2 hc⟩

/-- The text between the quotation marks of a multi-line string: after as many groups of three as there are at the
beginning, and before as many as there are then at the end. -/
def Spec.Between (raw s : Str) : Prop :=
  tripleQuote <+: raw ∧ tripleQuote <:+ raw ∧
  ∃ a b, raw = (List.replicate a tripleQuote).flatten ++ (s ++ (List.replicate b tripleQuote).flatten) ∧
    ¬ tripleQuote <+: s ++ (List.replicate b tripleQuote).flatten ∧ ¬ tripleQuote <:+ s

theorem trimTriple_iff (r t : Str) :
    trimTriple r = t ↔ ∃ a, r = (List.replicate a tripleQuote).flatten ++ t ∧ ¬ tripleQuote <+: t := by
  constructor
  · rintro rfl
    induction r using trimTriple.induct with
    | case1 s ih =>
      obtain ⟨a, h1, h2⟩ := ih
      refine ⟨a + 1, ?_, by rw [trimTriple]; exact h2⟩
      rw [trimTriple, List.replicate_succ, List.flatten_cons, List.append_assoc, ← h1]
      rfl
    | case2 s h =>
      have he : trimTriple s = s := by
        rw [trimTriple]
        exact h
      refine ⟨0, by rw [he]; rfl, ?_⟩
      rw [he]
      rintro ⟨r, hr⟩
      exact h r hr.symm
  · rintro ⟨a, rfl, h⟩
    induction a with
    | zero =>
      show trimTriple t = t
      rw [trimTriple]
      rintro s rfl
      exact h ⟨s, rfl⟩
    | succ a ih =>
      rw [List.replicate_succ, List.flatten_cons, List.append_assoc]
      show trimTriple ('"' :: '"' :: '"' :: _) = t
      rw [trimTriple]
      exact ih

theorem reverse_groups (b : Nat) : (List.replicate b tripleQuote).flatten.reverse = (List.replicate b tripleQuote).flatten := by
  rw [List.reverse_flatten]
  simp [tripleQuote]

theorem trimTripleEnd_iff (t s : Str) :
    trimTripleEnd t = s ↔ ∃ b, t = s ++ (List.replicate b tripleQuote).flatten ∧ ¬ tripleQuote <:+ s := by
  have hrev : trimTripleEnd t = s ↔ trimTriple t.reverse = s.reverse := by
    unfold trimTripleEnd
    rw [List.reverse_eq_iff]
  have hq : tripleQuote <+: s.reverse ↔ tripleQuote <:+ s := by
    rw [← List.reverse_suffix, List.reverse_reverse]
    rfl
  rw [hrev, trimTriple_iff, hq]
  refine exists_congr fun b => and_congr_left fun _ => ?_
  rw [List.reverse_eq_iff, List.reverse_append, List.reverse_reverse, reverse_groups]

theorem between_iff (raw s : Str) : Between raw s ↔
    (startsWith raw tripleQuote && endsWith raw tripleQuote) = true ∧ trimTripleEnd (trimTriple raw) = s := by
  have h1 : startsWith raw tripleQuote = true ↔ tripleQuote <+: raw := List.isPrefixOf_iff_prefix
  have h2 : endsWith raw tripleQuote = true ↔ tripleQuote <:+ raw := List.isSuffixOf_iff_suffix
  rw [Bool.and_eq_true, h1, h2, trimTripleEnd_iff, and_assoc]
  unfold Between
  refine and_congr_right fun _ => and_congr_right fun _ => ?_
  constructor
  · rintro ⟨a, b, e1, e2, e3⟩
    exact ⟨b, (trimTriple_iff _ _).2 ⟨a, e1, e2⟩, e3⟩
  · rintro ⟨b, e1, e3⟩
    obtain ⟨a, k1, k2⟩ := (trimTriple_iff _ _).1 e1
    exact ⟨a, b, k1, k2, e3⟩

theorem parseString_panic (raw : Str) :
    parseString raw = .error .panic ↔ ∃ s, Between raw s ∧ SplitsCharacter (strLines s) := by
  constructor
  · intro h
    unfold parseString at h
    split at h
    · next hq =>
      split at h
      · cases h
      · next hn => exact ⟨_, (between_iff _ _).2 ⟨hq, rfl⟩, (C136_string _).1 hn⟩
    · cases h
  · rintro ⟨s, hb, hs⟩
    obtain ⟨h1, rfl⟩ := (between_iff _ _).1 hb
    unfold parseString
    rw [if_pos h1, (C136_string _).2 hs]

/-! ## Zones -/

/-- A date-time whose zone has more seconds than fit into 32 bits: after the date and ` at `, the text between the
first ` UTC` and the next one (or the end) is a number of hours. -/
def Spec.WideZone (raw : Str) : Prop :=
  ∃ date rest day before zone more hours, Cut " at ".toList raw [date, rest] ∧ parseCivil date = some day ∧
    Cut " UTC".toList rest (before :: zone :: more) ∧ parseI32 zone = some hours ∧
    ¬ (-(2 ^ 31) ≤ hours * 3600 ∧ hours * 3600 < 2 ^ 31)

theorem splitStr_iff {old : Str} (ho : old ≠ []) (s : Str) (ps : List Str) : splitStr old s = ps ↔ Cut old s ps :=
  ⟨fun h => h ▸ splitStr_cut ho s, fun h => cut_unique (splitStr_cut ho s) h⟩

theorem parseUtcOffset_panic (L : Lang) (s : Str) : parseUtcOffset L s = .error .panic ↔
    L.env.overflowChecks = true ∧ ∃ h, parseI32 s = some h ∧ ¬ (-(2 ^ 31) ≤ h * 3600 ∧ h * 3600 < 2 ^ 31) := by
  unfold parseUtcOffset hoursToSeconds
  by_cases hs : s = []
  · subst hs
    refine ⟨fun h => (by cases h), fun ⟨_, h, h1, _⟩ => ?_⟩
    rw [show parseI32 [] = none from rfl] at h1
    cases h1
  · rw [if_neg hs]
    cases hp : parseI32 s with
    | none => exact ⟨fun h => (by cases h), fun ⟨_, h, h1, _⟩ => (by cases h1)⟩
    | some h =>
      dsimp only
      by_cases hr : -(2 ^ 31) ≤ h * 3600 ∧ h * 3600 < 2 ^ 31
      · rw [if_pos hr]
        dsimp only
        refine ⟨fun h' => ?_, fun ⟨_, k, h1, h2⟩ => ?_⟩
        · split at h' <;> cases h'
        · cases h1
          exact absurd hr h2
      · rw [if_neg hr]
        by_cases hc : L.env.overflowChecks = true
        · rw [if_pos hc]
          exact ⟨fun _ => ⟨hc, h, rfl, hr⟩, fun _ => rfl⟩
        · rw [if_neg hc]
          dsimp only
          refine ⟨fun h' => ?_, fun h' => absurd h'.1 hc⟩
          split at h' <;> cases h'

theorem splitZone_panic (L : Lang) (s : Str) : splitZone L s = .error .panic ↔
    L.env.overflowChecks = true ∧ ∃ before zone more hours, Cut " UTC".toList s (before :: zone :: more) ∧
      parseI32 zone = some hours ∧ ¬ (-(2 ^ 31) ≤ hours * 3600 ∧ hours * 3600 < 2 ^ 31) := by
  have hu : " UTC".toList = utcMark := rfl
  rw [hu]
  unfold splitZone
  by_cases hc : strContains s utcMark = true
  · rw [if_pos hc]
    obtain ⟨b, z, m, hp⟩ : ∃ b z m, splitStr utcMark s = b :: z :: m := by
      have hcut := splitStr_cut (old := utcMark) (by decide) s
      generalize splitStr utcMark s = ps at hcut
      cases hcut with
      | last hn => exact absurd ((strContains_iff _ _).1 hc) hn
      | next _ h2 =>
        obtain ⟨z, m, rfl⟩ := List.exists_cons_of_ne_nil (cut_ne_nil h2)
        exact ⟨_, z, m, rfl⟩
    have hcut := splitStr_cut (old := utcMark) (by decide) s
    rw [hp] at hcut ⊢
    have hmap : ((parseUtcOffset L z).map fun o => (b, o)) = .error .panic ↔ parseUtcOffset L z = .error .panic := by
      cases parseUtcOffset L z with
      | ok o => exact ⟨fun h => (by cases h), fun h => (by cases h)⟩
      | error e => exact ⟨fun h => (by cases h; rfl), fun h => (by cases h; rfl)⟩
    refine hmap.trans ((parseUtcOffset_panic L z).trans (and_congr_right fun _ => ?_))
    constructor
    · rintro ⟨h, h1, h2⟩
      exact ⟨b, z, m, h, hcut, h1, h2⟩
    · rintro ⟨b', z', m', h, h0, h1, h2⟩
      cases cut_unique hcut h0
      exact ⟨h, h1, h2⟩
  · rw [if_neg hc]
    refine ⟨fun h => (by cases h), ?_⟩
    rintro ⟨_, before, zone, more, hours, h1, _⟩
    cases h1
    exact absurd ((strContains_iff _ _).2 ⟨_, _, rfl⟩) hc

theorem parseDateTime_panic (L : Lang) (raw : Str) :
    parseDateTime L raw = .error .panic ↔ L.env.overflowChecks = true ∧ WideZone raw := by
  have ha : " at ".toList = atMark := rfl
  have hcut := splitStr_cut (old := atMark) (by decide) raw
  constructor
  · intro h
    unfold parseDateTime at h
    split at h
    · next date rest hs =>
      rw [hs] at hcut
      split at h
      · cases h
      · next day hd =>
        split at h
        · next e he =>
          cases h
          obtain ⟨h0, b, z, m, hours, h1, h2, h3⟩ := (splitZone_panic L rest).1 he
          exact ⟨h0, date, rest, day, b, z, m, hours, hcut, hd, h1, h2, h3⟩
        · split at h <;> cases h
    · cases h
  · rintro ⟨h0, date, rest, day, b, z, m, hours, h1, h2, h3, h4, h5⟩
    rw [ha] at h1
    unfold parseDateTime
    rw [cut_unique hcut h1]
    simp only [h2, (splitZone_panic L rest).2 ⟨h0, b, z, m, hours, h3, h4, h5⟩]

/-! ## Values -/

/-- The literals that crash the reader: multi-line strings whose common indentation ends inside a character, and, if
the program checks for overflow, date-times with too wide a zone. -/
inductive Spec.Crashes (L : Lang) : Str → Str → Prop
  | text {raw s : Str} : Between raw s → SplitsCharacter (strLines s) → Crashes L "string".toList raw
  | zone {raw : Str} : L.env.overflowChecks = true → WideZone raw → Crashes L "datetime".toList raw

/-- C136: a literal crashes the reader exactly when it is one of these. -/
theorem C136_literal (L : Lang) (source kind raw : Str) :
    parseLeaf L source kind raw = .error .panic ↔ Crashes L kind raw := by
  constructor
  · intro h
    unfold parseLeaf at h
    split at h
    · unfold parseBoolean at h
      split at h
      · cases h
      · split at h <;> cases h
    split at h
    · next hk =>
      subst hk
      obtain ⟨s, h1, h2⟩ := (parseString_panic raw).1 h
      exact .text h1 h2
    split at h
    · unfold parseNumber at h
      split at h <;> split at h <;> cases h
    split at h
    · unfold parseCurrency at h
      split at h
      · split at h
        · cases h
        · split at h <;> cases h
      · cases h
    split at h
    · unfold parseReference at h
      split at h <;> cases h
    split at h
    · unfold parseDate at h
      split at h <;> cases h
    split at h
    · next hk =>
      subst hk
      obtain ⟨h1, h2⟩ := (parseDateTime_panic L raw).1 h
      exact .zone h1 h2
    split at h
    · unfold parsePath at h
      dsimp only at h
      split at h <;> cases h
    split at h <;> cases h
  · intro h
    cases h with
    | text h1 h2 =>
      rw [parseLeaf_string]
      exact (parseString_panic raw).2 ⟨_, h1, h2⟩
    | zone h1 h2 =>
      unfold parseLeaf
      rw [if_neg (by decide), if_neg (by decide), if_neg (by decide), if_neg (by decide), if_neg (by decide),
        if_neg (by decide), if_pos rfl]
      exact (parseDateTime_panic L raw).2 ⟨h1, h2⟩

/-- A value with a literal in it, at any depth, of which `P` holds. -/
inductive Spec.HasLiteral (P : Str → Str → Prop) : Node → Prop
  | leaf {k raw kind text : Str} {items rest : List Node} : kind ≠ "list".toList → P kind raw →
      HasLiteral P (.mk k raw (.mk kind text items :: rest))
  | item {k raw text : Str} {items rest : List Node} {n : Node} : n ∈ items → n.kind = "value".toList → HasLiteral P n →
      HasLiteral P (.mk k raw (.mk "list".toList text items :: rest))

theorem parseListFromVec_panic (vs : List ParsedValue) : parseListFromVec vs ≠ .error .panic := by
  have key : ∀ (n : Str) (i : Nat) (vs : List ParsedValue), checkItems n i vs ≠ .error .panic := by
    intro n i vs
    induction vs generalizing i with
    | nil => intro h; cases h
    | cons v vs ih =>
      rw [checkItems]
      split
      · intro h; cases h
      · exact ih _
  unfold parseListFromVec
  split
  · intro h; cases h
  · split
    · intro h; cases h
    · next v vs e he =>
      intro h
      cases h
      exact key _ _ _ he

mutual
theorem fromNode_panic (L : Lang) (source : Str) : ∀ n : Node, fromNode L source n = .error .panic →
    HasLiteral (Crashes L) n
  | .mk _ _ [], h => by rw [fromNode] at h; cases h
  | .mk k raw (.mk kind text items :: rest), h => by
    rw [fromNode] at h
    split at h
    · next hk =>
      subst hk
      split at h
      · exact absurd h (parseListFromVec_panic _)
      · next e he =>
        cases h
        obtain ⟨n, h1, h2, h3⟩ := fromItems_panic L source items he
        exact .item h1 h2 h3
    · next hk => exact .leaf hk ((C136_literal L source kind raw).1 h)
theorem fromItems_panic (L : Lang) (source : Str) : ∀ ns : List Node, fromItems L source ns = .error .panic →
    ∃ n ∈ ns, n.kind = "value".toList ∧ HasLiteral (Crashes L) n
  | [], h => by rw [fromItems] at h; cases h
  | n :: ns, h => by
    rw [fromItems] at h
    split at h
    · next hk =>
      split at h
      · next e he =>
        cases h
        exact ⟨n, by simp, hk, fromNode_panic L source n he⟩
      · split at h
        · next e he =>
          cases h
          obtain ⟨m, h1, h2⟩ := fromItems_panic L source ns he
          exact ⟨m, by simp [h1], h2⟩
        · cases h
    · obtain ⟨m, h1, h2⟩ := fromItems_panic L source ns h
      exact ⟨m, by simp [h1], h2⟩
end

theorem fromItems_ok {L : Lang} {source : Str} {ns : List Node} {vs : List ParsedValue}
    (h : fromItems L source ns = .ok vs) : ∀ n ∈ ns, n.kind = "value".toList → ∃ v, fromNode L source n = .ok v := by
  induction ns generalizing vs with
  | nil => intro n hn; cases hn
  | cons m ns ih =>
    rw [fromItems] at h
    intro n hn hk
    split at h
    · split at h
      · cases h
      · next v hv =>
        split at h
        · cases h
        · next vs' hvs =>
          rcases List.mem_cons.1 hn with rfl | hn
          · exact ⟨v, hv⟩
          · exact ih hvs n hn hk
    · next hm =>
      rcases List.mem_cons.1 hn with rfl | hn
      · exact absurd hk hm
      · exact ih h n hn hk

/-- A value with such a literal in it is not read. -/
theorem fromNode_refused {L : Lang} (source : Str) {n : Node} (h : HasLiteral (Crashes L) n) (v : ParsedValue) :
    fromNode L source n ≠ .ok v := by
  induction h generalizing v with
  | leaf hk hp =>
    rw [fromNode, if_neg hk, (C136_literal L source _ _).2 hp]
    intro h; cases h
  | item hn hk _ ih =>
    rw [fromNode, if_pos rfl]
    cases hi : fromItems L source _ with
    | error e => intro h; cases h
    | ok vs =>
      obtain ⟨w, hw⟩ := fromItems_ok hi _ hn hk
      exact absurd hw (ih w)

/-! ## Files -/

/-- A node of a tree. -/
inductive Spec.Below : Node → Node → Prop
  | here (n : Node) : Below n n
  | child {n c m : Node} : c ∈ n.children → Below c m → Below n m

theorem Spec.Below.trans {a b c : Node} (h : Below a b) (h' : Below b c) : Below a c := by
  induction h with
  | here => exact h'
  | child h1 _ ih => exact .child h1 (ih h')

/-- A value in the tree that crashes the reader. -/
def Spec.CrashesBelow (L : Lang) (n : Node) : Prop :=
  ∃ v, Below n v ∧ v.kind = "value".toList ∧ HasLiteral (Crashes L) v

theorem childOfKind_mem {n c : Node} {k : String} (h : n.childOfKind k = some c) : c ∈ n.children ∧ c.kind = k.toList :=
  ⟨List.mem_of_find?_eq_some h, by simpa using List.find?_some h⟩

theorem crashes_up {L : Lang} {n m : Node} (h : Below n m) (hc : CrashesBelow L m) : CrashesBelow L n := by
  obtain ⟨v, h1, h2⟩ := hc
  exact ⟨v, h.trans h1, h2⟩

theorem blockItems_below {n c : Node} {k : String} (h : c ∈ n.blockItems k) : Below n c := by
  unfold Node.blockItems at h
  split at h
  · cases h
  · next b hb => exact .child (childOfKind_mem hb).1 (.child (List.mem_filter.1 h).1 (.here c))

theorem fieldValue_panic {L : Lang} {source : Str} {n : Node} (h : fieldValue L source n = .error .panic) :
    CrashesBelow L n := by
  unfold fieldValue at h
  split at h
  · cases h
  · next v hv =>
    obtain ⟨h1, h2⟩ := childOfKind_mem hv
    exact ⟨v, .child h1 (.here v), h2, fromNode_panic L source v h⟩

theorem findField_panic {L : Lang} {source : Str} {n f : Node} {name : String} (hf : findFieldByName n name = some f)
    (h : fieldValue L source f = .error .panic) : CrashesBelow L n :=
  crashes_up (blockItems_below (List.mem_of_find?_eq_some hf)) (fieldValue_panic h)

theorem collectResults_fails {α β ε : Type} {f : α → Except ε β} {as : List α} {e : ε}
    (h : collectResults f as = .error e) : ∃ a ∈ as, f a = .error e := by
  induction as with
  | nil => cases h
  | cons a as ih =>
    rw [collectResults] at h
    split at h
    · next err he => cases h; exact ⟨a, by simp, he⟩
    · split at h
      · next err he =>
        cases h
        obtain ⟨x, hx, hfx⟩ := ih he
        exact ⟨x, by simp [hx], hfx⟩
      · cases h

theorem toEntity_panic {L : Lang} {source : Str} {n : Node} (h : toEntity L source n = .error .panic) :
    CrashesBelow L n := by
  unfold toEntity at h
  split at h
  · cases h
  · split at h
    · cases h
    · split at h
      · next e he =>
        cases h
        obtain ⟨f, hf, hp⟩ := collectResults_fails he
        refine crashes_up (blockItems_below hf) ?_
        unfold toField at hp
        split at hp
        · cases hp
        · split at hp
          · cases hp
          · next hv => exact fieldValue_panic hv
          · cases hp
      · cases h

theorem stringField_panic {L : Lang} {source : Str} {n : Node} {name : String}
    (h : stringField L source n name = .error .panic) : CrashesBelow L n := by
  unfold stringField at h
  split at h
  · cases h
  · next f hf =>
    split at h
    · cases h
    · cases h
    · next e he => cases h; exact findField_panic hf he

theorem toSchemaField_panic {L : Lang} {source : Str} {order : Nat} {n : Node}
    (h : toSchemaField L source order n = .error .panic) : CrashesBelow L n := by
  have herr : ∀ {e err}, err ≠ SchemaConversionError.panic → Except.error (schemaErr e err) =
      (.error .panic : Except SchemaConversionError (FieldId × FieldSchema)) → e = .panic := by
    intro e err hne hh
    injection hh with hh
    unfold schemaErr at hh
    split at hh
    · assumption
    · exact absurd hh hne
  unfold toSchemaField at h
  split at h
  · next e he =>
    cases herr (by exact fun h => SchemaConversionError.noConfusion h) h
    exact stringField_panic he
  · split at h
    · next e he =>
      cases herr (by exact fun h => SchemaConversionError.noConfusion h) h
      exact stringField_panic he
    · split at h
      · next e he =>
        cases h
        unfold convertFieldType at he
        repeat (split at he; · cases he)
        cases he
      · split at h
        · next hr =>
          unfold requiredFlag at hr
          split at hr
          · cases hr
          · next f hf =>
            split at hr
            · cases hr
            · next hv => exact findField_panic hf hv
            · cases hr
        · dsimp only at h
          split at h
          · split at h
            · next ha =>
              unfold allowedValuesOf at ha
              split at ha
              · cases ha
              · next f hf =>
                split at ha
                · cases ha
                · next hv => exact findField_panic hf hv
                · cases ha
            · cases h
            · cases h
          · cases h

theorem toSchema_panic {L : Lang} {source : Str} {n : Node} (h : toSchema L source n = .error .panic) :
    CrashesBelow L n := by
  have key : ∀ (ns : List Node) (s : EntitySchema) (k : Nat), toSchemaFields L source s k ns = .error .panic →
      ∃ m ∈ ns, CrashesBelow L m := by
    intro ns
    induction ns with
    | nil => intro s k h; cases h
    | cons m ns ih =>
      intro s k h
      rw [toSchemaFields] at h
      split at h
      · next e he => cases h; exact ⟨m, by simp, toSchemaField_panic he⟩
      · obtain ⟨x, hx, hc⟩ := ih _ _ h
        exact ⟨x, by simp [hx], hc⟩
  unfold toSchema at h
  split at h
  · cases h
  · obtain ⟨m, hm, hc⟩ := key _ _ _ h
    exact crashes_up (blockItems_below (List.mem_filter.1 hm).1) hc

theorem schemaPass_panic {L : Lang} {w : Workspace} {m : List (EntityType × EntitySchema)}
    (h : schemaPass L m w = .error .panic) : ∃ p ∈ w, CrashesBelow L p.2.root := by
  have key : ∀ (path rel : Str) (ns : List Node) (m : List (EntityType × EntitySchema)),
      addSchemas L path rel m ns = .error .panic → ∃ n ∈ ns, CrashesBelow L n := by
    intro path rel ns
    induction ns with
    | nil => intro m h; cases h
    | cons n ns ih =>
      intro m h
      rw [addSchemas] at h
      split at h
      · next he => exact ⟨n, by simp, toSchema_panic he⟩
      · cases h
      · split at h
        · cases h
        · obtain ⟨x, hx, hc⟩ := ih _ h
          exact ⟨x, by simp [hx], hc⟩
  induction w generalizing m with
  | nil => cases h
  | cons p w ih =>
    obtain ⟨path, f⟩ := p
    rw [schemaPass] at h
    split at h
    · next e he =>
      cases h
      obtain ⟨n, hn, hc⟩ := key _ _ _ _ he
      exact ⟨(path, f), by simp, crashes_up (.child (List.mem_filter.1 hn).1 (.here n)) hc⟩
    · obtain ⟨q, hq, hc⟩ := ih h
      exact ⟨q, by simp [hq], hc⟩

theorem entityPass_panic {L : Lang} {w : Workspace} {m : List (EntityType × EntitySchema)}
    (h : entityPass L m w = .error .panic) : ∃ p ∈ w, CrashesBelow L p.2.root := by
  induction w with
  | nil => cases h
  | cons p w ih =>
    obtain ⟨path, f⟩ := p
    rw [entityPass] at h
    split at h
    · next e he =>
      cases h
      obtain ⟨n, hn, hp⟩ := collectResults_fails he
      refine ⟨(path, f), by simp, crashes_up (.child (List.mem_filter.1 hn).1 (.here n)) ?_⟩
      unfold checkEntity at hp
      split at hp
      · next ht => exact toEntity_panic ht
      · cases hp
      · split at hp
        · cases hp
        · split at hp <;> cases hp
    · split at h
      · next e he =>
        cases h
        obtain ⟨q, hq, hc⟩ := ih he
        exact ⟨q, by simp [hq], hc⟩
      · cases h

/-- C136: a build crashes only if a value in one of the files is, or is a list with, a literal of `Crashes`. -/
theorem C136_build (L : Lang) (w : Workspace) (h : w.build L = .error .panic) :
    ∃ p ∈ w, CrashesBelow L p.2.root := by
  unfold Workspace.build at h
  split at h
  · next e he => cases h; exact schemaPass_panic he
  · split at h
    · next e he => cases h; exact entityPass_panic he
    · cases h

theorem forall₂_partner {α β : Type} {R : α → β → Prop} {as : List α} {bs : List β} (h : List.Forall₂ R as bs) {a : α}
    (ha : a ∈ as) : ∃ b, R a b := by
  induction h with
  | nil => cases ha
  | @cons a' b' _ _ h1 _ ih =>
    rcases List.mem_cons.1 ha with rfl | ha
    · exact ⟨b', h1⟩
    · exact ih ha

/-- C136: and a workspace with such a value in a field of an entity is never built. -/
theorem C136_never_built (L : Lang) {w : Workspace} {path : Str} {f : SourceFile} (hf : (path, f) ∈ w) {n fd v : Node}
    (hn : n ∈ f.entities) (hfd : fd ∈ entityFields n) (hv : fd.childOfKind "value" = some v)
    (hc : HasLiteral (Crashes L) v) (b : WorkspaceBuild) : w.build L ≠ .ok b := by
  intro hb
  have hval := (C41_build L w b.entities b.schemas).1 hb
  have hmem : (f.rel, n) ∈ blocksOf "entity_block" w :=
    List.mem_flatMap.2 ⟨(path, f), hf, List.mem_map.2 ⟨n, hn, rfl⟩⟩
  obtain ⟨e, he⟩ : ∃ e, toEntity L f.rel n = .ok e := forall₂_partner hval.entities hmem
  unfold toEntity at he
  split at he
  · cases he
  · split at he
    · cases he
    · split at he
      · cases he
      · next fs hfs =>
        obtain ⟨p, hp⟩ := forall₂_partner (collectResults_forall.1 hfs) hfd
        unfold toField at hp
        split at hp
        · cases hp
        · unfold fieldValue at hp
          rw [hv] at hp
          dsimp only at hp
          split at hp
          · next x hx => exact fromNode_refused f.rel hc x hx
          · cases hp
          · cases hp

theorem hasLiteral_below {P : Str → Str → Prop} {v : Node} (h : HasLiteral P v) :
    ∃ m kind, Below v m ∧ P kind m.text := by
  induction h with
  | @leaf k raw kind text items rest _ hp => exact ⟨_, kind, .here _, hp⟩
  | @item k raw text items rest n hn _ _ ih =>
    obtain ⟨m, kind, h1, h2⟩ := ih
    exact ⟨m, kind, .child (c := .mk "list".toList text items) (by simp [Node.children]) (.child hn h1), h2⟩

/-- C136: with blanks of one byte only and no wide zones, or none that are noticed, no build crashes. -/
theorem C136_plain (L : Lang) {w : Workspace} (h : ∀ p ∈ w, ∀ m, Below p.2.root m →
    PlainSpace m.text ∧ (L.env.overflowChecks = true → ¬ WideZone m.text)) : w.build L ≠ .error .panic := by
  intro hb
  obtain ⟨p, hp, v, h1, _, h2⟩ := C136_build L w hb
  obtain ⟨m, kind, h3, h4⟩ := hasLiteral_below h2
  obtain ⟨k1, k2⟩ := h p hp m (h1.trans h3)
  generalize m.text = raw at h4 k1 k2
  cases h4 with
  | @text _ s hbt hs =>
    refine C54_no_panic (s := s) (fun c hc => k1 c ?_) ((C136_string s).2 hs)
    obtain ⟨_, _, a, b, he, _⟩ := hbt
    rw [he]
    simp [hc]
  | zone ho hz => exact k2 ho hz

/-! ## Examples -/

/-- A file with one entity, whose text has a wide blank before `x` and a narrow one before `y`. -/
def exWideFile : SourceFile :=
  ⟨.mk "source_file".toList [] [.mk "entity_block".toList [] [.mk "entity_type".toList "note".toList [],
    .mk "entity_id".toList "n".toList [], .mk "block".toList [] [.mk "field".toList [] [.mk "field_name".toList "text".toList [],
      .mk "value".toList ("\"\"\"".toList ++ Char.ofNat 0x3000 :: "x\n y\"\"\"".toList) [.mk "string".toList [] []]]]]], "a.firm".toList⟩

/-- The indentation common to the two lines is one byte, which ends inside the wide blank. -/
theorem exWide_splits : SplitsCharacter (strLines (Char.ofNat 0x3000 :: "x\n y".toList)) :=
  (C136_string _).1 (by decide +kernel)

example : Workspace.build exLang [("a.firm".toList, exWideFile)] = .error .panic := by decide +kernel

example : Crashes exLang "string".toList ("\"\"\"".toList ++ Char.ofNat 0x3000 :: "x\n y\"\"\"".toList) :=
  .text ((between_iff _ _).2 ⟨by decide, by decide⟩) exWide_splits

/-- A date-time with too wide a zone. -/
example (L : Lang) (h : L.env.overflowChecks = true) : Crashes L "datetime".toList "2024-01-01 at 12:00 UTC1193047".toList :=
  .zone h ((parseDateTime_panic L _).1 ((C91_wraps L).1 h)).2

end Firm
