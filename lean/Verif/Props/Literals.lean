import Verif.Spec.Literals
import Verif.Lemmas.Calendar
import Verif.Props.Names
import Verif.Props.Workspace

/-!
# Properties of literals (C50–C54)
-/

namespace Firm
open Spec

variable {L : Lang} {o : GeneratorOptions} {source : Str}

/-- Reading a literal other than a list. -/
theorem fromNode_leaf {v : FieldValue} (h : ∀ items, v ≠ .list items) :
    fromNode L source (valueNode L o v) = parseLeaf L source (literalKind v).toList (generateValue L o v) := by
  cases v with
  | list items => exact absurd rfl (h items)
  | _ =>
    simp only [valueNode, fromNode]
    rw [if_neg (by simp only [literalKind]; decide)]

theorem parseLeaf_number (raw : Str) : parseLeaf L source "number".toList raw = parseNumber L raw := by
  unfold parseLeaf
  rw [if_neg (by decide), if_neg (by decide), if_pos rfl]

theorem parseLeaf_currency (raw : Str) : parseLeaf L source "currency".toList raw = parseCurrency L raw := by
  unfold parseLeaf
  rw [if_neg (by decide), if_neg (by decide), if_neg (by decide), if_pos rfl]

theorem parseLeaf_reference (raw : Str) : parseLeaf L source "reference".toList raw = parseReference raw := by
  unfold parseLeaf
  rw [if_neg (by decide), if_neg (by decide), if_neg (by decide), if_neg (by decide), if_pos rfl]

theorem parseLeaf_dateTime (raw : Str) : parseLeaf L source "datetime".toList raw = parseDateTime L raw := by
  unfold parseLeaf
  rw [if_neg (by decide), if_neg (by decide), if_neg (by decide), if_neg (by decide), if_neg (by decide),
    if_neg (by decide), if_pos rfl]

theorem tdiv_cases (off : Int) :
    (0 ≤ off ∧ Int.tdiv off 3600 = off / 3600) ∨ (off < 0 ∧ Int.tdiv off 3600 = -((-off) / 3600)) := by
  by_cases h : 0 ≤ off
  · exact Or.inl ⟨h, Int.tdiv_eq_ediv_of_nonneg h⟩
  · right
    refine ⟨by omega, ?_⟩
    rw [← Int.tdiv_eq_ediv_of_nonneg (by omega : 0 ≤ -off), Int.neg_tdiv, Int.neg_neg]

/-! ## C50 -/

/-- C50: booleans. -/
theorem C50_boolean (b : Bool) : ReadsBack L o source (.boolean b) := by
  cases b
  · exact ⟨.boolean false, rfl, rfl⟩
  · exact ⟨.boolean true, rfl, rfl⟩

/-- C50: 64-bit integers. -/
theorem C50_integer {n : Int} (h : isI64 n = true) : ReadsBack L o source (.integer n) := by
  refine ⟨.integer n, ?_, rfl⟩
  have hdot : '.' ∉ showInt n := by
    intro hm
    rcases mem_showInt hm with h | h
    · exact absurd h (by decide)
    · revert h; decide
  rw [fromNode_leaf (by simp)]
  show parseLeaf L source "number".toList (showInt n) = _
  rw [parseLeaf_number]
  unfold parseNumber
  rw [if_neg hdot, parseI64_showInt h]

/-- C50: currency amounts (`fits`: representable by the decimal type; currency codes contain no blank). -/
theorem C50_currency {d : Decimal} {code : Str} (hd : d.fits = true) (hc : L.knownCurrency code = true)
    (hb : ' ' ∉ code) : ReadsBack L o source (.currency d code) := by
  refine ⟨.currency d code, ?_, rfl⟩
  have hs : ' ' ∉ d.show := by
    intro hm
    rcases mem_show hm with h | h | h
    · exact absurd h (by decide)
    · exact absurd h (by decide)
    · revert h; decide
  rw [fromNode_leaf (by simp)]
  show parseLeaf L source "currency".toList (d.show ++ ' ' :: code) = _
  rw [parseLeaf_currency]
  unfold parseCurrency
  rw [splitChar_append _ hs, splitChar_none hb]
  simp only [parseDecimal_show hd, hc, if_true]

/-- Recomposing the two parts of a normal id. -/
theorem compose_parts (ht : RegularCase L.cases) {a b : Str} (h : IsSnake L.cases (a ++ '.' :: b)) :
    L.cases.composeEntityId a b = a ++ '.' :: b := by
  unfold CaseTable.composeEntityId
  rw [lower_fixed ht (fun c hc => (h.chars c (by simp [hc])).1), snake_fixed ht h]

/-- C50: references to entities, for normal ids of the form `type.id` (all ids of entities are, see
`C50_entity_ids`).  Missing: other texts, which `add_entity` takes for references (`C50_no_dot`). -/
theorem C50_entity_reference_partial (ht : RegularCase L.cases) {a b : Str} (ha : '.' ∉ a) (hb : '.' ∉ b)
    (h : IsSnake L.cases (a ++ '.' :: b)) :
    ReadsBack L o source (.reference (.entity (a ++ '.' :: b))) := by
  refine ⟨.entityRef a b, ?_, ?_⟩
  · rw [fromNode_leaf (by simp)]
    show parseLeaf L source "reference".toList (a ++ '.' :: b) = _
    rw [parseLeaf_reference]
    unfold parseReference
    rw [splitChar_append _ ha, splitChar_none hb]
  · simp only [toFieldValue, compose_parts ht h]

/-- C50 is false for references that are not of the form `type.id`: they do not read back. -/
theorem C50_no_dot {s : Str} (hs : '.' ∉ s) : ¬ ReadsBack L o source (.reference (.entity s)) := by
  rintro ⟨p, hp, _⟩
  rw [fromNode_leaf (by simp)] at hp
  have hp' : parseLeaf L source "reference".toList s = .ok p := hp
  rw [parseLeaf_reference] at hp'
  unfold parseReference at hp'
  rw [splitChar_none hs] at hp'
  cases hp'

example : '.' ∉ "bob".toList := by decide

/-- C50: references to fields. -/
theorem C50_field_reference_partial (ht : RegularCase L.cases) {a b f : Str} (ha : '.' ∉ a) (hb : '.' ∉ b)
    (hf : '.' ∉ f) (h : IsSnake L.cases (a ++ '.' :: b)) :
    ReadsBack L o source (.reference (.field (a ++ '.' :: b) f)) := by
  refine ⟨.fieldRef a b f, ?_, ?_⟩
  · rw [fromNode_leaf (by simp)]
    show parseLeaf L source "reference".toList ((a ++ '.' :: b) ++ '.' :: f) = _
    rw [parseLeaf_reference]
    unfold parseReference
    rw [List.append_assoc, List.cons_append, splitChar_append _ ha, splitChar_append _ hb, splitChar_none hf]
  · simp only [toFieldValue, compose_parts ht h]

/-- Normalisation keeps exactly one dot, wherever the delimiters are. -/
theorem snake_one_dot {t : CaseTable} (ht : RegularCase t) {a b : Str} (ha : '.' ∉ a) (hb : '.' ∉ b) :
    ∃ x y, t.snake (a ++ '.' :: b) = x ++ '.' :: y ∧ '.' ∉ x ∧ '.' ∉ y := by
  obtain ⟨pre, z, h1, h2⟩ := allWords_dot ht a b
  have hdot : t.lower ['.'] = ['.'] := by
    simp [CaseTable.lower, ht.keep '.' (ht.delim '.' (.inr rfl)).1]
  have hw : ∀ s, t.words s = (t.allWords s).filter (fun w => !w.isEmpty) := fun _ => rfl
  have hno : ∀ (s : Str) (ws : List Str), '.' ∉ s → (∀ w ∈ ws, w ∈ t.allWords s) →
      '.' ∉ joinUnderscore (ws.map t.lower) := by
    intro s ws hs hws h
    rcases mem_join h with h | ⟨w, hw, hc⟩
    · exact absurd h (by decide)
    · obtain ⟨v, hv, rfl⟩ := List.mem_map.1 hw
      exact hs ((allWords_ok (t := t) s v (hws v hv)).1 _ (dot_mem_lower ht hc)).1
  refine ⟨joinUnderscore ((pre.filter (fun w => !w.isEmpty) ++ [z]).map t.lower),
    joinUnderscore (((t.splitWords b).1 :: (t.splitWords b).2.filter (fun w => !w.isEmpty)).map t.lower),
    ?_, hno a _ ha ?_, hno b _ hb ?_⟩
  · rw [List.map_append, List.map_cons, List.map_cons, List.map_nil, ← join_glue]
    unfold CaseTable.snake
    rw [hw, h2, List.filter_append, List.filter_cons_of_pos (by simp), List.map_append, List.map_cons]
    congr 2
    rw [show z ++ '.' :: (t.splitWords b).1 = z ++ (['.'] ++ (t.splitWords b).1) from rfl, lower_append,
      lower_append, hdot]
    rfl
  · intro w h
    rw [h1]
    rcases List.mem_append.1 h with h | h
    · exact List.mem_append_left _ (List.mem_filter.1 h).1
    · exact List.mem_append_right _ h
  · intro w h
    rcases List.mem_cons.1 h with h | h
    · exact List.mem_cons.2 (.inl h)
    · exact List.mem_cons.2 (.inr (List.mem_filter.1 h).1)

/-- C50: the ids that references and entities get from the DSL have the form asked for. -/
theorem C50_entity_ids (ht : RegularCase L.cases) {ty id : Str} (hty : '.' ∉ ty) (hid : '.' ∉ id) :
    ∃ a b, L.cases.composeEntityId ty id = a ++ '.' :: b ∧ '.' ∉ a ∧ '.' ∉ b ∧
      IsSnake L.cases (a ++ '.' :: b) := by
  have hsn := C47_normal_partial ht (L.cases.lower ty ++ '.' :: id)
  have hone := snake_one_dot ht (a := L.cases.lower ty) (b := id)
    (fun h => hty (dot_mem_lower ht h)) hid
  obtain ⟨a, b, h1, h2, h3⟩ := hone
  exact ⟨a, b, h1, h2, h3, h1 ▸ hsn⟩

example : isI64 (-9223372036854775808) = true ∧ showInt (-9223372036854775808) = "-9223372036854775808".toList := by
  decide
example : (⟨-1234567, 2⟩ : Decimal).fits = true ∧ (⟨-5, 2⟩ : Decimal).show = "-0.05".toList ∧
    (⟨-1234567, 2⟩ : Decimal).show = "-12345.67".toList := by decide +kernel
example : IsSnake asciiTable ("person".toList ++ '.' :: "john_doe".toList) :=
  (C47_unchanged asciiTable_regular _).1 (by decide)

/-! ## C52 -/

/-- What is left of a date-time after writing it: whole minutes of local time and whole hours of
offset. -/
def truncated (d : DateTime) : DateTime :=
  let h := Int.tdiv d.offset 3600 * 3600
  ⟨(d.secs + d.offset) / 60 * 60 - h, 0, h⟩

theorem parseUtcOffset_zone {L : Lang} {off : Int} (h1 : -86400 < off) (h2 : off < 86400) :
    parseUtcOffset L (if off = 0 then [] else
      if 0 < offsetHours off then '+' :: showInt (offsetHours off) else showInt (offsetHours off)) =
      .ok (Int.tdiv off 3600 * 3600) := by
  by_cases h0 : off = 0
  · subst h0; rfl
  · rw [if_neg h0]
    have htd := tdiv_cases off
    have hlo : -24 < offsetHours off := by unfold offsetHours; omega
    have hhi : offsetHours off < 24 := by unfold offsetHours; omega
    have hpar : ∀ s : Str, s ≠ [] → parseI32 s = some (offsetHours off) →
        parseUtcOffset L s = .ok (Int.tdiv off 3600 * 3600) := by
      intro s hs hp
      unfold parseUtcOffset
      rw [if_neg hs, hp]
      simp only [hoursToSeconds]
      rw [if_pos (by omega)]
      simp only
      rw [if_pos (by omega)]
      rfl
    by_cases hp : 0 < offsetHours off
    · rw [if_pos hp]
      apply hpar _ (by simp)
      have : showInt (offsetHours off) = showNat (offsetHours off).natAbs := by
        unfold showInt; rw [if_neg (by omega)]
      unfold parseI32
      rw [this]
      simp only [parseSigned, parseNat_showNat, Option.map_some]
      rw [Option.filter_some, if_pos]
      · congr 1; omega
      · simp only [Bool.and_eq_true, decide_eq_true_eq]; omega
    · rw [if_neg hp]
      apply hpar
      · unfold showInt
        split
        · simp
        · exact showNat_ne_nil _
      · exact parseI32_showInt (by omega) (by omega)

/-- C52: a written date-time reads back with its local time cut to minutes and its offset cut to whole
hours. (The offsets of chrono are between −24 h and 24 h, the local year is in chrono's range.) -/
theorem C52_reads_as (d : DateTime) (h1 : -86400 < d.offset) (h2 : d.offset < 86400)
    (hy1 : -262143 ≤ (civilOf ((d.secs + d.offset) / 86400)).year)
    (hy2 : (civilOf ((d.secs + d.offset) / 86400)).year ≤ 262142) :
    ReadsAs L o source (.dateTime d) (.dateTime (truncated d)) := by
  refine ⟨.dateTime (truncated d), ?_, rfl⟩
  rw [fromNode_leaf (by simp)]
  show parseLeaf L source "datetime".toList (generateDateTime d) = _
  rw [parseLeaf_dateTime]
  generalize hloc : d.secs + d.offset = loc at *
  have hm := civilOf_month (loc / 86400)
  have hd := civilOf_day (loc / 86400)
  have hdm := daysInMonth_le (civilOf (loc / 86400)).year (civilOf (loc / 86400)).month
  have hv : (civilOf (loc / 86400)).valid = true := by
    unfold Civil.valid
    simp only [Bool.and_eq_true, decide_eq_true_eq]
    exact ⟨⟨⟨⟨⟨hy1, hy2⟩, hm.1⟩, hm.2⟩, hd.1⟩, hd.2⟩
  have hmin : (loc % 86400 / 60).toNat < 1440 := by omega
  let z : Str := if d.offset = 0 then [] else
      if 0 < offsetHours d.offset then '+' :: showInt (offsetHours d.offset) else showInt (offsetHours d.offset)
  have hgen : generateDateTime d = (civilOf (loc / 86400)).show ++ atMark ++
      (showTime (loc % 86400 / 60).toNat ++ utcMark ++ z) := by
    unfold generateDateTime
    simp only [hloc, z, utcMark]
    by_cases h0 : d.offset = 0
    · simp [h0, List.append_assoc]
    · by_cases hp : 0 < offsetHours d.offset <;> simp [h0, hp, List.append_assoc]
  have hz : ∀ c ∈ z, c = '+' ∨ c = '-' ∨ isDigit c = true := by
    intro c hc
    simp only [z] at hc
    split at hc
    · simp at hc
    · split at hc
      · rcases List.mem_cons.1 hc with h | h
        · exact Or.inl h
        · exact Or.inr (mem_showInt h)
      · exact Or.inr (mem_showInt hc)
  have hspd : ' ' ∉ (civilOf (loc / 86400)).show := by
    intro h
    rcases mem_civil_show (by omega) (by omega) h with h | h | h
    · exact absurd h (by decide)
    · exact absurd h (by decide)
    · revert h; decide
  have hspt : ' ' ∉ showTime (loc % 86400 / 60).toNat := by
    intro h
    rcases mem_showTime hmin h with h | h
    · exact absurd h (by decide)
    · revert h; decide
  have hspz : ' ' ∉ z := by
    intro h
    rcases hz _ h with h | h | h
    · exact absurd h (by decide)
    · exact absurd h (by decide)
    · revert h; decide
  have ha : 'a' ∉ showTime (loc % 86400 / 60).toNat ++ utcMark ++ z := by
    intro h
    simp only [List.mem_append] at h
    rcases h with (h | h) | h
    · rcases mem_showTime hmin h with h | h
      · exact absurd h (by decide)
      · revert h; decide
    · revert h; decide
    · rcases hz _ h with h | h | h
      · exact absurd h (by decide)
      · exact absurd h (by decide)
      · revert h; decide
  have hs1 : splitStr atMark (generateDateTime d) =
      [(civilOf (loc / 86400)).show, showTime (loc % 86400 / 60).toNat ++ utcMark ++ z] := by
    rw [hgen]
    have := splitStr_append (x := ' ') (sep := ['a', 't', ' ']) (showTime (loc % 86400 / 60).toNat ++ utcMark ++ z) hspd
    unfold atMark
    rw [this, splitStr_none (c := 'a') (by decide) ha]
  have hs2 : splitStr utcMark (showTime (loc % 86400 / 60).toNat ++ utcMark ++ z) =
      [showTime (loc % 86400 / 60).toNat, z] := by
    have := splitStr_append (x := ' ') (sep := ['U', 'T', 'C']) z hspt
    unfold utcMark
    rw [this, splitStr_none (c := ' ') (by decide) hspz]
  unfold parseDateTime
  rw [hs1]
  simp only [parseCivil_show hv, toDays_civilOf, splitZone, strContains_append, if_true, hs2]
  simp only [List.getElem?_cons_succ, List.getElem?_cons_zero, Option.getD_some, List.headD_cons]
  rw [show parseUtcOffset L z = .ok (Int.tdiv d.offset 3600 * 3600) from parseUtcOffset_zone h1 h2]
  simp only [Except.map, parseTime_show hmin]
  congr 2
  unfold localDateTime truncated
  congr 1
  rw [hloc]
  omega

/-- C52: hence the date-times that read back the same are those without seconds in local time and with
an offset of whole hours. Missing for the full claim: the others, which read back differently. -/
theorem C52_same_partial (d : DateTime) (h1 : -86400 < d.offset) (h2 : d.offset < 86400)
    (hy1 : -262143 ≤ (civilOf ((d.secs + d.offset) / 86400)).year)
    (hy2 : (civilOf ((d.secs + d.offset) / 86400)).year ≤ 262142) :
    ReadsBack L o source (.dateTime d) ↔
      d.nanos = 0 ∧ (d.secs + d.offset) % 60 = 0 ∧ d.offset % 3600 = 0 := by
  obtain ⟨p, hp1, hp2⟩ := C52_reads_as (L := L) (o := o) (source := source) d h1 h2 hy1 hy2
  have hiff : ReadsBack L o source (.dateTime d) ↔ truncated d = d := by
    constructor
    · rintro ⟨q, hq1, hq2⟩
      rw [hp1] at hq1
      injection hq1 with hq1
      subst hq1
      rw [hp2] at hq2
      injection hq2
    · intro h
      rw [h] at hp2
      exact ⟨p, hp1, hp2⟩
  rw [hiff]
  obtain ⟨secs, nanos, off⟩ := d
  unfold truncated
  simp only [DateTime.mk.injEq] at *
  constructor
  · rintro ⟨h3, h4, h5⟩
    refine ⟨h4.symm, ?_, ?_⟩ <;> omega
  · rintro ⟨h3, h4, h5⟩
    have htd := tdiv_cases off
    have : Int.tdiv off 3600 * 3600 = off := by omega
    refine ⟨?_, h3.symm, this⟩
    rw [this]; omega

/-- C52 is false for an offset of five and a half hours: the instant moves by half an hour. -/
theorem C52_half_hour : ¬ ReadsBack L o source (.dateTime ⟨0, 0, 19800⟩) := by
  rw [C52_same_partial _ (by decide) (by decide) (by decide +kernel) (by decide +kernel)]
  decide

/-- C52 is false for times with seconds. -/
theorem C52_seconds : ¬ ReadsBack L o source (.dateTime ⟨59, 0, 0⟩) := by
  rw [C52_same_partial _ (by decide) (by decide) (by decide +kernel) (by decide +kernel)]
  decide

example : generateDateTime ⟨0, 0, 19800⟩ = "1970-01-01 at 05:30 UTC+5".toList := by decide +kernel
example : ReadsBack exLang .default "a.firm".toList (.dateTime ⟨1794921300, 0, -25200⟩) :=
  (C52_same_partial _ (by decide) (by decide) (by decide +kernel) (by decide +kernel)).2 (by decide)

/-! ## C53 -/

theorem checkItems_spec (expected : Str) (i : Nat) (vs : List ParsedValue) :
    (checkItems expected i vs = .ok () ∧ ∀ v ∈ vs, v.typeName = expected) ∨
    ∃ pre v post, vs = pre ++ v :: post ∧ (∀ u ∈ pre, u.typeName = expected) ∧ v.typeName ≠ expected ∧
      checkItems expected i vs = .error (.heterogeneousList expected v.typeName (i + pre.length)) := by
  induction vs generalizing i with
  | nil => left; exact ⟨rfl, by simp⟩
  | cons v vs ih =>
    unfold checkItems
    by_cases h : v.typeName = expected
    · simp only [h, ne_eq, not_true_eq_false, if_false]
      rcases ih (i + 1) with ⟨h1, h2⟩ | ⟨pre, u, post, h1, h2, h3, h4⟩
      · exact Or.inl ⟨h1, by simpa [h] using h2⟩
      · right
        refine ⟨v :: pre, u, post, by rw [h1]; rfl, by simpa [h] using h2, h3, ?_⟩
        rw [h4, List.length_cons, Nat.add_assoc, Nat.add_comm 1]
    · simp only [ne_eq, h, not_false_eq_true, if_true]
      exact Or.inr ⟨[], v, vs, rfl, by simp, h, rfl⟩

/-- C53: a list literal is accepted exactly when every item has the kind of every other item, and then
it has these items, … -/
theorem C53_accepted (vs : List ParsedValue) (p : ParsedValue) :
    parseListFromVec vs = .ok p ↔
      (∀ u ∈ vs, ∀ v ∈ vs, u.typeName = v.typeName) ∧ p = .list vs := by
  cases vs with
  | nil => simp [parseListFromVec, eq_comm]
  | cons v vs =>
    unfold parseListFromVec
    rcases checkItems_spec v.typeName 1 vs with ⟨h1, h2⟩ | ⟨pre, u, post, h1, h2, h3, h4⟩
    · simp only [h1]
      constructor
      · intro h; injection h with h
        refine ⟨?_, h.symm⟩
        have : ∀ u ∈ v :: vs, u.typeName = v.typeName := by simpa using h2
        intro a ha b hb
        rw [this a ha, this b hb]
      · rintro ⟨-, rfl⟩; rfl
    · simp only [h4]
      constructor
      · intro h; cases h
      · rintro ⟨h, -⟩
        exact absurd (h u (by simp [h1]) v (by simp)) h3

/-- C53: … and otherwise the error names the first offending index with the expected and found kinds. -/
theorem C53_error (vs : List ParsedValue) (e : ValueParseError) :
    parseListFromVec vs = .error e ↔
      ∃ first pre v post, vs = first :: pre ++ v :: post ∧ (∀ u ∈ pre, u.typeName = first.typeName) ∧
        v.typeName ≠ first.typeName ∧
        e = .heterogeneousList first.typeName v.typeName (pre.length + 1) := by
  cases vs with
  | nil => simp [parseListFromVec]
  | cons w vs =>
    unfold parseListFromVec
    rcases checkItems_spec w.typeName 1 vs with ⟨h1, h2⟩ | ⟨pre, u, post, h1, h2, h3, h4⟩
    · simp only [h1]
      constructor
      · intro h; cases h
      · rintro ⟨first, pre, v, post, h3, h4, h5, -⟩
        simp only [List.cons_append, List.cons.injEq] at h3
        obtain ⟨rfl, rfl⟩ := h3
        exact absurd (h2 v (by simp)) h5
    · simp only [h4]
      constructor
      · intro h; injection h with h
        exact ⟨w, pre, u, post, by rw [h1]; rfl, h2, h3, by rw [← h, Nat.add_comm]⟩
      · rintro ⟨first, pre', v, post', h5, h6, h7, rfl⟩
        simp only [List.cons_append, List.cons.injEq] at h5
        obtain ⟨rfl, h5⟩ := h5
        have hw : parseListFromVec (w :: vs) = .error (.heterogeneousList w.typeName u.typeName (1 + pre.length)) := by
          unfold parseListFromVec; simp only [h4]
        have : pre = pre' ∧ u = v := by
          subst h1
          clear h4 hw
          induction pre generalizing pre' with
          | nil =>
            cases pre' with
            | nil => simp only [List.nil_append, List.cons.injEq] at h5; exact ⟨rfl, h5.1⟩
            | cons a pre' =>
              simp only [List.nil_append, List.cons_append, List.cons.injEq] at h5
              exact absurd (h5.1 ▸ h6 a (by simp)) h3
          | cons b pre ih =>
            cases pre' with
            | nil =>
              simp only [List.nil_append, List.cons_append, List.cons.injEq] at h5
              exact absurd (h5.1 ▸ h2 b (by simp)) h7
            | cons a pre' =>
              simp only [List.cons_append, List.cons.injEq] at h5
              obtain ⟨h8, h9⟩ := ih (fun x hx => h2 x (by simp [hx])) pre' (fun x hx => h6 x (by simp [hx])) h5.2
              exact ⟨by rw [h5.1, h8], h9⟩
        obtain ⟨rfl, rfl⟩ := this
        rw [Nat.add_comm]

example : parseListFromVec [.integer 1, .integer 2, .boolean true, .integer 3] =
    .error (.heterogeneousList "Integer".toList "Boolean".toList 2) := rfl

end Firm
