import Verif.Lemmas.Printed
import Verif.Props.Saved

/-!
# C109–C111: what is printed
-/

namespace Firm

open Spec

/-! ## C109: JSON output gives the entities back -/

/-- The text is a JSON array from which exactly these entities are read. -/
def Spec.GivesBack (C : Codec) (text : Str) (es : List Entity) : Prop :=
  ∃ js, jsonParse C text = some (.array js) ∧ js.length = es.length ∧ ∀ i (h : i < es.length), (js[i]?).bind (loadEntity C) = some es[i]

/-- A value that the libraries give back, without infinite floats and not nested more than 121 deep. -/
def Spec.PlainValue (C : Codec) (v : FieldValue) : Prop :=
  (∀ w, PartOf w v → Kept C w) ∧ levels v ≤ 121 ∧ ∀ f, PartOf (.float f) v → IsFinite f

/-- A result all of whose values are such values; counts have 64 bits. -/
def Spec.PlainResult (C : Codec) : AggregationResult → Prop
  | .select _ rows => ∀ row ∈ rows, ∀ v, some v ∈ row → PlainValue C v
  | .count n => n < 2 ^ 64
  | .sum (.integer n) => -2 ^ 63 ≤ n ∧ n < 2 ^ 63
  | .sum (.float f) => IsFinite f ∧ FloatReads C f
  | .sum (.currency d _) => d.fits = true
  | .average f => IsFinite f ∧ FloatReads C f
  | .median f => IsFinite f ∧ FloatReads C f

theorem readableEntity {C : Codec} {es : List Entity} (hk : AllKept C es) (hp : Tame es) {e : Entity} (he : e ∈ es) :
    Readable C 124 (saveEntity C e) :=
  saveEntity_ok (n := 121) (hk e he) fun p h => (hp e he p h).1

theorem Readable.mono {C : Codec} {n : Nat} {v : JVal} (h : Readable C n v) : ∀ m, n ≤ m → Readable C m v := by
  induction h with
  | null n => exact fun m _ => .null m
  | bool n b => exact fun m _ => .bool m b
  | string n s => exact fun m _ => .string m s
  | number n hk => exact fun m _ => .number m hk
  | array _ ih =>
    intro m hm
    obtain ⟨k, rfl⟩ : ∃ k, m = k + 1 := ⟨m - 1, by omega⟩
    exact .array fun v hv => ih v hv k (by omega)
  | object _ ih =>
    intro m hm
    obtain ⟨k, rfl⟩ : ∃ k, m = k + 1 := ⟨m - 1, by omega⟩
    exact .object fun v hv => ih v hv k (by omega)

/-- C109: the entities that `query` and `related` print as JSON are read back, all of them, in order. Missing for the
full claim: floats that are not finite, which are printed as `null` (`C109_not_a_number`), and values nested so deep that
the reader stops. -/
theorem C109_entities_partial (S : Screen) (es : List Entity) (hk : AllKept S.codec es) (hp : Tame es) :
    GivesBack S.codec (outputEntities S es .json) es := by
  refine ⟨es.map (saveEntity S.codec), ?_, by simp, ?_⟩
  · refine jsonOutput_read (.array ?_)
    intro v hv
    obtain ⟨e, he, rfl⟩ := List.mem_map.1 hv
    exact (readableEntity hk hp he).mono 126 (by omega)
  · intro i hi
    have he := List.getElem_mem hi
    simp only [List.getElem?_map, List.getElem?_eq_getElem hi, Option.map_some, Option.bind_some]
    exact loadEntity_save (hk _ he) (hp _ he)

/-- C109: the entity that `get` prints as JSON is read back. Missing for the full claim: as before. -/
theorem C109_entity_partial (S : Screen) (e : Entity) (hk : AllKept S.codec [e]) (hp : Tame [e]) :
    (jsonParse S.codec (outputEntity S e .json)).bind (loadEntity S.codec) = some e := by
  have h := readableEntity hk hp List.mem_cons_self
  show Option.bind (jsonParse S.codec (jsonOutput _ _)) _ = _
  rw [jsonOutput_read (h.mono 127 (by omega))]
  exact loadEntity_save (hk _ List.mem_cons_self) (hp _ List.mem_cons_self)

/-- C109: what `list` prints as JSON is the array of the texts. -/
theorem C109_list (C : Codec) (items : List Str) :
    jsonParse C (listOutput C items .json) = some (.array (items.map .string)) := by
  refine jsonOutput_read (.array ?_)
  intro v hv
  obtain ⟨s, _, rfl⟩ := List.mem_map.1 hv
  exact .string _ _

/-- C109: different lists of entities are printed differently. Missing for the full claim: as before. -/
theorem C109_distinct_partial (S : Screen) (es es' : List Entity) (hk : AllKept S.codec es) (hp : Tame es)
    (hk' : AllKept S.codec es') (hp' : Tame es') (h : outputEntities S es .json = outputEntities S es' .json) : es = es' := by
  obtain ⟨js, h1, hl, h2⟩ := C109_entities_partial S es hk hp
  obtain ⟨js', h1', hl', h2'⟩ := C109_entities_partial S es' hk' hp'
  rw [h, h1'] at h1
  cases h1
  refine List.ext_getElem (by omega) ?_
  intro i hi hi'
  have a := h2 i hi
  rw [h2' i hi'] at a
  exact (Option.some.inj a).symm

theorem saveValue_inj {C : Codec} {v v' : FieldValue} (h : PlainValue C v) (h' : PlainValue C v')
    (he : saveValue C v = saveValue C v') : v = v' := by
  have a := loadValue_save C 127 v (by have := h.2.1; omega) h.1 h.2.2
  rw [he, loadValue_save C 127 v' (by have := h'.2.1; omega) h'.1 h'.2.2] at a
  exact (Option.some.inj a).symm

theorem saveCell_inj {C : Codec} {c c' : Option FieldValue} (h : ∀ v, c = some v → PlainValue C v) (h' : ∀ v, c' = some v → PlainValue C v)
    (he : saveCell C c = saveCell C c') : c = c' := by
  have hnull : ∀ v : FieldValue, saveValue C v ≠ .null := by
    intro v
    cases v <;> simp [saveValue, jTag]
  cases c with
  | none =>
    cases c' with
    | none => rfl
    | some v' => exact absurd he.symm (hnull v')
  | some v =>
    cases c' with
    | none => exact absurd he (hnull v)
    | some v' => rw [saveValue_inj (h v rfl) (h' v' rfl) he]

theorem map_inj_on {α β : Type} {f : α → β} : ∀ {as bs : List α}, (∀ a ∈ as, ∀ b ∈ bs, f a = f b → a = b) →
    as.map f = bs.map f → as = bs
  | [], [], _, _ => rfl
  | [], _ :: _, _, h => by cases h
  | _ :: _, [], _, h => by cases h
  | a :: as, b :: bs, hf, h => by
    simp only [List.map_cons, List.cons.injEq] at h
    rw [hf a (by simp) b (by simp) h.1, map_inj_on (fun a ha b hb => hf a (by simp [ha]) b (by simp [hb])) h.2]

theorem jFloat_inj {f f' : F64} (h : IsFinite f) (h' : IsFinite f') (he : jFloat f = jFloat f') : f = f' := by
  obtain ⟨k, h1, h2⟩ := jFloat_read h
  obtain ⟨k', h1', h2'⟩ := jFloat_read h'
  rw [h1, h1'] at he
  cases he
  rw [← h2, ← h2']

theorem show_inj {d d' : Decimal} (h : d.fits = true) (h' : d'.fits = true) (he : d.show = d'.show) : d = d' := by
  have a := parseDecimal_show h
  rw [he, parseDecimal_show h'] at a
  exact (Option.some.inj a).symm

theorem jInt_inj {n m : Int} (h : jInt n = jInt m) : n = m := by
  cases n <;> cases m <;> simp only [jInt, JVal.number.injEq, JsonNumber.pos.injEq, JsonNumber.neg.injEq, reduceCtorEq] at h <;>
    rw [h]

theorem saveAggregate_inj {C : Codec} {v v' : AggregateValue} (h : PlainResult C (.sum v)) (h' : PlainResult C (.sum v'))
    (he : saveAggregate v = saveAggregate v') : v = v' := by
  have key : ∀ (a b : String) (x y : JVal), jTag a x = jTag b y → a.toList = b.toList ∧ x = y := by
    intro a b x y hxy
    simpa [jTag] using hxy
  cases v with
  | integer n =>
    cases v' with
    | integer m => rw [jInt_inj (key _ _ _ _ he).2]
    | float f => exact absurd (key _ _ _ _ he).1 (by decide)
    | currency d c => exact absurd (key _ _ _ _ he).1 (by decide)
  | float f =>
    cases v' with
    | integer m => exact absurd (key _ _ _ _ he).1 (by decide)
    | float f' => rw [jFloat_inj h.1 h'.1 (key _ _ _ _ he).2]
    | currency d c => exact absurd (key _ _ _ _ he).1 (by decide)
  | currency d c =>
    cases v' with
    | integer m => exact absurd (key _ _ _ _ he).1 (by decide)
    | float f' => exact absurd (key _ _ _ _ he).1 (by decide)
    | currency d' c' =>
      have h2 := (key _ _ _ _ he).2
      simp only [JVal.object.injEq, List.cons.injEq, Prod.mk.injEq, JVal.string.injEq, true_and, and_true] at h2
      rw [show_inj h h' h2.1, h2.2]

theorem saveResult_inj {C : Codec} {r r' : AggregationResult} (h : PlainResult C r) (h' : PlainResult C r')
    (he : saveResult C r = saveResult C r') : r = r' := by
  have key : ∀ (a b : String) (x y : JVal), jTag a x = jTag b y → a.toList = b.toList ∧ x = y := by
    intro a b x y hxy
    simpa [jTag] using hxy
  cases r with
  | select cols rows =>
    cases r' with
    | select cols' rows' =>
      have h2 := (key _ _ _ _ he).2
      simp only [JVal.object.injEq, List.cons.injEq, Prod.mk.injEq, JVal.array.injEq, true_and, and_true] at h2
      have hc : cols = cols' := map_inj_on (fun a _ b _ hab => JVal.string.inj hab) h2.1
      have hr : rows = rows' := by
        refine map_inj_on ?_ h2.2
        intro a ha b hb hab
        refine map_inj_on ?_ (JVal.array.inj hab)
        intro x hx y hy hxy
        exact saveCell_inj (fun v hv => h a ha v (hv ▸ hx)) (fun v hv => h' b hb v (hv ▸ hy)) hxy
      rw [hc, hr]
    | count n => exact absurd (key _ _ _ _ he).1 (by decide)
    | sum v => exact absurd (key _ _ _ _ he).1 (by decide)
    | average f => exact absurd (key _ _ _ _ he).1 (by decide)
    | median f => exact absurd (key _ _ _ _ he).1 (by decide)
  | count n =>
    cases r' with
    | count m =>
      have h2 := (key _ _ _ _ he).2
      simp only [JVal.number.injEq, JsonNumber.pos.injEq] at h2
      rw [h2]
    | select _ _ => exact absurd (key _ _ _ _ he).1 (by decide)
    | sum v => exact absurd (key _ _ _ _ he).1 (by decide)
    | average f => exact absurd (key _ _ _ _ he).1 (by decide)
    | median f => exact absurd (key _ _ _ _ he).1 (by decide)
  | sum v =>
    cases r' with
    | sum v' => rw [saveAggregate_inj h h' (key _ _ _ _ he).2]
    | select _ _ => exact absurd (key _ _ _ _ he).1 (by decide)
    | count v => exact absurd (key _ _ _ _ he).1 (by decide)
    | average f => exact absurd (key _ _ _ _ he).1 (by decide)
    | median f => exact absurd (key _ _ _ _ he).1 (by decide)
  | average f =>
    cases r' with
    | average f' => rw [jFloat_inj h.1 h'.1 (key _ _ _ _ he).2]
    | select _ _ => exact absurd (key _ _ _ _ he).1 (by decide)
    | count v => exact absurd (key _ _ _ _ he).1 (by decide)
    | sum f => exact absurd (key _ _ _ _ he).1 (by decide)
    | median f => exact absurd (key _ _ _ _ he).1 (by decide)
  | median f =>
    cases r' with
    | median f' => rw [jFloat_inj h.1 h'.1 (key _ _ _ _ he).2]
    | select _ _ => exact absurd (key _ _ _ _ he).1 (by decide)
    | count v => exact absurd (key _ _ _ _ he).1 (by decide)
    | sum f => exact absurd (key _ _ _ _ he).1 (by decide)
    | average f => exact absurd (key _ _ _ _ he).1 (by decide)

theorem readableResult {C : Codec} {r : AggregationResult} (h : PlainResult C r) : Readable C 127 (saveResult C r) := by
  cases r with
  | select cols rows =>
    refine tag_ok (n := 126) (.object ?_)
    intro x hx
    simp only [List.mem_cons, List.not_mem_nil, or_false] at hx
    rcases hx with rfl | rfl
    · refine .array ?_
      intro v hv
      obtain ⟨s, _, rfl⟩ := List.mem_map.1 hv
      exact .string _ _
    · refine .array ?_
      intro v hv
      obtain ⟨row, hrow, rfl⟩ := List.mem_map.1 hv
      refine .array ?_
      intro v hv
      obtain ⟨c, hc, rfl⟩ := List.mem_map.1 hv
      cases c with
      | none => exact .null _
      | some v =>
        obtain ⟨h1, h2, _⟩ := h row hrow v hc
        exact (saveValue_ok C 121 v h2 h1).mono _ (by omega)
  | count n => exact tag_ok (n := 126) (.number _ h)
  | sum v =>
    refine tag_ok (n := 126) ?_
    cases v with
    | integer n => exact tag_ok (n := 125) (jInt_ok h _)
    | float f => exact tag_ok (n := 125) (jFloat_ok (fun _ => h.2) _)
    | currency d c =>
      refine tag_ok (n := 125) (.object ?_)
      intro x hx
      simp only [List.mem_cons, List.not_mem_nil, or_false] at hx
      rcases hx with rfl | rfl <;> exact .string _ _
  | average f => exact tag_ok (n := 126) (jFloat_ok (fun _ => h.2) _)
  | median f => exact tag_ok (n := 126) (jFloat_ok (fun _ => h.2) _)

/-- C109: different results of aggregations are printed differently. Missing for the full claim: as before. -/
theorem C109_results_partial (S : Screen) (r r' : AggregationResult) (h : PlainResult S.codec r) (h' : PlainResult S.codec r')
    (he : outputResult S (.aggregation r) .json = outputResult S (.aggregation r') .json) : r = r' := by
  have a := jsonOutput_read (readableResult h)
  have he' : jsonOutput S.codec (saveResult S.codec r) = jsonOutput S.codec (saveResult S.codec r') := he
  rw [he', jsonOutput_read (readableResult h')] at a
  exact saveResult_inj h h' (Option.some.inj a).symm

/-- C109 fails for floats that are not finite: not a number, and the two infinities, are all printed as `null`. -/
theorem C109_not_a_number (S : Screen) :
    (∀ (id t : Str) (x : FieldId) (s s' : Bool), outputEntities S [⟨id, t, [(x, .float (.inf s))]⟩] .json =
      outputEntities S [⟨id, t, [(x, .float .nan)]⟩] .json ∧
      (jsonParse S.codec (outputEntity S ⟨id, t, [(x, .float (.inf s'))]⟩ .json)).bind (loadEntity S.codec) = none) ∧
    outputResult S (.aggregation (.average (.inf true))) .json = outputResult S (.aggregation (.average .nan)) .json := by
  refine ⟨?_, rfl⟩
  intro id t x s s'
  refine ⟨rfl, ?_⟩
  cases hj : jsonParse S.codec (outputEntity S ⟨id, t, [(x, .float (.inf s'))]⟩ .json) with
  | none => rfl
  | some j =>
    have hr : Readable S.codec 127 (saveEntity S.codec ⟨id, t, [(x, .float (.inf s'))]⟩) := by
      refine (saveEntity_ok (n := 1) ?_ ?_).mono 127 (by omega)
      · intro p hp w hw
        rw [List.mem_singleton] at hp
        subst hp
        cases hw
        intro hfin
        exact absurd rfl (hfin.2 s')
      · intro p hp
        rw [List.mem_singleton] at hp
        subst hp
        simp [levels]
    have := jsonOutput_read hr
    have hj' : jsonParse S.codec (jsonOutput S.codec (saveEntity S.codec ⟨id, t, [(x, .float (.inf s'))]⟩)) = some j := hj
    rw [this] at hj'
    cases hj'
    exact loadEntity_infinite (C := S.codec) (e := ⟨id, t, [(x, .float (.inf s'))]⟩) (f := .inf s')
      (p := (x, .float (.inf s'))) List.mem_cons_self (fun hfin => hfin.2 s' rfl) .self

theorem showFieldType_inj {a b : FieldType} (h : showFieldType a = showFieldType b) : a = b := by
  revert h
  cases a <;> cases b <;> decide

theorem saveFieldSchema_inj {a b : FieldSchema} (h : saveFieldSchema a = saveFieldSchema b) : a = b := by
  obtain ⟨t, m, o, av⟩ := a
  obtain ⟨t', m', o', av'⟩ := b
  simp only [saveFieldSchema, JVal.object.injEq, List.cons.injEq, Prod.mk.injEq, JVal.string.injEq, JVal.number.injEq,
    JsonNumber.pos.injEq, true_and, and_true] at h
  obtain ⟨h1, h2, h3, h4⟩ := h
  have hm : m = m' := by
    cases m <;> cases m'
    · rfl
    · rw [if_pos (by rfl), if_neg (by exact Bool.noConfusion)] at h2
      exact absurd h2 (by decide)
    · rw [if_neg (by exact Bool.noConfusion), if_pos (by rfl)] at h2
      exact absurd h2 (by decide)
    · rfl
  have hav : av = av' := by
    cases av with
    | none =>
      cases av' with
      | none => rfl
      | some vs => cases h4
    | some vs =>
      cases av' with
      | none => cases h4
      | some vs' => rw [map_inj_on (fun a _ b _ hab => JVal.string.inj hab) (JVal.array.inj h4)]
  rw [showFieldType_inj h1, hm, h3, hav]

theorem saveSchema_inj {a b : EntitySchema} (h : saveSchema a = saveSchema b) : a = b := by
  obtain ⟨t, fs⟩ := a
  obtain ⟨t', fs'⟩ := b
  simp only [saveSchema, JVal.object.injEq, List.cons.injEq, Prod.mk.injEq, JVal.string.injEq, true_and, and_true] at h
  rw [h.1, map_inj_on (fun a _ b _ hab => ?_) h.2]
  obtain ⟨x, s⟩ := a
  obtain ⟨y, s'⟩ := b
  simp only [Prod.mk.injEq] at hab
  rw [hab.1, saveFieldSchema_inj hab.2]

theorem loadFieldType_save (t : FieldType) : loadFieldType (.string (showFieldType t)) = some t := by
  cases t <;> decide

theorem loadFieldMode_save (s : FieldSchema) :
    loadFieldMode (.string (if s.isRequired then "Required".toList else "Optional".toList)) = some s.fieldMode := by
  obtain ⟨t, m, o, av⟩ := s
  cases m
  · rw [if_pos (by rfl)]; rfl
  · rw [if_neg (by exact Bool.noConfusion)]; rfl

theorem loadFieldSchema_save (s : FieldSchema) : loadFieldSchema (saveFieldSchema s) = some s := by
  have ht : ((saveFieldSchema s).member "field_type").bind loadFieldType = some s.fieldType :=
    loadFieldType_save s.fieldType
  have hm : ((saveFieldSchema s).member "field_mode").bind loadFieldMode = some s.fieldMode := loadFieldMode_save s
  have ho : ((saveFieldSchema s).member "order").bind JVal.index = some s.order := rfl
  have ha : ((saveFieldSchema s).member "allowed_values").bind loadTexts = some s.allowedValues := by
    obtain ⟨t, m, o, av⟩ := s
    cases av with
    | none => rfl
    | some vs =>
      show (readAll JVal.text (vs.map .string)).map some = _
      rw [readAll_map (f := JVal.text) (h := JVal.string) (fun _ _ => rfl)]
      rfl
  unfold loadFieldSchema
  rw [ht, hm, ho, ha]

theorem loadSchema_save {s : EntitySchema} (h : (s.fields.map (·.1)).Nodup) : loadSchema (saveSchema s) = some s := by
  have ht : ((saveSchema s).member "entity_type").bind JVal.text = some s.entityType := rfl
  have hf : ((saveSchema s).member "fields").bind (loadMap loadFieldSchema) = some s.fields :=
    loadMap_save (fun e _ => loadFieldSchema_save e.2) h
  have hi : ((saveSchema s).member "insertion_order").bind JVal.index = some 0 := rfl
  unfold loadSchema
  rw [ht, hf, hi]

theorem saveSchema_readable (S : Screen) (s : EntitySchema) (hs : ∀ p ∈ s.fields, p.2.order < 2 ^ 64) :
    Readable S.codec 127 (saveSchema s) := by
  refine .object ?_
  intro x hx
  simp only [List.mem_cons, List.not_mem_nil, or_false] at hx
  rcases hx with rfl | rfl | rfl
  · exact .string _ _
  · refine .object ?_
    intro x hx
    obtain ⟨p, hp, rfl⟩ := List.mem_map.1 hx
    refine .object ?_
    intro y hy
    simp only [List.mem_cons, List.not_mem_nil, or_false] at hy
    rcases hy with rfl | rfl | rfl | rfl
    · exact .string _ _
    · exact .string _ _
    · exact .number _ (hs p hp)
    · cases p.2.allowedValues with
      | none => exact .null _
      | some vs =>
        refine .array ?_
        intro v hv
        obtain ⟨t, _, rfl⟩ := List.mem_map.1 hv
        exact .string _ _
  · exact .number _ (by decide : (0 : Nat) < 2 ^ 64)

/-- C109: different schemas are printed differently; positions in a schema have 64 bits. -/
theorem C109_schemas (S : Screen) (s s' : EntitySchema) (h : ∀ p ∈ s.fields, p.2.order < 2 ^ 64)
    (h' : ∀ p ∈ s'.fields, p.2.order < 2 ^ 64) (he : outputSchema S s .json = outputSchema S s' .json) : s = s' := by
  have a := jsonOutput_read (saveSchema_readable S s h)
  have he' : jsonOutput S.codec (saveSchema s) = jsonOutput S.codec (saveSchema s') := he
  rw [he', jsonOutput_read (saveSchema_readable S s' h')] at a
  exact saveSchema_inj (Option.some.inj a).symm

/-- The entry of an object. -/
def Spec.Entry (j : JVal) (k : String) (v : JVal) : Prop := ∃ es, j = .object es ∧ (k.toList, v) ∈ es

/-- The words for the types. -/
def Spec.typeWords : List (FieldType × String) :=
  [(.boolean, "Boolean"), (.string, "String"), (.integer, "Integer"), (.float, "Float"), (.currency, "Currency"),
    (.reference, "Reference"), (.list, "List"), (.dateTime, "DateTime"), (.path, "Path"), (.enum, "Enum")]

/-- What a JSON text says about a field of a schema, in the words of the documentation. -/
structure Spec.Describes (j : JVal) (f : FieldSchema) : Prop where
  type : ∃ w, (f.fieldType, w) ∈ Spec.typeWords ∧ Spec.Entry j "field_type" (.string w.toList)
  required : f.fieldMode = .required → Spec.Entry j "field_mode" (.string "Required".toList)
  optional : f.fieldMode = .optional → Spec.Entry j "field_mode" (.string "Optional".toList)
  position : Spec.Entry j "order" (.number (.pos f.order))
  free : f.allowedValues = none → Spec.Entry j "allowed_values" .null
  limited : ∀ vs, f.allowedValues = some vs → Spec.Entry j "allowed_values" (.array (vs.map .string))

/-- C109: a program that reads a printed schema with the derived `Deserialize` gets exactly that schema, and one that
looks into the text itself finds the type and, under the name of every field, what it demands. -/
theorem C109_schema_read (S : Screen) (s : EntitySchema) (h : ∀ p ∈ s.fields, p.2.order < 2 ^ 64)
    (hn : (s.fields.map (·.1)).Nodup) : ∃ j fs, jsonParse S.codec (outputSchema S s .json) = some j ∧
      loadSchema j = some s ∧ Spec.Entry j "entity_type" (.string s.entityType) ∧
      Spec.Entry j "fields" (.object fs) ∧ fs.map (·.1) = s.fields.map (·.1) ∧
      ∀ f d, (f, d) ∈ s.fields → ∃ v, (f, v) ∈ fs ∧ Spec.Describes v d := by
  refine ⟨saveSchema s, _, jsonOutput_read (saveSchema_readable S s h), loadSchema_save hn,
    ⟨_, rfl, List.mem_cons_self⟩, ⟨_, rfl, List.mem_cons_of_mem _ List.mem_cons_self⟩, ?_, ?_⟩
  · rw [List.map_map]
    rfl
  · intro f d hd
    refine ⟨saveFieldSchema d, List.mem_map.2 ⟨(f, d), hd, rfl⟩, ?_⟩
    obtain ⟨t, m, o, av⟩ := d
    constructor
    · cases t
      · exact ⟨"Boolean", (by decide : (FieldType.boolean, "Boolean") ∈ Spec.typeWords), _, rfl, List.mem_cons_self⟩
      · exact ⟨"String", (by decide : (FieldType.string, "String") ∈ Spec.typeWords), _, rfl, List.mem_cons_self⟩
      · exact ⟨"Integer", (by decide : (FieldType.integer, "Integer") ∈ Spec.typeWords), _, rfl, List.mem_cons_self⟩
      · exact ⟨"Float", (by decide : (FieldType.float, "Float") ∈ Spec.typeWords), _, rfl, List.mem_cons_self⟩
      · exact ⟨"Currency", (by decide : (FieldType.currency, "Currency") ∈ Spec.typeWords), _, rfl, List.mem_cons_self⟩
      · exact ⟨"Reference", (by decide : (FieldType.reference, "Reference") ∈ Spec.typeWords), _, rfl, List.mem_cons_self⟩
      · exact ⟨"List", (by decide : (FieldType.list, "List") ∈ Spec.typeWords), _, rfl, List.mem_cons_self⟩
      · exact ⟨"DateTime", (by decide : (FieldType.dateTime, "DateTime") ∈ Spec.typeWords), _, rfl, List.mem_cons_self⟩
      · exact ⟨"Path", (by decide : (FieldType.path, "Path") ∈ Spec.typeWords), _, rfl, List.mem_cons_self⟩
      · exact ⟨"Enum", (by decide : (FieldType.enum, "Enum") ∈ Spec.typeWords), _, rfl, List.mem_cons_self⟩
    · intro hm
      cases hm
      refine ⟨_, rfl, List.mem_cons_of_mem _ ?_⟩
      rw [if_pos (by rfl)]
      exact List.mem_cons_self
    · intro hm
      cases hm
      refine ⟨_, rfl, List.mem_cons_of_mem _ ?_⟩
      rw [if_neg (by exact Bool.noConfusion)]
      exact List.mem_cons_self
    · exact ⟨_, rfl, List.mem_cons_of_mem _ (List.mem_cons_of_mem _ List.mem_cons_self)⟩
    · intro ha
      cases ha
      exact ⟨_, rfl, List.mem_cons_of_mem _ (List.mem_cons_of_mem _ (List.mem_cons_of_mem _ List.mem_cons_self))⟩
    · intro vs ha
      cases ha
      exact ⟨_, rfl, List.mem_cons_of_mem _ (List.mem_cons_of_mem _ (List.mem_cons_of_mem _ List.mem_cons_self))⟩

/-- Two fields, one of them demanded and limited. -/
example : ∃ s : EntitySchema, (∀ p ∈ s.fields, p.2.order < 2 ^ 64) ∧ (s.fields.map (·.1)).Nodup ∧ s.fields.length = 2 ∧
    s.fields.any (·.2.isRequired) = true :=
  ⟨⟨"task".toList, [("name".toList, ⟨.string, .optional, 0, none⟩),
    ("state".toList, ⟨.enum, .required, 1, some ["open".toList, "done".toList]⟩)]⟩, by decide, by decide, rfl, by decide⟩

/-! ## C110: printed entities can be told apart -/

/-- Nothing that is shown of the entity contains a line break. -/
def Spec.OneLiners (S : Screen) (e : Entity) : Prop :=
  '\n' ∉ e.id ∧ ∀ p ∈ e.fields, '\n' ∉ S.sentence p.1 ∧ '\n' ∉ showValue S p.2

/-- What can be seen of an entity: its id and the line of each field. -/
def Spec.seen (S : Screen) (e : Entity) : Str × List Str :=
  (e.id, e.fields.map fun p => S.sentence p.1 ++ ": ".toList ++ showValue S p.2)

/-- A text of lines. -/
def unlines (ls : List Str) : Str := ls.flatMap fun l => l ++ ['\n']

theorem unlines_append (a b : List Str) : unlines (a ++ b) = unlines a ++ unlines b := List.flatMap_append

theorem line_inj : ∀ {a b x y : Str}, '\n' ∉ a → '\n' ∉ b → a ++ '\n' :: x = b ++ '\n' :: y → a = b ∧ x = y
  | [], [], _, _, _, _, h => ⟨rfl, (List.cons.inj h).2⟩
  | [], c :: b, _, _, _, hb, h => by
    rw [List.nil_append, List.cons_append, List.cons.injEq] at h
    exact absurd (h.1 ▸ List.mem_cons_self) hb
  | c :: a, [], _, _, ha, _, h => by
    rw [List.nil_append, List.cons_append, List.cons.injEq] at h
    exact absurd (h.1 ▸ List.mem_cons_self) ha
  | c :: a, d :: b, x, y, ha, hb, h => by
    rw [List.cons_append, List.cons_append, List.cons.injEq] at h
    obtain ⟨h1, h2⟩ := line_inj (fun hc => ha (by simp [hc])) (fun hc => hb (by simp [hc])) h.2
    exact ⟨by rw [h.1, h1], h2⟩

theorem unlines_inj : ∀ {a b : List Str}, (∀ l ∈ a, '\n' ∉ l) → (∀ l ∈ b, '\n' ∉ l) → unlines a = unlines b → a = b
  | [], [], _, _, _ => rfl
  | [], l :: b, _, _, h => by simp [unlines] at h
  | l :: a, [], _, _, h => by simp [unlines] at h
  | l :: a, m :: b, ha, hb, h => by
    simp only [unlines, List.flatMap_cons, List.append_assoc, List.cons_append, List.nil_append] at h
    obtain ⟨h1, h2⟩ := line_inj (ha l (by simp)) (hb m (by simp)) h
    rw [h1, unlines_inj (fun l hl => ha l (by simp [hl])) (fun l hl => hb l (by simp [hl])) h2]

/-- The lines of an entity. -/
def block (S : Screen) (e : Entity) : List Str := e.id :: [] :: e.fields.map (showField S)

theorem showEntity_lines (S : Screen) (e : Entity) : showEntity S e = unlines (block S e) := by
  have h : ∀ fs : List (FieldId × FieldValue), (fs.flatMap fun p => showField S p ++ ['\n']) = unlines (fs.map (showField S)) := by
    intro fs
    induction fs with
    | nil => rfl
    | cons p fs ih => rw [List.flatMap_cons, ih]; rfl
  unfold showEntity
  rw [h]
  simp [unlines, block]

theorem showField_ne {S : Screen} (p : FieldId × FieldValue) : showField S p ≠ [] := by
  simp [showField]

theorem block_plain {S : Screen} {e : Entity} (h : OneLiners S e) : ∀ l ∈ block S e, '\n' ∉ l := by
  intro l hl
  simp only [block, List.mem_cons, List.mem_map] at hl
  rcases hl with rfl | rfl | ⟨p, hp, rfl⟩
  · exact h.1
  · simp
  · obtain ⟨h1, h2⟩ := h.2 p hp
    unfold showField
    have : '\n' ∉ ": ".toList := by decide
    simp only [List.mem_append, not_or]
    exact ⟨⟨h1, this⟩, h2⟩

/-- Filled lines before an empty one, or before the end, can be told. -/
theorem filled_inj : ∀ {a b x y : List Str}, (∀ l ∈ a, l ≠ []) → (∀ l ∈ b, l ≠ []) → (x = [] ∨ x.head? = some []) →
    (y = [] ∨ y.head? = some []) → a ++ x = b ++ y → a = b ∧ x = y
  | [], [], _, _, _, _, _, _, h => ⟨rfl, h⟩
  | [], l :: b, x, y, _, hb, hx, _, h => by
    exfalso
    rw [List.nil_append] at h
    subst h
    rcases hx with hx | hx
    · cases hx
    · simp only [List.cons_append, List.head?_cons, Option.some.injEq] at hx
      exact hb l (by simp) hx
  | l :: a, [], x, y, ha, _, _, hy, h => by
    exfalso
    rw [List.nil_append] at h
    subst h
    rcases hy with hy | hy
    · cases hy
    · simp only [List.cons_append, List.head?_cons, Option.some.injEq] at hy
      exact ha l (by simp) hy
  | l :: a, m :: b, x, y, ha, hb, hx, hy, h => by
    rw [List.cons_append, List.cons_append, List.cons.injEq] at h
    obtain ⟨h1, h2⟩ := filled_inj (fun l hl => ha l (by simp [hl])) (fun l hl => hb l (by simp [hl])) hx hy h.2
    exact ⟨by rw [h.1, h1], h2⟩

theorem block_inj {S : Screen} {e e' : Entity} {x y : List Str} (hx : x = [] ∨ x.head? = some [])
    (hy : y = [] ∨ y.head? = some []) (h : block S e ++ x = block S e' ++ y) : seen S e = seen S e' ∧ x = y := by
  simp only [block, List.cons_append, List.cons.injEq, true_and] at h
  obtain ⟨h1, h2⟩ := h
  have hne : ∀ fs : List (FieldId × FieldValue), ∀ l ∈ fs.map (showField S), l ≠ [] := by
    intro fs l hl
    obtain ⟨p, _, rfl⟩ := List.mem_map.1 hl
    exact showField_ne p
  obtain ⟨h3, h4⟩ := filled_inj (hne _) (hne _) hx hy h2
  refine ⟨?_, h4⟩
  unfold seen
  rw [h1]
  exact congrArg (Prod.mk e'.id) h3

/-- The lines of the reply of the `query` tool. -/
def replyLines (S : Screen) : List Entity → List Str
  | [] => []
  | [e] => block S e
  | e :: e' :: es => block S e ++ ([] :: "---".toList :: replyLines S (e' :: es))

theorem reply_lines (S : Screen) : ∀ (e : Entity) (es : List Entity),
    joinWith "\n---\n".toList ((e :: es).map (showEntity S)) = unlines (replyLines S (e :: es))
  | e, [] => by simp [joinWith, replyLines, showEntity_lines]
  | e, e' :: es => by
    have ih := reply_lines S e' es
    rw [List.map_cons, List.map_cons, joinWith, ← List.map_cons, ih]
    show _ = unlines (block S e ++ ([[], "---".toList] ++ replyLines S (e' :: es)))
    rw [unlines_append, unlines_append, ← showEntity_lines, List.append_assoc]
    rfl

theorem replyLines_plain {S : Screen} : ∀ {es : List Entity}, (∀ e ∈ es, OneLiners S e) → ∀ l ∈ replyLines S es, '\n' ∉ l
  | [], _, l, hl => by cases hl
  | [e], h, l, hl => block_plain (h e (by simp)) l hl
  | e :: e' :: es, h, l, hl => by
    have hl : l ∈ block S e ++ ([] :: "---".toList :: replyLines S (e' :: es)) := hl
    simp only [List.mem_append, List.mem_cons (a := l)] at hl
    rcases hl with hl | rfl | rfl | hl
    · exact block_plain (h e (by simp)) l hl
    · simp
    · decide
    · exact replyLines_plain (fun x hx => h x (List.mem_cons_of_mem _ hx)) l hl

theorem replyLines_inj {S : Screen} : ∀ {es es' : List Entity}, replyLines S es = replyLines S es' →
    es.map (seen S) = es'.map (seen S)
  | [], [], _ => rfl
  | [], [e'], h => by cases h
  | [], e' :: e'' :: es', h => by cases h
  | [e], [], h => by cases h
  | e :: e'' :: es, [], h => by cases h
  | [e], [e'], h => by
    have := (block_inj (S := S) (e := e) (e' := e') (x := []) (y := []) (.inl rfl) (.inl rfl)
      (by rw [List.append_nil, List.append_nil]; exact h)).1
    simp [this]
  | [e], e' :: e'' :: es', h => by
    have h : block S e = block S e' ++ ([] :: "---".toList :: replyLines S (e'' :: es')) := h
    cases (block_inj (S := S) (.inl rfl) (.inr rfl) ((List.append_nil _).trans h)).2
  | e :: e'' :: es, [e'], h => by
    have h : block S e ++ ([] :: "---".toList :: replyLines S (e'' :: es)) = block S e' := h
    cases (block_inj (S := S) (.inr rfl) (.inl rfl) (h.trans (List.append_nil _).symm)).2
  | e :: a :: es, e' :: a' :: es', h => by
    have h : block S e ++ ([] :: "---".toList :: replyLines S (a :: es)) =
      block S e' ++ ([] :: "---".toList :: replyLines S (a' :: es')) := h
    obtain ⟨h1, h2⟩ := block_inj (S := S) (e := e) (e' := e') (.inr rfl) (.inr rfl) h
    have ih := replyLines_inj (List.cons.inj (List.cons.inj h2).2).2
    rw [List.map_cons, h1, ih, ← List.map_cons]

/-- C110: if nothing that is shown contains a line break, the reply of the `query` tool tells the entities apart: their
number, their order, their ids and the line of each field. Missing for the full claim: texts with line breaks
(`C110_forged`). -/
theorem C110_reply_partial (S : Screen) (es es' : List Entity) (h : ∀ e ∈ es, OneLiners S e) (h' : ∀ e ∈ es', OneLiners S e)
    (he : queryReply S (.entities es) = queryReply S (.entities es')) : es.map (seen S) = es'.map (seen S) := by
  have hmsg : ∀ ls, "No entities found matching the query.".toList ≠ unlines ls ∨ ls = [] := by
    intro ls
    by_cases hl : ls = []
    · exact .inr hl
    · refine .inl fun hm => ?_
      have h1 : (unlines ls).getLast? = some '\n' := by
        obtain ⟨l, ls', rfl⟩ : ∃ a b, ls = b ++ [a] := ⟨ls.getLast hl, ls.dropLast, (List.dropLast_append_getLast hl).symm⟩
        rw [unlines_append]
        simp [unlines]
      rw [← hm] at h1
      exact absurd h1 (by decide)
  have hne : ∀ (e : Entity) (es : List Entity), replyLines S (e :: es) ≠ [] := by
    intro e es
    cases es with
    | nil => simp [replyLines, block]
    | cons a es => simp [replyLines, block]
  cases es with
  | nil =>
    cases es' with
    | nil => rfl
    | cons e' es' =>
      have he2 : "No entities found matching the query.".toList = unlines (replyLines S (e' :: es')) := by
        rw [← reply_lines]; exact he
      exact absurd he2 ((hmsg _).resolve_right (hne _ _))
  | cons e es =>
    cases es' with
    | nil =>
      have he2 : "No entities found matching the query.".toList = unlines (replyLines S (e :: es)) := by
        rw [← reply_lines]; exact he.symm
      exact absurd he2 ((hmsg _).resolve_right (hne _ _))
    | cons e' es' =>
      have he2 : unlines (replyLines S (e :: es)) = unlines (replyLines S (e' :: es')) := by
        rw [← reply_lines, ← reply_lines]; exact he
      exact replyLines_inj (unlines_inj (replyLines_plain h) (replyLines_plain h') he2)

/-- The lines of the pretty output. -/
def outputLines (S : Screen) : List Entity → List Str
  | [] => []
  | [e] => [] :: (block S e ++ [[]])
  | e :: e' :: es => [] :: (block S e ++ ([] :: "---------------------------------------".toList :: outputLines S (e' :: es)))

theorem prettyEntity_lines (S : Screen) (e : Entity) : prettyEntity S e = unlines ([] :: (block S e ++ [[]])) := by
  unfold prettyEntity printLine
  rw [showEntity_lines, List.cons_append]
  show _ = unlines ([[]] ++ (block S e ++ [[]]))
  rw [unlines_append, unlines_append]
  rfl

theorem pretty_lines (S : Screen) : ∀ (es : List Entity), prettyEntities S es = unlines (outputLines S es)
  | [] => rfl
  | [e] => by
    show prettyEntity S e = _
    rw [prettyEntity_lines]
    rfl
  | e :: e' :: es => by
    have ih := pretty_lines S (e' :: es)
    unfold prettyEntities at ih ⊢
    rw [List.map_cons, List.map_cons, joinWith, ← List.map_cons, ih, prettyEntity_lines]
    have hs : separatorLine = unlines ["---------------------------------------".toList] := by decide
    rw [hs, ← unlines_append, ← unlines_append]
    show unlines (([] :: (block S e ++ [[]])) ++ ["---------------------------------------".toList] ++ outputLines S (e' :: es)) =
      unlines ([] :: (block S e ++ ([] :: "---------------------------------------".toList :: outputLines S (e' :: es))))
    congr 1
    rw [List.append_assoc, List.cons_append, List.append_assoc]
    rfl

theorem outputLines_plain {S : Screen} : ∀ {es : List Entity}, (∀ e ∈ es, OneLiners S e) → ∀ l ∈ outputLines S es, '\n' ∉ l
  | [], _, l, hl => by cases hl
  | [e], h, l, hl => by
    simp only [outputLines, List.mem_cons, List.mem_append, List.not_mem_nil, or_false] at hl
    rcases hl with rfl | hl | rfl
    · simp
    · exact block_plain (h e (by simp)) l hl
    · simp
  | e :: e' :: es, h, l, hl => by
    have hl : l ∈ [] :: (block S e ++ ([] :: "---------------------------------------".toList :: outputLines S (e' :: es))) := hl
    simp only [List.mem_append, List.mem_cons (a := l)] at hl
    rcases hl with rfl | hl | rfl | rfl | hl
    · simp
    · exact block_plain (h e (by simp)) l hl
    · simp
    · decide
    · exact outputLines_plain (fun x hx => h x (List.mem_cons_of_mem _ hx)) l hl

theorem outputLines_inj {S : Screen} : ∀ {es es' : List Entity}, outputLines S es = outputLines S es' →
    es.map (seen S) = es'.map (seen S)
  | [], [], _ => rfl
  | [], [e'], h => by cases h
  | [], e' :: e'' :: es', h => by cases h
  | [e], [], h => by cases h
  | e :: e'' :: es, [], h => by cases h
  | [e], [e'], h => by
    have := (block_inj (S := S) (e := e) (e' := e') (.inr rfl) (.inr rfl) (List.cons.inj h).2).1
    simp [this]
  | [e], e' :: e'' :: es', h => by
    have h : block S e ++ [[]] = block S e' ++ ([] :: "---------------------------------------".toList :: outputLines S (e'' :: es')) :=
      (List.cons.inj h).2
    cases (block_inj (S := S) (.inr rfl) (.inr rfl) h).2
  | e :: e'' :: es, [e'], h => by
    have h : block S e ++ ([] :: "---------------------------------------".toList :: outputLines S (e'' :: es)) = block S e' ++ [[]] :=
      (List.cons.inj h).2
    cases (block_inj (S := S) (.inr rfl) (.inr rfl) h).2
  | e :: a :: es, e' :: a' :: es', h => by
    have h : block S e ++ ([] :: "---------------------------------------".toList :: outputLines S (a :: es)) =
      block S e' ++ ([] :: "---------------------------------------".toList :: outputLines S (a' :: es')) := (List.cons.inj h).2
    obtain ⟨h1, h2⟩ := block_inj (S := S) (e := e) (e' := e') (.inr rfl) (.inr rfl) h
    have ih := outputLines_inj (List.cons.inj (List.cons.inj h2).2).2
    rw [List.map_cons, h1, ih, ← List.map_cons]

/-- C110: the same for the text of a single entity. Missing for the full claim: as before. -/
theorem C110_get_partial (S : Screen) (e e' : Entity) (h : OneLiners S e) (h' : OneLiners S e')
    (he : showItem S (.entity e) = showItem S (.entity e')) : seen S e = seen S e' := by
  have := C110_reply_partial S [e] [e'] (by simpa using h) (by simpa using h') he
  simpa using this

/-- C110: the same for the pretty output of the commands `get`, `query` and `related`. Missing for the full claim: as
before. -/
theorem C110_output_partial (S : Screen) (es es' : List Entity) (h : ∀ e ∈ es, OneLiners S e) (h' : ∀ e ∈ es', OneLiners S e)
    (he : outputEntities S es .pretty = outputEntities S es' .pretty) : es.map (seen S) = es'.map (seen S) := by
  have he2 : prettyEntities S es = prettyEntities S es' := he
  rw [pretty_lines, pretty_lines] at he2
  exact outputLines_inj (unlines_inj (outputLines_plain h) (outputLines_plain h') he2)

/-- C110: `list` prints one line for each id; ids are told apart if they contain no line breaks, which they cannot: this is
the missing part. -/
theorem C110_list_partial (C : Codec) (ids ids' : List Str) (h : ∀ i ∈ ids, '\n' ∉ i) (h' : ∀ i ∈ ids', '\n' ∉ i)
    (he : listOutput C ids .pretty = listOutput C ids' .pretty) : ids = ids' := unlines_inj h h' he

/-- An entity with a note that imitates a further entity, and the two entities that it imitates. -/
def Spec.forger : Entity := ⟨"task.a".toList, "task".toList,
  [("note".toList, .string "done\n\n---\ntask.b\n\nNote: paid".toList)]⟩
def Spec.forged : List Entity := [⟨"task.a".toList, "task".toList, [("note".toList, .string "done".toList)]⟩,
  ⟨"task.b".toList, "task".toList, [("note".toList, .string "paid".toList)]⟩]

/-- C110 fails for texts with line breaks: one entity is shown to the reader of the tool's reply as two. -/
theorem C110_forged (S : Screen) (hs : S.sentence "note".toList = "Note".toList) :
    queryReply S (.entities [forger]) = queryReply S (.entities forged) := by
  have h1 : ∀ t : Str, showField S ("note".toList, .string t) = "Note: ".toList ++ t := by
    intro t
    unfold showField
    rw [hs]
    rfl
  have h2 : ∀ (i : Str) (t : Str), showEntity S ⟨i, "task".toList, [("note".toList, .string t)]⟩ =
      i ++ "\n\n".toList ++ ("Note: ".toList ++ t ++ ['\n']) := by
    intro i t
    unfold showEntity
    rw [List.flatMap_cons, h1, List.flatMap_nil, List.append_nil]
  have h3 : queryReply S (.entities [forger]) = showEntity S forger := rfl
  have h4 : queryReply S (.entities forged) = joinWith "\n---\n".toList (forged.map (showEntity S)) := rfl
  rw [h3, h4]
  unfold forger forged
  rw [List.map_cons, List.map_cons, List.map_nil, h2, h2, h2]
  decide

/-- C110 fails in the same way for the pretty output of the commands: a note that imitates the separator line. -/
theorem C110_forged_output (S : Screen) (hs : S.sentence "note".toList = "Note".toList) :
    outputEntities S [⟨"task.a".toList, "task".toList,
      [("note".toList, .string "done\n\n---------------------------------------\n\ntask.b\n\nNote: paid".toList)]⟩] .pretty =
      outputEntities S forged .pretty := by
  have h1 : ∀ t : Str, showField S ("note".toList, .string t) = "Note: ".toList ++ t := by
    intro t
    unfold showField
    rw [hs]
    rfl
  have h2 : ∀ (i : Str) (t : Str), prettyEntity S ⟨i, "task".toList, [("note".toList, .string t)]⟩ =
      '\n' :: (i ++ "\n\n".toList ++ ("Note: ".toList ++ t ++ ['\n'])) ++ ['\n'] := by
    intro i t
    unfold prettyEntity printLine showEntity
    rw [List.flatMap_cons, h1, List.flatMap_nil, List.append_nil]
  show prettyEntities S [_] = prettyEntities S forged
  unfold prettyEntities forged
  rw [List.map_cons, List.map_cons, List.map_cons, List.map_nil, h2, h2, h2]
  decide

/-! ## C111: printed tables can be told apart -/

/-- What is seen of a cell, when it is there. -/
def Spec.shownCell (S : Screen) : Option FieldValue → Str
  | none => "-".toList
  | some v => showValue S v

/-- A table as the `select` command makes it: at least one column, each row with one cell for each column, and none of the
shown texts contains a tab or a line break. -/
def Spec.PlainTable (S : Screen) (columns : List Str) (rows : List (List (Option FieldValue))) : Prop :=
  columns ≠ [] ∧ (∀ c ∈ columns, '\t' ∉ c ∧ '\n' ∉ c) ∧
    ∀ r ∈ rows, r.length = columns.length ∧ ∀ c ∈ r, '\t' ∉ shownCell S c ∧ '\n' ∉ shownCell S c

theorem showCell_eq (S : Screen) (c : Option FieldValue) : showCell S c = shownCell S c := by
  cases c <;> rfl

theorem upto_inj {c : Char} : ∀ {a b x y : Str}, c ∉ a → c ∉ b → a ++ c :: x = b ++ c :: y → a = b ∧ x = y
  | [], [], _, _, _, _, h => ⟨rfl, (List.cons.inj h).2⟩
  | [], d :: b, _, _, _, hb, h => by
    rw [List.nil_append, List.cons_append, List.cons.injEq] at h
    exact absurd (h.1 ▸ List.mem_cons_self) hb
  | d :: a, [], _, _, ha, _, h => by
    rw [List.nil_append, List.cons_append, List.cons.injEq] at h
    exact absurd (h.1 ▸ List.mem_cons_self) ha
  | d :: a, e :: b, x, y, ha, hb, h => by
    rw [List.cons_append, List.cons_append, List.cons.injEq] at h
    obtain ⟨h1, h2⟩ := upto_inj (fun hc => ha (by simp [hc])) (fun hc => hb (by simp [hc])) h.2
    exact ⟨by rw [h.1, h1], h2⟩

theorem joinWith_inj {c : Char} : ∀ {a b : List Str}, a ≠ [] → b ≠ [] → (∀ x ∈ a, c ∉ x) → (∀ x ∈ b, c ∉ x) →
    joinWith [c] a = joinWith [c] b → a = b
  | [], _, ha, _, _, _, _ => absurd rfl ha
  | _, [], _, hb, _, _, _ => absurd rfl hb
  | [x], [y], _, _, _, _, h => by
    have h : x = y := h
    rw [h]
  | [x], y :: z :: ys, _, _, ha, _, h => by
    have h : x = y ++ [c] ++ joinWith [c] (z :: ys) := h
    exact absurd (by rw [h]; simp) (ha x (by simp))
  | x :: z :: xs, [y], _, _, _, hb, h => by
    have h : x ++ [c] ++ joinWith [c] (z :: xs) = y := h
    exact absurd (by rw [← h]; simp) (hb y (by simp))
  | x :: z :: xs, y :: w :: ys, _, _, ha, hb, h => by
    have h : x ++ [c] ++ joinWith [c] (z :: xs) = y ++ [c] ++ joinWith [c] (w :: ys) := h
    rw [List.append_assoc, List.append_assoc] at h
    obtain ⟨h1, h2⟩ := upto_inj (ha x (by simp)) (hb y (by simp)) h
    rw [h1, joinWith_inj (by simp) (by simp) (fun v hv => ha v (List.mem_cons_of_mem _ hv))
      (fun v hv => hb v (List.mem_cons_of_mem _ hv)) h2]

theorem joinWith_plain {c d : Char} (hcd : d ≠ c) : ∀ {a : List Str}, (∀ x ∈ a, d ∉ x) → d ∉ joinWith [c] a
  | [], _ => by simp [joinWith]
  | [x], h => h x (by simp)
  | x :: y :: xs, h => by
    show d ∉ x ++ [c] ++ joinWith [c] (y :: xs)
    have ih := joinWith_plain hcd (a := y :: xs) fun v hv => h v (List.mem_cons_of_mem _ hv)
    simp only [List.mem_append, List.mem_singleton, not_or]
    exact ⟨⟨h x (by simp), hcd⟩, ih⟩

/-- C111: the printed table tells the columns, the number and the order of the rows and what each cell shows. Missing for the
full claim: texts with tabs or line breaks, and the missing cells (`C111_dash`). -/
theorem C111_table_partial (S : Screen) {cs cs' : List Str} {rows rows' : List (List (Option FieldValue))}
    (h : PlainTable S cs rows) (h' : PlainTable S cs' rows')
    (he : showResult S (.select cs rows) = showResult S (.select cs' rows')) :
    cs = cs' ∧ rows.map (·.map (shownCell S)) = rows'.map (·.map (shownCell S)) := by
  have hl : ∀ cs rows, showResult S (.select cs rows) =
      unlines (joinWith ['\t'] cs :: rows.map fun r => joinWith ['\t'] (r.map (shownCell S))) := by
    intro cs rows
    show joinWith ['\t'] cs ++ '\n' :: _ = _
    rw [unlines, List.flatMap_cons, List.flatMap_map, List.append_assoc]
    have : showCell S = shownCell S := funext (showCell_eq S)
    rw [this]
    rfl
  have hp : ∀ {cs rows}, PlainTable S cs rows →
      ∀ l ∈ joinWith ['\t'] cs :: rows.map (fun r => joinWith ['\t'] (r.map (shownCell S))), '\n' ∉ l := by
    intro cs rows h l hl
    simp only [List.mem_cons, List.mem_map] at hl
    rcases hl with rfl | ⟨r, hr, rfl⟩
    · exact joinWith_plain (by decide) fun x hx => (h.2.1 x hx).2
    · refine joinWith_plain (by decide) fun x hx => ?_
      obtain ⟨c, hc, rfl⟩ := List.mem_map.1 hx
      exact ((h.2.2 r hr).2 c hc).2
  rw [hl, hl] at he
  obtain ⟨h1, h2⟩ := List.cons.inj (unlines_inj (hp h) (hp h') he)
  have h3 := joinWith_inj h.1 h'.1 (fun x hx => (h.2.1 x hx).1) (fun x hx => (h'.2.1 x hx).1) h1
  refine ⟨h3, ?_⟩
  have hne : ∀ {cs rows}, PlainTable S cs rows → ∀ r ∈ rows, r.map (shownCell S) ≠ [] := by
    intro cs rows h r hr hm
    have := (h.2.2 r hr).1
    rw [List.map_eq_nil_iff.1 hm] at this
    exact h.1 (List.length_eq_zero_iff.1 this.symm)
  have htab : ∀ {cs rows}, PlainTable S cs rows → ∀ r ∈ rows, ∀ x ∈ r.map (shownCell S), '\t' ∉ x := by
    intro cs rows h r hr x hx
    obtain ⟨c, hc, rfl⟩ := List.mem_map.1 hx
    exact ((h.2.2 r hr).2 c hc).1
  have key : ∀ (a b : List (List (Option FieldValue))), (∀ r ∈ a, r ∈ rows) → (∀ r ∈ b, r ∈ rows') →
      a.map (fun r => joinWith ['\t'] (r.map (shownCell S))) = b.map (fun r => joinWith ['\t'] (r.map (shownCell S))) →
      a.map (·.map (shownCell S)) = b.map (·.map (shownCell S)) := by
    intro a
    induction a with
    | nil => intro b _ _ hab; cases b with
      | nil => rfl
      | cons => cases hab
    | cons r a ih =>
      intro b ha hb hab
      cases b with
      | nil => cases hab
      | cons r' b =>
        rw [List.map_cons, List.map_cons, List.cons.injEq] at hab
        rw [List.map_cons, List.map_cons, ih b (fun x hx => ha x (by simp [hx])) (fun x hx => hb x (by simp [hx])) hab.2,
          joinWith_inj (hne h r (ha r (by simp))) (hne h' r' (hb r' (by simp))) (htab h r (ha r (by simp)))
            (htab h' r' (hb r' (by simp))) hab.1]
  exact key rows rows' (fun _ h => h) (fun _ h => h) h2

/-- C111 fails for a missing value: it is printed like the text "-"; in JSON the two differ (`C109_results_partial`). -/
theorem C111_dash (S : Screen) (c : Str) :
    showResult S (.select [c] [[none]]) = showResult S (.select [c] [[some (.string "-".toList)]]) ∧
      saveResult S.codec (.select [c] [[none]]) ≠ saveResult S.codec (.select [c] [[some (.string "-".toList)]]) := by
  refine ⟨rfl, fun h => ?_⟩
  have hn : PlainResult S.codec (.select [c] [[none]]) := by
    intro row hrow v hv
    rw [List.mem_singleton] at hrow
    subst hrow
    cases List.mem_singleton.1 hv
  have hd : PlainResult S.codec (.select [c] [[some (.string "-".toList)]]) := by
    intro row hrow v hv
    rw [List.mem_singleton] at hrow
    subst hrow
    cases List.mem_singleton.1 hv
    refine ⟨fun w hw => ?_, by simp [levels], fun f hf => ?_⟩
    · cases hw
      trivial
    · cases hf
  cases saveResult_inj hn hd h

/-! ## Examples -/

/-- A screen for ASCII. -/
def exScreen : Screen where
  codec := exCodec
  cases := asciiTable
  upperChar c := [c.toUpper]
  showF64 _ := "0.5".toList
  currencyName _ := "Euro".toList
  showDate _ := "2024-05-01 12:00:00 +00:00".toList

example : GivesBack exCodec (outputEntities exScreen (accepted exHistory) .json) (accepted exHistory) :=
  C109_entities_partial exScreen _ exKept exPlain

example : (accepted exHistory).length = 2 := by decide +kernel

example : outputEntities exScreen [⟨"org.b".toList, "org".toList, [("n".toList, .list [.integer 3, .boolean true])]⟩] .json =
    "[\n  {\n    \"id\": \"org.b\",\n    \"entity_type\": \"org\",\n    \"fields\": [\n      [\n        \"n\",\n        {\n          \"List\": [\n            {\n              \"Integer\": 3\n            },\n            {\n              \"Boolean\": true\n            }\n          ]\n        }\n      ]\n    ]\n  }\n]\n".toList := by
  decide +kernel

example : PlainResult exCodec (.select ["n".toList] [[some (.integer 3)], [none]]) := by
  intro row hrow v hv
  simp only [List.mem_cons, List.not_mem_nil, or_false] at hrow
  rcases hrow with rfl | rfl
  · cases List.mem_singleton.1 hv
    refine ⟨fun w hw => ?_, by simp [levels], fun f hf => ?_⟩
    · cases hw
      exact ⟨by decide, by decide⟩
    · cases hf
  · cases List.mem_singleton.1 hv

example : ∀ e ∈ forged, OneLiners exScreen e := by
  unfold OneLiners
  decide +kernel

example : queryReply exScreen (.entities forged) = "task.a\n\nNote: done\n\n---\ntask.b\n\nNote: paid\n".toList := by decide +kernel

example : exScreen.sentence "note".toList = "Note".toList := by decide +kernel

example : PlainTable exScreen ["a".toList, "b".toList] [[some (.integer 3), none], [some (.string "x y".toList), some (.boolean true)]] := by
  unfold PlainTable
  decide +kernel

example : showResult exScreen (.select ["a".toList, "b".toList] [[some (.integer 3), none], [some (.string "x y".toList), some (.boolean true)]]) =
    "a\tb\n3\t-\nx y\ttrue\n".toList := by decide +kernel

end Firm
