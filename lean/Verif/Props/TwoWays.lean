import Verif.Props.Command

/-!
# The same argument given to both programs

C135: an argument of `firm add` and the JSON value for `add_entity` that says the same are stored as the same value,
and a command line and a request that say the same are both refused or write the same entity.
-/

namespace Firm
open Spec

/-- A piece of text without white space. -/
def Spec.Bare (w : Str) : Prop := w ≠ [] ∧ ∀ c ∈ w, isWs c = false

/-- A text on the command line and a JSON value that say the same of a field of the given type, and what they say. -/
inductive Spec.Twin (S : Shell) (H : Host) : FieldType → Str → Json → FieldValue → Prop
  | yes : Twin S H .boolean "true".toList (.bool true) (.boolean true)
  | no : Twin S H .boolean "false".toList (.bool false) (.boolean false)
  | string {s : Str} : '"' ∉ s → Twin S H .string s (.string s) (.string s)
  | enum {s : Str} : '"' ∉ s → Twin S H .enum s (.string s) (.enum s)
  | integer {s : Str} {k : JsonNumber} {n : Int} : IntText s n → IsInt k n → -(2 ^ 63) ≤ n → n < 2 ^ 63 →
      Twin S H .integer s (.number k) (.integer n)
  | float {s : Str} {f : F64} : '.' ∈ s → S.lang.parseF64 s = some f → Twin S H .float s (.number (.float f)) (.float f)
  | currency {a c : Str} {d : Decimal} : Bare a → Bare c → parseDecimal a = some d → S.lang.knownCurrency c = true →
      Twin S H .currency (a ++ ' ' :: c) (.string (a ++ ' ' :: c)) (.currency d c)
  | entity {a b : Str} : '.' ∉ a → '.' ∉ b → S.lang.cases.lower a = a →
      Twin S H .reference (a ++ '.' :: b) (.string (a ++ '.' :: b))
        (.reference (.entity (S.lang.cases.composeEntityId a b)))
  | field {a b f : Str} : '.' ∉ a → '.' ∉ b → '.' ∉ f → S.lang.cases.snake f = f →
      Twin S H .reference (a ++ '.' :: (b ++ '.' :: f)) (.string (a ++ '.' :: (b ++ '.' :: f)))
        (.reference (.field (S.lang.cases.composeEntityId a b) f))
  | date {s r : Str} {day : Int} : parseCivil s = some day → H.parseRfc3339 r = some (moment day 0 S.lang.localOffset) →
      Twin S H .dateTime s (.string r) (.dateTime (moment day 0 S.lang.localOffset))
  | dateTime {s r : Str} {d : DateTime} : MomentText S.lang s d → H.parseRfc3339 r = some d →
      Twin S H .dateTime s (.string r) (.dateTime d)

theorem bare_no_space {w : Str} (h : Bare w) : ' ' ∉ w := fun hc => absurd (h.2 _ hc) (by decide)

theorem twin_argument {S : Shell} {H : Host} {t : FieldType} {s : Str} {j : Json} {x : FieldValue} (h : Twin S H t s j x)
    (target : List PathComp) : Argument S target t s x := by
  cases h with
  | yes => exact .yes
  | no => exact .no
  | string h => exact .string h
  | enum h => exact .enum h
  | integer h1 h2 h3 h4 => exact .integer h1 h3 h4
  | float h1 h2 => exact .float h1 h2
  | currency h1 h2 h3 h4 => exact .currency (bare_no_space h1) (bare_no_space h2) h3 h4
  | entity h1 h2 h3 => exact .entity h1 h2
  | field h1 h2 h3 h4 => exact .field h1 h2 h3
  | date h1 h2 => exact .date h1
  | dateTime h1 h2 => exact .dateTime h1

theorem twin_json {S : Shell} {H : Host} (hl : S.lang = H.lang) {t : FieldType} {s : Str} {j : Json} {x : FieldValue}
    (h : Twin S H t s j x) (target : List PathComp) : jsonScalar H target t j = some x := by
  cases h with
  | yes => rfl
  | no => rfl
  | string h => rfl
  | enum h => rfl
  | integer h1 h2 h3 h4 => rw [jsonScalar, asI64_of h2 (by omega)]; rfl
  | float h1 h2 => rfl
  | @currency a c d h1 h2 h3 h4 =>
    have hw : Words (a ++ ' ' :: c) [a, c] := by
      have h0 : Words (' ' :: c) [c] := by
        have := Words.cons (w := [' ']) (a := c) (rest := []) (l := []) (by simp; decide) h2.1 h2.2 (.inl rfl) (.nil (by simp))
        simpa using this
      have := Words.cons (w := []) (a := a) (rest := ' ' :: c) (l := [c]) (by simp) h1.1 h1.2
        (.inr ⟨' ', c, rfl, by decide⟩) h0
      simpa using this
    rw [hl] at h4
    rw [jsonScalar, (splitWhitespace_iff _ _).2 hw]
    simp only [h3, h4, if_true]
  | @entity a b h1 h2 h3 =>
    rw [jsonScalar, jsonReference_entity h1 h2, CaseTable.composeEntityId, h3, hl]
  | @field a b f h1 h2 h3 h4 =>
    rw [hl] at h4
    rw [jsonScalar, jsonReference_field h1 h2 h3, h4, hl]
  | date h1 h2 => rw [jsonScalar, h2]; rfl
  | dateTime h1 h2 => rw [jsonScalar, h2]; rfl

/-- C135: an argument and a JSON value that say the same are both accepted and stored as the same value, the one
that they say. Missing: paths, and the texts of `C135_differs` and `C135_one_side`. -/
theorem C135_value_partial {S : Shell} {H : Host} (hl : S.lang = H.lang) {t : FieldType} {s : Str} {j : Json}
    {x : FieldValue} (h : Twin S H t s j x) (target target' : List PathComp) :
    (∃ v, S.fieldValue target t s = some v ∧ toFieldValue S.lang.cases v = x) ∧ jsonScalar H target' t j = some x :=
  ⟨C92_accepted S (twin_argument h target), twin_json hl h target'⟩

/-! ## Lists -/

/-- A reference to a field of an entity. -/
def Spec.NamesField : FieldValue → Prop
  | .reference (.field _ _) => True
  | _ => False

/-- Either all or none of the values are references to fields. -/
def Spec.SameKind (xs : List FieldValue) : Prop := ∀ x ∈ xs, ∀ y ∈ xs, (NamesField x ↔ NamesField y)

/-- Texts and JSON values that say the same one by one. -/
inductive Spec.Twins (S : Shell) (H : Host) (t : FieldType) : List Str → List Json → List FieldValue → Prop
  | nil : Twins S H t [] [] []
  | cons {s : Str} {j : Json} {x : FieldValue} {ss : List Str} {js : List Json} {xs : List FieldValue} :
      Twin S H t s j x → Twins S H t ss js xs → Twins S H t (s :: ss) (j :: js) (x :: xs)

theorem twin_type {S : Shell} {H : Host} {t : FieldType} {s : Str} {j : Json} {x : FieldValue} (h : Twin S H t s j x) :
    x.getType = t := by cases h <;> rfl

theorem typeName_same {T : CaseTable} {v w : ParsedValue} (ht : (toFieldValue T v).getType = (toFieldValue T w).getType)
    (hk : NamesField (toFieldValue T v) ↔ NamesField (toFieldValue T w)) : v.typeName = w.typeName := by
  cases v <;> cases w <;> first
    | exact FieldType.noConfusion ht
    | exact (hk.1 trivial).elim
    | exact (hk.2 trivial).elim
    | rfl

theorem checkItems_same {n : Str} {vs : List ParsedValue} (h : ∀ v ∈ vs, v.typeName = n) (i : Nat) :
    checkItems n i vs = .ok () := by
  induction vs generalizing i with
  | nil => rfl
  | cons v vs ih =>
    rw [checkItems, if_neg (by simp [h v (by simp)])]
    exact ih (fun w hw => h w (by simp [hw])) _

theorem twins_items {S : Shell} {H : Host} {t : FieldType} {ss : List Str} {js : List Json} {xs : List FieldValue}
    (h : Twins S H t ss js xs) (target : List PathComp) :
    ∃ vs, S.items target t ss = some vs ∧ vs.map (toFieldValue S.lang.cases) = xs := by
  induction h with
  | nil => exact ⟨[], rfl, rfl⟩
  | cons h1 _ ih =>
    obtain ⟨v, h2, h3⟩ := C92_accepted S (twin_argument h1 target)
    obtain ⟨vs, h4, h5⟩ := ih
    exact ⟨v :: vs, by rw [Shell.items, h2]; dsimp only; rw [h4]; rfl, by rw [List.map_cons, h3, h5]⟩

theorem twins_json {S : Shell} {H : Host} (hl : S.lang = H.lang) {t : FieldType} {ss : List Str} {js : List Json}
    {xs : List FieldValue} (h : Twins S H t ss js xs) (target : List PathComp) : jsonItems H target t js = some xs := by
  induction h with
  | nil => rfl
  | cons h1 _ ih => rw [jsonItems, twin_json hl h1 target]; dsimp only; rw [ih]; rfl

theorem twins_type {S : Shell} {H : Host} {t : FieldType} {ss : List Str} {js : List Json} {xs : List FieldValue}
    (h : Twins S H t ss js xs) : ∀ x ∈ xs, x.getType = t := by
  induction h with
  | nil => simp
  | cons h1 _ ih =>
    intro y hy
    rcases List.mem_cons.1 hy with rfl | hy
    · exact twin_type h1
    · exact ih y hy

theorem parseListFromVec_same {T : CaseTable} {t : FieldType} {vs : List ParsedValue}
    (ht : ∀ v ∈ vs, (toFieldValue T v).getType = t) (hk : SameKind (vs.map (toFieldValue T))) :
    parseListFromVec vs = .ok (.list vs) := by
  cases vs with
  | nil => rfl
  | cons v vs =>
    rw [parseListFromVec, checkItems_same]
    intro w hw
    refine typeName_same (T := T) ?_ (hk _ ?_ _ ?_)
    · rw [ht w (by simp [hw]), ht v (by simp)]
    · exact List.mem_map.2 ⟨w, by simp [hw], rfl⟩
    · exact List.mem_map.2 ⟨v, by simp, rfl⟩

/-- C135: the values given for a list and a JSON array that says the same are stored as the same list. Missing: as in
`C135_value_partial`, and arrays in which references to entities stand beside references to fields (`C135_mixed`). -/
theorem C135_list_partial {S : Shell} {H : Host} (hl : S.lang = H.lang) {t : FieldType} {ss : List Str} {js : List Json}
    {xs : List FieldValue} (h : Twins S H t ss js xs) (hk : SameKind xs) (target target' : List PathComp) :
    (∃ vs, S.items target t ss = some vs ∧ parseListFromVec vs = .ok (.list vs) ∧
      toFieldValue S.lang.cases (.list vs) = .list xs) ∧ jsonItems H target' t js = some xs := by
  obtain ⟨vs, h1, h2⟩ := twins_items h target
  refine ⟨⟨vs, h1, ?_, ?_⟩, twins_json hl h target'⟩
  · refine parseListFromVec_same (T := S.lang.cases) (t := t) (fun v hv => twins_type h _ ?_) (by rw [h2]; exact hk)
    rw [← h2]
    exact List.mem_map.2 ⟨v, hv, rfl⟩
  · rw [toFieldValue, toFieldValues_map, h2]

/-! ## The entity -/

/-- A `--field` argument and a field of a request that say the same. -/
def Spec.TwinField (S : Shell) (H : Host) (sc : EntitySchema) (q : Str × Str) (r : Str × Json) : Prop :=
  r.1 = q.1 ∧ ∀ fd, (S.lang.cases.snake q.1, fd) ∈ sc.fields → ∃ x, Twin S H fd.fieldType q.2 r.2 x

/-- A `--list` argument with its values and a field of a request with its item type that say the same. -/
def Spec.TwinList (S : Shell) (H : Host) (values lt : List (Str × Str)) (q : Str × Str) (r : Str × Json) : Prop :=
  r.1 = q.1 ∧ mapGet lt q.1 = some q.2 ∧ ∃ js, r.2 = .array js ∧ js ≠ [] ∧ (valuesOf values q.1).length = js.length ∧
    ∀ t, t ≠ .list → S.lang.env.lower q.2 = itemTypeName t → ∃ xs, Twins S H t (valuesOf values q.1) js xs ∧ SameKind xs

theorem addFields_twin {S : Shell} {H : Host} (hl : S.lang = H.lang) (target target' : List PathComp)
    {lt : List (Str × Str)} {sc : EntitySchema} {fs : List (Str × Str)} {js rest : List (Str × Json)}
    (h : List.Forall₂ (TwinField S H sc) fs js) (e : Entity) :
    addFields H target' lt sc e (js ++ rest) =
      (S.addFields target sc e fs).bind fun e => addFields H target' lt sc e rest := by
  induction h generalizing e with
  | nil => rfl
  | @cons q r fs js h1 _ ih =>
    obtain ⟨n, s⟩ := q
    obtain ⟨m, j⟩ := r
    obtain ⟨hn, h1⟩ := h1
    dsimp only at hn h1
    subst hn
    rw [List.cons_append, addFields, Shell.addFields, ← hl]
    cases hg : mapGet sc.fields (S.lang.cases.snake m) with
    | none => rfl
    | some fd =>
      obtain ⟨x, hx⟩ := h1 fd (mapGet_in hg)
      obtain ⟨v, h2, h3⟩ := C92_accepted S (twin_argument hx target)
      have h4 : jsonToFieldValue H target' lt m fd.fieldType j = some x := by
        have h5 := twin_json hl hx target'
        generalize fd.fieldType = t at hx h5 ⊢
        cases hx <;> exact h5
      simp only [h2, h3, h4]
      exact ih _

theorem addLists_twin {S : Shell} {H : Host} (hl : S.lang = H.lang) (target target' : List PathComp)
    {values lt : List (Str × Str)} {sc : EntitySchema} {ls : List (Str × Str)} {js : List (Str × Json)}
    (h : List.Forall₂ (TwinList S H values lt) ls js) (e : Entity) :
    addFields H target' lt sc e js = S.addLists target sc values e ls := by
  induction h generalizing e with
  | nil => rfl
  | @cons q r ls rs h1 _ ih =>
    obtain ⟨n, ty⟩ := q
    obtain ⟨m, j⟩ := r
    obtain ⟨hn, hlt, js, hj, hne, hlen, h1⟩ := h1
    dsimp only at hn hj h1 hlt hlen
    subst hn hj
    rw [addFields, Shell.addLists, ← hl]
    cases hg : mapGet sc.fields (S.lang.cases.snake m) with
    | none => rfl
    | some fd =>
      dsimp only
      by_cases hf : fd.fieldType = .list
      · rw [if_pos hf, valuesOf_eq, hf]
        obtain ⟨j0, js0, rfl⟩ := List.exists_cons_of_ne_nil hne
        obtain ⟨s0, ss0, hs⟩ : ∃ s0 ss0, valuesOf values m = s0 :: ss0 := by
          cases hv : valuesOf values m with
          | nil => rw [hv] at hlen; cases hlen
          | cons s0 ss0 => exact ⟨s0, ss0, rfl⟩
        rw [jsonToFieldValue, hlt]
        · dsimp only
          rw [← hl]
          cases hp : parseListItemType S.lang.env ty with
          | none => rfl
          | some t =>
            obtain ⟨ht1, ht2⟩ := (C90_item_type _ _ _).1 hp
            obtain ⟨xs, hxs, hk⟩ := h1 t ht1 ht2
            obtain ⟨⟨vs, k1, k2, k3⟩, k4⟩ := C135_list_partial hl hxs hk target target'
            rw [hs] at k1 ⊢
            simp only [k1, k2, k3, k4, Option.map_some]
            exact ih _
        · intro hc; cases hc
      · rw [if_neg hf]
        have : jsonToFieldValue H target' lt m fd.fieldType (.array js) = none := by
          cases hft : fd.fieldType <;> first
            | exact absurd hft hf
            | rfl
        rw [this]

/-- A command line and a request that say the same: the fields of the request are enumerated in the order in which the
command stores the arguments. -/
structure Spec.SameRequest (S : Shell) (H : Host) (schemas : List EntitySchema) (a : AddArgs) (p : AddParams) : Prop where
  type : p.type = a.type
  snakeType : S.lang.cases.snake a.type = a.type
  id : S.lang.cases.snake p.id = S.sanitize a.id
  fields : ∃ plain lists, p.fields = plain ++ lists ∧
    (∀ sc ∈ schemas, sc.entityType = a.type → List.Forall₂ (TwinField S H sc) (pairsOf a.fields) plain) ∧
    List.Forall₂ (TwinList S H (pairsOf a.listValues) p.listItemTypes)
      (S.order ((pairsOf a.lists).foldl (fun m p => mapInsert m p.1 p.2) [])) lists

/-- C135: a command line and a request that say the same are both refused, or add the same entity, whatever the target
files are. Missing: as in `C135_list_partial`, and lists without values (`C135_one_side`). -/
theorem C135_same_partial {S : Shell} {H : Host} (hl : S.lang = H.lang) (st : ServerState) {a : AddArgs} {p : AddParams}
    (h : SameRequest S H st.build.schemas a p) :
    S.entityToAdd st.graph st.build.schemas a = entityToAdd H st p := by
  obtain ⟨hty, hsn, hid, plain, lists, hf, hp, hls⟩ := h
  unfold Shell.entityToAdd entityToAdd
  rw [hty]
  cases hs : st.build.schemas.find? fun s => decide (s.entityType = a.type) with
  | none => rfl
  | some sc =>
    have hsc : sc.entityType = a.type := by simpa using List.find?_some hs
    have hmem := List.mem_of_find?_eq_some hs
    dsimp only
    rw [← hl, hid, hsn, hsc]
    cases hg : st.graph.getEntity (S.lang.cases.composeEntityId a.type (S.sanitize a.id)) with
    | some e0 => rfl
    | none =>
      dsimp only
      rw [hf, addFields_twin hl (S.dslPath a.toFile a.type) _ (hp sc hmem hsc)]
      cases S.addFields (S.dslPath a.toFile a.type) sc
          (Entity.new (S.lang.cases.composeEntityId a.type (S.sanitize a.id)) a.type) (pairsOf a.fields) with
      | none => rfl
      | some e =>
        dsimp only [Option.bind_some]
        rw [addLists_twin hl (S.dslPath a.toFile a.type) _ hls]
        rfl

/-! ## Where the programs differ -/

/-- C135 is false for quotation marks, for a type with capitals in front of an id, for the name of a field that is not
in snake case and for a whole number given for a float: both programs accept them and store different values. -/
theorem C135_differs (target target' : List PathComp) :
    (exShell.fieldValue target .string "\"so be it\"".toList = some (.string "so be it".toList) ∧
      jsonScalar exHost target' .string (.string "\"so be it\"".toList) = some (.string "\"so be it\"".toList)) ∧
    ((exShell.fieldValue target .reference "MyTask.bob".toList).map (toFieldValue exLang.cases) =
        some (.reference (.entity "mytask.bob".toList)) ∧
      jsonScalar exHost target' .reference (.string "MyTask.bob".toList) = some (.reference (.entity "my_task.bob".toList))) ∧
    ((exShell.fieldValue target .reference "person.bob.FirstName".toList).map (toFieldValue exLang.cases) =
        some (.reference (.field "person.bob".toList "FirstName".toList)) ∧
      jsonScalar exHost target' .reference (.string "person.bob.FirstName".toList) =
        some (.reference (.field "person.bob".toList "first_name".toList))) ∧
    (exShell.fieldValue target .float "2".toList = some (.integer 2) ∧
      ∃ f, jsonScalar exHost target' .float (.number (.pos 2)) = some (.float f)) := by
  have e1 : exLang.cases.composeEntityId "MyTask".toList "bob".toList = "mytask.bob".toList := by decide +kernel
  have e2 : jsonReference exLang.cases "MyTask.bob".toList = .entity "my_task.bob".toList := by decide +kernel
  have e3 : exLang.cases.composeEntityId "person".toList "bob".toList = "person.bob".toList := by decide +kernel
  have e4 : jsonReference exLang.cases "person.bob.FirstName".toList =
      .field "person.bob".toList "first_name".toList := by decide +kernel
  refine ⟨⟨rfl, rfl⟩, ⟨?_, ?_⟩, ⟨?_, ?_⟩, rfl, _, rfl⟩
  · rw [show exShell.fieldValue target .reference "MyTask.bob".toList = some (.entityRef "MyTask".toList "bob".toList)
      from rfl, Option.map_some, toFieldValue, e1]
  · rw [jsonScalar, show exHost.lang.cases = exLang.cases from rfl, e2]
  · rw [show exShell.fieldValue target .reference "person.bob.FirstName".toList =
      some (.fieldRef "person".toList "bob".toList "FirstName".toList) from rfl, Option.map_some, toFieldValue, e3]
  · rw [jsonScalar, show exHost.lang.cases = exLang.cases from rfl, e4]

/-- C135 is false for references of one or four parts, which only the server accepts, for a currency with two blanks,
which only the server accepts, and for a list without values. -/
theorem C135_one_side (target target' : List PathComp) :
    (exShell.fieldValue target .reference "bob".toList = none ∧
      jsonScalar exHost target' .reference (.string "bob".toList) = some (.reference (.entity "bob".toList))) ∧
    (exShell.fieldValue target .reference "person.bob.address.city".toList = none ∧
      jsonScalar exHost target' .reference (.string "person.bob.address.city".toList) =
        some (.reference (.field "person.bob".toList "address".toList))) ∧
    (∀ (L : Lang) (H : Host), H.lang = L → L.knownCurrency "EUR".toList = true →
      (parseCurrency L "5  EUR".toList).toOption = none ∧
      jsonScalar H target' .currency (.string "5  EUR".toList) = some (.currency ⟨5, 0⟩ "EUR".toList)) ∧
    (∀ e, exShell.addLists target exArgSchema [] e [("tags".toList, "string".toList)] = none ∧
      addFields exHost target' [("tags".toList, "string".toList)] exArgSchema e [("tags".toList, .array [])] =
        some (e.withField "tags".toList (.list []))) := by
  have e1 : jsonReference exLang.cases "bob".toList = .entity "bob".toList := by decide +kernel
  have e2 : jsonReference exLang.cases "person.bob.address.city".toList =
      .field "person.bob".toList "address".toList := by decide +kernel
  have e3 : exLang.cases.snake "tags".toList = "tags".toList := by decide +kernel
  have e4 : mapGet exArgSchema.fields "tags".toList = some (.new .list .optional 2) := by decide +kernel
  refine ⟨⟨rfl, ?_⟩, ⟨rfl, ?_⟩, ?_, fun e => ⟨?_, ?_⟩⟩
  · rw [jsonScalar, show exHost.lang.cases = exLang.cases from rfl, e1]
  · rw [jsonScalar, show exHost.lang.cases = exLang.cases from rfl, e2]
  rotate_left
  · have e5 : parseListItemType exShell.lang.env "string".toList = some .string := by decide +kernel
    rw [Shell.addLists, show exShell.lang.cases = exLang.cases from rfl, e3, e4]
    dsimp only
    rw [if_pos (by rfl), e5]
    rfl
  · rw [addFields, show exHost.lang.cases = exLang.cases from rfl, e3, e4]
    rfl
  intro L H hl hk
  refine ⟨rfl, ?_⟩
  rw [← hl] at hk
  have h1 : splitWhitespace "5  EUR".toList = ["5".toList, "EUR".toList] := by decide
  have h2 : parseDecimal "5".toList = some ⟨5, 0⟩ := by decide
  rw [jsonScalar, h1]
  simp only [h2, hk, if_true]

/-- C135 is false for a list of references to entities and to fields: only the server accepts it. -/
theorem C135_mixed (target target' : List PathComp) :
    (∃ vs, exShell.items target .reference ["person.bob".toList, "person.bob.name".toList] = some vs ∧
      parseListFromVec vs = .error (.heterogeneousList "EntityReference".toList "FieldReference".toList 1)) ∧
    jsonItems exHost target' .reference [.string "person.bob".toList, .string "person.bob.name".toList] =
      some [.reference (.entity "person.bob".toList), .reference (.field "person.bob".toList "name".toList)] := by
  refine ⟨⟨[.entityRef "person".toList "bob".toList, .fieldRef "person".toList "bob".toList "name".toList], rfl, rfl⟩, ?_⟩
  have e1 : jsonReference exLang.cases "person.bob".toList = .entity "person.bob".toList := by decide +kernel
  have e2 : jsonReference exLang.cases "person.bob.name".toList = .field "person.bob".toList "name".toList := by
    decide +kernel
  rw [jsonItems, jsonScalar, jsonItems, jsonScalar, show exHost.lang.cases = exLang.cases from rfl, e1, e2]
  rfl

/-! ## Examples -/

/-- The request that says what `exAddArgs` says. -/
def exTwinParams : AddParams where
  type := "person".toList
  id := "bob".toList
  fields := [("name".toList, .string "Bob B".toList), ("Age".toList, .number (.neg 40)),
    ("tags".toList, .array [.string "x".toList, .string "y".toList])]
  toFile := none
  listItemTypes := [("tags".toList, "String".toList)]

theorem exTwin_same : SameRequest exShell exHost [exArgSchema] exAddArgs exTwinParams where
  type := rfl
  snakeType := by decide +kernel
  id := by decide +kernel
  fields := by
    refine ⟨[("name".toList, .string "Bob B".toList), ("Age".toList, .number (.neg 40))],
      [("tags".toList, .array [.string "x".toList, .string "y".toList])], rfl, ?_, ?_⟩
    · intro sc hsc _
      rw [List.mem_singleton.1 hsc]
      have hk : ∀ n fd, (n, fd) ∈ exArgSchema.fields →
          (n = "name".toList → fd.fieldType = .string) ∧ (n = "age".toList → fd.fieldType = .integer) := by
        intro n fd hm
        simp only [exArgSchema, List.mem_cons, Prod.mk.injEq, List.not_mem_nil, or_false] at hm
        rcases hm with ⟨rfl, rfl⟩ | ⟨rfl, rfl⟩ | ⟨rfl, rfl⟩ <;> decide
      refine .cons ⟨rfl, fun fd hfd => ⟨.string "Bob B".toList, ?_⟩⟩ (.cons ⟨rfl, fun fd hfd => ⟨.integer (-41), ?_⟩⟩ .nil)
      · rw [(hk _ fd hfd).1 (by decide +kernel)]
        exact .string (by decide)
      · rw [(hk _ fd hfd).2 (by decide +kernel)]
        exact .integer (.minus (.more (.one (d := 4) (by decide)) (d := 1) (by decide))) (.neg 40) (by decide) (by decide)
    · refine .cons ⟨rfl, by decide, _, rfl, by simp, by decide, fun t ht hty => ⟨[.string "x".toList, .string "y".toList], ?_⟩⟩ .nil
      have : t = .string := by
        have h : exShell.lang.env.lower "String".toList = "string".toList := by decide +kernel
        have hty : exShell.lang.env.lower "String".toList = itemTypeName t := hty
        rw [h] at hty
        cases t <;> first
          | rfl
          | exact absurd hty (by decide)
      subst this
      refine ⟨.cons (.string (by decide)) (.cons (.string (by decide)) .nil), ?_⟩
      intro x hx y hy
      simp only [List.mem_cons, List.not_mem_nil, or_false] at hx hy
      rcases hx with rfl | rfl <;> rcases hy with rfl | rfl <;> rfl

/-- Both programs write the same entity for them, and it is one. -/
example : ∃ e, exShell.entityToAdd .empty [exArgSchema] exAddArgs = some e ∧ e.id = "person.bob".toList ∧
    entityToAdd exHost ⟨exServer.state.workspace, ⟨[], [exArgSchema]⟩, .empty⟩ exTwinParams = some e := by
  have h := C135_same_partial (S := exShell) (H := exHost) rfl
    ⟨exServer.state.workspace, ⟨[], [exArgSchema]⟩, .empty⟩ exTwin_same
  have h0 : (exShell.entityToAdd .empty [exArgSchema] exAddArgs).map (·.id) = some "person.bob".toList := by decide +kernel
  obtain ⟨e, h1, h2⟩ := Option.map_eq_some_iff.1 h0
  exact ⟨e, h1, h2, h ▸ h1⟩

end Firm
