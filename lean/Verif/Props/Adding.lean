import Verif.Props.Paths
import Verif.Props.Tools
import Verif.Props.Schema

/-!
# What `add_entity` writes

C90: the entity that is written has the requested type, id and fields, with the values that the request
gives, and conforms to the schema.
-/

namespace Firm
open Spec

/-! ## Words -/

/-- The words of a text: nonempty pieces without white space, separated by white space. -/
inductive Spec.Words : Str → List Str → Prop
  | nil {w : Str} : (∀ c ∈ w, isWs c = true) → Words w []
  | cons {w a rest : Str} {l : List Str} : (∀ c ∈ w, isWs c = true) → a ≠ [] → (∀ c ∈ a, isWs c = false) →
      (rest = [] ∨ ∃ c r, rest = c :: r ∧ isWs c = true) → Words rest l → Words (w ++ a ++ rest) (a :: l)

theorem words_skip {s : Str} {l : List Str} {c : Char} (hc : isWs c = true) (h : Words s l) : Words (c :: s) l := by
  have hw : ∀ w : Str, (∀ d ∈ w, isWs d = true) → ∀ d ∈ c :: w, isWs d = true := by
    intro w h d hd
    rcases List.mem_cons.1 hd with rfl | hd
    · exact hc
    · exact h d hd
  cases h with
  | nil h => exact .nil (hw _ h)
  | @cons w a rest l h1 h2 h3 h4 h5 => exact Words.cons (w := c :: w) (hw _ h1) h2 h3 h4 h5

theorem words_go (s : Str) : ∀ cur : Str, (∀ c ∈ cur, isWs c = false) →
    Words (cur.reverse ++ s) (splitWhitespace.go s cur) := by
  induction s with
  | nil =>
    intro cur hcur
    unfold splitWhitespace.go
    split
    · next h => subst h; exact .nil (by simp)
    · next h =>
      have := Words.cons (w := []) (a := cur.reverse) (rest := []) (by simp) (by simpa using h) (by simpa using hcur)
        (.inl rfl) (.nil (by simp))
      simpa using this
  | cons c s ih =>
    intro cur hcur
    unfold splitWhitespace.go
    split
    · next hc =>
      split
      · next h => subst h; exact words_skip hc (ih [] (by simp))
      · next h =>
        have := Words.cons (w := []) (a := cur.reverse) (rest := c :: s) (by simp) (by simpa using h) (by simpa using hcur)
          (.inr ⟨c, s, rfl, hc⟩) (words_skip hc (ih [] (by simp)))
        simpa using this
    · next hc =>
      have := ih (c :: cur) (by
        intro d hd
        rcases List.mem_cons.1 hd with rfl | hd
        · simpa using hc
        · exact hcur d hd)
      simpa using this

theorem go_blank {w s : Str} (h : ∀ c ∈ w, isWs c = true) : splitWhitespace.go (w ++ s) [] = splitWhitespace.go s [] := by
  induction w with
  | nil => rfl
  | cons c w ih =>
    rw [List.cons_append, splitWhitespace.go, if_pos (h c (by simp)), if_pos rfl,
      ih fun d hd => h d (List.mem_cons_of_mem _ hd)]

theorem go_word {a s : Str} (h : ∀ c ∈ a, isWs c = false) (cur : Str) :
    splitWhitespace.go (a ++ s) cur = splitWhitespace.go s (a.reverse ++ cur) := by
  induction a generalizing cur with
  | nil => rfl
  | cons c a ih =>
    rw [List.cons_append, splitWhitespace.go, if_neg (by rw [h c (by simp)]; decide),
      ih fun d hd => h d (List.mem_cons_of_mem _ hd)]
    simp

/-- `split_whitespace` gives the words. -/
theorem splitWhitespace_iff (s : Str) (l : List Str) : splitWhitespace s = l ↔ Words s l := by
  constructor
  · rintro rfl
    exact words_go s [] (by simp)
  · intro h
    unfold splitWhitespace
    induction h with
    | nil h =>
      have := go_blank (s := []) h
      rw [List.append_nil] at this
      rw [this]
      rfl
    | @cons w a rest l h1 h2 h3 h4 _ ih =>
      rw [List.append_assoc, go_blank h1, go_word h3, List.append_nil]
      have hr : a.reverse ≠ [] := by simpa using h2
      rcases h4 with rfl | ⟨c, r, rfl, hc⟩
      · have : l = [] := by rw [← ih]; rfl
        subst this
        rw [splitWhitespace.go, if_neg hr, List.reverse_reverse]
      · rw [splitWhitespace.go, if_pos hc, if_neg hr, List.reverse_reverse]
        rw [splitWhitespace.go, if_pos hc, if_pos rfl] at ih
        rw [ih]

/-! ## The meaning of a JSON value -/

/-- The number as an integer. -/
inductive Spec.IsInt : JsonNumber → Int → Prop
  | pos (n : Nat) : IsInt (.pos n) n
  | neg (n : Nat) : IsInt (.neg n) (-(n : Int) - 1)

/-- A JSON value means a value of a field of the given type that is not a list; `dir` is the directory of
the file in which it will stand. -/
inductive Spec.Means (H : Host) (dir : List Str) : FieldType → Json → FieldValue → Prop
  | string (s : Str) : Means H dir .string (.string s) (.string s)
  | integer {n : JsonNumber} {i : Int} : IsInt n i → i ≤ 2 ^ 63 - 1 → Means H dir .integer (.number n) (.integer i)
  | float (f : F64) : Means H dir .float (.number (.float f)) (.float f)
  | nearest {n : JsonNumber} {i : Int} : IsInt n i → Means H dir .float (.number n) (.float (F64.ofInt i))
  | boolean (b : Bool) : Means H dir .boolean (.bool b) (.boolean b)
  | enum (s : Str) : Means H dir .enum (.string s) (.enum s)
  | currency {s amount code : Str} {d : Decimal} : Words s [amount, code] → parseDecimal amount = some d →
      H.lang.knownCurrency code = true → Means H dir .currency (.string s) (.currency d code)
  | dateTime {s : Str} {d : DateTime} : H.parseRfc3339 s = some d → Means H dir .dateTime (.string s) (.dateTime d)
  | entity {a b : Str} : '.' ∉ a → '.' ∉ b →
      Means H dir .reference (.string (a ++ '.' :: b)) (.reference (.entity (H.lang.cases.composeEntityId a b)))
  | field {a b f : Str} : '.' ∉ a → '.' ∉ b → '.' ∉ f →
      Means H dir .reference (.string (a ++ '.' :: (b ++ '.' :: f)))
        (.reference (.field (H.lang.cases.composeEntityId a b) (H.lang.cases.snake f)))
  | path {s r : Str} : lexicalPlace dir (pathComponents r) = lexicalPlace H.ws (pathComponents s) →
      Means H dir .path (.string s) (.path r)

/-- The same for lists, whose items have the type that the request gives. -/
inductive Spec.MeansAny (H : Host) (dir : List Str) (itemType : Option FieldType) : FieldType → Json → FieldValue → Prop
  | scalar {t : FieldType} {v : Json} {x : FieldValue} : Means H dir t v x → MeansAny H dir itemType t v x
  | empty : MeansAny H dir itemType .list (.array []) (.list [])
  | list {t : FieldType} {vs : List Json} {xs : List FieldValue} : itemType = some t → List.Forall₂ (Means H dir t) vs xs →
      MeansAny H dir itemType .list (.array vs) (.list xs)

/-- A text that is a reference: two or three parts, the first without capital letters. -/
inductive Spec.IsReferenceText (T : CaseTable) : Str → Prop
  | entity {a b : Str} : '.' ∉ a → '.' ∉ b → T.lower a = a → IsReferenceText T (a ++ '.' :: b)
  | field {a b f : Str} : '.' ∉ a → '.' ∉ b → '.' ∉ f → IsReferenceText T (a ++ '.' :: (b ++ '.' :: f))

/-- The values given for references are references. -/
def Spec.ReferencesOk (T : CaseTable) (t : FieldType) (v : Json) : Prop :=
  t = .reference → ∀ s, v = .string s → IsReferenceText T s

theorem jsonReference_entity {T : CaseTable} {a b : Str} (ha : '.' ∉ a) (hb : '.' ∉ b) :
    jsonReference T (a ++ '.' :: b) = .entity (T.snake (a ++ '.' :: b)) := by
  unfold jsonReference
  rw [splitChar_two, splitChar_none ha, splitChar_none hb]
  rfl

theorem jsonReference_field {T : CaseTable} {a b f : Str} (ha : '.' ∉ a) (hb : '.' ∉ b) (hf : '.' ∉ f) :
    jsonReference T (a ++ '.' :: (b ++ '.' :: f)) = .field (T.composeEntityId a b) (T.snake f) := by
  unfold jsonReference
  rw [splitChar_two, splitChar_none ha, splitChar_two, splitChar_none hb, splitChar_none hf]
  rfl

/-- C90: a value that is accepted means what is stored. Missing: other texts for references
(`C90_reference`) and target files given with `..` (`C89_dots`). -/
theorem C90_value_partial (H : Host) {dirs : List Str} {name : Str} (hv : ∀ n ∈ dirs ++ [name], ValidName n)
    {t : FieldType} {v : Json} {x : FieldValue} (hr : ReferencesOk H.lang.cases t v)
    (h : jsonScalar H (.rootDir :: (H.ws ++ dirs ++ [name]).map .normal) t v = some x) : Means H (H.ws ++ dirs) t v x := by
  unfold jsonScalar at h
  split at h
  · cases h; exact .string _
  · next n =>
    obtain ⟨i, hi, hx⟩ := Option.map_eq_some_iff.1 h
    cases hx
    cases n with
    | pos n =>
      rw [JsonNumber.asI64] at hi
      split at hi
      · next hle => cases hi; exact .integer (.pos n) hle
      · cases hi
    | neg n =>
      cases hi
      have := Means.integer (H := H) (dir := H.ws ++ dirs) (.neg n) (by omega)
      rwa [show -(n : Int) - 1 = Int.negSucc n by omega] at this
    | float f => cases hi
  · next n =>
    cases h
    cases n with
    | pos n => exact .nearest (.pos n)
    | neg n =>
      have := Means.nearest (H := H) (dir := H.ws ++ dirs) (.neg n)
      rwa [show -(n : Int) - 1 = Int.negSucc n by omega] at this
    | float f => exact .float f
  · cases h; exact .boolean _
  · next s =>
    cases h
    cases hr rfl s rfl with
    | @entity a b h1 h2 h3 =>
      rw [jsonReference_entity h1 h2]
      have := Means.entity (H := H) (dir := H.ws ++ dirs) h1 h2
      rw [CaseTable.composeEntityId, h3] at this
      exact this
    | field h1 h2 h3 =>
      rw [jsonReference_field h1 h2 h3]
      exact .field h1 h2 h3
  · cases h; exact .enum _
  · next s =>
    cases h
    obtain ⟨rel, h1, h2, h3, h4⟩ := jsonPath_spec (ws := H.ws) s
    rw [h1]
    refine .path ?_
    rw [components_show (.inl h2), h4]
  · next s =>
    split at h
    · next amount code hw =>
      split at h
      · next d hd =>
        split at h
        · next hk => cases h; exact .currency ((splitWhitespace_iff _ _).1 hw) hd hk
        · cases h
      · cases h
    · cases h
  · next s =>
    obtain ⟨d, hd, hx⟩ := Option.map_eq_some_iff.1 h
    cases hx
    exact .dateTime hd
  · cases h

theorem asI64_of {n : JsonNumber} {i : Int} (h : IsInt n i) (hi : i ≤ 2 ^ 63 - 1) : n.asI64 = some i := by
  cases h with
  | pos n => rw [JsonNumber.asI64, if_pos hi]
  | neg n => rw [JsonNumber.asI64, show -(n : Int) - 1 = Int.negSucc n by omega]

/-- C90: a value that has a meaning is accepted. -/
theorem C90_accepted (H : Host) (target : List PathComp) {dir : List Str} {t : FieldType} {v : Json} {x : FieldValue}
    (h : Means H dir t v x) : ∃ y, jsonScalar H target t v = some y ∧ y.getType = t := by
  cases h with
  | string s => exact ⟨_, rfl, rfl⟩
  | @integer n i hi hle => exact ⟨.integer i, by rw [jsonScalar, asI64_of hi hle]; rfl, rfl⟩
  | float f => exact ⟨_, rfl, rfl⟩
  | nearest hi => exact ⟨_, rfl, rfl⟩
  | boolean b => exact ⟨_, rfl, rfl⟩
  | enum s => exact ⟨_, rfl, rfl⟩
  | @currency s amount code d hw hd hk =>
    refine ⟨.currency d code, ?_, rfl⟩
    rw [jsonScalar, (splitWhitespace_iff _ _).2 hw]
    simp only [hd, hk, if_true]
  | dateTime hd => exact ⟨_, by rw [jsonScalar, hd]; rfl, rfl⟩
  | entity h1 h2 => exact ⟨_, rfl, rfl⟩
  | field h1 h2 h3 => exact ⟨_, rfl, rfl⟩
  | path h => exact ⟨_, rfl, rfl⟩

/-- The names of list item types. -/
def Spec.itemTypeName : FieldType → Str
  | .boolean => "boolean".toList
  | .string => "string".toList
  | .integer => "integer".toList
  | .float => "float".toList
  | .currency => "currency".toList
  | .reference => "reference".toList
  | .dateTime => "datetime".toList
  | .path => "path".toList
  | .enum => "enum".toList
  | .list => []

/-- C90: the item type of a list is given by its name, in any case. -/
theorem C90_item_type (env : Env) (s : Str) (t : FieldType) :
    parseListItemType env s = some t ↔ t ≠ .list ∧ env.lower s = itemTypeName t := by
  have key : ∀ s : Str, (∃ u, u ≠ .list ∧ s = itemTypeName u) ∨ ∀ u, u ≠ .list → s ≠ itemTypeName u := by
    intro s
    by_cases h : ∃ u, u ≠ .list ∧ s = itemTypeName u
    · exact .inl h
    · exact .inr fun u hu hs => h ⟨u, hu, hs⟩
  unfold parseListItemType
  dsimp only
  rcases key (env.lower s) with ⟨u, hu, hs⟩ | hno
  · rw [hs]
    cases u <;> first | exact absurd rfl hu | (cases t <;> decide)
  · constructor
    · intro h
      exfalso
      rw [if_neg (show ¬ _ = "string".toList from hno .string (by decide)),
        if_neg (show ¬ _ = "integer".toList from hno .integer (by decide)),
        if_neg (show ¬ _ = "float".toList from hno .float (by decide)),
        if_neg (show ¬ _ = "boolean".toList from hno .boolean (by decide)),
        if_neg (show ¬ _ = "currency".toList from hno .currency (by decide)),
        if_neg (show ¬ _ = "reference".toList from hno .reference (by decide)),
        if_neg (show ¬ _ = "datetime".toList from hno .dateTime (by decide)),
        if_neg (show ¬ _ = "path".toList from hno .path (by decide)),
        if_neg (show ¬ _ = "enum".toList from hno .enum (by decide))] at h
      cases h
    · rintro ⟨h1, h2⟩
      exact absurd h2 (hno t h1)

/-- The values given for references are references, also in lists. -/
def Spec.ReferencesOkAny (T : CaseTable) (itemType : Option FieldType) (t : FieldType) (v : Json) : Prop :=
  ReferencesOk T t v ∧ ∀ it vs, itemType = some it → v = .array vs → ∀ w ∈ vs, ReferencesOk T it w

theorem jsonItems_means {H : Host} {dirs : List Str} {name : Str} (hv : ∀ n ∈ dirs ++ [name], ValidName n)
    {t : FieldType} {vs : List Json} {xs : List FieldValue} (hr : ∀ w ∈ vs, ReferencesOk H.lang.cases t w)
    (h : jsonItems H (.rootDir :: (H.ws ++ dirs ++ [name]).map .normal) t vs = some xs) :
    List.Forall₂ (Means H (H.ws ++ dirs) t) vs xs := by
  induction vs generalizing xs with
  | nil => cases h; exact .nil
  | cons v vs ih =>
    rw [jsonItems] at h
    split at h
    · cases h
    · next x hx =>
      obtain ⟨ys, hys, hxs⟩ := Option.map_eq_some_iff.1 h
      subst hxs
      exact .cons (C90_value_partial H hv (hr v (by simp)) hx) (ih (fun w hw => hr w (List.mem_cons_of_mem _ hw)) hys)

theorem jsonToFieldValue_means {H : Host} {dirs : List Str} {name : Str} (hv : ∀ n ∈ dirs ++ [name], ValidName n)
    {lt : List (Str × Str)} {field : Str} {t : FieldType} {v : Json} {x : FieldValue}
    (hr : ReferencesOkAny H.lang.cases ((mapGet lt field).bind (parseListItemType H.lang.env)) t v)
    (h : jsonToFieldValue H (.rootDir :: (H.ws ++ dirs ++ [name]).map .normal) lt field t v = some x) :
    MeansAny H (H.ws ++ dirs) ((mapGet lt field).bind (parseListItemType H.lang.env)) t v x := by
  unfold jsonToFieldValue at h
  split at h
  · cases h; exact .empty
  · next vs _ =>
    split at h
    · cases h
    · next s hs =>
      split at h
      · cases h
      · next it hit =>
        obtain ⟨xs, hxs, hx⟩ := Option.map_eq_some_iff.1 h
        subst hx
        have he : (mapGet lt field).bind (parseListItemType H.lang.env) = some it := by rw [hs]; exact hit
        exact .list he (jsonItems_means hv (hr.2 it vs he rfl) hxs)
  · exact .scalar (C90_value_partial H hv hr.1 h)

theorem mapGet_in {β : Type} {m : List (Str × β)} {k : Str} {v : β} (h : mapGet m k = some v) : (k, v) ∈ m := by
  induction m with
  | nil => cases h
  | cons p m ih =>
    obtain ⟨a, b⟩ := p
    unfold mapGet at h
    split at h
    · next he => cases h; subst he; simp
    · exact List.mem_cons_of_mem _ (ih h)

/-- A requested field and the field of the entity that is written for it. -/
def Spec.FieldWritten (H : Host) (dir : List Str) (lt : List (Str × Str)) (sc : EntitySchema) (q : Str × Json)
    (r : FieldId × FieldValue) : Prop :=
  r.1 = H.lang.cases.snake q.1 ∧ ∃ fd, (r.1, fd) ∈ sc.fields ∧
    MeansAny H dir ((mapGet lt q.1).bind (parseListItemType H.lang.env)) fd.fieldType q.2 r.2

theorem addFields_written {H : Host} {dirs : List Str} {name : Str} (hv : ∀ n ∈ dirs ++ [name], ValidName n)
    {lt : List (Str × Str)} {sc : EntitySchema} {fs : List (Str × Json)}
    (hr : ∀ q ∈ fs, ∀ fd, (H.lang.cases.snake q.1, fd) ∈ sc.fields →
      ReferencesOkAny H.lang.cases ((mapGet lt q.1).bind (parseListItemType H.lang.env)) fd.fieldType q.2)
    {e e' : Entity} (h : addFields H (.rootDir :: (H.ws ++ dirs ++ [name]).map .normal) lt sc e fs = some e') :
    e'.id = e.id ∧ e'.entityType = e.entityType ∧
      ∃ new, e'.fields = e.fields ++ new ∧ List.Forall₂ (FieldWritten H (H.ws ++ dirs) lt sc) fs new := by
  induction fs generalizing e with
  | nil => cases h; exact ⟨rfl, rfl, [], by simp, .nil⟩
  | cons q fs ih =>
    obtain ⟨n, v⟩ := q
    rw [addFields] at h
    split at h
    · cases h
    · next fd hfd =>
      split at h
      · cases h
      · next x hx =>
        obtain ⟨h1, h2, new, h3, h4⟩ := ih (fun q hq => hr q (List.mem_cons_of_mem _ hq)) h
        refine ⟨h1, h2, (H.lang.cases.snake n, x) :: new, ?_, .cons ⟨rfl, fd, mapGet_in hfd, ?_⟩ h4⟩
        · rw [h3]
          simp [Entity.withField]
        · exact jsonToFieldValue_means hv (hr (n, v) (by simp) fd (mapGet_in hfd)) hx

/-- The entity to be added. -/
theorem entityToAdd_written {H : Host} {st : ServerState} {p : AddParams}
    {dirs : List Str} {name : Str} (hv : ∀ n ∈ dirs ++ [name], ValidName n)
    (htarget : joinComps H.ws (p.toFile.getD (defaultTarget p.type)) = .rootDir :: (H.ws ++ dirs ++ [name]).map .normal)
    (hr : ∀ sc ∈ st.build.schemas, ∀ q ∈ p.fields, ∀ fd, (H.lang.cases.snake q.1, fd) ∈ sc.fields →
      ReferencesOkAny H.lang.cases ((mapGet p.listItemTypes q.1).bind (parseListItemType H.lang.env)) fd.fieldType q.2)
    {e : Entity} (he : entityToAdd H st p = some e) :
    e.entityType = p.type ∧ ∃ sc, sc ∈ st.build.schemas ∧ sc.entityType = p.type ∧ Conforms H.lang.env sc e ∧
      List.Forall₂ (FieldWritten H (H.ws ++ dirs) p.listItemTypes sc) p.fields e.fields := by
  unfold entityToAdd at he
  split at he
  · cases he
  · next sc hsc =>
    have hmem := List.mem_of_find?_eq_some hsc
    have hty := List.find?_some hsc
    simp only [decide_eq_true_eq] at hty
    dsimp only at he
    split at he
    · cases he
    · split at he
      · cases he
      · next e1 he1 =>
        split at he
        · cases he
        · next hval =>
          cases he
          rw [htarget] at he1
          obtain ⟨k1, k2, new, k3, k4⟩ := addFields_written hv (hr sc hmem) he1
          have hc := (C15_verdict _ _ _).1 hval
          rw [show (Entity.new _ _).fields = [] from rfl, List.nil_append] at k3
          refine ⟨by rw [hc.1, hty], sc, hmem, hty, hc, ?_⟩
          rw [k3]; exact k4

/-- C90: the entity whose text is appended has the requested id and type, conforms to the schema of the type
and has exactly the requested fields, under their normalised names, with the values that the request means.
Missing: other texts for references (`C90_reference`) and target files given with `..` (`C89_dots`). -/
theorem C90_entity_partial (H : Host) (hws : ∀ n ∈ H.ws, ValidName n)
    (order : Workspace → Workspace) (s : Server) (hd : WellFormed s.disk) (hs : Serves H s) (p : AddParams)
    {dirs : List Str} {name : Str} (hv : ∀ n ∈ dirs ++ [name], ValidName n)
    (htarget : joinComps H.ws (p.toFile.getD (defaultTarget p.type)) = .rootDir :: (H.ws ++ dirs ++ [name]).map .normal)
    (hr : ∀ sc ∈ s.state.build.schemas, ∀ q ∈ p.fields, ∀ fd, (H.lang.cases.snake q.1, fd) ∈ sc.fields →
      ReferencesOkAny H.lang.cases ((mapGet p.listItemTypes q.1).bind (parseListItemType H.lang.env)) fd.fieldType q.2)
    (h : (addEntityTool H order s p).2 ≠ .error) :
    ∃ (e : Entity) (old sep : Str) (sc : EntitySchema),
      Has (addEntityTool H order s p).1.disk (lexicalPlace H.ws (pathComponents (p.toFile.getD (defaultTarget p.type))))
        (.file (some (old ++ (sep ++ generateDsl H.lang .default [e])))) ∧
      e.id = H.lang.cases.composeEntityId p.type (H.lang.cases.snake p.id) ∧ e.entityType = p.type ∧
      sc ∈ s.state.build.schemas ∧ Conforms H.lang.env sc e ∧
      List.Forall₂ (FieldWritten H (H.ws ++ dirs) p.listItemTypes sc) p.fields e.fields := by
  obtain ⟨e, loc, old, sep, he, hid, _, rfl, _, hhas, _⟩ := add_appends H hws order s hd hs p h
  obtain ⟨h1, sc, h2, _, h3, h4⟩ := entityToAdd_written hv htarget hr he
  exact ⟨e, old, sep, sc, hhas, hid, h1, h2, h3, h4⟩

/-- C90 is false for other texts given for references: a text with four parts is cut, a text without a dot is
taken for an id, and the type in front of an id is normalised in another way than the type in front of an id and
a field. -/
theorem C90_reference :
    jsonScalar exHost [] .reference (.string "person.bob.address.city".toList) =
      some (.reference (.field "person.bob".toList "address".toList)) ∧
    jsonScalar exHost [] .reference (.string "bob".toList) = some (.reference (.entity "bob".toList)) ∧
    jsonScalar exHost [] .reference (.string "MyTask.bob".toList) = some (.reference (.entity "my_task.bob".toList)) ∧
    jsonScalar exHost [] .reference (.string "MyTask.bob.name".toList) =
      some (.reference (.field "mytask.bob".toList "name".toList)) := by
  decide +kernel

/-- A request that meets the hypotheses. -/
example : Serves exHost exServer ∧
    joinComps exHost.ws ((exAdd "carol").toFile.getD (defaultTarget (exAdd "carol").type)) =
      .rootDir :: (exHost.ws ++ [] ++ ["b.firm".toList]).map .normal ∧
    (∀ q ∈ (exAdd "carol").fields, ∀ sc ∈ exServer.state.build.schemas, ∀ fd ∈ sc.fields, fd.2.fieldType = .string) ∧
    (addEntityTool exHost id exServer (exAdd "carol")).2 ≠ .error :=
  ⟨exServer_serves, by decide +kernel⟩

end Firm
