import Verif.Model.Init
import Verif.Props.Prompted

/-!
# C107: the default schemas
-/

namespace Firm
open Spec

/-- What the case data must satisfy beside `RegularCase`: the letters a–z are not upper case, and texts of such letters,
blanks and hyphens are their own lower-case form. -/
structure Spec.PlainCase (L : Lang) : Prop where
  regular : RegularCase L.cases
  upper : ∀ c, 97 ≤ c.toNat → c.toNat ≤ 122 → L.cases.isUpper c = false
  lower : ∀ s, (∀ c ∈ s, (97 ≤ c.toNat ∧ c.toNat ≤ 122) ∨ c = ' ' ∨ c = '-') → L.env.lower s = s

/-- A letter a–z or an underscore. -/
def plainChar (c : Char) : Bool := (97 ≤ c.toNat && c.toNat ≤ 122) || c == '_'

theorem noNeighbours_of {R : Char → Char → Prop} : ∀ {s : Str}, (∀ a ∈ s, ∀ b ∈ s, ¬ R a b) → NoNeighbours R s
  | [], _ => trivial
  | [_], _ => trivial
  | a :: b :: s, h => ⟨h a (by simp) b (by simp), noNeighbours_of fun x hx y hy =>
      h x (List.mem_cons_of_mem _ hx) y (List.mem_cons_of_mem _ hy)⟩

theorem plainChar_cases {c : Char} (h : plainChar c = true) : (97 ≤ c.toNat ∧ c.toNat ≤ 122) ∨ c = '_' := by
  unfold plainChar at h
  simpa using h

theorem plain_snake {L : Lang} (hL : PlainCase L) {s : Str} (h1 : asciiTable.snake s = s) (h2 : s.all plainChar = true) :
    IsSnake L.cases s := by
  have h := (C47_unchanged asciiTable_regular s).1 h1
  have hc : ∀ c ∈ s, (97 ≤ c.toNat ∧ c.toNat ≤ 122) ∨ c = '_' := fun c hc => plainChar_cases (List.all_eq_true.1 h2 c hc)
  have hdig : ∀ c ∈ s, isDigit c = false := by
    intro c hm
    rcases hc c hm with h | rfl
    · unfold isDigit
      have : ¬ c.toNat ≤ 57 := by omega
      simp [this]
    · rfl
  refine ⟨fun c hm => ⟨?_, (h.chars c hm).2⟩, h.first, h.last, h.doubled, noNeighbours_of fun a ha b hb hab => ?_⟩
  · rcases hc c hm with h | rfl
    · exact hL.upper c h.1 h.2
    · exact (hL.regular.delim '_' (.inl rfl)).1
  · rcases hab with ⟨-, h⟩ | ⟨h, -⟩
    · rw [hdig b hb] at h; cases h
    · rw [hdig a ha] at h; cases h

/-- The names in a row. -/
def DefaultRow.plain : DefaultRow → Bool
  | .metadata => true
  | .field _ n _ => decide (asciiTable.snake n.toList = n.toList) && n.toList.all plainChar
  | .enum _ n vs => decide (asciiTable.snake n.toList = n.toList) && n.toList.all plainChar &&
      vs.all fun v => decide (trim v.toList = v.toList) && v.toList.all fun c => (97 ≤ c.toNat && c.toNat ≤ 122) || c == ' ' || c == '-'

def DefaultSchema.plain (s : DefaultSchema) : Bool :=
  decide (asciiTable.snake s.type.toList = s.type.toList) && s.type.toList.all plainChar && s.rows.all DefaultRow.plain

theorem defaultTable_plain : defaultTable.all DefaultSchema.plain = true := by decide +kernel

theorem exLang_plain : PlainCase exLang := by
  refine ⟨exLang_regular, fun c h1 h2 => ?_, fun s hs => ?_⟩
  · show (65 ≤ c.toNat && c.toNat ≤ 90) = false
    have : ¬ c.toNat ≤ 90 := by omega
    simp [this]
  · show s.map Char.toLower = s
    conv => rhs; rw [← List.map_id s]
    refine List.map_congr_left fun c hc => ?_
    rcases toLower_cases c with h | h
    · exact h
    · rcases hs c hc with h' | rfl | rfl
      · omega
      · rfl
      · rfl

theorem normalize_plain {L : Lang} (hL : PlainCase L) {v : Str} (h : (decide (trim v = v) &&
    v.all fun c => (97 ≤ c.toNat && c.toNat ≤ 122) || c == ' ' || c == '-') = true) : normalizeEnum L.env v = v := by
  simp only [Bool.and_eq_true, decide_eq_true_eq, List.all_eq_true, Bool.or_eq_true, beq_iff_eq] at h
  unfold normalizeEnum
  rw [h.1]
  exact hL.lower v fun c hc => by have := h.2 c hc; tauto

theorem snake_plain {L : Lang} (hL : PlainCase L) {s : Str} (h : (decide (asciiTable.snake s = s) && s.all plainChar) = true) :
    L.cases.snake s = s := by
  simp only [Bool.and_eq_true, decide_eq_true_eq] at h
  exact snake_fixed hL.regular (plain_snake hL h.1 h.2)

theorem op_plain {L : Lang} (hL : PlainCase L) {r : DefaultRow} (h : r.plain = true) (s : EntitySchema) :
    SchemaOp.step L.env s (r.op L.cases) = SchemaOp.step exLang.env s (r.op exLang.cases) := by
  cases r with
  | metadata => rfl
  | field m n t =>
    have h1 := snake_plain hL h
    have h2 := snake_plain exLang_plain h
    cases m <;> simp only [DefaultRow.op, SchemaOp.step, h1, h2]
  | enum m n vs =>
    simp only [DefaultRow.plain, Bool.and_eq_true (_ && _)] at h
    have h1 := snake_plain hL h.1
    have h2 := snake_plain exLang_plain h.1
    have hv : ∀ {L : Lang}, PlainCase L → (vs.map String.toList).map (normalizeEnum L.env) = vs.map String.toList := by
      intro L hL
      rw [List.map_map]
      refine List.map_congr_left fun v hv => normalize_plain hL (List.all_eq_true.1 h.2 v hv)
    cases m <;>
      simp only [DefaultRow.op, SchemaOp.step, h1, h2, EntitySchema.withRequiredEnum, EntitySchema.withOptionalEnum,
        FieldSchema.newEnum, hv hL, hv exLang_plain]

theorem schema_plain {L : Lang} (hL : PlainCase L) {s : DefaultSchema} (h : s.plain = true) :
    s.schema L = s.schema exLang := by
  unfold DefaultSchema.plain at h
  rw [Bool.and_eq_true] at h
  unfold DefaultSchema.schema EntitySchema.build
  rw [snake_plain hL h.1, snake_plain exLang_plain h.1]
  generalize EntitySchema.new s.type.toList = e
  obtain ⟨-, h⟩ := h
  revert h
  generalize s.rows = rows
  intro h
  induction rows generalizing e with
  | nil => rfl
  | cons r rows ih =>
    simp only [List.all_cons, Bool.and_eq_true] at h
    simp only [List.map_cons, List.foldl_cons]
    rw [op_plain hL h.1]
    exact ih _ h.2

/-- All case data that agree on a–z give the same default schemas. -/
theorem defaultSchemas_plain {L : Lang} (hL : PlainCase L) : defaultSchemas L = defaultSchemas exLang := by
  unfold defaultSchemas
  exact List.map_congr_left fun s hs => schema_plain hL (List.all_eq_true.1 defaultTable_plain s hs)

/-! ## C107 -/

/-- The types that a new workspace knows, in the order of the layers of the documentation. -/
def Spec.builtInTypes : List String :=
  ["person", "organization", "industry", "account", "channel", "lead", "contact", "interaction", "opportunity",
   "strategy", "objective", "key_result", "project", "task", "review", "file_asset"]

/-- C107: the default schemas are for different types, and the types are normalised. -/
theorem C107_types {L : Lang} (hL : PlainCase L) :
    (defaultSchemas L).map (·.entityType) = builtInTypes.map String.toList ∧
    ((defaultSchemas L).map (·.entityType)).Nodup ∧ ∀ sc ∈ defaultSchemas L, IsSnake L.cases sc.entityType := by
  have h : (defaultSchemas L).map (·.entityType) = builtInTypes.map String.toList := by
    rw [defaultSchemas_plain hL]
    decide +kernel
  refine ⟨h, by rw [h]; decide +kernel, fun sc hsc => ?_⟩
  have hm : sc.entityType ∈ builtInTypes.map String.toList := h ▸ List.mem_map_of_mem hsc
  have hall : (builtInTypes.map String.toList).all (fun s => decide (asciiTable.snake s = s) && s.all plainChar) = true := by
    decide +kernel
  have := List.all_eq_true.1 hall _ hm
  simp only [Bool.and_eq_true, decide_eq_true_eq] at this
  exact plain_snake hL this.1 this.2

/-- What is checked of the fields of the table. -/
def plainField (p : FieldId × FieldSchema) : Bool :=
  decide (asciiTable.snake p.1 = p.1) && p.1.all plainChar && (decide (p.2.fieldType = .enum) == p.2.allowedValues.isSome) &&
    (p.2.allowedValues.getD []).all fun v => decide (trim v = v) && v.all fun c => (97 ≤ c.toNat && c.toNat ≤ 122) || c == ' ' || c == '-'

instance (l : List (FieldId × FieldSchema)) : Decidable (Increasing l) := by unfold Increasing; infer_instance

/-- The fields of a default schema without metadata in front of those. -/
def metadataLast (l : List (FieldId × FieldSchema)) : List (FieldId × FieldSchema) := l.drop 3 ++ l.take 3

theorem defaultFields_checked : ∀ sc ∈ defaultSchemas exLang, (sc.fields.map (·.1)).Nodup ∧ sc.fields.all plainField = true ∧
    Increasing (metadataLast sc.fields) ∧ (sc.fields.take 3).map (·.1) = ["notes".toList, "created_at".toList, "updated_at".toList] := by
  decide +kernel

theorem metadataLast_perm (l : List (FieldId × FieldSchema)) : (metadataLast l).Perm l := by
  unfold metadataLast
  exact List.perm_append_comm.trans (by rw [List.take_append_drop])

theorem unquoted_of {s : Str} (h : ∀ a ∈ s, a ≠ '"') : Unquoted s :=
  ⟨fun hh => h _ (List.mem_of_mem_head? hh) rfl, fun hh => h _ (List.mem_of_getLast? hh) rfl⟩

theorem value_unquoted {v : Str} (h : v.all (fun c => (97 ≤ c.toNat && c.toNat ≤ 122) || c == ' ' || c == '-') = true) :
    Unquoted v := by
  refine unquoted_of fun a ha => ?_
  rintro rfl
  have := List.all_eq_true.1 h _ ha
  revert this
  decide

theorem name_unquoted {s : Str} (h : s.all plainChar = true) : Unquoted s := by
  refine unquoted_of fun a ha => ?_
  rintro rfl
  have := List.all_eq_true.1 h _ ha
  revert this
  decide

/-- C107: no default schema declares a field twice, the names of the fields are normalised, and exactly the enums have
a list of allowed values, which are normalised. -/
theorem C107_fields {L : Lang} (hL : PlainCase L) {sc : EntitySchema} (hsc : sc ∈ defaultSchemas L) :
    (sc.fields.map (·.1)).Nodup ∧ ∀ p ∈ sc.fields, IsSnake L.cases p.1 ∧
      (p.2.fieldType = .enum ↔ ∃ vs, p.2.allowedValues = some vs) ∧
      ∀ vs, p.2.allowedValues = some vs → ∀ v ∈ vs, L.env.lower (trim v) = v := by
  rw [defaultSchemas_plain hL] at hsc
  obtain ⟨h1, h2, -⟩ := defaultFields_checked sc hsc
  refine ⟨h1, fun p hp => ?_⟩
  have := List.all_eq_true.1 h2 p hp
  unfold plainField at this
  simp only [Bool.and_eq_true (_ && _), Bool.and_eq_true (decide (asciiTable.snake p.1 = p.1)), decide_eq_true_eq,
    beq_iff_eq] at this
  obtain ⟨⟨⟨h3, h4⟩, h5⟩, h6⟩ := this
  refine ⟨plain_snake hL h3 h4, ?_, fun vs hvs v hv => ?_⟩
  · rw [← Option.isSome_iff_exists, ← h5, decide_eq_true_eq]
  · rw [hvs] at h6
    exact normalize_plain hL (List.all_eq_true.1 h6 v hv)

theorem default_expressible {L : Lang} (hL : PlainCase L) {sc : EntitySchema} (hsc : sc ∈ defaultSchemas L)
    {p : FieldId × FieldSchema} (hp : p ∈ sc.fields) : Expressible L.env p := by
  obtain ⟨-, h⟩ := C107_fields hL hsc
  obtain ⟨-, h1, h2⟩ := h p hp
  rw [defaultSchemas_plain hL] at hsc
  obtain ⟨-, h3, -⟩ := defaultFields_checked sc hsc
  have := List.all_eq_true.1 h3 p hp
  unfold plainField at this
  simp only [Bool.and_eq_true (_ && _), Bool.and_eq_true (decide (asciiTable.snake p.1 = p.1)), decide_eq_true_eq,
    beq_iff_eq] at this
  obtain ⟨⟨⟨-, h4⟩, -⟩, h6⟩ := this
  refine ⟨name_unquoted h4, fun vs hvs => ⟨h1.2 ⟨vs, hvs⟩, fun v hv => ⟨?_, h2 vs hvs v hv⟩⟩⟩
  rw [hvs] at h6
  have := List.all_eq_true.1 h6 v hv
  rw [Bool.and_eq_true] at this
  exact value_unquoted this.2

/-- The order of the fields of a default schema, whatever the enumeration of its map. -/
theorem default_ordered {L : Lang} (hL : PlainCase L) {sc : EntitySchema} (hsc : sc ∈ defaultSchemas L)
    {fields : List (FieldId × FieldSchema)} (hp : fields.Perm sc.fields) :
    EntitySchema.orderedFields ⟨sc.entityType, fields⟩ = metadataLast sc.fields := by
  rw [defaultSchemas_plain hL] at hsc
  obtain ⟨-, -, h, -⟩ := defaultFields_checked sc hsc
  exact sort_increasing h (hp.trans (metadataLast_perm _).symm)

/-- C107: the text of a default schema does not depend on the order in which the map of the fields is enumerated, and
the metadata come last. -/
theorem C107_text {L : Lang} (hL : PlainCase L) {sc : EntitySchema} (hsc : sc ∈ defaultSchemas L)
    {fields : List (FieldId × FieldSchema)} (hp : fields.Perm sc.fields) (o : GeneratorOptions) :
    generateSchema o ⟨sc.entityType, fields⟩ = generateSchema o sc ∧
    ∃ own : List (FieldId × FieldSchema), (EntitySchema.orderedFields ⟨sc.entityType, fields⟩).map (·.1) =
      own.map (·.1) ++ ["notes".toList, "created_at".toList, "updated_at".toList] := by
  have h1 := default_ordered hL hsc hp
  have h2 := default_ordered hL hsc (List.Perm.refl sc.fields)
  refine ⟨?_, sc.fields.drop 3, ?_⟩
  · unfold generateSchema
    rw [h1]
    show _ = _
    rw [show sc.orderedFields = metadataLast sc.fields from h2]
  · rw [h1]
    rw [defaultSchemas_plain hL] at hsc
    obtain ⟨-, -, -, h⟩ := defaultFields_checked sc hsc
    unfold metadataLast
    rw [List.map_append, h]

/-- C107: the file of a default schema is read back as a schema of the same type with the same fields, types, flags and
allowed values in the same order, in whatever order the map of the fields was enumerated. -/
theorem C107_read {L : Lang} (hL : PlainCase L) {sc : EntitySchema} (hsc : sc ∈ defaultSchemas L)
    {fields : List (FieldId × FieldSchema)} (hp : fields.Perm sc.fields) (o : GeneratorOptions) (source : Str) :
    ∃ s', toSchema L source (schemaNode o ⟨sc.entityType, fields⟩) = .ok s' ∧ s'.entityType = sc.entityType ∧
      s'.orderedFields.map fieldInfo = sc.orderedFields.map fieldInfo := by
  obtain ⟨s', h1, h2, h3, -⟩ := C55_schema_partial (L := L) (source := source) (o := o) hL.regular
    (s := ⟨sc.entityType, fields⟩) ((C107_types hL).2.2 sc hsc)
    (((hp.map (·.1)).nodup_iff).2 (C107_fields hL hsc).1)
    (fun p hq => default_expressible hL hsc (hp.mem_iff.1 hq))
  refine ⟨s', h1, h2, h3.trans ?_⟩
  rw [default_ordered hL hsc hp, ← default_ordered hL hsc (List.Perm.refl sc.fields)]

example : PlainCase exLang ∧ ∃ sc ∈ defaultSchemas exLang, sc.entityType = "person".toList ∧ sc.fields.length = 7 ∧
    sc.fields.reverse.Perm sc.fields :=
  ⟨exLang_plain, _, List.mem_cons_self, by decide +kernel, by decide +kernel, List.reverse_perm _⟩

end Firm
