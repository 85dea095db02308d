import Verif.Spec.Schema
import Verif.Lemmas.Sort
import Verif.Props.Filter

/-!
# Properties of schemas and validation (C15–C18, C66)
-/

namespace Firm
open Spec

theorem firstValue_iff {fields : List (FieldId × FieldValue)} {f : FieldId} {v : FieldValue} :
    FirstValue fields f v ↔ (fields.find? (fun p => p.1 == f)).map (·.2) = some v := by
  constructor
  · intro h
    induction h with
    | here => simp
    | there g w rest f v hne _ ih =>
      rw [List.find?_cons_of_neg (by simpa using hne)]; exact ih
  · intro h
    induction fields with
    | nil => simp at h
    | cons p rest ih =>
      obtain ⟨g, w⟩ := p
      by_cases hg : g = f
      · subst hg; simp at h; subst h; exact .here _ _ _
      · rw [List.find?_cons_of_neg (by simpa using hg)] at h
        exact .there _ _ _ _ _ hg (ih h)

theorem getField_iff {e : Entity} {f : FieldId} {v : FieldValue} :
    e.getField f = some v ↔ FirstValue e.fields f v := firstValue_iff.symm

theorem getField_none {e : Entity} {f : FieldId} :
    e.getField f = none ↔ ∀ v, ¬ FirstValue e.fields f v := by
  constructor
  · intro h v hv; rw [← getField_iff, h] at hv; simp at hv
  · intro h
    cases hg : e.getField f with
    | none => rfl
    | some v => exact absurd (getField_iff.1 hg) (h v)

/-- The errors of one field: none if it is fine, otherwise one, of the right kind. -/
theorem validateField_cases (env : Env) (e : Entity) (f : FieldId) (fs : FieldSchema) :
    (validateField env e (f, fs) = [] ∧ FieldOk env e f fs) ∨
    ∃ t, validateField env e (f, fs) = [⟨some e.id, some f, t⟩] ∧ FieldViolation env e f fs t ∧
      ¬ FieldOk env e f fs := by
  unfold validateField
  cases hg : e.getField f with
  | none =>
    have hn := getField_none.1 hg
    by_cases hr : fs.isRequired = true
    · right
      have hm : fs.fieldMode = .required := by simpa [FieldSchema.isRequired] using hr
      refine ⟨.missingRequiredField f, by simp [hr], .missing hm hn, ?_⟩
      rintro ⟨_, h⟩
      obtain ⟨v, hv⟩ := h hm
      exact hn v hv
    · left
      refine ⟨by simp [hr], fun v hv => absurd hv (hn v), fun hm => ?_⟩
      simp [FieldSchema.isRequired, hm] at hr
  | some v =>
    have hv := getField_iff.1 hg
    have huniq : ∀ w, FirstValue e.fields f w → w = v := by
      intro w hw; rw [← getField_iff, hg] at hw; injection hw with hw; exact hw.symm
    by_cases ht : v.getType = fs.fieldType
    · have hT : v.isType fs.fieldType = true := by simpa [FieldValue.isType] using ht
      simp only [hT, Bool.not_true, Bool.false_eq_true, if_false]
      by_cases hen : ∃ x, v = .enum x
      · obtain ⟨x, rfl⟩ := hen
        have hte : fs.fieldType = .enum := ht.symm
        cases ha : fs.allowedValues with
        | none =>
          right
          refine ⟨.invalidEnumValue x [], by simp, .noValues x hv hte ha, ?_⟩
          rintro ⟨h, _⟩
          obtain ⟨al, h1, _⟩ := (h _ hv).2 x rfl
          rw [ha] at h1; simp at h1
        | some al =>
          by_cases hc : env.lower (trim x) ∈ al
          · left
            refine ⟨by simp [normalizeEnum, hc], fun w hw => ?_, fun _ => ⟨_, hv⟩⟩
            rw [huniq w hw]
            refine ⟨ht, fun y hy => ⟨al, ha, ?_⟩⟩
            injection hy with hy; rw [← hy]; exact hc
          · right
            refine ⟨.invalidEnumValue x al, by simp [normalizeEnum, hc], .notAllowed x al hv hte ha hc, ?_⟩
            rintro ⟨h, _⟩
            obtain ⟨al', h1, h2⟩ := (h _ hv).2 x rfl
            rw [ha] at h1; injection h1 with h1; exact hc (h1 ▸ h2)
      · left
        refine ⟨?_, fun w hw => ?_, fun _ => ⟨_, hv⟩⟩
        · cases v <;> simp at hen ⊢
        · rw [huniq w hw]; exact ⟨ht, fun x hx => absurd ⟨x, hx⟩ hen⟩
    · right
      have hT : v.isType fs.fieldType = false := by simpa [FieldValue.isType] using ht
      refine ⟨.mismatchedFieldType fs.fieldType v.getType, by simp [hT], .wrongType v hv ht, ?_⟩
      rintro ⟨h, _⟩
      exact ht (h v hv).1

theorem validateField_nil (env : Env) (e : Entity) (f : FieldId) (fs : FieldSchema) :
    validateField env e (f, fs) = [] ↔ FieldOk env e f fs := by
  rcases validateField_cases env e f fs with ⟨h1, h2⟩ | ⟨t, h1, _, h3⟩
  · simp [h1, h2]
  · simp [h1, h3]

theorem validate_ok {env : Env} {s : EntitySchema} {e : Entity} :
    s.validate env e = .ok () ↔ s.errors env e = [] := by
  unfold EntitySchema.validate
  cases s.errors env e <;> simp

theorem validate_error {env : Env} {s : EntitySchema} {e : Entity} {errs : List ValidationError} :
    s.validate env e = .error errs ↔ s.errors env e = errs ∧ errs ≠ [] := by
  unfold EntitySchema.validate
  cases s.errors env e with
  | nil =>
    simp only [List.isEmpty_nil, if_true, reduceCtorEq, false_iff]
    rintro ⟨rfl, h⟩; exact h rfl
  | cons x xs =>
    simp only [List.isEmpty_cons, Bool.false_eq_true, if_false, Except.error.injEq]
    exact ⟨fun h => ⟨h, by rw [← h]; simp⟩, fun h => h.1⟩

/-! ## C15 -/

/-- C15: the verdict is exactly conformance. -/
theorem C15_verdict (env : Env) (s : EntitySchema) (e : Entity) :
    s.validate env e = .ok () ↔ Conforms env s e := by
  rw [validate_ok]
  unfold EntitySchema.errors Conforms
  simp only [List.append_eq_nil_iff, List.flatMap_eq_nil_iff, Prod.forall, validateField_nil]
  by_cases ht : e.entityType = s.entityType <;> simp [ht]

/-- C15: the verdict does not depend on the order in which the schema's fields are enumerated. -/
theorem C15_order (env : Env) (s s' : EntitySchema) (e : Entity) (ht : s.entityType = s'.entityType)
    (hp : s.fields.Perm s'.fields) : s.validate env e = .ok () ↔ s'.validate env e = .ok () := by
  rw [C15_verdict, C15_verdict, Conforms, Conforms, ht]
  simp only [hp.mem_iff]

/-! ## C16 -/

/-- C16: when validation fails, the errors name only true violations. -/
theorem C16_sound (env : Env) (s : EntitySchema) (e : Entity) (errs : List ValidationError)
    (h : s.validate env e = .error errs) :
    ∀ err ∈ errs, err.entityId = some e.id ∧
      ((e.entityType ≠ s.entityType ∧ err.field = none ∧
          err.errorType = .mismatchedEntityType s.entityType e.entityType) ∨
        ∃ f fs, (f, fs) ∈ s.fields ∧ err.field = some f ∧ ¬ FieldOk env e f fs ∧
          FieldViolation env e f fs err.errorType) := by
  obtain ⟨rfl, _⟩ := validate_error.1 h
  unfold EntitySchema.errors
  intro err herr
  rcases List.mem_append.1 herr with herr | herr
  · by_cases ht : e.entityType = s.entityType
    · simp [ht] at herr
    · simp [ht] at herr; subst herr; exact ⟨rfl, .inl ⟨ht, rfl, rfl⟩⟩
  · obtain ⟨⟨f, fs⟩, hm, herr⟩ := List.mem_flatMap.1 herr
    rcases validateField_cases env e f fs with ⟨h1, _⟩ | ⟨t, h1, h2, h3⟩
    · rw [h1] at herr; simp at herr
    · rw [h1] at herr; simp at herr; subst herr
      exact ⟨rfl, .inr ⟨f, fs, hm, rfl, h3, h2⟩⟩

/-- The schemas that occur: a hash map has every key once. -/
def EntitySchema.KeysUnique (s : EntitySchema) : Prop := (s.fields.map (·.1)).Nodup

open Classical in
theorem countP_flatMap_field (env : Env) (e : Entity) (f : FieldId) (l : List (FieldId × FieldSchema))
    (hn : (l.map (·.1)).Nodup) :
    (l.flatMap (validateField env e)).countP (fun err => err.field = some f) =
      if ∃ fs, (f, fs) ∈ l ∧ ¬ FieldOk env e f fs then 1 else 0 := by
  induction l with
  | nil => simp
  | cons p l ih =>
    obtain ⟨g, gs⟩ := p
    simp only [List.map_cons, List.nodup_cons] at hn
    rw [List.flatMap_cons, List.countP_append, ih hn.2]
    by_cases hgf : g = f
    · subst hgf
      have hno : ¬ ∃ fs, (g, fs) ∈ l ∧ ¬ FieldOk env e g fs := by
        rintro ⟨fs, hm, _⟩
        exact hn.1 (List.mem_map_of_mem (f := (·.1)) hm)
      rw [if_neg hno]
      rcases validateField_cases env e g gs with ⟨h1, h2⟩ | ⟨t, h1, _, h3⟩
      · rw [h1, if_neg]
        · rfl
        · rintro ⟨fs, hm, hv⟩
          rcases List.mem_cons.1 hm with hm | hm
          · cases hm; exact hv h2
          · exact hno ⟨fs, hm, hv⟩
      · rw [h1, if_pos ⟨gs, by simp, h3⟩]
        simp
    · have h0 : (validateField env e (g, gs)).countP (fun err => err.field = some f) = 0 := by
        rcases validateField_cases env e g gs with ⟨h1, _⟩ | ⟨t, h1, _, _⟩ <;> rw [h1] <;> simp [hgf]
      rw [h0, Nat.zero_add]
      congr 1
      simp only [List.mem_cons, Prod.mk.injEq, eq_iff_iff]
      constructor
      · rintro ⟨fs, hm, hv⟩; exact ⟨fs, .inr hm, hv⟩
      · rintro ⟨fs, ⟨h, _⟩ | hm, hv⟩
        · exact absurd h.symm hgf
        · exact ⟨fs, hm, hv⟩

open Classical in
/-- C16: when validation fails, there is exactly one error for every violated schema field and none
for the others, and exactly one without a field when the entity type is wrong. -/
theorem C16_exactly_once (env : Env) (s : EntitySchema) (hk : s.KeysUnique) (e : Entity)
    (errs : List ValidationError) (h : s.validate env e = .error errs) :
    (∀ f, errs.countP (fun err => err.field = some f) =
      if ∃ fs, (f, fs) ∈ s.fields ∧ ¬ FieldOk env e f fs then 1 else 0) ∧
    errs.countP (fun err => err.field = none) = if e.entityType = s.entityType then 0 else 1 := by
  obtain ⟨rfl, _⟩ := validate_error.1 h
  unfold EntitySchema.errors
  constructor
  · intro f
    rw [List.countP_append, countP_flatMap_field env e f s.fields hk]
    have : (if e.entityType = s.entityType then [] else
        [(⟨some e.id, none, .mismatchedEntityType s.entityType e.entityType⟩ : ValidationError)]).countP (fun err => err.field = some f) = 0 := by
      split <;> simp
    rw [this, Nat.zero_add]
  · rw [List.countP_append]
    have : (s.fields.flatMap (validateField env e)).countP (fun err => err.field = none) = 0 := by
      rw [List.countP_eq_zero]
      intro err herr
      obtain ⟨⟨f, fs⟩, _, herr⟩ := List.mem_flatMap.1 herr
      rcases validateField_cases env e f fs with ⟨h1, _⟩ | ⟨t, h1, _, _⟩ <;> rw [h1] at herr <;>
        simp at herr
      subst herr; simp
    rw [this]
    by_cases ht : e.entityType = s.entityType <;> simp [ht]

theorem mapInsert_keys {β : Type} (m : List (Str × β)) (k : Str) (v : β) :
    (mapInsert m k v).map (·.1) = if k ∈ m.map (·.1) then m.map (·.1) else m.map (·.1) ++ [k] := by
  induction m with
  | nil => simp [mapInsert]
  | cons p m ih =>
    obtain ⟨k', v'⟩ := p
    unfold mapInsert
    by_cases h : k' = k
    · subst h; simp
    · rw [if_neg h]
      simp only [List.map_cons, List.mem_cons, Ne.symm h, false_or, ih]
      split <;> simp

theorem mapInsert_nodup {β : Type} {m : List (Str × β)} {k : Str} {v : β}
    (h : (m.map (·.1)).Nodup) : ((mapInsert m k v).map (·.1)).Nodup := by
  rw [mapInsert_keys]
  split
  · exact h
  · rename_i hk
    rw [List.nodup_append]
    refine ⟨h, by simp, ?_⟩
    rintro a ha b hb rfl
    simp at hb; subst hb; exact hk ha

/-- C16: the hypothesis holds of every schema the builders make. -/
theorem C16_builders_unique (env : Env) (t : EntityType) (ops : List SchemaOp) :
    (EntitySchema.build env t ops).KeysUnique := by
  have key : ∀ (ops : List SchemaOp) (s : EntitySchema), s.KeysUnique →
      (ops.foldl (SchemaOp.step env) s).KeysUnique := by
    intro ops
    induction ops with
    | nil => intro s h; exact h
    | cons op ops ih =>
      intro s h
      apply ih
      cases op <;>
        simp only [SchemaOp.step, EntitySchema.withRequiredField, EntitySchema.withOptionalField,
          EntitySchema.withRequiredEnum, EntitySchema.withOptionalEnum, EntitySchema.withMetadata,
          EntitySchema.addFieldSchema, EntitySchema.KeysUnique] <;>
        repeat (first | exact h | apply mapInsert_nodup)
  exact key ops _ (by simp [EntitySchema.new, EntitySchema.KeysUnique])

/-! ## C17 -/

theorem validate_congr (env : Env) (s : EntitySchema) (e e' : Entity) (hid : e.id = e'.id)
    (ht : e.entityType = e'.entityType)
    (hf : ∀ f fs, (f, fs) ∈ s.fields → e.getField f = e'.getField f) :
    s.validate env e = s.validate env e' := by
  unfold EntitySchema.validate EntitySchema.errors
  have : s.fields.flatMap (validateField env e) = s.fields.flatMap (validateField env e') := by
    apply List.flatMap_congr
    rintro ⟨f, fs⟩ hm
    unfold validateField
    rw [hf f fs hm, hid]
  rw [this, ht, hid]

/-- C17: a field that the schema does not mention, at any position, does not matter. -/
theorem C17_extra_field (env : Env) (s : EntitySchema) (id : EntityId) (t : EntityType)
    (pre post : List (FieldId × FieldValue)) (f : FieldId) (v : FieldValue)
    (hf : ∀ fs, (f, fs) ∉ s.fields) :
    s.validate env ⟨id, t, pre ++ (f, v) :: post⟩ = s.validate env ⟨id, t, pre ++ post⟩ := by
  apply validate_congr
  · rfl
  · rfl
  · intro g gs hm
    have hgf : f ≠ g := by rintro rfl; exact hf gs hm
    unfold Entity.getField
    simp only [List.find?_append]
    rw [List.find?_cons_of_neg (by simpa using hgf)]

/-- C17: a second value for a field the entity already has does not matter. -/
theorem C17_second_value (env : Env) (s : EntitySchema) (e : Entity) (f : FieldId) (v w : FieldValue)
    (hv : (f, w) ∈ e.fields) : s.validate env (e.withField f v) = s.validate env e := by
  apply validate_congr
  · rfl
  · rfl
  · intro g gs _
    unfold Entity.getField Entity.withField
    simp only [List.find?_append]
    by_cases hgf : f = g
    · subst hgf
      cases hx : e.fields.find? (fun p => p.1 == f) with
      | some x => simp
      | none =>
        rw [List.find?_eq_none] at hx
        exact absurd (hx _ hv) (by simp)
    · rw [List.find?_cons_of_neg (by simpa using hgf)]; simp

/-! ## C18 -/

/-- C18: an enum value is accepted exactly when it matches an allowed value after trimming and
lower-casing both. -/
theorem C18_enum (env : Env) (t : EntityType) (f : FieldId) (m : FieldMode) (order : Nat)
    (allowed : List Str) (id : EntityId) (x : Str) :
    ((EntitySchema.new t).addFieldSchema f (.newEnum env m order allowed)).validate env
        ((Entity.new id t).withField f (.enum x)) = .ok () ↔
      ∃ a ∈ allowed, env.lower (trim a) = env.lower (trim x) := by
  rw [C15_verdict]
  have hfv : ∀ v, FirstValue ((Entity.new id t).withField f (.enum x)).fields f v ↔ v = .enum x := by
    intro v; rw [← getField_iff]; simp [Entity.getField, Entity.withField, Entity.new, eq_comm]
  constructor
  · rintro ⟨_, h⟩
    have := (h f (.newEnum env m order allowed) (by simp [EntitySchema.addFieldSchema, EntitySchema.new, mapInsert])).1
      (.enum x) ((hfv _).2 rfl)
    obtain ⟨al, h1, h2⟩ := this.2 x rfl
    simp only [FieldSchema.newEnum, Option.some.injEq] at h1
    subst h1
    obtain ⟨a, ha, hx⟩ := List.mem_map.1 h2
    exact ⟨a, ha, hx⟩
  · rintro ⟨a, ha, hx⟩
    refine ⟨rfl, fun g gs hg => ?_⟩
    simp only [EntitySchema.addFieldSchema, EntitySchema.new, mapInsert, List.mem_singleton,
      Prod.mk.injEq] at hg
    obtain ⟨rfl, rfl⟩ := hg
    refine ⟨fun v hv => ?_, fun _ => ⟨_, (hfv _).2 rfl⟩⟩
    rw [hfv] at hv; subst hv
    refine ⟨rfl, fun y hy => ⟨_, rfl, ?_⟩⟩
    injection hy with hy; subst hy
    exact List.mem_map.2 ⟨a, ha, hx⟩

/-- C18: in any schema and any entity, replacing an enum value by one with the same normal form does
not change the verdict. -/
theorem C18_same_form (env : Env) (s : EntitySchema) (id : EntityId) (t : EntityType)
    (pre post : List (FieldId × FieldValue)) (f : FieldId) (x y : Str)
    (hxy : env.lower (trim x) = env.lower (trim y)) :
    s.validate env ⟨id, t, pre ++ (f, .enum x) :: post⟩ = .ok () ↔
      s.validate env ⟨id, t, pre ++ (f, .enum y) :: post⟩ = .ok () := by
  have key : ∀ (x y : Str), env.lower (trim x) = env.lower (trim y) → ∀ g gs,
      FieldOk env ⟨id, t, pre ++ (f, .enum x) :: post⟩ g gs →
      FieldOk env ⟨id, t, pre ++ (f, .enum y) :: post⟩ g gs := by
    intro x y hxy g gs h
    have hcase : ((∀ v, FirstValue (pre ++ (f, .enum x) :: post) g v ↔
          FirstValue (pre ++ (f, .enum y) :: post) g v)) ∨
        (∀ v, FirstValue (pre ++ (f, .enum x) :: post) g v ↔ v = .enum x) ∧
        (∀ v, FirstValue (pre ++ (f, .enum y) :: post) g v ↔ v = .enum y) := by
      simp only [firstValue_iff, List.find?_append]
      cases hp : pre.find? (fun p => p.1 == g) with
      | some q => left; intro v; simp
      | none =>
        by_cases hfg : f = g
        · subst hfg; right; constructor <;> intro v <;> simp [eq_comm]
        · left; intro v
          rw [List.find?_cons_of_neg (by simpa using hfg), List.find?_cons_of_neg (by simpa using hfg)]
    unfold FieldOk at h ⊢
    simp only at h ⊢
    rcases hcase with hc | ⟨hx, hy⟩
    · simpa only [hc] using h
    · simp only [hx, hy] at h ⊢
      refine ⟨fun v hv => ?_, fun _ => ⟨_, rfl⟩⟩
      subst hv
      obtain ⟨h1, h2⟩ := h.1 _ rfl
      refine ⟨h1, fun z hz => ?_⟩
      injection hz with hz; subst hz
      obtain ⟨al, e1, e2⟩ := h2 x rfl
      exact ⟨al, e1, hxy ▸ e2⟩
  rw [C15_verdict, C15_verdict]
  exact ⟨fun h => ⟨h.1, fun g gs hg => key x y hxy g gs (h.2 g gs hg)⟩,
    fun h => ⟨h.1, fun g gs hg => key y x hxy.symm g gs (h.2 g gs hg)⟩⟩

/-! ## C66 -/

/-- The field declared by a builder call that keeps the declaration order. -/
def SchemaOp.declares : SchemaOp → Option FieldId
  | .requiredField id _ | .optionalField id _ | .requiredEnum id _ | .optionalEnum id _ => some id
  | .raw _ _ | .metadata => none

theorem mapInsert_new {β : Type} {m : List (Str × β)} {k : Str} {v : β} (h : k ∉ m.map (·.1)) :
    mapInsert m k v = m ++ [(k, v)] := by
  induction m with
  | nil => rfl
  | cons p m ih =>
    obtain ⟨k', v'⟩ := p
    simp only [List.map_cons, List.mem_cons, not_or] at h
    simp only [mapInsert, if_neg (Ne.symm h.1), ih h.2, List.cons_append]

/-- A list of entries whose order numbers are below `n` and strictly increasing. -/
def Increasing (l : List (FieldId × FieldSchema)) : Prop :=
  l.Pairwise fun a b => a.2.order < b.2.order

theorem build_increasing (env : Env) (t : EntityType) (ops : List SchemaOp) (ids : List FieldId)
    (hd : ops.map SchemaOp.declares = ids.map some) (hn : ids.Nodup) :
    (EntitySchema.build env t ops).fields.map (·.1) = ids ∧
      Increasing (EntitySchema.build env t ops).fields ∧
      ∀ p ∈ (EntitySchema.build env t ops).fields, p.2.order < ids.length := by
  have key : ∀ (ops : List SchemaOp) (ids : List FieldId) (s : EntitySchema),
      ops.map SchemaOp.declares = ids.map some → (s.fields.map (·.1) ++ ids).Nodup →
      Increasing s.fields → (∀ p ∈ s.fields, p.2.order < s.fields.length) →
      (ops.foldl (SchemaOp.step env) s).fields.map (·.1) = s.fields.map (·.1) ++ ids ∧
        Increasing (ops.foldl (SchemaOp.step env) s).fields ∧
        ∀ p ∈ (ops.foldl (SchemaOp.step env) s).fields, p.2.order < s.fields.length + ids.length := by
    intro ops
    induction ops with
    | nil =>
      intro ids s hd hn hi hl
      cases ids with
      | nil => simpa using ⟨hi, fun a b h => hl (a, b) h⟩
      | cons _ _ => simp at hd
    | cons op ops ih =>
      intro ids s hd hn hi hl
      cases ids with
      | nil => simp at hd
      | cons id ids =>
        simp only [List.map_cons, List.cons.injEq] at hd
        have hid : id ∉ s.fields.map (·.1) := by
          intro hm
          rw [List.nodup_append] at hn
          exact hn.2.2 id hm id (by simp) rfl
        have hstep : ∃ fs : FieldSchema, fs.order = s.fields.length ∧
            (SchemaOp.step env s op).fields = s.fields ++ [(id, fs)] := by
          cases op <;> simp only [SchemaOp.declares, Option.some.injEq, reduceCtorEq, false_and] at hd
          all_goals
            obtain ⟨rfl, _⟩ := hd
            exact ⟨_, rfl, mapInsert_new hid⟩
        obtain ⟨fs, ho, hf⟩ := hstep
        rw [List.foldl_cons]
        obtain ⟨h1, h2, h3⟩ := ih ids (SchemaOp.step env s op) hd.2
          (by rw [hf]; simpa using hn)
          (by
            rw [hf]; unfold Increasing
            rw [List.pairwise_append]
            refine ⟨hi, by simp, fun a ha b hb => ?_⟩
            simp only [List.mem_singleton] at hb; subst hb
            simp only [ho]; exact hl a ha)
          (by
            rw [hf]; intro p hp
            rw [List.length_append, List.length_singleton]
            rcases List.mem_append.1 hp with hp | hp
            · have := hl p hp; omega
            · simp only [List.mem_singleton] at hp; subst hp; simp only [ho]; omega)
        rw [hf] at h1 h3
        refine ⟨by rw [h1]; simp, h2, fun p hp => ?_⟩
        have := h3 p hp
        simp only [List.length_append, List.length_nil, List.length_cons] at this ⊢
        omega
  have := key ops ids (EntitySchema.new t) hd (by simpa [EntitySchema.new] using hn)
    (by simp [EntitySchema.new, Increasing]) (by simp [EntitySchema.new])
  simpa [EntitySchema.build, EntitySchema.new] using this

theorem schemaOrder_total : TotalPreorderOn
    (fun a b : FieldId × FieldSchema => decide (a.2.order ≤ b.2.order)) (fun _ => True) where
  total := by intro a b _ _; simp; omega
  trans := by intro a b c _ _ _; simp; omega

/-- Whatever the enumeration order, sorting restores a strictly increasing list. -/
theorem sort_increasing {l l' : List (FieldId × FieldSchema)} (hi : Increasing l) (hp : l'.Perm l) :
    stableSort (fun a b => decide (a.2.order ≤ b.2.order)) l' = l := by
  have h1 := stableSort_perm (fun a b : FieldId × FieldSchema => decide (a.2.order ≤ b.2.order)) l'
  have h2 := stableSort_sorted schemaOrder_total (l := l') (fun _ _ => trivial)
  refine List.Perm.eq_of_pairwise (le := fun a b => a.2.order ≤ b.2.order) ?_ ?_ ?_ (h1.trans hp)
  · intro a b ha hb hab hba
    by_contra hne
    obtain ⟨i, hil, rfl⟩ := List.getElem_of_mem ((h1.trans hp).mem_iff.1 ha)
    obtain ⟨j, hjl, rfl⟩ := List.getElem_of_mem hb
    rcases Nat.lt_trichotomy i j with h | h | h
    · have := List.pairwise_iff_getElem.1 hi i j hil hjl h; omega
    · subst h; exact hne rfl
    · have := List.pairwise_iff_getElem.1 hi j i hjl hil h; omega
  · simpa using h2
  · exact hi.imp (fun h => Nat.le_of_lt h)

/-- C66: a schema declared with distinct field names lists its fields in declaration order, whatever
order the hash map enumerates them in. -/
theorem C66_declaration_order (env : Env) (t : EntityType) (ops : List SchemaOp) (ids : List FieldId)
    (hd : ops.map SchemaOp.declares = ids.map some) (hn : ids.Nodup)
    (enumerated : List (FieldId × FieldSchema))
    (hp : enumerated.Perm (EntitySchema.build env t ops).fields) :
    (EntitySchema.orderedFields ⟨t, enumerated⟩).map (·.1) = ids := by
  obtain ⟨h1, h2, _⟩ := build_increasing env t ops ids hd hn
  unfold EntitySchema.orderedFields
  rw [sort_increasing h2 hp, h1]

/-- C66: the metadata fields come after up to 100 declared fields. -/
theorem C66_metadata_last (env : Env) (t : EntityType) (ops : List SchemaOp) (ids : List FieldId)
    (hd : ops.map SchemaOp.declares = ids.map some) (hl : ids.length ≤ 100)
    (hn : (ids ++ ["notes".toList, "created_at".toList, "updated_at".toList]).Nodup)
    (enumerated : List (FieldId × FieldSchema))
    (hp : enumerated.Perm (EntitySchema.build env t (ops ++ [.metadata])).fields) :
    (EntitySchema.orderedFields ⟨t, enumerated⟩).map (·.1) =
      ids ++ ["notes".toList, "created_at".toList, "updated_at".toList] := by
  have hn' : ids.Nodup := (List.nodup_append.1 hn).1
  obtain ⟨h1, h2, h3⟩ := build_increasing env t ops ids hd hn'
  have hb : (EntitySchema.build env t (ops ++ [.metadata])).fields =
      (EntitySchema.build env t ops).fields ++
        [("notes".toList, .new .string .optional 100),
          ("created_at".toList, .new .dateTime .optional 101),
          ("updated_at".toList, .new .dateTime .optional 102)] := by
    unfold EntitySchema.build at h1 ⊢
    rw [List.foldl_append]
    simp only [List.foldl_cons, List.foldl_nil, SchemaOp.step, EntitySchema.withMetadata,
      EntitySchema.addFieldSchema]
    have hd := (List.nodup_append.1 hn).2.2
    rw [mapInsert_new (k := "notes".toList), mapInsert_new (k := "created_at".toList),
      mapInsert_new (k := "updated_at".toList)]
    · simp
    · simp only [List.map_append, h1, List.mem_append, not_or]
      refine ⟨⟨fun h => hd _ h _ (by simp) rfl, ?_⟩, ?_⟩ <;> decide
    · simp only [List.map_append, h1, List.mem_append, not_or]
      refine ⟨fun h => hd _ h _ (by simp) rfl, ?_⟩; decide
    · rw [h1]; exact fun h => hd _ h _ (by simp) rfl
  have hi : Increasing (EntitySchema.build env t (ops ++ [.metadata])).fields := by
    rw [hb]; unfold Increasing
    rw [List.pairwise_append]
    refine ⟨h2, by simp [FieldSchema.new], fun a ha b hb => ?_⟩
    have := h3 a ha
    simp only [List.mem_cons, List.not_mem_nil, or_false] at hb
    rcases hb with rfl | rfl | rfl <;> simp only [FieldSchema.new] <;> omega
  unfold EntitySchema.orderedFields
  rw [sort_increasing hi hp, hb, List.map_append, h1]; rfl

/-- Declaring a field twice makes the order of the fields depend on the hash map. -/
theorem C66_redeclared : ∃ (env : Env) (t : EntityType) (ops : List SchemaOp)
    (l l' : List (FieldId × FieldSchema)), l.Perm (EntitySchema.build env t ops).fields ∧
    l'.Perm (EntitySchema.build env t ops).fields ∧
    (EntitySchema.orderedFields ⟨t, l⟩).map (·.1) ≠ (EntitySchema.orderedFields ⟨t, l'⟩).map (·.1) := by
  refine ⟨exEnv, "t".toList, [.requiredField "a".toList .string, .requiredField "b".toList .string,
    .requiredField "a".toList .string, .requiredField "c".toList .string],
    [("a".toList, .new .string .required 2), ("b".toList, .new .string .required 1),
      ("c".toList, .new .string .required 2)],
    [("c".toList, .new .string .required 2), ("b".toList, .new .string .required 1),
      ("a".toList, .new .string .required 2)], ?_, ?_, ?_⟩ <;> decide

example : [SchemaOp.requiredField "b".toList .string, .optionalEnum "a".toList []].map
    SchemaOp.declares = ["b".toList, "a".toList].map some := rfl
example : (["b".toList, "a".toList] ++ ["notes".toList, "created_at".toList, "updated_at".toList]).Nodup := by
  decide

/-! ## Examples -/

def exSchema : EntitySchema := EntitySchema.build exEnv "task".toList
  [.requiredField "title".toList .string, .optionalEnum "state".toList ["Open".toList, " done ".toList],
    .metadata]

example : exSchema.validate exEnv ⟨"task.a".toList, "task".toList,
    [("title".toList, .string "x".toList), ("state".toList, .enum " DONE".toList)]⟩ = .ok () := by decide
example : exSchema.validate exEnv ⟨"task.a".toList, "tusk".toList,
    [("notes".toList, .integer 1), ("state".toList, .enum "later".toList)]⟩ =
  .error [⟨some "task.a".toList, none, .mismatchedEntityType "task".toList "tusk".toList⟩,
    ⟨some "task.a".toList, some "title".toList, .missingRequiredField "title".toList⟩,
    ⟨some "task.a".toList, some "state".toList,
      .invalidEnumValue "later".toList ["open".toList, "done".toList]⟩,
    ⟨some "task.a".toList, some "notes".toList, .mismatchedFieldType .string .integer⟩] := by decide
example : exSchema.KeysUnique := by unfold EntitySchema.KeysUnique; decide
example : ∀ fs, ("extra".toList, fs) ∉ exSchema.fields := by
  intro fs h
  have : "extra".toList ∈ exSchema.fields.map (·.1) := List.mem_map_of_mem (f := (·.1)) h
  exact absurd this (by decide)
example : exEnv.lower (trim " OPEN".toList) = exEnv.lower (trim "Open ".toList) := by decide

end Firm
