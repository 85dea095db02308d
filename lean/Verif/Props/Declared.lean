import Verif.Props.Schema

/-!
# What a declared schema demands

`C117`: an entity is valid for a schema that was made by builder calls exactly when, for each name, it meets the last
call that declares that name.
-/

namespace Firm
open Firm.Spec

namespace Spec

/-- What a builder call asks of a field: its type, whether it is required and the spellings that are allowed, trimmed and
in lower case. -/
def demand (env : Env) (id : FieldId) : SchemaOp → Option (FieldType × FieldMode × Option (List Str))
  | .raw i f => if i = id then some (f.fieldType, f.fieldMode, f.allowedValues) else none
  | .requiredField i t => if i = id then some (t, .required, none) else none
  | .optionalField i t => if i = id then some (t, .optional, none) else none
  | .requiredEnum i a => if i = id then some (.enum, .required, some (a.map fun v => env.lower (trim v))) else none
  | .optionalEnum i a => if i = id then some (.enum, .optional, some (a.map fun v => env.lower (trim v))) else none
  | .metadata =>
    if id = "notes".toList then some (.string, .optional, none)
    else if id = "created_at".toList ∨ id = "updated_at".toList then some (.dateTime, .optional, none)
    else none

/-- What the last call that declares the field asks of it. -/
def lastDemand (env : Env) (ops : List SchemaOp) (id : FieldId) : Option (FieldType × FieldMode × Option (List Str)) :=
  ops.reverse.findSome? (demand env id)

/-- The entity meets a demand. -/
def Meets (env : Env) (e : Entity) (id : FieldId) (d : FieldType × FieldMode × Option (List Str)) : Prop :=
  (∀ v, FirstValue e.fields id v → v.getType = d.1 ∧
    ∀ x, v = .enum x → ∃ allowed, d.2.2 = some allowed ∧ env.lower (trim x) ∈ allowed) ∧
  (d.2.1 = .required → ∃ v, FirstValue e.fields id v)

end Spec

theorem mapGet_insert {β : Type} (m : List (Str × β)) (k j : Str) (v : β) :
    mapGet (mapInsert m k v) j = if k = j then some v else mapGet m j := by
  induction m with
  | nil => simp only [mapInsert, mapGet]
  | cons p m ih =>
    obtain ⟨k', v'⟩ := p
    simp only [mapInsert]
    split
    · next h => subst h; simp only [mapGet]; split <;> rfl
    · next h =>
      simp only [mapGet, ih]
      split
      · next h' => subst h'; rw [if_neg (Ne.symm h)]
      · rfl

theorem mapGet_iff_mem {β : Type} {m : List (Str × β)} (hn : (m.map (·.1)).Nodup) {k : Str} {v : β} :
    (k, v) ∈ m ↔ mapGet m k = some v := by
  induction m with
  | nil => simp [mapGet]
  | cons p m ih =>
    obtain ⟨k', v'⟩ := p
    simp only [List.map_cons, List.nodup_cons] at hn
    simp only [List.mem_cons, mapGet]
    split
    · next h =>
      subst h
      constructor
      · rintro (h | h)
        · cases h; rfl
        · exact absurd (List.mem_map_of_mem h) hn.1
      · intro h; cases h; exact .inl rfl
    · next h =>
      rw [← ih hn.2]
      constructor
      · rintro (h' | h')
        · cases h'; exact absurd rfl h
        · exact h'
      · exact .inr

/-- What a declared field says. -/
def saying (f : FieldSchema) : FieldType × FieldMode × Option (List Str) := (f.fieldType, f.fieldMode, f.allowedValues)

theorem step_demand (env : Env) (s : EntitySchema) (op : SchemaOp) (id : FieldId) :
    (mapGet (op.step env s).fields id).map saying = (demand env id op).or ((mapGet s.fields id).map saying) := by
  cases op with
  | metadata =>
    simp only [SchemaOp.step, EntitySchema.withMetadata, EntitySchema.addFieldSchema, mapGet_insert, demand]
    by_cases h1 : id = "notes".toList
    · subst h1
      rw [if_neg (by decide), if_neg (by decide), if_pos rfl, if_pos rfl]
      rfl
    · rw [if_neg h1]
      by_cases h2 : id = "created_at".toList
      · subst h2
        rw [if_neg (by decide), if_pos rfl, if_pos (.inl rfl)]
        rfl
      · by_cases h3 : id = "updated_at".toList
        · subst h3
          rw [if_pos rfl, if_pos (.inr rfl)]
          rfl
        · rw [if_neg (Ne.symm h3), if_neg (Ne.symm h2), if_neg (Ne.symm h1), if_neg (by rintro (h | h); exacts [h2 h, h3 h])]
          rfl
  | _ =>
    simp only [SchemaOp.step, EntitySchema.withRequiredField, EntitySchema.withOptionalField, EntitySchema.withRequiredEnum,
      EntitySchema.withOptionalEnum, EntitySchema.addFieldSchema, mapGet_insert, demand]
    split <;> rfl

theorem build_demand (env : Env) (t : EntityType) (ops : List SchemaOp) (id : FieldId) :
    (mapGet (EntitySchema.build env t ops).fields id).map saying = lastDemand env ops id := by
  unfold EntitySchema.build lastDemand
  induction ops using List.reverseRecOn with
  | nil => rfl
  | append_singleton ops op ih =>
    rw [List.foldl_append, List.foldl_cons, List.foldl_nil, step_demand, ih, List.reverse_append, List.reverse_singleton,
      List.singleton_append, List.findSome?_cons]
    cases demand env id op <;> rfl

theorem build_type (env : Env) (t : EntityType) (ops : List SchemaOp) : (EntitySchema.build env t ops).entityType = t := by
  unfold EntitySchema.build
  induction ops using List.reverseRecOn with
  | nil => rfl
  | append_singleton ops op ih =>
    rw [List.foldl_append, List.foldl_cons, List.foldl_nil]
    cases op <;> exact ih

/-- C117: an entity is valid exactly when it has the type of the schema and meets, for each name, the last declaration of
that name. -/
theorem C117_valid (env : Env) (t : EntityType) (ops : List SchemaOp) (e : Entity) :
    (EntitySchema.build env t ops).validate env e = .ok () ↔
      e.entityType = t ∧ ∀ id d, lastDemand env ops id = some d → Meets env e id d := by
  rw [C15_verdict]
  unfold Conforms
  rw [build_type]
  have hn := C16_builders_unique env t ops
  refine and_congr_right fun _ => ⟨fun h id d hd => ?_, fun h f fs hf => ?_⟩
  · rw [← build_demand (t := t)] at hd
    obtain ⟨fs, h1, rfl⟩ := Option.map_eq_some_iff.1 hd
    exact h id fs ((mapGet_iff_mem hn).2 h1)
  · exact h f (saying fs) (by rw [← build_demand (t := t), (mapGet_iff_mem hn).1 hf]; rfl)

/-- C117: without declarations for the same name, every call counts. -/
theorem C117_distinct (env : Env) (t : EntityType) (ops : List SchemaOp) (e : Entity)
    (hn : ops.Pairwise fun a b => ∀ id, demand env id a = none ∨ demand env id b = none) :
    (EntitySchema.build env t ops).validate env e = .ok () ↔
      e.entityType = t ∧ ∀ op ∈ ops, ∀ id d, demand env id op = some d → Meets env e id d := by
  rw [C117_valid]
  refine and_congr_right fun _ => ⟨fun h op hop id d hd => h id d ?_, fun h id d hd => ?_⟩
  · unfold lastDemand
    induction ops using List.reverseRecOn with
    | nil => cases hop
    | append_singleton ops o ih =>
      rw [List.reverse_append, List.reverse_singleton, List.singleton_append, List.findSome?_cons]
      rw [List.pairwise_append] at hn
      rcases List.mem_append.1 hop with h' | h'
      · have : demand env id o = none := by
          rcases hn.2.2 op h' o (by simp) id with h'' | h''
          · rw [hd] at h''; cases h''
          · exact h''
        rw [this]
        refine ih hn.1 (fun id d hd => ?_) h'
        by_cases hid : demand env id o = none
        · refine h id d ?_
          unfold lastDemand at hd ⊢
          rw [List.reverse_append, List.reverse_singleton, List.singleton_append, List.findSome?_cons, hid]
          exact hd
        · obtain ⟨op', hop', hd'⟩ := List.exists_of_findSome?_eq_some hd
          rcases hn.2.2 op' (List.mem_reverse.1 hop') o (by simp) id with h'' | h''
          · rw [hd'] at h''; cases h''
          · exact absurd h'' hid
      · rw [List.mem_singleton] at h'
        subst h'
        rw [hd]
  · obtain ⟨op, hop, hd'⟩ := List.exists_of_findSome?_eq_some hd
    exact h op (List.mem_reverse.1 hop) id d hd'

/-- A task: a name, perhaps a status, and the metadata. -/
def exDeclared : List SchemaOp :=
  [.requiredField "name".toList .string, .optionalEnum "status".toList [" Open".toList, "DONE".toList], .metadata]

example : exDeclared.Pairwise fun a b => ∀ id, demand exEnv id a = none ∨ demand exEnv id b = none := by
  unfold exDeclared
  simp only [List.pairwise_cons, List.mem_cons, List.not_mem_nil, or_false, forall_eq_or_imp, forall_eq, false_implies,
    implies_true, List.Pairwise.nil, and_true]
  have key : ∀ (a : FieldId) (id : FieldId), a ≠ "notes".toList → a ≠ "created_at".toList → a ≠ "updated_at".toList → a = id →
      demand exEnv id .metadata = none := by
    rintro a id h1 h2 h3 rfl
    simp only [demand]
    rw [if_neg h1, if_neg (by rintro (h | h); exacts [h2 h, h3 h])]
  refine ⟨⟨fun id => ?_, fun id => ?_⟩, fun id => ?_⟩
  · by_cases h : "name".toList = id
    · subst h; exact .inr (by rfl)
    · exact .inl (if_neg h)
  · by_cases h : "name".toList = id
    · exact .inr (key _ _ (by decide) (by decide) (by decide) h)
    · exact .inl (if_neg h)
  · by_cases h : "status".toList = id
    · exact .inr (key _ _ (by decide) (by decide) (by decide) h)
    · exact .inl (if_neg h)

/-- Without the status, with a status in another spelling, without the name. -/
example : (EntitySchema.build exEnv "task".toList exDeclared).validate exEnv
      ⟨"task.a".toList, "task".toList, [("name".toList, .string "A".toList)]⟩ = .ok () ∧
    (EntitySchema.build exEnv "task".toList exDeclared).validate exEnv
      ⟨"task.a".toList, "task".toList, [("name".toList, .string "A".toList), ("status".toList, .enum "open ".toList)]⟩ = .ok () ∧
    (EntitySchema.build exEnv "task".toList exDeclared).validate exEnv
      ⟨"task.a".toList, "task".toList, []⟩ ≠ .ok () := by
  refine ⟨by rfl, by rfl, fun h => ?_⟩
  have := ((C117_valid ..).1 h).2 "name".toList (.string, .required, none) (by decide)
  obtain ⟨v, hv⟩ := this.2 rfl
  cases hv

end Firm
