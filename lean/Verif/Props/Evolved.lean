import Verif.Props.Declared
import Verif.Props.Trees
import Verif.Props.Workspace

/-!
# Changing a schema

`C163`: what a changed schema block does to the entities that were written for the old one.
-/

namespace Firm
open Firm.Spec

/-! ## Specification -/

namespace Spec

/-- What a field block asks of a field: its type, whether it is required and the spellings that are allowed. -/
abbrev AskedOf := FieldType × FieldMode × Option (List Str)

/-- The field block declares the field `f` and asks `d` of it. -/
structure DeclaresField (L : Lang) (source : Str) (n : Node) (f : FieldId) (d : AskedOf) : Prop where
  /-- `name = "f"` -/
  name : HasLine L source n "name" (.ok (.string f))
  /-- `type = "…"` -/
  type : HasLine L source n "type" (.ok (.string (fieldTypeName d.1)))
  /-- Required is what has a line `required = true`. -/
  mode : d.2.1 = .required ↔ HasLine L source n "required" (.ok (.boolean true))
  /-- The allowed values are those listed, trimmed and in lower case; only enums have any. -/
  values : ∀ vs, d.2.2 = some vs ↔ d.1 = .enum ∧ ∃ l : List Str,
    HasLine L source n "allowed_values" (.ok (.list (l.map .string))) ∧ vs = l.map fun v => L.env.lower (trim v)
  /-- None of the lines crashes the parser. -/
  calm : ¬ HasLine L source n "required" (.error .panic) ∧
    (d.1 = .enum → ¬ HasLine L source n "allowed_values" (.error .panic))

/-- The block is about the field `f`. -/
def AboutField (L : Lang) (source : Str) (n : Node) (f : FieldId) : Prop :=
  HasLine L source n "name" (.ok (.string f))

/-- Of the blocks about the field `f`, the last one asks `d`. -/
def LastAsked (L : Lang) (source : Str) (ns : List Node) (f : FieldId) (d : AskedOf) : Prop :=
  ∃ pre n post, ns = pre ++ n :: post ∧ DeclaresField L source n f d ∧ ∀ m ∈ post, ¬ AboutField L source m f

/-- The two workspaces differ in one schema block: the first has `n` where the second has `n'`, with the same name of the
schema. -/
structure SchemaEdit (w w' : Workspace) (source : Str) (n n' : Node) (name : Str) : Prop where
  entities : blocksOf "entity_block" w' = blocksOf "entity_block" w
  schemas : ∃ pre post, blocksOf "schema_block" w = pre ++ (source, n) :: post ∧
    blocksOf "schema_block" w' = pre ++ (source, n') :: post
  named : schemaName n = some name
  named' : schemaName n' = some name

/-- `d'` asks no more than `d`: it has the same type, requires the field only if `d` does, and allows all values that `d`
allows. -/
def NoMore (d d' : AskedOf) : Prop :=
  d'.1 = d.1 ∧ (d'.2.1 = .required → d.2.1 = .required) ∧
    ∀ vs, d.2.2 = some vs → ∃ vs', d'.2.2 = some vs' ∧ ∀ v ∈ vs, v ∈ vs'

end Spec

/-! ## Field blocks -/

theorem hasLine_iff {L : Lang} {source : Str} {n : Node} {name : String} {r : ValueResult} :
    HasLine L source n name r ↔ ∃ f, findFieldByName n name = some f ∧ fieldValue L source f = r := by
  refine ⟨findField_line, ?_⟩
  rintro ⟨f, h1, h2⟩
  unfold findFieldByName at h1
  obtain ⟨h3, pre, post, h4, h5⟩ := List.find?_eq_some_iff_append.1 h1
  exact ⟨pre, f, post, h4, by simpa using h3, fun g hg => by simpa using h5 g hg, h2⟩

theorem hasLine_unique {L : Lang} {source : Str} {n : Node} {name : String} {r r' : ValueResult}
    (h : HasLine L source n name r) (h' : HasLine L source n name r') : r = r' := by
  obtain ⟨f, h1, h2⟩ := hasLine_iff.1 h
  obtain ⟨g, h3, h4⟩ := hasLine_iff.1 h'
  rw [h1] at h3
  cases h3
  exact h2.symm.trans h4

theorem stringField_iff {L : Lang} {source : Str} {n : Node} {name : String} {x : Str} :
    stringField L source n name = .ok x ↔ HasLine L source n name (.ok (.string x)) := by
  refine ⟨fun h => ?_, stringField_line⟩
  rw [hasLine_iff]
  unfold stringField at h
  split at h
  · cases h
  · next f hf =>
    refine ⟨f, hf, ?_⟩
    split at h
    · next s hs => cases h; exact hs
    · cases h
    · cases h

theorem requiredFlag_iff {L : Lang} {source : Str} {n : Node} {b : Bool} :
    requiredFlag L source n = some b ↔
      ¬ HasLine L source n "required" (.error .panic) ∧ (b = true ↔ HasLine L source n "required" (.ok (.boolean true))) := by
  simp only [hasLine_iff]
  unfold requiredFlag
  cases hf : findFieldByName n "required" with
  | none =>
    simp only [Option.some.injEq, reduceCtorEq, false_and, exists_false, not_false_eq_true, true_and, iff_false,
      Bool.not_eq_true]
    exact eq_comm
  | some f =>
    simp only [Option.some.injEq, exists_eq_left']
    cases hv : fieldValue L source f with
    | ok v =>
      cases v with
      | boolean c => cases b <;> cases c <;> simp
      | _ => simp
    | error e => cases e <;> simp

theorem stringItems_iff {items : List ParsedValue} {vs : List Str} :
    stringItems items = some vs ↔ items = vs.map .string := by
  refine ⟨stringItems_some, ?_⟩
  rintro rfl
  exact stringItems_map vs

theorem allowedValuesOf_iff {L : Lang} {source : Str} {n : Node} {o : Option (List Str)} :
    allowedValuesOf L source n = some o ↔
      ¬ HasLine L source n "allowed_values" (.error .panic) ∧
        ∀ l, o = some l ↔ HasLine L source n "allowed_values" (.ok (.list (l.map .string))) := by
  have key : ∀ o' : Option (List Str), (∀ l, o = some l ↔ o' = some l) ↔ o' = o := by
    intro o'
    constructor
    · intro h
      cases o' with
      | none =>
        cases o with
        | none => rfl
        | some l => exact absurd ((h l).1 rfl) (by simp)
      | some l => rw [(h l).2 rfl]
    · rintro rfl l; exact Iff.rfl
  simp only [hasLine_iff]
  unfold allowedValuesOf
  cases hf : findFieldByName n "allowed_values" with
  | none =>
    have := key none
    simp only [reduceCtorEq, iff_false] at this
    simp [this]
  | some f =>
    simp only [Option.some.injEq, exists_eq_left']
    cases hv : fieldValue L source f with
    | ok v =>
      cases v with
      | list items =>
        have := key (stringItems items)
        simp only [stringItems_iff] at this
        simp [this]
      | _ =>
        have := key none
        simp only [reduceCtorEq, iff_false] at this
        simp [this]
    | error e =>
      have := key none
      simp only [reduceCtorEq, iff_false] at this
      cases e <;> simp [this]

theorem convert_iff {t : Str} {ty : FieldType} : convertFieldType t = .ok ty ↔ t = fieldTypeName ty := by
  constructor
  · intro h
    unfold convertFieldType at h
    repeat' split at h
    all_goals first
      | (cases h; assumption)
      | cases h
  · rintro rfl; exact convert_typeName ty

/-- C163: the field blocks that are accepted are those that declare a field, and they are read as declared. -/
theorem C163_block {L : Lang} {source : Str} {n : Node} {k : Nat} {f : FieldId} {fs : FieldSchema} :
    toSchemaField L source k n = .ok (f, fs) ↔ DeclaresField L source n f (saying fs) ∧ fs.order = k := by
  constructor
  · intro h
    unfold toSchemaField at h
    split at h
    · cases h
    next x hx =>
    split at h
    · cases h
    next t ht =>
    split at h
    · cases h
    next ty hty =>
    split at h
    · cases h
    next b hb =>
    rw [stringField_iff] at hx ht
    rw [convert_iff] at hty
    subst hty
    obtain ⟨hp, hb⟩ := requiredFlag_iff.1 hb
    have hmode : (if b then FieldMode.required else .optional) = .required ↔ b = true := by cases b <;> simp
    dsimp only at h
    split at h
    · next he =>
      subst he
      split at h
      · cases h
      · next vs hvs =>
        obtain ⟨hp', hvs⟩ := allowedValuesOf_iff.1 hvs
        cases h
        refine ⟨⟨hx, ht, hmode.trans hb, ?_, hp, fun _ => hp'⟩, rfl⟩
        intro us
        have h1 := (hvs vs).1 rfl
        simp only [saying, FieldSchema.newEnum, Option.some.injEq, true_and]
        constructor
        · rintro rfl; exact ⟨vs, h1, rfl⟩
        · rintro ⟨l, hl, rfl⟩
          rw [← Option.some.inj ((hvs l).2 hl)]
          rfl
      · next hvs =>
        obtain ⟨hp', hvs⟩ := allowedValuesOf_iff.1 hvs
        cases h
        refine ⟨⟨hx, ht, hmode.trans hb, ?_, hp, fun _ => hp'⟩, rfl⟩
        intro us
        simp only [saying, FieldSchema.new, reduceCtorEq, true_and, false_iff, not_exists, not_and]
        intro l hl
        exact absurd ((hvs l).2 hl) (by simp)
    · next he =>
      cases h
      refine ⟨⟨hx, ht, hmode.trans hb, ?_, hp, fun h => absurd h he⟩, rfl⟩
      intro us
      simp only [saying, FieldSchema.new, reduceCtorEq, false_iff, not_and]
      exact fun h => absurd h he
  · rintro ⟨h, hk⟩
    obtain ⟨ty, mode, order, allowed⟩ := fs
    cases hk
    obtain ⟨hx, ht, hm, hv, hp, hp'⟩ := h
    simp only [saying] at ht hm hv hp'
    unfold toSchemaField
    rw [stringField_line hx, stringField_line ht]
    simp only [convert_typeName]
    have hb : requiredFlag L source n = some (decide (mode = .required)) := by
      rw [requiredFlag_iff]
      exact ⟨hp, by rw [decide_eq_true_iff]; exact hm⟩
    have hmode : (if decide (mode = .required) then FieldMode.required else .optional) = mode := by
      cases mode <;> rfl
    rw [hb]
    simp only [hmode]
    by_cases he : ty = .enum
    · subst he
      rw [if_pos rfl]
      simp only [true_and] at hv
      cases ha : allowedValuesOf L source n with
      | none =>
        exfalso
        unfold allowedValuesOf at ha
        have hno := hp' rfl
        rw [hasLine_iff] at hno
        split at ha
        · cases ha
        · next f hf =>
          split at ha
          · cases ha
          · next he => exact hno ⟨f, hf, he⟩
          · cases ha
      | some o =>
        obtain ⟨-, ho⟩ := allowedValuesOf_iff.1 ha
        cases o with
        | none =>
          cases allowed with
          | none => rfl
          | some vs =>
            obtain ⟨l, hl, -⟩ := (hv vs).1 rfl
            exact absurd ((ho l).2 hl) (by simp)
        | some l =>
          have := (hv _).2 ⟨l, (ho l).1 rfl, rfl⟩
          subst this
          rfl
    · rw [if_neg he]
      cases allowed with
      | none => rfl
      | some vs => exact absurd ((hv vs).1 rfl).1 he

/-! ## Schema blocks -/

theorem declares_names {L : Lang} {source : Str} {n : Node} {f : FieldId} {d : AskedOf} (h : DeclaresField L source n f d) :
    AboutField L source n f := h.name

theorem names_unique {L : Lang} {source : Str} {n : Node} {f g : FieldId} (h : AboutField L source n f) (h' : AboutField L source n g) :
    f = g := by
  have := hasLine_unique h h'
  simpa using this

theorem lastAsked_nil {L : Lang} {source : Str} {f : FieldId} {d : AskedOf} : ¬ LastAsked L source [] f d := by
  rintro ⟨pre, n, post, h, -⟩
  cases pre <;> cases h

theorem lastAsked_cons {L : Lang} {source : Str} {n : Node} {ns : List Node} {f : FieldId} {d : AskedOf} :
    LastAsked L source (n :: ns) f d ↔
      LastAsked L source ns f d ∨ (DeclaresField L source n f d ∧ ∀ m ∈ ns, ¬ AboutField L source m f) := by
  constructor
  · rintro ⟨pre, m, post, h, h1, h2⟩
    cases pre with
    | nil => cases h; exact .inr ⟨h1, h2⟩
    | cons a pre => cases h; exact .inl ⟨pre, m, post, rfl, h1, h2⟩
  · rintro (⟨pre, m, post, rfl, h1, h2⟩ | ⟨h1, h2⟩)
    · exact ⟨n :: pre, m, post, rfl, h1, h2⟩
    · exact ⟨[], n, ns, rfl, h1, h2⟩

theorem lastAsked_names {L : Lang} {source : Str} {ns : List Node} {f : FieldId} {d : AskedOf} (h : LastAsked L source ns f d) :
    ∃ m ∈ ns, AboutField L source m f := by
  obtain ⟨pre, n, post, rfl, h1, -⟩ := h
  exact ⟨n, by simp, h1.name⟩

theorem fields_read {L : Lang} {source : Str} : ∀ {ns : List Node} {s s' : EntitySchema} {k : Nat},
    toSchemaFields L source s k ns = .ok s' →
    s'.entityType = s.entityType ∧ ((s.fields.map (·.1)).Nodup → (s'.fields.map (·.1)).Nodup) ∧
    ∀ f d, (mapGet s'.fields f).map saying = some d ↔
      LastAsked L source ns f d ∨ ((∀ m ∈ ns, ¬ AboutField L source m f) ∧ (mapGet s.fields f).map saying = some d)
  | [], s, s', k, h => by
    cases h
    refine ⟨rfl, id, fun f d => ?_⟩
    simp [lastAsked_nil]
  | n :: ns, s, s', k, h => by
    unfold toSchemaFields at h
    split at h
    · cases h
    next p hp =>
    obtain ⟨g, fs⟩ := p
    obtain ⟨h1, h2, h3⟩ := fields_read h
    obtain ⟨hd, -⟩ := C163_block.1 hp
    refine ⟨h1, fun hn => h2 (mapInsert_nodup hn), fun f d => ?_⟩
    rw [h3, lastAsked_cons]
    simp only [EntitySchema.addFieldSchema, mapGet_insert]
    by_cases hg : g = f
    · subst hg
      rw [if_pos rfl]
      constructor
      · rintro (h | ⟨h, h'⟩)
        · exact .inl (.inl h)
        · cases h'
          exact .inl (.inr ⟨hd, h⟩)
      · rintro ((h | ⟨h, h'⟩) | ⟨h, h'⟩)
        · exact .inl h
        · refine .inr ⟨h', ?_⟩
          have hk : toSchemaField L source k n = .ok (g, ⟨d.1, d.2.1, k, d.2.2⟩) := C163_block.2 ⟨h, rfl⟩
          rw [hp] at hk
          cases hk
          rfl
        · exact absurd hd.name (h n (List.mem_cons_self ..))
    · rw [if_neg hg]
      have hn : ¬ AboutField L source n f := fun h => hg (names_unique hd.name h)
      constructor
      · rintro (h | ⟨h, h'⟩)
        · exact .inl (.inl h)
        · refine .inr ⟨fun m hm => ?_, h'⟩
          rcases List.mem_cons.1 hm with rfl | hm
          exacts [hn, h m hm]
      · rintro ((h | ⟨h, h'⟩) | ⟨h, h'⟩)
        · exact .inl h
        · exact absurd h.name hn
        · exact .inr ⟨fun m hm => h m (List.mem_cons_of_mem _ hm), h'⟩

theorem fields_readable {L : Lang} {source : Str} : ∀ {ns : List Node} {s : EntitySchema} {k : Nat},
    (∃ s', toSchemaFields L source s k ns = .ok s') ↔ ∀ m ∈ ns, ∃ f d, DeclaresField L source m f d
  | [], s, k => by simp [toSchemaFields]
  | n :: ns, s, k => by
    unfold toSchemaFields
    cases hp : toSchemaField L source k n with
    | error e =>
      simp only [reduceCtorEq, exists_false, false_iff]
      intro h
      obtain ⟨f, d, hd⟩ := h n (List.mem_cons_self ..)
      have := C163_block (k := k) (fs := ⟨d.1, d.2.1, k, d.2.2⟩).2 ⟨hd, rfl⟩
      rw [hp] at this
      cases this
    | ok p =>
      dsimp only
      rw [fields_readable]
      have hd := (C163_block (f := p.1) (fs := p.2).1 hp).1
      constructor
      · intro h m hm
        rcases List.mem_cons.1 hm with rfl | hm
        exacts [⟨_, _, hd⟩, h m hm]
      · exact fun h m hm => h m (List.mem_cons_of_mem _ hm)

/-- C163: a schema block is accepted exactly when it has a name and all its field blocks declare a field. -/
theorem C163_accepted {L : Lang} {source : Str} {n : Node} :
    (∃ s, toSchema L source n = .ok s) ↔
      (∃ name, schemaName n = some name) ∧ ∀ m ∈ schemaFields n, ∃ f d, DeclaresField L source m f d := by
  unfold toSchema
  cases hn : schemaName n with
  | none => simp
  | some name =>
    dsimp only
    rw [fields_readable]
    simp

/-- C163: an entity is valid for a schema block exactly when it has the type that the block is about and meets, for each
field, what the last block about this field asks. -/
theorem C163_valid {L : Lang} {source : Str} {n : Node} {s : EntitySchema} (h : toSchema L source n = .ok s) (e : Entity) :
    s.validate L.env e = .ok () ↔
      (∃ name, schemaName n = some name ∧ e.entityType = L.cases.snake name) ∧
        ∀ f d, LastAsked L source (schemaFields n) f d → Meets L.env e f d := by
  rw [C15_verdict]
  unfold toSchema at h
  cases hn : schemaName n with
  | none => rw [hn] at h; cases h
  | some name =>
    rw [hn] at h
    obtain ⟨h1, h2, h3⟩ := fields_read h
    have hnd : (s.fields.map (·.1)).Nodup := h2 List.nodup_nil
    have h3' : ∀ f d, (mapGet s.fields f).map saying = some d ↔ LastAsked L source (schemaFields n) f d := by
      intro f d
      rw [h3]
      simp [EntitySchema.new, mapGet]
    unfold Conforms
    rw [h1]
    refine and_congr ?_ ⟨fun h f d hd => ?_, fun h f fs hf => ?_⟩
    · constructor
      · exact fun h => ⟨name, rfl, h⟩
      · rintro ⟨_, h, h'⟩; cases h; exact h'
    · rw [← h3'] at hd
      obtain ⟨fs, h4, rfl⟩ := Option.map_eq_some_iff.1 hd
      exact h f fs ((mapGet_iff_mem hnd).2 h4)
    · exact h f (saying fs) ((h3' f _).1 (by rw [(mapGet_iff_mem hnd).1 hf]; rfl))

theorem schema_type {L : Lang} {source : Str} {n : Node} {s : EntitySchema} {name : Str} (h : toSchema L source n = .ok s)
    (hn : schemaName n = some name) : s.entityType = L.cases.snake name := by
  unfold toSchema at h
  rw [hn] at h
  exact (fields_read h).1

/-! ## Workspaces -/

theorem forall₂_cut {α β : Type} {R : α → β → Prop} : ∀ {as bs : List α} {cs : List β}, List.Forall₂ R (as ++ bs) cs →
    ∃ cs1 cs2, List.Forall₂ R as cs1 ∧ List.Forall₂ R bs cs2 ∧ cs = cs1 ++ cs2
  | [], _, cs, h => ⟨[], cs, .nil, h, rfl⟩
  | _ :: _, _, _, h => by
    cases h with
    | cons h1 h2 =>
      obtain ⟨cs1, cs2, k1, k2, rfl⟩ := forall₂_cut h2
      exact ⟨_ :: cs1, cs2, .cons h1 k1, k2, rfl⟩

theorem forall₂_function {α β ε : Type} {f : α → Except ε β} : ∀ {as : List α} {bs cs : List β},
    List.Forall₂ (fun a b => f a = .ok b) as bs → List.Forall₂ (fun a b => f a = .ok b) as cs → bs = cs
  | _, _, _, .nil, .nil => rfl
  | _, _, _, .cons h1 h2, .cons k1 k2 => by
    rw [h1] at k1
    cases k1
    rw [forall₂_function h2 k2]

/-- C163: after one schema block of a workspace was changed, the workspace builds exactly when the changed block is
accepted and every entity of its type meets what it asks now; then the entities are what they were. -/
theorem C163_edit (L : Lang) {w w' : Workspace} {source name : Str} {n n' : Node} (he : SchemaEdit w w' source n n' name)
    {b : WorkspaceBuild} (h : w.build L = .ok b) :
    ((∃ b', w'.build L = .ok b') ↔
      (∀ m ∈ schemaFields n', ∃ f d, DeclaresField L source m f d) ∧
      ∀ e ∈ b.entities, e.entityType = L.cases.snake name →
        ∀ f d, LastAsked L source (schemaFields n') f d → Meets L.env e f d) ∧
    ∀ b', w'.build L = .ok b' → b'.entities = b.entities := by
  have hv := (C41_build L w b.entities b.schemas).1 h
  obtain ⟨pre, post, hb, hb'⟩ := he.schemas
  have hsch := hv.schemas
  rw [hb] at hsch
  obtain ⟨ss1, rest, hpre, hrest, hss⟩ := forall₂_cut hsch
  obtain ⟨s, ss2, hs, hpost, rfl⟩ := List.forall₂_cons_left_iff.1 hrest
  have hst := schema_type hs he.named
  have hone := hv.oneSchema
  have hsame : ∀ b', w'.build L = .ok b' → b'.entities = b.entities := by
    intro b' h'
    have hv' := (C41_build L w' b'.entities b'.schemas).1 h'
    have h1 := hv'.entities
    rw [he.entities] at h1
    exact forall₂_function h1 hv.entities
  refine ⟨⟨?_, ?_⟩, hsame⟩
  · rintro ⟨b', h'⟩
    have hv' := (C41_build L w' b'.entities b'.schemas).1 h'
    have hsch' := hv'.schemas
    rw [hb'] at hsch'
    obtain ⟨ss1', rest', hpre', hrest', hss'⟩ := forall₂_cut hsch'
    obtain ⟨s', ss2', hs', hpost', rfl⟩ := List.forall₂_cons_left_iff.1 hrest'
    have hst' := schema_type hs' he.named'
    refine ⟨(C163_accepted.1 ⟨s', hs'⟩).2, fun e hee ht f d hd => ?_⟩
    rw [← hsame b' h'] at hee
    obtain ⟨s'', hm, ht', hc⟩ := hv'.checked e hee
    have hin : s' ∈ b'.schemas := by rw [hss']; simp
    have : s'' = s' := List.inj_on_of_nodup_map hv'.oneSchema hm hin (by rw [ht', ht, hst'])
    subst this
    exact ((C163_valid hs' e).1 ((C15_verdict _ _ _).2 hc)).2 f d hd
  · rintro ⟨hr, hm⟩
    obtain ⟨s', hs'⟩ := C163_accepted.2 ⟨⟨name, he.named'⟩, hr⟩
    have hst' := schema_type hs' he.named'
    refine ⟨⟨b.entities, ss1 ++ s' :: ss2⟩, (C41_build _ _ _ _).2 ⟨?_, ?_, ?_, ?_⟩⟩
    · rw [hb']
      exact List.rel_append hpre (.cons hs' hpost)
    · rw [he.entities]; exact hv.entities
    · rw [hss] at hone
      simpa [hst, hst'] using hone
    · intro e hee
      obtain ⟨s'', hm', ht, hc⟩ := hv.checked e hee
      rw [hss] at hm'
      simp only [List.mem_append, List.mem_cons] at hm'
      rcases hm' with hm' | rfl | hm'
      · exact ⟨s'', by simp [hm'], ht, hc⟩
      · refine ⟨s', by simp, by rw [hst', ← hst, ht], ?_⟩
        have : e.entityType = L.cases.snake name := by rw [← ht, hst]
        exact (C15_verdict _ _ _).1 ((C163_valid hs' e).2 ⟨⟨name, he.named', this⟩, hm e hee this⟩)
      · exact ⟨s'', by simp [hm'], ht, hc⟩

theorem lastAsked_append {L : Lang} {source : Str} {xs ys : List Node} {f : FieldId} {d : AskedOf} :
    LastAsked L source (xs ++ ys) f d ↔
      LastAsked L source ys f d ∨ (LastAsked L source xs f d ∧ ∀ m ∈ ys, ¬ AboutField L source m f) := by
  induction xs with
  | nil => simp [lastAsked_nil]
  | cons x xs ih =>
    simp only [List.cons_append, lastAsked_cons, ih, List.mem_append]
    constructor
    · rintro ((h | ⟨h, h'⟩) | ⟨h, h'⟩)
      · exact .inl h
      · exact .inr ⟨.inl h, h'⟩
      · exact .inr ⟨.inr ⟨h, fun m hm => h' m (.inl hm)⟩, fun m hm => h' m (.inr hm)⟩
    · rintro (h | ⟨h | ⟨h, h'⟩, h''⟩)
      · exact .inl (.inl h)
      · exact .inl (.inr ⟨h, h''⟩)
      · exact .inr ⟨h, fun m hm => hm.elim (h' m) (h'' m)⟩

/-- The block before the change was accepted, and its entities meet what it asks. -/
theorem before_edit (L : Lang) {w w' : Workspace} {source name : Str} {n n' : Node} (he : SchemaEdit w w' source n n' name)
    {b : WorkspaceBuild} (h : w.build L = .ok b) :
    (∀ m ∈ schemaFields n, ∃ f d, DeclaresField L source m f d) ∧
      ∀ e ∈ b.entities, e.entityType = L.cases.snake name →
        ∀ f d, LastAsked L source (schemaFields n) f d → Meets L.env e f d := by
  obtain ⟨pre, post, h1, -⟩ := he.schemas
  exact (C163_edit L (w' := w) (n' := n) ⟨rfl, ⟨pre, post, h1, h1⟩, he.named, he.named⟩ h).1.1 ⟨b, h⟩

/-- C163: a field block was added, behind which no block is about the same field. The workspace builds exactly when every
entity of the type meets what the block asks: it has the field if it is required, and if it has the field, its value
fits. -/
theorem C163_added (L : Lang) {w w' : Workspace} {source name : Str} {n n' : Node} (he : SchemaEdit w w' source n n' name)
    {b : WorkspaceBuild} (h : w.build L = .ok b) {xs ys : List Node} {m : Node} {f : FieldId} {d : AskedOf}
    (hn : schemaFields n = xs ++ ys) (hn' : schemaFields n' = xs ++ m :: ys) (hm : DeclaresField L source m f d)
    (hys : ∀ k ∈ ys, ¬ AboutField L source k f) :
    (∃ b', w'.build L = .ok b') ↔ ∀ e ∈ b.entities, e.entityType = L.cases.snake name → Meets L.env e f d := by
  obtain ⟨hr, hold⟩ := before_edit L he h
  rw [(C163_edit L he h).1, hn']
  rw [hn] at hr hold
  constructor
  · rintro ⟨-, h1⟩ e hee ht
    exact h1 e hee ht f d (lastAsked_append.2 (.inl (lastAsked_cons.2 (.inr ⟨hm, hys⟩))))
  · intro h1
    refine ⟨fun k hk => ?_, fun e hee ht g c hg => ?_⟩
    · simp only [List.mem_append, List.mem_cons] at hk
      rcases hk with hk | rfl | hk
      exacts [hr k (by simp [hk]), ⟨f, d, hm⟩, hr k (by simp [hk])]
    · rw [lastAsked_append, lastAsked_cons] at hg
      rcases hg with (hg | ⟨hg, -⟩) | ⟨hg, hg'⟩
      · exact hold e hee ht g c (lastAsked_append.2 (.inl hg))
      · obtain rfl := names_unique hg.name hm.name
        have h2 := C163_block (k := 0) (fs := ⟨c.1, c.2.1, 0, c.2.2⟩).2 ⟨hg, rfl⟩
        rw [C163_block (k := 0) (fs := ⟨d.1, d.2.1, 0, d.2.2⟩).2 ⟨hm, rfl⟩] at h2
        obtain ⟨d1, d2, d3⟩ := d
        obtain ⟨c1, c2, c3⟩ := c
        cases h2
        exact h1 e hee ht
      · exact hold e hee ht g c (lastAsked_append.2 (.inr ⟨hg, fun k hk => hg' k (List.mem_cons_of_mem _ hk)⟩))

/-- C163: an optional field can be added that no entity of the type has. -/
theorem C163_optional_partial (L : Lang) {w w' : Workspace} {source name : Str} {n n' : Node}
    (he : SchemaEdit w w' source n n' name) {b : WorkspaceBuild} (h : w.build L = .ok b) {xs ys : List Node} {m : Node}
    {f : FieldId} {d : AskedOf} (hn : schemaFields n = xs ++ ys) (hn' : schemaFields n' = xs ++ m :: ys)
    (hm : DeclaresField L source m f d) (hys : ∀ k ∈ ys, ¬ AboutField L source k f) (ho : d.2.1 = .optional)
    (hu : ∀ e ∈ b.entities, e.entityType = L.cases.snake name → ∀ v, ¬ FirstValue e.fields f v) :
    ∃ b', w'.build L = .ok b' ∧ b'.entities = b.entities := by
  obtain ⟨b', hb'⟩ := (C163_added L he h hn hn' hm hys).2 fun e hee ht =>
    ⟨fun v hv => absurd hv (hu e hee ht v), fun hreq => by rw [ho] at hreq; cases hreq⟩
  exact ⟨b', hb', (C163_edit L he h).2 b' hb'⟩

/-- C163: a field block can be left out if no block before it is about the same field, or one behind it is. -/
theorem C163_removed_partial (L : Lang) {w w' : Workspace} {source name : Str} {n n' : Node}
    (he : SchemaEdit w w' source n n' name) {b : WorkspaceBuild} (h : w.build L = .ok b) {xs ys : List Node} {m : Node}
    (hn : schemaFields n = xs ++ m :: ys) (hn' : schemaFields n' = xs ++ ys)
    (hm : ∀ f, AboutField L source m f → (∀ k ∈ xs, ¬ AboutField L source k f) ∨ ∃ k ∈ ys, AboutField L source k f) :
    ∃ b', w'.build L = .ok b' ∧ b'.entities = b.entities := by
  obtain ⟨hr, hold⟩ := before_edit L he h
  rw [hn] at hr hold
  have hb : ∃ b', w'.build L = .ok b' := by
    rw [(C163_edit L he h).1, hn']
    refine ⟨fun k hk => hr k (by simp only [List.mem_append, List.mem_cons] at hk ⊢; exact hk.imp id .inr),
      fun e hee ht g c hg => hold e hee ht g c ?_⟩
    rw [lastAsked_append, lastAsked_cons]
    rcases lastAsked_append.1 hg with hg | ⟨hg, hg'⟩
    · exact .inl (.inl hg)
    · refine .inr ⟨hg, fun k hk hk' => ?_⟩
      rcases List.mem_cons.1 hk with rfl | hk
      · rcases hm g hk' with hm | ⟨j, hj, hj'⟩
        · obtain ⟨j, hj, hj'⟩ := lastAsked_names hg
          exact hm j hj hj'
        · exact hg' j hj hj'
      · exact hg' k hk hk'
  obtain ⟨b', hb'⟩ := hb
  exact ⟨b', hb', (C163_edit L he h).2 b' hb'⟩

theorem meets_noMore {env : Env} {e : Entity} {f : FieldId} {d d' : AskedOf} (h : NoMore d d') (hm : Meets env e f d) :
    Meets env e f d' := by
  obtain ⟨h1, h2, h3⟩ := h
  refine ⟨fun v hv => ?_, fun hr => hm.2 (h2 hr)⟩
  obtain ⟨k1, k2⟩ := hm.1 v hv
  refine ⟨k1.trans h1.symm, fun x hx => ?_⟩
  obtain ⟨vs, k3, k4⟩ := k2 x hx
  obtain ⟨vs', k5, k6⟩ := h3 vs k3
  exact ⟨vs', k5, k6 _ k4⟩

/-- C163: a field block can be replaced by one that asks no more of the same field: a required field can be made optional
and more values can be allowed. -/
theorem C163_relaxed_partial (L : Lang) {w w' : Workspace} {source name : Str} {n n' : Node}
    (he : SchemaEdit w w' source n n' name) {b : WorkspaceBuild} (h : w.build L = .ok b) {xs ys : List Node} {m m' : Node}
    {f : FieldId} {d d' : AskedOf} (hn : schemaFields n = xs ++ m :: ys) (hn' : schemaFields n' = xs ++ m' :: ys)
    (hm : DeclaresField L source m f d) (hm' : DeclaresField L source m' f d') (hd : NoMore d d') :
    ∃ b', w'.build L = .ok b' ∧ b'.entities = b.entities := by
  obtain ⟨hr, hold⟩ := before_edit L he h
  rw [hn] at hr hold
  have hb : ∃ b', w'.build L = .ok b' := by
    rw [(C163_edit L he h).1, hn']
    refine ⟨fun k hk => ?_, fun e hee ht g c hg => ?_⟩
    · simp only [List.mem_append, List.mem_cons] at hk
      rcases hk with hk | rfl | hk
      exacts [hr k (by simp [hk]), ⟨f, d', hm'⟩, hr k (by simp [hk])]
    · rw [lastAsked_append, lastAsked_cons] at hg
      rcases hg with (hg | ⟨hg, hys⟩) | ⟨hg, hg'⟩
      · exact hold e hee ht g c (lastAsked_append.2 (.inl (lastAsked_cons.2 (.inl hg))))
      · obtain rfl := names_unique hg.name hm'.name
        have h1 := hold e hee ht g d (lastAsked_append.2 (.inl (lastAsked_cons.2 (.inr ⟨hm, hys⟩))))
        have h2 := C163_block (k := 0) (fs := ⟨c.1, c.2.1, 0, c.2.2⟩).2 ⟨hg, rfl⟩
        rw [C163_block (k := 0) (fs := ⟨d'.1, d'.2.1, 0, d'.2.2⟩).2 ⟨hm', rfl⟩] at h2
        obtain ⟨d1, d2, d3⟩ := d'
        obtain ⟨c1, c2, c3⟩ := c
        cases h2
        exact meets_noMore hd h1
      · refine hold e hee ht g c (lastAsked_append.2 (.inr ⟨hg, fun k hk hk' => ?_⟩))
        rcases List.mem_cons.1 hk with rfl | hk
        · obtain rfl := names_unique hk' hm.name
          exact hg' m' (List.mem_cons_self ..) hm'.name
        · exact hg' k (List.mem_cons_of_mem _ hk) hk'
  obtain ⟨b', hb'⟩ := hb
  exact ⟨b', hb', (C163_edit L he h).2 b' hb'⟩

/-- C163: as long as both build, a workspace gives the same entities and the same graph before and after the change of a
schema block. -/
theorem C163_graph (L : Lang) {w w' : Workspace} {source name : Str} {n n' : Node} (he : SchemaEdit w w' source n n' name)
    {b b' : WorkspaceBuild} (h : w.build L = .ok b) (h' : w'.build L = .ok b') :
    b'.entities = b.entities ∧ b'.toGraph = b.toGraph := by
  have h1 := (C163_edit L he h).2 b' h'
  refine ⟨h1, ?_⟩
  unfold WorkspaceBuild.toGraph
  rw [h1]

/-! ## Where the claim fails -/

theorem accepts {w : Workspace} (h : (w.build exLang).toBool = true) : ∃ b, w.build exLang = .ok b := by
  cases hb : w.build exLang with
  | ok b => exact ⟨b, rfl⟩
  | error e => rw [hb] at h; cases h

theorem declines {w : Workspace} (h : (w.build exLang).toBool = false) : ∃ e, w.build exLang = .error e := by
  cases hb : w.build exLang with
  | ok b => rw [hb] at h; cases h
  | error e => exact ⟨e, rfl⟩

/-- A workspace with one schema and one entity. -/
def evolving (fields : List (String × String × String)) : Workspace :=
  [exFile "a.firm" [exSchemaNode "person" fields,
    exEntityNode "person" "alice" [exFieldNode "name" "string" "\"Alice\"", exFieldNode "age" "string" "\"old\""]]]

theorem evolving_edit (xs ys : List (String × String × String)) :
    SchemaEdit (evolving xs) (evolving ys) "a.firm".toList (exSchemaNode "person" xs) (exSchemaNode "person" ys)
      "person".toList :=
  ⟨rfl, ⟨[], [], rfl, rfl⟩, rfl, rfl⟩

/-- C163: an optional field cannot always be added: an entity may have had it already, undeclared, with a value of another
type. -/
theorem C163_undeclared :
    (∃ b, (evolving [("name", "string", "true")]).build exLang = .ok b) ∧
    SchemaEdit (evolving [("name", "string", "true")]) (evolving [("name", "string", "true"), ("age", "integer", "false")])
      "a.firm".toList (exSchemaNode "person" [("name", "string", "true")])
      (exSchemaNode "person" [("name", "string", "true"), ("age", "integer", "false")]) "person".toList ∧
    ∃ e, (evolving [("name", "string", "true"), ("age", "integer", "false")]).build exLang = .error e :=
  ⟨accepts (by decide +kernel), evolving_edit _ _, declines (by decide +kernel)⟩

/-- C163: a field block cannot always be left out: a block before it about the same field then counts. -/
theorem C163_uncovered :
    (∃ b, (evolving [("name", "integer", "true"), ("name", "string", "true")]).build exLang = .ok b) ∧
    SchemaEdit (evolving [("name", "integer", "true"), ("name", "string", "true")]) (evolving [("name", "integer", "true")])
      "a.firm".toList (exSchemaNode "person" [("name", "integer", "true"), ("name", "string", "true")])
      (exSchemaNode "person" [("name", "integer", "true")]) "person".toList ∧
    ∃ e, (evolving [("name", "integer", "true")]).build exLang = .error e :=
  ⟨accepts (by decide +kernel), evolving_edit _ _, declines (by decide +kernel)⟩

/-- A schema whose only field is an enum, with these other lines, and an entity that has a value for it. -/
def enumSchema (lines : List Node) : Node :=
  schemaBlock "task".toList (blockNode [] [] [nestedNode "field".toList (blockNode [] []
    (fieldNode "name".toList (quotedNode "state".toList) :: fieldNode "type".toList (quotedNode "enum".toList) :: lines))])

/-- The workspace with this schema and one task. -/
def enumWorkspace (lines : List Node) : Workspace :=
  [exFile "a.firm" [enumSchema lines, exEntityNode "task" "t" [exFieldNode "state" "enum" "enum\"open\""]]]

/-- The line `allowed_values = ["open", "done"]`. -/
def exAllowedLine : Node := fieldNode "allowed_values".toList (quotedListNode ["open".toList, "done".toList])

/-- C163: the restriction of an enum to some values cannot be lifted by leaving `allowed_values` out: then no value is
accepted any more. -/
theorem C163_unrestricted :
    (∃ b, (enumWorkspace [exAllowedLine]).build exLang = .ok b) ∧
    SchemaEdit (enumWorkspace [exAllowedLine]) (enumWorkspace []) "a.firm".toList (enumSchema [exAllowedLine]) (enumSchema [])
      "task".toList ∧
    ∃ e, (enumWorkspace []).build exLang = .error e :=
  ⟨accepts (by decide +kernel), ⟨rfl, ⟨[], [], rfl, rfl⟩, rfl, rfl⟩, declines (by decide +kernel)⟩

/-! ## Examples -/

/-- The field blocks of the examples. -/
def evolvingField (f : String × String × String) : Node :=
  .mk "nested_block".toList [] [exLeaf "block_type" "field",
    .mk "block".toList [] [exFieldNode "name" "string" ("\"" ++ f.1 ++ "\""),
      exFieldNode "type" "string" ("\"" ++ f.2.1 ++ "\""), exFieldNode "required" "boolean" f.2.2]]

theorem evolvingField_name : DeclaresField exLang "a.firm".toList (evolvingField ("name", "string", "true")) "name".toList
    (.string, .required, none) :=
  (C163_block (k := 0) (fs := ⟨.string, .required, 0, none⟩).1 (by decide +kernel)).1

theorem evolvingField_weak : DeclaresField exLang "a.firm".toList (evolvingField ("name", "string", "false")) "name".toList
    (.string, .optional, none) :=
  (C163_block (k := 0) (fs := ⟨.string, .optional, 0, none⟩).1 (by decide +kernel)).1

theorem evolvingField_mail : DeclaresField exLang "a.firm".toList (evolvingField ("mail", "string", "false")) "mail".toList
    (.string, .optional, none) :=
  (C163_block (k := 0) (fs := ⟨.string, .optional, 0, none⟩).1 (by decide +kernel)).1

example : ∃ b, (evolving [("name", "string", "false")]).build exLang = .ok b := by
  obtain ⟨b, hb⟩ := accepts (w := evolving [("name", "string", "true")]) (by decide +kernel)
  obtain ⟨b', h, -⟩ := C163_relaxed_partial exLang (evolving_edit _ [("name", "string", "false")]) hb (xs := []) (ys := [])
    (m := evolvingField ("name", "string", "true")) (m' := evolvingField ("name", "string", "false")) rfl rfl
    evolvingField_name evolvingField_weak ⟨rfl, (fun h => by cases h), (fun vs h => by cases h)⟩
  exact ⟨b', h⟩

example : ∃ b, (evolving []).build exLang = .ok b := by
  obtain ⟨b, hb⟩ := accepts (w := evolving [("name", "string", "true")]) (by decide +kernel)
  obtain ⟨b', h, -⟩ := C163_removed_partial exLang (evolving_edit _ []) hb (xs := []) (ys := [])
    (m := evolvingField ("name", "string", "true")) rfl rfl fun f _ => .inl fun k hk => by cases hk
  exact ⟨b', h⟩

example : ∃ b b', (evolving [("name", "string", "true")]).build exLang = .ok b ∧
    (evolving [("name", "string", "true"), ("mail", "string", "false")]).build exLang = .ok b' ∧ b'.toGraph = b.toGraph := by
  have hb : (evolving [("name", "string", "true")]).build exLang =
      .ok ⟨[⟨"person.alice".toList, "person".toList, [("name".toList, .string "Alice".toList), ("age".toList, .string "old".toList)]⟩],
        [⟨"person".toList, [("name".toList, ⟨.string, .required, 0, none⟩)]⟩]⟩ := by decide +kernel
  have he := evolving_edit [("name", "string", "true")] [("name", "string", "true"), ("mail", "string", "false")]
  obtain ⟨b', h, -⟩ := C163_optional_partial exLang he hb
    (xs := [evolvingField ("name", "string", "true")]) (ys := []) (m := evolvingField ("mail", "string", "false")) rfl rfl
    evolvingField_mail (fun k hk => by cases hk) rfl (by
      intro e he _ v hv
      rw [List.mem_singleton.1 he] at hv
      cases hv with
      | there _ _ _ _ _ _ hv =>
        cases hv with
        | there _ _ _ _ _ _ hv => cases hv)
  exact ⟨_, b', hb, h, (C163_graph exLang he hb h).2⟩

end Firm
