import Verif.Model.WorkspaceText
import Verif.Props.Workspace
import Verif.Props.Defaults

/-!
# C150: what the error of a build names
-/

namespace Firm
open Spec

/-! ## The specification -/

/-- `x` occurs in the text. -/
def Spec.Mentions (m x : Str) : Prop := x <:+: m

/-- The blocks of a file of one kind. -/
def Spec.fileBlocks (kind : String) (f : SourceFile) : List Node := f.root.children.filter fun c => c.kind = kind.toList

/-- The sentence that says what is wrong with a field of an entity. -/
inductive Spec.Reason (env : Env) (e : Entity) (g : FieldId) (fs : FieldSchema) : Str → Prop
  | missing : fs.fieldMode = .required → (∀ v, ¬ FirstValue e.fields g v) →
      Reason env e g fs ("Missing required field '".toList ++ g ++ "' for entity '".toList ++ e.id ++ "'".toList)
  | wrongType {v : FieldValue} : FirstValue e.fields g v → v.getType ≠ fs.fieldType →
      Reason env e g fs ("Expected field '".toList ++ g ++ "' for entity '".toList ++ e.id ++
        "' to be of type '".toList ++ showFieldType fs.fieldType ++ "' but it was '".toList ++
        showFieldType v.getType ++ "'".toList)
  | notAllowed {x : Str} : FirstValue e.fields g (.enum x) → fs.fieldType = .enum →
      (∀ allowed, fs.allowedValues = some allowed → env.lower (trim x) ∉ allowed) →
      Reason env e g fs ("Invalid value '".toList ++ x ++ "' for enum field '".toList ++ g ++ "' in entity '".toList ++
        e.id ++ "'. Expected one of: [".toList ++ joinWith ", ".toList (fs.allowedValues.getD []) ++ "]".toList)

/-- The text names a file of the workspace with a block that is wrong and the type that a schema cannot have; if the
block can be read, it names its entity, the type that has no schema, every field that violates the schema, and what is
wrong with it. -/
inductive Spec.Explains (q : Str → Str) (L : Lang) (w : Workspace) (m : Str) : Prop
  /-- A schema that cannot be read. -/
  | schema {path : Str} {f : SourceFile} {n : Node} : (path, f) ∈ w → n ∈ fileBlocks "schema_block" f →
      (∀ s, toSchema L f.rel n ≠ .ok s) → Mentions m path →
      (∀ t, toSchema L f.rel n = .error (.unknownFieldType t) → Mentions m t) → Explains q L w m
  /-- A schema whose type an earlier schema has. -/
  | twice {path : Str} {f : SourceFile} {n : Node} {pre post : List (Str × Node)} {s s' : EntitySchema} {b : Str × Node} :
      (path, f) ∈ w → n ∈ fileBlocks "schema_block" f → blocksOf "schema_block" w = pre ++ (f.rel, n) :: post →
      toSchema L f.rel n = .ok s → b ∈ pre → toSchema L b.1 b.2 = .ok s' → s'.entityType = s.entityType →
      Mentions m path → Explains q L w m
  /-- An entity that cannot be read. -/
  | entity {path : Str} {f : SourceFile} {n : Node} : (path, f) ∈ w → n ∈ fileBlocks "entity_block" f →
      (∀ e, toEntity L f.rel n ≠ .ok e) → Mentions m path → Explains q L w m
  /-- An entity of a type that no schema has. -/
  | noSchema {path : Str} {f : SourceFile} {n : Node} {e : Entity} : (path, f) ∈ w → n ∈ fileBlocks "entity_block" f →
      toEntity L f.rel n = .ok e →
      (∀ b ∈ blocksOf "schema_block" w, ∀ s, toSchema L b.1 b.2 = .ok s → s.entityType ≠ e.entityType) →
      Mentions m path → Mentions m e.entityType → Explains q L w m
  /-- An entity that does not conform to the schema of its type. -/
  | invalid {path : Str} {f : SourceFile} {n : Node} {e : Entity} {s : EntitySchema} {b : Str × Node} : (path, f) ∈ w →
      n ∈ fileBlocks "entity_block" f → toEntity L f.rel n = .ok e → b ∈ blocksOf "schema_block" w →
      toSchema L b.1 b.2 = .ok s → s.entityType = e.entityType → ¬ Conforms L.env s e → Mentions m path →
      Mentions m e.id → (∀ g fs, (g, fs) ∈ s.fields → ¬ FieldOk L.env e g fs → Mentions m (q g) ∧
        ∃ text, Reason L.env e g fs text ∧ Mentions m (q text)) → Explains q L w m

/-- A result without the texts of its error. -/
def Spec.withoutText {α : Type} : Except BuildFault α → Except WorkspaceError α
  | .ok a => .ok a
  | .error x => .error x.kind

/-! ## The texts change nothing -/

theorem addSchemasT_kind (L : Lang) (path rel : Str) : ∀ (ns : List Node) (m : List (EntityType × EntitySchema)),
    withoutText (addSchemasT L path rel m ns) = addSchemas L path rel m ns
  | [], _ => rfl
  | n :: ns, m => by
    unfold addSchemasT addSchemas
    cases toSchema L rel n with
    | error e => cases e <;> rfl
    | ok s =>
      dsimp only
      split
      · rfl
      · exact addSchemasT_kind L path rel ns _

theorem schemaPassT_kind (L : Lang) : ∀ (w : Workspace) (m : List (EntityType × EntitySchema)),
    withoutText (schemaPassT L m w) = schemaPass L m w
  | [], _ => rfl
  | (path, f) :: w, m => by
    unfold schemaPassT schemaPass
    rw [← addSchemasT_kind]
    cases addSchemasT L path f.rel m f.schemas with
    | error e => rfl
    | ok m' => exact schemaPassT_kind L w m'

theorem checkEntityT_kind (q : Str → Str) (L : Lang) (m : List (EntityType × EntitySchema)) (path rel : Str) (n : Node) :
    withoutText (checkEntityT q L m path rel n) = checkEntity L m path rel n := by
  unfold checkEntityT checkEntity
  cases toEntity L rel n with
  | error e => cases e <;> rfl
  | ok e =>
    dsimp only
    cases mapGet m e.entityType with
    | none => rfl
    | some s =>
      dsimp only
      cases s.validate L.env e <;> rfl

theorem collectResults_kind {α β : Type} {f : α → Except BuildFault β} {g : α → Except WorkspaceError β}
    (h : ∀ a, withoutText (f a) = g a) : ∀ l : List α, withoutText (collectResults f l) = collectResults g l
  | [] => rfl
  | a :: l => by
    unfold collectResults
    rw [← h a, ← collectResults_kind h l]
    cases f a with
    | error e => rfl
    | ok b =>
      dsimp only [withoutText]
      cases collectResults f l <;> rfl

theorem entityPassT_kind (q : Str → Str) (L : Lang) (m : List (EntityType × EntitySchema)) : ∀ w : Workspace,
    withoutText (entityPassT q L m w) = entityPass L m w
  | [] => rfl
  | (path, f) :: w => by
    unfold entityPassT entityPass
    rw [← collectResults_kind (checkEntityT_kind q L m path f.rel), ← entityPassT_kind q L m w]
    cases collectResults (checkEntityT q L m path f.rel) f.entities with
    | error e => rfl
    | ok es =>
      dsimp only [withoutText]
      cases entityPassT q L m w <;> rfl

/-- C150: the build with texts and the build without them succeed with the same result and fail with the same error. -/
theorem C150_same (q : Str → Str) (L : Lang) (w : Workspace) : withoutText (w.buildT q L) = w.build L := by
  unfold Workspace.buildT Workspace.build
  rw [← schemaPassT_kind]
  cases schemaPassT L [] w with
  | error e => rfl
  | ok m =>
    dsimp only [withoutText]
    rw [← entityPassT_kind q]
    cases entityPassT q L m w <;> rfl

/-! ## The first pass -/

theorem mentions_append (a b c : Str) : Mentions (a ++ b ++ c) b := ⟨a, c, rfl⟩

theorem mentions_parse (L : Lang) (path r : Str) : Mentions (faultText L (.parse path r)) path :=
  ⟨"Workspace file at ".toList, " could not be parsed: ".toList ++ r, by
    show _ = "Workspace file at ".toList ++ path ++ " could not be parsed: ".toList ++ r
    simp only [List.append_assoc]⟩

theorem reason_parse (L : Lang) (path r : Str) : r <:+: faultText L (.parse path r) :=
  ⟨"Workspace file at ".toList ++ path ++ " could not be parsed: ".toList, [], by rw [List.append_nil]; rfl⟩

theorem mentions_validation (L : Lang) (path r : Str) : Mentions (faultText L (.validation path r)) path :=
  ⟨"Workspace file at ".toList, " was invalid: ".toList ++ r, by
    show _ = "Workspace file at ".toList ++ path ++ " was invalid: ".toList ++ r
    simp only [List.append_assoc]⟩

/-- Every type in the table is that of a block before. -/
def Spec.FromBlocks (L : Lang) (m : List (EntityType × EntitySchema)) (bs : List (Str × Node)) : Prop :=
  ∀ t, (mapGet m t).isSome → ∃ b ∈ bs, ∃ s, toSchema L b.1 b.2 = .ok s ∧ s.entityType = t

theorem addSchemasT_spec {L : Lang} {path rel : Str} : ∀ {ns : List Node} {m : List (EntityType × EntitySchema)}
    {bs : List (Str × Node)}, FromBlocks L m bs →
    match addSchemasT L path rel m ns with
    | .ok m' => FromBlocks L m' (bs ++ ns.map fun n => (rel, n))
    | .error x => x = .panic ∨ (∃ n ∈ ns, (∀ s, toSchema L rel n ≠ .ok s) ∧ ∃ r, x = .parse path r ∧
        ∀ t, toSchema L rel n = .error (.unknownFieldType t) → t <:+: r) ∨
        ∃ pre n post s, ns = pre ++ n :: post ∧ toSchema L rel n = .ok s ∧ x = .validation path "Stuff".toList ∧
          ∃ b ∈ bs ++ pre.map fun n => (rel, n), ∃ s', toSchema L b.1 b.2 = .ok s' ∧ s'.entityType = s.entityType
  | [], m, bs, h => by simpa [addSchemasT] using h
  | n :: ns, m, bs, h => by
    unfold addSchemasT
    cases hn : toSchema L rel n with
    | error e =>
      have hno : ∀ s, toSchema L rel n ≠ .ok s := by rw [hn]; exact nofun
      cases e with
      | panic => exact .inl rfl
      | unknownFieldType t =>
        refine .inr (.inl ⟨n, by simp, hno, _, rfl, fun t' h' => ?_⟩)
        rw [hn] at h'
        cases h'
        exact ⟨"Unknown field type: '".toList, "'".toList, rfl⟩
      | _ => exact .inr (.inl ⟨n, by simp, hno, _, rfl, fun t' h' => by rw [hn] at h'; cases h'⟩)
    | ok s =>
      dsimp only
      by_cases hs : (mapGet m s.entityType).isSome = true
      · rw [if_pos hs]
        obtain ⟨b, hb, s', h1, h2⟩ := h _ hs
        exact .inr (.inr ⟨[], n, ns, s, rfl, hn, rfl, b, by simpa using hb, s', h1, h2⟩)
      · rw [if_neg hs]
        have hm : FromBlocks L (mapInsert m s.entityType s) (bs ++ [(rel, n)]) := by
          intro t ht
          rw [mapGet_mapInsert] at ht
          by_cases he : s.entityType = t
          · exact ⟨(rel, n), by simp, s, hn, he⟩
          · rw [if_neg he] at ht
            obtain ⟨b, hb, h'⟩ := h t ht
            exact ⟨b, by simp [hb], h'⟩
        have ih := addSchemasT_spec (path := path) (rel := rel) (ns := ns) hm
        split at ih
        · simpa using ih
        · rcases ih with h1 | ⟨n', hn', h1, h2⟩ | ⟨pre, n', post, s', h1, h2, h3, b, hb, h4⟩
          · exact .inl h1
          · exact .inr (.inl ⟨n', by simp [hn'], h1, h2⟩)
          · refine .inr (.inr ⟨n :: pre, n', post, s', by rw [h1]; rfl, h2, h3, b, by simpa using hb, h4⟩)

theorem schemaPassT_spec {q : Str → Str} {L : Lang} : ∀ {w done : Workspace} {m : List (EntityType × EntitySchema)}
    {x : BuildFault}, FromBlocks L m (blocksOf "schema_block" done) → schemaPassT L m w = .error x → x ≠ .panic →
    Explains q L (done ++ w) (faultText L x)
  | [], _, _, _, _, h, _ => by cases h
  | (path, f) :: w, done, m, x, hm, h, hx => by
    have hmem : (path, f) ∈ done ++ (path, f) :: w := by simp
    unfold schemaPassT at h
    have hs := addSchemasT_spec (path := path) (rel := f.rel) (ns := f.schemas) hm
    cases ha : addSchemasT L path f.rel m f.schemas with
    | error e =>
      rw [ha] at h hs
      cases h
      rcases hs with h1 | ⟨n, hn, h1, r, rfl, hr⟩ | ⟨pre, n, post, s, h1, h2, rfl, b, hb, s', h3, h4⟩
      · exact absurd h1 hx
      · exact .schema hmem hn h1 (mentions_parse L path r) fun t ht => (hr t ht).trans (reason_parse L path r)
      · refine .twice (pre := blocksOf "schema_block" done ++ pre.map fun n => (f.rel, n))
          (post := (post.map fun n => (f.rel, n)) ++ blocksOf "schema_block" w) hmem (n := n) ?_ ?_ h2 hb h3 h4
          (mentions_validation L path _)
        · show n ∈ f.schemas
          rw [h1]; simp
        · have : blocksOf "schema_block" (done ++ (path, f) :: w) = blocksOf "schema_block" done ++
              ((f.schemas.map fun n => (f.rel, n)) ++ blocksOf "schema_block" w) := by
            unfold blocksOf
            rw [List.flatMap_append, List.flatMap_cons]
            rfl
          rw [this, h1]
          simp
    | ok m' =>
      rw [ha] at h hs
      have := schemaPassT_spec (q := q) (w := w) (done := done ++ [(path, f)]) (m := m') (x := x) (by
        have he : blocksOf "schema_block" (done ++ [(path, f)]) = blocksOf "schema_block" done ++
            f.schemas.map fun n => (f.rel, n) := by
          unfold blocksOf
          rw [List.flatMap_append, List.flatMap_singleton]
          rfl
        rw [he]
        exact hs) h hx
      simpa using this

/-! ## The second pass -/

theorem forall₂_left {α β : Type} {R : α → β → Prop} {as : List α} {bs : List β} (h : List.Forall₂ R as bs) {a : α}
    (ha : a ∈ as) : ∃ b ∈ bs, R a b := by
  induction h with
  | nil => cases ha
  | cons hr _ ih =>
    rcases List.mem_cons.1 ha with rfl | ha
    · exact ⟨_, by simp, hr⟩
    · obtain ⟨b, hb, h⟩ := ih ha
      exact ⟨b, by simp [hb], h⟩

theorem forall₂_right {α β : Type} {R : α → β → Prop} {as : List α} {bs : List β} (h : List.Forall₂ R as bs) {b : β}
    (hb : b ∈ bs) : ∃ a ∈ as, R a b := by
  induction h with
  | nil => cases hb
  | cons hr _ ih =>
    rcases List.mem_cons.1 hb with rfl | hb
    · exact ⟨_, by simp, hr⟩
    · obtain ⟨a, ha, h⟩ := ih hb
      exact ⟨a, by simp [ha], h⟩

theorem infix_joinWith {sep x : Str} : ∀ {xs : List Str}, x ∈ xs → x <:+: joinWith sep xs
  | [y], h => by rw [List.mem_singleton.1 h]; exact List.infix_refl _
  | y :: z :: zs, h => by
    have hj : joinWith sep (y :: z :: zs) = y ++ sep ++ joinWith sep (z :: zs) := by
      simp [joinWith]
    rw [hj]
    rcases List.mem_cons.1 h with rfl | h
    · exact ⟨[], sep ++ joinWith sep (z :: zs), by simp⟩
    · exact (infix_joinWith (sep := sep) h).trans ⟨y ++ sep, [], by simp⟩

theorem mentions_id (L : Lang) (q : Str → Str) (path id : Str) (vs : List ValidationError) :
    Mentions (faultText L (.validation path (invalidText q id vs))) id := by
  refine ⟨"Workspace file at ".toList ++ path ++ " was invalid: ".toList ++ "Entity '".toList,
    "' failed validation: [".toList ++ joinWith ", ".toList (vs.map (debugViolation q)) ++ "]".toList, ?_⟩
  show _ = "Workspace file at ".toList ++ path ++ " was invalid: ".toList ++ ("Entity '".toList ++ id ++
    "' failed validation: [".toList ++ joinWith ", ".toList (vs.map (debugViolation q)) ++ "]".toList)
  simp only [List.append_assoc]

theorem mentions_violation (L : Lang) (q : Str → Str) (path id : Str) {vs : List ValidationError} {v : ValidationError}
    (hv : v ∈ vs) : Mentions (faultText L (.validation path (invalidText q id vs))) (debugViolation q v) := by
  refine (infix_joinWith (sep := ", ".toList) (List.mem_map_of_mem hv)).trans ?_
  refine ⟨"Workspace file at ".toList ++ path ++ " was invalid: ".toList ++ ("Entity '".toList ++ id ++
    "' failed validation: [".toList), "]".toList, ?_⟩
  show _ = "Workspace file at ".toList ++ path ++ " was invalid: ".toList ++ ("Entity '".toList ++ id ++
    "' failed validation: [".toList ++ joinWith ", ".toList (vs.map (debugViolation q)) ++ "]".toList)
  simp only [List.append_assoc]

theorem mentions_field (L : Lang) (q : Str → Str) (path id : Str) {vs : List ValidationError} {v : ValidationError}
    {g : FieldId} (hv : v ∈ vs) (hg : v.field = some g) :
    Mentions (faultText L (.validation path (invalidText q id vs))) (q g) := by
  have h1 : q g <:+: debugViolation q v := by
    refine ⟨"ValidationError { entity_id: ".toList ++ debugId q "EntityId" v.entityId ++ ", field: ".toList ++
      ("Some(".toList ++ "FieldId".toList ++ "(".toList), "))".toList ++ (", message: ".toList ++ q (violationText v) ++
      ", error_type: ".toList ++ debugErrorType q v.errorType ++ " }".toList), ?_⟩
    unfold debugViolation
    rw [hg]
    show _ = "ValidationError { entity_id: ".toList ++ debugId q "EntityId" v.entityId ++ ", field: ".toList ++
      ("Some(".toList ++ "FieldId".toList ++ "(".toList ++ q g ++ "))".toList) ++ ", message: ".toList ++
      q (violationText v) ++ ", error_type: ".toList ++ debugErrorType q v.errorType ++ " }".toList
    simp only [List.append_assoc]
  exact h1.trans (mentions_violation L q path id hv)

theorem mentions_text (L : Lang) (q : Str → Str) (path id : Str) {vs : List ValidationError} {v : ValidationError}
    (hv : v ∈ vs) : Mentions (faultText L (.validation path (invalidText q id vs))) (q (violationText v)) := by
  have h1 : q (violationText v) <:+: debugViolation q v := by
    refine ⟨"ValidationError { entity_id: ".toList ++ debugId q "EntityId" v.entityId ++ ", field: ".toList ++
      debugId q "FieldId" v.field ++ ", message: ".toList, ", error_type: ".toList ++
      debugErrorType q v.errorType ++ " }".toList, ?_⟩
    unfold debugViolation
    simp only [List.append_assoc]
  exact h1.trans (mentions_violation L q path id hv)

/-- The text of a violation says what is wrong. -/
theorem violation_reason {env : Env} {e : Entity} {g : FieldId} {fs : FieldSchema} {t : ValidationErrorType}
    (h : FieldViolation env e g fs t) : Reason env e g fs (violationText ⟨some e.id, some g, t⟩) := by
  cases h with
  | missing h1 h2 => exact .missing h1 h2
  | wrongType v h1 h2 => exact .wrongType h1 h2
  | notAllowed x allowed h1 h2 h3 h4 =>
    have := Reason.notAllowed (env := env) h1 h2 (fun a ha => by rw [h3] at ha; cases ha; exact h4)
    rw [h3] at this
    exact this
  | noValues x h1 h2 h3 =>
    have := Reason.notAllowed (env := env) h1 h2 (fun a ha => by rw [h3] at ha; cases ha)
    rw [h3] at this
    exact this

theorem missing_text (L : Lang) (path : Str) (t : EntityType) : ∃ more,
    faultText L (.missingSchema path t) = "No schema found for entity type '".toList ++ t ++ "' in ".toList ++ path ++ more := by
  by_cases h : isDefaultSchemaType L t = true
  · exact ⟨_, if_pos h⟩
  · exact ⟨_, if_neg h⟩

theorem entityPassT_spec {q : Str → Str} {L : Lang} {w : Workspace} {m : List (EntityType × EntitySchema)}
    (hsome : ∀ t s, mapGet m t = some s → s.entityType = t ∧ ∃ b ∈ blocksOf "schema_block" w, toSchema L b.1 b.2 = .ok s)
    (hnone : ∀ t, mapGet m t = none → ∀ b ∈ blocksOf "schema_block" w, ∀ s, toSchema L b.1 b.2 = .ok s → s.entityType ≠ t) :
    ∀ {fs : Workspace} {x : BuildFault}, (∀ p ∈ fs, p ∈ w) → entityPassT q L m fs = .error x → x ≠ .panic →
      Explains q L w (faultText L x)
  | [], _, _, h, _ => by cases h
  | (path, f) :: fs, x, hsub, h, hx => by
    have hmem := hsub (path, f) (by simp)
    unfold entityPassT at h
    cases hc : collectResults (checkEntityT q L m path f.rel) f.entities with
    | error e =>
      rw [hc] at h
      cases h
      obtain ⟨pre, n, post, hn, -, he⟩ := (collectResults_error _ _ _).1 hc
      have hnm : n ∈ fileBlocks "entity_block" f := by
        show n ∈ f.entities
        rw [hn]; simp
      unfold checkEntityT at he
      cases ht : toEntity L f.rel n with
      | error err =>
        have hno : ∀ e, toEntity L f.rel n ≠ .ok e := by rw [ht]; exact nofun
        rw [ht] at he
        cases err with
        | panic => cases he; exact absurd rfl hx
        | _ => cases he; exact .entity hmem hnm hno (mentions_parse L path _)
      | ok e =>
        rw [ht] at he
        dsimp only at he
        cases hg : mapGet m e.entityType with
        | none =>
          rw [hg] at he
          cases he
          obtain ⟨more, hmore⟩ := missing_text L path e.entityType
          refine .noSchema hmem hnm ht (hnone _ hg) ?_ ?_
          · rw [hmore]
            exact mentions_append _ _ _
          · rw [hmore]
            exact ⟨"No schema found for entity type '".toList, "' in ".toList ++ path ++ more, by
              simp only [List.append_assoc]⟩
        | some s =>
          rw [hg] at he
          dsimp only at he
          obtain ⟨hst, b, hb, hbs⟩ := hsome _ _ hg
          cases hv : s.validate L.env e with
          | ok u => rw [hv] at he; cases he
          | error vs =>
            rw [hv] at he
            cases he
            refine .invalid hmem hnm ht hb hbs hst (fun hcf => ?_) (mentions_validation L path _)
              (mentions_id L q path e.id vs) fun g fs' hgs hbad => ?_
            · rw [(C15_verdict _ _ _).2 hcf] at hv
              cases hv
            · obtain ⟨rfl, -⟩ := validate_error.1 hv
              rcases validateField_cases L.env e g fs' with ⟨-, h⟩ | ⟨t, h1, h2, -⟩
              · exact absurd h hbad
              · have hm : (⟨some e.id, some g, t⟩ : ValidationError) ∈ s.errors L.env e := by
                  unfold EntitySchema.errors
                  refine List.mem_append_right _ (List.mem_flatMap.2 ⟨_, hgs, ?_⟩)
                  rw [h1]
                  simp
                exact ⟨mentions_field L q path e.id hm rfl, _, violation_reason h2, mentions_text L q path e.id hm⟩
    | ok es =>
      rw [hc] at h
      dsimp only at h
      cases hr : entityPassT q L m fs with
      | ok rest => rw [hr] at h; cases h
      | error e =>
        rw [hr] at h
        cases h
        exact entityPassT_spec hsome hnone (fun p hp => hsub p (by simp [hp])) hr hx

/-- C150: the error of a build names the file of a block that is the cause; for a missing schema it also names the type,
for an entity that does not conform to its schema the entity, every field that violates it and what is wrong with it,
for a field type that does not exist this type. Missing for the full
claim: which of two schemas of one type it is (`C150_stuff`), and which entity and field cannot be read
(`C150_value`). -/
theorem C150_cause_partial (q : Str → Str) (L : Lang) (w : Workspace) {x : BuildFault} (h : w.buildT q L = .error x)
    (hx : x ≠ .panic) : Explains q L w (faultText L x) := by
  unfold Workspace.buildT at h
  cases hs : schemaPassT L [] w with
  | error e =>
    rw [hs] at h
    cases h
    exact schemaPassT_spec (done := []) (m := []) (by intro t ht; cases ht) hs hx
  | ok m =>
    rw [hs] at h
    dsimp only at h
    have hk := schemaPassT_kind L w []
    rw [hs] at hk
    obtain ⟨ss, h1, rfl, h3⟩ := (schemaPass_ok (L := L) (w := w) (acc := []) (m' := m) (by simp)).1 hk.symm
    simp only [List.nil_append] at h
    cases he : entityPassT q L (keyed ss) w with
    | ok es => rw [he] at h; cases h
    | error e =>
      rw [he] at h
      cases h
      refine entityPassT_spec (fun t s hg => ?_) (fun t hg b hb s hbs hst => ?_) (fun p hp => hp) he hx
      · have hm := (mapGet_some (by rw [keyed_keys]; simpa using h3)).1 hg
        obtain ⟨s', hs', hp⟩ := List.mem_map.1 hm
        cases hp
        obtain ⟨b, hb, hbs⟩ := forall₂_right h1 hs'
        exact ⟨rfl, b, hb, hbs⟩
      · obtain ⟨s', hs', hbs'⟩ := forall₂_left h1 hb
        rw [hbs] at hbs'
        cases hbs'
        have : (mapGet (keyed ss) t).isSome := by
          rw [mapGet_isSome, keyed_keys]
          exact List.mem_map.2 ⟨s, hs', hst⟩
        rw [hg] at this
        cases this

/-! ## The advice -/

/-- The text ends with the advice to run `firm init`. -/
def Spec.AdvisesInit (m : Str) : Prop :=
  ("Run 'firm init' to create default schemas, or define your own schema in your workspace.").toList <:+ m

/-- C150: the text of a missing schema advises `firm init` exactly for the built-in types, of which that command creates
schemas. -/
theorem C150_advice {L : Lang} (hL : PlainCase L) (path : Str) (t : EntityType) :
    AdvisesInit (faultText L (.missingSchema path t)) ↔ t ∈ builtInTypes.map String.toList := by
  rw [← (C107_types hL).1]
  have hd : isDefaultSchemaType L t = true ↔ t ∈ (defaultSchemas L).map (·.entityType) := by
    unfold isDefaultSchemaType
    rw [List.any_eq_true, List.mem_map]
    exact ⟨fun ⟨s, h, e⟩ => ⟨s, h, by simpa using e⟩, fun ⟨s, h, e⟩ => ⟨s, h, by simpa using e⟩⟩
  rw [← hd]
  constructor
  · intro h
    by_contra hn
    have he : faultText L (.missingSchema path t) = "No schema found for entity type '".toList ++ t ++ "' in ".toList ++
        path ++ "\n\nDefine a schema for this type in your workspace.".toList := if_neg hn
    unfold AdvisesInit at h
    rw [he] at h
    have h1 : "schema in your workspace.".toList <:+ "Run 'firm init' to create default schemas, or define your own schema in your workspace.".toList := by decide
    have h2 : "\n\nDefine a schema for this type in your workspace.".toList <:+ "No schema found for entity type '".toList ++ t ++ "' in ".toList ++
        path ++ "\n\nDefine a schema for this type in your workspace.".toList := ⟨_, rfl⟩
    have h3 := List.suffix_of_suffix_length_le (h1.trans h) h2 (by decide)
    exact absurd h3 (by decide)
  · intro h
    have he : faultText L (.missingSchema path t) = "No schema found for entity type '".toList ++ t ++ "' in ".toList ++
        path ++ ("\n\nRun 'firm init' to create " ++ "default schemas, or define your own schema in your workspace.").toList :=
      if_pos h
    unfold AdvisesInit
    rw [he]
    refine List.IsSuffix.trans ?_ ⟨_, rfl⟩
    decide

/-! ## What is not named -/

/-- Two files with schemas of one type. -/
def exTwice (t : String) : Workspace := [exFile "a.firm" [exSchemaNode t []], exFile "b.firm" [exSchemaNode t []]]

/-- C150 fails for a type that is defined twice: the text is the same whatever the type is; it names neither the type nor
the other file. -/
theorem C150_stuff (q : Str → Str) : ∃ m, (∀ t ∈ ["person", "task"], ∃ x, (exTwice t).buildT q exLang = .error x ∧
      faultText exLang x = m ∧ ¬ Mentions m t.toList) ∧ ¬ Mentions m "/w/a.firm".toList ∧
    m = "Workspace file at /w/b.firm was invalid: Stuff".toList := by
  refine ⟨_, fun t ht => ⟨.validation "/w/b.firm".toList "Stuff".toList, ?_, rfl, ?_⟩, ?_, rfl⟩
  · have h : ∀ t ∈ ["person", "task"], schemaPassT exLang [] (exTwice t) =
        .error (.validation "/w/b.firm".toList "Stuff".toList) := by decide +kernel
    unfold Workspace.buildT
    rw [h t ht]
  · revert t
    unfold Mentions
    decide +kernel
  · unfold Mentions
    decide +kernel

/-- An entity with a date that does not exist. -/
def exUnread (id f : String) : Workspace :=
  [exFile "a.firm" [exSchemaNode "person" [], exEntityNode "person" id [exFieldNode f "date" "2024-02-30"]]]

/-- C150 fails for a value that cannot be read: the text is the same whatever the entity and the field are. -/
theorem C150_value (q : Str → Str) : ∀ p ∈ [("alice", "born"), ("bob", "since")], ∃ x,
    (exUnread p.1 p.2).buildT q exLang = .error x ∧
    faultText exLang x = "Workspace file at /w/a.firm could not be parsed: Entity field contains an invalid value".toList ∧
    ¬ Mentions (faultText exLang x) p.1.toList ∧ ¬ Mentions (faultText exLang x) p.2.toList := by
  intro p hp
  have hf : faultText exLang (.parse "/w/a.firm".toList (entityErrorText .invalidFieldValue)) =
    "Workspace file at /w/a.firm could not be parsed: Entity field contains an invalid value".toList := rfl
  refine ⟨.parse "/w/a.firm".toList (entityErrorText .invalidFieldValue), ?_, hf, ?_, ?_⟩
  · have h1 : ∀ p ∈ [("alice", "born"), ("bob", "since")],
        toEntity exLang "a.firm".toList (exEntityNode "person" p.1 [exFieldNode p.2 "date" "2024-02-30"]) =
          .error .invalidFieldValue := by decide +kernel
    have h2 : ∀ p ∈ [("alice", "born"), ("bob", "since")], ∃ m ∈ (schemaPassT exLang [] (exUnread p.1 p.2)).toOption, True := by
      decide +kernel
    obtain ⟨m, hm, -⟩ := h2 p hp
    have hm' : schemaPassT exLang [] (exUnread p.1 p.2) = .ok m := by
      cases hs : schemaPassT exLang [] (exUnread p.1 p.2) with
      | error e => rw [hs] at hm; cases hm
      | ok m' => rw [hs] at hm; cases hm; rfl
    have hc : checkEntityT q exLang m "/w/a.firm".toList "a.firm".toList
        (exEntityNode "person" p.1 [exFieldNode p.2 "date" "2024-02-30"]) =
        .error (.parse "/w/a.firm".toList (entityErrorText .invalidFieldValue)) := by
      unfold checkEntityT
      rw [h1 p hp]
    have he : entityPassT q exLang m (exUnread p.1 p.2) =
        .error (.parse "/w/a.firm".toList (entityErrorText .invalidFieldValue)) := by
      have hb : (exUnread p.1 p.2) = [("/w/a.firm".toList, ⟨.mk "source_file".toList []
        [exSchemaNode "person" [], exEntityNode "person" p.1 [exFieldNode p.2 "date" "2024-02-30"]], "a.firm".toList⟩)] := rfl
      rw [hb]
      have hr : ∀ f : SourceFile, f.entities = [exEntityNode "person" p.1 [exFieldNode p.2 "date" "2024-02-30"]] →
          f.rel = "a.firm".toList → entityPassT q exLang m [("/w/a.firm".toList, f)] =
            .error (.parse "/w/a.firm".toList (entityErrorText .invalidFieldValue)) := by
        intro f h1 h2
        unfold entityPassT
        rw [h1, h2]
        unfold collectResults
        rw [hc]
      exact hr _ rfl rfl
    unfold Workspace.buildT
    rw [hm']
    dsimp only
    rw [he]
  · rw [hf]
    revert p
    unfold Mentions
    decide +kernel
  · rw [hf]
    revert p
    unfold Mentions
    decide +kernel

/-- Not vacuous: two fields of an entity violate its schema; a missing schema of a built-in type and of another type. -/
example : (∃ x, Workspace.buildT id exLang [exFile "a.firm" [exSchemaNode "person" [("name", "string", "true"),
      ("age", "integer", "true")], exEntityNode "person" "bob" [exFieldNode "age" "string" "\"old\""]]] = .error x ∧
      x ≠ .panic ∧ x.kind = .validation "/w/a.firm".toList) ∧
    Workspace.buildT id exLang [exFile "a.firm" [exEntityNode "task" "mail" []]] =
      .error (.missingSchema "/w/a.firm".toList "task".toList) ∧
    Workspace.buildT id exLang [exFile "a.firm" [exEntityNode "ghost" "x" []]] =
      .error (.missingSchema "/w/a.firm".toList "ghost".toList) ∧ PlainCase exLang :=
  ⟨⟨.validation "/w/a.firm".toList (invalidText id "person.bob".toList
      [⟨some "person.bob".toList, some "name".toList, .missingRequiredField "name".toList⟩,
        ⟨some "person.bob".toList, some "age".toList, .mismatchedFieldType .integer .string⟩]), by decide +kernel⟩,
    by decide +kernel, by decide +kernel, exLang_plain⟩

end Firm
