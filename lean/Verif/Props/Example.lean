import Verif.Props.NewWorkspace

/-!
# The example workspace has the default schemas

C170: the schema files of the example workspace are, character by character, those that `firm init` writes.
-/

namespace Firm
open Spec

/-! ## The files -/

/-- The text of a file with these lines. -/
def Spec.linesText (lines : List String) : Str := lines.flatMap fun l => l.toList ++ ['\n']

/-- example/schemas/person.firm. -/
def Spec.examplePerson : Str := linesText [
  "schema person {", "    field {", "        name = \"name\"", "        type = \"string\"", "        required = true",
  "    }", "    field {", "        name = \"email\"", "        type = \"string\"", "        required = false", "    }",
  "    field {", "        name = \"phone\"", "        type = \"string\"", "        required = false", "    }",
  "    field {", "        name = \"urls\"", "        type = \"list\"", "        required = false", "    }",
  "    field {", "        name = \"notes\"", "        type = \"string\"", "        required = false", "    }",
  "    field {", "        name = \"created_at\"", "        type = \"datetime\"", "        required = false", "    }",
  "    field {", "        name = \"updated_at\"", "        type = \"datetime\"", "        required = false", "    }", "}"]

/-- example/schemas/organization.firm. -/
def Spec.exampleOrganization : Str := linesText [
  "schema organization {", "    field {", "        name = \"name\"", "        type = \"string\"",
  "        required = true", "    }", "    field {", "        name = \"address\"", "        type = \"string\"",
  "        required = false", "    }", "    field {", "        name = \"email\"", "        type = \"string\"",
  "        required = false", "    }", "    field {", "        name = \"phone\"", "        type = \"string\"",
  "        required = false", "    }", "    field {", "        name = \"urls\"", "        type = \"list\"",
  "        required = false", "    }", "    field {", "        name = \"vat_id\"", "        type = \"string\"",
  "        required = false", "    }", "    field {", "        name = \"industry_ref\"", "        type = \"reference\"",
  "        required = false", "    }", "    field {", "        name = \"notes\"", "        type = \"string\"",
  "        required = false", "    }", "    field {", "        name = \"created_at\"", "        type = \"datetime\"",
  "        required = false", "    }", "    field {", "        name = \"updated_at\"", "        type = \"datetime\"",
  "        required = false", "    }", "}"]

/-- example/schemas/industry.firm. -/
def Spec.exampleIndustry : Str := linesText [
  "schema industry {", "    field {", "        name = \"name\"", "        type = \"string\"", "        required = true",
  "    }", "    field {", "        name = \"sector\"", "        type = \"string\"", "        required = false", "    }",
  "    field {", "        name = \"classification_code\"", "        type = \"string\"", "        required = false",
  "    }", "    field {", "        name = \"classification_system\"", "        type = \"string\"",
  "        required = false", "    }", "    field {", "        name = \"notes\"", "        type = \"string\"",
  "        required = false", "    }", "    field {", "        name = \"created_at\"", "        type = \"datetime\"",
  "        required = false", "    }", "    field {", "        name = \"updated_at\"", "        type = \"datetime\"",
  "        required = false", "    }", "}"]

/-- example/schemas/account.firm. -/
def Spec.exampleAccount : Str := linesText [
  "schema account {", "    field {", "        name = \"name\"", "        type = \"string\"", "        required = true",
  "    }", "    field {", "        name = \"organization_ref\"", "        type = \"reference\"",
  "        required = true", "    }", "    field {", "        name = \"owner_ref\"", "        type = \"reference\"",
  "        required = false", "    }", "    field {", "        name = \"status\"", "        type = \"enum\"",
  "        allowed_values = [\"prospect\", \"engaged\", \"client\", \"partner\", \"closed\"]",
  "        required = false", "    }", "    field {", "        name = \"notes\"", "        type = \"string\"",
  "        required = false", "    }", "    field {", "        name = \"created_at\"", "        type = \"datetime\"",
  "        required = false", "    }", "    field {", "        name = \"updated_at\"", "        type = \"datetime\"",
  "        required = false", "    }", "}"]

/-- example/schemas/channel.firm. -/
def Spec.exampleChannel : Str := linesText [
  "schema channel {", "    field {", "        name = \"name\"", "        type = \"string\"", "        required = true",
  "    }", "    field {", "        name = \"type\"", "        type = \"enum\"",
  "        allowed_values = [\"website\", \"social media\", \"email\", \"meeting\", \"other\"]",
  "        required = false", "    }", "    field {", "        name = \"description\"", "        type = \"string\"",
  "        required = false", "    }", "    field {", "        name = \"notes\"", "        type = \"string\"",
  "        required = false", "    }", "    field {", "        name = \"created_at\"", "        type = \"datetime\"",
  "        required = false", "    }", "    field {", "        name = \"updated_at\"", "        type = \"datetime\"",
  "        required = false", "    }", "}"]

/-- example/schemas/lead.firm. -/
def Spec.exampleLead : Str := linesText [
  "schema lead {", "    field {", "        name = \"source_ref\"", "        type = \"reference\"",
  "        required = true", "    }", "    field {", "        name = \"status\"", "        type = \"enum\"",
  "        allowed_values = [\"new\", \"qualified\", \"converted\", \"discarded\"]", "        required = false",
  "    }", "    field {", "        name = \"person_ref\"", "        type = \"reference\"", "        required = false",
  "    }", "    field {", "        name = \"account_ref\"", "        type = \"reference\"", "        required = false",
  "    }", "    field {", "        name = \"score\"", "        type = \"integer\"", "        required = false", "    }",
  "    field {", "        name = \"notes\"", "        type = \"string\"", "        required = false", "    }",
  "    field {", "        name = \"created_at\"", "        type = \"datetime\"", "        required = false", "    }",
  "    field {", "        name = \"updated_at\"", "        type = \"datetime\"", "        required = false", "    }", "}"]

/-- example/schemas/contact.firm. -/
def Spec.exampleContact : Str := linesText [
  "schema contact {", "    field {", "        name = \"source_ref\"", "        type = \"reference\"",
  "        required = false", "    }", "    field {", "        name = \"person_ref\"", "        type = \"reference\"",
  "        required = false", "    }", "    field {", "        name = \"account_ref\"", "        type = \"reference\"",
  "        required = false", "    }", "    field {", "        name = \"role\"", "        type = \"string\"",
  "        required = false", "    }", "    field {", "        name = \"status\"", "        type = \"enum\"",
  "        allowed_values = [\"prospect\", \"partner\", \"client\", \"network\", \"other\"]",
  "        required = false", "    }", "    field {", "        name = \"notes\"", "        type = \"string\"",
  "        required = false", "    }", "    field {", "        name = \"created_at\"", "        type = \"datetime\"",
  "        required = false", "    }", "    field {", "        name = \"updated_at\"", "        type = \"datetime\"",
  "        required = false", "    }", "}"]

/-- example/schemas/interaction.firm. -/
def Spec.exampleInteraction : Str := linesText [
  "schema interaction {", "    field {", "        name = \"type\"", "        type = \"enum\"",
  "        allowed_values = [\"online meeting\", \"in-person meeting\", \"chat\", \"email\", \"other\"]",
  "        required = false", "    }", "    field {", "        name = \"subject\"", "        type = \"string\"",
  "        required = true", "    }", "    field {", "        name = \"initiator_ref\"", "        type = \"reference\"",
  "        required = true", "    }", "    field {", "        name = \"primary_contact_ref\"",
  "        type = \"reference\"", "        required = true", "    }", "    field {",
  "        name = \"interaction_date\"", "        type = \"datetime\"", "        required = true", "    }",
  "    field {", "        name = \"outcome\"", "        type = \"string\"", "        required = false", "    }",
  "    field {", "        name = \"secondary_contacts_ref\"", "        type = \"list\"", "        required = false",
  "    }", "    field {", "        name = \"channel_ref\"", "        type = \"reference\"", "        required = false",
  "    }", "    field {", "        name = \"opportunity_ref\"", "        type = \"reference\"",
  "        required = false", "    }", "    field {", "        name = \"notes\"", "        type = \"string\"",
  "        required = false", "    }", "    field {", "        name = \"created_at\"", "        type = \"datetime\"",
  "        required = false", "    }", "    field {", "        name = \"updated_at\"", "        type = \"datetime\"",
  "        required = false", "    }", "}"]

/-- example/schemas/opportunity.firm. -/
def Spec.exampleOpportunity : Str := linesText [
  "schema opportunity {", "    field {", "        name = \"source_ref\"", "        type = \"reference\"",
  "        required = true", "    }", "    field {", "        name = \"name\"", "        type = \"string\"",
  "        required = true", "    }", "    field {", "        name = \"status\"", "        type = \"enum\"",
  "        allowed_values = [\"open\", \"closed won\", \"closed lost\"]", "        required = false", "    }",
  "    field {", "        name = \"value\"", "        type = \"currency\"", "        required = false", "    }",
  "    field {", "        name = \"probability\"", "        type = \"integer\"", "        required = false", "    }",
  "    field {", "        name = \"notes\"", "        type = \"string\"", "        required = false", "    }",
  "    field {", "        name = \"created_at\"", "        type = \"datetime\"", "        required = false", "    }",
  "    field {", "        name = \"updated_at\"", "        type = \"datetime\"", "        required = false", "    }", "}"]

/-- example/schemas/strategy.firm. -/
def Spec.exampleStrategy : Str := linesText [
  "schema strategy {", "    field {", "        name = \"name\"", "        type = \"string\"", "        required = true",
  "    }", "    field {", "        name = \"description\"", "        type = \"string\"", "        required = false",
  "    }", "    field {", "        name = \"source_ref\"", "        type = \"reference\"", "        required = false",
  "    }", "    field {", "        name = \"owner_ref\"", "        type = \"reference\"", "        required = false",
  "    }", "    field {", "        name = \"status\"", "        type = \"enum\"",
  "        allowed_values = [\"draft\", \"active\", \"completed\", \"archived\"]", "        required = false", "    }",
  "    field {", "        name = \"start_date\"", "        type = \"datetime\"", "        required = false", "    }",
  "    field {", "        name = \"end_date\"", "        type = \"datetime\"", "        required = false", "    }",
  "    field {", "        name = \"notes\"", "        type = \"string\"", "        required = false", "    }",
  "    field {", "        name = \"created_at\"", "        type = \"datetime\"", "        required = false", "    }",
  "    field {", "        name = \"updated_at\"", "        type = \"datetime\"", "        required = false", "    }", "}"]

/-- example/schemas/objective.firm. -/
def Spec.exampleObjective : Str := linesText [
  "schema objective {", "    field {", "        name = \"name\"", "        type = \"string\"",
  "        required = true", "    }", "    field {", "        name = \"description\"", "        type = \"string\"",
  "        required = false", "    }", "    field {", "        name = \"strategy_ref\"", "        type = \"reference\"",
  "        required = false", "    }", "    field {", "        name = \"owner_ref\"", "        type = \"reference\"",
  "        required = false", "    }", "    field {", "        name = \"status\"", "        type = \"string\"",
  "        required = false", "    }", "    field {", "        name = \"start_date\"", "        type = \"datetime\"",
  "        required = false", "    }", "    field {", "        name = \"end_date\"", "        type = \"datetime\"",
  "        required = false", "    }", "    field {", "        name = \"notes\"", "        type = \"string\"",
  "        required = false", "    }", "    field {", "        name = \"created_at\"", "        type = \"datetime\"",
  "        required = false", "    }", "    field {", "        name = \"updated_at\"", "        type = \"datetime\"",
  "        required = false", "    }", "}"]

/-- example/schemas/key_result.firm. -/
def Spec.exampleKeyResult : Str := linesText [
  "schema key_result {", "    field {", "        name = \"name\"", "        type = \"string\"",
  "        required = true", "    }", "    field {", "        name = \"objective_ref\"", "        type = \"reference\"",
  "        required = true", "    }", "    field {", "        name = \"owner_ref\"", "        type = \"reference\"",
  "        required = false", "    }", "    field {", "        name = \"start_value\"", "        type = \"float\"",
  "        required = false", "    }", "    field {", "        name = \"target_value\"", "        type = \"float\"",
  "        required = false", "    }", "    field {", "        name = \"current_value\"", "        type = \"float\"",
  "        required = false", "    }", "    field {", "        name = \"unit\"", "        type = \"string\"",
  "        required = false", "    }", "    field {", "        name = \"notes\"", "        type = \"string\"",
  "        required = false", "    }", "    field {", "        name = \"created_at\"", "        type = \"datetime\"",
  "        required = false", "    }", "    field {", "        name = \"updated_at\"", "        type = \"datetime\"",
  "        required = false", "    }", "}"]

/-- example/schemas/project.firm. -/
def Spec.exampleProject : Str := linesText [
  "schema project {", "    field {", "        name = \"name\"", "        type = \"string\"", "        required = true",
  "    }", "    field {", "        name = \"status\"", "        type = \"enum\"",
  "        allowed_values = [\"planned\", \"in progress\", \"completed\", \"cancelled\"]", "        required = false",
  "    }", "    field {", "        name = \"description\"", "        type = \"string\"", "        required = false",
  "    }", "    field {", "        name = \"owner_ref\"", "        type = \"reference\"", "        required = false",
  "    }", "    field {", "        name = \"objective_refs\"", "        type = \"list\"", "        required = false",
  "    }", "    field {", "        name = \"due_date\"", "        type = \"datetime\"", "        required = false",
  "    }", "    field {", "        name = \"notes\"", "        type = \"string\"", "        required = false", "    }",
  "    field {", "        name = \"created_at\"", "        type = \"datetime\"", "        required = false", "    }",
  "    field {", "        name = \"updated_at\"", "        type = \"datetime\"", "        required = false", "    }", "}"]

/-- example/schemas/task.firm. -/
def Spec.exampleTask : Str := linesText [
  "schema task {", "    field {", "        name = \"name\"", "        type = \"string\"", "        required = true",
  "    }", "    field {", "        name = \"description\"", "        type = \"string\"", "        required = false",
  "    }", "    field {", "        name = \"source_ref\"", "        type = \"reference\"", "        required = false",
  "    }", "    field {", "        name = \"assignee_ref\"", "        type = \"reference\"", "        required = false",
  "    }", "    field {", "        name = \"due_date\"", "        type = \"datetime\"", "        required = false",
  "    }", "    field {", "        name = \"is_completed\"", "        type = \"boolean\"", "        required = false",
  "    }", "    field {", "        name = \"completed_at\"", "        type = \"datetime\"", "        required = false",
  "    }", "    field {", "        name = \"notes\"", "        type = \"string\"", "        required = false", "    }",
  "    field {", "        name = \"created_at\"", "        type = \"datetime\"", "        required = false", "    }",
  "    field {", "        name = \"updated_at\"", "        type = \"datetime\"", "        required = false", "    }", "}"]

/-- example/schemas/review.firm. -/
def Spec.exampleReview : Str := linesText [
  "schema review {", "    field {", "        name = \"name\"", "        type = \"string\"", "        required = true",
  "    }", "    field {", "        name = \"date\"", "        type = \"datetime\"", "        required = true", "    }",
  "    field {", "        name = \"owner_ref\"", "        type = \"reference\"", "        required = false", "    }",
  "    field {", "        name = \"source_refs\"", "        type = \"list\"", "        required = false", "    }",
  "    field {", "        name = \"attendee_refs\"", "        type = \"list\"", "        required = false", "    }",
  "    field {", "        name = \"notes\"", "        type = \"string\"", "        required = false", "    }",
  "    field {", "        name = \"created_at\"", "        type = \"datetime\"", "        required = false", "    }",
  "    field {", "        name = \"updated_at\"", "        type = \"datetime\"", "        required = false", "    }", "}"]

/-- example/schemas/file_asset.firm. -/
def Spec.exampleFileAsset : Str := linesText [
  "schema file_asset {", "    field {", "        name = \"name\"", "        type = \"string\"",
  "        required = true", "    }", "    field {", "        name = \"path\"", "        type = \"path\"",
  "        required = true", "    }", "    field {", "        name = \"description\"", "        type = \"string\"",
  "        required = false", "    }", "    field {", "        name = \"source_ref\"", "        type = \"reference\"",
  "        required = false", "    }", "    field {", "        name = \"owner_ref\"", "        type = \"reference\"",
  "        required = false", "    }", "    field {", "        name = \"notes\"", "        type = \"string\"",
  "        required = false", "    }", "    field {", "        name = \"created_at\"", "        type = \"datetime\"",
  "        required = false", "    }", "    field {", "        name = \"updated_at\"", "        type = \"datetime\"",
  "        required = false", "    }", "}"]

/-- example/schemas: the types, which are the names of the files, and the texts. -/
def Spec.exampleSchemas : List (Str × Str) := [
  ("person".toList, examplePerson),
  ("organization".toList, exampleOrganization),
  ("industry".toList, exampleIndustry),
  ("account".toList, exampleAccount),
  ("channel".toList, exampleChannel),
  ("lead".toList, exampleLead),
  ("contact".toList, exampleContact),
  ("interaction".toList, exampleInteraction),
  ("opportunity".toList, exampleOpportunity),
  ("strategy".toList, exampleStrategy),
  ("objective".toList, exampleObjective),
  ("key_result".toList, exampleKeyResult),
  ("project".toList, exampleProject),
  ("task".toList, exampleTask),
  ("review".toList, exampleReview),
  ("file_asset".toList, exampleFileAsset)]

/-! ## The comparison -/

/-- Comparison of two texts. -/
def sameText : Str → Str → Bool
  | [], [] => true
  | a :: as, b :: bs => Nat.beq a.toNat b.toNat && sameText as bs
  | _, _ => false

theorem sameText_eq : ∀ {a b : Str}, sameText a b = true → a = b
  | [], [], _ => rfl
  | a :: as, b :: bs, h => by
    unfold sameText at h
    rw [Bool.and_eq_true] at h
    rw [Char.toNat_inj.1 (Nat.eq_of_beq_eq_true h.1), sameText_eq h.2]
  | [], _ :: _, h => by cases h
  | _ :: _, [], h => by cases h

theorem example_same : ((defaultSchemas exLang).map fun sc => (sc.entityType, generateSchema .default sc)).zipWith
    (fun a b => sameText a.1 b.1 && sameText a.2 b.2) exampleSchemas = List.replicate 16 true := by decide +kernel

theorem zip_same : ∀ {as bs : List (Str × Str)}, as.length = bs.length →
    (∀ b ∈ as.zipWith (fun a b => sameText a.1 b.1 && sameText a.2 b.2) bs, b = true) → as = bs
  | [], [], _, _ => rfl
  | (a, a') :: as, (b, b') :: bs, hl, h => by
    rw [List.zipWith_cons_cons, List.forall_mem_cons, Bool.and_eq_true] at h
    obtain ⟨⟨h1, h2⟩, h3⟩ := h
    have e1 : a = b := sameText_eq h1
    have e2 : a' = b' := sameText_eq h2
    rw [e1, e2, zip_same (Nat.succ.inj hl) h3]
  | [], _ :: _, hl, _ => by cases hl
  | _ :: _, [], hl, _ => by cases hl

/-- C170: the types and texts of the default schemas are those of the example workspace. -/
theorem C170_texts {L : Lang} (hL : PlainCase L) :
    (defaultSchemas L).map (fun sc => (sc.entityType, generateSchema .default sc)) = exampleSchemas := by
  rw [defaultSchemas_plain hL]
  refine zip_same (by rw [List.length_map]; rfl) fun b hb => ?_
  rw [example_same] at hb
  exact List.eq_of_mem_replicate hb

/-- C170: each of them, in whatever order the map of its fields is enumerated. -/
theorem C170_text {L : Lang} (hL : PlainCase L) {sc : EntitySchema} (hsc : sc ∈ defaultSchemas L)
    {fields : List (FieldId × FieldSchema)} (hp : fields.Perm sc.fields) :
    (sc.entityType, generateSchema .default ⟨sc.entityType, fields⟩) ∈ exampleSchemas := by
  rw [(C107_text hL hsc hp .default).1, ← C170_texts hL]
  exact List.mem_map_of_mem hsc

/-- C170: after an init in which the schemas were accepted, the schema files of the example workspace are there. -/
theorem C170_init {S : Shell} {template : Str} (hL : PlainCase S.lang) (hws : ∀ n ∈ S.ws, ValidName n) {d : FsTree}
    (hd : WellFormed d) {as : List Answer} (h : (initWorkspace S template ⟨d, as, []⟩).2 = true)
    (hq1 : (.schemas, true) ∈ (initWorkspace S template ⟨d, as, []⟩).1.log)
    (hq2 : (.entities, true) ∈ (initWorkspace S template ⟨d, as, []⟩).1.log)
    (hn1 : (.overwriteSchemas, false) ∉ (initWorkspace S template ⟨d, as, []⟩).1.log)
    (hn2 : (.overwriteMain, false) ∉ (initWorkspace S template ⟨d, as, []⟩).1.log) :
    ∀ type text, (type, text) ∈ exampleSchemas →
      Has (initWorkspace S template ⟨d, as, []⟩).1.disk (S.ws ++ ["schemas".toList, type ++ ".firm".toList]) (.file (some text)) := by
  obtain ⟨f1, -⟩ := init_files hL hws h hq1 hq2 hn1 hn2
  intro type text hm
  rw [← C170_texts hL] at hm
  obtain ⟨sc, hsc, he⟩ := List.mem_map.1 hm
  cases he
  have := f1 sc hsc
  rw [schemaPlace_loc] at this
  exact (has_iff_lookup (init_wf hL hws hd template as)).2 (leafAt_eq_some.1 this).1

/-- C170: whatever was answered, a file that init makes or changes under `schemas` is the one of the example workspace. -/
theorem C170_changed {S : Shell} {template : Str} (hL : PlainCase S.lang) (hws : ∀ n ∈ S.ws, ValidName n) {d : FsTree}
    (hd : WellFormed d) {as : List Answer} {name : Str} {u : FsTree} (hu : NotDir u)
    (h : Has (initWorkspace S template ⟨d, as, []⟩).1.disk (S.ws ++ ["schemas".toList, name]) u)
    (hnew : ¬ Has d (S.ws ++ ["schemas".toList, name]) u) :
    ∃ type text, (type, text) ∈ exampleSchemas ∧ name = type ++ ".firm".toList ∧ u = .file (some text) := by
  have hwf := init_wf hL hws hd template as
  have ht := (init_part template hL hws ⟨d, as, []⟩).touched (S.ws ++ ["schemas".toList, name])
  generalize initWorkspace S template ⟨d, as, []⟩ = r at *
  have h0 : leafAt r.1.disk (S.ws ++ ["schemas".toList, name]) = some u :=
    leafAt_eq_some.2 ⟨(has_iff_lookup hwf).1 h, hu⟩
  have hone : ∀ x : Str, S.ws ++ ["schemas".toList, name] ≠ S.ws ++ [x] := fun x hx => by
    have := List.append_cancel_left hx
    cases this
  dsimp only at ht
  rw [h0] at ht
  generalize hl : S.ws ++ ["schemas".toList, name] = l at ht
  generalize hv : leafAt d l = v at ht
  generalize ho : some u = u' at ht
  cases ht with
  | same =>
    rw [← ho, ← hl] at hv
    exact absurd ((has_iff_lookup hd).2 (leafAt_eq_some.1 hv).1) hnew
  | schema sc _ h1 _ =>
    cases ho
    refine ⟨sc.entityType, _, C170_texts hL ▸ List.mem_map_of_mem h1, ?_, rfl⟩
    have := List.append_cancel_left (hl.trans (schemaPlace_loc S.ws sc))
    unfold schemaLoc at this
    injection this with _ this
    injection this
  | created => exact absurd hl (hone _)
  | extended => exact absurd hl (hone _)
  | main => exact absurd hl (hone _)
  | context => exact absurd hl (hone _)

/-! ## Names of fields -/

/-- C170: in the default schemas, exactly the references have names that end in `_ref`, and names that end in `_refs` are lists.
Missing: `secondary_contacts_ref`, which is a list (`C170_contacts`). -/
theorem C170_references_partial {L : Lang} (hL : PlainCase L) {sc : EntitySchema} (hsc : sc ∈ defaultSchemas L)
    {p : FieldId × FieldSchema} (hp : p ∈ sc.fields) (hne : p.1 ≠ "secondary_contacts_ref".toList) :
    (p.2.fieldType = .reference ↔ "_ref".toList <:+ p.1) ∧ ("_refs".toList <:+ p.1 → p.2.fieldType = .list) := by
  rw [defaultSchemas_plain hL] at hsc
  have key : ∀ sc ∈ defaultSchemas exLang, ∀ p ∈ sc.fields, p.1 ≠ "secondary_contacts_ref".toList →
    (p.2.fieldType = .reference ↔ "_ref".toList <:+ p.1) ∧ ("_refs".toList <:+ p.1 → p.2.fieldType = .list) := by
    decide +kernel
  exact key sc hsc p hp hne

/-- C170 is false for one field of interactions. -/
theorem C170_contacts {L : Lang} (hL : PlainCase L) : ∃ sc ∈ defaultSchemas L, ∃ p ∈ sc.fields, sc.entityType = "interaction".toList ∧
    "_ref".toList <:+ p.1 ∧ p.2.fieldType = .list := by
  rw [defaultSchemas_plain hL]
  decide +kernel

example : PlainCase exLang ∧ exampleSchemas.length = 16 := ⟨exLang_plain, rfl⟩

-- an init of an empty directory with a schema the disk did not have before
example :
    (let d : FsTree := .dir (some [("w".toList, .dir (some []))])
     let r := initWorkspace exShell "T".toList ⟨d,
        [.yes true, .yes true, .yes true, .text "John Doe".toList, .text "Acme".toList, .yes true], []⟩
     r.2 = true ∧ (.schemas, true) ∈ r.1.log ∧ (.entities, true) ∈ r.1.log ∧ (.overwriteSchemas, false) ∉ r.1.log ∧
       (.overwriteMain, false) ∉ r.1.log ∧ d.readText (exShell.ws ++ ["schemas".toList, "person.firm".toList]) = none ∧
       (r.1.disk.readText (exShell.ws ++ ["schemas".toList, "person.firm".toList])).isSome) := by
  decide +kernel

end Firm
