import Verif.Props.NewWorkspace
import Verif.Props.Causes

/-!
# C151: following the advice to run `firm init`
-/

namespace Firm
open Spec

/-! ## The specification -/

/-- The types of the schemas in one firm file, as far as they can be read. -/
def Spec.typesIn (L : Lang) (grammar : Str → Node) (loc : List Str) (text : Str) : List EntityType :=
  ((grammar text).children.filter fun c => c.kind = "schema_block".toList).filterMap fun n =>
    match toSchema L (joinWith ['/'] loc) n with
    | .ok s => some s.entityType
    | .error _ => none

/-- The schemas outside the files of the default schemas can be read, are of other types than those and each of another
type. -/
structure Spec.OwnSchemas (L : Lang) (grammar : Str → Node) (ws : List Str) (d : FsTree) : Prop where
  readable : ∀ loc text, FirmFile d ws loc text → ¬ SchemaFile ws (ws ++ loc) →
    ∀ n ∈ (grammar text).children, n.kind = "schema_block".toList → ∃ s, toSchema L (joinWith ['/'] loc) n = .ok s
  other : ∀ loc text, FirmFile d ws loc text → ¬ SchemaFile ws (ws ++ loc) →
    ∀ t ∈ builtInTypes, t.toList ∉ typesIn L grammar loc text
  once : ∀ loc text, FirmFile d ws loc text → ¬ SchemaFile ws (ws ++ loc) → (typesIn L grammar loc text).Nodup
  apart : ∀ loc text loc' text', FirmFile d ws loc text → FirmFile d ws loc' text' → loc ≠ loc' →
    ¬ SchemaFile ws (ws ++ loc) → ¬ SchemaFile ws (ws ++ loc') →
    ∀ t ∈ typesIn L grammar loc text, t ∉ typesIn L grammar loc' text'

/-- An entity is at fault: it cannot be read, there is no schema of its type, which is not a built-in one, or it does not
conform to a schema of its type. -/
def Spec.EntityFault (L : Lang) (w : Workspace) : Prop :=
  ∃ b ∈ blocksOf "entity_block" w, (∀ e, toEntity L b.1 b.2 ≠ .ok e) ∨ ∃ e, toEntity L b.1 b.2 = .ok e ∧
    (e.entityType ∉ builtInTypes.map String.toList ∨ ∃ a ∈ blocksOf "schema_block" w, ∃ s, toSchema L a.1 a.2 = .ok s ∧
      s.entityType = e.entityType ∧ ¬ Conforms L.env s e)

/-! ## The files after `firm init` -/

section
variable {S : Shell} {template : Str} {d : FsTree} {as : List Answer}

theorem init_schemas (hL : PlainCase S.lang) (hws : ∀ n ∈ S.ws, ValidName n)
    (h : (initWorkspace S template ⟨d, as, []⟩).2 = true)
    (hq1 : (.schemas, true) ∈ (initWorkspace S template ⟨d, as, []⟩).1.log)
    (hn1 : (.overwriteSchemas, false) ∉ (initWorkspace S template ⟨d, as, []⟩).1.log) :
    ∀ sc ∈ defaultSchemas S.lang, leafAt (initWorkspace S template ⟨d, as, []⟩).1.disk (schemaPlace S.ws sc.entityType) =
      some (.file (some (generateSchema .default sc))) := by
  obtain ⟨b, rest, b', rest', b'', rest'', s1, r1, r2, s3, r3, s4, r4, e1, m1, e2, h2, e3, h3, e4, m2, e5, h5, e6, e7, h7, e8⟩ :=
    init_success h
  rw [e8] at hq1 hn1 ⊢
  have a1 : Questioned [.overwriteSchemas] s1 r1.1 := by rw [e2]; exact asked_if (asked_schemas S s1)
  obtain ⟨p2, -, p2'⟩ := updateGitignore_spec hws r1.1
  rw [← e3] at p2 p2'
  have p3 : Change (fun l => l = S.ws ++ ["main.firm".toList]) s3 r3.1 := by
    rw [e5]
    cases b' with
    | false => exact .refl _ _
    | true => exact (createDefaultEntities_spec hws s3).1
  have a3 : Questioned [.overwriteMain] s3 r3.1 := by rw [e5]; exact asked_if (asked_entities S s3)
  have p4 : Change (fun l => l = S.ws ++ ["AGENTS.md".toList]) s4 r4.1 := by
    rw [e7]
    cases b'' with
    | false => exact .refl _ _
    | true => exact (createContext_spec template hws s4).1
  have a4 : Questioned [.overwriteContext] s4 r4.1 := by rw [e7]; exact asked_if (asked_context S template s4)
  obtain ⟨q, b0, hlog, hq0, -⟩ := p2' h3
  have up1 : ∀ x ∈ r1.1.log, x ∈ r4.1.log := fun x hx => p4.mem_log (by
    rw [e6]
    exact List.mem_append_left _ (p3.mem_log (by rw [e4]; exact List.mem_append_left _ (p2.mem_log hx))))
  have hb1 : b = true := by
    rcases a4 _ hq1 with hm | hm
    · rw [e6] at hm
      rcases List.mem_append.1 hm with hm | hm
      · rcases a3 _ hm with hm | hm
        · rw [e4] at hm
          rcases List.mem_append.1 hm with hm | hm
          · rw [hlog] at hm
            rcases List.mem_append.1 hm with hm | hm
            · rcases a1 _ hm with hm | hm
              · rw [e1] at hm
                exact (Prod.mk.inj (List.mem_singleton.1 hm)).2.symm
              · cases List.mem_singleton.1 hm
            · have := (Prod.mk.inj (List.mem_singleton.1 hm)).1
              rcases hq0 with rfl | rfl <;> cases this
          · cases (Prod.mk.inj (List.mem_singleton.1 hm)).1
        · cases List.mem_singleton.1 hm
      · cases (Prod.mk.inj (List.mem_singleton.1 hm)).1
    · cases List.mem_singleton.1 hm
  subst hb1
  rw [if_pos rfl] at e2
  intro sc hsc
  rw [p4.rest _ (schemaPlace_ne _ _ _), e6]
  dsimp only
  rw [p3.rest _ (schemaPlace_ne _ _ _), e4]
  dsimp only
  rw [p2.rest _ (schemaPlace_ne _ _ _), e2]
  rw [e2] at h2 up1
  exact (createDefaultSchemas_spec hL hws s1).2.2 h2 (fun hh => hn1 (up1 _ hh)) sc hsc

theorem leaf_same {r : FsTree} (hwf : WellFormed r) {l : List Str} {t t' : Str} (h1 : leafAt r l = some (.file (some t)))
    (h2 : Has r l (.file (some t'))) : t' = t := by
  have h2' := leafAt_eq_some.2 ⟨(has_iff_lookup hwf).1 h2, by rintro es ⟨⟩⟩
  rw [h1] at h2'
  cases h2'
  rfl

theorem schemaFile_schema (hL : PlainCase S.lang) {loc : List Str} (h : SchemaFile S.ws (S.ws ++ loc)) :
    ∃ sc ∈ defaultSchemas S.lang, loc = schemaLoc sc := by
  obtain ⟨t, ht, he⟩ := h
  have hm : t.toList ∈ (defaultSchemas S.lang).map (·.entityType) := (C107_types hL).1 ▸ List.mem_map_of_mem ht
  obtain ⟨sc, hsc, hst⟩ := List.mem_map.1 hm
  exact ⟨sc, hsc, by rw [List.append_cancel_left he]; unfold schemaLoc; rw [hst]⟩

/-- A firm file after the command is a schema file with a default schema, the new main.firm or a file from before. -/
theorem init_firmFile (hL : PlainCase S.lang) (hws : ∀ n ∈ S.ws, ValidName n) (hd : WellFormed d)
    (h : (initWorkspace S template ⟨d, as, []⟩).2 = true)
    (hq1 : (.schemas, true) ∈ (initWorkspace S template ⟨d, as, []⟩).1.log)
    (hn1 : (.overwriteSchemas, false) ∉ (initWorkspace S template ⟨d, as, []⟩).1.log) {loc : List Str} {text : Str}
    (hf : FirmFile (initWorkspace S template ⟨d, as, []⟩).1.disk S.ws loc text) :
    (∃ sc ∈ defaultSchemas S.lang, loc = schemaLoc sc ∧ text = generateSchema .default sc) ∨
    (¬ SchemaFile S.ws (S.ws ++ loc) ∧ ((∃ person org, Answer.text person ∈ as ∧ Answer.text org ∈ as ∧
      loc = ["main.firm".toList] ∧ text = mainText S person org) ∨ FirmFile d S.ws loc text)) := by
  have f1 := init_schemas hL hws h hq1 hn1
  have hwf := init_wf hL hws hd template as
  have ht := (init_part template hL hws ⟨d, as, []⟩).touched
  generalize initWorkspace S template ⟨d, as, []⟩ = r at *
  by_cases hs : SchemaFile S.ws (S.ws ++ loc)
  · obtain ⟨sc, hsc, rfl⟩ := schemaFile_schema hL hs
    have := f1 sc hsc
    rw [schemaPlace_loc] at this
    exact .inl ⟨sc, hsc, rfl, leaf_same hwf this hf.2⟩
  refine .inr ⟨hs, ?_⟩
  obtain ⟨⟨dirs, n, hloc, hname⟩, hh⟩ := hf
  have hleaf := leafAt_eq_some.2 ⟨(has_iff_lookup hwf).1 hh, by rintro es ⟨⟩⟩
  have htl := ht (S.ws ++ loc)
  rw [hleaf] at htl
  have hlast : ∀ x : Str, S.ws ++ loc = S.ws ++ [x] → x.getLast? = some 'm' := by
    intro x hx
    have := List.append_cancel_left hx
    rw [hloc] at this
    have := (List.append_inj' (this.trans (List.nil_append [x]).symm) rfl).2
    simp only [List.cons.injEq, and_true] at this
    rw [← this]
    exact firmName_ext hname
  generalize hl : S.ws ++ loc = l at htl
  generalize hu : some (FsTree.file (some text)) = u at htl
  generalize hv : leafAt d l = v at htl
  cases htl with
  | same =>
    rw [← hl, ← hu] at hv
    exact .inr ⟨⟨dirs, n, hloc, hname⟩, (has_iff_lookup hd).2 (leafAt_eq_some.1 hv).1⟩
  | schema sc _ hsc => exact absurd (hl ▸ schemaFile_of hL hsc) hs
  | created => exact absurd (hlast _ hl) (by decide)
  | extended => exact absurd (hlast _ hl) (by decide)
  | main _ p o _ _ k1 k2 =>
    cases hu
    exact .inl ⟨p, o, k1, k2, List.append_cancel_left hl, rfl⟩
  | context => exact absurd (hlast _ hl) (by decide)

/-- The default schemas are firm files after the command. -/
theorem init_schemaFile (hL : PlainCase S.lang) (hws : ∀ n ∈ S.ws, ValidName n) (hd : WellFormed d)
    (h : (initWorkspace S template ⟨d, as, []⟩).2 = true)
    (hq1 : (.schemas, true) ∈ (initWorkspace S template ⟨d, as, []⟩).1.log)
    (hn1 : (.overwriteSchemas, false) ∉ (initWorkspace S template ⟨d, as, []⟩).1.log) {sc : EntitySchema}
    (hsc : sc ∈ defaultSchemas S.lang) :
    FirmFile (initWorkspace S template ⟨d, as, []⟩).1.disk S.ws (schemaLoc sc) (generateSchema .default sc) := by
  refine ⟨⟨["schemas".toList], _, rfl, firmName_type ?_⟩, ?_⟩
  · intro h0
    have hm : sc.entityType ∈ builtInTypes.map String.toList := (C107_types hL).1 ▸ List.mem_map_of_mem hsc
    rw [h0] at hm
    revert hm
    decide
  · rw [← schemaPlace_loc]
    exact (has_iff_lookup (init_wf hL hws hd template as)).2 (leafAt_eq_some.1 (init_schemas hL hws h hq1 hn1 sc hsc)).1

/-! ## The missing schema is found -/

/-- C151: after a successful `firm init` in which the schemas were accepted and their overwriting was not declined, no
build fails because of a missing schema of a built-in type, for which the error gives the advice. Assumed: the grammar reads
the schema files as the trees of `C55_tree`. -/
theorem C151_found (hL : PlainCase S.lang) (hws : ∀ n ∈ S.ws, ValidName n) (hd : WellFormed d) (grammar : Str → Node)
    (h : (initWorkspace S template ⟨d, as, []⟩).2 = true)
    (hq1 : (.schemas, true) ∈ (initWorkspace S template ⟨d, as, []⟩).1.log)
    (hn1 : (.overwriteSchemas, false) ∉ (initWorkspace S template ⟨d, as, []⟩).1.log)
    (hg : ∀ sc ∈ defaultSchemas S.lang, (grammar (generateSchema .default sc)).children = [schemaNode .default sc])
    {w : Workspace} (hw : LoadsAs grammar S.ws (initWorkspace S template ⟨d, as, []⟩).1.disk w) {t : String}
    (ht : t ∈ builtInTypes) (path : Str) : w.build S.lang ≠ .error (.missingSchema path t.toList) := by
  have hm : t.toList ∈ (defaultSchemas S.lang).map (·.entityType) := (C107_types hL).1 ▸ List.mem_map_of_mem ht
  obtain ⟨sc, hsc, hst⟩ := List.mem_map.1 hm
  rw [← hst]
  have hf := init_schemaFile hL hws hd h hq1 hn1 hsc
  have hb : (joinWith ['/'] (schemaLoc sc), schemaNode .default sc) ∈ blocksOf "schema_block" w := by
    refine List.mem_flatMap.2 ⟨_, (hw.2 _ _).2 ⟨_, _, hf, rfl, rfl⟩, List.mem_map.2 ⟨schemaNode .default sc, ?_, rfl⟩⟩
    rw [List.mem_filter, hg sc hsc]
    exact ⟨by simp, by rfl⟩
  exact (C46_same_name_partial S.lang w sc.entityType (snake_fixed hL.regular ((C107_types hL).2.2 sc hsc))
    _ hb rfl).1 path

/-! ## The types of a workspace -/

/-- The type of a block. -/
def blockType (L : Lang) (b : Str × Node) : Option EntityType :=
  match toSchema L b.1 b.2 with
  | .ok s => some s.entityType
  | .error _ => none

theorem typesIn_eq (L : Lang) (grammar : Str → Node) (loc : List Str) (text : Str) :
    typesIn L grammar loc text = (blocksOf "schema_block" [(([] : Str), (⟨grammar text, joinWith ['/'] loc⟩ : SourceFile))]).filterMap
      (blockType L) := by
  unfold typesIn blocksOf
  rw [List.flatMap_singleton, List.filterMap_map]
  rfl

theorem forall₂_blockType {L : Lang} {bs : List (Str × Node)} {ss : List EntitySchema}
    (h : List.Forall₂ (fun b s => toSchema L b.1 b.2 = .ok s) bs ss) : bs.filterMap (blockType L) = ss.map (·.entityType) := by
  induction h with
  | nil => rfl
  | @cons b s bs ss hr _ ih =>
    have : blockType L b = some s.entityType := by unfold blockType; rw [hr]
    rw [List.filterMap_cons_some this, ih]
    rfl

theorem blocks_types (L : Lang) (w : Workspace) : (blocksOf "schema_block" w).filterMap (blockType L) =
    w.flatMap fun p => (blocksOf "schema_block" [p]).filterMap (blockType L) := by
  unfold blocksOf
  rw [List.filterMap_flatMap]
  refine List.flatMap_congr fun p _ => ?_
  rw [List.flatMap_singleton]

theorem typesIn_file (L : Lang) (grammar : Str → Node) (path : Str) (loc : List Str) (text : Str) :
    typesIn L grammar loc text = (blocksOf "schema_block" [(path, (⟨grammar text, joinWith ['/'] loc⟩ : SourceFile))]).filterMap
      (blockType L) := typesIn_eq L grammar loc text

theorem typesIn_schema (hL : PlainCase S.lang) {grammar : Str → Node}
    (hg : ∀ sc ∈ defaultSchemas S.lang, (grammar (generateSchema .default sc)).children = [schemaNode .default sc])
    {sc : EntitySchema} (hsc : sc ∈ defaultSchemas S.lang) {loc : List Str} :
    typesIn S.lang grammar loc (generateSchema .default sc) = [sc.entityType] := by
  obtain ⟨s', k1, k2, -⟩ := C107_read hL hsc (List.Perm.refl sc.fields) .default (joinWith ['/'] loc)
  unfold typesIn
  rw [hg sc hsc]
  show List.filterMap _ [schemaNode .default sc] = _
  rw [List.filterMap_cons_some (b := sc.entityType) ?_]
  · rfl
  · rw [k1]
    exact congrArg some k2

/-- C151 is false of a workspace with an own schema of a built-in type in another file: after `firm init` no build
succeeds any more. -/
theorem C151_clash (hL : PlainCase S.lang) (hws : ∀ n ∈ S.ws, ValidName n) (hd : WellFormed d) (grammar : Str → Node)
    (h : (initWorkspace S template ⟨d, as, []⟩).2 = true)
    (hq1 : (.schemas, true) ∈ (initWorkspace S template ⟨d, as, []⟩).1.log)
    (hn1 : (.overwriteSchemas, false) ∉ (initWorkspace S template ⟨d, as, []⟩).1.log)
    (hg : ∀ sc ∈ defaultSchemas S.lang, (grammar (generateSchema .default sc)).children = [schemaNode .default sc])
    {w : Workspace} (hw : LoadsAs grammar S.ws (initWorkspace S template ⟨d, as, []⟩).1.disk w)
    {loc : List Str} {text : Str} (hf : FirmFile d S.ws loc text) (hs : ¬ SchemaFile S.ws (S.ws ++ loc))
    (hmain : loc ≠ ["main.firm".toList]) {t : String} (ht : t ∈ builtInTypes)
    (hown : t.toList ∈ typesIn S.lang grammar loc text) (b : WorkspaceBuild) : w.build S.lang ≠ .ok b := by
  intro hb
  have hv := (C41_build S.lang w b.entities b.schemas).1 hb
  have hnd := hv.oneSchema
  rw [← forall₂_blockType hv.schemas, blocks_types, List.nodup_flatMap] at hnd
  have hm : t.toList ∈ (defaultSchemas S.lang).map (·.entityType) := (C107_types hL).1 ▸ List.mem_map_of_mem ht
  obtain ⟨sc, hsc, hst⟩ := List.mem_map.1 hm
  have hf1 := init_schemaFile hL hws hd h hq1 hn1 hsc
  have hf2 : FirmFile (initWorkspace S template ⟨d, as, []⟩).1.disk S.ws loc text := by
    obtain ⟨dirs, n, hloc, hname⟩ := hf.1
    have hlast : ∀ x : Str, S.ws ++ loc = S.ws ++ [x] → x.getLast? = some 'm' := by
      intro x hx
      have := List.append_cancel_left hx
      rw [hloc] at this
      have := (List.append_inj' (this.trans (List.nil_append [x]).symm) rfl).2
      simp only [List.cons.injEq, and_true] at this
      rw [← this]
      exact firmName_ext hname
    refine ⟨hf.1, ?_⟩
    rcases C105_kept (template := template) (as := as) hL hws hd (by rintro es ⟨⟩) hf.2 with k | k | k | k | k
    · exact k
    · exact absurd k.1 hs
    · exact absurd (List.append_cancel_left k.1) hmain
    · exact absurd (hlast _ k.1) (by decide)
    · exact absurd (hlast _ k.1) (by decide)
  have hp1 := (hw.2 _ _).2 ⟨_, _, hf1, rfl, rfl⟩
  have hp2 := (hw.2 _ _).2 ⟨_, _, hf2, rfl, rfl⟩
  have hne : schemaLoc sc ≠ loc := by
    rintro rfl
    exact hs (schemaPlace_loc S.ws sc ▸ schemaFile_of hL hsc)
  have hpne : (('/' :: joinWith ['/'] (S.ws ++ schemaLoc sc), ⟨grammar (generateSchema .default sc),
      joinWith ['/'] (schemaLoc sc)⟩) : Str × SourceFile) ≠ ('/' :: joinWith ['/'] (S.ws ++ loc), ⟨grammar text,
      joinWith ['/'] loc⟩) := by
    intro he
    have h1 := (List.cons.inj (Prod.mk.inj he).1).2
    refine hne (locText_inj (by rw [← schemaPlace_loc]; exact schemaPlace_valid hL hws hsc) (fun n hn => ?_)
      (by simp [schemaLoc]) ?_ h1)
    · exact (lookup_valid (init_wf hL hws hd template as) ((has_iff_lookup (init_wf hL hws hd template as)).1 hf2.2)).2 n hn
    · obtain ⟨dirs, n, hloc, -⟩ := hf.1
      rw [hloc]
      simp
  have : Std.Symm (Function.onFun List.Disjoint fun p => (blocksOf "schema_block" [p]).filterMap (blockType S.lang)) :=
    ⟨fun _ _ h _ h1 h2 => h h2 h1⟩
  have hdis := hnd.2.forall hp1 hp2 hpne
  refine hdis (a := t.toList) ?_ ?_
  · dsimp only
    rw [← typesIn_file, typesIn_schema hL hg hsc, hst]
    simp
  · dsimp only
    rw [← typesIn_file]
    exact hown

/-- C151, in part: if the schemas outside the schema files can be read, none of them is of a built-in type and no two are of
one type, then after `firm init` a build fails only because of an entity, and not because an entity of a built-in type has no
schema. Missing for the full claim: own schemas of built-in types (`C151_clash`). Assumed: the grammar reads the schema files
as the trees of `C55_tree` and finds no schemas in the new main.firm. -/
theorem C151_entities_partial (hL : PlainCase S.lang) (hws : ∀ n ∈ S.ws, ValidName n) (hd : WellFormed d) (grammar : Str → Node)
    (h : (initWorkspace S template ⟨d, as, []⟩).2 = true)
    (hq1 : (.schemas, true) ∈ (initWorkspace S template ⟨d, as, []⟩).1.log)
    (hn1 : (.overwriteSchemas, false) ∉ (initWorkspace S template ⟨d, as, []⟩).1.log)
    (hg : ∀ sc ∈ defaultSchemas S.lang, (grammar (generateSchema .default sc)).children = [schemaNode .default sc])
    (hgm : ∀ person org, Answer.text person ∈ as → Answer.text org ∈ as →
      ∀ n ∈ (grammar (mainText S person org)).children, n.kind ≠ "schema_block".toList)
    {w : Workspace} (hw : LoadsAs grammar S.ws (initWorkspace S template ⟨d, as, []⟩).1.disk w)
    (hown : OwnSchemas S.lang grammar S.ws d) {x : WorkspaceError} (hb : w.build S.lang = .error x) (hx : x ≠ .panic) :
    EntityFault S.lang w := by
  have hwf := init_wf hL hws hd template as
  -- the types of one file
  have hcase : ∀ path f, (path, f) ∈ w → ∃ loc text, FirmFile (initWorkspace S template ⟨d, as, []⟩).1.disk S.ws loc text ∧
      path = '/' :: joinWith ['/'] (S.ws ++ loc) ∧ f = ⟨grammar text, joinWith ['/'] loc⟩ ∧
      ((∃ sc ∈ defaultSchemas S.lang, loc = schemaLoc sc ∧ text = generateSchema .default sc) ∨
        ¬ SchemaFile S.ws (S.ws ++ loc) ∧ ((∀ n ∈ (grammar text).children, n.kind ≠ "schema_block".toList) ∨
          FirmFile d S.ws loc text)) := by
    intro path f hm
    obtain ⟨loc, text, hf, h1, h2⟩ := (hw.2 _ _).1 hm
    refine ⟨loc, text, hf, h1, h2, ?_⟩
    rcases init_firmFile hL hws hd h hq1 hn1 hf with k | ⟨k, ⟨p, o, k1, k2, -, rfl⟩ | k2⟩
    · exact .inl k
    · exact .inr ⟨k, .inl (hgm p o k1 k2)⟩
    · exact .inr ⟨k, .inr k2⟩
  have hnil : ∀ {loc : List Str} {text : Str}, (∀ n ∈ (grammar text).children, n.kind ≠ "schema_block".toList) →
      typesIn S.lang grammar loc text = [] := by
    intro loc text hk
    unfold typesIn
    rw [List.filter_eq_nil_iff.2 fun n hn hh => hk n hn (of_decide_eq_true hh)]
    rfl
  have hread : ∀ path f, (path, f) ∈ w → ∀ n ∈ fileBlocks "schema_block" f, ∃ s, toSchema S.lang f.rel n = .ok s := by
    intro path f hm n hn
    obtain ⟨loc, text, -, -, rfl, hc⟩ := hcase path f hm
    have hn' : n ∈ (grammar text).children ∧ n.kind = "schema_block".toList :=
      ⟨(List.mem_filter.1 hn).1, of_decide_eq_true (List.mem_filter.1 hn).2⟩
    rcases hc with ⟨sc, hsc, rfl, rfl⟩ | ⟨hs, hk | hk⟩
    · rw [hg sc hsc] at hn'
      rw [List.mem_singleton.1 hn'.1]
      obtain ⟨s', h1, -⟩ := C107_read hL hsc (List.Perm.refl sc.fields) .default (joinWith ['/'] (schemaLoc sc))
      exact ⟨s', h1⟩
    · exact absurd hn'.2 (hk n hn'.1)
    · exact hown.readable _ _ hk hs n hn'.1 hn'.2
  have hnd : ((blocksOf "schema_block" w).filterMap (blockType S.lang)).Nodup := by
    rw [blocks_types, List.nodup_flatMap]
    constructor
    · rintro ⟨path, f⟩ hm
      obtain ⟨loc, text, -, -, rfl, hc⟩ := hcase path f hm
      rw [← typesIn_file]
      rcases hc with ⟨sc, hsc, rfl, rfl⟩ | ⟨hs, hk | hk⟩
      · rw [typesIn_schema hL hg hsc]
        exact List.nodup_singleton _
      · rw [hnil hk]
        exact List.nodup_nil
      · exact hown.once _ _ hk hs
    · refine (hw.1.of_map _).pairwise_of_forall_ne ?_
      rintro ⟨path, f⟩ hm ⟨path', f'⟩ hm' hne
      obtain ⟨loc, text, hf, rfl, rfl, hc⟩ := hcase path f hm
      obtain ⟨loc', text', hf', rfl, rfl, hc'⟩ := hcase path' f' hm'
      have hloc : loc ≠ loc' := by
        rintro rfl
        have : text = text' := leaf_same hwf (leafAt_eq_some.2 ⟨(has_iff_lookup hwf).1 hf'.2, by rintro es ⟨⟩⟩) hf.2
        exact hne (by rw [this])
      have hbuilt : ∀ sc ∈ defaultSchemas S.lang, ∃ t ∈ builtInTypes, t.toList = sc.entityType := fun sc hsc =>
        List.mem_map.1 ((C107_types hL).1 ▸ List.mem_map_of_mem hsc)
      show List.Disjoint _ _
      dsimp only
      rw [← typesIn_file, ← typesIn_file]
      intro t ht ht'
      rcases hc with ⟨sc, hsc, rfl, rfl⟩ | ⟨hs, hk | hk⟩
      · rw [typesIn_schema hL hg hsc, List.mem_singleton] at ht
        rcases hc' with ⟨sc', hsc', rfl, rfl⟩ | ⟨hs', hk' | hk'⟩
        · rw [typesIn_schema hL hg hsc', List.mem_singleton] at ht'
          have : sc = sc' := List.inj_on_of_nodup_map (C107_types hL).2.1 hsc hsc' (ht.symm.trans ht')
          exact hloc (by rw [this])
        · rw [hnil hk'] at ht'
          cases ht'
        · obtain ⟨u, hu, hue⟩ := hbuilt sc hsc
          exact hown.other _ _ hk' hs' u hu (by rw [hue, ← ht]; exact ht')
      · rw [hnil hk] at ht
        cases ht
      · rcases hc' with ⟨sc', hsc', rfl, rfl⟩ | ⟨hs', hk' | hk'⟩
        · rw [typesIn_schema hL hg hsc', List.mem_singleton] at ht'
          obtain ⟨u, hu, hue⟩ := hbuilt sc' hsc'
          exact hown.other _ _ hk hs u hu (by rw [hue, ← ht']; exact ht)
        · rw [hnil hk'] at ht'
          cases ht'
        · exact hown.apart _ _ _ _ hk hk' hloc hs hs' t ht ht'
  -- the cause of the error
  have hsame := C150_same id S.lang w
  rw [hb] at hsame
  cases hbt : w.buildT id S.lang with
  | ok r => rw [hbt] at hsame; cases hsame
  | error y =>
    rw [hbt] at hsame
    have hy : y ≠ .panic := by
      rintro rfl
      exact hx (Except.error.inj hsame).symm
    have hmemb : ∀ {path : Str} {f : SourceFile} {n : Node}, (path, f) ∈ w → n ∈ fileBlocks "entity_block" f →
        (f.rel, n) ∈ blocksOf "entity_block" w := fun h1 h2 =>
      List.mem_flatMap.2 ⟨_, h1, List.mem_map.2 ⟨_, h2, rfl⟩⟩
    cases C150_cause_partial id S.lang w hbt hy with
    | schema h1 h2 h3 =>
      obtain ⟨s, hs⟩ := hread _ _ h1 _ h2
      exact absurd hs (h3 s)
    | @twice path f n pre post s s' b h1 h2 h3 h4 h5 h6 h7 =>
      exfalso
      rw [h3, List.filterMap_append] at hnd
      refine List.disjoint_of_nodup_append hnd (a := s.entityType) ?_ ?_
      · refine List.mem_filterMap.2 ⟨b, h5, ?_⟩
        unfold blockType
        rw [h6, ← h7]
      · refine List.mem_filterMap.2 ⟨(f.rel, n), by simp, ?_⟩
        unfold blockType
        rw [h4]
    | entity h1 h2 h3 => exact ⟨_, hmemb h1 h2, .inl h3⟩
    | @noSchema path f n e h1 h2 h3 h4 =>
      refine ⟨_, hmemb h1 h2, .inr ⟨e, h3, .inl fun hm => ?_⟩⟩
      rw [← (C107_types hL).1] at hm
      obtain ⟨sc, hsc, hst⟩ := List.mem_map.1 hm
      have hf := init_schemaFile hL hws hd h hq1 hn1 hsc
      obtain ⟨s', k1, k2, -⟩ := C107_read hL hsc (List.Perm.refl sc.fields) .default (joinWith ['/'] (schemaLoc sc))
      refine h4 (joinWith ['/'] (schemaLoc sc), schemaNode .default sc) ?_ s' k1 (k2.trans hst)
      refine List.mem_flatMap.2 ⟨_, (hw.2 _ _).2 ⟨_, _, hf, rfl, rfl⟩, List.mem_map.2 ⟨schemaNode .default sc, ?_, rfl⟩⟩
      rw [List.mem_filter, hg sc hsc]
      exact ⟨by simp, by rfl⟩
    | invalid h1 h2 h3 h4 h5 h6 h7 => exact ⟨_, hmemb h1 h2, .inr ⟨_, h3, .inr ⟨_, h4, _, h5, h6, h7⟩⟩⟩

end

/-! ## A workspace with an own schema of a built-in type -/

/-- A grammar that reads the default schemas, and `M` as a schema of persons and a task. -/
def exInitGrammar (text : Str) : Node :=
  if text = "M".toList then .mk "source_file".toList text [exSchemaNode "person" [], exEntityNode "task" "mail" []]
  else match (defaultSchemas exLang).find? fun sc => generateSchema .default sc = text with
    | some sc => .mk "source_file".toList text [schemaNode .default sc]
    | none => .mk "source_file".toList text []

theorem exInitGrammar_schema : ∀ sc ∈ defaultSchemas exLang,
    (exInitGrammar (generateSchema .default sc)).children = [schemaNode .default sc] := by
  intro sc hsc
  have hM : ∀ sc ∈ defaultSchemas exLang, generateSchema .default sc ≠ "M".toList := by decide +kernel
  unfold exInitGrammar
  rw [if_neg (hM sc hsc)]
  cases hf : (defaultSchemas exLang).find? fun sc' => generateSchema .default sc' = generateSchema .default sc with
  | none => exact absurd (List.find?_eq_none.1 hf sc hsc) (by simp)
  | some sc' =>
    have hn : ((defaultSchemas exLang).map (generateSchema .default)).Nodup := by decide +kernel
    have h1 := List.mem_of_find?_eq_some hf
    have h2 := List.find?_some hf
    have h3 := List.inj_on_of_nodup_map hn h1 hsc (by simpa using h2)
    subst h3
    rfl

/-- A workspace with one file. -/
def exOneFile (text : String) : FsTree := .dir (some [("w".toList, .dir (some [("model.firm".toList, .file (some text.toList))]))])

theorem exOneFile_wf (text : String) : WellFormed (exOneFile text) := by
  have h1 : ValidName "w".toList := ⟨by decide, by decide, by decide, by decide⟩
  have h2 : ValidName "model.firm".toList := ⟨by decide, by decide, by decide, by decide⟩
  refine .dir (List.nodup_singleton _) (fun p hp => ?_) fun p hp => ?_
  · rw [List.mem_singleton.1 hp]
    exact h1
  · rw [List.mem_singleton.1 hp]
    refine .dir (List.nodup_singleton _) (fun p hp => ?_) fun p hp => ?_
    · rw [List.mem_singleton.1 hp]
      exact h2
    · rw [List.mem_singleton.1 hp]
      exact .file _

theorem exOneFile_firm (text : String) (loc : List Str) (t : Str) :
    FirmFile (exOneFile text) ["w".toList] loc t ↔ loc = ["model.firm".toList] ∧ t = text.toList := by
  constructor
  · rintro ⟨-, h⟩
    cases h with
    | inside h1 h2 =>
      cases List.mem_singleton.1 h1
      cases h2 with
      | inside h3 h4 =>
        cases List.mem_singleton.1 h3
        cases h4
        exact ⟨rfl, rfl⟩
  · rintro ⟨rfl, rfl⟩
    exact ⟨⟨[], _, rfl, "model".toList, by decide, by decide⟩, .inside (List.mem_singleton.2 rfl) (.inside (List.mem_singleton.2 rfl) (.here _))⟩

/-- The answers of someone who wants the schemas only. -/
def exSchemaAnswers : List Answer := [.yes true, .yes true, .yes false, .yes false]

theorem exInit_run : (initWorkspace exShell [] ⟨exOneFile "M", exSchemaAnswers, []⟩).2 = true ∧
    (initWorkspace exShell [] ⟨exOneFile "M", exSchemaAnswers, []⟩).1.log =
      [(.schemas, true), (.createGitignore, true), (.entities, false), (.context, false)] := by decide +kernel

/-- C151 is false: the file has a schema of persons and a task without schema; the error advises `firm init`; when the
advice is followed, the workspace cannot be built any more, now because persons have two schemas. -/
theorem C151_worse :
    (∃ w : Workspace, LoadsAs exInitGrammar exShell.ws (exOneFile "M") w ∧
      w.buildT id exLang = .error (.missingSchema "/w/model.firm".toList "task".toList)) ∧
    AdvisesInit (faultText exLang (.missingSchema "/w/model.firm".toList "task".toList)) ∧
    ∀ w, LoadsAs exInitGrammar exShell.ws (initWorkspace exShell [] ⟨exOneFile "M", exSchemaAnswers, []⟩).1.disk w →
      ∀ b, w.build exLang ≠ .ok b := by
  refine ⟨⟨[("/w/model.firm".toList, ⟨exInitGrammar "M".toList, "model.firm".toList⟩)], ⟨by simp, fun path f => ?_⟩, ?_⟩,
    (C150_advice exLang_plain _ _).2 (by decide), fun w hw => ?_⟩
  · rw [List.mem_singleton]
    constructor
    · intro h
      cases h
      exact ⟨["model.firm".toList], "M".toList, (exOneFile_firm _ _ _).2 ⟨rfl, rfl⟩, by decide, rfl⟩
    · rintro ⟨loc, t, hf, rfl, rfl⟩
      obtain ⟨rfl, rfl⟩ := (exOneFile_firm _ _ _).1 hf
      rfl
  · decide +kernel
  · have hws : ∀ n ∈ exShell.ws, ValidName n := by
      intro n hn
      rw [List.mem_singleton.1 hn]
      exact ⟨by decide, by decide, by decide, by decide⟩
    have ht : "person".toList ∈ typesIn exLang exInitGrammar ["model.firm".toList] "M".toList := by decide +kernel
    refine C151_clash (S := exShell) exLang_plain hws (exOneFile_wf _) exInitGrammar exInit_run.1 (by rw [exInit_run.2]; decide)
      (by rw [exInit_run.2]; decide) exInitGrammar_schema hw ((exOneFile_firm _ _ _).2 ⟨rfl, rfl⟩) ?_ (by decide)
      (t := "person") (by decide) ht
    rintro ⟨t, -, he⟩
    have := congrArg List.length he
    simp [exShell] at this

/-- Not vacuous: a workspace with a schema of another type, from which the error leads to `firm init`. -/
example : (initWorkspace exShell [] ⟨exOneFile "N", exSchemaAnswers, []⟩).2 = true ∧
    (initWorkspace exShell [] ⟨exOneFile "N", exSchemaAnswers, []⟩).1.log =
      [(.schemas, true), (.createGitignore, true), (.entities, false), (.context, false)] := by decide +kernel

example : OwnSchemas exLang (fun text => if text = "N".toList then .mk "source_file".toList text
      [exSchemaNode "ghost" [], exEntityNode "task" "mail" []] else exInitGrammar text) exShell.ws (exOneFile "N") := by
  have hrel : ∀ loc text, FirmFile (exOneFile "N") exShell.ws loc text → loc = ["model.firm".toList] ∧ text = "N".toList :=
    fun loc text h => (exOneFile_firm _ _ _).1 h
  have hty : typesIn exLang (fun text => if text = "N".toList then .mk "source_file".toList text
      [exSchemaNode "ghost" [], exEntityNode "task" "mail" []] else exInitGrammar text) ["model.firm".toList] "N".toList =
      ["ghost".toList] := by decide +kernel
  constructor
  · intro loc text hf _ n hn hk
    obtain ⟨rfl, rfl⟩ := hrel _ _ hf
    rw [if_pos rfl] at hn
    rcases List.mem_cons.1 hn with rfl | hn
    · exact ⟨⟨"ghost".toList, []⟩, by decide +kernel⟩
    · rw [List.mem_singleton.1 hn] at hk
      exact absurd hk (by decide)
  · intro loc text hf _ t ht
    obtain ⟨rfl, rfl⟩ := hrel _ _ hf
    rw [hty]
    revert t
    decide
  · intro loc text hf _
    obtain ⟨rfl, rfl⟩ := hrel _ _ hf
    rw [hty]
    decide
  · intro loc text loc' text' hf hf' hne
    exact absurd ((hrel _ _ hf).1.trans (hrel _ _ hf').1.symm) hne

end Firm
