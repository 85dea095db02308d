import Verif.Lemmas.Workspace
import Verif.Props.Graph
import Verif.Props.Names
import Verif.Props.Filter

/-! # Properties of building a workspace (C41–C46) -/

namespace Firm

open Spec

/-! ## Sample trees -/

/-- A node without children. -/
def exLeaf (kind text : String) : Node := .mk kind.toList text.toList []

/-- The tree of `name = value` with a scalar value. -/
def exFieldNode (name kind text : String) : Node :=
  .mk "field".toList (name ++ " = " ++ text).toList
    [exLeaf "field_name" name, exLeaf "=" "=", .mk "value".toList text.toList [exLeaf kind text]]

/-- The tree of an entity block. -/
def exEntityNode (type id : String) (fields : List Node) : Node :=
  .mk "entity_block".toList [] [exLeaf "entity_type" type, exLeaf "entity_id" id,
    .mk "block".toList [] (exLeaf "{" "{" :: fields ++ [exLeaf "}" "}"])]

/-- The tree of a schema block; the fields are given by name, type and required flag. -/
def exSchemaNode (name : String) (fields : List (String × String × String)) : Node :=
  .mk "schema_block".toList [] [exLeaf "schema" "schema", exLeaf "schema_name" name,
    .mk "block".toList [] (fields.map fun f =>
      .mk "nested_block".toList [] [exLeaf "block_type" "field",
        .mk "block".toList [] [exFieldNode "name" "string" ("\"" ++ f.1 ++ "\""),
          exFieldNode "type" "string" ("\"" ++ f.2.1 ++ "\""),
          exFieldNode "required" "boolean" f.2.2]])]

/-- A source file with the given blocks. -/
def exFile (rel : String) (blocks : List Node) : Str × SourceFile :=
  (("/w/" ++ rel).toList, ⟨.mk "source_file".toList [] blocks, rel.toList⟩)

/-- A concrete surrounding: ASCII case data, UTC, the currencies EUR and USD, no floats. -/
def exLang : Lang where
  env := exEnv
  cases := asciiTable
  localOffset := 0
  knownCurrency c := c == "EUR".toList || c == "USD".toList
  parseF64 _ := none
  showF64 _ := []

/-- Two files: a schema and an entity in one, a second entity of that type in the other. -/
def exWorkspace : Workspace :=
  [exFile "a.firm" [exSchemaNode "person" [("name", "string", "true"), ("age", "integer", "false")],
      exEntityNode "person" "alice" [exFieldNode "name" "string" "\"Alice\""]],
   exFile "b.firm" [exEntityNode "person" "bob" [exFieldNode "name" "string" "\"Bob\"",
      exFieldNode "age" "number" "42"]]]

/-! ## C41 -/

/-- C41: a build succeeds with exactly these entities and schemas precisely when the workspace is valid
and consists of them (the schemas are a hash map's values in the code: their order is not meaningful). -/
theorem C41_build (L : Lang) (w : Workspace) (es : List Entity) (ss : List EntitySchema) :
    w.build L = .ok ⟨es, ss⟩ ↔ ValidWorkspace L w ss es := by
  have hpass : ∀ m', schemaPass L [] w = .ok m' ↔ _ := fun m' =>
    schemaPass_ok (L := L) (w := w) (acc := []) (m' := m') (by simp)
  simp only [List.nil_append] at hpass
  have hvals : ∀ ss : List EntitySchema, (keyed ss).map (·.2) = ss := fun ss => by
    simp [keyed, Function.comp_def]
  have hentity : ∀ ss : List EntitySchema, (ss.map (·.entityType)).Nodup → ∀ es,
      entityPass L (keyed ss) w = .ok es ↔
        List.Forall₂ (fun b e => toEntity L b.1 b.2 = .ok e) (blocksOf "entity_block" w) es ∧
        ∀ e ∈ es, ∃ s ∈ ss, s.entityType = e.entityType ∧ Conforms L.env s e := by
    intro ss hn es
    rw [entityPass_ok]
    have hget : ∀ t s, mapGet (keyed ss) t = some s ↔ s ∈ ss ∧ s.entityType = t := by
      intro t s
      rw [mapGet_some (by rw [keyed_keys]; exact hn)]
      simp only [keyed, List.mem_map, Prod.mk.injEq]
      constructor
      · rintro ⟨a, ha, rfl, rfl⟩; exact ⟨ha, rfl⟩
      · rintro ⟨h1, h2⟩; exact ⟨s, h1, h2, rfl⟩
    simp only [hget]
    simp only [and_assoc]
    generalize blocksOf "entity_block" w = bs
    induction bs generalizing es with
    | nil => simp only [List.forall₂_nil_left_iff]
             constructor
             · rintro rfl; simp
             · exact fun h => h.1
    | cons b bs ih =>
      cases es with
      | nil => simp
      | cons e es =>
        rw [List.forall₂_cons, List.forall₂_cons, List.forall_mem_cons]
        constructor
        · rintro ⟨⟨h1, s, h2, h3, h4⟩, h56⟩
          obtain ⟨h5, h6⟩ := (ih es).1 h56
          exact ⟨⟨h1, h5⟩, ⟨s, h2, h3, h4⟩, h6⟩
        · rintro ⟨⟨h1, h5⟩, ⟨s, h2, h3, h4⟩, h6⟩
          exact ⟨⟨h1, s, h2, h3, h4⟩, (ih es).2 ⟨h5, h6⟩⟩
  unfold Workspace.build
  constructor
  · intro h
    cases hs : schemaPass L [] w with
    | error e => simp [hs] at h
    | ok m =>
      obtain ⟨ss', h1, rfl, h3⟩ := (hpass m).1 hs
      simp only [hs] at h
      cases he : entityPass L (keyed ss') w with
      | error e => simp [he] at h
      | ok es' =>
        simp only [he, Except.ok.injEq, WorkspaceBuild.mk.injEq, hvals] at h
        obtain ⟨rfl, rfl⟩ := h
        obtain ⟨h4, h5⟩ := (hentity _ h3 _).1 he
        exact ⟨h1, h4, h3, h5⟩
  · rintro ⟨h1, h2, h3, h4⟩
    rw [(hpass (keyed ss)).2 ⟨ss, h1, rfl, h3⟩]
    simp only [(hentity ss h3 es).2 ⟨h2, h4⟩, hvals]

/-- C41: otherwise it fails. -/
theorem C41_fails (L : Lang) (w : Workspace) :
    (∃ err, w.build L = .error err) ↔ ¬ ∃ ss es, ValidWorkspace L w ss es := by
  constructor
  · rintro ⟨err, h⟩ ⟨ss, es, hv⟩
    rw [(C41_build L w es ss).2 hv] at h; simp at h
  · intro h
    cases hb : w.build L with
    | error e => exact ⟨e, rfl⟩
    | ok b => exact absurd ⟨b.schemas, b.entities, (C41_build L w _ _).1 hb⟩ h

/-- The two people of the sample workspace. -/
def exPeople : List Entity :=
  [⟨"person.alice".toList, "person".toList, [("name".toList, .string "Alice".toList)]⟩,
   ⟨"person.bob".toList, "person".toList, [("name".toList, .string "Bob".toList),
     ("age".toList, .integer 42)]⟩]

/-- The schema of the sample workspace. -/
def exPersonSchema : EntitySchema :=
  ⟨"person".toList, [("name".toList, ⟨.string, .required, 0, none⟩),
    ("age".toList, ⟨.integer, .optional, 1, none⟩)]⟩

theorem exWorkspace_build : exWorkspace.build exLang = .ok ⟨exPeople, [exPersonSchema]⟩ := by
  decide +kernel

example : ValidWorkspace exLang exWorkspace [exPersonSchema] exPeople :=
  (C41_build _ _ _ _).1 exWorkspace_build

/-- Without the schema the same entities are rejected. -/
example : ¬ ∃ ss es, ValidWorkspace exLang (exWorkspace.drop 1) ss es :=
  (C41_fails _ _).1 ⟨.missingSchema "/w/b.firm".toList "person".toList, by decide +kernel⟩

/-! ## C42 -/

/-- C42: a successful build has at most one schema per type, and every entity passes validation
against the schema of its type. -/
theorem C42_consistent (L : Lang) (w : Workspace) (b : WorkspaceBuild) (h : w.build L = .ok b) :
    (∀ s ∈ b.schemas, ∀ s' ∈ b.schemas, s.entityType = s'.entityType → s = s') ∧
    (b.schemas.map (·.entityType)).Nodup ∧
    ∀ e ∈ b.entities, (∃ s ∈ b.schemas, s.entityType = e.entityType) ∧
      ∀ s ∈ b.schemas, s.entityType = e.entityType → s.validate L.env e = .ok () := by
  have hv := (C41_build L w b.entities b.schemas).1 h
  have huniq : ∀ s ∈ b.schemas, ∀ s' ∈ b.schemas, s.entityType = s'.entityType → s = s' := by
    intro s hs s' hs' ht
    exact List.inj_on_of_nodup_map hv.oneSchema hs hs' ht
  refine ⟨huniq, hv.oneSchema, fun e he => ?_⟩
  obtain ⟨s, hs, ht, hc⟩ := hv.checked e he
  refine ⟨⟨s, hs, ht⟩, fun s' hs' ht' => ?_⟩
  rw [huniq s' hs' s hs (ht'.trans ht.symm)]
  exact (C15_verdict _ _ _).2 hc

example : ∀ e ∈ exPeople, exPersonSchema.validate exEnv e = .ok () := fun e he =>
  ((C42_consistent _ _ _ exWorkspace_build).2.2 e he).2 exPersonSchema (by simp)
    (by revert e; decide)

/-! ## C43 -/

theorem forall₂_perm {α β : Type} {f : α → Except ε β} {l l' : List α} (hp : l.Perm l') {u : List β}
    (h : List.Forall₂ (fun a b => f a = .ok b) l u) :
    ∃ u', List.Forall₂ (fun a b => f a = .ok b) l' u' ∧ u.Perm u' := by
  induction hp generalizing u with
  | nil => exact ⟨[], .nil, by cases h; exact .nil⟩
  | cons a _ ih =>
    obtain ⟨b, u, h1, h2, rfl⟩ := List.forall₂_cons_left_iff.1 h
    obtain ⟨u', h3, h4⟩ := ih h2
    exact ⟨b :: u', .cons h1 h3, h4.cons b⟩
  | swap a c l =>
    obtain ⟨b, u, h1, h2, rfl⟩ := List.forall₂_cons_left_iff.1 h
    obtain ⟨d, u, h3, h4, rfl⟩ := List.forall₂_cons_left_iff.1 h2
    exact ⟨d :: b :: u, .cons h3 (.cons h1 h4), .swap d b u⟩
  | trans _ _ ih1 ih2 =>
    obtain ⟨u1, h1, h2⟩ := ih1 h
    obtain ⟨u2, h3, h4⟩ := ih2 h1
    exact ⟨u2, h3, h2.trans h4⟩

/-- C43: if a workspace builds, it builds under every enumeration of its files, with the same
entities and schemas up to order. -/
theorem C43_order (L : Lang) (w w' : Workspace) (hp : w.Perm w') (b : WorkspaceBuild)
    (h : w.build L = .ok b) :
    ∃ b', w'.build L = .ok b' ∧ b.entities.Perm b'.entities ∧ b.schemas.Perm b'.schemas := by
  have hv := (C41_build L w b.entities b.schemas).1 h
  have hblocks : ∀ k, (blocksOf k w).Perm (blocksOf k w') := fun k => hp.flatMap_right _
  obtain ⟨ss, hs1, hs2⟩ := forall₂_perm (f := fun b : Str × Node => toSchema L b.1 b.2) (hblocks _) hv.schemas
  obtain ⟨es, he1, he2⟩ := forall₂_perm (f := fun b : Str × Node => toEntity L b.1 b.2) (hblocks _) hv.entities
  refine ⟨⟨es, ss⟩, (C41_build _ _ _ _).2 ⟨hs1, he1, ?_, ?_⟩, he2, hs2⟩
  · exact (hs2.map _).nodup_iff.1 hv.oneSchema
  · intro e he
    obtain ⟨s, h1, h2⟩ := hv.checked e (he2.mem_iff.2 he)
    exact ⟨s, hs2.mem_iff.1 h1, h2⟩

/-- C43: hence failing does not depend on the enumeration either (which error is reported may). -/
theorem C43_failure (L : Lang) (w w' : Workspace) (hp : w.Perm w') :
    (∃ e, w.build L = .error e) ↔ ∃ e, w'.build L = .error e := by
  have key : ∀ w w' : Workspace, w.Perm w' → (∃ e, w.build L = .error e) → ∃ e, w'.build L = .error e := by
    rintro w w' hp ⟨e, he⟩
    cases hb : w'.build L with
    | error e => exact ⟨e, rfl⟩
    | ok b =>
      obtain ⟨b', h, _⟩ := C43_order L w' w hp.symm b hb
      rw [he] at h; simp at h
  exact ⟨key w w' hp, key w' w hp.symm⟩

example : ∃ b', Workspace.build exLang exWorkspace.reverse = .ok b' ∧ exPeople.Perm b'.entities ∧
    [exPersonSchema].Perm b'.schemas :=
  C43_order exLang exWorkspace exWorkspace.reverse (List.reverse_perm _).symm _ exWorkspace_build

/-! ## C44 -/

/-- The normalised ids written in the entity blocks, in file order. -/
def writtenIds (L : Lang) (w : Workspace) : List EntityId :=
  (blocksOf "entity_block" w).map fun b =>
    L.cases.composeEntityId ((entityTypeOf b.2).getD []) ((entityIdOf b.2).getD [])

theorem toEntity_ok {L : Lang} {rel : Str} {n : Node} {e : Entity} (h : toEntity L rel n = .ok e) :
    ∃ ty i, entityTypeOf n = some ty ∧ entityIdOf n = some i ∧
      e.id = L.cases.composeEntityId ty i ∧ e.entityType = ty ∧
      List.Forall₂ (fun f p => toField L rel f = .ok p) (entityFields n) e.fields := by
  unfold toEntity at h
  cases ht : entityTypeOf n with
  | none => simp [ht] at h
  | some ty =>
    cases hi : entityIdOf n with
    | none => simp [ht, hi] at h
    | some i =>
      simp only [ht, hi] at h
      cases hc : collectResults (toField L rel) (entityFields n) with
      | error e => simp [hc] at h
      | ok fs =>
        simp only [hc, Except.ok.injEq] at h
        subst h
        exact ⟨ty, i, rfl, rfl, rfl, rfl, collectResults_forall.1 hc⟩

theorem writtenIds_eq {L : Lang} {w : Workspace} {ss : List EntitySchema} {es : List Entity}
    (h : ValidWorkspace L w ss es) : writtenIds L w = es.map (·.id) := by
  have := h.entities
  clear h
  unfold writtenIds
  revert this
  generalize blocksOf "entity_block" w = bs
  intro this
  induction this with
  | nil => rfl
  | cons h1 _ ih =>
    obtain ⟨ty, i, h3, h4, h5, _⟩ := toEntity_ok h1
    simp only [List.map_cons, ih, h3, h4, h5, Option.getD_some]

/-- C44: loading a built workspace into a graph succeeds exactly when no two entity blocks, in the
same or different files, have the same normalised id. -/
theorem C44_duplicates (L : Lang) (w : Workspace) (b : WorkspaceBuild) (h : w.build L = .ok b) :
    b.toGraph.2 = .ok () ↔ (writtenIds L w).Nodup := by
  have hv := (C41_build L w b.entities b.schemas).1 h
  rw [writtenIds_eq hv]
  have h2 := (C02_bulk_ok [] b.entities).1
  have hrun : Graph.run [] = Graph.empty := rfl
  rw [hrun] at h2
  have hclash : NoClash (accepted []) b.entities ↔ (b.entities.map (·.id)).Nodup := by
    simp [NoClash, accepted]
  rw [← hclash, ← h2]
  unfold WorkspaceBuild.toGraph
  cases hg : Graph.empty.addEntities b.entities with
  | mk g r => cases r <;> simp

theorem foldl_accept_adds (acc es : List Entity) (h : NoClash acc es) :
    (es.map GOp.add).foldl accept acc = acc ++ es := by
  induction es generalizing acc with
  | nil => simp
  | cons e es ih =>
    obtain ⟨h1, h2⟩ := noClash_cons h
    have : accept acc (.add e) = acc ++ [e] := by
      simp only [accept, acceptOne, if_neg h1]
    simp only [List.map_cons, List.foldl_cons, this, ih _ h2]
    simp

theorem accepted_adds {es : List Entity} (h : NoClash (accepted []) es) :
    accepted (es.map .add) = es := by
  have := foldl_accept_adds [] es h
  simpa [accepted] using this

/-- C44: and then every entity of the build can be looked up, and nothing else. -/
theorem C44_lookup (b : WorkspaceBuild) (h : b.toGraph.2 = .ok ()) (id : EntityId) (e : Entity) :
    b.toGraph.1.getEntity id = some e ↔ e ∈ b.entities ∧ e.id = id := by
  have h2 := C02_bulk_ok [] b.entities
  have hrun : Graph.run [] = Graph.empty := rfl
  rw [hrun] at h2
  unfold WorkspaceBuild.toGraph at h ⊢
  cases hg : Graph.empty.addEntities b.entities with
  | mk g r =>
    rw [hg] at h2
    cases r with
    | error e => simp [hg] at h
    | ok u =>
      have hn := h2.1.1 rfl
      have hgr := h2.2 hn
      simp only [List.nil_append] at hgr
      subst hgr
      have hb : (Graph.run (b.entities.map .add)).build = Graph.run (b.entities.map .add ++ [.build]) := by
        rw [run_snoc]; rfl
      simp only [hb]
      rw [C01_lookup, accepted_snoc]
      have hacc : accepted (b.entities.map .add) = b.entities := accepted_adds hn
      rw [show accept (accepted (b.entities.map .add)) .build = accepted (b.entities.map .add) from rfl,
        hacc]

example : (⟨exPeople, [exPersonSchema]⟩ : WorkspaceBuild).toGraph.2 = .ok () :=
  (C44_duplicates exLang exWorkspace _ exWorkspace_build).2 (by decide +kernel)

/-- A third file repeating an entity under another spelling of its id. -/
example : ¬ (writtenIds exLang (exWorkspace ++
    [exFile "c.firm" [exEntityNode "person" "Alice" []]])).Nodup := by decide +kernel

/-! ## C45 -/

/-- A request to load a file: path, workspace directory and what reading the path gives. -/
structure LoadRequest where
  path : Str
  base : Str
  text : Option Str

/-- The workspace after a sequence of loads. -/
def loadAll (grammar : Str → Node) (w : Workspace) (rs : List LoadRequest) : Workspace :=
  rs.foldl (fun w r => (w.loadFile grammar r.path r.base r.text).1) w

/-- A load that can succeed: the file is readable and lies in the workspace directory. -/
def Loadable (r : LoadRequest) (text rel : Str) : Prop :=
  r.text = some text ∧ ∃ cs, pathComponents r.path = pathComponents r.base ++ cs ∧ rel = showComps cs

theorem stripComps_some {a b c : List PathComp} : stripComps a b = some c ↔ a = b ++ c := by
  induction b generalizing a with
  | nil => simp [stripComps]
  | cons x b ih =>
    cases a with
    | nil => simp [stripComps]
    | cons y a =>
      simp only [stripComps, List.cons_append, List.cons.injEq]
      by_cases h : y = x
      · simp [h, ih]
      · simp [h]

theorem mapGet_mapInsert {β : Type} (m : List (Str × β)) (k k' : Str) (v : β) :
    mapGet (mapInsert m k v) k' = if k = k' then some v else mapGet m k' := by
  induction m with
  | nil => simp [mapInsert, mapGet]
  | cons p m ih =>
    obtain ⟨k1, v1⟩ := p
    unfold mapInsert
    by_cases h1 : k1 = k
    · subst h1
      by_cases h2 : k1 = k' <;> simp [mapGet, h2]
    · by_cases h2 : k1 = k'
      · subst h2
        simp [mapGet, h1, Ne.symm h1]
      · simp only [if_neg h1, mapGet, if_neg h2, ih]

theorem loadFile_loadable {grammar : Str → Node} {w : Workspace} {r : LoadRequest} {text rel : Str}
    (h : Loadable r text rel) :
    w.loadFile grammar r.path r.base r.text = (mapInsert w r.path ⟨grammar text, rel⟩, .ok ()) := by
  obtain ⟨h1, cs, h2, rfl⟩ := h
  simp only [Workspace.loadFile, h1, stripComps_some.2 h2]

theorem loadFile_not_loadable {grammar : Str → Node} {w : Workspace} {r : LoadRequest}
    (h : ∀ text rel, ¬ Loadable r text rel) :
    (w.loadFile grammar r.path r.base r.text).1 = w ∧
      ∃ e, (w.loadFile grammar r.path r.base r.text).2 = .error e := by
  cases ht : r.text with
  | none => simp [Workspace.loadFile]
  | some t =>
    cases hs : stripComps (pathComponents r.path) (pathComponents r.base) with
    | none => simp [Workspace.loadFile, hs]
    | some cs => exact absurd ⟨ht, cs, stripComps_some.1 hs, rfl⟩ (h t _)

/-- C45: after any sequence of loads a path holds the contents of its last successful load, … -/
theorem C45_last_load (grammar : Str → Node) (w : Workspace) (pre post : List LoadRequest)
    (r : LoadRequest) (text rel : Str) (hr : Loadable r text rel)
    (hpost : ∀ q ∈ post, q.path = r.path → ∀ t l, ¬ Loadable q t l) :
    mapGet (loadAll grammar w (pre ++ r :: post)) r.path = some ⟨grammar text, rel⟩ := by
  have key : ∀ (w : Workspace) (post : List LoadRequest),
      (∀ q ∈ post, q.path = r.path → ∀ t l, ¬ Loadable q t l) →
      mapGet w r.path = some ⟨grammar text, rel⟩ →
      mapGet (loadAll grammar w post) r.path = some ⟨grammar text, rel⟩ := by
    intro w post
    induction post generalizing w with
    | nil => intro _ h; exact h
    | cons q post ih =>
      intro hq hw
      refine ih _ (fun q' hq' => hq q' (List.mem_cons_of_mem _ hq')) ?_
      by_cases hl : ∃ t l, Loadable q t l
      · obtain ⟨t, l, hl⟩ := hl
        beta_reduce
        rw [loadFile_loadable hl, mapGet_mapInsert, if_neg, hw]
        intro he
        exact hq q (by simp) he t l hl
      · simp only [not_exists] at hl
        beta_reduce
        rw [(loadFile_not_loadable hl).1, hw]
  unfold loadAll
  rw [List.foldl_append, List.foldl_cons]
  apply key _ post hpost
  rw [loadFile_loadable hr, mapGet_mapInsert, if_pos rfl]

/-- C45: … a path that was never loaded successfully keeps what it held before, … -/
theorem C45_untouched (grammar : Str → Node) (w : Workspace) (rs : List LoadRequest) (path : Str)
    (h : ∀ q ∈ rs, q.path = path → ∀ t l, ¬ Loadable q t l) :
    mapGet (loadAll grammar w rs) path = mapGet w path := by
  induction rs generalizing w with
  | nil => rfl
  | cons q rs ih =>
    have := ih (w.loadFile grammar q.path q.base q.text).1 (fun q' hq' => h q' (List.mem_cons_of_mem _ hq'))
    rw [show loadAll grammar w (q :: rs) = loadAll grammar (w.loadFile grammar q.path q.base q.text).1 rs
      from rfl, this]
    by_cases hl : ∃ t l, Loadable q t l
    · obtain ⟨t, l, hl⟩ := hl
      rw [loadFile_loadable hl, mapGet_mapInsert, if_neg]
      intro he
      exact h q (by simp) he t l hl
    · simp only [not_exists] at hl
      rw [(loadFile_not_loadable hl).1]

/-- C45: … and there is one entry per path, so no blocks of replaced contents survive: the blocks
of the workspace are those of the entries. -/
theorem C45_one_entry (grammar : Str → Node) (rs : List LoadRequest) :
    ((loadAll grammar [] rs).map (·.1)).Nodup := by
  have key : ∀ (w : Workspace), (w.map (·.1)).Nodup → ((loadAll grammar w rs).map (·.1)).Nodup := by
    induction rs with
    | nil => intro w h; exact h
    | cons q rs ih =>
      intro w hw
      apply ih
      by_cases hl : ∃ t l, Loadable q t l
      · obtain ⟨t, l, hl⟩ := hl
        beta_reduce
        rw [loadFile_loadable hl]
        exact mapInsert_nodup hw
      · simp only [not_exists] at hl
        beta_reduce
        rw [(loadFile_not_loadable hl).1]
        exact hw
  exact key [] (by simp)

example : Loadable ⟨"/w/a.firm".toList, "/w".toList, some "x".toList⟩ "x".toList "a.firm".toList :=
  ⟨rfl, [.normal "a.firm".toList], by decide, by decide⟩

/-! ## C46 -/

theorem toSchemaFields_type {L : Lang} {rel : Str} {s s' : EntitySchema} {k : Nat} {ns : List Node}
    (h : toSchemaFields L rel s k ns = .ok s') : s'.entityType = s.entityType := by
  induction ns generalizing s k with
  | nil => simp only [toSchemaFields, Except.ok.injEq] at h; rw [h]
  | cons n ns ih =>
    unfold toSchemaFields at h
    cases hf : toSchemaField L rel k n with
    | error e => simp [hf] at h
    | ok p => simp only [hf] at h; rw [ih h]; rfl

theorem toSchema_type {L : Lang} {rel : Str} {n : Node} {s : EntitySchema}
    (h : toSchema L rel n = .ok s) : ∃ name, schemaName n = some name ∧ s.entityType = L.cases.snake name := by
  unfold toSchema at h
  cases hn : schemaName n with
  | none => simp [hn] at h
  | some name =>
    simp only [hn] at h
    exact ⟨name, rfl, toSchemaFields_type h⟩

theorem entityPass_missing {L : Lang} {m : List (EntityType × EntitySchema)} {w : Workspace}
    {path : Str} {t : EntityType} (h : entityPass L m w = .error (.missingSchema path t)) :
    mapGet m t = none := by
  have hc : ∀ p rel ns, collectResults (checkEntity L m p rel) ns = .error (.missingSchema path t) →
      mapGet m t = none := by
    intro p rel ns
    induction ns with
    | nil => simp [collectResults]
    | cons n ns ih =>
      unfold collectResults
      cases hn : checkEntity L m p rel n with
      | error err =>
        intro h; simp only [Except.error.injEq] at h; subst h
        unfold checkEntity at hn
        cases ht : toEntity L rel n with
        | error e => cases e <;> simp [ht] at hn
        | ok e =>
          simp only [ht] at hn
          cases hg : mapGet m e.entityType with
          | none =>
            simp only [hg, Except.error.injEq, WorkspaceError.missingSchema.injEq] at hn
            rw [← hn.2, hg]
          | some s =>
            simp only [hg] at hn
            cases hv : s.validate L.env e <;> simp [hv] at hn
      | ok e =>
        cases hr : collectResults (checkEntity L m p rel) ns with
        | error err => intro h; simp only [Except.error.injEq] at h; subst h; exact ih hr
        | ok es => simp
  induction w with
  | nil => simp [entityPass] at h
  | cons p w ih =>
    unfold entityPass at h
    cases hn : collectResults (checkEntity L m p.1 p.2.rel) p.2.entities with
    | error err => simp only [hn, Except.error.injEq] at h; subst h; exact hc _ _ _ hn
    | ok es =>
      cases hr : entityPass L m w with
      | error err => simp only [hn, hr, Except.error.injEq] at h; subst h; exact ih hr
      | ok es => simp [hn, hr] at h

theorem schemaPass_no_missing {L : Lang} {m : List (EntityType × EntitySchema)} {w : Workspace}
    {path : Str} {t : EntityType} : schemaPass L m w ≠ .error (.missingSchema path t) := by
  have ha : ∀ p rel ns m, addSchemas L p rel m ns ≠ .error (.missingSchema path t) := by
    intro p rel ns
    induction ns with
    | nil => simp [addSchemas]
    | cons n ns ih =>
      intro m
      unfold addSchemas
      cases hs : toSchema L rel n with
      | error e => cases e <;> simp
      | ok s => simp only []; split <;> simp_all
  induction w generalizing m with
  | nil => simp [schemaPass]
  | cons p w ih =>
    unfold schemaPass
    cases hm : addSchemas L p.1 p.2.rel m p.2.schemas with
    | error e => intro h; simp only [Except.error.injEq] at h; subst h; exact ha _ _ _ _ hm
    | ok m => exact ih

/-- C46, for type names that normalisation leaves as they are (see `C47_unchanged` for which these are):
if the workspace contains `schema T`, a build never fails for lack of a schema of `T`, and if it
succeeds every entity of type `T` conforms to the schema made from that block.
Missing: names that normalisation changes, for which it is false (`C46_not_found`). -/
theorem C46_same_name_partial (L : Lang) (w : Workspace) (T : Str) (hT : L.cases.snake T = T)
    (b : Str × Node) (hb : b ∈ blocksOf "schema_block" w) (hn : schemaName b.2 = some T) :
    (∀ path, w.build L ≠ .error (.missingSchema path T)) ∧
    ∀ r, w.build L = .ok r → ∃ s ∈ r.schemas, toSchema L b.1 b.2 = .ok s ∧
      ∀ e ∈ r.entities, e.entityType = T → Conforms L.env s e := by
  have hmem : ∀ ss, List.Forall₂ (fun b s => toSchema L b.1 b.2 = .ok s) (blocksOf "schema_block" w) ss →
      ∃ s ∈ ss, toSchema L b.1 b.2 = .ok s ∧ s.entityType = T := by
    intro ss
    revert hb
    generalize blocksOf "schema_block" w = bs
    intro hb hf
    induction hf with
    | nil => simp at hb
    | cons h1 _ ih =>
      rename_i c s bs ss h2
      rcases List.mem_cons.1 hb with rfl | hb
      · refine ⟨s, by simp, h1, ?_⟩
        obtain ⟨name, h3, h4⟩ := toSchema_type h1
        rw [hn] at h3; cases h3; rw [h4, hT]
      · obtain ⟨s', h3, h4⟩ := ih hb
        exact ⟨s', List.mem_cons_of_mem _ h3, h4⟩
  constructor
  · intro path h
    unfold Workspace.build at h
    cases hs : schemaPass L [] w with
    | error e =>
      simp only [hs, Except.error.injEq] at h; subst h
      exact schemaPass_no_missing hs
    | ok m =>
      obtain ⟨ss, h1, rfl, h3⟩ := (schemaPass_ok (L := L) (w := w) (acc := []) (m' := m) (by simp)).1 hs
      simp only [hs, List.nil_append] at h
      cases he : entityPass L (keyed ss) w with
      | ok es => simp [he] at h
      | error e =>
        simp only [he, Except.error.injEq] at h; subst h
        have hnone := entityPass_missing he
        obtain ⟨s, hs1, _, hs3⟩ := hmem ss h1
        have : (mapGet (keyed ss) T).isSome := by
          rw [mapGet_isSome, keyed_keys]
          exact List.mem_map.2 ⟨s, hs1, hs3⟩
        rw [hnone] at this; simp at this
  · intro r hr
    have hv := (C41_build L w r.entities r.schemas).1 hr
    obtain ⟨s, h1, h2, h3⟩ := hmem _ hv.schemas
    refine ⟨s, h1, h2, fun e he hte => ?_⟩
    obtain ⟨s', h4, h5, h6⟩ := hv.checked e he
    rwa [List.inj_on_of_nodup_map hv.oneSchema h1 h4 (h3.trans (hte.symm.trans h5.symm))]

/-- C46 is false in general: `schema task2 { … }` declares the type `task_2`, while `task2 …` is an
entity of type `task2`, so the build fails for lack of a schema. -/
theorem C46_not_found :
    Workspace.build exLang [exFile "a.firm" [exSchemaNode "task2" [("name", "string", "true")],
      exEntityNode "task2" "one" [exFieldNode "name" "string" "\"One\""]]] =
        .error (.missingSchema "/w/a.firm".toList "task2".toList) := by
  decide +kernel

example : exLang.cases.snake "person".toList = "person".toList ∧
    schemaName (exSchemaNode "person" []) = some "person".toList := by decide

end Firm
