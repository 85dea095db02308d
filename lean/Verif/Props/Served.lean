import Verif.Props.Adding
import Verif.Props.Replies
import Verif.Props.Reading
import Verif.Props.Command

/-! # What is added is there afterwards (C93) -/

namespace Firm
open Spec

/-- The grammar reads a text to which a block is appended as the blocks of the text and the new block, and it
finds nothing in the empty text. -/
structure Spec.ReadsAppended (grammar : Str → Node) (old new : Str) (n : Node) : Prop where
  appended : (grammar new).children = (grammar old).children ++ [n]
  empty : (grammar []).children = []

theorem has_file_unique {d : FsTree} (hd : WellFormed d) {loc : List Str} {t u : FsTree} (h1 : Has d loc t)
    (h2 : Has d loc u) : t = u := by
  have a := (has_iff_lookup hd).1 h1
  rw [(has_iff_lookup hd).1 h2] at a
  exact (Option.some.inj a).symm

theorem unique_entry {w : Workspace} (hn : (w.map (·.1)).Nodup) {path : Str} {f : SourceFile} (h : (path, f) ∈ w) :
    (w.filter fun p => p.1 = path) = [(path, f)] := by
  induction w with
  | nil => cases h
  | cons p w ih =>
    rw [List.map_cons, List.nodup_cons] at hn
    rcases List.mem_cons.1 h with rfl | h
    · rw [List.filter_cons_of_pos (by simp), List.filter_eq_nil_iff.2]
      intro q hq
      simp only [decide_eq_true_eq]
      intro he
      exact hn.1 (List.mem_map.2 ⟨q, hq, he⟩)
    · rw [List.filter_cons_of_neg, ih hn.2 h]
      simp only [decide_eq_true_eq]
      intro he
      exact hn.1 (List.mem_map.2 ⟨_, h, he.symm⟩)

/-- Two workspaces that differ in a block at the end of one file have the same blocks but for that one. -/
theorem append_blocks {grammar : Str → Node} {ws : List Str} {d d' : FsTree} (hd : WellFormed d) (hd' : WellFormed d')
    {w w' : Workspace} (hw : LoadsAs grammar ws d w) (hw' : LoadsAs grammar ws d' w') {dirs : List Str} {name : Str}
    (hname : FirmName name) {old new : Str} {n : Node}
    (hold : Has d (ws ++ (dirs ++ [name])) (.file (some old)) ∨
      (old = [] ∧ ∀ u, NotDir u → ¬ Has d (ws ++ (dirs ++ [name])) u))
    (hnew : Has d' (ws ++ (dirs ++ [name])) (.file (some new)))
    (hrest : ∀ l u, l ≠ ws ++ (dirs ++ [name]) → NotDir u → (Has d l u ↔ Has d' l u))
    (hg : ReadsAppended grammar old new n) (kind : String) :
    (blocksOf kind w').Perm
      (blocksOf kind w ++ if n.kind = kind.toList then [(joinWith ['/'] (dirs ++ [name]), n)] else []) := by
  have hnd : ∀ t : Option Str, NotDir (.file t) := fun t es h => by cases h
  obtain ⟨tp, htp⟩ : ∃ tp, tp = '/' :: joinWith ['/'] (ws ++ (dirs ++ [name])) := ⟨_, rfl⟩
  have hin' : (tp, ⟨grammar new, joinWith ['/'] (dirs ++ [name])⟩) ∈ w' :=
    (hw'.2 _ _).2 ⟨_, new, ⟨⟨dirs, name, rfl, hname⟩, hnew⟩, htp, rfl⟩
  have hothers : (w.filter fun p => ¬ p.1 = tp).Perm (w'.filter fun p => ¬ p.1 = tp) := by
    refine (List.perm_ext_iff_of_nodup (.filter _ (.of_map _ hw.1)) (.filter _ (.of_map _ hw'.1))).2 ?_
    rintro ⟨path, f⟩
    simp only [List.mem_filter, decide_eq_true_eq, hw.2 path f, hw'.2 path f]
    refine and_congr_left fun hp => exists_congr fun loc => exists_congr fun text => ?_
    constructor
    · rintro ⟨⟨h1, h2⟩, h3, h4⟩
      have : loc ≠ dirs ++ [name] := by rintro rfl; exact hp (h3.trans htp.symm)
      exact ⟨⟨h1, (hrest _ _ (by simpa using this) (hnd _)).1 h2⟩, h3, h4⟩
    · rintro ⟨⟨h1, h2⟩, h3, h4⟩
      have : loc ≠ dirs ++ [name] := by rintro rfl; exact hp (h3.trans htp.symm)
      exact ⟨⟨h1, (hrest _ _ (by simpa using this) (hnd _)).2 h2⟩, h3, h4⟩
  have hsplit : ∀ w : Workspace, (blocksOf kind w).Perm
      (blocksOf kind (w.filter fun p => p.1 = tp) ++ blocksOf kind (w.filter fun p => ¬ p.1 = tp)) := by
    intro w
    unfold blocksOf
    rw [← List.flatMap_append]
    refine List.Perm.flatMap_right _ ?_
    have := List.filter_append_perm (fun p : Str × SourceFile => decide (p.1 = tp)) w
    refine this.symm.trans (.of_eq ?_)
    congr 2
    funext p
    simp
  have holdBlocks : blocksOf kind (w.filter fun p => p.1 = tp) =
      ((grammar old).children.filter fun c => c.kind = kind.toList).map fun c => (joinWith ['/'] (dirs ++ [name]), c) := by
    rcases hold with hold | ⟨rfl, hnone⟩
    · rw [unique_entry hw.1 ((hw.2 tp _).2 ⟨_, old, ⟨⟨dirs, name, rfl, hname⟩, hold⟩, htp, rfl⟩)]
      simp [blocksOf, Node.children]
    · rw [hg.empty]
      have : (w.filter fun p => p.1 = tp) = [] := by
        refine List.filter_eq_nil_iff.2 fun p hp he => ?_
        simp only [decide_eq_true_eq] at he
        obtain ⟨loc, text, ⟨_, h2⟩, h3, _⟩ := (hw.2 p.1 p.2).1 hp
        have hv := (lookup_valid hd ((has_iff_lookup hd).1 h2)).2
        have hv' := (lookup_valid hd' ((has_iff_lookup hd').1 hnew)).2
        have := placeText_inj hv hv' (h3.symm.trans (he.trans htp))
        exact hnone _ (hnd _) (this ▸ h2)
      rw [this]
      rfl
  refine (hsplit w').trans ?_
  rw [unique_entry hw'.1 hin']
  have hnewBlocks : blocksOf kind [(tp, (⟨grammar new, joinWith ['/'] (dirs ++ [name])⟩ : SourceFile))] =
      blocksOf kind (w.filter fun p => p.1 = tp) ++
        if n.kind = kind.toList then [(joinWith ['/'] (dirs ++ [name]), n)] else [] := by
    rw [holdBlocks]
    simp only [blocksOf, List.flatMap_cons, List.flatMap_nil, List.append_nil]
    rw [hg.appended, List.filter_append, List.map_append]
    congr 1
    by_cases h : n.kind = kind.toList <;> simp [h]
  rw [hnewBlocks]
  have hrestBlocks : (blocksOf kind (w.filter fun p => ¬ p.1 = tp)).Perm (blocksOf kind (w'.filter fun p => ¬ p.1 = tp)) :=
    hothers.flatMap_right _
  refine .trans ?_ ((hsplit w).symm.append_right _)
  rw [List.append_assoc, List.append_assoc]
  refine .append_left _ ?_
  exact List.perm_append_comm.trans (hrestBlocks.symm.append_right _)

/-- An entity that is read from the block written for another: the same names, and the values as they are read. -/
def Spec.ReadFrom (L : Lang) (source : Str) (e e' : Entity) : Prop :=
  e'.id = e.id ∧ e'.entityType = e.entityType ∧
    List.Forall₂ (fun p q => q.1 = p.1 ∧ ReadsAs L .default source p.2 q.2) e.fields e'.fields

theorem toEntity_node {L : Lang} (hT : RegularCase L.cases) {source : Str} {e e' : Entity} {i : Str}
    (hty : IsSnake L.cases e.entityType) (hdot : '.' ∉ e.entityType) (hid : e.id = L.cases.composeEntityId e.entityType i)
    (h : toEntity L source (entityNode L .default e) = .ok e') : ReadFrom L source e e' := by
  have hf : entityFields (entityNode L .default e) = e.fields.map fun p => fieldNode p.1 (valueNode L .default p.2) := by
    unfold entityFields entityNode
    refine blockItems_fields _ _ _ _ _ _ _ _ ?_ ?_ ?_ ?_ ?_
    · simp only [Node.kind]; decide
    · simp only [Node.kind]; decide
    · decide
    · decide
    · intro n hn
      obtain ⟨p, -, rfl⟩ := List.mem_map.1 hn
      rfl
  have hl : L.cases.lower e.entityType = e.entityType := lower_fixed hT fun c hc => (hty.chars c hc).1
  unfold toEntity at h
  rw [show entityTypeOf (entityNode L .default e) = some (L.cases.lower e.entityType) from rfl,
    show entityIdOf (entityNode L .default e) = some (decomposeEntityId e.id).2 from rfl, hf, hl] at h
  dsimp only at h
  split at h
  · cases h
  · next fs hfs =>
    cases h
    refine ⟨?_, rfl, ?_⟩
    · obtain ⟨r, hr⟩ := compose_prefix hT hty i
      have hsn : IsSnake L.cases (e.entityType ++ '.' :: r) := by
        rw [← hr]
        exact C47_normal_partial hT _
      have hsplit : splitOnceDot (e.entityType ++ '.' :: r) = some (e.entityType, r) := by
        generalize e.entityType = ty at hdot
        induction ty with
        | nil => rfl
        | cons c ty ih =>
          rw [List.cons_append, splitOnceDot, if_neg (by rintro rfl; simp at hdot), ih (fun h => hdot (by simp [h]))]
          rfl
      dsimp only
      rw [hid, hr, decomposeEntityId, hsplit]
      exact compose_again hT hty hsn
    · dsimp only
      generalize e.fields = ps at hfs
      induction ps generalizing fs with
      | nil => cases hfs; exact .nil
      | cons p ps ih =>
        rw [List.map_cons, collectResults] at hfs
        split at hfs
        · cases hfs
        · next q hq =>
          split at hfs
          · cases hfs
          · next qs hqs =>
            cases hfs
            refine .cons ?_ (ih _ hqs)
            obtain ⟨h1, h2⟩ := childOfKind_field p.1 (valueNode L .default p.2) (valueNode_kind p.2)
            unfold toField fieldValue at hq
            rw [h1, h2] at hq
            dsimp only at hq
            split at hq
            · next v hv => cases hq; exact ⟨rfl, v, hv, rfl⟩
            all_goals cases hq

theorem forall2_fun {α β ε : Type} {f : α → Except ε β} : ∀ {as : List α} {bs cs : List β},
    List.Forall₂ (fun a b => f a = .ok b) as bs → List.Forall₂ (fun a b => f a = .ok b) as cs → bs = cs
  | _, _, _, .nil, .nil => rfl
  | _, _, _, .cons h hs, .cons k ks => by
    rw [h] at k
    cases k
    rw [forall2_fun hs ks]

/-- The build after a block was appended. -/
theorem append_built {L : Lang} {w w' : Workspace} {b b' : WorkspaceBuild} {source : Str} {n : Node}
    (hb : w.build L = .ok b) (hb' : w'.build L = .ok b')
    (he : (blocksOf "entity_block" w').Perm (blocksOf "entity_block" w ++ [(source, n)]))
    (hs : (blocksOf "schema_block" w').Perm (blocksOf "schema_block" w)) :
    ∃ e, toEntity L source n = .ok e ∧ b'.entities.Perm (b.entities ++ [e]) ∧ b'.schemas.Perm b.schemas := by
  have hv := (C41_build L w b.entities b.schemas).1 hb
  have hv' := (C41_build L w' b'.entities b'.schemas).1 hb'
  obtain ⟨es, h1, h2⟩ := forall₂_perm (f := fun b : Str × Node => toEntity L b.1 b.2) he hv'.entities
  obtain ⟨ss, h3, h4⟩ := forall₂_perm (f := fun b : Str × Node => toSchema L b.1 b.2) hs hv'.schemas
  rw [forall2_fun h3 hv.schemas] at h4
  obtain ⟨e, h5⟩ : ∃ e, toEntity L source n = .ok e := by
    obtain ⟨e, _, h⟩ := forall2_right h1 (source, n) (by simp)
    exact ⟨e, h⟩
  have h6 : List.Forall₂ (fun b e => toEntity L b.1 b.2 = .ok e) (blocksOf "entity_block" w ++ [(source, n)]) (b.entities ++ [e]) :=
    List.rel_append hv.entities (.cons h5 .nil)
  rw [forall2_fun h1 h6] at h2
  exact ⟨e, h5, h2, h4⟩

/-- The files build after a block was appended that can be read and conforms to its schema. -/
theorem append_builds {L : Lang} {w w' : Workspace} {b : WorkspaceBuild} {source : Str} {n : Node} {e : Entity}
    (hb : w.build L = .ok b) (hn : toEntity L source n = .ok e)
    (hc : ∃ s ∈ b.schemas, s.entityType = e.entityType ∧ Conforms L.env s e)
    (he : (blocksOf "entity_block" w').Perm (blocksOf "entity_block" w ++ [(source, n)]))
    (hs : (blocksOf "schema_block" w').Perm (blocksOf "schema_block" w)) : ∃ b', w'.build L = .ok b' := by
  have hv := (C41_build L w b.entities b.schemas).1 hb
  have h6 : List.Forall₂ (fun b e => toEntity L b.1 b.2 = .ok e) (blocksOf "entity_block" w ++ [(source, n)]) (b.entities ++ [e]) :=
    List.rel_append hv.entities (.cons hn .nil)
  obtain ⟨es, h1, h2⟩ := forall₂_perm (f := fun b : Str × Node => toEntity L b.1 b.2) he.symm h6
  obtain ⟨ss, h3, h4⟩ := forall₂_perm (f := fun b : Str × Node => toSchema L b.1 b.2) hs.symm hv.schemas
  refine ⟨⟨es, ss⟩, (C41_build L w' es ss).2 ⟨h3, h1, (h4.map _).nodup_iff.1 hv.oneSchema, ?_⟩⟩
  intro x hx
  rcases List.mem_append.1 (h2.mem_iff.2 hx) with hx | hx
  · obtain ⟨s, h, h'⟩ := hv.checked x hx
    exact ⟨s, h4.mem_iff.1 h, h'⟩
  · rw [List.mem_singleton.1 hx]
    obtain ⟨s, h, h'⟩ := hc
    exact ⟨s, h4.mem_iff.1 h, h'⟩

/-- The type of every schema in a build is normalised. -/
theorem build_schema_types {L : Lang} (hL : RegularCase L.cases) {w : Workspace} {b : WorkspaceBuild}
    (h : w.build L = .ok b) {s : EntitySchema} (hs : s ∈ b.schemas) : IsSnake L.cases s.entityType := by
  have hv := (C41_build L w b.entities b.schemas).1 h
  obtain ⟨bl, _, hc⟩ := forall2_left hv.schemas s hs
  obtain ⟨name, _, hn⟩ := toSchema_type hc
  rw [hn]
  exact C47_normal_partial hL name

/-- What is served after a request whose block the grammar reads: what was served before and the new entity. -/
def Spec.ServesAlso (H : Host) (source : Str) (before after : ServerState) (e e' : Entity) : Prop :=
  ReadFrom H.lang source e e' ∧ after.build.entities.Perm (before.build.entities ++ [e']) ∧
    after.build.schemas.Perm before.build.schemas ∧
    (e.entityType ≠ "schema".toList → ∀ i, e.id = H.lang.cases.composeEntityId e.entityType i →
      getTool H.lang.cases after.build e.entityType i = some (.entity e'))

theorem place_target {ws dirs : List Str} {name s : Str}
    (h : joinComps ws s = .rootDir :: (ws ++ dirs ++ [name]).map .normal) :
    lexicalPlace ws (pathComponents s) = ws ++ (dirs ++ [name]) := by
  obtain ⟨r, h1, _, h3⟩ := joinComps_plain ws s
  rw [h1] at h
  injection h with _ h
  rw [← h3, h, lexicalPlace_normal]
  simp

/-- C93: after `add_entity` into a source file was answered with success, the server serves the entities and
schemas it served before and one entity more: the requested one, with the values as they are read from the file.
`get` shows it. Missing: target files with other names (`C93_other_name`) or given with `..` (`C89_dots`), other
texts for references (`C90_reference`), and types with a dot. -/
theorem C93_served_partial (H : Host) (hT : RegularCase H.lang.cases) (hws : ∀ n ∈ H.ws, ValidName n)
    (order : Workspace → Workspace) (ho : ∀ w, (order w).Perm w) (s : Server) (hd : WellFormed s.disk) (hs : Serves H s)
    (p : AddParams) (hdot : '.' ∉ p.type) {dirs : List Str} {name : Str} (hv : ∀ n ∈ dirs ++ [name], ValidName n)
    (hname : FirmName name)
    (htarget : joinComps H.ws (p.toFile.getD (defaultTarget p.type)) = .rootDir :: (H.ws ++ dirs ++ [name]).map .normal)
    (hr : ∀ sc ∈ s.state.build.schemas, ∀ q ∈ p.fields, ∀ fd, (H.lang.cases.snake q.1, fd) ∈ sc.fields →
      ReferencesOkAny H.lang.cases ((mapGet p.listItemTypes q.1).bind (parseListItemType H.lang.env)) fd.fieldType q.2)
    (h : (addEntityTool H order s p).2 = .success) :
    ∃ (e : Entity) (sc : EntitySchema) (old sep : Str),
      e.id = H.lang.cases.composeEntityId p.type (H.lang.cases.snake p.id) ∧ e.entityType = p.type ∧
      sc ∈ s.state.build.schemas ∧ List.Forall₂ (FieldWritten H (H.ws ++ dirs) p.listItemTypes sc) p.fields e.fields ∧
      Has (addEntityTool H order s p).1.disk (H.ws ++ (dirs ++ [name]))
        (.file (some (old ++ (sep ++ generateDsl H.lang .default [e])))) ∧
      (ReadsAppended H.grammar old (old ++ (sep ++ generateDsl H.lang .default [e])) (entityNode H.lang .default e) →
        ∃ e', ServesAlso H (joinWith ['/'] (dirs ++ [name])) s.state (addEntityTool H order s p).1.state e e') := by
  obtain ⟨e, loc, old, sep, he, hid, _, rfl, hold, hnew, _, hrest⟩ :=
    add_appends H hws order s hd hs p (by rw [h]; simp)
  obtain ⟨hd', hs'⟩ := C87_success H hws order ho s hd (.add p) h
  rw [show s.handle H order (.add p) = addEntityTool H order s p from rfl] at hd' hs'
  have hplace : lexicalPlace H.ws (pathComponents (p.toFile.getD (defaultTarget p.type))) = H.ws ++ (dirs ++ [name]) :=
    place_target htarget
  rw [hplace] at hold hnew hrest
  obtain ⟨hty, sc, hsc, hsct, _, hw⟩ := entityToAdd_written hv htarget hr he
  refine ⟨e, sc, old, sep, hid, hty, hsc, hw, hnew, fun hg => ?_⟩
  have hb := append_blocks hd hd' hs.1 hs'.1 hname hold hnew hrest hg
  have hk : (entityNode H.lang .default e).kind = "entity_block".toList := rfl
  have hbe := hb "entity_block"
  rw [if_pos hk] at hbe
  have hbs := hb "schema_block"
  rw [if_neg (by rw [hk]; decide), List.append_nil] at hbs
  obtain ⟨e', h1, h2, h3⟩ := append_built hs.2.1 hs'.2.1 hbe hbs
  have hsn : IsSnake H.lang.cases e.entityType := by
    rw [hty, ← hsct]
    exact build_schema_types hT hs.2.1 hsc
  have hrf := toEntity_node hT (e := e) hsn (by rw [hty]; exact hdot)
    (i := H.lang.cases.snake p.id) (by rw [hty]; exact hid) h1
  refine ⟨e', hrf, h2, h3, fun hne i hi => ?_⟩
  unfold getTool
  rw [if_neg hne, find_unique (toGraph_run hs'.2.2).2.2.2 (h2.mem_iff.2 (by simp)) (hrf.1.trans hi)]
  rfl

theorem has_parent {d u : FsTree} {a b : List Str} (h : Has d (a ++ b) u) (hb : b ≠ []) : ∃ es, Has d a (.dir (some es)) := by
  induction a generalizing d with
  | nil =>
    cases b with
    | nil => exact absurd rfl hb
    | cons x b =>
      cases h with
      | inside h1 h2 => exact ⟨_, .here _⟩
  | cons x a ih =>
    cases h with
    | inside h1 h2 =>
      obtain ⟨es, h⟩ := ih h2
      exact ⟨es, .inside h1 h⟩

/-- A rebuild succeeds if everything can be read and the files build, without two equal ids. -/
theorem rebuild_ok {H : Host} {order : Workspace → Workspace} {d : FsTree} (hd : WellFormed d)
    (hws : ∀ n ∈ H.ws, ValidName n) (ho : ∀ w, (order w).Perm w) (hr : Readable H.ws d)
    (hb : ∀ w, LoadsAs H.grammar H.ws d w → ∃ b, w.build H.lang = .ok b ∧ (b.entities.map (·.id)).Nodup) :
    ∃ st, rebuild H order d = .ok st := by
  obtain ⟨es, hes⟩ := hr.1
  have ht := (has_iff_lookup hd).1 hes
  obtain ⟨w, r, h1, h2, h3⟩ := loadDirectory_spec (grammar := H.grammar) hd hws ht
  have hrok := h2.2 hr
  subst hrok
  obtain ⟨b, hbb, hbn⟩ := hb (order w) ⟨((ho w).map _).nodup_iff.2 (h3 rfl).1, fun path f => by
    rw [(ho w).mem_iff]; exact (h3 rfl).2 path f⟩
  have hg := toGraph_ok hbn
  unfold rebuild
  rw [ht]
  dsimp only
  rw [h1]
  dsimp only
  rw [hbb]
  dsimp only
  cases hg' : b.toGraph with
  | mk g r =>
    rw [hg'] at hg
    cases hg
    exact ⟨_, rfl⟩

/-- C93: a request that is not refused is answered with success, if its values read back. Missing: as in
`C93_served_partial`, and values that do not read back (C50–C52, C68–C69), after which the files may not build. -/
theorem C93_builds_partial (H : Host) (hT : RegularCase H.lang.cases) (hws : ∀ n ∈ H.ws, ValidName n)
    (order : Workspace → Workspace) (ho : ∀ w, (order w).Perm w) (s : Server) (hd : WellFormed s.disk) (hs : Serves H s)
    (hread : Readable H.ws s.disk)
    (p : AddParams) (hdot : '.' ∉ p.type) {dirs : List Str} {name : Str} (hv : ∀ n ∈ dirs ++ [name], ValidName n)
    (hname : FirmName name)
    (htarget : joinComps H.ws (p.toFile.getD (defaultTarget p.type)) = .rootDir :: (H.ws ++ dirs ++ [name]).map .normal)
    (hr : ∀ sc ∈ s.state.build.schemas, ∀ q ∈ p.fields, ∀ fd, (H.lang.cases.snake q.1, fd) ∈ sc.fields →
      ReferencesOkAny H.lang.cases ((mapGet p.listItemTypes q.1).bind (parseListItemType H.lang.env)) fd.fieldType q.2)
    (h : (addEntityTool H order s p).2 ≠ .error) :
    ∃ (e : Entity) (sc : EntitySchema) (old sep : Str),
      e.id = H.lang.cases.composeEntityId p.type (H.lang.cases.snake p.id) ∧ e.entityType = p.type ∧
      sc ∈ s.state.build.schemas ∧ List.Forall₂ (FieldWritten H (H.ws ++ dirs) p.listItemTypes sc) p.fields e.fields ∧
      Has (addEntityTool H order s p).1.disk (H.ws ++ (dirs ++ [name]))
        (.file (some (old ++ (sep ++ generateDsl H.lang .default [e])))) ∧
      (ReadsAppended H.grammar old (old ++ (sep ++ generateDsl H.lang .default [e])) (entityNode H.lang .default e) →
        (∀ q ∈ e.fields, ReadsBack H.lang .default (joinWith ['/'] (dirs ++ [name])) q.2) →
        (addEntityTool H order s p).2 = .success) := by
  obtain ⟨e, loc, old, sep, he, hid, hfresh, rfl, hold, hnew, _, hrest⟩ := add_appends H hws order s hd hs p h
  rw [place_target htarget] at hold hnew hrest
  obtain ⟨hty, sc, hsc, hsct, hconf, hw⟩ := entityToAdd_written hv htarget hr he
  refine ⟨e, sc, old, sep, hid, hty, hsc, hw, hnew, fun hg hback => ?_⟩
  have hsn : IsSnake H.lang.cases e.entityType := by
    rw [hty, ← hsct]
    exact build_schema_types hT hs.2.1 hsc
  have hnode : toEntity H.lang (joinWith ['/'] (dirs ++ [name])) (entityNode H.lang .default e) = .ok e := by
    obtain ⟨e', h1⟩ : ∃ e', toEntity H.lang (joinWith ['/'] (dirs ++ [name])) (entityNode H.lang .default e) = .ok e' :=
      ⟨_, C70_reads_as e hback⟩
    have h2 := toEntity_node hT hsn (by rw [hty]; exact hdot) (i := H.lang.cases.snake p.id) (by rw [hty]; exact hid) h1
    rw [h1]
    rw [C70_reads_as e hback] at h1
    cases h1
    obtain ⟨a, b, c⟩ := h2
    cases e
    dsimp only at a b ⊢
    rw [a, b]
  have hdisk : (addEntityTool H order s p).1.disk = (addExecute H s p).1 := by
    unfold addEntityTool
    split
    · next heq => rw [heq]
    · next heq => rw [heq]; dsimp only; split <;> rfl
  rw [hdisk] at hnew hrest
  unfold addEntityTool at h ⊢
  cases hx : addExecute H s p with
  | mk d ok =>
    rw [hx] at hnew hrest h
    cases ok with
    | false => exact absurd rfl h
    | true =>
      have hd' : WellFormed d := (addExecute_spec hd hws hx).1
      dsimp only at hnew hrest ⊢
      have hnd : ∀ t : Option Str, NotDir (.file t) := fun t es h => by cases h
      have hndd : NotDir (.dir none) := fun es h => by cases h
      obtain ⟨st, hst⟩ : ∃ st, rebuild H order d = .ok st := by
        refine rebuild_ok hd' hws ho ⟨?_, ?_, ?_⟩ ?_
        · exact has_parent hnew (by simp)
        · intro loc hh
          by_cases hl : loc = dirs ++ [name]
          · subst hl
            cases has_file_unique hd' hh hnew
          · exact hread.2.1 loc ((hrest _ _ (by simpa using hl) hndd).2 hh)
        · intro dirs' n hn hh
          by_cases hl : dirs' ++ [n] = dirs ++ [name]
          · rw [hl] at hh
            cases has_file_unique hd' hh hnew
          · exact hread.2.2 dirs' n hn ((hrest _ _ (by simpa using hl) (hnd _)).2 hh)
        · intro w hw'
          have hb := append_blocks hd hd' hs.1 hw' hname hold hnew hrest hg
          have hk : (entityNode H.lang .default e).kind = "entity_block".toList := rfl
          have hbe := hb "entity_block"
          rw [if_pos hk] at hbe
          have hbs := hb "schema_block"
          rw [if_neg (by rw [hk]; decide), List.append_nil] at hbs
          obtain ⟨b, hbb⟩ := append_builds hs.2.1 hnode ⟨sc, hsc, hsct.trans hty.symm, hconf⟩ hbe hbs
          obtain ⟨e', h1, h2, _⟩ := append_built hs.2.1 hbb hbe hbs
          rw [hnode] at h1
          cases h1
          refine ⟨b, hbb, (h2.map _).nodup_iff.2 ?_⟩
          rw [List.map_append, List.map_cons, List.map_nil, List.nodup_append]
          refine ⟨(toGraph_run hs.2.2).2.2.2, by simp, ?_⟩
          intro x hx y hy
          obtain ⟨z, hz, rfl⟩ := List.mem_map.1 hx
          rw [List.mem_singleton.1 hy]
          exact hfresh z hz
      rw [hst]

/-- C93: after `firm add` has succeeded with the schemas of the workspace and a source file as target, the files
hold the entities and schemas they held before and one entity more, the one that was asked for, with the values as
they are read from the file; they build if the values read back. Missing: a last line without a line break, with
which the grammar does not read the block (`C72_glued`), and target files outside the workspace. -/
theorem C93_command_partial (S : Shell) (grammar : Str → Node) (hT : RegularCase S.lang.cases)
    (hws : ∀ n ∈ S.ws, ValidName n) (g : Graph) {d d' : FsTree} (hd : WellFormed d) (hd' : WellFormed d')
    (hread : Readable S.ws d) {w w' : Workspace} {b : WorkspaceBuild} (hw : LoadsAs grammar S.ws d w)
    (hb : w.build S.lang = .ok b) (a : AddArgs) (hdot : '.' ∉ a.type) {dirs : List Str} {name : Str} (hname : FirmName name)
    (htarget : lexicalPlace [] (S.dslPath a.toFile a.type) = S.ws ++ (dirs ++ [name]))
    (h : S.add g b.schemas d a = (d', true)) (hw' : LoadsAs grammar S.ws d' w') :
    ∃ (sc : EntitySchema) (e : Entity) (old : Str), sc ∈ b.schemas ∧ Conforms S.lang.env sc e ∧ e.entityType = a.type ∧
      e.id = S.lang.cases.composeEntityId a.type (S.sanitize a.id) ∧
      Has d' (S.ws ++ (dirs ++ [name])) (.file (some (old ++ generateDsl S.lang .default [e]))) ∧
      (ReadsAppended grammar old (old ++ generateDsl S.lang .default [e]) (entityNode S.lang .default e) →
        (∀ b', w'.build S.lang = .ok b' → ∃ e', ReadFrom S.lang (joinWith ['/'] (dirs ++ [name])) e e' ∧
          b'.entities.Perm (b.entities ++ [e']) ∧ b'.schemas.Perm b.schemas) ∧
        ((∀ q ∈ e.fields, ReadsBack S.lang .default (joinWith ['/'] (dirs ++ [name])) q.2) →
          ∃ b', w'.build S.lang = .ok b' ∧ b'.entities.Perm (b.entities ++ [e]))) := by
  obtain ⟨sc, e, loc, _, hsc, hsct, hconf, hid, _, rfl, hfile, hrest⟩ := cli_add S hws g b.schemas d d' hd a h
  rw [htarget] at hfile hrest
  rcases hfile with ⟨hbad, _⟩ | ⟨old, hold, hnew⟩
  · exact absurd hbad (hread.2.2 dirs name hname)
  have hty : e.entityType = a.type := by rw [hconf.1, hsct]
  refine ⟨sc, e, old, hsc, hconf, hty, hid, hnew, fun hg => ?_⟩
  have hbl := append_blocks hd hd' hw hw' hname hold hnew hrest hg
  have hk : (entityNode S.lang .default e).kind = "entity_block".toList := rfl
  have hbe := hbl "entity_block"
  rw [if_pos hk] at hbe
  have hbs := hbl "schema_block"
  rw [if_neg (by rw [hk]; decide), List.append_nil] at hbs
  have hsn : IsSnake S.lang.cases e.entityType := by
    rw [hty, ← hsct]
    exact build_schema_types hT hb hsc
  have hrf : ∀ e', toEntity S.lang (joinWith ['/'] (dirs ++ [name])) (entityNode S.lang .default e) = .ok e' →
      ReadFrom S.lang (joinWith ['/'] (dirs ++ [name])) e e' := fun e' h1 =>
    toEntity_node hT (e := e) hsn (by rw [hty]; exact hdot) (i := S.sanitize a.id) (by rw [hty]; exact hid) h1
  refine ⟨fun b' hb' => ?_, fun hback => ?_⟩
  · obtain ⟨e', h1, h2, h3⟩ := append_built hb hb' hbe hbs
    exact ⟨e', hrf e' h1, h2, h3⟩
  · have hnode := C70_reads_as e hback
    have h2 := hrf _ hnode
    have hnode' : toEntity S.lang (joinWith ['/'] (dirs ++ [name])) (entityNode S.lang .default e) = .ok e := by
      rw [hnode]
      obtain ⟨x, y, _⟩ := h2
      cases e
      dsimp only at x y ⊢
      rw [x, y]
    obtain ⟨b', hb'⟩ := append_builds hb hnode' ⟨sc, hsc, by rw [hsct, hty], hconf⟩ hbe hbs
    obtain ⟨e', h1, h2, _⟩ := append_built hb hb' hbe hbs
    rw [hnode'] at h1
    cases h1
    exact ⟨b', hb', h2⟩

/-- C93 is false for target files with other names: the request is answered with success, and the entity is not
there. -/
theorem C93_other_name : ∃ (H : Host) (s : Server) (p : AddParams), Serves H s ∧
    (addEntityTool H id s p).2 = .success ∧
    (addEntityTool H id s p).1.state.build.entities = s.state.build.entities ∧
    (addEntityTool H id s p).1.disk.readText ["w".toList, "b.txt".toList] =
      some "person carol {\n    name = \"Carol\"\n}\n".toList :=
  ⟨exHost, exServer, ⟨"person".toList, "carol".toList, [("name".toList, .string "Carol".toList)], some "b.txt".toList, []⟩,
    exServer_serves, by decide +kernel⟩

/-! ## Example -/

def exCarol : Entity := ⟨"person.carol".toList, "person".toList, [("name".toList, .string "Carol".toList)]⟩

/-- The sample grammar, which also reads one longer text. -/
def exLongGrammar (text : Str) : Node :=
  if text = [] then .mk "source_file".toList [] []
  else if text = "B\nperson carol {\n    name = \"Carol\"\n}\n".toList then
    .mk "source_file".toList text ((exGrammar "B".toList).children ++ [entityNode exLang .default exCarol])
  else exGrammar text

def exLongHost : Host := { exHost with grammar := exLongGrammar }

def exLongServer : Server :=
  ⟨exDisk, match rebuild exLongHost id exDisk with
    | .ok st => st
    | .error _ => ⟨[], ⟨[], []⟩, .empty⟩⟩

theorem exLongServer_serves : Serves exLongHost exLongServer := by
  have h : rebuild exLongHost id exDisk = .ok exLongServer.state := by
    unfold exLongServer
    cases hr : rebuild exLongHost id exDisk with
    | ok st => rfl
    | error e =>
      have : (match rebuild exLongHost id exDisk with | .ok _ => true | .error _ => false) = true := by decide +kernel
      rw [hr] at this
      cases this
  exact rebuild_serves exDisk_wf exHost_ws (fun w => List.Perm.refl w) h

example : (addEntityTool exLongHost id exLongServer (exAdd "carol")).2 = .success ∧
    (addEntityTool exLongHost id exLongServer (exAdd "carol")).1.state.build.entities.map (·.id) =
      ["person.alice".toList, "person.bob".toList, "person.carol".toList] ∧
    entityToAdd exLongHost exLongServer.state (exAdd "carol") = some exCarol ∧
    joinComps exLongHost.ws ((exAdd "carol").toFile.getD (defaultTarget (exAdd "carol").type)) =
      .rootDir :: (exLongHost.ws ++ [] ++ ["b.firm".toList]).map .normal := by decide +kernel

example : ReadsAppended exLongGrammar "B".toList ("B".toList ++ ("\n".toList ++ generateDsl exLang .default [exCarol]))
    (entityNode exLang .default exCarol) := ⟨rfl, rfl⟩

example : (∀ q ∈ exCarol.fields, ReadsBack exLang .default "b.firm".toList q.2) ∧ FirmName "b.firm".toList ∧
    Readable exLongHost.ws exDisk := by
  refine ⟨?_, ⟨"b".toList, by decide, rfl⟩, ?_⟩
  · intro q hq
    rw [List.mem_singleton.1 hq]
    exact ⟨.string "Carol".toList, rfl, rfl⟩
  · obtain ⟨w, r, h1, h2, _⟩ := C71_load exGrammar ["w".toList] exDisk _ exDisk_wf exHost_ws
      ((has_iff_lookup exDisk_wf).2 (rfl : exDisk.lookup ["w".toList] = some _))
    exact h2.1 (by
      have : (Workspace.loadDirectory exGrammar [] (placeText ["w".toList]) (.dir (some [("a.firm".toList, .file (some "S".toList)),
        ("b.firm".toList, .file (some "B".toList))]))).2 = .ok () := by decide +kernel
      rw [h1] at this
      exact this)

end Firm
