/-
# An accepted change of a file changes what is served by the definitions of this file only (C159)

The tools `write_source`, `delete_source` and `replace_source` rebuild from all files. Here it is shown what their
success means for the entities and schemas that the server answers with.
-/
import Verif.Props.Dangling

namespace Firm
open Spec

/-! ## Specification -/

/-- The entities and schemas that the file at `loc` defines; none if there is no such source file. -/
def Spec.FromFile (H : Host) (d : FsTree) (loc : List Str) (es : List Entity) (ss : List EntitySchema) : Prop :=
  (∃ text, FirmFile d H.ws loc text ∧
    List.Forall₂ (fun n e => toEntity H.lang (joinWith ['/'] loc) n = .ok e)
      ((H.grammar text).children.filter fun n => n.kind = "entity_block".toList) es ∧
    List.Forall₂ (fun n sc => toSchema H.lang (joinWith ['/'] loc) n = .ok sc)
      ((H.grammar text).children.filter fun n => n.kind = "schema_block".toList) ss) ∨
  ((∀ text, ¬ FirmFile d H.ws loc text) ∧ es = [] ∧ ss = [])

/-- Between the two servers only the definitions of the file at `loc` were exchanged. -/
def Spec.ChangesOnly (H : Host) (s s' : Server) (loc : List Str) : Prop :=
  ∃ es es' rest ss ss' srest,
    FromFile H s.disk loc es ss ∧ FromFile H s'.disk loc es' ss' ∧
    s.state.build.entities.Perm (es ++ rest) ∧ s'.state.build.entities.Perm (es' ++ rest) ∧
    s.state.build.schemas.Perm (ss ++ srest) ∧ s'.state.build.schemas.Perm (ss' ++ srest)

/-- The entity is defined in the source file at `loc`. -/
def Spec.DefinedIn (H : Host) (d : FsTree) (loc : List Str) (e : Entity) : Prop :=
  ∃ text, FirmFile d H.ws loc text ∧ ∃ n ∈ (H.grammar text).children, n.kind = "entity_block".toList ∧
    toEntity H.lang (joinWith ['/'] loc) n = .ok e

/-! ## Blocks -/

theorem blocks_split (kind : String) (tp : Str) (w : Workspace) : (blocksOf kind w).Perm
    (blocksOf kind (w.filter fun p => p.1 = tp) ++ blocksOf kind (w.filter fun p => ¬ p.1 = tp)) := by
  unfold blocksOf
  rw [← List.flatMap_append]
  refine List.Perm.flatMap_right _ ?_
  have := List.filter_append_perm (fun p : Str × SourceFile => decide (p.1 = tp)) w
  refine this.symm.trans (.of_eq ?_)
  congr 2
  funext p
  simp

/-- The file itself in the workspace. -/
theorem entry_of_file {grammar : Str → Node} {ws loc : List Str} {d : FsTree} (hd : WellFormed d) {w : Workspace}
    (hw : LoadsAs grammar ws d w) (hloc : ∀ n ∈ ws ++ loc, ValidName n) :
    (∃ text, FirmFile d ws loc text ∧
      (w.filter fun p => p.1 = placeText (ws ++ loc)) = [(placeText (ws ++ loc), ⟨grammar text, joinWith ['/'] loc⟩)]) ∨
    ((∀ text, ¬ FirmFile d ws loc text) ∧ (w.filter fun p => p.1 = placeText (ws ++ loc)) = []) := by
  by_cases h : ∃ text, FirmFile d ws loc text
  · obtain ⟨text, h⟩ := h
    exact .inl ⟨text, h, unique_entry hw.1 ((hw.2 _ _).2 ⟨loc, text, h, rfl, rfl⟩)⟩
  · refine .inr ⟨fun text ht => h ⟨text, ht⟩, List.filter_eq_nil_iff.2 fun p hp he => ?_⟩
    simp only [decide_eq_true_eq] at he
    obtain ⟨loc', text, h1, h2, _⟩ := (hw.2 p.1 p.2).1 hp
    have hv := (lookup_valid hd ((has_iff_lookup hd).1 h1.2)).2
    have := placeText_inj hv hloc (h2.symm.trans he)
    cases List.append_cancel_left this
    exact h ⟨text, h1⟩

/-- What the file contributes. -/
theorem fromFile_of {H : Host} {loc : List Str} {d : FsTree} (hd : WellFormed d) {w : Workspace}
    (hw : LoadsAs H.grammar H.ws d w) (hloc : ∀ n ∈ H.ws ++ loc, ValidName n) {es : List Entity} {ss : List EntitySchema}
    (he : List.Forall₂ (fun x e => toEntity H.lang x.1 x.2 = .ok e)
      (blocksOf "entity_block" (w.filter fun p => p.1 = placeText (H.ws ++ loc))) es)
    (hs : List.Forall₂ (fun x e => toSchema H.lang x.1 x.2 = .ok e)
      (blocksOf "schema_block" (w.filter fun p => p.1 = placeText (H.ws ++ loc))) ss) : FromFile H d loc es ss := by
  rcases entry_of_file hd hw hloc with ⟨text, h1, h2⟩ | ⟨h1, h2⟩
  · rw [h2] at he hs
    simp only [blocksOf, List.flatMap_cons, List.flatMap_nil, List.append_nil] at he hs
    exact .inl ⟨text, h1, List.forall₂_map_left_iff.1 he, List.forall₂_map_left_iff.1 hs⟩
  · rw [h2] at he hs
    cases he
    cases hs
    exact .inr ⟨h1, rfl, rfl⟩

/-- The other files are the same in both workspaces. -/
theorem others_same {grammar : Str → Node} {ws : List Str} {tp : Str} {d d' : FsTree} {w w' : Workspace}
    (hw : LoadsAs grammar ws d w) (hw' : LoadsAs grammar ws d' w')
    (h : ∀ l text, placeText (ws ++ l) ≠ tp → (FirmFile d ws l text ↔ FirmFile d' ws l text)) :
    (w.filter fun p => ¬ p.1 = tp).Perm (w'.filter fun p => ¬ p.1 = tp) := by
  refine (List.perm_ext_iff_of_nodup (.filter _ (.of_map _ hw.1)) (.filter _ (.of_map _ hw'.1))).2 ?_
  rintro ⟨path, f⟩
  simp only [List.mem_filter, decide_eq_true_eq, hw.2 path f, hw'.2 path f]
  refine and_congr_left fun hp => exists_congr fun l => exists_congr fun text => ?_
  constructor
  · rintro ⟨h1, h2, h3⟩
    exact ⟨(h l text fun he => hp (h2.trans he)).1 h1, h2, h3⟩
  · rintro ⟨h1, h2, h3⟩
    exact ⟨(h l text fun he => hp (h2.trans he)).2 h1, h2, h3⟩

/-- C159: if two servers serve disks whose source files are the same but for the one at `loc`, what they serve
differs by the definitions of this file only. -/
theorem C159_change (H : Host) (s s' : Server) (hd : WellFormed s.disk) (hd' : WellFormed s'.disk) (hs : Serves H s)
    (hs' : Serves H s') (loc : List Str) (hloc : ∀ n ∈ H.ws ++ loc, ValidName n)
    (h : ∀ l text, l ≠ loc → (FirmFile s.disk H.ws l text ↔ FirmFile s'.disk H.ws l text)) : ChangesOnly H s s' loc := by
  have hv := (C41_build _ _ _ _).1 hs.2.1
  have hv' := (C41_build _ _ _ _).1 hs'.2.1
  have ho := others_same (tp := placeText (H.ws ++ loc)) hs.1 hs'.1 fun l text hl =>
    h l text fun he => hl (by rw [he])
  obtain ⟨es0, e1, e2⟩ := forall₂_perm (f := fun b : Str × Node => toEntity H.lang b.1 b.2)
    (blocks_split "entity_block" (placeText (H.ws ++ loc)) s.state.workspace) hv.entities
  obtain ⟨es, rest, rfl, e3, e4⟩ := forall2_split e1
  obtain ⟨es0', e1', e2'⟩ := forall₂_perm (f := fun b : Str × Node => toEntity H.lang b.1 b.2)
    (blocks_split "entity_block" (placeText (H.ws ++ loc)) s'.state.workspace) hv'.entities
  obtain ⟨es', rest', rfl, e3', e4'⟩ := forall2_split e1'
  obtain ⟨ss0, s1, s2⟩ := forall₂_perm (f := fun b : Str × Node => toSchema H.lang b.1 b.2)
    (blocks_split "schema_block" (placeText (H.ws ++ loc)) s.state.workspace) hv.schemas
  obtain ⟨ss, srest, rfl, s3, s4⟩ := forall2_split s1
  obtain ⟨ss0', s1', s2'⟩ := forall₂_perm (f := fun b : Str × Node => toSchema H.lang b.1 b.2)
    (blocks_split "schema_block" (placeText (H.ws ++ loc)) s'.state.workspace) hv'.schemas
  obtain ⟨ss', srest', rfl, s3', s4'⟩ := forall2_split s1'
  obtain ⟨x, x1, x2⟩ := forall₂_perm (f := fun b : Str × Node => toEntity H.lang b.1 b.2)
    (l' := blocksOf "entity_block" (s'.state.workspace.filter fun p => ¬ p.1 = placeText (H.ws ++ loc)))
    (List.Perm.flatMap_right _ ho) e4
  obtain ⟨y, y1, y2⟩ := forall₂_perm (f := fun b : Str × Node => toSchema H.lang b.1 b.2)
    (l' := blocksOf "schema_block" (s'.state.workspace.filter fun p => ¬ p.1 = placeText (H.ws ++ loc)))
    (List.Perm.flatMap_right _ ho) s4
  rw [← forall2_fun e4' x1] at x2
  rw [← forall2_fun s4' y1] at y2
  exact ⟨es, es', rest, ss, ss', srest, fromFile_of hd hs.1 hloc e3 s3, fromFile_of hd' hs'.1 hloc e3' s3', e2,
    e2'.trans (.append_left _ x2.symm), s2, s2'.trans (.append_left _ y2.symm)⟩

/-- C159: if the source files are the same, so is what is served. -/
theorem C159_same (H : Host) (s s' : Server) (hs : Serves H s) (hs' : Serves H s')
    (h : ∀ l text, FirmFile s.disk H.ws l text ↔ FirmFile s'.disk H.ws l text) :
    s.state.build.entities.Perm s'.state.build.entities ∧ s.state.build.schemas.Perm s'.state.build.schemas := by
  have hp : s.state.workspace.Perm s'.state.workspace := by
    refine (List.perm_ext_iff_of_nodup (.of_map _ hs.1.1) (.of_map _ hs'.1.1)).2 ?_
    rintro ⟨path, f⟩
    rw [hs.1.2, hs'.1.2]
    exact exists_congr fun l => exists_congr fun t => and_congr_left fun _ => h l t
  have hv := (C41_build _ _ _ _).1 hs.2.1
  have hv' := (C41_build _ _ _ _).1 hs'.2.1
  obtain ⟨x, x1, x2⟩ := forall₂_perm (f := fun b : Str × Node => toEntity H.lang b.1 b.2)
    (l' := blocksOf "entity_block" s'.state.workspace) (List.Perm.flatMap_right _ hp) hv.entities
  obtain ⟨y, y1, y2⟩ := forall₂_perm (f := fun b : Str × Node => toSchema H.lang b.1 b.2)
    (l' := blocksOf "schema_block" s'.state.workspace) (List.Perm.flatMap_right _ hp) hv.schemas
  rw [← forall2_fun hv'.entities x1] at x2
  rw [← forall2_fun hv'.schemas y1] at y2
  exact ⟨x2, y2⟩

/-! ## Entities -/

/-- What is served is what is defined. -/
theorem served_defined {H : Host} {s : Server} (hs : Serves H s) (id : EntityId) (e : Entity) :
    s.state.graph.getEntity id = some e ↔ e.id = id ∧ ∃ loc, DefinedIn H s.disk loc e := by
  have hv := (C41_build _ _ _ _).1 hs.2.1
  have hmem : e ∈ s.state.build.entities ↔ ∃ loc, DefinedIn H s.disk loc e := by
    constructor
    · intro he
      obtain ⟨x, hx, hxe⟩ := forall2_left hv.entities e he
      obtain ⟨p, hp, h1, h2, h3⟩ := mem_blocksOf.1 hx
      obtain ⟨loc, text, hf, _, hp2⟩ := (hs.1.2 p.1 p.2).1 hp
      rw [hp2] at h1 h2
      rw [← h1] at hxe
      exact ⟨loc, text, hf, x.2, h2, h3, hxe⟩
    · rintro ⟨loc, text, hf, n, hn, hk, hne⟩
      obtain ⟨e', he', h⟩ := forall2_right hv.entities (joinWith ['/'] loc, n)
        (mem_blocksOf.2 ⟨_, (hs.1.2 _ _).2 ⟨loc, text, hf, rfl, rfl⟩, rfl, hn, hk⟩)
      rw [hne] at h
      cases h
      exact he'
  rw [← hmem, and_comm]
  obtain ⟨hg, hacc, _⟩ := toGraph_run hs.2.2
  rw [hg, C01_lookup, hacc]

/-- C159: what is defined in another file is served before and after a change. -/
theorem C159_stays (H : Host) (s s' : Server) (hs : Serves H s) (hs' : Serves H s') (loc : List Str)
    (h : ∀ l text, l ≠ loc → (FirmFile s.disk H.ws l text ↔ FirmFile s'.disk H.ws l text)) (l : List Str) (hl : l ≠ loc)
    (e : Entity) (he : DefinedIn H s.disk l e) :
    s.state.graph.getEntity e.id = some e ∧ s'.state.graph.getEntity e.id = some e := by
  obtain ⟨text, hf, hx⟩ := he
  exact ⟨(served_defined hs _ _).2 ⟨rfl, l, text, hf, hx⟩, (served_defined hs' _ _).2 ⟨rfl, l, text, (h l text hl).1 hf, hx⟩⟩

theorem mem_fromFile {H : Host} {d : FsTree} (hd : WellFormed d) {loc : List Str} {es : List Entity} {ss : List EntitySchema}
    (h : FromFile H d loc es ss) (e : Entity) : e ∈ es ↔ DefinedIn H d loc e := by
  rcases h with ⟨text, h1, h2, _⟩ | ⟨h1, rfl, _⟩
  · constructor
    · intro he
      obtain ⟨n, hn, hne⟩ := forall2_left h2 e he
      obtain ⟨hn, hk⟩ := List.mem_filter.1 hn
      exact ⟨text, h1, n, hn, of_decide_eq_true hk, hne⟩
    · rintro ⟨text', h1', n, hn, hk, hne⟩
      cases has_file_unique hd h1'.2 h1.2
      obtain ⟨e', he', h⟩ := forall2_right h2 n (List.mem_filter.2 ⟨hn, decide_eq_true hk⟩)
      rw [hne] at h
      cases h
      exact he'
  · exact ⟨(fun h => by cases h), fun ⟨text, h, _⟩ => absurd h (h1 text)⟩

/-- C159: what was defined in the changed file is served afterwards only if the file still defines its id. -/
theorem C159_gone (H : Host) (s s' : Server) (hd : WellFormed s.disk) (hd' : WellFormed s'.disk) (hs : Serves H s)
    (hs' : Serves H s') (loc : List Str) (h : ChangesOnly H s s' loc) (e : Entity) (he : DefinedIn H s.disk loc e) :
    s.state.graph.getEntity e.id = some e ∧
    ∀ e', s'.state.graph.getEntity e.id = some e' ↔ DefinedIn H s'.disk loc e' ∧ e'.id = e.id := by
  refine ⟨(served_defined hs _ _).2 ⟨rfl, loc, he⟩, fun e' => ⟨fun h' => ?_, fun h' => (served_defined hs' _ _).2 ⟨h'.2, loc, h'.1⟩⟩⟩
  obtain ⟨es, es', rest, ss, ss', srest, h1, h2, h3, h4, _, _⟩ := h
  obtain ⟨hg, hacc, _, hn⟩ := toGraph_run hs.2.2
  obtain ⟨hg', hacc', _, _⟩ := toGraph_run hs'.2.2
  rw [hg', C01_lookup, hacc'] at h'
  obtain ⟨hm, hid⟩ := h'
  rcases List.mem_append.1 (h4.mem_iff.1 hm) with hm | hm
  · exact ⟨(mem_fromFile hd' h2 e').1 hm, hid⟩
  · have hn := (h3.map Entity.id).nodup_iff.1 hn
    rw [List.map_append, List.nodup_append] at hn
    exact absurd hid.symm (hn.2.2 _ (List.mem_map.2 ⟨e, (mem_fromFile hd h1 e).2 he, rfl⟩) _ (List.mem_map.2 ⟨e', hm, rfl⟩))

/-! ## The tools -/

/-- What a change of one place on the disk means for the source files. -/
theorem leafSet_files {ws : List Str} {d d' : FsTree} (hd : WellFormed d) (hd' : WellFormed d') {place : List Str}
    {u : Option FsTree} (h : LeafSet d d' place u) (l : List Str) (text : Str) (hl : ws ++ l ≠ place) :
    FirmFile d ws l text ↔ FirmFile d' ws l text := by
  have hnd : NotDir (.file (some text)) := fun es h => by cases h
  have key : ∀ d : FsTree, WellFormed d → (Has d (ws ++ l) (.file (some text)) ↔ leafAt d (ws ++ l) = some (.file (some text))) :=
    fun d hd => by rw [has_iff_lookup hd, leafAt_eq_some]; exact (and_iff_left hnd).symm
  unfold FirmFile
  rw [key d hd, key d' hd', h (ws ++ l), if_neg hl]

/-- What a success of the tools gives. -/
theorem changed_by {H : Host} (hws : ∀ n ∈ H.ws, ValidName n) {order : Workspace → Workspace}
    (ho : ∀ w, (order w).Perm w) {s : Server} (hd : WellFormed s.disk) (hs : Serves H s) {d : FsTree} (hd' : WellFormed d)
    {place : List Str} {u : Option FsTree} (h : LeafSet s.disk d place u) (hplace : ∀ n ∈ place, ValidName n)
    {st : ServerState} (hr : rebuild H order d = .ok st) :
    Serves H ⟨d, st⟩ ∧ (∀ loc, place = H.ws ++ loc → ChangesOnly H s ⟨d, st⟩ loc) ∧
    ((∀ loc, place ≠ H.ws ++ loc) → s.state.build.entities.Perm st.build.entities ∧ s.state.build.schemas.Perm st.build.schemas) := by
  have hs' := rebuild_serves hd' hws ho hr
  refine ⟨hs', ?_, fun hno => C159_same H s ⟨d, st⟩ hs hs' fun l t => leafSet_files hd hd' h l t (Ne.symm (hno l))⟩
  rintro loc rfl
  exact C159_change H s ⟨d, st⟩ hd hd' hs hs' loc hplace fun l t hl => leafSet_files hd hd' h l t (by simpa using hl)

/-- C159: after a success of `write_source` the file has the given text and what is served differs by the definitions
of this file; nothing differs if the place is outside the workspace. -/
theorem C159_write (H : Host) (hws : ∀ n ∈ H.ws, ValidName n) (order : Workspace → Workspace)
    (ho : ∀ w, (order w).Perm w) (s : Server) (hd : WellFormed s.disk) (hs : Serves H s) (path content : Str) (force : Bool)
    (h : (writeSource H order s path content force).2 = .success) :
    Serves H (writeSource H order s path content force).1 ∧
    Has (writeSource H order s path content force).1.disk (lexicalPlace H.ws (pathComponents path)) (.file (some content)) ∧
    (∀ loc, lexicalPlace H.ws (pathComponents path) = H.ws ++ loc →
      ChangesOnly H s (writeSource H order s path content force).1 loc) ∧
    ((∀ loc, lexicalPlace H.ws (pathComponents path) ≠ H.ws ++ loc) →
      s.state.build.entities.Perm (writeSource H order s path content force).1.state.build.entities ∧
      s.state.build.schemas.Perm (writeSource H order s path content force).1.state.build.schemas) := by
  have hnd : NotDir (.file (some content)) := fun es h => by cases h
  unfold writeSource at h ⊢
  cases hv : validateAndWrite H s.disk path content with
  | mk d o =>
    obtain ⟨h1, _, h3⟩ := validateAndWrite_spec hd hws hv
    rw [hv] at h
    cases o with
    | none => cases h
    | some original =>
      obtain ⟨a, _, _, _, _⟩ := h3 _ rfl
      dsimp only at h ⊢
      cases hr : rebuild H order d with
      | error e => rw [hr] at h; dsimp only at h; split at h <;> cases h
      | ok st =>
        dsimp only
        have hl := a (lexicalPlace H.ws (pathComponents path))
        rw [if_pos rfl, leafAt_eq_some] at hl
        have hhas := (has_iff_lookup h1).2 hl.1
        obtain ⟨k1, k2, k3⟩ := changed_by hws ho hd hs h1 a (lookup_valid h1 hl.1).2 hr
        exact ⟨k1, hhas, k2, k3⟩

/-- C159: after a success of `delete_source` the file is gone and what is served differs by its definitions. -/
theorem C159_delete (H : Host) (hws : ∀ n ∈ H.ws, ValidName n) (order : Workspace → Workspace)
    (ho : ∀ w, (order w).Perm w) (s : Server) (hd : WellFormed s.disk) (hs : Serves H s) (path : Str) (force : Bool)
    (h : (deleteSource H order s path force).2 = .success) :
    ∃ loc, lexicalPlace H.ws (pathComponents path) = H.ws ++ loc ∧ Serves H (deleteSource H order s path force).1 ∧
      (∀ u, NotDir u → ¬ Has (deleteSource H order s path force).1.disk (H.ws ++ loc) u) ∧
      ChangesOnly H s (deleteSource H order s path force).1 loc := by
  unfold deleteSource at h ⊢
  cases hv : deleteExecute s.disk H.ws path with
  | none => rw [hv] at h; cases h
  | some r =>
    obtain ⟨d, original⟩ := r
    obtain ⟨h1, h2, h3, h4, _, _⟩ := deleteExecute_spec hd hv
    rw [hv] at h
    dsimp only at h ⊢
    cases hr : rebuild H order d with
    | error e => rw [hr] at h; dsimp only at h; split at h <;> cases h
    | ok st =>
      obtain ⟨loc, hloc⟩ := absolute_inside h4 (.inl (by rw [h3]; simp))
      obtain ⟨k1, k2, _⟩ := changed_by hws ho hd hs h1 h2 (lookup_valid hd h3).2 hr
      refine ⟨loc, hloc.symm, k1, fun u hu hh => ?_, k2 loc hloc.symm⟩
      have := (has_iff_lookup h1).1 hh
      rw [hloc] at this
      have hl := h2 (lexicalPlace H.ws (pathComponents path))
      rw [if_pos rfl] at hl
      have := (leafAt_eq_some (d := d)).2 ⟨this, hu⟩
      rw [hl] at this
      cases this

/-- C159: after a success of `replace_source` the file has the new text and what is served differs by its
definitions. -/
theorem C159_replace (H : Host) (hws : ∀ n ∈ H.ws, ValidName n) (order : Workspace → Workspace)
    (ho : ∀ w, (order w).Perm w) (s : Server) (hd : WellFormed s.disk) (hs : Serves H s) (path old new : Str)
    (all force : Bool) (h : (replaceSource H order s path old new all force).2 = .success) :
    ∃ loc text content k, lexicalPlace H.ws (pathComponents path) = H.ws ++ loc ∧
      Serves H (replaceSource H order s path old new all force).1 ∧
      Has s.disk (H.ws ++ loc) (.file (some text)) ∧ replaceText text old new all = some (content, k) ∧
      Has (replaceSource H order s path old new all force).1.disk (H.ws ++ loc) (.file (some content)) ∧
      ChangesOnly H s (replaceSource H order s path old new all force).1 loc := by
  unfold replaceSource at h ⊢
  cases hx : replaceExecute s.disk H.ws path old new all with
  | none => rw [hx] at h; cases h
  | some r =>
    obtain ⟨content, k⟩ := r
    rw [hx] at h
    dsimp only at h ⊢
    unfold replaceExecute at hx
    split at hx
    · cases hx
    · cases hread : readSourceFile s.disk H.ws path with
      | none => rw [hread] at hx; cases hx
      | some text =>
        rw [hread] at hx
        dsimp only at hx
        obtain ⟨r1, ⟨loc, r2⟩, _⟩ := readSourceFile_spec hread
        cases hv : validateAndWrite H s.disk path content with
        | mk d o =>
          obtain ⟨h1, _, h3⟩ := validateAndWrite_spec hd hws hv
          rw [hv] at h
          cases o with
          | none => cases h
          | some original =>
            obtain ⟨a, _, _, _, _⟩ := h3 _ rfl
            dsimp only at h ⊢
            cases hr : rebuild H order d with
            | error e => rw [hr] at h; dsimp only at h; split at h <;> cases h
            | ok st =>
              dsimp only
              have hl := a (lexicalPlace H.ws (pathComponents path))
              rw [if_pos rfl, leafAt_eq_some] at hl
              obtain ⟨k1, k2, _⟩ := changed_by hws ho hd hs h1 a (lookup_valid h1 hl.1).2 hr
              refine ⟨loc, text, content, k, r2.symm, k1, ?_, hx, ?_, k2 loc r2.symm⟩
              · rw [r2]; exact (has_iff_lookup hd).2 r1
              · rw [r2]; exact (has_iff_lookup h1).2 hl.1

/-! ## A sample -/

/-- The grammar of the sample server with a further text that defines carol. -/
def exCarolGrammar (text : Str) : Node :=
  if text = "C".toList then .mk "source_file".toList text
    [exEntityNode "person" "carol" [exFieldNode "name" "string" "\"Carol\""]]
  else exGrammar text

def exCarolHost : Host := { exHost with grammar := exCarolGrammar }

def exCarolServer : Server := ⟨exDisk, match rebuild exCarolHost id exDisk with
  | .ok st => st
  | .error _ => ⟨[], ⟨[], []⟩, Graph.empty⟩⟩

theorem exCarolServer_serves : Serves exCarolHost exCarolServer := by
  have h : rebuild exCarolHost id exDisk = .ok exCarolServer.state := by
    unfold exCarolServer
    cases hr : rebuild exCarolHost id exDisk with
    | ok st => rfl
    | error e =>
      have : (match rebuild exCarolHost id exDisk with | .ok _ => true | .error _ => false) = true := by decide +kernel
      rw [hr] at this
      cases this
  exact rebuild_serves exDisk_wf exHost_ws (fun w => List.Perm.refl w) h

/-- The three tools succeed with places inside the workspace, and `write_source` also outside of it. -/
example :
    ((writeSource exCarolHost id exCarolServer "b.firm".toList "C".toList false).2 = .success ∧
      (writeSource exCarolHost id exCarolServer "b.firm".toList "C".toList false).1.state.build.entities.map (·.id) =
        ["person.alice".toList, "person.carol".toList]) ∧
    ((deleteSource exCarolHost id exCarolServer "b.firm".toList false).2 = .success ∧
      (deleteSource exCarolHost id exCarolServer "b.firm".toList false).1.state.build.entities.map (·.id) =
        ["person.alice".toList]) ∧
    ((replaceSource exCarolHost id exCarolServer "b.firm".toList "B".toList "C".toList false false).2 = .success ∧
      (replaceSource exCarolHost id exCarolServer "b.firm".toList "B".toList "C".toList false false).1.state.build.entities.map (·.id) =
        ["person.alice".toList, "person.carol".toList]) ∧
    lexicalPlace exCarolHost.ws (pathComponents "b.firm".toList) = exCarolHost.ws ++ ["b.firm".toList] ∧
    (writeSource exCarolHost id exCarolServer "/etc/x.firm".toList "S".toList false).2 = .success ∧
    ∀ loc, lexicalPlace exCarolHost.ws (pathComponents "/etc/x.firm".toList) ≠ exCarolHost.ws ++ loc := by
  refine ⟨by decide +kernel, by decide +kernel, by decide +kernel, by decide, by decide +kernel, fun loc h => ?_⟩
  have h1 : lexicalPlace exCarolHost.ws (pathComponents "/etc/x.firm".toList) = ["etc".toList, "x.firm".toList] := by decide
  rw [h1] at h
  exact absurd (List.cons.inj h).1 (by decide)

/-- The hypotheses of `C159_gone` and `C159_stays` are met: bob is defined in `b.firm`, alice in `a.firm`. -/
example : ∃ s' alice bob, Serves exCarolHost s' ∧ ChangesOnly exCarolHost exCarolServer s' ["b.firm".toList] ∧
    DefinedIn exCarolHost exCarolServer.disk ["b.firm".toList] bob ∧
    DefinedIn exCarolHost exCarolServer.disk ["a.firm".toList] alice ∧
    (bob.id, alice.id) = ("person.bob".toList, "person.alice".toList) ∧
    s'.state.graph.getEntity "person.bob".toList = none := by
  obtain ⟨loc, h1, h2, h3, h4⟩ := C159_delete exCarolHost exHost_ws id (fun w => List.Perm.refl w) exCarolServer exDisk_wf
    exCarolServer_serves "b.firm".toList false (by decide +kernel)
  have hp : lexicalPlace exCarolHost.ws (pathComponents "b.firm".toList) = exCarolHost.ws ++ ["b.firm".toList] := by decide
  cases List.append_cancel_left (h1.symm.trans hp)
  have key : ∀ (file text : String) (node : Node) (id : String), FirmFile exDisk exCarolHost.ws [file.toList] text.toList →
      node ∈ (exCarolHost.grammar text.toList).children → node.kind = "entity_block".toList →
      (match toEntity exCarolHost.lang (joinWith ['/'] [file.toList]) node with
        | .ok e => decide (e.id = id.toList) | .error _ => false) = true →
      ∃ e, DefinedIn exCarolHost exCarolServer.disk [file.toList] e ∧ e.id = id.toList := by
    intro file text node id hf hn hk hm
    cases hr : toEntity exCarolHost.lang (joinWith ['/'] [file.toList]) node with
    | error e => rw [hr] at hm; cases hm
    | ok e => rw [hr] at hm; exact ⟨e, ⟨_, hf, node, hn, hk, hr⟩, of_decide_eq_true hm⟩
  obtain ⟨bob, b1, b2⟩ := key "b.firm" "B" (exEntityNode "person" "bob" [exFieldNode "name" "string" "\"Bob\""]) "person.bob"
    ⟨⟨[], _, rfl, "b".toList, by decide, rfl⟩, (has_iff_lookup exDisk_wf).2 (by rfl)⟩
    (by exact .head _) (by rfl) (by decide +kernel)
  obtain ⟨alice, a1, a2⟩ := key "a.firm" "S" (exEntityNode "person" "alice" [exFieldNode "name" "string" "\"Alice\""]) "person.alice"
    ⟨⟨[], _, rfl, "a".toList, by decide, rfl⟩, (has_iff_lookup exDisk_wf).2 (by rfl)⟩
    (by exact .tail _ (.head _)) (by rfl) (by decide +kernel)
  exact ⟨_, alice, bob, h2, h4, b1, a1, by rw [a2, b2], by
    have : ((deleteSource exCarolHost id exCarolServer "b.firm".toList false).1.state.graph.getEntity
      "person.bob".toList).isNone = true := by decide +kernel
    exact Option.isNone_iff_eq_none.1 this⟩

end Firm
