import Verif.Model.Reading
import Verif.Props.Tools
import Verif.Props.QueryFields

/-! # Properties of the tools that only read (C83–C86) -/

namespace Firm
open Spec

/-! ## Preparations -/

variable {T : CaseTable}

/-- A composite id begins with the type, if that is normalised. -/
theorem compose_prefix (hT : RegularCase T) {ty : Str} (hs : IsSnake T ty) (i : Str) :
    ∃ r, T.composeEntityId ty i = ty ++ '.' :: r := by
  unfold CaseTable.composeEntityId
  rw [lower_fixed hT fun c hc => (hs.chars c hc).1]
  obtain ⟨pre, z, h1, h2⟩ := allWords_dot hT ty i
  have hfix := snake_fixed hT hs
  have hz : (pre.filter (fun w => !w.isEmpty) ++ [z]).map T.lower = (pre.filter (fun w => !w.isEmpty)).map T.lower ++ [T.lower z] := by simp
  have hty : joinUnderscore ((pre.filter (fun w => !w.isEmpty)).map T.lower ++ [T.lower z]) = ty := by
    by_cases h0 : ty = []
    · subst h0
      have : pre = [] ∧ z = [] := by
        have h3 : T.allWords [] = [[]] := rfl
        rw [h3] at h1
        cases pre with
        | nil => simp at h1; exact ⟨rfl, h1⟩
        | cons p pre => simp at h1
      rw [this.1, this.2]
      rfl
    · have hzne : z ≠ [] := by
        refine splitWords_last h1 ?_ h0
        intro c hc
        have hmem := hs.chars c (List.mem_of_mem_getLast? hc)
        have hl : c ≠ '_' := fun h => hs.last (h ▸ hc)
        simp [isDelim, hmem.2.1, hmem.2.2, hl]
      unfold CaseTable.snake CaseTable.words at hfix
      rw [show (T.splitWords ty).1 :: (T.splitWords ty).2 = pre ++ [z] from h1, List.filter_append] at hfix
      have : [z].filter (fun w => !w.isEmpty) = [z] := by
        cases z with
        | nil => exact absurd rfl hzne
        | cons _ _ => rfl
      rw [this, hz] at hfix
      exact hfix
  refine ⟨joinUnderscore (T.lower (T.splitWords i).1 :: ((T.splitWords i).2.filter (fun w => !w.isEmpty)).map T.lower), ?_⟩
  unfold CaseTable.snake CaseTable.words
  rw [show (T.splitWords (ty ++ '.' :: i)).1 :: (T.splitWords (ty ++ '.' :: i)).2 = _ from h2, List.filter_append]
  have hmid : ((z ++ '.' :: (T.splitWords i).1) :: (T.splitWords i).2).filter (fun w => !w.isEmpty) =
      (z ++ '.' :: (T.splitWords i).1) :: (T.splitWords i).2.filter (fun w => !w.isEmpty) := by
    rw [List.filter_cons_of_pos]
    cases z <;> rfl
  rw [hmid, List.map_append, List.map_cons, lower_append, lower_cons,
    hT.keep '.' (hT.delim '.' (.inr rfl)).1, List.singleton_append, join_glue, hty]

/-- A normalised id split at the dot is composed to the same id again. -/
theorem compose_again (hT : RegularCase T) {ty r : Str} (hs : IsSnake T ty) (h : IsSnake T (ty ++ '.' :: r)) :
    T.composeEntityId ty r = ty ++ '.' :: r := by
  unfold CaseTable.composeEntityId
  rw [lower_fixed hT fun c hc => (hs.chars c hc).1, snake_fixed hT h]

theorem forall2_left {α β : Type} {R : α → β → Prop} : ∀ {as : List α} {bs : List β}, List.Forall₂ R as bs →
    ∀ b ∈ bs, ∃ a ∈ as, R a b
  | _, _, .nil, b, hb => by cases hb
  | _, _, .cons h hs, b, hb => by
    rcases List.mem_cons.1 hb with rfl | hb
    · exact ⟨_, List.mem_cons_self, h⟩
    · obtain ⟨a, ha, hr⟩ := forall2_left hs b hb
      exact ⟨a, List.mem_cons_of_mem _ ha, hr⟩

/-- The type of every entity in a build is normalised. -/
theorem build_types {L : Lang} (hL : RegularCase L.cases) {w : Workspace} {b : WorkspaceBuild}
    (h : w.build L = .ok b) {e : Entity} (he : e ∈ b.entities) : IsSnake L.cases e.entityType := by
  have hv := (C41_build L w b.entities b.schemas).1 h
  obtain ⟨s, hs, ht, _⟩ := hv.checked e he
  obtain ⟨bl, _, hc⟩ := forall2_left hv.schemas s hs
  obtain ⟨name, _, hn⟩ := toSchema_type hc
  rw [← ht, hn]
  exact C47_normal_partial hL name

/-- Where an entity of a build comes from. -/
theorem build_block {L : Lang} {w : Workspace} {b : WorkspaceBuild}
    (h : w.build L = .ok b) {e : Entity} (he : e ∈ b.entities) :
    ∃ p ∈ w, ∃ n ∈ p.2.entities, toEntity L p.2.rel n = .ok e := by
  have hv := (C41_build L w b.entities b.schemas).1 h
  obtain ⟨bl, hbl, hc⟩ := forall2_left hv.entities e he
  unfold blocksOf at hbl
  obtain ⟨p, hp, hm⟩ := List.mem_flatMap.1 hbl
  obtain ⟨n, hn, rfl⟩ := List.mem_map.1 hm
  exact ⟨p, hp, n, hn, hc⟩

theorem forall2_right {α β : Type} {R : α → β → Prop} : ∀ {as : List α} {bs : List β}, List.Forall₂ R as bs →
    ∀ a ∈ as, ∃ b ∈ bs, R a b
  | _, _, .nil, b, hb => by cases hb
  | _, _, .cons h hs, b, hb => by
    rcases List.mem_cons.1 hb with rfl | hb
    · exact ⟨_, List.mem_cons_self, h⟩
    · obtain ⟨a, ha, hr⟩ := forall2_right hs b hb
      exact ⟨a, List.mem_cons_of_mem _ ha, hr⟩

/-- Every entity block of the files is an entity of the build. -/
theorem block_built {L : Lang} {w : Workspace} {b : WorkspaceBuild}
    (h : w.build L = .ok b) {p : Str × SourceFile} (hp : p ∈ w) {n : Node} (hn : n ∈ p.2.entities) :
    ∃ e ∈ b.entities, toEntity L p.2.rel n = .ok e := by
  have hv := (C41_build L w b.entities b.schemas).1 h
  refine forall2_right hv.entities (p.2.rel, n) ?_
  unfold blocksOf
  exact List.mem_flatMap.2 ⟨p, hp, List.mem_map.2 ⟨n, hn, rfl⟩⟩

theorem toEntity_spelled {L : Lang} {source : Str} {n : Node} {e : Entity} (h : toEntity L source n = .ok e) :
    ∃ i, entityTypeOf n = some e.entityType ∧ entityIdOf n = some i ∧ e.id = L.cases.composeEntityId e.entityType i := by
  unfold toEntity at h
  split at h
  · cases h
  · next ty hty =>
    split at h
    · cases h
    · next i hi =>
      split at h
      · cases h
      · cases h
        exact ⟨i, hty, hi, rfl⟩

/-- The graph of a build as a history of graph operations. -/
theorem toGraph_run {b : WorkspaceBuild} {g : Graph} (h : b.toGraph = (g, .ok ())) :
    g = Graph.run (b.entities.map .add ++ [.build]) ∧ accepted (b.entities.map .add ++ [.build]) = b.entities ∧
      accepted (b.entities.map .add) = b.entities ∧ (b.entities.map (·.id)).Nodup := by
  have h2 := C02_bulk_ok [] b.entities
  have hrun : Graph.run [] = Graph.empty := rfl
  rw [hrun] at h2
  unfold WorkspaceBuild.toGraph at h
  cases hg : Graph.empty.addEntities b.entities with
  | mk g' r =>
    rw [hg] at h2 h
    cases r with
    | error e => cases h
    | ok u =>
      have hn := h2.1.1 rfl
      have hgr := h2.2 hn
      simp only [List.nil_append] at hgr
      subst hgr
      have hacc : accepted (b.entities.map .add) = b.entities := accepted_adds hn
      have hacc' : accepted (b.entities.map .add ++ [.build]) = b.entities := by
        rw [accepted_snoc]
        exact hacc
      cases h
      refine ⟨by rw [run_snoc]; rfl, hacc', hacc, ?_⟩
      have := C01_unique (b.entities.map .add)
      rwa [hacc] at this

theorem find_unique {b : WorkspaceBuild} (hn : (b.entities.map (·.id)).Nodup) {e : Entity} (he : e ∈ b.entities)
    {k : Str} (hk : e.id = k) : (b.entities.find? fun x => decide (x.id = k)) = some e := by
  cases hf : b.entities.find? fun x => decide (x.id = k) with
  | none =>
    have := List.find?_eq_none.1 hf e he
    simp [hk] at this
  | some x =>
    have h1 := List.mem_of_find?_eq_some hf
    have h2 := List.find?_some hf
    simp only [decide_eq_true_eq] at h2
    rw [List.inj_on_of_nodup_map hn h1 he (h2.trans hk.symm)]

/-! ## C83: list and get -/

/-- C83: `list` prints the ids of exactly the entities of the type, one per line. -/
theorem C83_list (b : WorkspaceBuild) (type : Str) (ht : type ≠ "schema".toList)
    (hline : ∀ e ∈ b.entities, '\n' ∉ e.id) :
    ((¬ ∃ e ∈ b.entities, e.entityType = type) → listTool b type = []) ∧
    ((∃ e ∈ b.entities, e.entityType = type) →
      ∀ line, line ∈ splitChar '\n' (listTool b type) ↔ ∃ e ∈ b.entities, e.entityType = type ∧ e.id = line) := by
  unfold listTool
  rw [if_neg ht]
  constructor
  · intro h
    have : (b.entities.filter fun e => decide (e.entityType = type)) = [] := by
      rw [List.filter_eq_nil_iff]
      intro e he hd
      exact h ⟨e, he, by simpa using hd⟩
    rw [this]
    rfl
  · rintro ⟨e, he, hty⟩ line
    rw [splitChar_join]
    · simp only [List.mem_map, List.mem_filter, decide_eq_true_eq]
      exact ⟨fun ⟨x, ⟨h1, h2⟩, h3⟩ => ⟨x, h1, h2, h3⟩, fun ⟨x, h1, h2, h3⟩ => ⟨x, ⟨h1, h2⟩, h3⟩⟩
    · intro h
      have hm : e ∈ b.entities.filter fun e => decide (e.entityType = type) := by
        rw [List.mem_filter]
        exact ⟨he, by simpa using hty⟩
      rw [List.map_eq_nil_iff] at h
      rw [h] at hm
      cases hm
    · intro n hn
      obtain ⟨x, hx, rfl⟩ := List.mem_map.1 hn
      exact hline x (List.mem_filter.1 hx).1

/-- C83: the part of a printed id after the type and the dot can be given to `get`, which shows the
entity. Missing for the full claim: the id as printed, with which `get` fails (`C83_as_printed`). -/
theorem C83_get_partial (H : Host) (hT : RegularCase H.lang.cases) (s : Server) (hs : Serves H s) {e : Entity}
    (he : e ∈ s.state.build.entities) (ht : e.entityType ≠ "schema".toList) :
    ∃ i, e.id = e.entityType ++ '.' :: i ∧
      getTool H.lang.cases s.state.build e.entityType i = some (.entity e) := by
  have hty := build_types hT hs.2.1 he
  obtain ⟨p, _, n, _, hn⟩ := build_block hs.2.1 he
  obtain ⟨i, _, _, hid⟩ := toEntity_spelled hn
  obtain ⟨r, hr⟩ := compose_prefix hT hty i
  have hsn : IsSnake H.lang.cases (e.entityType ++ '.' :: r) := by
    rw [← hr]
    exact C47_normal_partial hT _
  refine ⟨r, hid.trans hr, ?_⟩
  unfold getTool
  rw [if_neg ht, compose_again hT hty hsn, find_unique (toGraph_run hs.2.2).2.2.2 he (hid.trans hr)]
  rfl

/-- C83: schemas by their printed names. -/
theorem C83_schema (L : Lang) (w : Workspace) (b : WorkspaceBuild) (h : w.build L = .ok b)
    (hline : ∀ s ∈ b.schemas, '\n' ∉ s.entityType) :
    (b.schemas ≠ [] → ∀ line, line ∈ splitChar '\n' (listTool b "schema".toList) ↔
      ∃ s ∈ b.schemas, s.entityType = line) ∧
    ∀ s ∈ b.schemas, getTool L.cases b "schema".toList s.entityType = some (.schema s) := by
  constructor
  · intro hne line
    unfold listTool
    rw [if_pos rfl, splitChar_join (by simpa using hne)]
    · simp
    · intro n hn
      obtain ⟨s, hs, rfl⟩ := List.mem_map.1 hn
      exact hline s hs
  · intro s hs
    unfold getTool
    rw [if_pos rfl]
    cases hf : b.schemas.find? fun x => decide (x.entityType = s.entityType) with
    | none =>
      have := List.find?_eq_none.1 hf s hs
      simp at this
    | some x =>
      have h1 := List.mem_of_find?_eq_some hf
      have h2 := List.find?_some hf
      simp only [decide_eq_true_eq] at h2
      rw [(C42_consistent L w b h).1 x h1 s hs h2]
      rfl

/-- C83 is false for ids as they are printed: with them `get` fails for every entity, unless some id of
the workspace contains two dots. -/
theorem C83_as_printed (H : Host) (hT : RegularCase H.lang.cases) (s : Server) (hs : Serves H s) {e : Entity}
    (he : e ∈ s.state.build.entities) (ht : e.entityType ≠ "schema".toList)
    (hdots : ∀ x ∈ s.state.build.entities, x.id.count '.' ≤ 1) :
    getTool H.lang.cases s.state.build e.entityType e.id = none := by
  have hty := build_types hT hs.2.1 he
  obtain ⟨i, hid, _⟩ := C83_get_partial H hT s hs he ht
  unfold getTool
  rw [if_neg ht, Option.map_eq_none_iff, List.find?_eq_none]
  intro x hx hk
  simp only [decide_eq_true_eq] at hk
  obtain ⟨r, hr⟩ := compose_prefix hT hty e.id
  have hfull : H.lang.cases.composeEntityId e.entityType e.id = e.entityType ++ '.' :: e.id := by
    obtain ⟨p, _, n, _, hn⟩ := build_block hs.2.1 he
    obtain ⟨j, _, _, hid'⟩ := toEntity_spelled hn
    have hsn : IsSnake H.lang.cases e.id := by rw [hid']; exact C47_normal_partial hT _
    have hdel : ∀ (c : Char), H.lang.cases.isUpper c = false ∧ c ≠ ' ' ∧ c ≠ '-' → c ≠ '_' → isDelim c = false := by
      intro c h1 h2
      simp [isDelim, h1.2.1, h1.2.2, h2]
    rw [compose_eq hT (fun c hc => hdel c (hty.chars c (List.mem_of_mem_getLast? hc)) fun h => hty.last (h ▸ hc))
      (fun c hc => hdel c (hsn.chars c (List.mem_of_mem_head? hc)) fun h => hsn.first (h ▸ hc)),
      lower_fixed hT fun c hc => (hty.chars c hc).1, snake_fixed hT hty, snake_fixed hT hsn]
  have := hdots x hx
  rw [hk, hfull, hid, List.count_append, List.count_cons_self, List.count_append, List.count_cons_self] at this
  omega

/-- The ids of the sample server, printed and given to `get`. -/
example : listTool exServer.state.build "person".toList = "person.alice\nperson.bob".toList ∧
    getTool exHost.lang.cases exServer.state.build "person".toList "alice".toList =
      exServer.state.build.entities.head?.map .entity ∧
    getTool exHost.lang.cases exServer.state.build "person".toList "person.alice".toList = none := by
  decide +kernel

example : RegularCase exHost.lang.cases ∧ Serves exHost exServer ∧
    ∀ x ∈ exServer.state.build.entities, x.id.count '.' ≤ 1 ∧ '\n' ∉ x.id ∧ x.entityType ≠ "schema".toList :=
  ⟨asciiTable_regular, exServer_serves, by decide +kernel⟩

/-! ## C84: the readers agree -/

/-- C84: whether an entity exists and which one it is. -/
theorem C84_get (H : Host) (s : Server) (hs : Serves H s) (type id : Str) (ht : type ≠ "schema".toList) :
    (∀ e, getTool H.lang.cases s.state.build type id = some (.entity e) ↔
      cliGetEntity H.lang.cases s.state.graph type id = some e) ∧
    (∀ dir, relatedTool H.lang.cases s.state.graph type id dir = none ↔
      getTool H.lang.cases s.state.build type id = none) ∧
    ∀ dir, cliRelated H.lang.cases s.state.graph type id dir = none ↔
      cliGetEntity H.lang.cases s.state.graph type id = none := by
  obtain ⟨hg, hacc, _, hn⟩ := toGraph_run hs.2.2
  have key : ∀ e, s.state.graph.getEntity (H.lang.cases.composeEntityId type id) = some e ↔
      e ∈ s.state.build.entities ∧ e.id = H.lang.cases.composeEntityId type id := by
    intro e
    rw [hg, C01_lookup, hacc]
  have hget : ∀ e, getTool H.lang.cases s.state.build type id = some (.entity e) ↔
      cliGetEntity H.lang.cases s.state.graph type id = some e := by
    intro e
    unfold getTool cliGetEntity
    rw [if_neg ht, key]
    constructor
    · intro h
      obtain ⟨x, hx, he⟩ := Option.map_eq_some_iff.1 h
      cases he
      exact ⟨List.mem_of_find?_eq_some hx, by simpa using List.find?_some hx⟩
    · rintro ⟨h1, h2⟩
      rw [find_unique hn h1 h2]
      rfl
  have hnone : getTool H.lang.cases s.state.build type id = none ↔
      cliGetEntity H.lang.cases s.state.graph type id = none := by
    cases hc : cliGetEntity H.lang.cases s.state.graph type id with
    | some e => rw [(hget e).2 hc]; simp
    | none =>
      cases hb : getTool H.lang.cases s.state.build type id with
      | none => simp
      | some x =>
        cases x with
        | entity e => rw [(hget e).1 hb] at hc; cases hc
        | schema x =>
          unfold getTool at hb
          rw [if_neg ht] at hb
          obtain ⟨_, _, h⟩ := Option.map_eq_some_iff.1 hb
          cases h
  have hrel : ∀ dir, s.state.graph.getRelated (H.lang.cases.composeEntityId type id) dir = none ↔
      cliGetEntity H.lang.cases s.state.graph type id = none := by
    intro dir
    unfold cliGetEntity
    rw [hg]
    exact (C07_related_set _ _ dir).1
  refine ⟨hget, fun dir => ?_, fun dir => hrel _⟩
  rw [hnone, ← hrel dir]
  unfold relatedTool
  cases s.state.graph.getRelated (H.lang.cases.composeEntityId type id) dir with
  | none => simp
  | some l => cases l <;> simp

/-- C84: the entities of a type. -/
theorem C84_list (H : Host) (s : Server) (hs : Serves H s) (type : Str) (ht : type ≠ "schema".toList) :
    cliListEntities s.state.graph type =
      (s.state.build.entities.filter fun e => e.entityType = type).map (·.id) ∧
    listTool s.state.build type = joinWith ['\n'] (cliListEntities s.state.graph type) := by
  obtain ⟨hg, hacc, _, _⟩ := toGraph_run hs.2.2
  have h1 : cliListEntities s.state.graph type =
      (s.state.build.entities.filter fun e => e.entityType = type).map (·.id) := by
    unfold cliListEntities
    rw [hg, C03_list_by_type, hacc]
  refine ⟨h1, ?_⟩
  unfold listTool
  rw [if_neg ht, h1]

/-- C84: the query `from t` gives the entities that `list` prints, in the same order. -/
theorem C84_query (H : Host) (hT : RegularCase H.lang.cases) (s : Server) (hs : Serves H s) {t : Str}
    (hi : IsIdent t) (hex : ∃ e ∈ s.state.build.entities, e.entityType = t) (rt : Runtime) :
    ∃ es, runQuery H.lang rt s.state.graph (showQuery ⟨.type t, [], none⟩) = .ok (.entities es) ∧
      es.map (·.id) = cliListEntities s.state.graph t ∧ ∀ e, e ∈ es ↔ e ∈ s.state.build.entities ∧ e.entityType = t := by
  obtain ⟨hg, hacc, _, _⟩ := toGraph_run hs.2.2
  obtain ⟨e, he, hty⟩ := hex
  have hsn : H.lang.cases.snake t = t := by
    rw [← hty]
    exact snake_fixed hT (build_types hT hs.2.1 he)
  have h := (C78_from H.lang rt (s.state.build.entities.map .add ++ [.build]) hi).1
  rw [hacc, hsn] at h
  refine ⟨_, by rw [hg]; exact h ⟨e, he, hty⟩, ?_, fun e => by simp⟩
  unfold cliListEntities
  rw [hg, C03_list_by_type, hacc]

example : IsIdent "person".toList ∧ ∃ e ∈ exServer.state.build.entities, e.entityType = "person".toList := by
  refine ⟨⟨'p', "erson".toList, rfl, by decide, by decide⟩, by decide +kernel⟩

/-! ## C85: the file of a definition -/

theorem findSource_path {H : Host} {s : Server} (hd : WellFormed s.disk) (hw : LoadsAs H.grammar H.ws s.disk s.state.workspace)
    {p : Str × SourceFile} (hp : p ∈ s.state.workspace) :
    ∃ loc text, FirmFile s.disk H.ws loc text ∧ p.2 = ⟨H.grammar text, joinWith ['/'] loc⟩ ∧
      toRelativePath (placeText H.ws) p.1 = some (joinWith ['/'] loc) ∧
      readSourceFile s.disk H.ws (joinWith ['/'] loc) = some text := by
  obtain ⟨loc, text, h1, h2, h3⟩ := (hw.2 p.1 p.2).1 hp
  obtain ⟨v1, v2, _⟩ := valid_of_firmFile hd h1
  have hrel : toRelativePath (placeText H.ws) p.1 = some (joinWith ['/'] loc) := by
    rw [show p.1 = placeText (H.ws ++ loc) from h2]
    exact toRelativePath_place v1 v2
  refine ⟨loc, text, h1, h3, hrel, ?_⟩
  obtain ⟨_, _, r⟩ := C63_resource H s.disk hd s.state.workspace hw
  obtain ⟨uri, _, rfl, hread⟩ := r loc text h1
  have huri : parseSourceUri (sourceFileUri (joinWith ['/'] loc)) = some (joinWith ['/'] loc) := by
    unfold parseSourceUri sourceFileUri
    rw [if_pos ((startsWith_iff _ _).2 ⟨_, rfl⟩), List.drop_left]
  unfold readResource at hread
  rw [huri] at hread
  exact hread

/-- C85: for the id as it is spelled in the file, `find_source` gives a file that `read_source` reads and
that contains the definition of the entity. Missing for the full claim: the id as `list` prints it
(`C85_spelling`). -/
theorem C85_entity_partial (H : Host) (s : Server) (hd : WellFormed s.disk) (hs : Serves H s) {e : Entity}
    (he : e ∈ s.state.build.entities) (ht : e.entityType ≠ "schema".toList) :
    ∃ i rel text n, e.id = H.lang.cases.composeEntityId e.entityType i ∧
      findSourceTool (placeText H.ws) s.state.workspace e.entityType i = some rel ∧
      readSourceFile s.disk H.ws rel = some text ∧ n ∈ (H.grammar text).children ∧
      entityIdOf n = some i ∧ toEntity H.lang rel n = .ok e := by
  obtain ⟨p, hp, n, hn, hc⟩ := build_block hs.2.1 he
  obtain ⟨i, h1, h2, h3⟩ := toEntity_spelled hc
  simp only [findSourceTool, Workspace.findEntitySource, if_neg ht]
  cases hf : s.state.workspace.find? fun p => p.2.entities.any fun n =>
      decide (entityTypeOf n = some e.entityType) && decide (entityIdOf n = some i) with
  | none =>
    have := List.find?_eq_none.1 hf p hp
    refine absurd (List.any_eq_true.2 ⟨n, hn, ?_⟩) this
    simp [h1, h2]
  | some q =>
    have hq := List.mem_of_find?_eq_some hf
    have hany := List.find?_some hf
    obtain ⟨m, hm, hmm⟩ := List.any_eq_true.1 hany
    simp only [Bool.and_eq_true, decide_eq_true_eq] at hmm
    obtain ⟨loc, text, _, k2, k3, k4⟩ := findSource_path hd hs.1 hq
    obtain ⟨x, hx, hxc⟩ := block_built hs.2.1 hq hm
    obtain ⟨j, j1, j2, j3⟩ := toEntity_spelled hxc
    have hty : x.entityType = e.entityType := by
      rw [hmm.1] at j1
      exact (Option.some.inj j1).symm
    have hij : j = i := by
      rw [hmm.2] at j2
      exact (Option.some.inj j2).symm
    have : x = e := by
      refine List.inj_on_of_nodup_map (toGraph_run hs.2.2).2.2.2 hx he ?_
      rw [j3, h3, hty, hij]
    refine ⟨i, joinWith ['/'] loc, text, m, h3, ?_, k4, ?_, hmm.2, ?_⟩
    · rw [hf]
      simp [k3]
    · rw [k2] at hm
      exact (List.mem_filter.1 hm).1
    · rw [← this, ← hxc, k2]

/-- C85: if the spelled id is normalised, it is what `list` prints after the type and the dot. -/
theorem C85_normal {T : CaseTable} (hT : RegularCase T) {ty i : Str} (hty : IsSnake T ty) (hi : IsSnake T i) :
    T.composeEntityId ty i = ty ++ '.' :: i := by
  have hdel : ∀ (c : Char), T.isUpper c = false ∧ c ≠ ' ' ∧ c ≠ '-' → c ≠ '_' → isDelim c = false := by
    intro c h1 h2
    simp [isDelim, h1.2.1, h1.2.2, h2]
  rw [compose_eq hT (fun c hc => hdel c (hty.chars c (List.mem_of_mem_getLast? hc)) fun h => hty.last (h ▸ hc))
    (fun c hc => hdel c (hi.chars c (List.mem_of_mem_head? hc)) fun h => hi.first (h ▸ hc)),
    lower_fixed hT fun c hc => (hty.chars c hc).1, snake_fixed hT hty, snake_fixed hT hi]

/-- C85: the same for schemas, with the name as it is spelled. -/
theorem C85_schema_partial (H : Host) (s : Server) (hd : WellFormed s.disk) (hs : Serves H s) {x : EntitySchema}
    (hx : x ∈ s.state.build.schemas) :
    ∃ name rel text n, x.entityType = H.lang.cases.snake name ∧
      findSourceTool (placeText H.ws) s.state.workspace "schema".toList name = some rel ∧
      readSourceFile s.disk H.ws rel = some text ∧ n ∈ (H.grammar text).children ∧
      schemaName n = some name ∧ toSchema H.lang rel n = .ok x := by
  have hv := (C41_build H.lang _ _ _).1 hs.2.1
  obtain ⟨bl, hbl, hc⟩ := forall2_left hv.schemas x hx
  obtain ⟨p, hp, hm⟩ := List.mem_flatMap.1 hbl
  obtain ⟨n, hn, rfl⟩ := List.mem_map.1 hm
  obtain ⟨name, h1, h2⟩ := toSchema_type hc
  simp only [findSourceTool, Workspace.findSchemaSource, if_true]
  cases hf : s.state.workspace.find? fun p => p.2.schemas.any fun n => decide (schemaName n = some name) with
  | none =>
    have := List.find?_eq_none.1 hf p hp
    refine absurd (List.any_eq_true.2 ⟨n, hn, ?_⟩) this
    simpa using h1
  | some q =>
    have hq := List.mem_of_find?_eq_some hf
    have hany := List.find?_some hf
    obtain ⟨m, hm, hmm⟩ := List.any_eq_true.1 hany
    simp only [decide_eq_true_eq] at hmm
    obtain ⟨loc, text, _, k2, k3, k4⟩ := findSource_path hd hs.1 hq
    obtain ⟨y, hy, hyc⟩ := forall2_right hv.schemas (q.2.rel, m) (by
      unfold blocksOf
      exact List.mem_flatMap.2 ⟨q, hq, List.mem_map.2 ⟨m, hm, rfl⟩⟩)
    obtain ⟨nm, j1, j2⟩ := toSchema_type hyc
    have : y = x := by
      refine (C42_consistent H.lang _ _ hs.2.1).1 y hy x hx ?_
      rw [hmm] at j1
      cases j1
      rw [j2, h2]
    refine ⟨name, joinWith ['/'] loc, text, m, h2, ?_, k4, ?_, hmm, ?_⟩
    · rw [hf]
      simp [k3]
    · rw [k2] at hm
      exact (List.mem_filter.1 hm).1
    · rw [← this]
      dsimp only at hyc
      rw [← hyc, k2]

/-- A grammar for one text: a schema, an entity with an id in camel case and one that refers to it. -/
def exCamelGrammar (text : Str) : Node :=
  .mk "source_file".toList text
    [exSchemaNode "person" [("name", "string", "true")],
      exEntityNode "person" "johnDoe" [exFieldNode "name" "string" "\"John\""],
      exEntityNode "person" "ann" [exFieldNode "name" "string" "\"Ann\"",
        exFieldNode "friend" "reference" "person.johnDoe"]]

def exCamelHost : Host := { exHost with grammar := exCamelGrammar }

def exCamelDisk : FsTree := .dir (some [("w".toList, .dir (some [("a.firm".toList, .file (some "S".toList))]))])

def exCamelServer : Server :=
  ⟨exCamelDisk, match rebuild exCamelHost id exCamelDisk with
    | .ok st => st
    | .error _ => ⟨[], ⟨[], []⟩, Graph.empty⟩⟩

theorem exCamelDisk_wf : WellFormed exCamelDisk := by
  have hv : ∀ n : Str, n ∈ ["w".toList, "a.firm".toList] → ValidName n := by
    intro n hn
    simp only [List.mem_cons, List.not_mem_nil, or_false] at hn
    rcases hn with rfl | rfl <;> exact ⟨by decide, by decide, by decide, by decide⟩
  refine .dir (by decide) ?_ ?_
  · intro p hp
    simp only [List.mem_cons, List.not_mem_nil, or_false] at hp
    subst hp
    exact hv _ (by decide)
  · intro p hp
    simp only [List.mem_cons, List.not_mem_nil, or_false] at hp
    subst hp
    refine .dir (by decide) ?_ ?_
    · intro p hp
      simp only [List.mem_cons, List.not_mem_nil, or_false] at hp
      subst hp
      exact hv _ (by decide)
    · intro p hp
      simp only [List.mem_cons, List.not_mem_nil, or_false] at hp
      subst hp
      exact .file _

theorem exCamelServer_serves : Serves exCamelHost exCamelServer := by
  have h : rebuild exCamelHost id exCamelDisk = .ok exCamelServer.state := by
    unfold exCamelServer
    cases hr : rebuild exCamelHost id exCamelDisk with
    | ok st => rfl
    | error e =>
      have : (match rebuild exCamelHost id exCamelDisk with | .ok _ => true | .error _ => false) = true := by
        decide +kernel
      rw [hr] at this
      cases this
  exact rebuild_serves exCamelDisk_wf exHost_ws (fun w => List.Perm.refl w) h

/-- C85 is false for ids that are not spelled in snake case: `list` prints `person.john_doe`, `get` shows
the entity, and `find_source` does not find it. -/
theorem C85_spelling : Serves exCamelHost exCamelServer ∧
    listTool exCamelServer.state.build "person".toList = "person.john_doe\nperson.ann".toList ∧
    (getTool exCamelHost.lang.cases exCamelServer.state.build "person".toList "john_doe".toList).isSome = true ∧
    findSourceTool (placeText exCamelHost.ws) exCamelServer.state.workspace "person".toList "john_doe".toList = none ∧
    findSourceTool (placeText exCamelHost.ws) exCamelServer.state.workspace "person".toList "johnDoe".toList =
      some "a.firm".toList :=
  ⟨exCamelServer_serves, by decide +kernel⟩

/-- The hypotheses of C85 are met by a server with two entities. -/
example : WellFormed exCamelServer.disk ∧ Serves exCamelHost exCamelServer ∧
    (∀ e ∈ exCamelServer.state.build.entities, e.entityType ≠ "schema".toList) ∧
    exCamelServer.state.build.entities.length = 2 ∧ exCamelServer.state.build.schemas.length = 1 :=
  ⟨exCamelDisk_wf, exCamelServer_serves, by decide +kernel⟩

/-! ## C86: the linked entities -/

/-- Entity `b` is linked to `a` in the given direction. -/
def Spec.LinkedTo (dir : Option Direction) (a b : Entity) : Prop :=
  match dir with
  | some .outgoing => RefersTo a b.id
  | some .incoming => RefersTo b a.id
  | none => RefersTo a b.id ∨ RefersTo b a.id

theorem related_members {H : Host} {s : Server} (hs : Serves H s) {a : Entity} (ha : a ∈ s.state.build.entities)
    (dir : Option Direction) : ∃ l, s.state.graph.getRelated a.id dir = some l ∧
      ∀ b, b ∈ l ↔ b ∈ s.state.build.entities ∧ LinkedTo dir a b := by
  obtain ⟨hg, _, hacc, _⟩ := toGraph_run hs.2.2
  have hacc' : accepted (s.state.build.entities.map .add ++ [.build]) = s.state.build.entities := (toGraph_run hs.2.2).2.1
  have ha' : a ∈ accepted (s.state.build.entities.map .add) := by rw [hacc]; exact ha
  have ha'' : a ∈ accepted (s.state.build.entities.map .add ++ [.build]) := by rw [hacc']; exact ha
  rw [hg]
  have hout : ∀ l, (Graph.run (s.state.build.entities.map .add ++ [.build])).getRelated a.id (some .outgoing) = some l →
      ∀ b, b ∈ l ↔ b ∈ s.state.build.entities ∧ RefersTo a b.id := by
    intro l hl b
    obtain ⟨l', h1, h2⟩ := C04_outgoing _ a ha'
    rw [hl] at h1
    cases h1
    rw [h2, hacc]
  have hin : ∀ l, (Graph.run (s.state.build.entities.map .add ++ [.build])).getRelated a.id (some .incoming) = some l →
      ∀ b, b ∈ l ↔ b ∈ s.state.build.entities ∧ RefersTo b a.id := by
    intro l hl b
    constructor
    · intro hb
      have hbe : b ∈ s.state.build.entities := by
        have := ((C07_related_set _ _ _).2 l hl).2.2 b hb
        rwa [hacc'] at this
      refine ⟨hbe, ?_⟩
      obtain ⟨o, _, _, i, k1, _, _, k4, k5, _⟩ := C06_duality _ b a (by rw [hacc']; exact hbe) ha''
      rw [hl] at k4
      cases k4
      obtain ⟨l', h1, h2⟩ := C04_outgoing _ b (by rw [hacc]; exact hbe)
      rw [k1] at h1
      cases h1
      exact ((h2 a).1 (k5.2 hb)).2
    · rintro ⟨hbe, hr⟩
      obtain ⟨o, _, _, i, k1, _, _, k4, k5, _⟩ := C06_duality _ b a (by rw [hacc']; exact hbe) ha''
      rw [hl] at k4
      cases k4
      obtain ⟨l', h1, h2⟩ := C04_outgoing _ b (by rw [hacc]; exact hbe)
      rw [k1] at h1
      cases h1
      exact k5.1 ((h2 a).2 ⟨ha', hr⟩)
  obtain ⟨o, i, any, _, k1, k2, k3, _, _, _⟩ := C06_duality _ a a ha'' ha''
  match dir with
  | some .outgoing => exact ⟨o, k1, hout o k1⟩
  | some .incoming => exact ⟨i, k2, hin i k2⟩
  | none =>
    refine ⟨any, k3, fun b => ?_⟩
    have hany : b ∈ s.state.build.entities → (b ∈ any ↔ b ∈ o ∨ b ∈ i) := by
      intro hb
      obtain ⟨o', i', any', _, k1', k2', k3', _, _, k6⟩ := C06_duality _ a b ha'' (by rw [hacc']; exact hb)
      rw [k1] at k1'
      rw [k2] at k2'
      rw [k3] at k3'
      cases k1'
      cases k2'
      cases k3'
      exact k6
    constructor
    · intro hb
      have hbe : b ∈ s.state.build.entities := by
        have := ((C07_related_set _ _ _).2 any k3).2.2 b hb
        rwa [hacc'] at this
      refine ⟨hbe, ?_⟩
      rcases (hany hbe).1 hb with h | h
      · exact .inl ((hout o k1 b).1 h).2
      · exact .inr ((hin i k2 b).1 h).2
    · rintro ⟨hbe, hr⟩
      refine (hany hbe).2 ?_
      rcases hr with h | h
      · exact .inl ((hout o k1 b).2 ⟨hbe, h⟩)
      · exact .inr ((hin i k2 b).2 ⟨hbe, h⟩)

/-- What is said when there is nothing to print. -/
def Spec.noneFound : Option Direction → Str
  | none => "No related entities found.".toList
  | some .incoming => "No related entities found (incoming).".toList
  | some .outgoing => "No related entities found (outgoing).".toList

/-- C86: what `related` prints for an entity of the workspace. -/
theorem C86_related (H : Host) (s : Server) (hs : Serves H s) {a : Entity} (ha : a ∈ s.state.build.entities)
    {type id : Str} (hid : H.lang.cases.composeEntityId type id = a.id) (dir : Option Direction) :
    ∃ ids : List Str, (∀ x, x ∈ ids ↔ ∃ b ∈ s.state.build.entities, b.id = x ∧ LinkedTo dir a b) ∧
      (ids.Pairwise fun x y => strCmp x y = .lt) ∧
      relatedTool H.lang.cases s.state.graph type id dir =
        some (if ids = [] then noneFound dir else joinWith ['\n'] ids) := by
  obtain ⟨hg, _⟩ := toGraph_run hs.2.2
  obtain ⟨l, hl, hb⟩ := related_members hs ha dir
  refine ⟨l.map (·.id), fun x => ?_, ?_, ?_⟩
  · simp only [List.mem_map]
    constructor
    · rintro ⟨b, h1, h2⟩
      exact ⟨b, ((hb b).1 h1).1, h2, ((hb b).1 h1).2⟩
    · rintro ⟨b, h1, h2, h3⟩
      exact ⟨b, (hb b).2 ⟨h1, h3⟩, h2⟩
  · rw [List.pairwise_map]
    rw [hg] at hl
    exact ((C07_related_set _ _ _).2 l hl).1
  · unfold relatedTool
    rw [hid, hl]
    cases l with
    | nil =>
      rw [List.map_nil, if_pos rfl]
      exact congrArg some (by rcases dir with _ | _ | _ <;> decide)
    | cons b l => rfl

/-- C86: an entity that is not in the workspace is an error. -/
theorem C86_missing (H : Host) (s : Server) (hs : Serves H s) (type id : Str) (dir : Option Direction) :
    relatedTool H.lang.cases s.state.graph type id dir = none ↔
      ∀ e ∈ s.state.build.entities, e.id ≠ H.lang.cases.composeEntityId type id := by
  obtain ⟨hg, hacc, _, _⟩ := toGraph_run hs.2.2
  have h1 := (C07_related_set (s.state.build.entities.map .add ++ [.build]) (H.lang.cases.composeEntityId type id) dir).1
  have h2 : relatedTool H.lang.cases s.state.graph type id dir = none ↔
      s.state.graph.getRelated (H.lang.cases.composeEntityId type id) dir = none := by
    unfold relatedTool
    cases s.state.graph.getRelated (H.lang.cases.composeEntityId type id) dir with
    | none => simp
    | some l => cases l <;> simp
  rw [h2, hg, h1]
  constructor
  · intro h e he hid
    have := (C01_lookup (s.state.build.entities.map .add ++ [.build]) e.id e).2 ⟨by rw [hacc]; exact he, rfl⟩
    rw [hid, h] at this
    cases this
  · intro h
    cases hx : (Graph.run (s.state.build.entities.map .add ++ [.build])).getEntity (H.lang.cases.composeEntityId type id) with
    | none => rfl
    | some e =>
      obtain ⟨h3, h4⟩ := (C01_lookup _ _ _).1 hx
      rw [hacc] at h3
      exact absurd h4 (h e h3)

/-- C86: the directions of the command line. -/
theorem C86_command (H : Host) (s : Server) (hs : Serves H s) {a : Entity} (ha : a ∈ s.state.build.entities)
    {type id : Str} (hid : H.lang.cases.composeEntityId type id = a.id) :
    (∃ l, cliRelated H.lang.cases s.state.graph type id (some .to) = some l ∧
      ∀ b, b ∈ l ↔ b ∈ s.state.build.entities ∧ RefersTo b a.id) ∧
    (∃ l, cliRelated H.lang.cases s.state.graph type id (some .from) = some l ∧
      ∀ b, b ∈ l ↔ b ∈ s.state.build.entities ∧ RefersTo a b.id) ∧
    (∃ l, cliRelated H.lang.cases s.state.graph type id none = some l ∧
      ∀ b, b ∈ l ↔ b ∈ s.state.build.entities ∧ (RefersTo a b.id ∨ RefersTo b a.id)) := by
  unfold cliRelated
  rw [hid]
  exact ⟨related_members hs ha _, related_members hs ha _, related_members hs ha _⟩

/-- The hypotheses of C86 are met, with and without links. -/
example : Serves exCamelHost exCamelServer ∧
    (∃ a ∈ exCamelServer.state.build.entities,
      exCamelHost.lang.cases.composeEntityId "person".toList "ann".toList = a.id) ∧
    relatedTool exCamelHost.lang.cases exCamelServer.state.graph "person".toList "ann".toList (some .outgoing) =
      some "person.john_doe".toList ∧
    relatedTool exCamelHost.lang.cases exCamelServer.state.graph "person".toList "ann".toList (some .incoming) =
      some "No related entities found (incoming).".toList :=
  ⟨exCamelServer_serves, by decide +kernel⟩

end Firm
