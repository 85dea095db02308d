import Verif.Props.NewNames
import Verif.Props.Reading

/-!
# A query looks at no other fields than those it names (C175)

Entities are changed by an edit that keeps their ids and types. A query that names no changed field, and that follows
references only if these are kept, selects the same entities in the same order and gives the same numbers.
-/

namespace Firm
open Spec

/-! ## Specification -/

/-- A change of entities that keeps their ids and types. -/
structure Spec.KeepsNames (m : Entity → Entity) : Prop where
  id : ∀ e, (m e).id = e.id
  type : ∀ e, (m e).entityType = e.entityType

/-- The change leaves the field alone, in every entity. -/
inductive Spec.Untouched (m : Entity → Entity) : FieldRef → Prop
  | metadata (k : MetadataField) : Untouched m (.metadata k)
  | field {f : FieldId} : (∀ e, (m e).getField f = e.getField f) → Untouched m (.regular f)

/-- The change leaves alone to which ids an entity refers, in whatever field it does. -/
def Spec.LinksKept (m : Entity → Entity) : Prop := ∀ e id, RefersTo (m e) id ↔ RefersTo e id

/-- The sorting of the runtime looks at nothing but the outcomes of the comparisons. -/
def Spec.ComparesOnly (rt : Runtime) : Prop :=
  ∀ (le le' : Entity → Entity → Bool) (m : Entity → Entity) (l : List Entity),
    (∀ a ∈ l, ∀ b ∈ l, le' (m a) (m b) = le a b) → rt.sort le' (l.map m) = (rt.sort le l).map (·.map m)

/-- The clause looks at nothing that is changed. Sorting by a column with values of several kinds needs a sorting that looks
at comparisons only; otherwise the standard library promises no order at all. -/
inductive Spec.LooksAway (m : Entity → Entity) (rt : Runtime) (es : List Entity) : QueryOperation → Prop
  | where {c : CompoundCondition} : (∀ x ∈ c.conditions, Untouched m x.field) → LooksAway m rt es (.where c)
  | order {f : FieldRef} {d : SortDirection} : Untouched m f → (OneKind f es ∨ ComparesOnly rt) →
      LooksAway m rt es (.order f d)
  | limit {n : Nat} : LooksAway m rt es (.limit n)
  | related {n : Nat} {t : Option EntityType} : LinksKept m → LooksAway m rt es (.related n t)

/-- The last clause looks at nothing that is changed. -/
inductive Spec.LooksAwayLast (m : Entity → Entity) : Option Aggregation → Prop
  | none : LooksAwayLast m none
  | select {fs : List FieldRef} : (∀ f ∈ fs, Untouched m f) → LooksAwayLast m (some (.select fs))
  | all : LooksAwayLast m (some (.count none))
  | count {f : FieldRef} : Untouched m f → LooksAwayLast m (some (.count (some f)))
  | sum {f : FieldRef} : Untouched m f → LooksAwayLast m (some (.sum f))
  | average {f : FieldRef} : Untouched m f → LooksAwayLast m (some (.average f))
  | median {f : FieldRef} : Untouched m f → LooksAwayLast m (some (.median f))

/-- The same calls with the entities changed. -/
def Spec.changedOp (m : Entity → Entity) : GOp → GOp
  | .add e => .add (m e)
  | .addAll es => .addAll (es.map m)
  | .build => .build
  | .clear => .clear

/-- The answer with the entities changed; tables and numbers are the same. -/
def Spec.changedResult (m : Entity → Entity) : QueryResult → QueryResult
  | .entities es => .entities (es.map m)
  | .aggregation r => .aggregation r

/-! ## The graph -/

/-- The second graph has the changed entities of the first one in the same places. -/
structure SameFrame (m : Entity → Entity) (g g' : Graph) : Prop where
  nodes : g'.nodes = g.nodes.map m
  ids : g'.idMap = g.idMap
  types : g'.typeMap = g.typeMap
  links : LinksKept m → ∀ s t, (∃ ed ∈ g'.edges, ed.src = s ∧ ed.dst = t) ↔ ∃ ed ∈ g.edges, ed.src = s ∧ ed.dst = t

variable {m : Entity → Entity}

theorem addEntity_frame (hm : KeepsNames m) {g g' : Graph} (h : SameFrame m g g') (e : Entity) :
    SameFrame m (g.addEntity e).1 (g'.addEntity (m e)).1 ∧
      (g'.addEntity (m e)).2 = (g.addEntity e).2 := by
  unfold Graph.addEntity
  rw [hm.id, h.ids]
  split
  · exact ⟨h, rfl⟩
  · dsimp only
    refine ⟨⟨?_, ?_, ?_, h.links⟩, rfl⟩
    · dsimp only; rw [h.nodes]; simp
    · dsimp only; rw [h.nodes, List.length_map]
    · dsimp only; rw [h.types, h.nodes, List.length_map, hm.type]

theorem addEntities_frame (hm : KeepsNames m) {g g' : Graph} (h : SameFrame m g g') (es : List Entity) :
    SameFrame m (g.addEntities es).1 (g'.addEntities (es.map m)).1 := by
  induction es generalizing g g' with
  | nil => exact h
  | cons e es ih =>
    obtain ⟨h1, h2⟩ := addEntity_frame hm h e
    simp only [List.map_cons, Graph.addEntities]
    cases hg : g.addEntity e with
    | mk g1 r =>
      rw [hg] at h1 h2
      cases hg' : g'.addEntity (m e) with
      | mk g2 r2 =>
        rw [hg'] at h1 h2
        dsimp only at h1 h2
        subst h2
        cases r2 with
        | ok u => cases u; exact ih h1
        | error err => exact h1

theorem build_frame {g g' : Graph} (h : SameFrame m g g') : SameFrame m g.build g'.build := by
  refine ⟨h.nodes, h.ids, h.types, fun hl s t => ?_⟩
  constructor
  · rintro ⟨ed, hed, rfl, rfl⟩
    obtain ⟨e, i, hi', ⟨f, v⟩, hp, hc⟩ := mem_edgesToAdd.1 hed
    obtain ⟨h1, id, h2, h3⟩ := mem_collect_dst _ _ hc
    rw [h.nodes, List.getElem?_map, Option.map_eq_some_iff] at hi'
    obtain ⟨e0, he0, rfl⟩ := hi'
    obtain ⟨f', v', hp', hv'⟩ := (hl e0 id).1 ⟨f, v, hp, h2⟩
    obtain ⟨ed', k1, k2, k3⟩ := exists_collect_of_holds (src := i) (f := f') hv' h3
    exact ⟨ed', mem_edgesToAdd.2 ⟨e0, i, he0, (f', v'), hp', by rw [← h.ids]; exact k1⟩, by rw [k2, h1], k3⟩
  · rintro ⟨ed, hed, rfl, rfl⟩
    obtain ⟨e, i, hi', ⟨f, v⟩, hp, hc⟩ := mem_edgesToAdd.1 hed
    obtain ⟨h1, id, h2, h3⟩ := mem_collect_dst _ _ hc
    obtain ⟨f', v', hp', hv'⟩ := (hl e id).2 ⟨f, v, hp, h2⟩
    obtain ⟨ed', k1, k2, k3⟩ := exists_collect_of_holds (src := i) (f := f') hv' h3
    exact ⟨ed', mem_edgesToAdd.2 ⟨m e, i, by rw [h.nodes, List.getElem?_map, hi']; rfl, (f', v'), hp', by rw [h.ids]; exact k1⟩,
      by rw [k2, h1], k3⟩

theorem run_frame (hm : KeepsNames m) (ops : List GOp) : SameFrame m (Graph.run ops) (Graph.run (ops.map (changedOp m))) := by
  have step : ∀ {g g' : Graph} (op : GOp), SameFrame m g g' → SameFrame m (g.step op) (g'.step (changedOp m op)) := by
    intro g g' op h
    cases op with
    | add e => exact (addEntity_frame hm h e).1
    | addAll es => exact addEntities_frame hm h es
    | build => exact build_frame h
    | clear => exact ⟨rfl, rfl, rfl, fun _ _ _ => Iff.rfl⟩
  unfold Graph.run
  have : ∀ g g' : Graph, SameFrame m g g' →
      SameFrame m (ops.foldl Graph.step g) ((ops.map (changedOp m)).foldl Graph.step g') := by
    induction ops with
    | nil => intro g g' h; exact h
    | cons op ops ih => intro g g' h; exact ih _ _ (step op h)
  exact this _ _ ⟨rfl, rfl, rfl, fun _ _ _ => Iff.rfl⟩

theorem getEntity_frame {g g' : Graph} (h : SameFrame m g g') (id : EntityId) :
    g'.getEntity id = (g.getEntity id).map m := by
  unfold Graph.getEntity
  rw [h.ids, h.nodes]
  cases g.idMap.lookup id with
  | none => rfl
  | some i => simp

theorem listByType_frame {g g' : Graph} (h : SameFrame m g g') (t : EntityType) :
    g'.listByType t = (g.listByType t).map m := by
  unfold Graph.listByType
  rw [h.types, h.nodes]
  cases g.typeMap.lookup t with
  | none => rfl
  | some ns => simp [List.map_filterMap]

theorem linked_frame (hm : KeepsNames m) (hl : LinksKept m) {g g' : Graph} (h : SameFrame m g g') (hi : Inv g) {a : Entity}
    (ha : a ∈ g.nodes) (y : Entity) :
    (Linked g' (m a) y ↔ ∃ b, y = m b ∧ Linked g a b) ∧ (Linked g' y (m a) ↔ ∃ b, y = m b ∧ Linked g b a) := by
  have uniq : ∀ {i : Nat} {x : Entity}, g.nodes[i]? = some x → m x = m a → x = a := by
    intro i x hx he
    have hid : x.id = a.id := by rw [← hm.id x, ← hm.id a, he]
    have h1 := (hi.getEntity_iff a.id a).2 ⟨ha, rfl⟩
    have h2 := (hi.getEntity_iff a.id x).2 ⟨List.mem_of_getElem? hx, hid⟩
    rw [h1] at h2
    exact (Option.some.inj h2).symm
  unfold Linked
  rw [h.nodes]
  simp only [List.getElem?_map, Option.map_eq_some_iff]
  constructor
  · constructor
    · rintro ⟨ed, hed, ⟨a', h1, h1'⟩, b, h2, rfl⟩
      have := uniq h1 h1'
      subst this
      obtain ⟨ed', k1, k2, k3⟩ := (h.links hl ed.src ed.dst).1 ⟨ed, hed, rfl, rfl⟩
      exact ⟨b, rfl, ed', k1, by rw [k2]; exact h1, by rw [k3]; exact h2⟩
    · rintro ⟨b, rfl, ed, hed, h1, h2⟩
      obtain ⟨ed', k1, k2, k3⟩ := (h.links hl ed.src ed.dst).2 ⟨ed, hed, rfl, rfl⟩
      exact ⟨ed', k1, ⟨a, by rw [k2]; exact h1, rfl⟩, b, by rw [k3]; exact h2, rfl⟩
  · constructor
    · rintro ⟨ed, hed, ⟨b, h1, rfl⟩, a', h2, h2'⟩
      have := uniq h2 h2'
      subst this
      obtain ⟨ed', k1, k2, k3⟩ := (h.links hl ed.src ed.dst).1 ⟨ed, hed, rfl, rfl⟩
      exact ⟨b, rfl, ed', k1, by rw [k2]; exact h1, by rw [k3]; exact h2⟩
    · rintro ⟨b, rfl, ed, hed, h1, h2⟩
      obtain ⟨ed', k1, k2, k3⟩ := (h.links hl ed.src ed.dst).2 ⟨ed, hed, rfl, rfl⟩
      exact ⟨ed', k1, ⟨b, by rw [k2]; exact h1, rfl⟩, a, by rw [k3]; exact h2, rfl⟩

theorem getRelated_frame (hm : KeepsNames m) (hl : LinksKept m) {g g' : Graph} (h : SameFrame m g g') (hi : Inv g)
    (hi' : Inv g') (id : EntityId) (dir : Option Direction) :
    g'.getRelated id dir = (g.getRelated id dir).map (·.map m) := by
  by_cases he : ∃ e ∈ g.nodes, e.id = id
  · obtain ⟨a, ha, rfl⟩ := he
    obtain ⟨l, h1, s1, m1⟩ := hi.getRelated_some ha dir
    have ha' : m a ∈ g'.nodes := by rw [h.nodes]; exact List.mem_map_of_mem ha
    obtain ⟨l', h2, s2, m2⟩ := hi'.getRelated_some ha' dir
    rw [hm.id] at h2
    rw [h1, h2, Option.map_some]
    congr 1
    refine StrictById.ext s2 ?_ fun y => ?_
    · unfold StrictById at s1 ⊢
      rw [List.pairwise_map]
      exact s1.imp fun {x y} hxy => by rw [hm.id, hm.id]; exact hxy
    · rw [m2, List.mem_map]
      obtain ⟨hx, hy⟩ := linked_frame hm hl h hi ha y
      cases dir with
      | none =>
        simp only [m1, LinkedDir, hx, hy]
        constructor
        · rintro (⟨b, rfl, h⟩ | ⟨b, rfl, h⟩)
          · exact ⟨b, .inl h, rfl⟩
          · exact ⟨b, .inr h, rfl⟩
        · rintro ⟨b, h | h, rfl⟩
          · exact .inl ⟨b, rfl, h⟩
          · exact .inr ⟨b, rfl, h⟩
      | some d =>
        cases d with
        | outgoing =>
          simp only [m1, LinkedDir, hx]
          exact ⟨fun ⟨b, e, h⟩ => ⟨b, h, e.symm⟩, fun ⟨b, h, e⟩ => ⟨b, e.symm, h⟩⟩
        | incoming =>
          simp only [m1, LinkedDir, hy]
          exact ⟨fun ⟨b, e, h⟩ => ⟨b, h, e.symm⟩, fun ⟨b, h, e⟩ => ⟨b, e.symm, h⟩⟩
  · rw [(hi.getRelated_none id dir).2 he, (hi'.getRelated_none id dir).2]
    · rfl
    · rintro ⟨e, he', rfl⟩
      rw [h.nodes] at he'
      obtain ⟨a, ha, rfl⟩ := List.mem_map.1 he'
      exact he ⟨a, ha, (hm.id a).symm⟩

/-! ## Clauses -/

theorem relatedLoop_frame {g g' : Graph} (h : ∀ id, relatedIds g' id = relatedIds g id) (rt : Runtime) (nonce : Nat) :
    ∀ (n : Nat) (cur all : List EntityId), relatedLoop rt nonce g' n cur all = relatedLoop rt nonce g n cur all
  | 0, _, _ => rfl
  | n + 1, cur, all => by
    have hlev : ∀ v a, relatedLevel g' v a = relatedLevel g v a := by
      intro v a
      unfold relatedLevel
      rw [show relatedIds g' = relatedIds g from funext h]
    simp only [relatedLoop, hlev, relatedLoop_frame h rt nonce n]

theorem related_frame (hm : KeepsNames m) (hl : LinksKept m) {g g' : Graph} (h : SameFrame m g g') (hi : Inv g)
    (hi' : Inv g') (rt : Runtime) (nonce : Nat) (es : List Entity) (n : Nat) (t : Option EntityType) :
    getRelatedEntities rt nonce g' (es.map m) n t = (getRelatedEntities rt nonce g es n t).map m := by
  have hids : ∀ id, relatedIds g' id = relatedIds g id := by
    intro id
    unfold relatedIds
    rw [getRelated_frame hm hl h hi hi']
    cases g.getRelated id none with
    | none => rfl
    | some l =>
      simp only [Option.map_some, List.map_map]
      exact List.map_congr_left fun e _ => hm.id e
  have hstart : (es.map m).map (·.id) = es.map (·.id) := by
    rw [List.map_map]; exact List.map_congr_left fun e _ => hm.id e
  have hget : g'.getEntity = fun id => (g.getEntity id).map m := funext fun id => getEntity_frame h id
  unfold getRelatedEntities
  dsimp only
  split
  · rfl
  · rw [hstart, relatedLoop_frame hids, hget, ← List.map_filterMap]
    cases t with
    | none => rfl
    | some t =>
      dsimp only
      rw [List.filter_map]
      congr 1
      refine List.filter_congr fun e _ => ?_
      simp only [Function.comp_apply, hm.type]

theorem matches_untouched (hm : KeepsNames m) {env : Env} {c : CompoundCondition}
    (h : ∀ x ∈ c.conditions, Untouched m x.field) (e : Entity) : c.matches env (m e) = c.matches env e := by
  have one : ∀ x ∈ c.conditions, x.matches env (m e) = x.matches env e := by
    intro x hx
    have := h x hx
    unfold FilterCondition.matches
    cases hf : x.field with
    | metadata k =>
      dsimp only
      unfold FilterCondition.matchesMetadata
      rw [hm.id, hm.type]
    | regular f =>
      rw [hf] at this
      cases this with
      | field this =>
        dsimp only
        unfold FilterCondition.matchesField
        rw [this]
  have all : ∀ cs : List FilterCondition, (∀ x ∈ cs, x.matches env (m e) = x.matches env e) →
      collectResults (fun x => x.matches env (m e)) cs = collectResults (fun x => x.matches env e) cs := by
    intro cs
    induction cs with
    | nil => intro _; rfl
    | cons x cs ih =>
      intro h
      simp only [collectResults, h x (by simp), ih fun y hy => h y (by simp [hy])]
  unfold CompoundCondition.matches
  rw [all _ one]

theorem filterEntities_untouched (hm : KeepsNames m) {env : Env} {c : CompoundCondition}
    (h : ∀ x ∈ c.conditions, Untouched m x.field) (es : List Entity) :
    filterEntities env c (es.map m) = (filterEntities env c es).map (·.map m) := by
  induction es with
  | nil => rfl
  | cons e es ih =>
    simp only [List.map_cons, filterEntities, matches_untouched hm h, ih]
    cases c.matches env e with
    | error err => rfl
    | ok keep =>
      cases filterEntities env c es with
      | error err => rfl
      | ok rest => cases keep <;> rfl

theorem valueAt_untouched (hm : KeepsNames m) {f : FieldRef} (h : Untouched m f) (e : Entity) :
    valueAt (m e) f = valueAt e f := by
  cases h with
  | metadata k => cases k <;> simp only [valueAt, hm.id, hm.type]
  | field h => exact h e

theorem orderLe_untouched (hm : KeepsNames m) {env : Env} {f : FieldRef} (h : Untouched m f) (d : SortDirection)
    (a b : Entity) : orderLe env f d (m a) (m b) = orderLe env f d a b := by
  have : compareEntitiesAsc env f (m a) (m b) = compareEntitiesAsc env f a b := by
    unfold compareEntitiesAsc
    cases h with
    | metadata k => cases k <;> simp only [hm.id, hm.type]
    | field h => simp only [h]
  unfold orderLe compareEntitiesByField
  rw [this]

theorem orderBy_untouched (hm : KeepsNames m) {env : Env} {rt : Runtime} {all : List Entity} {f : FieldRef} (h : Untouched m f)
    (hk : OneKind f all ∨ ComparesOnly rt) (d : SortDirection) {es : List Entity} (hsub : ∀ e ∈ es, e ∈ all) :
    orderBy env rt f d (es.map m) = (orderBy env rt f d es).map (·.map m) := by
  rcases hk with hk | hk
  · obtain ⟨t, fl, hs⟩ := oneKind_sortable hk
    have hs' : ∀ e ∈ es.map m, SortableColumn t fl f e := by
      intro e he v hv
      obtain ⟨a, ha, rfl⟩ := List.mem_map.1 he
      rw [valueAt_untouched hm h] at hv
      exact hs a (hsub a ha) v hv
    rw [orderBy_eq env rt f d t fl hs', orderBy_eq env rt f d t fl fun e he => hs e (hsub e he),
      stableSort_map fun a _ b _ => orderLe_untouched hm h d a b]
    rfl
  · unfold orderBy
    rw [hk (orderLe env f d) (orderLe env f d) m es fun a _ b _ => orderLe_untouched hm h d a b]
    cases rt.sort (orderLe env f d) es <;> rfl

theorem applyOperations_untouched (hm : KeepsNames m) {env : Env} {rt : Runtime} {g g' : Graph} (hf : SameFrame m g g')
    (hi : Inv g) (hi' : Inv g') {ops : List QueryOperation} (h : ∀ o ∈ ops, LooksAway m rt g.nodes o) {es : List Entity}
    (hes : ∀ e ∈ es, e ∈ g.nodes) :
    applyOperations env rt g' ops (es.map m) = (applyOperations env rt g ops es).map (·.map m) := by
  induction ops generalizing es with
  | nil => rfl
  | cons o ops ih =>
    have ih := @ih fun o ho => h o (by simp [ho])
    have key : ∀ r, applyOperation env rt ops.length g es o = r →
        applyOperation env rt ops.length g' (es.map m) o = r.map (·.map m) ∧
        ∀ l, r = .ok l → ∀ e ∈ l, e ∈ g.nodes := by
      rintro r rfl
      cases h o (by simp) with
      | «where» hc =>
        refine ⟨filterEntities_untouched hm hc es, fun l hl e he => ?_⟩
        obtain ⟨-, rfl⟩ := (filterEntities_ok _ _ _ _).1 hl
        exact hes e (List.mem_filter.1 he).1
      | @order f d hf hk =>
        refine ⟨orderBy_untouched hm hf hk d hes, fun l hl e he => ?_⟩
        unfold applyOperation orderBy at hl
        cases hs : rt.sort (orderLe env f d) es with
        | none => simp only [hs] at hl; cases hl
        | some l' =>
          simp only [hs] at hl
          cases hl
          exact hes e ((rt.sort_perm _ _ _ hs).mem_iff.1 he)
      | @limit n =>
        refine ⟨by simp only [applyOperation, ← List.map_take]; rfl, fun l hl e he => ?_⟩
        cases hl
        exact hes e (List.mem_of_mem_take he)
      | @related n t hl =>
        refine ⟨by simp only [applyOperation, related_frame hm hl hf hi hi']; rfl, fun l hr e he => ?_⟩
        cases hr
        unfold getRelatedEntities at he
        dsimp only at he
        split at he
        · exact hes e he
        · have hmem : ∀ (ids : List EntityId), e ∈ ids.filterMap g.getEntity → e ∈ g.nodes := by
            intro ids he
            obtain ⟨id, _, hg⟩ := List.mem_filterMap.1 he
            exact ((hi.getEntity_iff _ _).1 hg).1
          cases t with
          | none => exact hmem _ he
          | some t => exact hmem _ (List.mem_filter.1 he).1
    obtain ⟨k1, k2⟩ := key _ rfl
    simp only [applyOperations, k1]
    cases hr : applyOperation env rt ops.length g es o with
    | error err => rfl
    | ok l => exact ih (es := l) (k2 l hr)

theorem aggregation_untouched (hm : KeepsNames m) {env : Env} {a : Aggregation} (h : LooksAwayLast m (some a))
    (es : List Entity) : a.execute env (es.map m) = a.execute env es := by
  have num : ∀ {f : FieldRef}, Untouched m f → ∀ x, requireRegularField f = .ok x →
      collectNumericValues x (es.map m) = collectNumericValues x es := by
    intro f hf x hx
    cases hf with
    | metadata k => cases hx
    | field hf =>
      cases hx
      induction es with
      | nil => rfl
      | cons e es ih => simp only [List.map_cons, collectNumericValues, hf, ih]
  cases h with
  | @select fs hf =>
    unfold Aggregation.execute executeSelect
    dsimp only
    rw [List.map_map]
    congr 2
    refine List.map_congr_left fun e he => ?_
    refine List.map_congr_left fun f hf' => ?_
    cases hf f hf' with
    | metadata k => cases k <;> simp only [cellOf, hm.id, hm.type]
    | field h => exact h e
  | all => 
    unfold Aggregation.execute executeCount
    dsimp only
    rw [List.length_map]
  | @count f hf =>
    unfold Aggregation.execute executeCount
    dsimp only
    cases hf with
    | metadata k => dsimp only; rw [List.length_map]
    | field h =>
      dsimp only
      rw [List.filter_map, List.length_map]
      congr 4
      funext e
      simp only [Function.comp_def, h]
  | @sum f hf =>
    unfold Aggregation.execute executeSum
    dsimp only
    cases hx : requireRegularField f with
    | error e => rfl
    | ok x => dsimp only; rw [num hf x hx]
  | @average f hf =>
    unfold Aggregation.execute executeAverage
    dsimp only
    cases hx : requireRegularField f with
    | error e => rfl
    | ok x => dsimp only; rw [num hf x hx]
  | @median f hf =>
    unfold Aggregation.execute executeMedian
    dsimp only
    cases hx : requireRegularField f with
    | error e => rfl
    | ok x => dsimp only; rw [num hf x hx]

theorem selectFrom_frame {g g' : Graph} (h : SameFrame m g g') (rt : Runtime) (src : EntitySelector) :
    selectFrom rt g' src = (selectFrom rt g src).map (·.map m) := by
  have ht : g'.getAllEntityTypes = g.getAllEntityTypes := by unfold Graph.getAllEntityTypes; rw [h.types]
  cases src with
  | type t =>
    unfold selectFrom
    dsimp only
    rw [ht, listByType_frame h]
    split <;> rfl
  | all =>
    unfold selectFrom
    rw [ht]
    simp only [Except.map, List.map_flatMap]
    congr 2
    funext t
    exact listByType_frame h t

/-! ## The property -/

/-- C175: a query that looks at nothing that is changed is answered with the same entities, in the same order, as they are after
the change, and with the same tables and numbers; it fails exactly as before. -/
theorem C175_query (m : Entity → Entity) (hm : KeepsNames m) (env : Env) (rt : Runtime) (ops : List GOp) (q : Query)
    (ho : ∀ o ∈ q.operations, LooksAway m rt (accepted ops) o) (ha : LooksAwayLast m q.aggregation) :
    q.execute env rt (Graph.run (ops.map (changedOp m))) = (q.execute env rt (Graph.run ops)).map (changedResult m) := by
  have hf := run_frame hm ops
  rw [← nodes_run] at ho
  unfold Query.execute
  rw [selectFrom_frame hf]
  cases hs : selectFrom rt (Graph.run ops) q.source with
  | error e => rfl
  | ok es =>
    have h1 := applyOperations_untouched (env := env) (rt := rt) hm hf (Inv.run ops) (Inv.run _) ho
      (Bag.selectFrom (Inv.run ops) rt q.source hs).1
    simp only [Except.map] at h1 ⊢
    rw [h1]
    cases hr : applyOperations env rt (Graph.run ops) q.operations es with
    | error e => rfl
    | ok r =>
      dsimp only
      cases hag : q.aggregation with
      | none => rfl
      | some a =>
        rw [hag] at ha
        dsimp only
        rw [aggregation_untouched hm ha]
        cases a.execute env r <;> rfl

/-- C175 for `get` and `list`: the changed entities, in the same order. -/
theorem C175_get (m : Entity → Entity) (hm : KeepsNames m) (ops : List GOp) :
    (∀ id, (Graph.run (ops.map (changedOp m))).getEntity id = ((Graph.run ops).getEntity id).map m) ∧
    ∀ t, (Graph.run (ops.map (changedOp m))).listByType t = ((Graph.run ops).listByType t).map m :=
  ⟨getEntity_frame (run_frame hm ops), listByType_frame (run_frame hm ops)⟩

/-- C175 for `related`: if the ids that entities refer to are kept, the related entities are the same, in the same order. -/
theorem C175_related (m : Entity → Entity) (hm : KeepsNames m) (hl : LinksKept m) (ops : List GOp) (id : EntityId)
    (dir : Option Direction) :
    (Graph.run (ops.map (changedOp m))).getRelated id dir = ((Graph.run ops).getRelated id dir).map (·.map m) :=
  getRelated_frame hm hl (run_frame hm ops) (Inv.run _) (Inv.run _) id dir

/-! ## Changing one entity -/

/-- The query names the field. -/
inductive Spec.AsksAbout (q : Query) : FieldRef → Prop
  | where {c : CompoundCondition} {x : FilterCondition} : .where c ∈ q.operations → x ∈ c.conditions → AsksAbout q x.field
  | order {f : FieldRef} {d : SortDirection} : .order f d ∈ q.operations → AsksAbout q f
  | select {fs : List FieldRef} {f : FieldRef} : q.aggregation = some (.select fs) → f ∈ fs → AsksAbout q f
  | count {f : FieldRef} : q.aggregation = some (.count (some f)) → AsksAbout q f
  | sum {f : FieldRef} : q.aggregation = some (.sum f) → AsksAbout q f
  | average {f : FieldRef} : q.aggregation = some (.average f) → AsksAbout q f
  | median {f : FieldRef} : q.aggregation = some (.median f) → AsksAbout q f

/-- The first entity is exchanged for the second. -/
def Spec.inPlace (old new : Entity) (e : Entity) : Entity := if e = old then new else e

/-- C175: an entity is exchanged for one with the same id and type that differs in fields that the query does not name. If
the query follows references, the entity refers to the same ids as before. Then the query selects the same entities in the
same order, with the new entity in the place of the old one, and gives the same tables and numbers. -/
theorem C175_entity (old new : Entity) (hid : new.id = old.id) (hty : new.entityType = old.entityType) (env : Env) (rt : Runtime)
    (ops : List GOp) (q : Query) (hf : ∀ f, AsksAbout q (.regular f) → new.getField f = old.getField f)
    (hr : ∀ n t, .related n t ∈ q.operations → ∀ id, RefersTo new id ↔ RefersTo old id)
    (hs : ∀ f d, .order f d ∈ q.operations → OneKind f (accepted ops) ∨ ComparesOnly rt) :
    q.execute env rt (Graph.run (ops.map (changedOp (inPlace old new)))) =
      (q.execute env rt (Graph.run ops)).map (changedResult (inPlace old new)) := by
  have hn : ∀ f, AsksAbout q f → Untouched (inPlace old new) f := by
    intro f h
    cases f with
    | metadata k => exact .metadata k
    | regular f =>
      refine .field fun e => ?_
      unfold inPlace
      split
      · next he => rw [he]; exact hf f h
      · rfl
  refine C175_query _ ⟨fun e => ?_, fun e => ?_⟩ env rt ops q (fun o ho => ?_) ?_
  · unfold inPlace; split
    · next he => rw [he]; exact hid
    · rfl
  · unfold inPlace; split
    · next he => rw [he]; exact hty
    · rfl
  · cases o with
    | «where» c => exact .where fun x hx => hn _ (.where ho hx)
    | order f d => exact .order (hn _ (.order ho)) (hs f d ho)
    | limit n => exact .limit
    | related n t =>
      refine .related fun e id => ?_
      unfold inPlace
      split
      · next he => rw [he]; exact hr n t ho id
      · exact Iff.rfl
  · cases ha : q.aggregation with
    | none => exact .none
    | some a =>
      cases a with
      | select fs => exact .select fun f h => hn f (.select ha h)
      | count f =>
        cases f with
        | none => exact .all
        | some f => exact .count (hn f (.count ha))
      | sum f => exact .sum (hn f (.sum ha))
      | average f => exact .average (hn f (.average ha))
      | median f => exact .median (hn f (.median ha))

/-- C175: the same ids in the same order. -/
theorem C175_ids (old new : Entity) (hid : new.id = old.id) (hty : new.entityType = old.entityType) (env : Env) (rt : Runtime)
    (ops : List GOp) (q : Query) (hf : ∀ f, AsksAbout q (.regular f) → new.getField f = old.getField f)
    (hr : ∀ n t, .related n t ∈ q.operations → ∀ id, RefersTo new id ↔ RefersTo old id)
    (hs : ∀ f d, .order f d ∈ q.operations → OneKind f (accepted ops) ∨ ComparesOnly rt) (es : List Entity)
    (h : q.execute env rt (Graph.run ops) = .ok (.entities es)) :
    ∃ es', q.execute env rt (Graph.run (ops.map (changedOp (inPlace old new)))) = .ok (.entities es') ∧
      es'.map (·.id) = es.map (·.id) ∧ ∀ e, e ∈ es' ↔ (e = new ∧ old ∈ es) ∨ (e ≠ old ∧ e ∈ es) := by
  refine ⟨es.map (inPlace old new), by rw [C175_entity old new hid hty env rt ops q hf hr hs, h]; rfl, ?_, fun e => ?_⟩
  · rw [List.map_map]
    refine List.map_congr_left fun e _ => ?_
    simp only [Function.comp_apply, inPlace]
    split
    · next he => rw [he]; exact hid
    · rfl
  · rw [List.mem_map]
    constructor
    · rintro ⟨a, ha, rfl⟩
      unfold inPlace
      split
      · next he => exact .inl ⟨rfl, he ▸ ha⟩
      · next he => exact .inr ⟨he, ha⟩
    · rintro (⟨rfl, ho⟩ | ⟨hne, he⟩)
      · exact ⟨old, ho, if_pos rfl⟩
      · exact ⟨e, he, if_neg hne⟩

/-- C175 for query texts and builds: the files are changed so that one entity gets other fields. Whatever is parsed from the
text, if it names no field that differs and follows references only if these are kept, the text gives the same answer. -/
theorem C175_text (old new : Entity) (hid : new.id = old.id) (hty : new.entityType = old.entityType) (L : Lang) (rt : Runtime)
    (b b' : WorkspaceBuild) (g g' : Graph) (hb : b.toGraph = (g, .ok ())) (hb' : b'.toGraph = (g', .ok ()))
    (he : b'.entities = b.entities.map (inPlace old new)) (text : Str)
    (hq : ∀ p, parseQuery L text = .ok p →
      (∀ f, AsksAbout (convertQuery L.cases p) (.regular f) → new.getField f = old.getField f) ∧
      (∀ n t, .related n t ∈ (convertQuery L.cases p).operations → ∀ id, RefersTo new id ↔ RefersTo old id) ∧
      ∀ f d, .order f d ∈ (convertQuery L.cases p).operations → OneKind f b.entities ∨ ComparesOnly rt) :
    runQuery L rt g' text = (runQuery L rt g text).map (changedResult (inPlace old new)) := by
  obtain ⟨h1, h2, _, _⟩ := toGraph_run hb
  obtain ⟨h1', _, _, _⟩ := toGraph_run hb'
  have hops : b'.entities.map GOp.add ++ [GOp.build] = (b.entities.map GOp.add ++ [GOp.build]).map (changedOp (inPlace old new)) := by
    rw [he, List.map_append, List.map_map, List.map_map]
    rfl
  unfold runQuery
  cases hp : parseQuery L text with
  | error e => rfl
  | ok p =>
    obtain ⟨q1, q2, q3⟩ := hq p hp
    dsimp only
    rw [h1', hops, h1, C175_entity old new hid hty L.env rt _ _ q1 q2 (by rw [h2]; exact q3)]
    cases (convertQuery L.cases p).execute L.env rt (Graph.run (b.entities.map GOp.add ++ [GOp.build])) <;> rfl

/-! ## Examples -/

/-- The sample runtime compares only. -/
theorem exRt_compares : ComparesOnly exRt := by
  intro le le' m l h
  show some (stableSort le' (l.map m)) = (some (stableSort le l)).map _
  rw [stableSort_map h]
  rfl

def exChore (id : String) (due : Int) (note : String) (refs : List String) : Entity :=
  ⟨id.toList, "task".toList, [("due".toList, .integer due), ("note".toList, .string note.toList),
    ("after".toList, .list (refs.map fun r => .reference (.entity r.toList)))]⟩

def exChores : List GOp :=
  [.addAll [exChore "task.a" 3 "x" ["task.b"], exChore "task.b" 1 "y" [], exChore "task.c" 2 "z" []], .build]

/-- `from task | where due > 1 | order due | select due, @id` names `due` only. -/
def exDueQuery : Query := ⟨.type "task".toList,
  [.where (.single ⟨.regular "due".toList, .greaterThan, .integer 1⟩), .order (.regular "due".toList) .ascending],
  some (.select [.regular "due".toList, .metadata .id])⟩

/-- What the premises of `C175_entity` say of the tasks and of another note of the first one. -/
example : let old := exChore "task.a" 3 "x" ["task.b"]
    let new := exChore "task.a" 3 "another" ["task.c"]
    (∀ f, AsksAbout exDueQuery (.regular f) → new.getField f = old.getField f) ∧
    (∀ n t, .related n t ∈ exDueQuery.operations → ∀ id, RefersTo new id ↔ RefersTo old id) ∧
    exDueQuery.execute exEnv exRt (Graph.run exChores) = .ok (.aggregation (.select ["due".toList, "@id".toList]
      [[some (.integer 2), some (.string "task.c".toList)], [some (.integer 3), some (.string "task.a".toList)]])) := by
  refine ⟨fun f h => ?_, fun n t h => ?_, by decide +kernel⟩
  · have : f = "due".toList := by
      generalize hg : FieldRef.regular f = r at h
      cases h with
      | «where» h1 h2 =>
        simp only [exDueQuery, List.mem_cons, List.not_mem_nil, or_false, reduceCtorEq, QueryOperation.where.injEq] at h1
        subst h1
        simp only [CompoundCondition.single, List.mem_singleton] at h2
        subst h2
        exact FieldRef.regular.inj hg
      | order h1 =>
        simp only [exDueQuery, List.mem_cons, List.not_mem_nil, or_false, false_or, reduceCtorEq, QueryOperation.order.injEq] at h1
        rw [h1.1] at hg
        exact FieldRef.regular.inj hg
      | select h1 h2 =>
        simp only [exDueQuery, Option.some.injEq, Aggregation.select.injEq] at h1
        subst h1
        simp only [List.mem_cons, List.not_mem_nil, or_false] at h2
        rcases h2 with h2 | h2
        · rw [h2] at hg; exact FieldRef.regular.inj hg
        · rw [h2] at hg; cases hg
      | count h1 => simp [exDueQuery] at h1
      | sum h1 => simp [exDueQuery] at h1
      | average h1 => simp [exDueQuery] at h1
      | median h1 => simp [exDueQuery] at h1
    subst this
    decide
  · simp [exDueQuery] at h

/-- The premise about references is needed: `from task | where due > 2 | related(1)` names `due` only, and its answer changes
with another field. -/
theorem C175_follows : ∃ (q : Query) (old new : Entity) (es es' : List Entity), new.id = old.id ∧
    new.entityType = old.entityType ∧ (∀ f, f ≠ "after".toList → new.getField f = old.getField f) ∧
    q.operations = [.where (.single ⟨.regular "due".toList, .greaterThan, .integer 2⟩), .related 1 none] ∧
    q.execute exEnv exRt (Graph.run exChores) = .ok (.entities es) ∧
    q.execute exEnv exRt (Graph.run (exChores.map (changedOp (inPlace old new)))) = .ok (.entities es') ∧
    es'.map (·.id) ≠ es.map (·.id) := by
  refine ⟨⟨.type "task".toList,
      [.where (.single ⟨.regular "due".toList, .greaterThan, .integer 2⟩), .related 1 none], none⟩,
    exChore "task.a" 3 "x" ["task.b"], exChore "task.a" 3 "x" ["task.c"],
    [exChore "task.b" 1 "y" [], exChore "task.a" 3 "x" ["task.b"]],
    [exChore "task.c" 2 "z" [], exChore "task.a" 3 "x" ["task.c"]], rfl, rfl, fun f hf => ?_, rfl, by decide +kernel, by decide +kernel,
    by decide⟩
  unfold exChore Entity.getField
  simp only [List.find?_cons]
  split
  · rfl
  · split
    · rfl
    · split
      · next h => exact absurd (by simpa using h : "after".toList = f).symm hf
      · rfl

end Firm
