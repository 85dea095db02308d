import Verif.Lemmas.Refs

/-!
# Properties C01–C11: the entity graph
-/

namespace Firm
open Spec

/-! ## C01 -/

/-- C01: looking up `id` gives `e` exactly when `e` is an accepted entity with that id. -/
theorem C01_lookup (ops : List GOp) (id : EntityId) (e : Entity) :
    (Graph.run ops).getEntity id = some e ↔ e ∈ accepted ops ∧ e.id = id := by
  rw [(Inv.run ops).getEntity_iff, nodes_run]

/-- C01: there is never more than one accepted entity behind an id. -/
theorem C01_unique (ops : List GOp) : ((accepted ops).map (·.id)).Nodup := by
  rw [← nodes_run]; exact (Inv.run ops).nodup

/-- C01: a later add (single or bulk, accepted or rejected) or build never replaces or removes an
entity. -/
theorem C01_no_replace (ops : List GOp) (id : EntityId) (a : Entity)
    (h : (Graph.run ops).getEntity id = some a) (e : Entity) (es : List Entity) :
    (Graph.run (ops ++ [.add e])).getEntity id = some a ∧
    (Graph.run (ops ++ [.addAll es])).getEntity id = some a ∧
    (Graph.run (ops ++ [.build])).getEntity id = some a := by
  obtain ⟨h1, h2⟩ := (C01_lookup ops id a).1 h
  have all : ∀ es (acc : List Entity), a ∈ acc → a ∈ acceptAll acc es := by
    intro es
    induction es with
    | nil => exact fun _ h => h
    | cons a es ih =>
      intro acc h
      unfold acceptAll
      split
      · exact h
      · exact ih _ (by simp [h])
  refine ⟨?_, ?_, ?_⟩ <;> rw [C01_lookup, accepted_snoc] <;> refine ⟨?_, h2⟩
  · simp only [accept, acceptOne]; split <;> simp [h1]
  · exact all es _ h1
  · exact h1

/-- C01: an accepted add makes the entity available under its id; after `clear` nothing is found. -/
theorem C01_accepted (ops : List GOp) (e : Entity) (id : EntityId) :
    (((Graph.run ops).addEntity e).2 = .ok () →
      (Graph.run (ops ++ [.add e])).getEntity e.id = some e) ∧
    (Graph.run (ops ++ [.clear])).getEntity id = none := by
  constructor
  · intro h
    rw [C01_lookup, accepted_snoc]
    refine ⟨?_, rfl⟩
    rw [addEntity_eq (Inv.run ops), nodes_run] at h
    simp only [accept, acceptOne]
    split
    · rename_i hx; simp [hx] at h
    · simp
  · cases hc : (Graph.run (ops ++ [.clear])).getEntity id with
    | none => rfl
    | some a =>
      rw [C01_lookup, accepted_snoc] at hc
      simp [accept] at hc

section Examples
/-- Example entities: two people and a task that refers to them. -/
def exAlice : Entity :=
  ⟨"person.alice".toList, "person".toList,
    [("name".toList, .string "Alice".toList),
     ("boss".toList, .reference (.field "person.bob".toList "name".toList))]⟩
def exBob : Entity :=
  ⟨"person.bob".toList, "person".toList, [("name".toList, .string "Bob".toList)]⟩
def exTask : Entity :=
  ⟨"task.t".toList, "task".toList,
    [("who".toList, .list [.list [.reference (.entity "person.alice".toList)],
        .reference (.entity "nobody.x".toList)]),
     ("boss_name".toList, .reference (.field "person.alice".toList "boss".toList))]⟩
/-- A second entity with Alice's id. -/
def exAlice2 : Entity := ⟨"person.alice".toList, "robot".toList, []⟩
/-- A history with a rejected add, a stale build and a clear. -/
def exOps : List GOp :=
  [.add exBob, .clear, .add exAlice, .build, .addAll [exTask, exAlice2, exBob], .add exBob]

example : accepted exOps = [exAlice, exTask, exBob] := by decide
example : (Graph.run exOps).getEntity "person.alice".toList = some exAlice := by decide
example : ((Graph.run exOps).addEntity (Entity.new "a".toList "b".toList)).2 = .ok () := by rfl
end Examples

/-! ## C02 -/

/-- C02: `add_entity` fails exactly when the id is taken, with that id, and then changes nothing. -/
theorem C02_single (ops : List GOp) (e : Entity) :
    let g := Graph.run ops
    ((∃ a, g.getEntity e.id = some a) → g.addEntity e = (g, .error (.entityAlreadyExists e.id))) ∧
    ((¬ ∃ a, g.getEntity e.id = some a) →
      (g.addEntity e).2 = .ok () ∧ accepted (ops ++ [.add e]) = accepted ops ++ [e]) := by
  simp only
  have hiff : (∃ a, (Graph.run ops).getEntity e.id = some a) ↔
      ∃ a ∈ (Graph.run ops).nodes, a.id = e.id := by
    simp only [(Inv.run ops).getEntity_iff]
  rw [hiff, addEntity_eq (Inv.run ops)]
  constructor
  · intro h; simp only [h, if_true]
  · intro h
    simp only [h, if_false, true_and]
    rw [accepted_snoc]
    rw [nodes_run] at h
    simp only [accept, acceptOne, h, if_false]

/-- No id occurs twice in the graph's content followed by the batch. -/
def Spec.NoClash (acc es : List Entity) : Prop := ((acc ++ es).map (·.id)).Nodup

theorem noClash_cons {acc : List Entity} {e : Entity} {es : List Entity}
    (h : NoClash acc (e :: es)) : ¬ (∃ a ∈ acc, a.id = e.id) ∧ NoClash (acc ++ [e]) es := by
  refine ⟨?_, by simpa [NoClash] using h⟩
  rintro ⟨a, ha, hae⟩
  unfold NoClash at h
  rw [List.map_append, List.nodup_append] at h
  exact h.2.2 a.id (List.mem_map.2 ⟨a, ha, rfl⟩) e.id (by simp) hae

theorem addEntities_ok {g : Graph} (h : Inv g) (es : List Entity) (hn : NoClash g.nodes es) :
    g.addEntities es = ((es.map GOp.add).foldl Graph.step g, .ok ()) := by
  induction es generalizing g with
  | nil => rfl
  | cons e es ih =>
    obtain ⟨h1, h2⟩ := noClash_cons hn
    have hg := h.addEntity e
    have hnod := nodes_addEntity h e
    unfold Graph.addEntities
    rw [List.map_cons, List.foldl_cons]
    simp only [Graph.step]
    rw [addEntity_eq h] at hg hnod ⊢
    simp only [h1, if_false] at hg hnod ⊢
    exact ih hg h2

theorem addEntities_err {g : Graph} (h : Inv g) (pre : List Entity) (e : Entity)
    (post : List Entity) (hn : NoClash g.nodes pre) (hd : ∃ a ∈ g.nodes ++ pre, a.id = e.id) :
    g.addEntities (pre ++ e :: post) =
      ((pre.map GOp.add).foldl Graph.step g, .error (.entityAlreadyExists e.id)) := by
  induction pre generalizing g with
  | nil =>
    simp only [List.append_nil] at hd
    simp only [List.nil_append, Graph.addEntities, addEntity_eq h, hd, if_true, List.map_nil,
      List.foldl_nil]
  | cons a pre ih =>
    obtain ⟨h1, h2⟩ := noClash_cons hn
    have hg := h.addEntity a
    rw [List.cons_append]
    unfold Graph.addEntities
    rw [List.map_cons, List.foldl_cons]
    simp only [Graph.step]
    rw [addEntity_eq h] at hg ⊢
    simp only [h1, if_false] at hg ⊢
    exact ih hg h2 (by simpa using hd)

theorem noClash_split {acc es : List Entity} (ha : (acc.map (·.id)).Nodup)
    (h : ¬ NoClash acc es) :
    ∃ pre e post, es = pre ++ e :: post ∧ NoClash acc pre ∧ ∃ a ∈ acc ++ pre, a.id = e.id := by
  induction es generalizing acc with
  | nil => exact absurd (by simpa [NoClash] using ha) h
  | cons e es ih =>
    by_cases hx : ∃ a ∈ acc, a.id = e.id
    · exact ⟨[], e, es, rfl, by simpa [NoClash] using ha, by simpa using hx⟩
    · have ha' : ((acc ++ [e]).map (·.id)).Nodup := by
        rw [List.map_append, List.nodup_append]
        refine ⟨ha, by simp, ?_⟩
        intro x hx1 y hy hxy
        simp only [List.map_cons, List.map_nil, List.mem_singleton] at hy
        obtain ⟨a, h1, h2⟩ := List.mem_map.1 hx1
        exact hx ⟨a, h1, by rw [h2, hxy, hy]⟩
      have h' : ¬ NoClash (acc ++ [e]) es := fun hc => h (by simpa [NoClash] using hc)
      obtain ⟨pre, e', post, h1, h2, h3⟩ := ih ha' h'
      exact ⟨e :: pre, e', post, by rw [h1]; rfl, by simpa [NoClash] using h2, by simpa using h3⟩

/-- C02: a bulk add succeeds exactly when no id clashes, and then is the same as adding the
entities one by one. -/
theorem C02_bulk_ok (ops : List GOp) (es : List Entity) :
    (((Graph.run ops).addEntities es).2 = .ok () ↔ NoClash (accepted ops) es) ∧
    (NoClash (accepted ops) es →
      ((Graph.run ops).addEntities es).1 = Graph.run (ops ++ es.map .add)) := by
  have hi := Inv.run ops
  have key : NoClash (accepted ops) es →
      (Graph.run ops).addEntities es = (Graph.run (ops ++ es.map .add), .ok ()) := by
    intro hn
    rw [← nodes_run] at hn
    rw [addEntities_ok hi es hn]
    simp [Graph.run, List.foldl_append]
  refine ⟨⟨?_, fun hn => by rw [key hn]⟩, fun hn => by rw [key hn]⟩
  intro hok
  refine Classical.byContradiction fun hn => ?_
  obtain ⟨pre, e, post, h1, h2, h3⟩ := noClash_split (C01_unique ops) hn
  rw [← nodes_run] at h2 h3
  rw [h1, addEntities_err hi pre e post h2 h3] at hok
  simp at hok

/-- C02: a bulk add that clashes first at `e` reports `e`'s id and leaves exactly the entities
before `e` added. -/
theorem C02_bulk_err (ops : List GOp) (pre : List Entity) (e : Entity) (post : List Entity)
    (hpre : NoClash (accepted ops) pre) (hdup : ∃ a ∈ accepted ops ++ pre, a.id = e.id) :
    ((Graph.run ops).addEntities (pre ++ e :: post)) =
      (Graph.run (ops ++ pre.map .add), .error (.entityAlreadyExists e.id)) ∧
    accepted (ops ++ [.addAll (pre ++ e :: post)]) = accepted ops ++ pre := by
  have hi := Inv.run ops
  rw [← nodes_run] at hpre hdup
  have h1 := addEntities_err hi pre e post hpre hdup
  have h2 : (pre.map GOp.add).foldl Graph.step (Graph.run ops) = Graph.run (ops ++ pre.map .add) := by
    simp [Graph.run, List.foldl_append]
  rw [h2] at h1
  refine ⟨h1, ?_⟩
  rw [← nodes_run, run_snoc]
  simp only [Graph.step, h1]
  rw [nodes_run]
  have gen : ∀ (pre : List Entity) (ops : List GOp), NoClash (accepted ops) pre →
      accepted (ops ++ pre.map .add) = accepted ops ++ pre := by
    intro pre
    induction pre with
    | nil => intro ops _; simp
    | cons a pre ih =>
      intro ops hn
      obtain ⟨h3, h4⟩ := noClash_cons hn
      have hs : accepted (ops ++ [.add a]) = accepted ops ++ [a] := by
        rw [accepted_snoc]; simp only [accept, acceptOne, h3, if_false]
      have := ih (ops ++ [.add a]) (by rw [hs]; exact h4)
      rw [hs] at this
      simpa using this
  exact gen pre ops (by rw [← nodes_run]; exact hpre)

example : NoClash (accepted exOps) [Entity.new "n".toList "t".toList] ∧
    ∃ a ∈ accepted exOps ++ [Entity.new "n".toList "t".toList], a.id = exBob.id := by
  constructor
  · unfold NoClash; decide
  · exact ⟨exBob, by decide, rfl⟩

/-! ## C03 -/

/-- C03: listing by type = the accepted entities of that type in insertion order. -/
theorem C03_list_by_type (ops : List GOp) (t : EntityType) :
    (Graph.run ops).listByType t = (accepted ops).filter (fun e => e.entityType = t) := by
  rw [(Inv.run ops).listByType_eq, nodes_run]
  apply List.filter_congr
  intro e _
  by_cases h : e.entityType = t <;> simp [h]

/-- C03: the reported types are exactly the types with an entity, each once. -/
theorem C03_all_types (ops : List GOp) :
    (Graph.run ops).getAllEntityTypes.Nodup ∧
    ∀ t, t ∈ (Graph.run ops).getAllEntityTypes ↔ ∃ e ∈ accepted ops, e.entityType = t := by
  have h := Inv.run ops
  refine ⟨h.typeKeys, fun t => ?_⟩
  unfold Graph.getAllEntityTypes
  rw [← lookup_isSome_iff_mem_keys, ← nodes_run]
  have ht := h.types t
  constructor
  · intro hs
    obtain ⟨ns, hns⟩ := Option.isSome_iff_exists.1 hs
    have hne := h.typesNonempty t ns hns
    rw [hns] at ht
    cases hf : (Graph.run ops).nodes.filter (·.entityType == t) with
    | nil =>
      rw [hf] at ht
      simp only [Option.getD_some, List.map_nil, List.map_eq_nil_iff] at ht
      exact absurd ht hne
    | cons e l =>
      have : e ∈ (Graph.run ops).nodes.filter (·.entityType == t) := by rw [hf]; simp
      rw [List.mem_filter] at this
      exact ⟨e, this.1, by simpa using this.2⟩
  · rintro ⟨e, he, het⟩
    cases hl : (Graph.run ops).typeMap.lookup t with
    | some _ => rfl
    | none =>
      rw [hl] at ht
      have : e ∈ (Graph.run ops).nodes.filter (·.entityType == t) := by
        rw [List.mem_filter]; exact ⟨he, by simpa using het⟩
      have hm := List.mem_map_of_mem (f := some) this
      rw [← ht] at hm; simp at hm

example : (Graph.run exOps).listByType "person".toList = [exAlice, exBob] := by decide

/-! ## C04 -/

/-- C04: directly after build, the outgoing relations of `a` are exactly the entities of the graph
that `a` refers to. -/
theorem C04_outgoing (ops : List GOp) (a : Entity) (ha : a ∈ accepted ops) :
    ∃ l, (Graph.run (ops ++ [.build])).getRelated a.id (some .outgoing) = some l ∧
      ∀ b, b ∈ l ↔ b ∈ accepted ops ∧ RefersTo a b.id := by
  have h := Inv.run ops
  rw [← nodes_run] at ha ⊢
  rw [run_snoc]
  obtain ⟨l, h1, _, h3⟩ := h.build.getRelated_some (a := a) ha (some .outgoing)
  refine ⟨l, h1, fun b => ?_⟩
  rw [h3]
  simp only [LinkedDir, h.linked_build, ha, true_and]

example : exTask ∈ accepted exOps ∧ exAlice ∈ accepted exOps ∧ RefersTo exTask exAlice.id :=
  ⟨by decide, by decide, "who".toList, _, List.mem_cons_self,
    .item _ _ _ List.mem_cons_self (.item _ _ _ List.mem_cons_self (.ref (.entity _)))⟩

/-! ## C05 -/

/-- C05: building twice is building once. -/
theorem C05_idempotent (ops : List GOp) :
    Graph.run (ops ++ [.build, .build]) = Graph.run (ops ++ [.build]) := by
  have : ops ++ [GOp.build, GOp.build] = (ops ++ [.build]) ++ [.build] := by simp
  rw [this, run_snoc, run_snoc]
  rfl

/-- C05: after build the whole graph (hence every observer) is a function of the accepted
entities. -/
theorem C05_history_independent (ops ops' : List GOp) (h : accepted ops = accepted ops') :
    Graph.run (ops ++ [.build]) = Graph.run (ops' ++ [.build]) := by
  have i1 := Inv.run ops
  have i2 := Inv.run ops'
  rw [← nodes_run, ← nodes_run] at h
  rw [run_snoc, run_snoc]
  simp only [Graph.step, Graph.build, i1.idMapEq, i1.typeMapEq, i2.idMapEq, i2.typeMapEq, h]

example : accepted exOps = accepted [.addAll [exAlice, exTask, exBob]] := by decide

/-! ## C06 -/

/-- C06: in every reachable graph, `b` is among the outgoing relations of `a` iff `a` is among
the incoming relations of `b`; undirected relations are the union. -/
theorem C06_duality (ops : List GOp) (a b : Entity) (ha : a ∈ accepted ops) (hb : b ∈ accepted ops) :
    ∃ outA inA anyA inB,
      (Graph.run ops).getRelated a.id (some .outgoing) = some outA ∧
      (Graph.run ops).getRelated a.id (some .incoming) = some inA ∧
      (Graph.run ops).getRelated a.id none = some anyA ∧
      (Graph.run ops).getRelated b.id (some .incoming) = some inB ∧
      (b ∈ outA ↔ a ∈ inB) ∧ (b ∈ anyA ↔ b ∈ outA ∨ b ∈ inA) := by
  have h := Inv.run ops
  rw [← nodes_run] at ha hb
  obtain ⟨l1, h1, _, m1⟩ := h.getRelated_some ha (some .outgoing)
  obtain ⟨l2, h2, _, m2⟩ := h.getRelated_some ha (some .incoming)
  obtain ⟨l3, h3, _, m3⟩ := h.getRelated_some ha none
  obtain ⟨l4, h4, _, m4⟩ := h.getRelated_some hb (some .incoming)
  refine ⟨l1, l2, l3, l4, h1, h2, h3, h4, ?_, ?_⟩
  · rw [m1, m4]; rfl
  · rw [m1, m2, m3]; rfl

-- a stale graph (bob added after the build) in which the relation is not empty
example : (Graph.run [.addAll [exAlice, exTask], .build, .add exBob]).getRelated
    "person.alice".toList (some .incoming) = some [exTask] := by decide

/-! ## C07 -/

/-- C07: unknown ids give `None`; otherwise the answer is strictly increasing by id and contains
only entities of the graph. -/
theorem C07_related_set (ops : List GOp) (id : EntityId) (dir : Option Direction) :
    ((Graph.run ops).getRelated id dir = none ↔ (Graph.run ops).getEntity id = none) ∧
    ∀ l, (Graph.run ops).getRelated id dir = some l →
      l.Pairwise (fun x y => strCmp x.id y.id = .lt) ∧ l.Nodup ∧ ∀ e ∈ l, e ∈ accepted ops := by
  have h := Inv.run ops
  constructor
  · rw [h.getRelated_none, Option.eq_none_iff_forall_ne_some]
    simp only [ne_eq, h.getEntity_iff, not_exists]
  · intro l hl
    cases hg : (Graph.run ops).getEntity id with
    | none =>
      have : (Graph.run ops).getRelated id dir = none := by
        rw [h.getRelated_none]
        rintro ⟨e, he⟩
        rw [(h.getEntity_iff id e).2 he] at hg; simp at hg
      rw [this] at hl; simp at hl
    | some a =>
      obtain ⟨ha, hid⟩ := (h.getEntity_iff id a).1 hg
      obtain ⟨l', h1, h2, h3⟩ := h.getRelated_some ha dir
      rw [hid, hl] at h1; cases h1
      refine ⟨h2, h2.imp (fun {x y} hxy hc => ?_), ?_⟩
      · rw [hc] at hxy; exact strCmp_lt_irrefl _ hxy
      · intro e he
        rw [← nodes_run]
        have := (h3 e).1 he
        cases dir with
        | none => rcases this with h | h; exact h.mem_right; exact h.mem_left
        | some d => cases d with
          | outgoing => exact Linked.mem_right this
          | incoming => exact Linked.mem_left this

example : (Graph.run (exOps ++ [.build])).getRelated "task.t".toList none = some [exAlice] := by
  decide

/-! ## C08 -/

/-- C08: two histories that accepted the same entities in different orders and end with build
answer all questions alike. -/
theorem C08_order_independent (ops ops' : List GOp) (h : (accepted ops).Perm (accepted ops')) :
    let g := Graph.run (ops ++ [.build])
    let g' := Graph.run (ops' ++ [.build])
    (∀ id, g.getEntity id = g'.getEntity id) ∧
    (∀ id dir, g.getRelated id dir = g'.getRelated id dir) ∧
    (∀ v, g.resolveEntityReference v = g'.resolveEntityReference v) ∧
    (∀ v, g.resolveFieldReference v = g'.resolveFieldReference v) ∧
    (∀ t, (g.listByType t).Perm (g'.listByType t)) ∧
    (g.getAllEntityTypes.Perm g'.getAllEntityTypes) := by
  simp only
  have i1 := Inv.run ops
  have i2 := Inv.run ops'
  have hperm := h
  rw [← nodes_run, ← nodes_run] at hperm
  have hmem : ∀ e, e ∈ (Graph.run ops).nodes ↔ e ∈ (Graph.run ops').nodes := fun e => hperm.mem_iff
  have hget : ∀ id, (Graph.run ops).getEntity id = (Graph.run ops').getEntity id := by
    intro id
    apply Option.ext
    intro e
    rw [i1.getEntity_iff, i2.getEntity_iff, hmem]
  have e1 : Graph.run (ops ++ [.build]) = (Graph.run ops).build := run_snoc ops .build
  have e2 : Graph.run (ops' ++ [.build]) = (Graph.run ops').build := run_snoc ops' .build
  rw [e1, e2]
  refine ⟨hget, ?_, ?_, ?_, ?_, ?_⟩
  · intro id dir
    cases hg : (Graph.run ops).getEntity id with
    | none =>
      have hn1 : (Graph.run ops).build.getRelated id dir = none := by
        rw [i1.build.getRelated_none]
        rintro ⟨e, he⟩; rw [(i1.getEntity_iff id e).2 he] at hg; simp at hg
      have hn2 : (Graph.run ops').build.getRelated id dir = none := by
        rw [i2.build.getRelated_none]
        rintro ⟨e, he⟩; rw [hget, (i2.getEntity_iff id e).2 he] at hg; simp at hg
      rw [hn1, hn2]
    | some a =>
      obtain ⟨ha, hid⟩ := (i1.getEntity_iff id a).1 hg
      have ha' := (hmem a).1 ha
      obtain ⟨l, h1, h2, h3⟩ := i1.build.getRelated_some (a := a) ha dir
      obtain ⟨l', h1', h2', h3'⟩ := i2.build.getRelated_some (a := a) ha' dir
      rw [hid] at h1 h1'
      rw [h1, h1']
      congr 1
      apply h2.ext h2'
      intro e
      rw [h3, h3']
      cases dir with
      | none => simp only [LinkedDir, i1.linked_build, i2.linked_build, hmem]
      | some d => cases d <;> simp only [LinkedDir, i1.linked_build, i2.linked_build, hmem]
  · intro v
    unfold Graph.resolveEntityReference
    split
    · rename_i id
      have : (Graph.run ops).build.getEntity id = (Graph.run ops').build.getEntity id := hget id
      rw [this]
    · rfl
  · intro v
    unfold Graph.resolveFieldReference
    split
    · rw [i1.search_build, i2.search_build]
      have : (Graph.run ops).getEntity = (Graph.run ops').getEntity := funext hget
      rw [this]
    · rfl
  · intro t
    rw [i1.build.listByType_eq, i2.build.listByType_eq]
    exact hperm.filter _
  · have k1 := C03_all_types ops
    have k2 := C03_all_types ops'
    refine (List.perm_ext_iff_of_nodup k1.1 k2.1).2 fun t => ?_
    rw [k1.2, k2.2]
    constructor
    · rintro ⟨e, he, ht⟩; exact ⟨e, h.mem_iff.1 he, ht⟩
    · rintro ⟨e, he, ht⟩; exact ⟨e, h.mem_iff.2 he, ht⟩

/-- Accepting a duplicate-free batch accepts all of it. -/
theorem accepted_addAll (es : List Entity) (h : (es.map (·.id)).Nodup) :
    accepted [.addAll es] = es := by
  have gen : ∀ (es acc : List Entity), NoClash acc es → acceptAll acc es = acc ++ es := by
    intro es
    induction es with
    | nil => intro acc _; simp [acceptAll]
    | cons e es ih =>
      intro acc hn
      obtain ⟨h1, h2⟩ := noClash_cons hn
      unfold acceptAll
      rw [if_neg h1, ih _ h2]; simp
  have := gen es [] (by simpa [NoClash] using h)
  simpa [accepted, accept] using this

/-- C08 for the usual way to fill a graph: one bulk add of duplicate-free entities, then build. -/
theorem C08_bulk (es es' : List Entity) (hn : (es.map (·.id)).Nodup) (hp : es.Perm es') :
    let g := Graph.run [.addAll es, .build]
    let g' := Graph.run [.addAll es', .build]
    (∀ id, g.getEntity id = g'.getEntity id) ∧
    (∀ id dir, g.getRelated id dir = g'.getRelated id dir) ∧
    (∀ v, g.resolveFieldReference v = g'.resolveFieldReference v) ∧
    (∀ t, (g.listByType t).Perm (g'.listByType t)) := by
  have hn' : (es'.map (·.id)).Nodup := (hp.map (·.id)).nodup_iff.1 hn
  have := C08_order_independent [.addAll es] [.addAll es']
    (by rw [accepted_addAll es hn, accepted_addAll es' hn']; exact hp)
  exact ⟨this.1, this.2.1, this.2.2.2.1, this.2.2.2.2.1⟩

example : (accepted exOps).Perm (accepted [.addAll [exBob, exAlice], .add exTask]) := by decide

/-! ## C09 -/

/-- C09: on a built graph a field reference resolves to `v` exactly when the chain of field
references reaches `v` within ten look-ups. -/
theorem C09_resolves_iff (ops : List GOp) (id : EntityId) (f : FieldId) (v : FieldValue) :
    (Graph.run (ops ++ [.build])).resolveFieldReference (.reference (.field id f)) = .ok v ↔
      ∃ n, n ≤ 10 ∧ ResolvesIn (accepted ops) (id, f) n v := by
  have h := Inv.run ops
  rw [run_snoc, ← nodes_run]
  simp only [Graph.step, Graph.resolveFieldReference, h.search_build]
  constructor
  · exact searchL_sound h.looksUp 10 [] id f v
  · rintro ⟨n, hn, hr⟩
    have := searchL_of_resolves h.looksUp hr 10 [] (by simp)
    rw [this, if_pos hn]

/-- C09: a chain that ends but needs more than ten look-ups is reported as too deep. -/
theorem C09_too_deep (ops : List GOp) (id : EntityId) (f : FieldId) (v : FieldValue) (n : Nat)
    (hn : 10 < n) (hr : ResolvesIn (accepted ops) (id, f) n v) :
    (Graph.run (ops ++ [.build])).resolveFieldReference (.reference (.field id f)) =
      .error .maxDepthExceeded := by
  have h := Inv.run ops
  rw [← nodes_run] at hr
  rw [run_snoc]
  simp only [Graph.step, Graph.resolveFieldReference, h.search_build]
  rw [searchL_of_resolves h.looksUp hr 10 [] (by simp), if_neg (by omega)]

-- a chain of three look-ups
example : ResolvesIn (accepted exOps) ("task.t".toList, "boss_name".toList) 3
    (.string "Bob".toList) :=
  .step _ "person.alice".toList "boss".toList _ _ ⟨exTask, by decide, rfl, by decide⟩
    (.step _ "person.bob".toList "name".toList _ _ ⟨exAlice, by decide, rfl, by decide⟩
      (.here _ _ ⟨exBob, by decide, rfl, by decide⟩ (by rintro ⟨_, _, h⟩; cases h)))

/-- An entity `e` whose field `f` refers to field `g` of the same entity. -/
def exLink (f g : String) : FieldId × FieldValue :=
  (f.toList, .reference (.field "e".toList g.toList))
/-- Eleven fields chained after each other. -/
def exChain : Entity :=
  ⟨"e".toList, "t".toList,
    [exLink "0" "1", exLink "1" "2", exLink "2" "3", exLink "3" "4", exLink "4" "5", exLink "5" "6",
     exLink "6" "7", exLink "7" "8", exLink "8" "9", exLink "9" "a", ("a".toList, .integer 7)]⟩
theorem exChain_step (a b : String) (n : Nat) (v : FieldValue)
    (h : exChain.getField a.toList = some (exLink a b).2)
    (hr : ResolvesIn [exChain] ("e".toList, b.toList) n v) :
    ResolvesIn [exChain] ("e".toList, a.toList) (n + 1) v :=
  .step _ _ _ _ _ ⟨exChain, by simp, rfl, h⟩ hr
example : ResolvesIn (accepted [.add exChain]) ("e".toList, "0".toList) 11 (.integer 7) := by
  have : accepted [.add exChain] = [exChain] := by decide
  rw [this]
  refine exChain_step "0" "1" _ _ (by decide) (exChain_step "1" "2" _ _ (by decide)
    (exChain_step "2" "3" _ _ (by decide) (exChain_step "3" "4" _ _ (by decide)
    (exChain_step "4" "5" _ _ (by decide) (exChain_step "5" "6" _ _ (by decide)
    (exChain_step "6" "7" _ _ (by decide) (exChain_step "7" "8" _ _ (by decide)
    (exChain_step "8" "9" _ _ (by decide) (exChain_step "9" "a" _ _ (by decide)
    (.here _ _ ⟨exChain, by simp, rfl, by decide⟩ (by rintro ⟨_, _, h⟩; cases h)))))))))))

/-! ## C10 -/

/-- C10: in every reachable graph a successful resolution is the end of the chain in the current
entities; the only outcome that differs from the freshly built graph is `GraphNotBuilt`; and a
built graph never reports `GraphNotBuilt`. -/
theorem C10_stale_sound (ops : List GOp) (r : FieldValue) :
    (∀ id f v, r = .reference (.field id f) → (Graph.run ops).resolveFieldReference r = .ok v →
      ∃ n, n ≤ 10 ∧ ResolvesIn (accepted ops) (id, f) n v) ∧
    ((Graph.run ops).resolveFieldReference r =
        (Graph.run (ops ++ [.build])).resolveFieldReference r ∨
      (Graph.run ops).resolveFieldReference r = .error .graphNotBuilt) ∧
    (Graph.run (ops ++ [.build])).resolveFieldReference r ≠ .error .graphNotBuilt := by
  have h := Inv.run ops
  have e1 : Graph.run (ops ++ [.build]) = (Graph.run ops).build := run_snoc ops .build
  have h2 : (Graph.run ops).resolveFieldReference r =
        (Graph.run (ops ++ [.build])).resolveFieldReference r ∨
      (Graph.run ops).resolveFieldReference r = .error .graphNotBuilt := by
    rw [e1]
    unfold Graph.resolveFieldReference
    split
    · exact h.search_stale 10 [] _ _
    · exact .inl rfl
  refine ⟨?_, h2, ?_⟩
  · rintro id f v rfl hok
    rcases h2 with h2 | h2
    · rw [h2] at hok; exact (C09_resolves_iff ops id f v).1 hok
    · rw [h2] at hok; simp at hok
  · rw [e1]
    unfold Graph.resolveFieldReference
    split
    · rw [h.search_build]; exact searchL_not_graphNotBuilt _ _ _ _ _
    · simp

-- a graph that is really stale
example : (Graph.run [.addAll [exAlice], .build, .add exBob]).resolveFieldReference
    (.reference (.field "person.alice".toList "boss".toList)) = .error .graphNotBuilt := by rfl

/-! ## C11 -/

/-- C11: on a built graph a cyclic chain ends in `CyclicReference` when the loop closes within the
first ten look-ups and in `MaxDepthExceeded` otherwise. -/
theorem C11_cyclic (ops : List GOp) (id : EntityId) (f : FieldId)
    (hc : Cyclic (accepted ops) (id, f)) :
    let r := (Graph.run (ops ++ [.build])).resolveFieldReference (.reference (.field id f))
    (ClosesWithin (accepted ops) (id, f) 10 → r = .error .cyclicReference) ∧
    (¬ ClosesWithin (accepted ops) (id, f) 10 → r = .error .maxDepthExceeded) := by
  simp only
  have h := Inv.run ops
  rw [← nodes_run] at hc ⊢
  rw [run_snoc]
  simp only [Graph.step, Graph.resolveFieldReference, h.search_build]
  exact searchL_cyclic h.looksUp hc 10

/-- A loop of two fields with a tail of one. -/
def exLoop : Entity := ⟨"e".toList, "t".toList, [exLink "0" "1", exLink "1" "2", exLink "2" "1"]⟩
theorem exLoop_cyclic :
    Cyclic (accepted [.add exLoop]) ("e".toList, "0".toList) ∧
    ClosesWithin (accepted [.add exLoop]) ("e".toList, "0".toList) 10 := by
  have h : accepted [.add exLoop] = [exLoop] := by decide
  rw [h]
  have h1 : Hops [exLoop] 1 ("e".toList, "0".toList) ("e".toList, "1".toList) :=
    .succ _ _ _ _ _ ⟨exLoop, by simp, rfl, by decide⟩ (.zero _)
  have h2 : Hops [exLoop] 2 ("e".toList, "1".toList) ("e".toList, "1".toList) :=
    .succ _ "e".toList "2".toList _ _ ⟨exLoop, by simp, rfl, by decide⟩
      (.succ _ _ _ _ _ ⟨exLoop, by simp, rfl, by decide⟩ (.zero _))
  exact ⟨⟨1, 2, _, by decide, h1, h2⟩, ⟨1, 2, _, by decide, h1, h2, by decide⟩⟩
example : Cyclic (accepted [.add exLoop]) ("e".toList, "0".toList) := exLoop_cyclic.1

/-- A loop reached after ten look-ups: reported as too deep. -/
def exLongLoop : Entity :=
  ⟨"e".toList, "t".toList,
    [exLink "0" "1", exLink "1" "2", exLink "2" "3", exLink "3" "4", exLink "4" "5", exLink "5" "6",
     exLink "6" "7", exLink "7" "8", exLink "8" "9", exLink "9" "0"]⟩
example : (Graph.run [.add exLongLoop, .build]).resolveFieldReference
    (.reference (.field "e".toList "0".toList)) = .error .maxDepthExceeded := by rfl

end Firm
