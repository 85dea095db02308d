import Verif.Props.Order

/-!
# Properties of whole queries and of `count` and `select` (C32–C34, C36, C40)
-/

namespace Firm
open Spec

/-! ## C32 -/

/-- The bag of a query: entities of the graph, none twice. -/
def Bag (g : Graph) (es : List Entity) : Prop := (∀ e ∈ es, e ∈ g.nodes) ∧ es.Nodup

theorem Inv.getEntity_mem {g : Graph} (h : Inv g) {id : EntityId} {e : Entity}
    (he : g.getEntity id = some e) : e ∈ g.nodes := ((h.getEntity_iff id e).1 he).1

theorem Bag.selectFrom {g : Graph} (h : Inv g) (rt : Runtime) (src : EntitySelector)
    {es : List Entity} (hs : selectFrom rt g src = .ok es) : Bag g es := by
  have hnd : g.nodes.Nodup := List.Nodup.of_map _ h.nodup
  cases src with
  | type t =>
    simp only [Firm.selectFrom] at hs
    split at hs
    · cases hs
      rw [h.listByType_eq]
      exact ⟨fun e he => (List.mem_filter.1 he).1, hnd.filter _⟩
    · cases hs
  | all =>
    simp only [Firm.selectFrom, Except.ok.injEq] at hs
    subst hs
    constructor
    · intro e he
      obtain ⟨t, _, he⟩ := List.mem_flatMap.1 he
      rw [h.listByType_eq] at he
      exact (List.mem_filter.1 he).1
    · have hk : (rt.order 0 g.getAllEntityTypes).Nodup :=
        (rt.order_perm 0 _).nodup_iff.2 h.typeKeys
      rw [List.nodup_flatMap]
      constructor
      · intro t _; rw [h.listByType_eq]; exact hnd.filter _
      · refine hk.imp ?_
        intro t t' hne
        simp only [Function.onFun]
        rw [List.disjoint_left]
        intro e he he'
        rw [h.listByType_eq] at he he'
        have h1 := (List.mem_filter.1 he).2
        have h2 := (List.mem_filter.1 he').2
        simp only [beq_iff_eq] at h1 h2
        exact hne (h1.symm.trans h2)

theorem Bag.applyOperation {g : Graph} (h : Inv g) (env : Env) (rt : Runtime) (nonce : Nat)
    (op : QueryOperation) {es r : List Entity} (hb : Bag g es)
    (hr : applyOperation env rt nonce g es op = .ok r) : Bag g r := by
  cases op with
  | «where» c =>
    obtain ⟨_, rfl⟩ := (filterEntities_ok _ _ _ _).1 hr
    exact ⟨fun e he => hb.1 e (List.mem_filter.1 he).1, hb.2.filter _⟩
  | order f dir =>
    simp only [Firm.applyOperation, orderBy] at hr
    cases hs : rt.sort (orderLe env f dir) es with
    | none => rw [hs] at hr; simp at hr
    | some l =>
      rw [hs] at hr; cases hr
      have hp := rt.sort_perm _ _ _ hs
      exact ⟨fun e he => hb.1 e (hp.mem_iff.1 he), hp.nodup_iff.2 hb.2⟩
  | limit n =>
    simp only [Firm.applyOperation, Except.ok.injEq] at hr
    subst hr
    exact ⟨fun e he => hb.1 e (List.mem_of_mem_take he), hb.2.sublist (List.take_sublist _ _)⟩
  | related d t =>
    simp only [Firm.applyOperation, Except.ok.injEq] at hr
    subst hr
    by_cases hd : 1 ≤ d
    · exact ⟨fun e he => ((h.mem_getRelatedEntities rt nonce es hb.1 d hd t e).1 he).1,
        h.nodup_getRelatedEntities rt nonce es d hd t⟩
    · have : d = 0 := by omega
      subst this
      have : getRelatedEntities rt nonce g es 0 t = es := by simp [getRelatedEntities]
      rw [this]; exact hb

theorem Bag.applyOperations {g : Graph} (h : Inv g) (env : Env) (rt : Runtime)
    (ops : List QueryOperation) {es r : List Entity} (hb : Bag g es)
    (hr : applyOperations env rt g ops es = .ok r) : Bag g r := by
  induction ops generalizing es with
  | nil => simp only [Firm.applyOperations, Except.ok.injEq] at hr; subst hr; exact hb
  | cons op ops ih =>
    simp only [Firm.applyOperations] at hr
    cases ho : Firm.applyOperation env rt ops.length g es op with
    | error e => rw [ho] at hr; simp at hr
    | ok es' => rw [ho] at hr; exact ih (Bag.applyOperation h env rt _ op hb ho) hr

/-- C32: whatever the query, the entities it returns are accepted entities of the graph, unmodified,
and none is returned twice. -/
theorem C32_bag (ops : List GOp) (env : Env) (rt : Runtime) (q : Query) (es : List Entity)
    (h : q.execute env rt (Graph.run ops) = .ok (.entities es)) :
    (∀ e ∈ es, e ∈ accepted ops) ∧ es.Nodup ∧ (es.map (·.id)).Nodup := by
  have hI := Inv.run ops
  have hbag : Bag (Graph.run ops) es := by
    unfold Query.execute at h
    cases hs : selectFrom rt (Graph.run ops) q.source with
    | error e => rw [hs] at h; simp at h
    | ok start =>
      rw [hs] at h
      simp only at h
      cases ho : applyOperations env rt (Graph.run ops) q.operations start with
      | error e => rw [ho] at h; simp at h
      | ok es' =>
        rw [ho] at h
        simp only at h
        cases ha : q.aggregation with
        | some a =>
          rw [ha] at h; simp only at h
          cases hx : a.execute env es' with
          | ok r => rw [hx] at h; simp at h
          | error e => rw [hx] at h; simp at h
        | none =>
          rw [ha] at h
          simp only [Except.ok.injEq, QueryResult.entities.injEq] at h
          subst h
          exact Bag.applyOperations hI env rt _ (Bag.selectFrom hI rt _ hs) ho
  refine ⟨fun e he => by rw [← nodes_run]; exact hbag.1 e he, hbag.2, ?_⟩
  refine List.Nodup.map_on ?_ hbag.2
  intro a ha b hb hab
  exact hI.id_inj (hbag.1 a ha) (hbag.1 b hb) hab

/-! ## C33 -/

/-- C33: `limit n` yields the beginning of its input, of length `n` or everything. -/
theorem C33_prefix (env : Env) (rt : Runtime) (g : Graph) (n : Nat) (es : List Entity) :
    ∃ r rest, applyOperations env rt g [.limit n] es = .ok r ∧ es = r ++ rest ∧
      (r.length = n ∨ (r.length < n ∧ rest = [])) := by
  refine ⟨es.take n, es.drop n, rfl, (List.take_append_drop n es).symm, ?_⟩
  rw [List.length_take]
  by_cases h : n ≤ es.length
  · left; omega
  · right; exact ⟨by omega, List.drop_eq_nil_of_le (by omega)⟩

/-- C33: two limits are the smaller one, wherever they stand in a query. -/
theorem C33_min (env : Env) (rt : Runtime) (g : Graph) (n m : Nat) (es : List Entity) :
    applyOperations env rt g [.limit n, .limit m] es =
      applyOperations env rt g [.limit (min n m)] es := by
  simp only [applyOperations, applyOperation, List.take_take, Nat.min_comm]

theorem length_le (env : Env) (rt : Runtime) (g : Graph) (ops : List QueryOperation)
    (hno : ∀ d t, QueryOperation.related d t ∉ ops) {es r : List Entity}
    (hr : applyOperations env rt g ops es = .ok r) : r.length ≤ es.length := by
  induction ops generalizing es with
  | nil => simp only [applyOperations, Except.ok.injEq] at hr; subst hr; exact Nat.le_refl _
  | cons op ops ih =>
    simp only [applyOperations] at hr
    cases ho : applyOperation env rt ops.length g es op with
    | error e => rw [ho] at hr; simp at hr
    | ok es' =>
      rw [ho] at hr
      refine Nat.le_trans (ih (fun d t h => hno d t (by simp [h])) hr) ?_
      cases op with
      | «where» c =>
        obtain ⟨_, rfl⟩ := (filterEntities_ok _ _ _ _).1 ho
        exact List.length_filter_le _ _
      | order f dir =>
        simp only [applyOperation, orderBy] at ho
        cases hs : rt.sort (orderLe env f dir) es with
        | none => rw [hs] at ho; simp at ho
        | some l =>
          rw [hs] at ho; cases ho
          exact (rt.sort_perm _ _ _ hs).length_eq.le
      | limit n =>
        simp only [applyOperation, Except.ok.injEq] at ho
        subst ho; rw [List.length_take]; omega
      | related d t => exact absurd (by simp) (hno d t)

theorem applyOperations_append (env : Env) (rt : Runtime) (g : Graph) (pre : List QueryOperation)
    (post : List QueryOperation) {es r : List Entity}
    (hr : applyOperations env rt g (pre ++ post) es = .ok r) :
    ∃ m, applyOperations env rt g post m = .ok r := by
  induction pre generalizing es with
  | nil => exact ⟨es, hr⟩
  | cons op pre ih =>
    simp only [List.cons_append, applyOperations] at hr
    cases ho : applyOperation env rt (pre ++ post).length g es op with
    | error e => rw [ho] at hr; simp at hr
    | ok es' => rw [ho] at hr; exact ih hr

/-- C33: a query with a `limit n` after which there is no `related` never yields more than `n`
entities. -/
theorem C33_bound (env : Env) (rt : Runtime) (g : Graph) (src : EntitySelector)
    (pre post : List QueryOperation) (n : Nat) (hno : ∀ d t, QueryOperation.related d t ∉ post)
    (es : List Entity)
    (h : Query.execute env rt g ⟨src, pre ++ .limit n :: post, none⟩ = .ok (.entities es)) :
    es.length ≤ n := by
  unfold Query.execute at h
  cases hs : selectFrom rt g src with
  | error e => simp [hs] at h
  | ok start =>
    simp only [hs] at h
    cases ho : applyOperations env rt g (pre ++ .limit n :: post) start with
    | error e => simp [ho] at h
    | ok es' =>
      simp only [ho, Except.ok.injEq, QueryResult.entities.injEq] at h
      subst h
      obtain ⟨m, hm⟩ := applyOperations_append env rt g pre _ ho
      simp only [applyOperations, applyOperation] at hm
      have := length_le env rt g post hno hm
      rw [List.length_take] at this
      omega

/-! ## C34 -/

/-- C34: `from T` fails exactly when no entity has type `T`, naming the type and the types that exist;
otherwise it starts from exactly the entities of type `T`, in insertion order. -/
theorem C34_from_type (ops : List GOp) (env : Env) (rt : Runtime) (t : EntityType) :
    ((∃ e ∈ accepted ops, e.entityType = t) →
      Query.execute env rt (Graph.run ops) ⟨.type t, [], none⟩ =
        .ok (.entities ((accepted ops).filter fun e => e.entityType = t))) ∧
    ((¬ ∃ e ∈ accepted ops, e.entityType = t) → ∃ known,
      Query.execute env rt (Graph.run ops) ⟨.type t, [], none⟩ =
        .error (.unknownEntityType t known) ∧
      known.Nodup ∧ ∀ t', t' ∈ known ↔ ∃ e ∈ accepted ops, e.entityType = t') := by
  obtain ⟨hnd, hmem⟩ := C03_all_types ops
  have hp := rt.order_perm 0 (Graph.run ops).getAllEntityTypes
  have hiff : ∀ t, t ∈ rt.order 0 (Graph.run ops).getAllEntityTypes ↔
      ∃ e ∈ accepted ops, e.entityType = t := fun t => by rw [hp.mem_iff, hmem]
  constructor
  · intro h
    simp only [Query.execute, selectFrom, (hiff t).2 h, if_true, applyOperations,
      C03_list_by_type]
  · intro h
    refine ⟨rt.order 0 (Graph.run ops).getAllEntityTypes, ?_, hp.nodup_iff.2 hnd, hiff⟩
    have : ¬ t ∈ rt.order 0 (Graph.run ops).getAllEntityTypes := fun hc => h ((hiff t).1 hc)
    simp only [Query.execute, selectFrom, this, if_false]

/-- C34: `from *` starts from every entity exactly once, whatever order the types come in; entities of
one type are in insertion order. -/
theorem C34_from_all (ops : List GOp) (env : Env) (rt : Runtime) :
    ∃ es, Query.execute env rt (Graph.run ops) ⟨.all, [], none⟩ = .ok (.entities es) ∧
      es.Perm (accepted ops) ∧
      ∀ t, es.filter (fun e => e.entityType = t) =
        (accepted ops).filter fun e => e.entityType = t := by
  obtain ⟨hnd, hmem⟩ := C03_all_types ops
  have hp := rt.order_perm 0 (Graph.run ops).getAllEntityTypes
  have hk := hp.nodup_iff.2 hnd
  refine ⟨(rt.order 0 (Graph.run ops).getAllEntityTypes).flatMap (Graph.run ops).listByType, rfl,
    ?_, ?_⟩
  · have hbag : Bag (Graph.run ops) _ := Bag.selectFrom (Inv.run ops) rt .all rfl
    have hacc : (accepted ops).Nodup := List.Nodup.of_map _ (C01_unique ops)
    refine (List.perm_ext_iff_of_nodup hbag.2 hacc).2 ?_
    intro e
    rw [List.mem_flatMap]
    constructor
    · rintro ⟨t, _, he⟩
      rw [C03_list_by_type] at he
      exact (List.mem_filter.1 he).1
    · intro he
      refine ⟨e.entityType, ?_, ?_⟩
      · rw [hp.mem_iff, hmem]; exact ⟨e, he, rfl⟩
      · rw [C03_list_by_type]; simp [he]
  · intro t
    have key : ∀ ts : List EntityType, ts.Nodup →
        (ts.flatMap (Graph.run ops).listByType).filter (fun e => e.entityType = t) =
          if t ∈ ts then (accepted ops).filter (fun e => e.entityType = t) else [] := by
      intro ts hts
      induction ts with
      | nil => simp
      | cons u us ih =>
        have hc := List.nodup_cons.1 hts
        rw [List.flatMap_cons, List.filter_append, ih hc.2, C03_list_by_type, List.filter_filter]
        by_cases hut : u = t
        · subst hut; simp [hc.1]
        · have : (accepted ops).filter
              (fun e => decide (e.entityType = t) && decide (e.entityType = u)) = [] := by
            rw [List.filter_eq_nil_iff]
            intro e _ hh
            simp only [Bool.and_eq_true, decide_eq_true_eq] at hh
            exact hut (hh.2.symm.trans hh.1)
          rw [this]
          simp [Ne.symm hut]
    rw [key _ hk]
    by_cases ht : t ∈ rt.order 0 (Graph.run ops).getAllEntityTypes
    · rw [if_pos ht]
    · rw [if_neg ht]
      symm
      rw [List.filter_eq_nil_iff]
      intro e he hh
      rw [hp.mem_iff, hmem] at ht
      exact ht ⟨e, he, by simpa using hh⟩

/-! ## C36 -/

/-- C36: `count` counts the entities, `count f` those that have the field; both always succeed. -/
theorem C36_count (env : Env) (es : List Entity) (f : FieldId) (m : MetadataField) :
    Aggregation.execute env (.count none) es = .ok (.count es.length) ∧
    Aggregation.execute env (.count (some (.regular f))) es = .ok (.count (present f es).length) ∧
    Aggregation.execute env (.count (some (.metadata m))) es = .ok (.count es.length) := by
  refine ⟨rfl, ?_, rfl⟩
  simp only [Aggregation.execute, executeCount, Except.ok.injEq, AggregationResult.count.injEq]
  unfold present
  induction es with
  | nil => rfl
  | cons e es ih =>
    rw [List.filter_cons, List.filterMap_cons]
    cases h : e.getField f with
    | none => simpa using ih
    | some v => simp [ih]

/-- C36: at the level of queries: `… | count` is the number of entities `…` returns. -/
theorem C36_query (env : Env) (rt : Runtime) (g : Graph) (src : EntitySelector)
    (ops : List QueryOperation) (es : List Entity)
    (h : Query.execute env rt g ⟨src, ops, none⟩ = .ok (.entities es)) :
    Query.execute env rt g ⟨src, ops, some (.count none)⟩ = .ok (.aggregation (.count es.length)) := by
  unfold Query.execute at h ⊢
  cases hs : selectFrom rt g src with
  | error e => simp [hs] at h
  | ok start =>
    simp only [hs] at h ⊢
    cases ho : applyOperations env rt g ops start with
    | error e => simp [ho] at h
    | ok es' =>
      simp only [ho, Except.ok.injEq, QueryResult.entities.injEq] at h ⊢
      subst h
      rfl

/-! ## C40 -/

/-- C40: `select` returns one row per entity and one cell per field, in order; a cell holds the
entity's value and is empty exactly when the entity lacks the field. -/
theorem C40_select (env : Env) (fields : List FieldRef) (es : List Entity) :
    ∃ cols rows, Aggregation.execute env (.select fields) es = .ok (.select cols rows) ∧
      cols.length = fields.length ∧ rows.length = es.length ∧
      (∀ (j : Nat) (f : FieldId), fields[j]? = some (.regular f) → cols[j]? = some f) ∧
      ∀ (i : Nat) (e : Entity), es[i]? = some e → ∃ row, rows[i]? = some row ∧
        row.length = fields.length ∧
        ∀ (j : Nat) (f : FieldRef), fields[j]? = some f → row[j]? = some (valueAt e f) := by
  refine ⟨_, _, rfl, by simp, by simp, ?_, ?_⟩
  · intro j f hj; simp [List.getElem?_map, hj, columnName]
  · intro i e hi
    refine ⟨fields.map (cellOf e), by simp [List.getElem?_map, hi], by simp, ?_⟩
    intro j f hj
    rw [List.getElem?_map, hj]
    cases f with
    | regular f => rfl
    | metadata m => cases m <;> rfl

/-- C40: a cell of a regular field is empty exactly when no field of the entity has that name. -/
theorem C40_empty_cell (e : Entity) (f : FieldId) :
    valueAt e (.regular f) = none ↔ ∀ p ∈ e.fields, p.1 ≠ f := by
  simp [valueAt, Entity.getField]

example : Query.execute exEnv exRt (Graph.run [.addAll [exAlice, exBob, exTask], .build])
    ⟨.all, [.order (.metadata .id) .descending, .limit 2], some (.select [.metadata .id])⟩ =
    .ok (.aggregation (.select ["@id".toList]
      [[some (.string exTask.id)], [some (.string exBob.id)]])) := by decide
example : Query.execute exEnv exRt (Graph.run [.addAll [exAlice, exBob, exTask], .build])
    ⟨.type "person".toList, [], some (.count (some (.regular "name".toList)))⟩ =
    .ok (.aggregation (.count 2)) := by decide
example : ∃ known, Query.execute exEnv exRt (Graph.run [.add exAlice]) ⟨.type "x".toList, [], none⟩ =
    .error (.unknownEntityType "x".toList known) := ⟨_, rfl⟩

end Firm
