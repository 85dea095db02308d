import Verif.Lemmas.SavedGraph
import Verif.Model.Cli

/-!
# C96, C97: the saved graph
-/

namespace Firm
open Spec

/-! ## C96: a saved graph is loaded as it was -/

/-- The same graph but for the order of its maps. -/
structure Alike (g g' : Graph) : Prop where
  nodes : g'.nodes = g.nodes
  edges : g'.edges = g.edges
  ids : ∀ id, g'.idMap.lookup id = g.idMap.lookup id
  types : ∀ t, g'.typeMap.lookup t = g.typeMap.lookup t
  keys : (g'.typeMap.map (·.1)).Perm (g.typeMap.map (·.1))

theorem Alike.getEntity {g g' : Graph} (h : Alike g g') (id : EntityId) : g'.getEntity id = g.getEntity id := by
  unfold Graph.getEntity
  rw [h.ids, h.nodes]

theorem Alike.search {g g' : Graph} (h : Alike g g') (d : Nat) (vis : List (EntityId × FieldId)) (id : EntityId) (f : FieldId) :
    g'.search d vis id f = g.search d vis id f := by
  induction d generalizing vis id f with
  | zero => rfl
  | succ d ih =>
    have he : ∀ s t f tf, g'.hasFieldEdge s t f tf = g.hasFieldEdge s t f tf := by
      intro s t f tf
      unfold Graph.hasFieldEdge
      rw [h.edges]
    simp only [Graph.search, h.getEntity, h.ids, he, ih]

theorem Alike.addEntity {g g' : Graph} (h : Alike g g') (e : Entity) :
    Alike (g.addEntity e).1 (g'.addEntity e).1 ∧ (g'.addEntity e).2 = (g.addEntity e).2 := by
  unfold Graph.addEntity
  rw [h.ids]
  by_cases hs : (g.idMap.lookup e.id).isSome
  · simp only [if_pos hs]
    exact ⟨h, trivial⟩
  · simp only [if_neg hs]
    refine ⟨⟨?_, h.edges, ?_, ?_, ?_⟩, trivial⟩
    · simp only [h.nodes]
    · intro id
      simp only [List.lookup_cons, h.ids, h.nodes]
    · intro t
      simp only [lookup_typePush, h.types, h.nodes]
    · simp only [h.nodes]
      have hkeys : ∀ (m : List (EntityType × List Nat)) (t : EntityType) (i : Nat),
          (typePush m t i).map (·.1) = if (m.lookup t).isSome then m.map (·.1) else m.map (·.1) ++ [t] := by
        intro m t i
        induction m with
        | nil => rfl
        | cons p m ih =>
          obtain ⟨k, v⟩ := p
          by_cases hk : k = t
          · subst hk
            simp [typePush]
          · have h1 : (k == t) = false := by simp [hk]
            have h2 : (t == k) = false := by simp [Ne.symm hk]
            simp only [typePush, h1, Bool.false_eq_true, if_false, List.map_cons, ih, List.lookup_cons, h2]
            split <;> simp
      rw [hkeys, hkeys, h.types]
      split
      · exact h.keys
      · exact h.keys.append_right _

theorem Alike.addEntities {g g' : Graph} (h : Alike g g') (es : List Entity) :
    Alike (g.addEntities es).1 (g'.addEntities es).1 := by
  induction es generalizing g g' with
  | nil => exact h
  | cons e es ih =>
    obtain ⟨h1, h2⟩ := h.addEntity e
    simp only [Graph.addEntities]
    generalize g.addEntity e = x at h1 h2
    generalize g'.addEntity e = y at h1 h2
    obtain ⟨x1, x2⟩ := x
    obtain ⟨y1, y2⟩ := y
    simp only at h1 h2
    subst h2
    cases y2 with
    | ok u => exact ih h1
    | error err => exact h1

theorem collect_ext {m m' : List (EntityId × Nat)} (h : ∀ id, m'.lookup id = m.lookup id) (src : Nat) (f : FieldId) :
    ∀ v, collect m' src f v = collect m src f v := by
  have key : ∀ n v, levels v ≤ n → collect m' src f v = collect m src f v := by
    intro n
    induction n with
    | zero => intro v hv; cases v with
      | reference r => cases r <;> simp [levels] at hv
      | _ => simp [levels] at hv
    | succ n ih =>
      intro v hv
      cases v with
      | reference r => cases r <;> simp only [collect, h]
      | list vs =>
        simp only [collect]
        simp only [levels] at hv
        have hl : ∀ vs : List FieldValue, levelsOf vs ≤ n → collectList m' src f vs = collectList m src f vs := by
          intro vs
          induction vs with
          | nil => intro _; rfl
          | cons v vs ihv =>
            intro hv
            simp only [levelsOf] at hv
            simp only [collectList]
            rw [ih v (by omega), ihv (by omega)]
        exact hl vs (by omega)
      | _ => simp only [collect]
  exact fun v => key _ v (Nat.le_refl _)

theorem Alike.step {g g' : Graph} (h : Alike g g') (op : GOp) : Alike (g.step op) (g'.step op) := by
  cases op with
  | add e => exact (h.addEntity e).1
  | addAll es => exact h.addEntities es
  | build =>
    refine ⟨h.nodes, ?_, h.ids, h.types, h.keys⟩
    show edgesToAdd g'.idMap g'.nodes = edgesToAdd g.idMap g.nodes
    unfold edgesToAdd entityEdges
    simp only [collect_ext h.ids, h.nodes]
  | clear => exact ⟨rfl, rfl, fun _ => rfl, fun _ => rfl, .refl _⟩

theorem Alike.steps {g g' : Graph} (h : Alike g g') (ops : List GOp) :
    Alike (ops.foldl Graph.step g) (ops.foldl Graph.step g') := by
  induction ops generalizing g g' with
  | nil => exact h
  | cons op ops ih => exact ih (h.step op)

theorem Alike.answers {g g' : Graph} (h : Alike g g') : SameAnswers g g' where
  nodes := h.nodes
  edges := h.edges
  getEntity := h.getEntity
  types := h.keys
  listByType t := by
    unfold Graph.listByType
    rw [h.types, h.nodes]
  getRelated id dir := by
    unfold Graph.getRelated Graph.targets Graph.sources
    rw [h.ids, h.nodes, h.edges]
  entityReference v := by
    cases v with
    | reference r => cases r with
      | entity id => simp only [Graph.resolveEntityReference, h.getEntity]
      | field id f => rfl
    | _ => rfl
  fieldReference v := by
    cases v with
    | reference r => cases r with
      | entity id => rfl
      | field id f => simp only [Graph.resolveFieldReference, h.search]
    | _ => rfl
  add e := (h.addEntity e).2

theorem Alike.trans {a b c : Graph} (h : Alike a b) (h' : Alike b c) : Alike a c where
  nodes := h'.nodes.trans h.nodes
  edges := h'.edges.trans h.edges
  ids id := (h'.ids id).trans (h.ids id)
  types t := (h'.types t).trans (h.types t)
  keys := h'.keys.trans h.keys

theorem reordered_alike {o : MapOrder} (ho : MapOrder.Lawful o) {g : Graph} (h : Inv g) :
    Alike g ⟨g.nodes, g.edges, o.ids g.idMap, o.types g.typeMap⟩ where
  nodes := rfl
  edges := rfl
  ids id := (lookup_perm (ho.1 _).symm h.idKeys id).symm
  types t := (lookup_perm (ho.2 _).symm h.typeKeys t).symm
  keys := (ho.2 _).map _

theorem exists_levels (es : List Entity) : ∃ n, ∀ e ∈ es, ∀ p ∈ e.fields, levels p.2 ≤ n := by
  have hf : ∀ fs : List (FieldId × FieldValue), ∃ n, ∀ p ∈ fs, levels p.2 ≤ n := by
    intro fs
    induction fs with
    | nil => exact ⟨0, by simp⟩
    | cons p fs ih =>
      obtain ⟨n, hn⟩ := ih
      refine ⟨max (levels p.2) n, ?_⟩
      intro q hq
      rcases List.mem_cons.1 hq with rfl | hq
      · omega
      · have := hn q hq; omega
  induction es with
  | nil => exact ⟨0, by simp⟩
  | cons e es ih =>
    obtain ⟨n, hn⟩ := ih
    obtain ⟨m, hm⟩ := hf e.fields
    refine ⟨max m n, ?_⟩
    intro a ha p hp
    rcases List.mem_cons.1 ha with rfl | ha
    · have := hm p hp; omega
    · have := hn a ha p hp; omega

theorem graphText_cons (C : Codec) (o : MapOrder) (g : Graph) : ∃ s, graphText C o g = '{' :: s := ⟨_, rfl⟩

theorem jSkip_text (C : Codec) (o : MapOrder) (g : Graph) : jSkip (graphText C o g) = graphText C o g := by
  obtain ⟨s, hs⟩ := graphText_cons C o g
  rw [hs]
  exact jSkip_cons (by decide)

/-- The whole text is read with enough levels. -/
theorem graphText_read {C : Codec} {o : MapOrder} (ho : MapOrder.Lawful o) {g : Graph} (h : Inv g)
    (hlen : g.nodes.length < 2 ^ 32) (hk : AllKept C g.nodes) {n : Nat}
    (hn : ∀ e ∈ g.nodes, ∀ p ∈ e.fields, levels p.2 ≤ n) :
    jValue C (n + 6) (graphText C o g) = some (graphTree C o g, []) := by
  have := jValue_text C (n + 6) (graphTree_ok ho h hlen hk hn) [] (stops_nil _)
  rwa [List.append_nil] at this

theorem load_good {C : Codec} {o : MapOrder} (ho : MapOrder.Lawful o) {g : Graph} (h : Inv g)
    (hlen : g.nodes.length < 2 ^ 32) (hk : AllKept C g.nodes) (hp : Tame g.nodes) :
    readGraph C (graphText C o g) = some ⟨g.nodes, g.edges, o.ids g.idMap, o.types g.typeMap⟩ := by
  unfold readGraph jsonParse
  rw [jSkip_text, graphText_read ho h hlen hk (n := 121) fun e he p hp' => (hp e he p hp').1]
  exact loadGraph_save ho h hk hp

/-- Part of the text of a graph, read up to its own end: it is the whole. -/
theorem prefix_whole {C : Codec} {o : MapOrder} (ho : MapOrder.Lawful o) {g : Graph} (h : Inv g)
    (hlen : g.nodes.length < 2 ^ 32) (hk : AllKept C g.nodes) {s t r : Str} (hs : graphText C o g = s ++ t) {m : Nat} {v : JVal}
    (hv : jValue C m s = some (v, r)) : v = graphTree C o g ∧ r ++ t = [] := by
  obtain ⟨n, hn⟩ := exists_levels g.nodes
  have hnum : ∀ k, v = .number k → r ≠ [] ∨ t = [] := by
    rintro k rfl
    exfalso
    obtain ⟨u, hu⟩ := graphText_cons C o g
    cases s with
    | nil => cases m <;> cases hv
    | cons c s =>
      rw [hu] at hs
      simp only [List.cons_append, List.cons.injEq] at hs
      obtain ⟨rfl, _⟩ := hs
      rw [jValue_cons, if_neg (by decide), if_neg (by decide), if_pos rfl] at hv
      cases m with
      | zero => cases hv
      | succ m =>
        obtain ⟨a, _, hae⟩ := Option.map_eq_some_iff.1 hv
        cases hae
  have h1 := jValue_append C m (m + (n + 6)) (by omega) t hv hnum
  rw [← hs] at h1
  have h2 := jValue_append C (n + 6) (m + (n + 6)) (by omega) [] (graphText_read ho h hlen hk hn) (fun _ _ => .inr rfl)
  rw [List.append_nil, h1] at h2
  simpa using h2

theorem load_only_good {C : Codec} {o : MapOrder} (ho : MapOrder.Lawful o) {g : Graph} (h : Inv g)
    (hlen : g.nodes.length < 2 ^ 32) (hk : AllKept C g.nodes) (hl : readGraph C (graphText C o g) ≠ none) : Tame g.nodes := by
  unfold readGraph jsonParse at hl
  rw [jSkip_text] at hl
  cases hv : jValue C 127 (graphText C o g) with
  | none => rw [hv] at hl; exact absurd rfl hl
  | some x =>
    obtain ⟨v, r⟩ := x
    rw [hv] at hl
    obtain ⟨rfl, hr⟩ := prefix_whole ho h hlen hk (t := []) (by rw [List.append_nil]) hv
    rw [List.append_nil] at hr
    subst hr
    have hl' : loadGraph C (graphTree C o g) ≠ none := hl
    intro e he p hp
    constructor
    · have := graph_within (jValue_within C 127 _ _ _ hv) he hp
      omega
    · intro f hf
      by_cases hfin : IsFinite f
      · exact hfin
      · exact absurd (loadGraph_infinite he hp hfin hf) hl'

/-- C96: for every history of a graph, the text that `firm build` writes is read as a graph that gives the same
answers, in whatever order the hash maps were written, if the floats are finite and values are not nested more than
121 deep. Missing for the full claim: other graphs, which are not read at all (`C96_refused`). -/
theorem C96_loads_partial (C : Codec) (o : MapOrder) (ho : MapOrder.Lawful o) (ops : List GOp)
    (hlen : (accepted ops).length < 2 ^ 32) (hk : AllKept C (accepted ops)) (hp : Tame (accepted ops)) :
    ∃ g', readGraph C (graphText C o (Graph.run ops)) = some g' ∧ SameAnswers (Graph.run ops) g' := by
  rw [← nodes_run] at hlen hk hp
  exact ⟨_, load_good ho (Inv.run ops) hlen hk hp, (reordered_alike ho (Inv.run ops)).answers⟩

/-- C96: the text of any other graph is refused. -/
theorem C96_refused (C : Codec) (o : MapOrder) (ho : MapOrder.Lawful o) (ops : List GOp)
    (hlen : (accepted ops).length < 2 ^ 32) (hk : AllKept C (accepted ops)) (hp : ¬ Tame (accepted ops)) :
    readGraph C (graphText C o (Graph.run ops)) = none := by
  rw [← nodes_run] at hlen hk hp
  cases hl : readGraph C (graphText C o (Graph.run ops)) with
  | none => rfl
  | some g' => exact absurd (load_only_good ho (Inv.run ops) hlen hk (by rw [hl]; simp)) hp

/-- C96: the loaded graph can be used further: every further history leads to the same answers. -/
theorem C96_continues_partial (C : Codec) (o : MapOrder) (ho : MapOrder.Lawful o) (ops : List GOp)
    (hlen : (accepted ops).length < 2 ^ 32) (hk : AllKept C (accepted ops)) (hp : Tame (accepted ops)) (more : List GOp) :
    ∃ g', readGraph C (graphText C o (Graph.run ops)) = some g' ∧
      SameAnswers (Graph.run (ops ++ more)) (more.foldl Graph.step g') := by
  rw [← nodes_run] at hlen hk hp
  refine ⟨_, load_good ho (Inv.run ops) hlen hk hp, ?_⟩
  have : Graph.run (ops ++ more) = more.foldl Graph.step (Graph.run ops) := by
    unfold Graph.run
    rw [List.foldl_append]
  rw [this]
  exact ((reordered_alike ho (Inv.run ops)).steps more).answers

/-! Queries on the loaded graph -/

/-- The runtime that enumerates the types of one graph as another one enumerates those of another. -/
def Runtime.seenFrom (rt : Runtime) (l l' : List Str) (h : l'.Perm l) : Runtime where
  order n x := if n = 0 ∧ x = l' then rt.order 0 l else rt.order n x
  order_perm n x := by
    by_cases hx : n = 0 ∧ x = l'
    · simp only [if_pos hx]
      obtain ⟨_, rfl⟩ := hx
      exact (rt.order_perm 0 l).trans h.symm
    · simp only [if_neg hx]
      exact rt.order_perm n x
  sort := rt.sort
  sort_perm := rt.sort_perm
  sort_stable := rt.sort_stable

theorem related_same {g g' : Graph} (h : SameAnswers g g') (rt : Runtime) (l l' : List Str) (hp : l'.Perm l) (nonce : Nat)
    (es : List Entity) (d : Nat) (t : Option EntityType) :
    getRelatedEntities (rt.seenFrom l l' hp) nonce g' es d t = getRelatedEntities rt nonce g es d t := by
  have hids : ∀ id, relatedIds g' id = relatedIds g id := by
    intro id
    unfold relatedIds
    rw [h.getRelated]
  have horder : ∀ n x, (rt.seenFrom l l' hp).order (n + 1) x = rt.order (n + 1) x := by
    intro n x
    show (if n + 1 = 0 ∧ x = l' then rt.order 0 l else rt.order (n + 1) x) = _
    rw [if_neg (by simp)]
  have hloop : ∀ k cur all, relatedLoop (rt.seenFrom l l' hp) nonce g' k cur all = relatedLoop rt nonce g k cur all := by
    intro k
    induction k with
    | zero => intro _ _; rfl
    | succ k ih =>
      intro cur all
      have hfun : relatedIds g' = relatedIds g := funext hids
      simp only [relatedLoop, relatedLevel, horder, hfun, ih]
      rfl
  have hget : g'.getEntity = g.getEntity := funext h.getEntity
  have h7 := horder (nonce * 8 + 6)
  unfold getRelatedEntities
  simp only [hloop, hget, h7]

theorem execute_same {g g' : Graph} (h : SameAnswers g g') (env : Env) (rt : Runtime) (q : Query) :
    q.execute env (rt.seenFrom _ _ h.types) g' = q.execute env rt g := by
  have h0 : (rt.seenFrom _ _ h.types).order 0 g'.getAllEntityTypes = rt.order 0 g.getAllEntityTypes := by
    show (if 0 = 0 ∧ _ then _ else _) = _
    rw [if_pos ⟨rfl, rfl⟩]
  have hlist : g'.listByType = g.listByType := funext h.listByType
  have hsel : selectFrom (rt.seenFrom _ _ h.types) g' q.source = selectFrom rt g q.source := by
    cases q.source <;> simp only [selectFrom, h0, hlist]
  have hops : ∀ ops es, applyOperations env (rt.seenFrom _ _ h.types) g' ops es = applyOperations env rt g ops es := by
    intro ops
    induction ops with
    | nil => intro _; rfl
    | cons op ops ih =>
      intro es
      have : applyOperation env (rt.seenFrom _ _ h.types) ops.length g' es op = applyOperation env rt ops.length g es op := by
        cases op with
        | related d t => simp only [applyOperation, related_same h]
        | _ => rfl
      simp only [applyOperations, this, ih]
  unfold Query.execute
  rw [hsel]
  simp only [hops]

/-- C96: every query that is run after loading gives a result that it can give on the graph that was saved, and the
other way round. -/
theorem C96_queries_partial (C : Codec) (o : MapOrder) (ho : MapOrder.Lawful o) (ops : List GOp)
    (hlen : (accepted ops).length < 2 ^ 32) (hk : AllKept C (accepted ops)) (hp : Tame (accepted ops)) (env : Env)
    (q : Query) (r : Except QueryError QueryResult) :
    ∃ g', readGraph C (graphText C o (Graph.run ops)) = some g' ∧
      ((∃ rt, q.execute env rt g' = r) ↔ ∃ rt, q.execute env rt (Graph.run ops) = r) := by
  obtain ⟨g', h1, h2⟩ := C96_loads_partial C o ho ops hlen hk hp
  refine ⟨g', h1, ?_, ?_⟩
  · rintro ⟨rt, h⟩
    have hb : SameAnswers g' (Graph.run ops) :=
      ⟨h2.nodes.symm, h2.edges.symm, fun id => (h2.getEntity id).symm, h2.types.symm, fun t => (h2.listByType t).symm,
        fun id d => (h2.getRelated id d).symm, fun v => (h2.entityReference v).symm, fun v => (h2.fieldReference v).symm,
        fun e => (h2.add e).symm⟩
    exact ⟨_, (execute_same hb env rt q).trans h⟩
  · rintro ⟨rt, h⟩
    exact ⟨_, (execute_same h2 env rt q).trans h⟩

/-! Witnesses -/

/-- A list in a list in a list …, so many times. -/
def nest : Nat → FieldValue
  | 0 => .list []
  | n + 1 => .list [nest n]

theorem levels_nest (n : Nat) : levels (nest n) = 2 * n + 2 := by
  induction n with
  | zero => rfl
  | succ n ih =>
    simp only [nest, levels, levelsOf, ih]
    omega

theorem kept_nest (C : Codec) (n : Nat) : ∀ w, PartOf w (nest n) → Kept C w := by
  induction n with
  | zero =>
    intro w h
    cases h with
    | self => trivial
    | item hv _ => cases hv
  | succ n ih =>
    intro w h
    cases h with
    | self => trivial
    | item hv hw =>
      rw [List.mem_singleton] at hv
      subst hv
      exact ih w hw

/-- An entity with one field. -/
def oneField (v : FieldValue) : Entity := ⟨"person.ada".toList, "person".toList, [("size".toList, v)]⟩

/-- C96 fails for infinite floats, which are saved as `null`: the saved graph cannot be read. -/
theorem C96_infinite (C : Codec) (o : MapOrder) (ho : MapOrder.Lawful o) (s : Bool) :
    readGraph C (graphText C o (Graph.run [.add (oneField (.float (.inf s))), .build])) = none := by
  have ha : accepted [.add (oneField (.float (.inf s))), .build] = [oneField (.float (.inf s))] := by
    simp [accepted, accept, acceptOne]
  refine C96_refused C o ho _ (by rw [ha]; simp) ?_ ?_
  · rw [ha]
    intro e he p hp w hw
    rw [List.mem_singleton] at he
    subst he
    have : p = ("size".toList, .float (.inf s)) := List.mem_singleton.1 hp
    subst this
    cases hw
    exact fun h => absurd rfl (h.2 s)
  · rw [ha]
    intro h
    exact ((h _ List.mem_cons_self _ List.mem_cons_self).2 (.inf s) .self).2 s rfl

/-- C96 fails for lists in lists, 61 or more of them: the saved graph cannot be read. -/
theorem C96_deep (C : Codec) (o : MapOrder) (ho : MapOrder.Lawful o) (n : Nat) (hn : 60 ≤ n) :
    readGraph C (graphText C o (Graph.run [.add (oneField (nest n)), .build])) = none := by
  have ha : accepted [.add (oneField (nest n)), .build] = [oneField (nest n)] := by
    simp [accepted, accept, acceptOne]
  refine C96_refused C o ho _ (by rw [ha]; simp) ?_ ?_
  · rw [ha]
    intro e he p hp w hw
    rw [List.mem_singleton] at he
    subst he
    have : p = ("size".toList, nest n) := List.mem_singleton.1 hp
    subst this
    exact kept_nest C n w hw
  · rw [ha]
    intro h
    have := (h _ List.mem_cons_self _ List.mem_cons_self).1
    rw [levels_nest] at this
    omega

/-! ## C97: half a graph is never taken for a graph -/

/-- A text that `firm build` writes. -/
def Spec.SavedText (C : Codec) (ops : List GOp) (s : Str) : Prop :=
  (accepted ops).length < 2 ^ 32 ∧ AllKept C (accepted ops) ∧ ∃ o, MapOrder.Lawful o ∧ s = graphText C o (Graph.run ops)

/-- C97: no beginning of the text of a graph is read, not even as another graph. -/
theorem C97_beginning (C : Codec) (ops : List GOp) (text s t : Str) (h : SavedText C ops text) (hs : text = s ++ t)
    (ht : t ≠ []) : readGraph C s = none := by
  obtain ⟨hlen, hk, o, ho, rfl⟩ := h
  rw [← nodes_run] at hlen hk
  unfold readGraph jsonParse
  have hskip : jSkip s = s := by
    cases s with
    | nil => rfl
    | cons c s =>
      obtain ⟨u, hu⟩ := graphText_cons C o (Graph.run ops)
      rw [hu] at hs
      simp only [List.cons_append, List.cons.injEq] at hs
      obtain ⟨rfl, _⟩ := hs
      exact jSkip_cons (by decide)
  rw [hskip]
  cases hv : jValue C 127 s with
  | none => rfl
  | some x =>
    obtain ⟨v, r⟩ := x
    have := (prefix_whole ho (Inv.run ops) hlen hk hs hv).2
    exact absurd (List.append_eq_nil_iff.1 this).2 ht

/-- C97: nor is the text of a graph with anything but white space after it, such as the end of a longer text that it
was written over; white space changes nothing. -/
theorem C97_followed (C : Codec) (ops : List GOp) (text t : Str) (h : SavedText C ops text) :
    ((∃ c ∈ t, ¬ (c = ' ' ∨ c = '\n' ∨ c = '\t' ∨ c = '\r')) → readGraph C (text ++ t) = none) ∧
      ((∀ c ∈ t, c = ' ' ∨ c = '\n' ∨ c = '\t' ∨ c = '\r') → readGraph C (text ++ t) = readGraph C text) := by
  obtain ⟨hlen, hk, o, ho, rfl⟩ := h
  rw [← nodes_run] at hlen hk
  obtain ⟨u, hu⟩ := graphText_cons C o (Graph.run ops)
  have hskip : ∀ t, jSkip (graphText C o (Graph.run ops) ++ t) = graphText C o (Graph.run ops) ++ t := by
    intro t
    rw [hu]
    exact jSkip_cons (by decide)
  have hws : ∀ c, jWs c = true ↔ (c = ' ' ∨ c = '\n' ∨ c = '\t' ∨ c = '\r') := by
    intro c
    simp [jWs, or_assoc]
  have hblank : jSkip t = [] ↔ ∀ c ∈ t, c = ' ' ∨ c = '\n' ∨ c = '\t' ∨ c = '\r' := by
    induction t with
    | nil => simp [jSkip]
    | cons c t ih =>
      by_cases hc : jWs c = true
      · have : jSkip (c :: t) = jSkip t := by simp [jSkip, hc]
        rw [this, ih, List.forall_mem_cons]
        exact ⟨fun h => ⟨(hws c).1 hc, h⟩, fun h => h.2⟩
      · rw [jSkip_cons (by simpa using hc), List.forall_mem_cons]
        exact ⟨fun h => (by cases h), fun h => absurd ((hws c).2 h.1) hc⟩
  have hread : ∀ v r, jValue C 127 (graphText C o (Graph.run ops) ++ t) = some (v, r) →
      v = graphTree C o (Graph.run ops) ∧ r = t := by
    intro v r hv
    obtain ⟨n, hn⟩ := exists_levels (Graph.run ops).nodes
    have h1 := jValue_append C 127 (127 + (n + 6)) (by omega) [] hv (fun _ _ => .inr rfl)
    have h2 := jValue_append C (n + 6) (127 + (n + 6)) (by omega) t (graphText_read ho (Inv.run ops) hlen hk hn)
      (by rintro k hk'; cases hk')
    rw [List.append_nil, h2] at h1
    simp only [Option.some.injEq, Prod.mk.injEq, List.nil_append, List.append_nil] at h1
    exact ⟨h1.1.symm, h1.2.symm⟩
  constructor
  · rintro ⟨c, hc, hn⟩
    unfold readGraph jsonParse
    rw [hskip]
    cases hv : jValue C 127 (graphText C o (Graph.run ops) ++ t) with
    | none => rfl
    | some x =>
      obtain ⟨v, r⟩ := x
      obtain ⟨rfl, rfl⟩ := hread v r hv
      show Option.bind (if jSkip r = [] then _ else _) _ = _
      rw [if_neg fun hb => hn (hblank.1 hb c hc)]
      rfl
  · intro hall
    have hb := hblank.2 hall
    unfold readGraph jsonParse
    rw [hskip]
    have hs0 := hskip []
    rw [List.append_nil] at hs0
    rw [hs0]
    cases hv : jValue C 127 (graphText C o (Graph.run ops)) with
    | none =>
      cases hv' : jValue C 127 (graphText C o (Graph.run ops) ++ t) with
      | none => rfl
      | some x =>
        obtain ⟨v, r⟩ := x
        obtain ⟨rfl, rfl⟩ := hread v r hv'
        have hn : ∀ e ∈ (Graph.run ops).nodes, ∀ p ∈ e.fields, levels p.2 ≤ 121 := by
          intro e he p hp
          have := graph_within (jValue_within C 127 _ _ _ hv') he hp
          omega
        rw [graphText_read ho (Inv.run ops) hlen hk hn] at hv
        cases hv
    | some x =>
      obtain ⟨v, r⟩ := x
      obtain ⟨rfl, hr⟩ := prefix_whole ho (Inv.run ops) hlen hk (t := []) (by rw [List.append_nil]) hv
      rw [List.append_nil] at hr
      subst hr
      rw [jValue_append C 127 127 (le_refl _) t hv (by rintro k hk'; cases hk')]
      show Option.bind (if jSkip t = [] then _ else _) _ = _
      rw [if_pos hb]
      rfl

/-- C97: nor is a text that gives one of the three parts of a graph twice, or not at all. -/
theorem C97_repeated (C : Codec) (s : Str) (es : List (Str × JVal)) (part : Str)
    (hpart : part = "graph".toList ∨ part = "entity_map".toList ∨ part = "entity_type_map".toList)
    (hs : jsonParse C s = some (.object es)) (hn : es.countP (fun e => decide (e.1 = part)) ≠ 1) : readGraph C s = none := by
  have hm : ∀ k : String, k.toList = part → (JVal.object es).member k = none := by
    rintro k rfl
    rw [List.countP_eq_length_filter] at hn
    show (match es.filter fun p => decide (p.1 = k.toList) with
      | [p] => some p.2
      | _ => none) = none
    generalize es.filter (fun p => decide (p.1 = k.toList)) = l at hn
    cases l with
    | nil => rfl
    | cons p l =>
      cases l with
      | nil => exact absurd rfl hn
      | cons q l => rfl
  unfold readGraph
  rw [hs]
  show loadGraph C (.object es) = none
  unfold loadGraph
  rcases hpart with rfl | rfl | rfl
  · rw [hm "graph" rfl]
    rfl
  · rw [hm "entity_map" rfl]
    split
    · rfl
    · split
      · rename_i h _
        cases h
      · rfl
  · rw [hm "entity_type_map" rfl]
    split
    · rfl
    · split
      · rename_i h
        cases h
      · rfl

theorem member_of_mem {es : List (Str × JVal)} {k : String} {v w : JVal} (hm : (k.toList, v) ∈ es)
    (h : (JVal.object es).member k = some w) : w = v := by
  have hf : (k.toList, v) ∈ es.filter fun p => decide (p.1 = k.toList) := List.mem_filter.2 ⟨hm, by simp⟩
  simp only [JVal.member] at h
  generalize es.filter (fun p => decide (p.1 = k.toList)) = l at hf h
  cases l with
  | nil => cases hf
  | cons p l =>
    cases l with
    | nil => cases h; rw [← List.mem_singleton.1 hf]
    | cons q l => cases h

/-- C97: nor is a text in which the value of a field of an entity names no type, or more than one. -/
theorem C97_variants (C : Codec) (s : Str) {es gs ps vs : List (Str × JVal)} {ns fs : List JVal} {f : Str}
    (hs : jsonParse C s = some (.object es)) (hg : ("graph".toList, .object gs) ∈ es)
    (hn : ("nodes".toList, .array ns) ∈ gs) (he : .object ps ∈ ns) (hf : ("fields".toList, .array fs) ∈ ps)
    (hv : .array [.string f, .object vs] ∈ fs) (hl : vs.length ≠ 1) : readGraph C s = none := by
  have h1 : loadField C (.array [.string f, .object vs]) = none := by
    have : (JVal.object vs).variant = none := by
      match vs, hl with
      | [], _ => rfl
      | [_], hl => exact absurd rfl hl
      | _ :: _ :: _, _ => rfl
    simp only [loadField, loadValue, loadValueWith, this, Option.map_none]
  have h2 : loadEntity C (.object ps) = none := by
    unfold loadEntity
    cases hm : (JVal.object ps).member "fields" with
    | none =>
      split
      · next h => cases h
      · rfl
    | some w =>
      cases member_of_mem hf hm
      split
      · next h =>
        simp only [Option.bind_some, JVal.items, readAll_none hv h1] at h
        cases h
      · rfl
  unfold readGraph
  rw [hs]
  show loadGraph C (.object es) = none
  unfold loadGraph
  cases hm : (JVal.object es).member "graph" with
  | none => rfl
  | some w =>
    cases member_of_mem hg hm
    cases hm' : (JVal.object gs).member "nodes" with
    | none => simp only [Option.bind_some, hm', Option.bind_none]
    | some w' =>
      cases member_of_mem hn hm'
      simp only [Option.bind_some, hm', JVal.items, readAll_none he h2]
/-- C97: whatever builds were completed or interrupted, one after the other, the next command either finds no
readable graph or one that answers like a graph that one of the builds, or the one before them, saved. -/
theorem C97_never_torn (C : Codec) (saved : List (List GOp)) (f : GraphFiles)
    (hf : ∀ s, f.current = some s → ∃ ops ∈ saved, SavedText C ops s) (runs : List BuildRun)
    (hr : ∀ r ∈ runs, ∃ ops ∈ saved, ∃ s, SavedText C ops s ∧ (r = .done s ∨ ∃ n, r = .cut s n)) (g' : Graph)
    (h : (runs.foldl GraphFiles.after f).load (readGraph C) = some g') :
    ∃ ops ∈ saved, SameAnswers (Graph.run ops) g' := by
  have key : ∀ (runs : List BuildRun) (f : GraphFiles),
      (∀ s, f.current = some s → ∃ ops ∈ saved, ∃ text t, SavedText C ops text ∧ text = s ++ t) →
      (∀ r ∈ runs, ∃ ops ∈ saved, ∃ s, SavedText C ops s ∧ (r = .done s ∨ ∃ n, r = .cut s n)) →
      ∀ s, (runs.foldl GraphFiles.after f).current = some s →
        ∃ ops ∈ saved, ∃ text t, SavedText C ops text ∧ text = s ++ t := by
    intro runs
    induction runs with
    | nil => exact fun f hf _ => hf
    | cons r runs ih =>
      intro f hf hr
      refine ih (f.after r) ?_ (fun r' h' => hr r' (by simp [h']))
      obtain ⟨ops, ho, s, hs, hrun⟩ := hr r (by simp)
      intro x hx
      rcases hrun with rfl | ⟨n, rfl⟩
      · cases hx
        exact ⟨ops, ho, s, [], hs, by simp⟩
      · have hmem : f.after (.cut s n) ∈ f.saveTrace s ∨ f.after (.cut s n) = f.save s := by
          show ((f.saveTrace s)[n]?).getD (f.save s) ∈ f.saveTrace s ∨ ((f.saveTrace s)[n]?).getD (f.save s) = f.save s
          cases hn : (f.saveTrace s)[n]? with
          | none => exact .inr rfl
          | some y => exact .inl (List.mem_of_getElem? hn)
        generalize f.after (.cut s n) = y at hmem hx
        rcases hmem with hmem | rfl
        · unfold GraphFiles.saveTrace at hmem
          rcases List.mem_cons.1 hmem with rfl | hmem
          · exact hf x hx
          rcases List.mem_cons.1 hmem with rfl | hmem
          · unfold GraphFiles.setAside at hx
            cases hc : f.current with
            | none => rw [hc] at hx; simp only at hx; rw [hc] at hx; cases hx
            | some u => rw [hc] at hx; cases hx
          · obtain ⟨k, _, rfl⟩ := List.mem_map.1 hmem
            cases hx
            exact ⟨ops, ho, s, s.drop k, hs, (List.take_append_drop k s).symm⟩
        · cases hx
          exact ⟨ops, ho, s, [], hs, by simp⟩
  unfold GraphFiles.load at h
  cases hc : (runs.foldl GraphFiles.after f).current with
  | none => rw [hc] at h; cases h
  | some s =>
    rw [hc] at h
    have hread : readGraph C s = some g' := h
    obtain ⟨ops, ho, text, t, hsaved, htext⟩ := key runs f
      (fun s hs => by
        obtain ⟨ops, h1, h2⟩ := hf s hs
        exact ⟨ops, h1, s, [], h2, by simp⟩) hr s hc
    by_cases ht : t = []
    · subst ht
      rw [List.append_nil] at htext
      subst htext
      obtain ⟨hlen, hk, o, hlaw, rfl⟩ := hsaved
      refine ⟨ops, ho, ?_⟩
      rw [← nodes_run] at hlen hk
      have hp := load_only_good hlaw (Inv.run ops) hlen hk (by rw [hread]; simp)
      rw [load_good hlaw (Inv.run ops) hlen hk hp] at hread
      cases hread
      exact (reordered_alike hlaw (Inv.run ops)).answers
    · rw [C97_beginning C ops text s t hsaved htext ht] at hread
      cases hread

/-! ## Examples -/

/-- Libraries that know one float, one date and one currency. -/
def exCodec : Codec where
  floatText _ := "0.5".toList
  readFloat s := if s = "0.5".toList then some (.fin (1 / 2)) else none
  dateText _ := "2024-05-01T12:00:00Z".toList
  readDate s := if s = "2024-05-01T12:00:00Z".toList then some ⟨1714564800, 0, 0⟩ else none
  knownCurrency c := c = "EUR".toList

/-- Maps enumerated from their ends. -/
def exOrder : MapOrder := ⟨List.reverse, List.reverse⟩

theorem exOrder_lawful : MapOrder.Lawful exOrder := ⟨fun m => List.reverse_perm m, fun m => List.reverse_perm m⟩

/-- A history with values of every type. -/
def exHistory : List GOp :=
  [.add ⟨"person.ada".toList, "person".toList, [("name".toList, .string "A \"d\"\na".toList), ("age".toList, .integer (-36)),
      ("size".toList, .float (.fin (1 / 2))), ("pay".toList, .currency ⟨1250, 2⟩ "EUR".toList),
      ("tags".toList, .list [.list [.enum "x".toList, .path "a/b".toList], .boolean true]),
      ("since".toList, .dateTime ⟨1714564800, 0, 0⟩), ("boss".toList, .reference (.field "org.b".toList "lead".toList))]⟩,
   .addAll [⟨"org.b".toList, "org".toList, [("lead".toList, .reference (.entity "person.ada".toList))]⟩], .build]

/-- A decidable form of `AllKept` and `Tame`. -/
def partsOf : Nat → FieldValue → List FieldValue
  | 0, v => [v]
  | n + 1, .list vs => .list vs :: vs.flatMap (partsOf n)
  | _ + 1, v => [v]

theorem partsOf_complete {w v : FieldValue} (h : PartOf w v) : ∀ n, levels v ≤ n → w ∈ partsOf n v := by
  induction h with
  | self =>
    intro n _
    cases n with
    | zero => simp [partsOf]
    | succ n => cases w <;> simp [partsOf]
  | @item v vs hv _ ih =>
    intro n hn
    simp only [levels] at hn
    obtain ⟨n, rfl⟩ : ∃ k, n = k + 1 := ⟨n - 1, by omega⟩
    have := levels_le_of hv
    simp only [partsOf, List.mem_cons, List.mem_flatMap]
    exact .inr ⟨v, hv, ih n (by omega)⟩

/-- The fields of the example. -/
def exValues : List FieldValue := (accepted exHistory).flatMap fun e => e.fields.map (·.2)

theorem exValues_levels : ∀ v ∈ exValues, levels v ≤ 5 := by decide

theorem exKept : AllKept exCodec (accepted exHistory) := by
  intro e he p hp w hw
  have hv : p.2 ∈ exValues := List.mem_flatMap.2 ⟨e, he, List.mem_map_of_mem hp⟩
  have hw' := partsOf_complete hw 5 (exValues_levels _ hv)
  have hall : w ∈ exValues.flatMap (partsOf 5) := List.mem_flatMap.2 ⟨_, hv, hw'⟩
  have key : ∀ w ∈ exValues.flatMap (partsOf 5), (match w with
      | .integer n => decide (-2 ^ 63 ≤ n ∧ n < 2 ^ 63)
      | .float f => decide (f = .fin (1 / 2))
      | .currency d c => d.fits && exCodec.knownCurrency c
      | .dateTime d => decide (exCodec.readDate (exCodec.dateText d) = some d)
      | _ => true) = true := by decide +kernel
  have hk := key w hall
  cases w with
  | integer n => simpa [Kept] using hk
  | float f =>
    intro _
    have : f = .fin (1 / 2) := by simpa using hk
    subst this
    exact ⟨rfl, by decide, ⟨'.', by decide, by decide⟩, by
      intro c hc
      have : c = '0' := by
        have h0 : (exCodec.floatText (.fin (1 / 2))).head? = some '0' := by decide
        rw [h0] at hc
        cases hc
        rfl
      subst this
      exact .inr (by decide)⟩
  | currency d c => simpa [Kept] using hk
  | dateTime d => simpa [Kept] using hk
  | _ => trivial

theorem exPlain : Tame (accepted exHistory) := by
  intro e he p hp
  have hv : p.2 ∈ exValues := List.mem_flatMap.2 ⟨e, he, List.mem_map_of_mem hp⟩
  refine ⟨by have := exValues_levels _ hv; omega, ?_⟩
  intro f hf
  have hf' := partsOf_complete hf 5 (exValues_levels _ hv)
  have hall : .float f ∈ exValues.flatMap (partsOf 5) := List.mem_flatMap.2 ⟨_, hv, hf'⟩
  have key : ∀ w ∈ exValues.flatMap (partsOf 5), (match w with
      | .float f => decide (f = .fin (1 / 2))
      | _ => true) = true := by decide +kernel
  have : f = .fin (1 / 2) := by simpa using key _ hall
  subst this
  exact ⟨by simp, by simp⟩

example : ∃ g', readGraph exCodec (graphText exCodec exOrder (Graph.run exHistory)) = some g' ∧
    SameAnswers (Graph.run exHistory) g' :=
  C96_loads_partial _ _ exOrder_lawful _ (by decide +kernel) exKept exPlain

example : (Graph.run exHistory).nodes.length = 2 ∧ (Graph.run exHistory).edges.length = 2 := by decide +kernel

example : SavedText exCodec exHistory (graphText exCodec exOrder (Graph.run exHistory)) :=
  ⟨by decide +kernel, exKept, exOrder, exOrder_lawful, rfl⟩

example : (graphText exCodec exOrder (Graph.run [.addAll [⟨"org.b".toList, "org".toList, [("n".toList, .integer 3)]⟩]])) =
    ("{\"graph\":{\"nodes\":[{\"id\":\"org.b\",\"entity_type\":\"org\",\"fields\":[[\"n\",{\"Integer\":3}]]}],".toList ++
     "\"node_holes\":[],\"edge_property\":\"directed\",\"edges\":[]},".toList ++
     "\"entity_map\":{\"org.b\":0},\"entity_type_map\":{\"org\":[0]}}".toList) := by decide +kernel

example : ∃ s, jsonParse exCodec s = some (.object [("graph".toList, .null), ("graph".toList, .null)]) ∧
    [("graph".toList, JVal.null), ("graph".toList, .null)].countP (fun e => decide (e.1 = "graph".toList)) ≠ 1 := by
  refine ⟨jsonText exCodec (.object [("graph".toList, .null), ("graph".toList, .null)]), ?_, by decide⟩
  have h : Readable exCodec 127 (.object [("graph".toList, .null), ("graph".toList, .null)]) := by
    refine .object ?_
    intro e he
    simp only [List.mem_cons, List.not_mem_nil, or_false, or_self] at he
    subst he
    exact .null _
  have hv := jValue_text exCodec 127 h [] (stops_nil _)
  rw [List.append_nil] at hv
  obtain ⟨c, s, hs, hw, _⟩ := jsonText_head h
  unfold jsonParse
  rw [hs, jSkip_cons hw, ← hs, hv]
  rfl

/-- A text in which a value names two types. -/
example : ∃ s v, jsonParse exCodec s = some (.object [("graph".toList, .object [("nodes".toList, .array [.object
      [("fields".toList, .array [.array [.string "n".toList, .object v]])]])])]) ∧ v.length ≠ 1 := by
  let v : List (Str × JVal) := [("Boolean".toList, .bool true), ("String".toList, .string "a".toList)]
  let j : JVal := .object [("graph".toList, .object [("nodes".toList, .array [.object
      [("fields".toList, .array [.array [.string "n".toList, .object v]])]])])]
  have h : Readable exCodec 127 j := by
    refine .object (List.forall_mem_singleton.2 (.object (List.forall_mem_singleton.2 (.array (List.forall_mem_singleton.2
      (.object (List.forall_mem_singleton.2 (.array (List.forall_mem_singleton.2 (.array ?_))))))))))
    intro w hw
    simp only [List.mem_cons, List.not_mem_nil, or_false] at hw
    rcases hw with rfl | rfl
    · exact .string _ _
    · refine .object ?_
      intro e he
      simp only [v, List.mem_cons, List.not_mem_nil, or_false] at he
      rcases he with rfl | rfl
      · exact .bool _ _
      · exact .string _ _
  refine ⟨jsonText exCodec j, v, ?_, by simp [v]⟩
  have hv := jValue_text exCodec 127 h [] (stops_nil _)
  rw [List.append_nil] at hv
  obtain ⟨c, s, hs, hw, _⟩ := jsonText_head h
  unfold jsonParse
  rw [hs, jSkip_cons hw, ← hs, hv]
  rfl

end Firm
