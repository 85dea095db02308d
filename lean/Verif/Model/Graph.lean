import Verif.Model.Basic
import Verif.Model.Sort

/-!
# The entity graph

Rust sources: `/repo/firm_core/src/graph/mod.rs`, `/repo/firm_core/src/graph/access.rs`.

petgraph's `Graph<Entity, Relationship>` is rendered as the list of node weights (node index =
position; nodes are never removed individually by this code) and the list of edges in insertion
order.
-/

namespace Firm

/-- `Relationship` — firm_core/src/graph/mod.rs:20-28. -/
inductive Relationship where
  | entityReference (fromField : FieldId)
  | fieldReference (fromField toField : FieldId)
  deriving DecidableEq, Repr, Inhabited

/-- A petgraph edge: source node, target node, weight. -/
structure Edge where
  src : Nat
  dst : Nat
  rel : Relationship
  deriving DecidableEq, Repr, Inhabited

/-- `EntityGraph` — firm_core/src/graph/mod.rs:32-40. The two hash maps are association lists;
`HashMap::insert` puts the new binding in front, `HashMap::get` is `List.lookup`. -/
structure Graph where
  nodes : List Entity
  edges : List Edge
  idMap : List (EntityId × Nat)
  typeMap : List (EntityType × List Nat)
  deriving DecidableEq, Repr, Inhabited

/-- `GraphError` — firm_core/src/graph/graph_errors.rs. -/
inductive GraphError where
  | entityAlreadyExists (id : EntityId)
  | entityNotFound (id : EntityId)
  | fieldNotFound (id : EntityId) (f : FieldId)
  | notAnEntityReference
  | notAFieldReference
  | cyclicReference
  | maxDepthExceeded
  | graphNotBuilt
  deriving DecidableEq, Repr, Inhabited

/-- `petgraph::Direction`. -/
inductive Direction where
  | outgoing | incoming
  deriving DecidableEq, Repr, Inhabited

/-- `EntityGraph::new` — firm_core/src/graph/mod.rs:51-57. -/
def Graph.empty : Graph := ⟨[], [], [], []⟩

/-- `EntityGraph::clear` — firm_core/src/graph/mod.rs:60-65. -/
def Graph.clear (_ : Graph) : Graph := ⟨[], [], [], []⟩

/-- `map.entry(t).or_default().push(i)` — firm_core/src/graph/mod.rs:80-83. -/
def typePush : List (EntityType × List Nat) → EntityType → Nat → List (EntityType × List Nat)
  | [], t, i => [(t, [i])]
  | (k, v) :: m, t, i => if k == t then (k, v ++ [i]) :: m else (k, v) :: typePush m t i

/-- `EntityGraph::add_entity` — firm_core/src/graph/mod.rs:69-86. Returns the new graph together
with the result; on `Err` the graph is returned unchanged because the Rust code returns before
any mutation. -/
def Graph.addEntity (g : Graph) (e : Entity) : Graph × Except GraphError Unit :=
  if (g.idMap.lookup e.id).isSome then
    (g, .error (.entityAlreadyExists e.id))
  else
    let i := g.nodes.length
    ({ g with
        nodes := g.nodes ++ [e]
        idMap := (e.id, i) :: g.idMap
        typeMap := typePush g.typeMap e.entityType i }, .ok ())

/-- `EntityGraph::add_entities` — firm_core/src/graph/mod.rs:89-95: stops at the first error. -/
def Graph.addEntities (g : Graph) : List Entity → Graph × Except GraphError Unit
  | [] => (g, .ok ())
  | e :: es =>
    match g.addEntity e with
    | (g', .ok ()) => g'.addEntities es
    | (g', .error err) => (g', .error err)

mutual
/-- `collect_relationships_from_field` — firm_core/src/graph/mod.rs:136-173. -/
def collect (m : List (EntityId × Nat)) (src : Nat) (f : FieldId) : FieldValue → List Edge
  | .reference (.entity t) =>
    match m.lookup t with
    | some i => [⟨src, i, .entityReference f⟩]
    | none => []
  | .reference (.field t tf) =>
    match m.lookup t with
    | some i => [⟨src, i, .fieldReference f tf⟩]
    | none => []
  | .list items => collectList m src f items
  | .boolean _ | .string _ | .integer _ | .float _ | .currency _ _ | .dateTime _ | .path _
  | .enum _ => []
/-- The loop over list items — firm_core/src/graph/mod.rs:161-170. -/
def collectList (m : List (EntityId × Nat)) (src : Nat) (f : FieldId) : List FieldValue → List Edge
  | [] => []
  | v :: vs => collect m src f v ++ collectList m src f vs
end

/-- Edges of one entity — the inner loop of `build`, firm_core/src/graph/mod.rs:116-123. -/
def entityEdges (m : List (EntityId × Nat)) (e : Entity) (i : Nat) : List Edge :=
  e.fields.flatMap fun p => collect m i p.1 p.2

/-- `edges_to_add` of `build` — firm_core/src/graph/mod.rs:110-125. -/
def edgesToAdd (m : List (EntityId × Nat)) (nodes : List Entity) : List Edge :=
  nodes.zipIdx.flatMap fun p => entityEdges m p.1 p.2

/-- `EntityGraph::build` — firm_core/src/graph/mod.rs:102-132: clear all edges, collect, add. -/
def Graph.build (g : Graph) : Graph :=
  { g with edges := edgesToAdd g.idMap g.nodes }

/-- `EntityGraph::get_entity` — firm_core/src/graph/access.rs:11-17. -/
def Graph.getEntity (g : Graph) (id : EntityId) : Option Entity :=
  (g.idMap.lookup id).bind fun i => g.nodes[i]?

/-- `EntityGraph::get_all_entity_types` — firm_core/src/graph/access.rs:50-52. The iteration order
of the hash map is not specified; consumers of this list are modelled with an arbitrary
permutation of it. -/
def Graph.getAllEntityTypes (g : Graph) : List EntityType := g.typeMap.map (·.1)

/-- `EntityGraph::list_by_type` — firm_core/src/graph/access.rs:55-63. -/
def Graph.listByType (g : Graph) (t : EntityType) : List Entity :=
  match g.typeMap.lookup t with
  | some ns => ns.filterMap fun i => g.nodes[i]?
  | none => []

/-- `edges_directed(n, Outgoing).map(|e| &graph[e.target()])`. petgraph yields the most recently
added edge first. Indexing panics out of range; `Inv.edges` shows that never happens, so
`filterMap` loses nothing. -/
def Graph.targets (g : Graph) (n : Nat) : List Entity :=
  (g.edges.reverse.filter fun e => e.src == n).filterMap fun e => g.nodes[e.dst]?

/-- `edges_directed(n, Incoming).map(|e| &graph[e.source()])`. -/
def Graph.sources (g : Graph) (n : Nat) : List Entity :=
  (g.edges.reverse.filter fun e => e.dst == n).filterMap fun e => g.nodes[e.src]?

/-- `entities.sort_by_key(|e| &e.id)` (stable). -/
def sortById (es : List Entity) : List Entity :=
  stableSort (fun a b => (strCmp a.id b.id).isLE) es

/-- The loop of `dedup_by_key`: `cur` is the last element kept. -/
def dedupFrom (cur : Entity) : List Entity → List Entity
  | [] => [cur]
  | e :: es => if cur.id == e.id then dedupFrom cur es else cur :: dedupFrom e es

/-- `entities.dedup_by_key(|e| &e.id)`: drops elements equal in id to the one kept before. -/
def dedupById : List Entity → List Entity
  | [] => []
  | e :: es => dedupFrom e es

/-- `EntityGraph::get_related` — firm_core/src/graph/access.rs:69-111. -/
def Graph.getRelated (g : Graph) (id : EntityId) (dir : Option Direction) : Option (List Entity) :=
  match g.idMap.lookup id with
  | some n =>
    let entities :=
      match dir with
      | some .outgoing => g.targets n
      | some .incoming => g.sources n
      | none => g.targets n ++ g.sources n
    some (dedupById (sortById entities))
  | none => none

/-- `EntityGraph::resolve_entity_reference` — firm_core/src/graph/access.rs:20-32. -/
def Graph.resolveEntityReference (g : Graph) : FieldValue → Except GraphError Entity
  | .reference (.entity id) =>
    match g.getEntity id with
    | some e => .ok e
    | none => .error (.entityNotFound id)
  | _ => .error .notAnEntityReference

/-- The edge test inside `search_field_reference` — firm_core/src/graph/access.rs:160-170:
some edge from `s` to `t` is a `FieldReference` with these two field names. -/
def Graph.hasFieldEdge (g : Graph) (s t : Nat) (f tf : FieldId) : Bool :=
  g.edges.any fun e => e.src == s && e.dst == t && e.rel == .fieldReference f tf

/-- `search_field_reference` — firm_core/src/graph/access.rs:114-187. `visited` is the hash set. -/
def Graph.search (g : Graph) : Nat → List (EntityId × FieldId) → EntityId → FieldId →
    Except GraphError FieldValue
  | 0, _, _, _ => .error .maxDepthExceeded
  | depth + 1, visited, id, f =>
    if (id, f) ∈ visited then .error .cyclicReference
    else
      match g.getEntity id with
      | none => .error (.entityNotFound id)
      | some e =>
        match e.getField f with
        | none => .error (.fieldNotFound id f)
        | some (.reference (.field tid tf)) =>
          match g.idMap.lookup id with
          | none => .error (.entityNotFound id)
          | some s =>
            match g.idMap.lookup tid with
            | none => .error (.entityNotFound tid)
            | some t =>
              if g.hasFieldEdge s t f tf then g.search depth ((id, f) :: visited) tid tf
              else .error .graphNotBuilt
        | some v => .ok v

/-- `EntityGraph::resolve_field_reference` — firm_core/src/graph/access.rs:35-47. -/
def Graph.resolveFieldReference (g : Graph) : FieldValue → Except GraphError FieldValue
  | .reference (.field id f) => g.search 10 [] id f
  | _ => .error .notAFieldReference

/-! ## Histories of public mutators -/

/-- One call of a public mutator of `EntityGraph`. -/
inductive GOp where
  | add (e : Entity)
  | addAll (es : List Entity)
  | build
  | clear
  deriving Repr, Inhabited

/-- Effect of one call on the graph (the returned `Result` is dropped here). -/
def Graph.step (g : Graph) : GOp → Graph
  | .add e => (g.addEntity e).1
  | .addAll es => (g.addEntities es).1
  | .build => g.build
  | .clear => g.clear

/-- A whole history, starting from `EntityGraph::new()`. -/
def Graph.run (ops : List GOp) : Graph := ops.foldl Graph.step Graph.empty

end Firm
