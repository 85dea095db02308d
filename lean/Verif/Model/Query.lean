import Verif.Model.Order
import Verif.Model.Aggregation

/-!
# Query execution

Rust sources: `/repo/firm_core/src/graph/query/types.rs`, `related.rs`.
-/

namespace Firm

/-- The nondeterminism of the runtime. Theorems hold for every `Runtime`. -/
structure Runtime where
  /-- Iteration order of hash containers: an arbitrary permutation, possibly different at every use
  (the `Nat` distinguishes uses). -/
  order : Nat → List Str → List Str
  order_perm : ∀ n l, (order n l).Perm l
  /-- `slice::sort_by`; `none` is a panic. -/
  sort : (Entity → Entity → Bool) → List Entity → Option (List Entity)
  /-- The elements are never lost or duplicated. -/
  sort_perm : ∀ le l l', sort le l = some l' → l'.Perm l
  /-- If the comparator is a total preorder on the elements, the result is the stable sort;
  otherwise the order is unspecified and the call may panic. -/
  sort_stable : ∀ le l, (∀ a ∈ l, ∀ b ∈ l, le a b = true ∨ le b a = true) →
    (∀ a ∈ l, ∀ b ∈ l, ∀ c ∈ l, le a b = true → le b c = true → le a c = true) →
    sort le l = some (stableSort le l)

/-- `entities.sort_by(|a, b| compare_entities_by_field(a, b, field, direction))` —
query/types.rs:184-188. -/
def orderBy (env : Env) (rt : Runtime) (f : FieldRef) (dir : SortDirection) (es : List Entity) :
    Except QueryError (List Entity) :=
  match rt.sort (orderLe env f dir) es with
  | some l => .ok l
  | none => .error .panic

/-- `MAX_DEGREES` — related.rs:7. -/
def maxDegrees : Nat := 5

/-- `HashSet::insert`. -/
def setInsert (s : List Str) (x : Str) : List Str := if x ∈ s then s else s ++ [x]

/-- The ids reached from one entity — related.rs:49-57. -/
def relatedIds (g : Graph) (id : EntityId) : List EntityId :=
  match g.getRelated id none with
  | some es => es.map (·.id)
  | none => []

/-- The body of the degree loop — related.rs:45-58: visits the current level in hash order and
returns the next level and the enlarged overall set. -/
def relatedLevel (g : Graph) (visit : List EntityId) (all : List EntityId) :
    List EntityId × List EntityId :=
  let found := visit.flatMap (relatedIds g)
  (found.foldl setInsert [], found.foldl setInsert all)

/-- The degree loop with early stop — related.rs:44-67. -/
def relatedLoop (rt : Runtime) (nonce : Nat) (g : Graph) :
    Nat → List EntityId → List EntityId → List EntityId
  | 0, _, all => all
  | n + 1, current, all =>
    let (next, all') := relatedLevel g (rt.order (nonce * 8 + n + 1) current) all
    if next.isEmpty then all' else relatedLoop rt nonce g n next all'

/-- `get_related_entities` — related.rs:24-80. -/
def getRelatedEntities (rt : Runtime) (nonce : Nat) (g : Graph) (starts : List Entity)
    (degrees : Nat) (filterType : Option EntityType) : List Entity :=
  let degrees := min degrees maxDegrees
  if degrees < 1 then starts
  else
    let ids := (starts.map (·.id)).foldl setInsert []
    let all := relatedLoop rt nonce g degrees ids ids
    let result := (rt.order (nonce * 8 + 7) all).filterMap g.getEntity
    match filterType with
    | some t => result.filter fun e => e.entityType == t
    | none => result

/-- `QueryOperation` — query/types.rs:223-238. -/
inductive QueryOperation where
  | where (c : CompoundCondition)
  | related (degrees : Nat) (entityType : Option EntityType)
  | order (field : FieldRef) (dir : SortDirection)
  | limit (n : Nat)
  deriving Repr, Inhabited

/-- `EntitySelector` — query/types.rs:214-219. -/
inductive EntitySelector where
  | type (t : EntityType)
  | all
  deriving DecidableEq, Repr, Inhabited

/-- `Query` — query/types.rs:116-120. -/
structure Query where
  source : EntitySelector
  operations : List QueryOperation
  aggregation : Option Aggregation
  deriving Repr, Inhabited

/-- `QueryResult` — query/types.rs:41-46. -/
inductive QueryResult where
  | entities (es : List Entity)
  | aggregation (r : AggregationResult)
  deriving DecidableEq, Repr, Inhabited

/-- The "from" clause — query/types.rs:150-170. -/
def selectFrom (rt : Runtime) (g : Graph) : EntitySelector → Except QueryError (List Entity)
  | .type t =>
    let all := rt.order 0 g.getAllEntityTypes
    if t ∈ all then .ok (g.listByType t) else .error (.unknownEntityType t all)
  | .all => .ok ((rt.order 0 g.getAllEntityTypes).flatMap g.listByType)

/-- The `Where` loop — query/types.rs:175-183. -/
def filterEntities (env : Env) (c : CompoundCondition) : List Entity → Except QueryError (List Entity)
  | [] => .ok []
  | e :: es =>
    match c.matches env e with
    | .error err => .error err
    | .ok keep =>
      match filterEntities env c es with
      | .error err => .error err
      | .ok rest => .ok (if keep then e :: rest else rest)

/-- One operation — query/types.rs:173-200. -/
def applyOperation (env : Env) (rt : Runtime) (nonce : Nat) (g : Graph) (es : List Entity) :
    QueryOperation → Except QueryError (List Entity)
  | .where c => filterEntities env c es
  | .order f dir => orderBy env rt f dir es
  | .limit n => .ok (es.take n)
  | .related d t => .ok (getRelatedEntities rt nonce g es d t)

/-- The operation loop — query/types.rs:173-200. -/
def applyOperations (env : Env) (rt : Runtime) (g : Graph) :
    List QueryOperation → List Entity → Except QueryError (List Entity)
  | [], es => .ok es
  | op :: ops, es =>
    match applyOperation env rt ops.length g es op with
    | .error err => .error err
    | .ok es' => applyOperations env rt g ops es'

/-- `Query::execute` — query/types.rs:145-210. -/
def Query.execute (env : Env) (rt : Runtime) (g : Graph) (q : Query) :
    Except QueryError QueryResult :=
  match selectFrom rt g q.source with
  | .error e => .error e
  | .ok es =>
    match applyOperations env rt g q.operations es with
    | .error e => .error e
    | .ok es' =>
      match q.aggregation with
      | none => .ok (.entities es')
      | some a =>
        match a.execute env es' with
        | .ok r => .ok (.aggregation r)
        | .error e => .error e

end Firm
