import Verif.Props.Order
import Verif.Props.Query
import Verif.Props.Related

/-!
# Giving entities new names everywhere (C166)

A workspace in which ids are replaced by other ones, in the definitions and in all references, is served as before,
with the new names.
-/

namespace Firm
open Spec

/-! ## Specification -/

mutual
/-- The value with the ids of its references replaced. -/
def Spec.renamedValue (ρ : EntityId → EntityId) : FieldValue → FieldValue
  | .reference (.entity id) => .reference (.entity (ρ id))
  | .reference (.field id f) => .reference (.field (ρ id) f)
  | .list vs => .list (renamedValues ρ vs)
  | .boolean b => .boolean b
  | .string s => .string s
  | .integer n => .integer n
  | .float x => .float x
  | .currency a c => .currency a c
  | .dateTime d => .dateTime d
  | .path p => .path p
  | .enum s => .enum s
/-- The values of a list with the ids of their references replaced. -/
def Spec.renamedValues (ρ : EntityId → EntityId) : List FieldValue → List FieldValue
  | [] => []
  | v :: vs => renamedValue ρ v :: renamedValues ρ vs
end

/-- The entity with its id and those of its references replaced. -/
def Spec.renamedEntity (ρ : EntityId → EntityId) (e : Entity) : Entity :=
  ⟨ρ e.id, e.entityType, e.fields.map fun p => (p.1, renamedValue ρ p.2)⟩

/-- The same calls with the entities renamed. -/
def Spec.renamedOp (ρ : EntityId → EntityId) : GOp → GOp
  | .add e => .add (renamedEntity ρ e)
  | .addAll es => .addAll (es.map (renamedEntity ρ))
  | .build => .build
  | .clear => .clear

/-- Different ids stay different. -/
def Spec.KeepsApart (ρ : EntityId → EntityId) : Prop := ∀ a b, ρ a = ρ b → a = b

/-- The field has nothing to do with ids: it is the type, or no entity has a reference there. -/
inductive Spec.NoIds (es : List Entity) : FieldRef → Prop
  | type : NoIds es (.metadata .type)
  | field {f : FieldId} : (∀ e ∈ es, ∀ v, e.getField f = some v → ∀ id, ¬ HoldsRef v id) → NoIds es (.regular f)

/-- The clause has nothing to do with ids and follows no references. -/
inductive Spec.NoIdsClause (es : List Entity) : QueryOperation → Prop
  | where {c : CompoundCondition} : (∀ x ∈ c.conditions, NoIds es x.field) → NoIdsClause es (.where c)
  | order {f : FieldRef} {d : SortDirection} : NoIds es f → OneKind f es → NoIdsClause es (.order f d)
  | limit {n : Nat} : NoIdsClause es (.limit n)

/-- The aggregation has nothing to do with ids. -/
inductive Spec.NoIdsAggregation (es : List Entity) : Option Aggregation → Prop
  | none : NoIdsAggregation es none
  | select {fs : List FieldRef} : (∀ f ∈ fs, NoIds es f) → NoIdsAggregation es (some (.select fs))
  | count {f : Option FieldRef} : NoIdsAggregation es (some (.count f))
  | sum {f : FieldRef} : NoIds es f → NoIdsAggregation es (some (.sum f))
  | average {f : FieldRef} : NoIds es f → NoIdsAggregation es (some (.average f))
  | median {f : FieldRef} : NoIds es f → NoIdsAggregation es (some (.median f))

/-- The answer with the entities renamed. -/
def Spec.renamedResult (ρ : EntityId → EntityId) : QueryResult → QueryResult
  | .entities es => .entities (es.map (renamedEntity ρ))
  | .aggregation r => .aggregation r

/-- The error with the ids renamed. -/
def Spec.renamedError (ρ : EntityId → EntityId) : GraphError → GraphError
  | .entityAlreadyExists id => .entityAlreadyExists (ρ id)
  | .entityNotFound id => .entityNotFound (ρ id)
  | .fieldNotFound id f => .fieldNotFound (ρ id) f
  | e => e

/-! ## The graph -/

/-- The renamed graph. -/
def renamedGraph (ρ : EntityId → EntityId) (g : Graph) : Graph :=
  { g with nodes := g.nodes.map (renamedEntity ρ), idMap := g.idMap.map fun p => (ρ p.1, p.2) }

variable {ρ : EntityId → EntityId}

theorem lookup_renamed (hρ : KeepsApart ρ) (m : List (EntityId × Nat)) (id : EntityId) :
    (m.map fun p => (ρ p.1, p.2)).lookup (ρ id) = m.lookup id := by
  induction m with
  | nil => rfl
  | cons p m ih =>
    obtain ⟨k, i⟩ := p
    simp only [List.map_cons, List.lookup_cons]
    by_cases h : id = k
    · subst h; simp
    · have h' : ¬ ρ id = ρ k := fun e => h (hρ _ _ e)
      simp only [beq_eq_false_iff_ne.2 h, beq_eq_false_iff_ne.2 h', ih]

mutual
theorem collect_renamed (hρ : KeepsApart ρ) (m : List (EntityId × Nat)) (src : Nat) (f : FieldId) :
    ∀ v, collect (m.map fun p => (ρ p.1, p.2)) src f (renamedValue ρ v) = collect m src f v
  | .reference (.entity t) => by simp only [renamedValue, collect, lookup_renamed hρ]
  | .reference (.field t tf) => by simp only [renamedValue, collect, lookup_renamed hρ]
  | .list vs => by simp only [renamedValue, collect]; exact collectList_renamed hρ m src f vs
  | .boolean _ | .string _ | .integer _ | .float _ | .currency _ _ | .dateTime _ | .path _ | .enum _ => by
    simp only [renamedValue, collect]
theorem collectList_renamed (hρ : KeepsApart ρ) (m : List (EntityId × Nat)) (src : Nat) (f : FieldId) :
    ∀ vs, collectList (m.map fun p => (ρ p.1, p.2)) src f (renamedValues ρ vs) = collectList m src f vs
  | [] => rfl
  | v :: vs => by
    simp only [renamedValues, collectList, collect_renamed hρ m src f v, collectList_renamed hρ m src f vs]
end

theorem edgesToAdd_renamed (hρ : KeepsApart ρ) (m : List (EntityId × Nat)) (nodes : List Entity) :
    edgesToAdd (m.map fun p => (ρ p.1, p.2)) (nodes.map (renamedEntity ρ)) = edgesToAdd m nodes := by
  unfold edgesToAdd
  rw [List.zipIdx_map, List.flatMap_map]
  congr 1
  funext p
  unfold entityEdges renamedEntity
  simp only [Prod.map, List.flatMap_map, collect_renamed hρ, id]

theorem addEntity_renamed (hρ : KeepsApart ρ) (g : Graph) (e : Entity) :
    ((renamedGraph ρ g).addEntity (renamedEntity ρ e)).1 = renamedGraph ρ (g.addEntity e).1 ∧
    ((renamedGraph ρ g).addEntity (renamedEntity ρ e)).2 =
      match (g.addEntity e).2 with
      | .ok () => .ok ()
      | .error err => .error (renamedError ρ err) := by
  unfold Graph.addEntity
  rw [show (renamedGraph ρ g).idMap.lookup (renamedEntity ρ e).id = g.idMap.lookup e.id from
    lookup_renamed hρ _ _]
  split
  · exact ⟨rfl, rfl⟩
  · simp [renamedGraph, renamedEntity]

theorem addEntities_renamed (hρ : KeepsApart ρ) (g : Graph) (es : List Entity) :
    ((renamedGraph ρ g).addEntities (es.map (renamedEntity ρ))).1 = renamedGraph ρ (g.addEntities es).1 := by
  induction es generalizing g with
  | nil => rfl
  | cons e es ih =>
    obtain ⟨h1, h2⟩ := addEntity_renamed hρ g e
    simp only [List.map_cons, Graph.addEntities]
    cases hg : g.addEntity e with
    | mk g' r =>
      rw [hg] at h1 h2
      cases hg' : (renamedGraph ρ g).addEntity (renamedEntity ρ e) with
      | mk g2 r2 =>
        rw [hg'] at h1 h2
        dsimp only at h1 h2
        subst h1
        cases r with
        | ok u => cases u; dsimp only at h2; subst h2; exact ih g'
        | error err => dsimp only at h2; subst h2; rfl

theorem run_renamed (hρ : KeepsApart ρ) (ops : List GOp) :
    Graph.run (ops.map (renamedOp ρ)) = renamedGraph ρ (Graph.run ops) := by
  have step : ∀ (g : Graph) (op : GOp), (renamedGraph ρ g).step (renamedOp ρ op) = renamedGraph ρ (g.step op) := by
    intro g op
    cases op with
    | add e => exact (addEntity_renamed hρ g e).1
    | addAll es => exact addEntities_renamed hρ g es
    | build =>
      simp only [renamedOp, Graph.step, Graph.build, renamedGraph, edgesToAdd_renamed hρ]
    | clear => rfl
  unfold Graph.run
  have : ∀ g : Graph, (ops.map (renamedOp ρ)).foldl Graph.step (renamedGraph ρ g) =
      renamedGraph ρ (ops.foldl Graph.step g) := by
    induction ops with
    | nil => intro g; rfl
    | cons op ops ih => intro g; simp only [List.map_cons, List.foldl_cons, step, ih]
  exact this Graph.empty

/-! ## The property: looking up -/

/-- C166: the renamed entity is found under the new name, and nothing else is. -/
theorem C166_get (hρ : KeepsApart ρ) (ops : List GOp) (id : EntityId) :
    (Graph.run (ops.map (renamedOp ρ))).getEntity (ρ id) = ((Graph.run ops).getEntity id).map (renamedEntity ρ) := by
  rw [run_renamed hρ]
  unfold Graph.getEntity
  rw [show (renamedGraph ρ (Graph.run ops)).idMap.lookup (ρ id) = (Graph.run ops).idMap.lookup id from
    lookup_renamed hρ _ _]
  cases (Graph.run ops).idMap.lookup id with
  | none => rfl
  | some i => simp [renamedGraph]

theorem listByType_renamed (g : Graph) (t : EntityType) :
    (renamedGraph ρ g).listByType t = (g.listByType t).map (renamedEntity ρ) := by
  unfold Graph.listByType
  simp only [renamedGraph]
  cases g.typeMap.lookup t with
  | none => rfl
  | some ns => simp [List.map_filterMap]

/-- C166: the entities of a type are the renamed ones, in the same order. -/
theorem C166_list (hρ : KeepsApart ρ) (ops : List GOp) (t : EntityType) :
    (Graph.run (ops.map (renamedOp ρ))).listByType t = ((Graph.run ops).listByType t).map (renamedEntity ρ) := by
  rw [run_renamed hρ, listByType_renamed]

theorem getField_renamed (e : Entity) (f : FieldId) :
    (renamedEntity ρ e).getField f = (e.getField f).map (renamedValue ρ) := by
  unfold Entity.getField renamedEntity
  simp only [List.find?_map, Option.map_map, Function.comp_def]

/-- The result of following references, renamed. -/
def Spec.renamedOutcome (ρ : EntityId → EntityId) : Except GraphError FieldValue → Except GraphError FieldValue
  | .ok v => .ok (renamedValue ρ v)
  | .error e => .error (renamedError ρ e)

theorem search_renamed (hρ : KeepsApart ρ) (ops : List GOp) (n : Nat) (visited : List (EntityId × FieldId))
    (id : EntityId) (f : FieldId) :
    (Graph.run (ops.map (renamedOp ρ))).search n (visited.map fun p => (ρ p.1, p.2)) (ρ id) f =
      renamedOutcome ρ ((Graph.run ops).search n visited id f) := by
  induction n generalizing visited id f with
  | zero => rfl
  | succ n ih =>
    have hmem : (ρ id, f) ∈ (visited.map fun p => (ρ p.1, p.2)) ↔ (id, f) ∈ visited := by
      simp only [List.mem_map, Prod.mk.injEq, Prod.exists]
      constructor
      · rintro ⟨a, b, h, h1, rfl⟩
        rw [← hρ _ _ h1]
        exact h
      · intro h
        exact ⟨id, f, h, rfl, rfl⟩
    unfold Graph.search
    by_cases hv : (id, f) ∈ visited
    · rw [if_pos (hmem.2 hv), if_pos hv]; rfl
    · rw [if_neg (fun h => hv (hmem.1 h)), if_neg hv, C166_get hρ]
      cases (Graph.run ops).getEntity id with
      | none => rfl
      | some e =>
        simp only [Option.map_some, getField_renamed]
        cases hfv : e.getField f with
        | none => rfl
        | some v =>
          simp only [Option.map_some]
          cases v with
          | reference r =>
            cases r with
            | entity t => simp only [renamedValue]; rfl
            | field t tf =>
              have hl : ∀ k, (Graph.run (ops.map (renamedOp ρ))).idMap.lookup (ρ k) =
                  (Graph.run ops).idMap.lookup k := fun k => by
                rw [run_renamed hρ]; exact lookup_renamed hρ _ _
              have he : ∀ s t f tf, (Graph.run (ops.map (renamedOp ρ))).hasFieldEdge s t f tf =
                  (Graph.run ops).hasFieldEdge s t f tf := fun s t f tf => by
                rw [run_renamed hρ]; rfl
              simp only [renamedValue, hl, he]
              cases (Graph.run ops).idMap.lookup id with
              | none => rfl
              | some s =>
                dsimp only
                cases (Graph.run ops).idMap.lookup t with
                | none => rfl
                | some t' =>
                  dsimp only
                  split
                  · exact ih ((id, f) :: visited) t tf
                  · rfl
          | _ => simp only [renamedValue]; rfl

/-- C166: following a reference leads to the renamed value, or fails as before. -/
theorem C166_resolve (hρ : KeepsApart ρ) (ops : List GOp) (v : FieldValue) :
    (Graph.run (ops.map (renamedOp ρ))).resolveFieldReference (renamedValue ρ v) =
      renamedOutcome ρ ((Graph.run ops).resolveFieldReference v) := by
  cases v with
  | reference r =>
    cases r with
    | entity id => rfl
    | field id f =>
      simp only [renamedValue, Graph.resolveFieldReference]
      exact search_renamed hρ ops 10 [] id f
  | _ => simp only [renamedValue, Graph.resolveFieldReference]; rfl

theorem accepted_renamed (hρ : KeepsApart ρ) (ops : List GOp) :
    accepted (ops.map (renamedOp ρ)) = (accepted ops).map (renamedEntity ρ) := by
  rw [← nodes_run, run_renamed hρ, ← nodes_run]
  rfl

theorem renamed_unique (hρ : KeepsApart ρ) {ops : List GOp} {a b : Entity} (ha : a ∈ accepted ops)
    (hb : b ∈ accepted ops) (h : renamedEntity ρ a = renamedEntity ρ b) : a = b := by
  have hid : a.id = b.id := hρ _ _ (congrArg Entity.id h)
  rw [← nodes_run] at ha hb
  have h1 := ((Inv.run ops).getEntity_iff a.id a).2 ⟨ha, rfl⟩
  have h2 := ((Inv.run ops).getEntity_iff a.id b).2 ⟨hb, hid.symm⟩
  rw [h1] at h2
  exact Option.some.inj h2

theorem linked_renamed (hρ : KeepsApart ρ) (ops : List GOp) {a : Entity} (ha : a ∈ accepted ops) (y : Entity) :
    (Linked (Graph.run (ops.map (renamedOp ρ))) (renamedEntity ρ a) y ↔
      ∃ b, y = renamedEntity ρ b ∧ Linked (Graph.run ops) a b) ∧
    (Linked (Graph.run (ops.map (renamedOp ρ))) y (renamedEntity ρ a) ↔
      ∃ b, y = renamedEntity ρ b ∧ Linked (Graph.run ops) b a) := by
  rw [run_renamed hρ]
  have hmem : ∀ {i : Nat} {x : Entity}, (Graph.run ops).nodes[i]? = some x → x ∈ accepted ops := fun h => by
    rw [← nodes_run]; exact List.mem_of_getElem? h
  unfold Linked renamedGraph
  simp only [List.getElem?_map, Option.map_eq_some_iff]
  constructor
  · constructor
    · rintro ⟨ed, hed, ⟨a', h1, h1'⟩, b, h2, rfl⟩
      have := renamed_unique hρ (hmem h1) ha h1'
      subst this
      exact ⟨b, rfl, ed, hed, h1, h2⟩
    · rintro ⟨b, rfl, ed, hed, h1, h2⟩
      exact ⟨ed, hed, ⟨a, h1, rfl⟩, b, h2, rfl⟩
  · constructor
    · rintro ⟨ed, hed, ⟨b, h1, rfl⟩, a', h2, h2'⟩
      have := renamed_unique hρ (hmem h2) ha h2'
      subst this
      exact ⟨b, rfl, ed, hed, h1, h2⟩
    · rintro ⟨b, rfl, ed, hed, h1, h2⟩
      exact ⟨ed, hed, ⟨b, h1, rfl⟩, a, h2, rfl⟩

theorem nodup_renamed (hρ : KeepsApart ρ) {ops : List GOp} {l : List Entity} (hn : l.Nodup)
    (hm : ∀ e ∈ l, e ∈ accepted ops) : (l.map (renamedEntity ρ)).Nodup := by
  induction l with
  | nil => exact List.nodup_nil
  | cons a l ih =>
    obtain ⟨h1, h2⟩ := List.nodup_cons.1 hn
    rw [List.map_cons, List.nodup_cons]
    refine ⟨?_, ih h2 fun e he => hm e (by simp [he])⟩
    intro h
    obtain ⟨b, hb, he⟩ := List.mem_map.1 h
    rw [renamed_unique hρ (hm b (by simp [hb])) (hm a (by simp)) he] at hb
    exact h1 hb

/-- C166, part: the entities linked with an entity are the renamed ones. Missing: their order, which is that of the
ids (`C166_resorted`). -/
theorem C166_related_partial (hρ : KeepsApart ρ) (ops : List GOp) (id : EntityId) (dir : Option Direction) :
    ((Graph.run ops).getRelated id dir = none ∧ (Graph.run (ops.map (renamedOp ρ))).getRelated (ρ id) dir = none) ∨
    ∃ l l', (Graph.run ops).getRelated id dir = some l ∧
      (Graph.run (ops.map (renamedOp ρ))).getRelated (ρ id) dir = some l' ∧
      l'.Perm (l.map (renamedEntity ρ)) := by
  have hg := C166_get hρ ops id
  cases he : (Graph.run ops).getEntity id with
  | none =>
    left
    rw [he] at hg
    exact ⟨(C07_related_set ops id dir).1.2 he, (C07_related_set _ _ dir).1.2 hg⟩
  | some a =>
    right
    obtain ⟨ha, rfl⟩ := ((Inv.run ops).getEntity_iff _ _).1 he
    have ha' := ha
    rw [nodes_run] at ha'
    have hr : renamedEntity ρ a ∈ (Graph.run (ops.map (renamedOp ρ))).nodes := by
      rw [nodes_run, accepted_renamed hρ]
      exact List.mem_map_of_mem ha'
    obtain ⟨l, h1, -, m1⟩ := (Inv.run ops).getRelated_some ha dir
    obtain ⟨l', h2, -, m2⟩ := (Inv.run (ops.map (renamedOp ρ))).getRelated_some hr dir
    obtain ⟨-, n1, k1⟩ := (C07_related_set ops a.id dir).2 l h1
    obtain ⟨-, n2, -⟩ := (C07_related_set _ (renamedEntity ρ a).id dir).2 l' h2
    refine ⟨l, l', h1, h2, ?_⟩
    rw [List.perm_ext_iff_of_nodup n2 (nodup_renamed hρ n1 k1)]
    intro y
    rw [m2, List.mem_map]
    obtain ⟨hl, hr⟩ := linked_renamed hρ ops ha' y
    cases dir with
    | none =>
      simp only [m1, LinkedDir, hl, hr]
      constructor
      · rintro (⟨b, rfl, h⟩ | ⟨b, rfl, h⟩)
        · exact ⟨b, .inl h, rfl⟩
        · exact ⟨b, .inr h, rfl⟩
      · rintro ⟨b, h | h, rfl⟩
        · exact .inl ⟨b, rfl, h⟩
        · exact .inr ⟨b, rfl, h⟩
    | some d =>
      cases d with
      | outgoing =>
        simp only [m1, LinkedDir, hl]
        exact ⟨fun ⟨b, e, h⟩ => ⟨b, h, e.symm⟩, fun ⟨b, h, e⟩ => ⟨b, e.symm, h⟩⟩
      | incoming =>
        simp only [m1, LinkedDir, hr]
        exact ⟨fun ⟨b, e, h⟩ => ⟨b, h, e.symm⟩, fun ⟨b, h, e⟩ => ⟨b, e.symm, h⟩⟩

/-! ## The property: queries -/

mutual
theorem renamedValue_noIds : ∀ v, (∀ id, ¬ HoldsRef v id) → renamedValue ρ v = v
  | .reference r, h => absurd (HoldsRef.ref r) (h _)
  | .list vs, h => by
    simp only [renamedValue]
    rw [renamedValues_noIds vs fun v hv id hr => h id (.item vs v id hv hr)]
  | .boolean _, _ | .string _, _ | .integer _, _ | .float _, _ | .currency _ _, _ | .dateTime _, _ | .path _, _
  | .enum _, _ => by simp only [renamedValue]
theorem renamedValues_noIds : ∀ vs, (∀ v ∈ vs, ∀ id, ¬ HoldsRef v id) → renamedValues ρ vs = vs
  | [], _ => rfl
  | v :: vs, h => by
    simp only [renamedValues]
    rw [renamedValue_noIds v (h v (by simp)), renamedValues_noIds vs fun v hv => h v (by simp [hv])]
end

theorem getField_noIds {es : List Entity} {f : FieldId} (h : NoIds es (.regular f)) {e : Entity} (he : e ∈ es) :
    (renamedEntity ρ e).getField f = e.getField f := by
  cases h with
  | field h =>
    rw [getField_renamed]
    cases hv : e.getField f with
    | none => rfl
    | some v => rw [Option.map_some, renamedValue_noIds v (h e he v hv)]

theorem matches_noIds {env : Env} {es : List Entity} {c : CompoundCondition}
    (h : ∀ x ∈ c.conditions, NoIds es x.field) {e : Entity} (he : e ∈ es) :
    c.matches env (renamedEntity ρ e) = c.matches env e := by
  have one : ∀ x ∈ c.conditions, x.matches env (renamedEntity ρ e) = x.matches env e := by
    intro x hx
    have := h x hx
    unfold FilterCondition.matches
    cases hf : x.field with
    | metadata m =>
      rw [hf] at this
      cases this
      rfl
    | regular f =>
      rw [hf] at this
      dsimp only
      unfold FilterCondition.matchesField
      rw [getField_noIds this he]
  have all : ∀ cs : List FilterCondition, (∀ x ∈ cs, x.matches env (renamedEntity ρ e) = x.matches env e) →
      collectResults (fun x => x.matches env (renamedEntity ρ e)) cs =
        collectResults (fun x => x.matches env e) cs := by
    intro cs
    induction cs with
    | nil => intro _; rfl
    | cons x cs ih =>
      intro h
      simp only [collectResults, h x (by simp), ih fun y hy => h y (by simp [hy])]
  unfold CompoundCondition.matches
  rw [all _ one]

theorem filterEntities_noIds {env : Env} {all : List Entity} {c : CompoundCondition}
    (h : ∀ x ∈ c.conditions, NoIds all x.field) {es : List Entity} (hes : ∀ e ∈ es, e ∈ all) :
    filterEntities env c (es.map (renamedEntity ρ)) = (filterEntities env c es).map (·.map (renamedEntity ρ)) := by
  induction es with
  | nil => rfl
  | cons e es ih =>
    simp only [List.map_cons, filterEntities, matches_noIds h (hes e (by simp)),
      ih fun e he => hes e (by simp [he])]
    cases c.matches env e with
    | error err => rfl
    | ok keep =>
      cases filterEntities env c es with
      | error err => rfl
      | ok rest => cases keep <;> rfl

theorem orderLe_noIds {env : Env} {all : List Entity} {f : FieldRef} (h : NoIds all f) (d : SortDirection)
    {a b : Entity} (ha : a ∈ all) (hb : b ∈ all) :
    orderLe env f d (renamedEntity ρ a) (renamedEntity ρ b) = orderLe env f d a b := by
  have : compareEntitiesAsc env f (renamedEntity ρ a) (renamedEntity ρ b) = compareEntitiesAsc env f a b := by
    cases f with
    | metadata m => cases h; rfl
    | regular f =>
      unfold compareEntitiesAsc
      dsimp only
      rw [getField_noIds h ha, getField_noIds h hb]
  unfold orderLe compareEntitiesByField
  rw [this]

theorem insertSorted_map {α β : Type} {le : α → α → Bool} {le' : β → β → Bool} {m : α → β} {x : α} {l : List α}
    (h : ∀ b ∈ l, le' (m x) (m b) = le x b) :
    insertSorted le' (m x) (l.map m) = (insertSorted le x l).map m := by
  induction l with
  | nil => rfl
  | cons y ys ih =>
    simp only [List.map_cons, insertSorted, h y (by simp)]
    split
    · rfl
    · rw [ih fun b hb => h b (by simp [hb])]
      rfl

theorem stableSort_map {α β : Type} {le : α → α → Bool} {le' : β → β → Bool} {m : α → β} {l : List α}
    (h : ∀ a ∈ l, ∀ b ∈ l, le' (m a) (m b) = le a b) : stableSort le' (l.map m) = (stableSort le l).map m := by
  induction l with
  | nil => rfl
  | cons x xs ih =>
    simp only [List.map_cons, stableSort]
    rw [ih fun a ha b hb => h a (by simp [ha]) b (by simp [hb])]
    exact insertSorted_map fun b hb => h x (by simp) b (by simp [(stableSort_perm le xs).mem_iff.1 hb])

theorem valueAt_noIds {all : List Entity} {f : FieldRef} (h : NoIds all f) {e : Entity} (he : e ∈ all) :
    valueAt (renamedEntity ρ e) f = valueAt e f := by
  cases f with
  | metadata m => cases h; rfl
  | regular f => exact getField_noIds h he

theorem orderBy_noIds {env : Env} {rt : Runtime} {all : List Entity} {f : FieldRef} (h : NoIds all f)
    (hk : OneKind f all) (d : SortDirection) {es : List Entity} (hes : ∀ e ∈ es, e ∈ all) :
    orderBy env rt f d (es.map (renamedEntity ρ)) = (orderBy env rt f d es).map (·.map (renamedEntity ρ)) := by
  obtain ⟨t, fl, hs⟩ := oneKind_sortable hk
  have hs' : ∀ e ∈ es.map (renamedEntity ρ), SortableColumn t fl f e := by
    intro e he v hv
    obtain ⟨a, ha, rfl⟩ := List.mem_map.1 he
    rw [valueAt_noIds h (hes a ha)] at hv
    exact hs a (hes a ha) v hv
  rw [orderBy_eq env rt f d t fl hs', orderBy_eq env rt f d t fl fun e he => hs e (hes e he),
    stableSort_map fun a ha b hb => orderLe_noIds h d (hes a ha) (hes b hb)]
  rfl

theorem applyOperations_noIds {env : Env} {rt : Runtime} {g g' : Graph} {all : List Entity}
    {ops : List QueryOperation} (h : ∀ o ∈ ops, NoIdsClause all o) {es : List Entity} (hes : ∀ e ∈ es, e ∈ all) :
    applyOperations env rt g' ops (es.map (renamedEntity ρ)) =
      (applyOperations env rt g ops es).map (·.map (renamedEntity ρ)) ∧
    ∀ r, applyOperations env rt g ops es = .ok r → ∀ e ∈ r, e ∈ all := by
  induction ops generalizing es with
  | nil => exact ⟨rfl, fun r hr => by cases hr; exact hes⟩
  | cons o ops ih =>
    have ih := @ih fun o ho => h o (by simp [ho])
    have key : ∀ r, applyOperation env rt ops.length g es o = r →
        applyOperation env rt ops.length g' (es.map (renamedEntity ρ)) o = r.map (·.map (renamedEntity ρ)) ∧
        ∀ l, r = .ok l → ∀ e ∈ l, e ∈ all := by
      rintro r rfl
      cases h o (by simp) with
      | «where» hc =>
        refine ⟨filterEntities_noIds hc hes, fun l hl e he => ?_⟩
        obtain ⟨-, rfl⟩ := (filterEntities_ok _ _ _ _).1 hl
        exact hes e (List.mem_filter.1 he).1
      | @order f d hf hk =>
        refine ⟨orderBy_noIds hf hk d hes, fun l hl e he => ?_⟩
        unfold applyOperation orderBy at hl
        cases hs : rt.sort (orderLe env f d) es with
        | none => simp only [hs] at hl; cases hl
        | some l' =>
          simp only [hs] at hl
          cases hl
          exact hes e ((rt.sort_perm _ _ _ hs).mem_iff.1 he)
      | @limit n =>
        refine ⟨by simp only [applyOperation, ← List.map_take]; rfl, fun l hl e he => ?_⟩
        cases hl
        exact hes e (List.mem_of_mem_take he)
    obtain ⟨k1, k2⟩ := key _ rfl
    simp only [applyOperations, k1]
    cases hr : applyOperation env rt ops.length g es o with
    | error err => exact ⟨rfl, fun r h => by cases h⟩
    | ok l =>
      obtain ⟨i1, i2⟩ := ih (es := l) (k2 l hr)
      exact ⟨i1, i2⟩

theorem collectNumeric_noIds {all : List Entity} {f : FieldId} (h : NoIds all (.regular f)) {es : List Entity}
    (hes : ∀ e ∈ es, e ∈ all) :
    collectNumericValues f (es.map (renamedEntity ρ)) = collectNumericValues f es := by
  induction es with
  | nil => rfl
  | cons e es ih =>
    simp only [List.map_cons, collectNumericValues, getField_noIds h (hes e (by simp)),
      ih fun e he => hes e (by simp [he])]

theorem aggregation_noIds {env : Env} {all : List Entity} {a : Aggregation} (h : NoIdsAggregation all (some a))
    {es : List Entity} (hes : ∀ e ∈ es, e ∈ all) : a.execute env (es.map (renamedEntity ρ)) = a.execute env es := by
  have num : ∀ {f : FieldRef}, NoIds all f → ∀ x, requireRegularField f = .ok x →
      collectNumericValues x (es.map (renamedEntity ρ)) = collectNumericValues x es := by
    intro f hf x hx
    cases f with
    | metadata m => cases hx
    | regular y => cases hx; exact collectNumeric_noIds hf hes
  cases h with
  | @select fs hf =>
    unfold Aggregation.execute executeSelect
    dsimp only
    rw [List.map_map]
    congr 2
    refine List.map_congr_left fun e he => ?_
    refine List.map_congr_left fun f hf' => ?_
    have := hf f hf'
    cases f with
    | metadata m => cases this; rfl
    | regular f => exact getField_noIds this (hes e he)
  | @count f =>
    unfold Aggregation.execute executeCount
    dsimp only
    cases f with
    | none => dsimp only; rw [List.length_map]
    | some f =>
      cases f with
      | metadata m => dsimp only; rw [List.length_map]
      | regular f =>
        dsimp only
        rw [List.filter_map, List.length_map]
        congr 4
        funext e
        simp only [Function.comp_def, getField_renamed]
        cases e.getField f <;> rfl
  | @sum f hf =>
    unfold Aggregation.execute executeSum
    dsimp only
    cases hx : requireRegularField f with
    | error e => rfl
    | ok x => dsimp only; rw [num hf x hx]
  | @average f hf =>
    unfold Aggregation.execute executeAverage
    dsimp only
    cases hx : requireRegularField f with
    | error e => rfl
    | ok x => dsimp only; rw [num hf x hx]
  | @median f hf =>
    unfold Aggregation.execute executeMedian
    dsimp only
    cases hx : requireRegularField f with
    | error e => rfl
    | ok x => dsimp only; rw [num hf x hx]

theorem selectFrom_renamed (rt : Runtime) (g : Graph) (src : EntitySelector) :
    selectFrom rt (renamedGraph ρ g) src = (selectFrom rt g src).map (·.map (renamedEntity ρ)) := by
  cases src with
  | type t =>
    unfold selectFrom
    dsimp only
    rw [show (renamedGraph ρ g).getAllEntityTypes = g.getAllEntityTypes from rfl, listByType_renamed]
    split <;> rfl
  | all =>
    unfold selectFrom
    rw [show (renamedGraph ρ g).getAllEntityTypes = g.getAllEntityTypes from rfl]
    simp only [Except.map, List.map_flatMap]
    congr 2
    funext t
    exact listByType_renamed g t

/-- C166: a query that has nothing to do with ids and follows no references is answered with the same entities under
their new names, in the same order, and with the same numbers; it fails exactly as before. -/
theorem C166_query (hρ : KeepsApart ρ) (env : Env) (rt : Runtime) (ops : List GOp) (q : Query)
    (ho : ∀ o ∈ q.operations, NoIdsClause (accepted ops) o) (ha : NoIdsAggregation (accepted ops) q.aggregation) :
    q.execute env rt (Graph.run (ops.map (renamedOp ρ))) =
      (q.execute env rt (Graph.run ops)).map (renamedResult ρ) := by
  rw [run_renamed hρ]
  unfold Query.execute
  rw [selectFrom_renamed]
  cases hs : selectFrom rt (Graph.run ops) q.source with
  | error e => rfl
  | ok es =>
    have hes : ∀ e ∈ es, e ∈ accepted ops := by
      intro e he
      rw [← nodes_run]
      exact (Bag.selectFrom (Inv.run ops) rt q.source hs).1 e he
    obtain ⟨h1, h2⟩ := applyOperations_noIds (env := env) (rt := rt) (g := Graph.run ops)
      (g' := renamedGraph ρ (Graph.run ops)) ho hes
    simp only [Except.map] at h1 ⊢
    rw [h1]
    cases hr : applyOperations env rt (Graph.run ops) q.operations es with
    | error e => rfl
    | ok r =>
      dsimp only
      cases hag : q.aggregation with
      | none => rfl
      | some a =>
        rw [hag] at ha
        dsimp only
        rw [aggregation_noIds ha (h2 r hr)]
        cases a.execute env r <;> rfl

/-- The link that `related` follows. -/
def StepLink (ops : List GOp) (a b : Entity) : Prop :=
  a ∈ accepted ops ∧ ∃ l, (Graph.run ops).getRelated a.id none = some l ∧ b ∈ l

theorem stepLink_renamed (hρ : KeepsApart ρ) {ops : List GOp} {a : Entity} (ha : a ∈ accepted ops) (y : Entity) :
    StepLink (ops.map (renamedOp ρ)) (renamedEntity ρ a) y ↔ ∃ b, y = renamedEntity ρ b ∧ StepLink ops a b := by
  have ha' : renamedEntity ρ a ∈ accepted (ops.map (renamedOp ρ)) := by
    rw [accepted_renamed hρ]; exact List.mem_map_of_mem ha
  unfold StepLink
  rw [show (renamedEntity ρ a).id = ρ a.id from rfl]
  rcases C166_related_partial hρ ops a.id none with ⟨h1, h2⟩ | ⟨l, l', h1, h2, hp⟩
  · simp [h1, h2]
  · simp only [h1, h2, ha, ha', true_and, Option.some.injEq, exists_eq_left', hp.mem_iff, List.mem_map]
    exact ⟨fun ⟨b, h, e⟩ => ⟨b, e.symm, h⟩, fun ⟨b, e, h⟩ => ⟨b, h, e.symm⟩⟩

theorem stepLink_mem {ops : List GOp} {a b : Entity} (h : StepLink ops a b) : b ∈ accepted ops := by
  obtain ⟨-, l, hl, hb⟩ := h
  exact ((C07_related_set ops a.id none).2 l hl).2.2 b hb

theorem within_renamed (hρ : KeepsApart ρ) {ops : List GOp} (n : Nat) {a : Entity} (ha : a ∈ accepted ops)
    (y : Entity) : Within (StepLink (ops.map (renamedOp ρ))) n (renamedEntity ρ a) y ↔
      ∃ b ∈ accepted ops, y = renamedEntity ρ b ∧ Within (StepLink ops) n a b := by
  induction n generalizing a with
  | zero =>
    constructor
    · intro h
      cases h
      exact ⟨a, ha, rfl, .here _ _⟩
    · rintro ⟨b, -, rfl, h⟩
      cases h
      exact .here _ _
  | succ n ih =>
    constructor
    · intro h
      cases h with
      | here => exact ⟨a, ha, rfl, .here _ _⟩
      | step _ _ c _ hl hw =>
        obtain ⟨b, rfl, hb⟩ := (stepLink_renamed hρ ha c).1 hl
        obtain ⟨b', hm, rfl, hw'⟩ := (ih (stepLink_mem hb)).1 hw
        exact ⟨b', hm, rfl, .step _ _ _ _ hb hw'⟩
    · rintro ⟨b, hm, rfl, h⟩
      cases h with
      | here => exact .here _ _
      | step _ _ c _ hl hw =>
        exact .step _ _ _ _ ((stepLink_renamed hρ ha _).2 ⟨c, rfl, hl⟩) ((ih (stepLink_mem hl)).2 ⟨b, hm, rfl, hw⟩)

theorem getRelatedEntities_renamed (hρ : KeepsApart ρ) (rt rt' : Runtime) (nonce : Nat) (ops : List GOp)
    {es es' : List Entity} (hes : ∀ e ∈ es, e ∈ accepted ops) (hp : es'.Perm (es.map (renamedEntity ρ))) (d : Nat)
    (t : Option EntityType) :
    (getRelatedEntities rt' nonce (Graph.run (ops.map (renamedOp ρ))) es' d t).Perm
      ((getRelatedEntities rt nonce (Graph.run ops) es d t).map (renamedEntity ρ)) := by
  by_cases hd : 1 ≤ d
  · have hes' : ∀ e ∈ es', e ∈ accepted (ops.map (renamedOp ρ)) := by
      intro e he
      obtain ⟨a, ha, rfl⟩ := List.mem_map.1 (hp.mem_iff.1 he)
      rw [accepted_renamed hρ]
      exact List.mem_map_of_mem (hes a ha)
    obtain ⟨n1, m1⟩ := C12_related_any ops rt nonce es hes d hd t
    obtain ⟨n2, m2⟩ := C12_related_any (ops.map (renamedOp ρ)) rt' nonce es' hes' d hd t
    rw [List.perm_ext_iff_of_nodup n2 (nodup_renamed hρ n1 fun e he => ((m1 e).1 he).1)]
    intro y
    rw [m2, List.mem_map]
    simp only [m1]
    have fold : ∀ ops : List GOp, (fun a b => a ∈ accepted ops ∧
        ∃ l, (Graph.run ops).getRelated a.id none = some l ∧ b ∈ l) = StepLink ops := fun _ => rfl
    rw [fold, fold]
    constructor
    · rintro ⟨-, ⟨s, hs, hw⟩, ht⟩
      obtain ⟨a, ha, rfl⟩ := List.mem_map.1 (hp.mem_iff.1 hs)
      obtain ⟨b, hb, rfl, hw'⟩ := (within_renamed hρ _ (hes a ha) y).1 hw
      exact ⟨b, ⟨hb, ⟨a, ha, hw'⟩, ht⟩, rfl⟩
    · rintro ⟨b, ⟨hb, ⟨a, ha, hw⟩, ht⟩, rfl⟩
      refine ⟨?_, ⟨renamedEntity ρ a, hp.mem_iff.2 (List.mem_map_of_mem ha),
        (within_renamed hρ _ (hes a ha) _).2 ⟨b, hb, rfl, hw⟩⟩, ht⟩
      rw [accepted_renamed hρ]
      exact List.mem_map_of_mem hb
  · have h0 : d = 0 := by omega
    subst h0
    exact hp

/-- The clause has nothing to do with the values of ids, though it may follow references; and it does not cut off
the list, which would depend on the order. -/
inductive Spec.FollowsOnly (es : List Entity) : QueryOperation → Prop
  | where {c : CompoundCondition} : (∀ x ∈ c.conditions, NoIds es x.field) → FollowsOnly es (.where c)
  | order {f : FieldRef} {d : SortDirection} : FollowsOnly es (.order f d)
  | related {n : Nat} {t : Option EntityType} : FollowsOnly es (.related n t)

theorem filterEntities_perm {env : Env} {c : CompoundCondition} {es es' r r' : List Entity} (hp : es'.Perm es)
    (h : filterEntities env c es = .ok r) (h' : filterEntities env c es' = .ok r') : r'.Perm r := by
  obtain ⟨-, rfl⟩ := (filterEntities_ok _ _ _ _).1 h
  obtain ⟨-, rfl⟩ := (filterEntities_ok _ _ _ _).1 h'
  exact hp.filter _

theorem orderBy_perm {env : Env} {rt : Runtime} {f : FieldRef} {d : SortDirection} {es r : List Entity}
    (h : orderBy env rt f d es = .ok r) : r.Perm es := by
  unfold orderBy at h
  cases hs : rt.sort (orderLe env f d) es with
  | none => simp only [hs] at h; cases h
  | some l =>
    simp only [hs] at h
    cases h
    exact rt.sort_perm _ _ _ hs

theorem applyOperations_follows (hρ : KeepsApart ρ) {env : Env} {rt rt' : Runtime} {gops : List GOp}
    {ops : List QueryOperation} (h : ∀ o ∈ ops, FollowsOnly (accepted gops) o) {es es' r r' : List Entity}
    (hb : Bag (Graph.run gops) es) (hp : es'.Perm (es.map (renamedEntity ρ)))
    (hr : applyOperations env rt (Graph.run gops) ops es = .ok r)
    (hr' : applyOperations env rt' (Graph.run (gops.map (renamedOp ρ))) ops es' = .ok r') :
    r'.Perm (r.map (renamedEntity ρ)) := by
  induction ops generalizing es es' with
  | nil =>
    cases hr
    cases hr'
    exact hp
  | cons o ops ih =>
    have ih := @ih fun o ho => h o (by simp [ho])
    have hes : ∀ e ∈ es, e ∈ accepted gops := by rw [← nodes_run]; exact hb.1
    simp only [applyOperations] at hr hr'
    cases h1 : applyOperation env rt ops.length (Graph.run gops) es o with
    | error e => rw [h1] at hr; cases hr
    | ok l =>
      cases h2 : applyOperation env rt' ops.length (Graph.run (gops.map (renamedOp ρ))) es' o with
      | error e => rw [h2] at hr'; cases hr'
      | ok l' =>
        rw [h1] at hr
        rw [h2] at hr'
        refine ih (Bag.applyOperation (Inv.run gops) env rt _ o hb h1) ?_ hr hr'
        cases h o (by simp) with
        | «where» hc =>
          have hm := filterEntities_noIds (ρ := ρ) (env := env) hc hes
          have h1' : filterEntities env _ es = .ok l := h1
          rw [h1'] at hm
          exact filterEntities_perm hp hm h2
        | order =>
          exact (orderBy_perm h2).trans (hp.trans ((orderBy_perm h1).symm.map _))
        | related =>
          simp only [applyOperation, Except.ok.injEq] at h1 h2
          subst h1 h2
          exact getRelatedEntities_renamed hρ rt rt' _ gops hes hp _ _

theorem selectFrom_perm {rt rt' : Runtime} {g : Graph} {src : EntitySelector} {es es' : List Entity}
    (h : selectFrom rt g src = .ok es) (h' : selectFrom rt' g src = .ok es') : es'.Perm es := by
  cases src with
  | type t =>
    unfold selectFrom at h h'
    dsimp only at h h'
    split at h
    · split at h'
      · cases h; cases h'; exact List.Perm.refl _
      · cases h'
    · cases h
  | all =>
    unfold selectFrom at h h'
    cases h
    cases h'
    exact List.Perm.flatMap_right _ ((rt'.order_perm _ _).trans (rt.order_perm _ _).symm)

/-- C166, part: a query that follows references but has nothing else to do with ids gives the same entities under
their new names, and as many. Missing: the order, and with it what `limit` leaves over. -/
theorem C166_follow_partial (hρ : KeepsApart ρ) (env : Env) (rt rt' : Runtime) (ops : List GOp) (q : Query)
    (ho : ∀ o ∈ q.operations, FollowsOnly (accepted ops) o) {r r' : QueryResult}
    (h : q.execute env rt (Graph.run ops) = .ok r)
    (h' : q.execute env rt' (Graph.run (ops.map (renamedOp ρ))) = .ok r') :
    (q.aggregation = none → ∃ es es', r = .entities es ∧ r' = .entities es' ∧
      es'.Perm (es.map (renamedEntity ρ))) ∧
    (∀ f, q.aggregation = some (.count f) → r' = r) := by
  unfold Query.execute at h h'
  cases hs : selectFrom rt (Graph.run ops) q.source with
  | error e => simp only [hs] at h; cases h
  | ok es =>
    cases hs' : selectFrom rt' (Graph.run (ops.map (renamedOp ρ))) q.source with
    | error e => simp only [hs'] at h'; cases h'
    | ok es' =>
      simp only [hs] at h
      simp only [hs'] at h'
      have hp : es'.Perm (es.map (renamedEntity ρ)) := by
        rw [run_renamed hρ] at hs'
        have hm := selectFrom_renamed (ρ := ρ) rt (Graph.run ops) q.source
        rw [hs] at hm
        exact selectFrom_perm hm hs'
      cases h1 : applyOperations env rt (Graph.run ops) q.operations es with
      | error e => simp only [h1] at h; cases h
      | ok l =>
        cases h2 : applyOperations env rt' (Graph.run (ops.map (renamedOp ρ))) q.operations es' with
        | error e => simp only [h2] at h'; cases h'
        | ok l' =>
          simp only [h1] at h
          simp only [h2] at h'
          have hl := applyOperations_follows hρ ho (Bag.selectFrom (Inv.run ops) rt q.source hs) hp h1 h2
          refine ⟨fun hag => ?_, fun f hag => ?_⟩
          · rw [hag] at h h'
            cases h
            cases h'
            exact ⟨l, l', rfl, rfl, hl⟩
          · rw [hag] at h h'
            simp only [Aggregation.execute] at h h'
            cases h
            cases h'
            have hc : ∀ x : List Entity, executeCount f (x.map (renamedEntity ρ)) = executeCount f x := by
              intro x
              have := aggregation_noIds (ρ := ρ) (env := env) (all := x) (es := x) (.count (f := f)) fun e he => he
              simpa [Aggregation.execute] using this
            rw [← hc l]
            unfold executeCount
            cases f with
            | none => dsimp only; rw [hl.length_eq]
            | some f =>
              cases f with
              | metadata m => dsimp only; rw [hl.length_eq]
              | regular f => dsimp only; rw [(hl.filter _).length_eq]

/-! ## What is not so -/

/-- Two names exchanged. -/
def exchanged (p q id : EntityId) : EntityId := if id = p then q else if id = q then p else id

theorem exchanged_twice (p q id : EntityId) : exchanged p q (exchanged p q id) = id := by
  unfold exchanged
  by_cases h1 : id = p
  · rw [if_pos h1]
    by_cases h2 : q = p
    · rw [if_pos h2, h1, h2]
    · rw [if_neg h2, if_pos rfl, h1]
  · rw [if_neg h1]
    by_cases h2 : id = q
    · rw [if_pos h2, if_pos rfl, h2]
    · rw [if_neg h2, if_neg h1, if_neg h2]

theorem exchanged_apart (p q : EntityId) : KeepsApart (exchanged p q) := by
  intro a b h
  rw [← exchanged_twice p q a, h, exchanged_twice]

def exSwapped : EntityId → EntityId := exchanged "person.alice".toList "person.zoe".toList

/-- Three entities, of which one refers to the others. -/
def exNamedOps : List GOp :=
  [.addAll [exAlice, exBob, ⟨"task.t".toList, "task".toList,
    [("who".toList, .reference (.entity "person.alice".toList)),
     ("other".toList, .reference (.entity "person.bob".toList))]⟩], .build]

/-- C166 is false: the entities linked with an entity are listed in the order of their names. -/
theorem C166_resorted : ∃ l l', (Graph.run exNamedOps).getRelated "task.t".toList none = some l ∧
    (Graph.run (exNamedOps.map (renamedOp exSwapped))).getRelated (exSwapped "task.t".toList) none = some l' ∧
    l' ≠ l.map (renamedEntity exSwapped) :=
  ⟨_, _, rfl, rfl, by decide +kernel⟩

/-! ## The hypotheses can be met -/

example : KeepsApart exSwapped := exchanged_apart _ _
example : NoIds (accepted exNamedOps) (.regular "name".toList) := by
  refine .field fun e he v hv id hr => ?_
  have : ∀ e ∈ accepted exNamedOps, ∀ v, e.getField "name".toList = some v → v.getType = .string := by decide +kernel
  have ht := this e he v hv
  cases hr <;> simp [FieldValue.getType] at ht
example : NoIdsClause (accepted exNamedOps) (.limit 2) := .limit
example : NoIdsAggregation (accepted exNamedOps) (some (.count none)) := .count
example : FollowsOnly (accepted exNamedOps) (.related 1 none) := .related
example : renamedEntity exSwapped exBob = exBob ∧ (renamedEntity exSwapped exAlice).id = "person.zoe".toList := by
  decide +kernel

end Firm
