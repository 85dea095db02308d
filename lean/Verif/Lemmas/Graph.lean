import Verif.Spec.Graph
import Verif.Lemmas.Order
import Verif.Lemmas.Sort

/-! Invariants of the entity graph and characterisations of its observers. -/

namespace Firm
open Spec

theorem lookup_typePush (m : List (EntityType × List Nat)) (t : EntityType) (i : Nat)
    (t' : EntityType) :
    (typePush m t i).lookup t' =
      if t' = t then some (((m.lookup t).getD []) ++ [i]) else m.lookup t' := by
  induction m with
  | nil => 
    simp only [typePush, List.lookup_cons, List.lookup_nil]
    by_cases h : t' = t
    · simp [h]
    · have : (t' == t) = false := by simp [h]
      simp [h, this]
  | cons p m ih =>
    obtain ⟨k, v⟩ := p
    simp only [typePush]
    by_cases hk : k = t
    · subst hk
      by_cases h : t' = k
      · subst h; simp
      · have : (t' == k) = false := by simp [h]
        simp [List.lookup_cons, this, h]
    · have hk' : (k == t) = false := by simp [hk]
      simp only [hk', Bool.false_eq_true, if_false, List.lookup_cons]
      by_cases h : t' = k
      · subst h; simp [hk]
      · have h' : (t' == k) = false := by simp [h]
        have hk2 : (t == k) = false := by simp [Ne.symm hk]
        simp only [h', ih, hk2]

theorem keys_typePush_mem (m : List (EntityType × List Nat)) (t : EntityType) (i : Nat)
    (t' : EntityType) : t' ∈ (typePush m t i).map (·.1) ↔ t' = t ∨ t' ∈ m.map (·.1) := by
  induction m with
  | nil => simp [typePush]
  | cons p m ih =>
    obtain ⟨k, v⟩ := p
    simp only [typePush]
    by_cases hk : k = t
    · subst hk; simp
    · have hk' : (k == t) = false := by simp [hk]
      simp only [hk', Bool.false_eq_true, if_false, List.map_cons, List.mem_cons, ih]
      grind

theorem keys_typePush_nodup (m : List (EntityType × List Nat)) (t : EntityType) (i : Nat)
    (h : (m.map (·.1)).Nodup) : ((typePush m t i).map (·.1)).Nodup := by
  induction m with
  | nil => simp [typePush]
  | cons p m ih =>
    obtain ⟨k, v⟩ := p
    simp only [typePush]
    simp only [List.map_cons, List.nodup_cons] at h
    by_cases hk : k = t
    · subst hk; simpa using h
    · have hk' : (k == t) = false := by simp [hk]
      simp only [hk', Bool.false_eq_true, if_false, List.map_cons, List.nodup_cons]
      refine ⟨?_, ih h.2⟩
      rw [keys_typePush_mem]
      rintro (h' | h')
      · exact hk h'
      · exact h.1 h'

theorem lookup_isSome_iff_mem_keys {α : Type} {β : Type} [BEq α] [LawfulBEq α]
    (m : List (α × β)) (t : α) : (m.lookup t).isSome ↔ t ∈ m.map (·.1) := by
  induction m with
  | nil => simp
  | cons p m ih =>
    obtain ⟨k, v⟩ := p
    simp only [List.lookup_cons, List.map_cons, List.mem_cons]
    by_cases h : t = k
    · subst h; simp
    · have : (t == k) = false := by simp [h]
      simp [this, ih, h]

/-- The id map determined by the nodes. -/
def idMapOf (nodes : List Entity) : List (EntityId × Nat) :=
  (nodes.zipIdx.map fun p => (p.1.id, p.2)).reverse

/-- The type map determined by the nodes. -/
def typeMapOf (nodes : List Entity) : List (EntityType × List Nat) :=
  nodes.zipIdx.foldl (fun m p => typePush m p.1.entityType p.2) []

theorem idMapOf_snoc (ns : List Entity) (e : Entity) :
    idMapOf (ns ++ [e]) = (e.id, ns.length) :: idMapOf ns := by
  simp [idMapOf, List.zipIdx_append]

theorem typeMapOf_snoc (ns : List Entity) (e : Entity) :
    typeMapOf (ns ++ [e]) = typePush (typeMapOf ns) e.entityType ns.length := by
  simp [typeMapOf, List.zipIdx_append, List.foldl_append]

/-- Invariant of every reachable graph. -/
structure Inv (g : Graph) : Prop where
  idMapEq : g.idMap = idMapOf g.nodes
  typeMapEq : g.typeMap = typeMapOf g.nodes
  nodup : (g.nodes.map (·.id)).Nodup
  idMap : ∀ id i, g.idMap.lookup id = some i ↔ ∃ e, g.nodes[i]? = some e ∧ e.id = id
  types : ∀ t, ((g.typeMap.lookup t).getD []).map (g.nodes[·]?) =
    (g.nodes.filter (·.entityType == t)).map some
  typesNonempty : ∀ t ns, g.typeMap.lookup t = some ns → ns ≠ []
  typeKeys : (g.typeMap.map (·.1)).Nodup
  edges : ∀ ed ∈ g.edges, ed ∈ edgesToAdd g.idMap g.nodes

theorem Inv.lookup_isSome {g : Graph} (h : Inv g) (id : EntityId) :
    (g.idMap.lookup id).isSome ↔ ∃ e ∈ g.nodes, e.id = id := by
  rw [Option.isSome_iff_exists]
  constructor
  · rintro ⟨i, hi⟩
    obtain ⟨e, he, hid⟩ := (h.idMap id i).1 hi
    exact ⟨e, List.mem_of_getElem? he, hid⟩
  · rintro ⟨e, he, hid⟩
    obtain ⟨i, hi⟩ := List.getElem?_of_mem he
    exact ⟨i, (h.idMap id i).2 ⟨e, hi, hid⟩⟩

theorem Inv.empty : Inv Graph.empty where
  idMapEq := rfl
  typeMapEq := rfl
  nodup := by simp [Graph.empty]
  idMap := by simp [Graph.empty]
  types := by simp [Graph.empty]
  typesNonempty := by simp [Graph.empty]
  typeKeys := by simp [Graph.empty]
  edges := by simp [Graph.empty]

/-! ### Monotonicity of the collected edges -/

mutual
theorem collect_mono {m m' : List (EntityId × Nat)}
    (h : ∀ id i, m.lookup id = some i → m'.lookup id = some i) (src : Nat) (f : FieldId) :
    ∀ v ed, ed ∈ collect m src f v → ed ∈ collect m' src f v
  | .reference (.entity t), ed, hed => by
    simp only [collect] at hed ⊢
    cases hm : m.lookup t with
    | none => simp [hm] at hed
    | some i => rw [h _ _ hm]; simpa [hm] using hed
  | .reference (.field t tf), ed, hed => by
    simp only [collect] at hed ⊢
    cases hm : m.lookup t with
    | none => simp [hm] at hed
    | some i => rw [h _ _ hm]; simpa [hm] using hed
  | .list items, ed, hed => by
    simp only [collect] at hed ⊢
    exact collectList_mono h src f items ed hed
  | .boolean _, ed, hed | .string _, ed, hed | .integer _, ed, hed | .float _, ed, hed
  | .currency _ _, ed, hed | .dateTime _, ed, hed | .path _, ed, hed | .enum _, ed, hed => by
    simp [collect] at hed
theorem collectList_mono {m m' : List (EntityId × Nat)}
    (h : ∀ id i, m.lookup id = some i → m'.lookup id = some i) (src : Nat) (f : FieldId) :
    ∀ vs ed, ed ∈ collectList m src f vs → ed ∈ collectList m' src f vs
  | [], ed, hed => by simp [collectList] at hed
  | v :: vs, ed, hed => by
    simp only [collectList, List.mem_append] at hed ⊢
    rcases hed with hed | hed
    · exact .inl (collect_mono h src f v ed hed)
    · exact .inr (collectList_mono h src f vs ed hed)
end

theorem mem_edgesToAdd {m : List (EntityId × Nat)} {nodes : List Entity} {ed : Edge} :
    ed ∈ edgesToAdd m nodes ↔
      ∃ e i, nodes[i]? = some e ∧ ∃ p ∈ e.fields, ed ∈ collect m i p.1 p.2 := by
  simp only [edgesToAdd, entityEdges, List.mem_flatMap]
  constructor
  · rintro ⟨⟨e, i⟩, hp, hed⟩
    rw [List.mem_zipIdx_iff_getElem?] at hp
    exact ⟨e, i, hp, hed⟩
  · rintro ⟨e, i, hi, hed⟩
    exact ⟨(e, i), List.mem_zipIdx_iff_getElem?.2 hi, hed⟩

/-! ### The mutators preserve the invariant -/

theorem addEntity_eq {g : Graph} (h : Inv g) (e : Entity) :
    g.addEntity e =
      if ∃ a ∈ g.nodes, a.id = e.id then (g, .error (.entityAlreadyExists e.id))
      else ({ g with
        nodes := g.nodes ++ [e]
        idMap := (e.id, g.nodes.length) :: g.idMap
        typeMap := typePush g.typeMap e.entityType g.nodes.length }, .ok ()) := by
  unfold Graph.addEntity
  by_cases hx : ∃ a ∈ g.nodes, a.id = e.id
  · have := (h.lookup_isSome e.id).2 hx; simp only [this, if_true, hx]
  · have : ¬ (g.idMap.lookup e.id).isSome := fun hc => hx ((h.lookup_isSome e.id).1 hc)
    simp only [this, hx, if_false]; rfl

theorem Inv.addEntity {g : Graph} (h : Inv g) (e : Entity) : Inv (g.addEntity e).1 := by
  rw [addEntity_eq h]
  by_cases hx : ∃ a ∈ g.nodes, a.id = e.id
  · simpa only [hx, if_true] using h
  · simp only [hx, if_false]
    have hnone : g.idMap.lookup e.id = none := by
      cases hl : g.idMap.lookup e.id with
      | none => rfl
      | some i => exact absurd ((h.lookup_isSome e.id).1 (by simp [hl])) hx
    have hget : ∀ (i : Nat) (a : Entity), g.nodes[i]? = some a → (g.nodes ++ [e])[i]? = some a := by
      intro i a hi
      have : i < g.nodes.length := by
        rw [List.getElem?_eq_some_iff] at hi; exact hi.1
      rw [List.getElem?_append_left this]; exact hi
    have hid : ∀ id i, List.lookup id ((e.id, g.nodes.length) :: g.idMap) = some i ↔
        ∃ a, (g.nodes ++ [e])[i]? = some a ∧ a.id = id := by
      intro id i
      rw [List.lookup_cons]
      by_cases hc : id = e.id
      · subst hc
        simp only [beq_self_eq_true]
        constructor
        · intro hi; simp at hi; subst hi
          exact ⟨e, by simp, rfl⟩
        · rintro ⟨a, ha, hae⟩
          by_cases hlt : i < g.nodes.length
          · rw [List.getElem?_append_left hlt] at ha
            exact absurd ⟨a, List.mem_of_getElem? ha, hae⟩ hx
          · have hi : i < (g.nodes ++ [e]).length := (List.getElem?_eq_some_iff.1 ha).1
            simp at hi
            congr 1; omega
      · have hc' : (id == e.id) = false := by simp [hc]
        simp only [hc', h.idMap]
        constructor
        · rintro ⟨a, ha, hae⟩; exact ⟨a, hget i a ha, hae⟩
        · rintro ⟨a, ha, hae⟩
          by_cases hlt : i < g.nodes.length
          · rw [List.getElem?_append_left hlt] at ha; exact ⟨a, ha, hae⟩
          · rw [List.getElem?_append_right (by omega)] at ha
            have : a = e := by
              have := List.mem_of_getElem? ha
              simpa using this
            subst this; exact absurd hae.symm hc
    refine ⟨?_, ?_, ?_, hid, ?_, ?_, ?_, ?_⟩
    · rw [idMapOf_snoc, h.idMapEq]
    · rw [typeMapOf_snoc, h.typeMapEq]
    · rw [List.map_append, List.nodup_append]
      refine ⟨h.nodup, by simp, ?_⟩
      intro a ha b hb
      simp only [List.map_cons, List.map_nil, List.mem_singleton] at hb
      subst hb
      rintro rfl
      obtain ⟨x, hx1, hx2⟩ := List.mem_map.1 ha
      exact hx ⟨x, hx1, hx2⟩
    · intro t
      simp only
      rw [lookup_typePush]
      have old : ∀ t, ((g.typeMap.lookup t).getD []).map ((g.nodes ++ [e])[·]?) =
          (g.nodes.filter (·.entityType == t)).map some := by
        intro t
        rw [← h.types t]
        apply List.map_congr_left
        intro i hi
        have hm : g.nodes[i]? ∈ (g.nodes.filter (·.entityType == t)).map some := by
          rw [← h.types t]; exact List.mem_map.2 ⟨i, hi, rfl⟩
        obtain ⟨a, _, ha⟩ := List.mem_map.1 hm
        rw [hget i a ha.symm, ← ha]
      by_cases hc : t = e.entityType
      · subst hc
        rw [List.filter_append, List.map_append, ← old]
        simp
      · have hc' : (e.entityType == t) = false := by simp [Ne.symm hc]
        rw [if_neg hc, old, List.filter_append, List.map_append]
        simp [hc']
    · intro t ns
      rw [lookup_typePush]
      by_cases hc : t = e.entityType
      · rw [if_pos hc]; intro h2; simp at h2; rw [← h2]; simp
      · rw [if_neg hc]; exact h.typesNonempty t ns
    · exact keys_typePush_nodup _ _ _ h.typeKeys
    · intro ed hed
      obtain ⟨a, i, hi, p, hp, hc⟩ := mem_edgesToAdd.1 (h.edges ed hed)
      refine mem_edgesToAdd.2 ⟨a, i, hget i a hi, p, hp, collect_mono ?_ _ _ _ _ hc⟩
      intro id j hj
      rw [List.lookup_cons]
      by_cases hcid : id = e.id
      · subst hcid; rw [hnone] at hj; simp at hj
      · have : (id == e.id) = false := by simp [hcid]
        simpa [this] using hj

theorem Inv.addEntities {g : Graph} (h : Inv g) (es : List Entity) :
    Inv (g.addEntities es).1 := by
  induction es generalizing g with
  | nil => exact h
  | cons e es ih =>
    unfold Graph.addEntities
    have h1 := h.addEntity e
    split
    · rename_i g' heq; rw [heq] at h1; exact ih h1
    · rename_i g' err heq; rw [heq] at h1; exact h1

theorem Inv.build {g : Graph} (h : Inv g) : Inv g.build where
  idMapEq := h.idMapEq
  typeMapEq := h.typeMapEq
  nodup := h.nodup
  idMap := h.idMap
  types := h.types
  typesNonempty := h.typesNonempty
  typeKeys := h.typeKeys
  edges := fun _ hed => hed

theorem Inv.step {g : Graph} (h : Inv g) (op : GOp) : Inv (g.step op) := by
  cases op with
  | add e => exact h.addEntity e
  | addAll es => exact h.addEntities es
  | build => exact h.build
  | clear => exact Inv.empty

theorem Inv.foldl {g : Graph} (h : Inv g) (ops : List GOp) : Inv (ops.foldl Graph.step g) := by
  induction ops generalizing g with
  | nil => exact h
  | cons op ops ih => exact ih (h.step op)

theorem Inv.run (ops : List GOp) : Inv (Graph.run ops) := Inv.foldl Inv.empty ops

/-! ### Refinement: the nodes are the accepted entities -/

theorem nodes_addEntity {g : Graph} (h : Inv g) (e : Entity) :
    (g.addEntity e).1.nodes = acceptOne g.nodes e := by
  rw [addEntity_eq h]; unfold acceptOne
  by_cases hx : ∃ a ∈ g.nodes, a.id = e.id <;> simp [hx]

theorem nodes_addEntities {g : Graph} (h : Inv g) (es : List Entity) :
    (g.addEntities es).1.nodes = acceptAll g.nodes es := by
  induction es generalizing g with
  | nil => rfl
  | cons e es ih =>
    unfold Graph.addEntities acceptAll
    have h1 := h.addEntity e
    rw [addEntity_eq h] at h1 ⊢
    by_cases hx : ∃ a ∈ g.nodes, a.id = e.id
    · simp only [hx, if_true]
    · simp only [hx, if_false] at h1 ⊢
      exact ih h1

theorem nodes_step {g : Graph} (h : Inv g) (op : GOp) :
    (g.step op).nodes = accept g.nodes op := by
  cases op with
  | add e => exact nodes_addEntity h e
  | addAll es => exact nodes_addEntities h es
  | build => rfl
  | clear => rfl

theorem nodes_foldl {g : Graph} (h : Inv g) (ops : List GOp) :
    (ops.foldl Graph.step g).nodes = ops.foldl accept g.nodes := by
  induction ops generalizing g with
  | nil => rfl
  | cons op ops ih => simp only [List.foldl_cons]; rw [ih (h.step op), nodes_step h]

theorem nodes_run (ops : List GOp) : (Graph.run ops).nodes = accepted ops :=
  nodes_foldl Inv.empty ops

theorem run_snoc (ops : List GOp) (op : GOp) :
    Graph.run (ops ++ [op]) = (Graph.run ops).step op := by
  simp [Graph.run, List.foldl_append]

theorem accepted_snoc (ops : List GOp) (op : GOp) :
    accepted (ops ++ [op]) = accept (accepted ops) op := by
  simp [accepted, List.foldl_append]

/-! ### Observers -/

theorem Inv.getEntity_iff {g : Graph} (h : Inv g) (id : EntityId) (e : Entity) :
    g.getEntity id = some e ↔ e ∈ g.nodes ∧ e.id = id := by
  unfold Graph.getEntity
  rw [Option.bind_eq_some_iff]
  constructor
  · rintro ⟨i, hi, he⟩
    obtain ⟨a, ha, haid⟩ := (h.idMap id i).1 hi
    rw [ha] at he; cases he
    exact ⟨List.mem_of_getElem? ha, haid⟩
  · rintro ⟨he, hid⟩
    obtain ⟨i, hi⟩ := List.getElem?_of_mem he
    exact ⟨i, (h.idMap id i).2 ⟨e, hi, hid⟩, hi⟩

theorem Inv.id_inj {g : Graph} (h : Inv g) {a b : Entity} (ha : a ∈ g.nodes) (hb : b ∈ g.nodes)
    (hab : a.id = b.id) : a = b := by
  have h1 := (h.getEntity_iff a.id a).2 ⟨ha, rfl⟩
  have h2 := (h.getEntity_iff a.id b).2 ⟨hb, hab.symm⟩
  rw [h1] at h2; exact Option.some.inj h2

theorem Inv.listByType_eq {g : Graph} (h : Inv g) (t : EntityType) :
    g.listByType t = g.nodes.filter (·.entityType == t) := by
  have ht := h.types t
  have key : ∀ (l : List Nat) (r : List Entity),
      l.map (g.nodes[·]?) = r.map some → l.filterMap (fun i => g.nodes[i]?) = r := by
    intro l
    induction l with
    | nil => intro r hr; cases r <;> simp_all
    | cons i l ih =>
      intro r hr
      cases r with
      | nil => simp at hr
      | cons a r =>
        simp only [List.map_cons, List.cons.injEq] at hr
        rw [List.filterMap_cons, hr.1]
        simp [ih r hr.2]
  unfold Graph.listByType
  split
  · rename_i ns hns; rw [hns] at ht; exact key _ _ ht
  · rename_i hns; rw [hns] at ht; exact key _ _ ht

/-- Edge from `a` to `b`, seen through the nodes. -/
def Linked (g : Graph) (a b : Entity) : Prop :=
  ∃ ed ∈ g.edges, g.nodes[ed.src]? = some a ∧ g.nodes[ed.dst]? = some b

theorem Inv.idx_unique {g : Graph} (h : Inv g) {i j : Nat} {a : Entity}
    (hi : g.nodes[i]? = some a) (hj : g.nodes[j]? = some a) : i = j := by
  have h1 := (h.idMap a.id i).2 ⟨a, hi, rfl⟩
  have h2 := (h.idMap a.id j).2 ⟨a, hj, rfl⟩
  rw [h1] at h2; exact Option.some.inj h2

theorem Inv.mem_targets {g : Graph} (h : Inv g) {n : Nat} {a : Entity}
    (hn : g.nodes[n]? = some a) (b : Entity) : b ∈ g.targets n ↔ Linked g a b := by
  unfold Graph.targets Linked
  simp only [List.mem_filterMap, List.mem_filter, List.mem_reverse, beq_iff_eq]
  constructor
  · rintro ⟨ed, ⟨hed, hs⟩, hd⟩; exact ⟨ed, hed, by rw [hs]; exact hn, hd⟩
  · rintro ⟨ed, hed, hs, hd⟩; exact ⟨ed, ⟨hed, h.idx_unique hs hn⟩, hd⟩

theorem Inv.mem_sources {g : Graph} (h : Inv g) {n : Nat} {a : Entity}
    (hn : g.nodes[n]? = some a) (b : Entity) : b ∈ g.sources n ↔ Linked g b a := by
  unfold Graph.sources Linked
  simp only [List.mem_filterMap, List.mem_filter, List.mem_reverse, beq_iff_eq]
  constructor
  · rintro ⟨ed, ⟨hed, hs⟩, hd⟩; exact ⟨ed, hed, hd, by rw [hs]; exact hn⟩
  · rintro ⟨ed, hed, hs, hd⟩; exact ⟨ed, ⟨hed, h.idx_unique hd hn⟩, hs⟩

/-! ### Sorting and removing duplicates -/

/-- Strictly increasing by id. -/
def StrictById (l : List Entity) : Prop := l.Pairwise fun a b => strCmp a.id b.id = .lt

theorem mem_sortById (l : List Entity) (e : Entity) : e ∈ sortById l ↔ e ∈ l := by
  unfold sortById; exact (stableSort_perm _ l).mem_iff

theorem sortById_sorted (l : List Entity) :
    (sortById l).Pairwise fun a b => (strCmp a.id b.id).isLE := by
  have h : TotalPreorderOn (fun a b : Entity => (strCmp a.id b.id).isLE) (fun _ => True) :=
    ⟨fun a b _ _ => by simpa using strCmp_le_total a.id b.id,
     fun a b c _ _ _ h1 h2 => strCmp_isLE_trans h1 h2⟩
  exact stableSort_sorted h (fun _ _ => trivial)

theorem mem_dedupFrom_of {cur : Entity} {l : List Entity} {e : Entity} (h : e ∈ dedupFrom cur l) :
    e ∈ cur :: l := by
  induction l generalizing cur with
  | nil => exact h
  | cons a l ih =>
    unfold dedupFrom at h
    split at h
    · have := ih h
      simp only [List.mem_cons] at this ⊢; rcases this with h | h <;> simp [h]
    · rcases List.mem_cons.1 h with h | h
      · simp [h]
      · exact List.mem_cons_of_mem _ (ih h)

theorem mem_dedupById_of {l : List Entity} {e : Entity} (h : e ∈ dedupById l) : e ∈ l := by
  cases l with
  | nil => exact h
  | cons a l => exact mem_dedupFrom_of h

theorem mem_dedupFrom_id {cur : Entity} {l : List Entity} {e : Entity} (h : e ∈ cur :: l) :
    ∃ e' ∈ dedupFrom cur l, e'.id = e.id := by
  induction l generalizing cur e with
  | nil => exact ⟨e, h, rfl⟩
  | cons a l ih =>
    unfold dedupFrom
    split
    · rename_i heq
      simp only [List.mem_cons] at h
      rcases h with h | h | h
      · subst h; exact ih (by simp)
      · subst h
        obtain ⟨e', h1, h2⟩ := ih (cur := cur) (e := cur) (by simp)
        exact ⟨e', h1, by rw [h2]; simpa using heq⟩
      · exact ih (by simp [h])
    · rcases List.mem_cons.1 h with h | h
      · subst h; exact ⟨e, by simp, rfl⟩
      · obtain ⟨e', h1, h2⟩ := ih h
        exact ⟨e', by simp [h1], h2⟩

theorem mem_dedupById_id {l : List Entity} {e : Entity} (h : e ∈ l) :
    ∃ e' ∈ dedupById l, e'.id = e.id := by
  cases l with
  | nil => simp at h
  | cons a l => exact mem_dedupFrom_id h

theorem dedupFrom_strict {cur : Entity} {l : List Entity}
    (h : (cur :: l).Pairwise fun a b => (strCmp a.id b.id).isLE) :
    StrictById (dedupFrom cur l) := by
  induction l generalizing cur with
  | nil => exact List.pairwise_singleton _ _
  | cons e2 es ih =>
    have hc := List.pairwise_cons.1 h
    unfold dedupFrom
    split
    · apply ih
      exact List.pairwise_cons.2 ⟨fun a ha => hc.1 a (by simp [ha]), (List.pairwise_cons.1 hc.2).2⟩
    · rename_i hne
      refine List.pairwise_cons.2 ⟨?_, ih hc.2⟩
      intro b hb
      have hb' := mem_dedupFrom_of hb
      have h12 := hc.1 e2 (by simp)
      have hlt : strCmp cur.id e2.id = .lt := by
        cases hc : strCmp cur.id e2.id with
        | lt => rfl
        | eq => rw [strCmp_eq_iff] at hc; simp [hc] at hne
        | gt => rw [hc] at h12; simp at h12
      rcases List.mem_cons.1 hb' with rfl | hb''
      · exact hlt
      · have := (List.pairwise_cons.1 hc.2).1 b hb''
        exact Std.TransCmp.lt_of_lt_of_isLE hlt this

theorem dedupById_strict {l : List Entity}
    (h : l.Pairwise fun a b => (strCmp a.id b.id).isLE) : StrictById (dedupById l) := by
  cases l with
  | nil => exact List.Pairwise.nil
  | cons a l => exact dedupFrom_strict h

theorem StrictById.nodup {l : List Entity} (h : StrictById l) : (l.map (·.id)).Nodup := by
  unfold List.Nodup
  rw [List.pairwise_map]
  exact h.imp fun {a b} hab heq => by rw [heq, strCmp_refl] at hab; exact absurd hab (by decide)

/-- Two strictly increasing lists with the same members are equal. -/
theorem StrictById.ext {l l' : List Entity} (h : StrictById l) (h' : StrictById l')
    (hm : ∀ e, e ∈ l ↔ e ∈ l') : l = l' := by
  induction l generalizing l' with
  | nil =>
    cases l' with
    | nil => rfl
    | cons b l' => exact absurd ((hm b).2 (by simp)) (by simp)
  | cons a l ih =>
    cases l' with
    | nil => exact absurd ((hm a).1 (by simp)) (by simp)
    | cons b l' =>
      have ha := List.pairwise_cons.1 h
      have hb := List.pairwise_cons.1 h'
      have hab : a = b := by
        rcases List.mem_cons.1 ((hm a).1 (by simp)) with h1 | h1
        · exact h1
        rcases List.mem_cons.1 ((hm b).2 (by simp)) with h2 | h2
        · exact h2.symm
        have := strCmp_lt_trans (ha.1 b h2) (hb.1 a h1)
        exact absurd this (strCmp_lt_irrefl _)
      subst hab
      congr 1
      apply ih ha.2 hb.2
      intro e
      have hne : ∀ x ∈ l, x ≠ a := fun x hx hxa => by
        have := ha.1 x hx; rw [hxa] at this; exact strCmp_lt_irrefl _ this
      have hne' : ∀ x ∈ l', x ≠ a := fun x hx hxa => by
        have := hb.1 x hx; rw [hxa] at this; exact strCmp_lt_irrefl _ this
      constructor
      · intro he
        rcases List.mem_cons.1 ((hm e).1 (by simp [he])) with h1 | h1
        · exact absurd h1 (hne e he)
        · exact h1
      · intro he
        rcases List.mem_cons.1 ((hm e).2 (by simp [he])) with h1 | h1
        · exact absurd h1 (hne' e he)
        · exact h1

/-- Members of `dedup ∘ sort` of a list of graph nodes. -/
theorem Inv.mem_dedup_sort {g : Graph} (h : Inv g) {l : List Entity}
    (hl : ∀ e ∈ l, e ∈ g.nodes) (e : Entity) : e ∈ dedupById (sortById l) ↔ e ∈ l := by
  constructor
  · intro he; exact (mem_sortById l e).1 (mem_dedupById_of he)
  · intro he
    obtain ⟨e', h1, h2⟩ := mem_dedupById_id ((mem_sortById l e).2 he)
    have h3 := (mem_sortById l e').1 (mem_dedupById_of h1)
    have := h.id_inj (hl _ h3) (hl _ he) h2
    rwa [this] at h1

/-- The direction relation between entities. -/
def LinkedDir (g : Graph) (dir : Option Direction) (a b : Entity) : Prop :=
  match dir with
  | some .outgoing => Linked g a b
  | some .incoming => Linked g b a
  | none => Linked g a b ∨ Linked g b a

theorem Linked.mem_left {g : Graph} {a b : Entity} (h : Linked g a b) : a ∈ g.nodes := by
  obtain ⟨ed, _, h1, _⟩ := h; exact List.mem_of_getElem? h1
theorem Linked.mem_right {g : Graph} {a b : Entity} (h : Linked g a b) : b ∈ g.nodes := by
  obtain ⟨ed, _, _, h1⟩ := h; exact List.mem_of_getElem? h1

theorem Inv.getRelated_none {g : Graph} (h : Inv g) (id : EntityId) (dir : Option Direction) :
    g.getRelated id dir = none ↔ ¬ ∃ e ∈ g.nodes, e.id = id := by
  unfold Graph.getRelated
  rw [← h.lookup_isSome]
  cases g.idMap.lookup id <;> simp

theorem Inv.getRelated_some {g : Graph} (h : Inv g) {a : Entity} (ha : a ∈ g.nodes)
    (dir : Option Direction) :
    ∃ l, g.getRelated a.id dir = some l ∧ StrictById l ∧ ∀ b, b ∈ l ↔ LinkedDir g dir a b := by
  obtain ⟨n, hn⟩ := List.getElem?_of_mem ha
  have hl := (h.idMap a.id n).2 ⟨a, hn, rfl⟩
  unfold Graph.getRelated
  rw [hl]
  refine ⟨_, rfl, dedupById_strict (sortById_sorted _), ?_⟩
  intro b
  have mt := h.mem_targets hn
  have ms := h.mem_sources hn
  cases dir with
  | none =>
    rw [h.mem_dedup_sort]
    · simp only [List.mem_append, mt, ms]; rfl
    · intro e he
      simp only [List.mem_append, mt, ms] at he
      rcases he with he | he
      · exact he.mem_right
      · exact he.mem_left
  | some d =>
    cases d with
    | outgoing =>
      rw [h.mem_dedup_sort]
      · exact mt b
      · intro e he; exact ((mt e).1 he).mem_right
    | incoming =>
      rw [h.mem_dedup_sort]
      · exact ms b
      · intro e he; exact ((ms e).1 he).mem_left

/-! ### Edges after build -/

mutual
theorem mem_collect_dst {m : List (EntityId × Nat)} {src : Nat} {f : FieldId} :
    ∀ v ed, ed ∈ collect m src f v →
      ed.src = src ∧ ∃ id, HoldsRef v id ∧ m.lookup id = some ed.dst
  | .reference (.entity t), ed, hed => by
    simp only [collect] at hed
    cases hm : m.lookup t with
    | none => simp [hm] at hed
    | some i =>
      simp [hm] at hed; subst hed
      exact ⟨rfl, t, HoldsRef.ref (.entity t), hm⟩
  | .reference (.field t tf), ed, hed => by
    simp only [collect] at hed
    cases hm : m.lookup t with
    | none => simp [hm] at hed
    | some i =>
      simp [hm] at hed; subst hed
      exact ⟨rfl, t, HoldsRef.ref (.field t tf), hm⟩
  | .list items, ed, hed => by
    simp only [collect] at hed
    obtain ⟨h1, v, hv, id, h2, h3⟩ := mem_collectList_dst items ed hed
    exact ⟨h1, id, HoldsRef.item _ v id hv h2, h3⟩
  | .boolean _, ed, hed | .string _, ed, hed | .integer _, ed, hed | .float _, ed, hed
  | .currency _ _, ed, hed | .dateTime _, ed, hed | .path _, ed, hed | .enum _, ed, hed => by
    simp [collect] at hed
theorem mem_collectList_dst {m : List (EntityId × Nat)} {src : Nat} {f : FieldId} :
    ∀ vs ed, ed ∈ collectList m src f vs →
      ed.src = src ∧ ∃ v ∈ vs, ∃ id, HoldsRef v id ∧ m.lookup id = some ed.dst
  | [], ed, hed => by simp [collectList] at hed
  | v :: vs, ed, hed => by
    simp only [collectList, List.mem_append] at hed
    rcases hed with hed | hed
    · obtain ⟨h1, id, h2, h3⟩ := mem_collect_dst v ed hed
      exact ⟨h1, v, by simp, id, h2, h3⟩
    · obtain ⟨h1, w, hw, id, h2, h3⟩ := mem_collectList_dst vs ed hed
      exact ⟨h1, w, by simp [hw], id, h2, h3⟩
end

theorem mem_collectList_of {m : List (EntityId × Nat)} {src : Nat} {f : FieldId}
    {vs : List FieldValue} {v : FieldValue} (hv : v ∈ vs) {ed : Edge}
    (h : ed ∈ collect m src f v) : ed ∈ collectList m src f vs := by
  induction vs with
  | nil => simp at hv
  | cons w vs ih =>
    simp only [collectList, List.mem_append]
    rcases List.mem_cons.1 hv with rfl | hv
    · exact .inl h
    · exact .inr (ih hv)

theorem exists_collect_of_holds {m : List (EntityId × Nat)} {src : Nat} {f : FieldId}
    {v : FieldValue} {id : EntityId} (h : HoldsRef v id) {i : Nat} (hi : m.lookup id = some i) :
    ∃ ed ∈ collect m src f v, ed.src = src ∧ ed.dst = i := by
  induction h with
  | ref r =>
    cases r with
    | entity t =>
      simp only [refTarget] at hi
      exact ⟨⟨src, i, .entityReference f⟩, by simp [collect, hi], rfl, rfl⟩
    | field t tf =>
      simp only [refTarget] at hi
      exact ⟨⟨src, i, .fieldReference f tf⟩, by simp [collect, hi], rfl, rfl⟩
  | item vs v id hv _ ih =>
    obtain ⟨ed, h1, h2⟩ := ih hi
    exact ⟨ed, by simp only [collect]; exact mem_collectList_of hv h1, h2⟩

theorem Inv.linked_sound {g : Graph} (h : Inv g) {a b : Entity} (hl : Linked g a b) :
    a ∈ g.nodes ∧ b ∈ g.nodes ∧ RefersTo a b.id := by
  refine ⟨hl.mem_left, hl.mem_right, ?_⟩
  obtain ⟨ed, hed, hs, hd⟩ := hl
  obtain ⟨e, i, hi, ⟨f, v⟩, hp, hc⟩ := mem_edgesToAdd.1 (h.edges ed hed)
  obtain ⟨h1, id, h2, h3⟩ := mem_collect_dst _ _ hc
  rw [h1, hi] at hs; cases hs
  obtain ⟨b', hb', hid⟩ := (h.idMap id ed.dst).1 h3
  rw [hd] at hb'; cases hb'
  exact ⟨f, v, hp, by rw [hid]; exact h2⟩

theorem Inv.linked_build {g : Graph} (h : Inv g) (a b : Entity) :
    Linked g.build a b ↔ a ∈ g.nodes ∧ b ∈ g.nodes ∧ RefersTo a b.id := by
  constructor
  · intro hl; exact h.build.linked_sound hl
  · rintro ⟨ha, hb, f, v, hp, hv⟩
    obtain ⟨i, hi⟩ := List.getElem?_of_mem ha
    obtain ⟨j, hj⟩ := List.getElem?_of_mem hb
    obtain ⟨ed, h1, h2, h3⟩ := exists_collect_of_holds (src := i) (f := f) hv
      ((h.idMap b.id j).2 ⟨b, hj, rfl⟩)
    exact ⟨ed, mem_edgesToAdd.2 ⟨a, i, hi, (f, v), hp, h1⟩, by rw [h2]; exact hi,
      by rw [h3]; exact hj⟩

theorem Linked.build {g : Graph} (h : Inv g) {a b : Entity} (hl : Linked g a b) :
    Linked g.build a b := (h.linked_build a b).2 (h.linked_sound hl)

end Firm
