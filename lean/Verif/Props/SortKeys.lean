import Verif.Props.Order
import Verif.Props.Aggregation
import Verif.Props.Query

/-!
# Sorting by several fields, and the first ones (C165)
-/

namespace Firm
open Spec

/-! ## Specification -/

/-- A field to sort by, and the direction. -/
abbrev Spec.SortKey := FieldRef × SortDirection

/-- `a` may stand before `b` when sorting by several fields: by the first field; where that does not tell them
apart, by the other ones. -/
def Spec.KeysInOrder (env : Env) : List SortKey → Entity → Entity → Prop
  | [], _, _ => True
  | k :: ks, a, b => InOrder env k.1 k.2 a b ∧ (Tied env k.1 a b → KeysInOrder env ks a b)

/-- None of the fields tells the two apart. -/
def Spec.TiedAll (env : Env) (keys : List SortKey) (a b : Entity) : Prop := ∀ k ∈ keys, Tied env k.1 a b

/-- The `order` clauses for these fields: the last clause is the one for the first field. -/
def Spec.orderClauses (keys : List SortKey) : List QueryOperation := keys.reverse.map fun k => .order k.1 k.2

/-! ## Lemmas -/

/-- The comparison by several fields. -/
def keysLe (env : Env) : List SortKey → Entity → Entity → Bool
  | [], _, _ => true
  | k :: ks, a, b => orderLe env k.1 k.2 a b && (!orderLe env k.1 k.2 b a || keysLe env ks a b)

/-- All fields are sortable. -/
def SortableKeys (env : Env) (keys : List SortKey) (P : Entity → Prop) : Prop :=
  ∀ k ∈ keys, TotalPreorderOn (orderLe env k.1 k.2) P

theorem keysLe_preorder {env : Env} {keys : List SortKey} {P : Entity → Prop} (h : SortableKeys env keys P) :
    TotalPreorderOn (keysLe env keys) P := by
  induction keys with
  | nil => exact ⟨fun _ _ _ _ => .inl rfl, fun _ _ _ _ _ _ _ _ => rfl⟩
  | cons k ks ih =>
    have hk := h k (by simp)
    have ih := ih fun k hk => h k (by simp [hk])
    constructor
    · intro a b ha hb
      have h1 := hk.total a b ha hb
      have h2 := ih.total a b ha hb
      simp only [keysLe]
      cases hx : orderLe env k.1 k.2 a b <;> cases hy : orderLe env k.1 k.2 b a <;> simp_all
    · intro a b c ha hb hc h1 h2
      simp only [keysLe, Bool.and_eq_true, Bool.or_eq_true, Bool.not_eq_true'] at *
      refine ⟨hk.trans a b c ha hb hc h1.1 h2.1, ?_⟩
      by_cases hca : orderLe env k.1 k.2 c a = true
      · right
        have hba := hk.trans b c a hb hc ha h2.1 hca
        have hcb := hk.trans c a b hc ha hb hca h1.1
        refine ih.trans a b c ha hb hc ?_ ?_
        · rcases h1.2 with h | h
          · rw [hba] at h; cases h
          · exact h
        · rcases h2.2 with h | h
          · rw [hcb] at h; cases h
          · exact h
      · left
        exact Bool.eq_false_iff.2 hca

theorem inOrder_tied {env : Env} {f : FieldRef} {d : SortDirection} {a b : Entity} :
    InOrder env f d a b ∧ InOrder env f d b a ↔ Tied env f a b := by
  unfold Tied
  cases d with
  | ascending => exact Iff.rfl
  | descending => exact and_comm

theorem keysLe_iff {env : Env} {keys : List SortKey} {es : List Entity} (h : ∀ k ∈ keys, OneKind k.1 es)
    {a b : Entity} (ha : a ∈ es) (hb : b ∈ es) : keysLe env keys a b = true ↔ KeysInOrder env keys a b := by
  induction keys with
  | nil => simp [keysLe, KeysInOrder]
  | cons k ks ih =>
    have hk := h k (by simp)
    have ih := ih fun k hk => h k (by simp [hk])
    simp only [keysLe, KeysInOrder, Bool.and_eq_true, Bool.or_eq_true, Bool.not_eq_true', ih]
    rw [← inOrder_tied (d := k.2), ← orderLe_inOrder env k.1 k.2 hk ha hb, ← orderLe_inOrder env k.1 k.2 hk hb ha]
    cases orderLe env k.1 k.2 a b <;> cases orderLe env k.1 k.2 b a <;> simp

theorem keysInOrder_both {env : Env} {keys : List SortKey} {a b : Entity} :
    KeysInOrder env keys a b ∧ KeysInOrder env keys b a ↔ TiedAll env keys a b := by
  induction keys with
  | nil => simp [KeysInOrder, TiedAll]
  | cons k ks ih =>
    have hs : Tied env k.1 a b ↔ Tied env k.1 b a := by unfold Tied; exact and_comm
    simp only [KeysInOrder, TiedAll, List.forall_mem_cons]
    rw [show (∀ x ∈ ks, Tied env x.1 a b) = TiedAll env ks a b from rfl, ← ih, ← inOrder_tied (d := k.2)] at *
    have hs' := hs
    rw [← inOrder_tied (d := k.2) (a := b)] at hs'
    constructor
    · rintro ⟨⟨h1, h2⟩, h3, h4⟩
      exact ⟨⟨h1, h3⟩, h2 ⟨h1, h3⟩, h4 (hs.1 ⟨h1, h3⟩)⟩
    · rintro ⟨⟨h1, h3⟩, h2, h4⟩
      exact ⟨⟨h1, fun _ => h2⟩, h3, fun _ => h4⟩

open Classical in
theorem keysLe_equiv {env : Env} {keys : List SortKey} {es : List Entity} (h : ∀ k ∈ keys, OneKind k.1 es)
    {x e : Entity} (hx : x ∈ es) (he : e ∈ es) :
    decide (TiedAll env keys x e) = equivTo (keysLe env keys) x e := by
  rw [Bool.eq_iff_iff, decide_eq_true_eq]
  unfold equivTo
  rw [Bool.and_eq_true, keysLe_iff h he hx, keysLe_iff h hx he, ← keysInOrder_both]
  exact and_comm

theorem keys_sortable {env : Env} {keys : List SortKey} {es : List Entity} (h : ∀ k ∈ keys, OneKind k.1 es) :
    SortableKeys env keys (· ∈ es) := by
  intro k hk
  obtain ⟨t, fl, hs⟩ := oneKind_sortable (h k hk)
  exact (orderLe_preorder env k.1 k.2 t fl).mono hs

theorem oneKind_perm {f : FieldRef} {es es' : List Entity} (h : OneKind f es) (hp : es'.Perm es) : OneKind f es' := by
  obtain ⟨k, hk, h⟩ := h
  exact ⟨k, hk, fun e he => h e (hp.mem_iff.1 he)⟩

/-- Sorting by one field after having sorted by others. -/
theorem stableSort_keys {env : Env} {k : SortKey} {ks : List SortKey} {es : List Entity}
    (h : ∀ k' ∈ k :: ks, OneKind k'.1 es) :
    stableSort (orderLe env k.1 k.2) (stableSort (keysLe env ks) es) = stableSort (keysLe env (k :: ks)) es := by
  have hk := keys_sortable (env := env) h
  have hks : SortableKeys env ks (· ∈ es) := fun k hk' => hk k (by simp [hk'])
  have h1 := hk k (by simp)
  have hp0 := stableSort_perm (keysLe env ks) es
  have hp1 := stableSort_perm (orderLe env k.1 k.2) (stableSort (keysLe env ks) es)
  have hm0 : ∀ a ∈ stableSort (keysLe env ks) es, a ∈ es := fun a ha => hp0.mem_iff.1 ha
  have hs0 := stableSort_sorted (keysLe_preorder hks) (l := es) fun a ha => ha
  have hs1 := stableSort_sorted h1 hm0
  refine stableSort_unique (keysLe_preorder hk) (fun a ha => ha) (hp1.trans hp0) ?_ ?_
  · rw [List.pairwise_iff_forall_sublist]
    intro a b hab
    have hle := List.pairwise_iff_forall_sublist.1 hs1 hab
    have ha : a ∈ es := hm0 a (hp1.mem_iff.1 (hab.subset (by simp)))
    simp only [keysLe, Bool.and_eq_true, Bool.or_eq_true, Bool.not_eq_true']
    refine ⟨hle, ?_⟩
    by_cases hba : orderLe env k.1 k.2 b a = true
    · right
      have hsub := hab.filter (equivTo (orderLe env k.1 k.2) a)
      rw [stableSort_stable h1 hm0 ha] at hsub
      have hraa := h1.refl ha
      simp only [List.filter_cons, equivTo, hraa, hba, hle, Bool.and_self, if_true, List.filter_nil] at hsub
      exact List.pairwise_iff_forall_sublist.1 hs0 (hsub.trans List.filter_sublist)
    · left
      exact Bool.eq_false_iff.2 hba
  · intro x hx
    have hsplit : equivTo (keysLe env (k :: ks)) x =
        fun e => equivTo (orderLe env k.1 k.2) x e && equivTo (keysLe env ks) x e := by
      funext e
      simp only [equivTo, keysLe]
      cases orderLe env k.1 k.2 e x <;> cases orderLe env k.1 k.2 x e <;> simp
    have hcomm : ∀ l : List Entity, l.filter (equivTo (keysLe env (k :: ks)) x) =
        (l.filter (equivTo (orderLe env k.1 k.2) x)).filter (equivTo (keysLe env ks) x) := by
      intro l
      rw [hsplit, List.filter_filter]
      congr 1
      funext e
      exact Bool.and_comm _ _
    rw [hcomm, stableSort_stable h1 hm0 hx, List.filter_filter,
      List.filter_congr (q := fun e => equivTo (orderLe env k.1 k.2) x e && equivTo (keysLe env ks) x e)
        (fun e _ => Bool.and_comm _ _),
      ← List.filter_filter, stableSort_stable (keysLe_preorder hks) (fun a ha => ha) hx, List.filter_filter, hsplit]

theorem orders_then (env : Env) (rt : Runtime) (g : Graph) (keys : List SortKey) (post : List QueryOperation)
    (es r : List Entity)
    (h : applyOperations env rt g (keys.map fun k => QueryOperation.order k.1 k.2) es = .ok r) :
    applyOperations env rt g ((keys.map fun k => QueryOperation.order k.1 k.2) ++ post) es =
      applyOperations env rt g post r := by
  induction keys generalizing es with
  | nil =>
    simp only [List.map_nil, applyOperations, Except.ok.injEq] at h
    subst h
    rfl
  | cons k ks ih =>
    simp only [List.map_cons, List.cons_append, applyOperations, applyOperation] at h ⊢
    cases ho : orderBy env rt k.1 k.2 es with
    | error e => rw [ho] at h; simp at h
    | ok es' =>
      rw [ho] at h
      exact ih es' h

theorem orderClauses_run (env : Env) (rt : Runtime) (g : Graph) (keys : List SortKey) (es : List Entity)
    (h : ∀ k ∈ keys, OneKind k.1 es) :
    applyOperations env rt g (orderClauses keys) es = .ok (stableSort (keysLe env keys) es) := by
  induction keys with
  | nil =>
    rw [stableSort_of_sorted]
    · rfl
    · rw [List.pairwise_iff_forall_sublist]
      intro a b _
      rfl
  | cons k ks ih =>
    have ih := ih fun k hk => h k (by simp [hk])
    have hp0 := stableSort_perm (keysLe env ks) es
    obtain ⟨t, fl, hs⟩ := oneKind_sortable (oneKind_perm (h k (by simp)) hp0)
    unfold orderClauses at ih ⊢
    rw [List.reverse_cons, List.map_append, orders_then _ _ _ _ _ _ _ ih]
    simp only [List.map_cons, List.map_nil, applyOperations, applyOperation]
    rw [orderBy_eq env rt k.1 k.2 t fl hs]
    dsimp only
    rw [stableSort_keys h]

/-! ## The property -/

open Classical in
/-- C165: several `order` clauses sort by the field of the last one, where that does not tell two entities apart by
the field of the one before it, and so on; where none of them does, the order stays. There is one such list. -/
theorem C165_keys (env : Env) (rt : Runtime) (g : Graph) (keys : List SortKey) (es : List Entity)
    (h : ∀ k ∈ keys, OneKind k.1 es) :
    ∃ r, applyOperations env rt g (orderClauses keys) es = .ok r ∧ r.Perm es ∧
      r.Pairwise (KeysInOrder env keys) ∧
      (∀ x ∈ es, r.filter (fun e => decide (TiedAll env keys x e)) =
        es.filter (fun e => decide (TiedAll env keys x e))) ∧
      ∀ r', r'.Perm es → r'.Pairwise (KeysInOrder env keys) →
        (∀ x ∈ es, r'.filter (fun e => decide (TiedAll env keys x e)) =
          es.filter (fun e => decide (TiedAll env keys x e))) → r' = r := by
  have hpre := keysLe_preorder (keys_sortable (env := env) h)
  have hperm := stableSort_perm (keysLe env keys) es
  refine ⟨_, orderClauses_run env rt g keys es h, hperm, ?_, ?_, ?_⟩
  · refine (stableSort_sorted hpre fun a ha => ha).imp_of_mem ?_
    intro a b ha hb hab
    exact (keysLe_iff h (hperm.mem_iff.1 ha) (hperm.mem_iff.1 hb)).1 hab
  · intro x hx
    rw [List.filter_congr (fun e he => keysLe_equiv h hx (hperm.mem_iff.1 he)),
      List.filter_congr (fun e he => keysLe_equiv h hx he)]
    exact stableSort_stable hpre (fun a ha => ha) hx
  · intro r' hp hsort hst
    refine stableSort_unique hpre (fun a ha => ha) hp ?_ ?_
    · refine hsort.imp_of_mem ?_
      intro a b ha hb hab
      exact (keysLe_iff h (hp.mem_iff.1 ha) (hp.mem_iff.1 hb)).2 hab
    · intro x hx
      rw [← List.filter_congr (fun e he => keysLe_equiv h hx (hp.mem_iff.1 he)),
        ← List.filter_congr (fun e he => keysLe_equiv h hx he)]
      exact hst x hx

/-- C165: an `order` clause makes an earlier one for the same field void, whatever the directions. -/
theorem C165_again (env : Env) (rt : Runtime) (g : Graph) (f : FieldRef) (d d' : SortDirection) (es : List Entity)
    (h : OneKind f es) :
    applyOperations env rt g [.order f d, .order f d'] es = applyOperations env rt g [.order f d'] es := by
  obtain ⟨r1, e1, p1, -, t1, -⟩ := C29_stable_sort env rt f d es h
  obtain ⟨r2, e2, p2, s2, t2, -⟩ := C29_stable_sort env rt f d' r1 (oneKind_perm h p1)
  obtain ⟨r3, e3, -, -, -, u3⟩ := C29_stable_sort env rt f d' es h
  simp only [applyOperations, applyOperation, e1, e2, e3]
  rw [u3 r2 (p2.trans p1) s2 fun x hx => (t2 x (p1.mem_iff.2 hx)).trans (t1 x hx)]

/-- C165, part: where the field tells all entities apart, descending is ascending backwards. Missing: entities with
the same value (`C165_ties`). -/
theorem C165_backwards_partial (env : Env) (rt : Runtime) (f : FieldRef) (es : List Entity) (h : OneKind f es)
    (hd : es.Pairwise fun a b => ¬ Tied env f a b) :
    ∃ r, orderBy env rt f .ascending es = .ok r ∧ orderBy env rt f .descending es = .ok r.reverse := by
  classical
  obtain ⟨r, e1, p1, s1, -, -⟩ := C29_stable_sort env rt f .ascending es h
  obtain ⟨r', e2, -, -, -, u2⟩ := C29_stable_sort env rt f .descending es h
  refine ⟨r, e1, ?_⟩
  have hpr : r.reverse.Perm es := (List.reverse_perm r).trans p1
  rw [e2, u2 r.reverse hpr (List.pairwise_reverse.2 s1) ?_]
  intro x hx
  have hp := hpr.filter fun e => decide (Tied env f x e)
  have hlen : (es.filter fun e => decide (Tied env f x e)).length ≤ 1 := by
    have hsub := hd.sublist (List.filter_sublist (p := fun e => decide (Tied env f x e)))
    have hmem : ∀ e ∈ es.filter (fun e => decide (Tied env f x e)), e ∈ es ∧ Tied env f x e :=
      fun e he => by simpa using List.mem_filter.1 he
    match hl : es.filter (fun e => decide (Tied env f x e)) with
    | [] => simp
    | [_] => simp
    | a :: b :: _ =>
      rw [hl] at hsub hmem
      exfalso
      have hab := (List.pairwise_cons.1 hsub).1 b (by simp)
      obtain ⟨ha, hxa⟩ := hmem a (by simp)
      obtain ⟨hb, hxb⟩ := hmem b (by simp)
      obtain ⟨t, fl, hs⟩ := oneKind_sortable h
      have hpre := orderLe_preorder env f .ascending t fl
      refine hab ⟨?_, ?_⟩
      · rw [← orderLe_inOrder env f .ascending h ha hb]
        exact hpre.trans a x b (hs a ha) (hs x hx) (hs b hb) ((orderLe_inOrder env f .ascending h ha hx).2 hxa.2)
          ((orderLe_inOrder env f .ascending h hx hb).2 hxb.1)
      · rw [← orderLe_inOrder env f .ascending h hb ha]
        exact hpre.trans b x a (hs b hb) (hs x hx) (hs a ha) ((orderLe_inOrder env f .ascending h hb hx).2 hxb.2)
          ((orderLe_inOrder env f .ascending h hx ha).2 hxa.1)
  match hl : es.filter (fun e => decide (Tied env f x e)), hlen with
  | [], _ =>
    rw [hl] at hp
    exact hp.eq_nil
  | [a], _ =>
    rw [hl] at hp
    exact List.perm_singleton.1 hp
  | _ :: _ :: _, hlen => simp at hlen

/-- C165: sorting and then taking the first ones leaves out only entities that may stand after every one that was
taken. -/
theorem C165_first (env : Env) (rt : Runtime) (g : Graph) (f : FieldRef) (d : SortDirection) (n : Nat)
    (es : List Entity) (h : OneKind f es) :
    ∃ r out, applyOperations env rt g [.order f d, .limit n] es = .ok r ∧ es.Perm (r ++ out) ∧
      r.length = min n es.length ∧ r.Pairwise (InOrder env f d) ∧ ∀ x ∈ r, ∀ y ∈ out, InOrder env f d x y := by
  obtain ⟨s, e1, p1, s1, -, -⟩ := C29_stable_sort env rt f d es h
  have hcut := List.take_append_drop n s
  rw [← hcut] at s1
  obtain ⟨h1, -, h3⟩ := List.pairwise_append.1 s1
  refine ⟨s.take n, s.drop n, ?_, ?_, ?_, h1, h3⟩
  · simp only [applyOperations, applyOperation, e1]
  · rw [hcut]; exact p1.symm
  · rw [List.length_take, p1.length_eq]

/-- The n greatest: no entity that is left out has a greater value of the field than one that is taken, and the
entities that are taken have the field if enough of them have. -/
def Spec.Greatest (env : Env) (f : FieldRef) (n : Nat) (es r : List Entity) : Prop :=
  ∃ out, es.Perm (r ++ out) ∧ r.length = min n es.length ∧
    ∀ x ∈ r, ∀ y ∈ out, ∀ v, valueAt y f = some v → ∃ w, valueAt x f = some w ∧ NotAfter env v w

/-- C165, part: sorting downwards and taking the first n gives the n greatest. Missing: entities without the
field, which come first (`C165_without`). -/
theorem C165_greatest_partial (env : Env) (rt : Runtime) (g : Graph) (f : FieldRef) (n : Nat) (es : List Entity)
    (h : OneKind f es) (hall : ∀ e ∈ es, (valueAt e f).isSome) :
    ∃ r, applyOperations env rt g [.order f .descending, .limit n] es = .ok r ∧ Greatest env f n es r := by
  obtain ⟨r, out, h1, h2, h3, -, h4⟩ := C165_first env rt g f .descending n es h
  refine ⟨r, h1, out, h2, h3, fun x hx y hy v hv => ?_⟩
  obtain ⟨w, hw⟩ := Option.isSome_iff_exists.1 (hall x (h2.mem_iff.2 (by simp [hx])))
  have := h4 x hx y hy
  simp only [InOrder, hv, hw, OptNotAfter] at this
  exact ⟨w, hw, this⟩

/-- C165 is false: of two entities with the same value the first one stands first in both directions. -/
theorem C165_ties : ∃ (f : FieldRef) (es r r' : List Entity), OneKind f es ∧
    orderBy exEnv exRt f .ascending es = .ok r ∧ orderBy exEnv exRt f .descending es = .ok r' ∧ r' ≠ r.reverse :=
  ⟨.regular "a".toList, [exAmount "1" (.integer 5), exAmount "2" (.integer 5)], _, _,
    ⟨.integer, by decide, by decide⟩, rfl, rfl, by decide +kernel⟩

/-- C165 is false: the first of the entities sorted downwards can be one without the field. -/
theorem C165_without : ∃ (f : FieldRef) (es r : List Entity), OneKind f es ∧
    applyOperations exEnv exRt Graph.empty [.order f .descending, .limit 1] es = .ok r ∧
    ¬ Greatest exEnv f 1 es r := by
  refine ⟨.regular "a".toList, [exAmount "1" (.integer 5), exTask], [exTask],
    ⟨.integer, by decide, by decide⟩, by decide +kernel, ?_⟩
  rintro ⟨out, hp, -, h⟩
  have hm : exAmount "1" (.integer 5) ∈ [exTask] ++ out := hp.mem_iff.1 (by simp)
  have : exAmount "1" (.integer 5) ∈ out := by
    rcases List.mem_append.1 hm with h | h
    · exact absurd h (by decide +kernel)
    · exact h
  obtain ⟨w, hw, -⟩ := h exTask (by simp) _ this (.integer 5) (by decide)
  exact absurd hw (by rw [show valueAt exTask (.regular "a".toList) = none by decide]; simp)

/-! ## The hypotheses can be met -/

/-- Three entities with two numbers each. -/
def exTwoKeys : List Entity :=
  [⟨"x.1".toList, "x".toList, [("a".toList, .integer 2), ("b".toList, .integer 1)]⟩,
   ⟨"x.2".toList, "x".toList, [("a".toList, .integer 1), ("b".toList, .integer 7)]⟩,
   ⟨"x.3".toList, "x".toList, [("a".toList, .integer 2), ("b".toList, .integer 0)]⟩]

example : ∀ k ∈ ([(.regular "a".toList, .descending), (.regular "b".toList, .ascending)] : List SortKey),
    OneKind k.1 exTwoKeys := by
  intro k hk
  simp only [List.mem_cons, List.not_mem_nil, or_false] at hk
  rcases hk with rfl | rfl <;> exact ⟨.integer, by decide, by decide⟩
example : (applyOperations exEnv exRt Graph.empty
    (orderClauses [(.regular "a".toList, .descending), (.regular "b".toList, .ascending)]) exTwoKeys).toOption.map
      (·.map (·.id)) = some ["x.3".toList, "x.1".toList, "x.2".toList] := by decide +kernel
example : ([exAmount "1" (.integer 5), exAmount "2" (.integer 6)]).Pairwise
    fun a b => ¬ Tied exEnv (.regular "a".toList) a b := by
  simp [Tied, InOrder, OptNotAfter, NotAfter, valueAt, exAmount, Entity.getField]

end Firm
