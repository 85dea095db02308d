/-
C156: what was found stays found as entities are added.

A query without `limit` is monotone in the entities of the graph: `where` looks at one entity at a time, `order` only
rearranges, and `related` follows links that stay when entities are added.
-/
import Verif.Props.Opposite
import Verif.Props.Related

namespace Firm
open Firm.Spec

/-! ## Specification -/

/-- No clause of the query counts entities. -/
def Spec.Uncut (ops : List QueryOperation) : Prop := ∀ o ∈ ops, ∀ n, o ≠ .limit n

/-- No clause of the query follows references. -/
def Spec.Standing (ops : List QueryOperation) : Prop := ∀ o ∈ ops, ∀ d t, o ≠ .related d t

/-- Two lists of entities of two graphs: everything of the first is in the second; and if `exact`, what the second
has of the entities `all` is in the first. -/
structure Spec.Grows (all : List Entity) (exact : Prop) (es es' : List Entity) : Prop where
  kept : ∀ e ∈ es, e ∈ es'
  same : exact → ∀ e ∈ es', e ∈ all → e ∈ es

/-! ## Lemmas -/

theorem mem_acceptAll (es : List Entity) : ∀ (acc : List Entity), ∀ e ∈ acc, e ∈ acceptAll acc es := by
  induction es with
  | nil => intro acc e he; exact he
  | cons x es ih =>
    intro acc e he
    simp only [acceptAll]
    split
    · exact he
    · exact ih _ e (List.mem_append_left _ he)

theorem within_mono {es es' : List Entity} (h : ∀ e ∈ es, e ∈ es') {n : Nat} {a b : Entity}
    (hw : Within (RefLink es) n a b) : Within (RefLink es') n a b := by
  induction hw with
  | here n a => exact .here n a
  | step n a b c hl _ ih => exact .step n a b c ⟨h _ hl.1, h _ hl.2.1, hl.2.2⟩ ih

theorem mem_selectFrom (gops : List GOp) (rt : Runtime) (src : EntitySelector) {es : List Entity}
    (h : selectFrom rt (Graph.run (gops ++ [.build])) src = .ok es) (e : Entity) :
    e ∈ es ↔ e ∈ accepted gops ∧ ∀ t, src = .type t → e.entityType = t := by
  have ha : accepted (gops ++ [.build]) = accepted gops := by rw [accepted_snoc]; rfl
  cases src with
  | type t =>
    simp only [selectFrom] at h
    split at h
    · cases h
      rw [C03_list_by_type, ha]
      simp
    · cases h
  | all =>
    simp only [selectFrom, Except.ok.injEq] at h
    subst h
    simp only [List.mem_flatMap, C03_list_by_type, ha, List.mem_filter, decide_eq_true_eq]
    constructor
    · rintro ⟨t, _, he, _⟩
      exact ⟨he, nofun⟩
    · rintro ⟨he, _⟩
      refine ⟨e.entityType, (rt.order_perm 0 _).mem_iff.2 ((C03_all_types _).2 _ |>.2 ⟨e, ?_, rfl⟩), he, rfl⟩
      rw [ha]; exact he

theorem grows_op {env : Env} {rt rt' : Runtime} {gops gops' : List GOp} (hsub : ∀ e ∈ accepted gops, e ∈ accepted gops')
    {n n' : Nat} {o : QueryOperation} (hl : ∀ k, o ≠ .limit k) {p : Prop} (hp : p → ∀ d t, o ≠ .related d t)
    {es es' r r' : List Entity} (hs : ∀ e ∈ es, e ∈ accepted gops) (hs' : ∀ e ∈ es', e ∈ accepted gops')
    (hg : Grows (accepted gops) p es es')
    (h : applyOperation env rt n (Graph.run (gops ++ [.build])) es o = .ok r)
    (h' : applyOperation env rt' n' (Graph.run (gops' ++ [.build])) es' o = .ok r') :
    Grows (accepted gops) p r r' := by
  cases o with
  | «where» c =>
    obtain ⟨_, rfl⟩ := (filterEntities_ok _ _ _ _).1 h
    obtain ⟨_, rfl⟩ := (filterEntities_ok _ _ _ _).1 h'
    constructor
    · intro e he
      rw [List.mem_filter] at he ⊢
      exact ⟨hg.kept e he.1, he.2⟩
    · intro hx e he ha
      rw [List.mem_filter] at he ⊢
      exact ⟨hg.same hx e he.1 ha, he.2⟩
  | order f dir =>
    have h1 := (orderBy_ordered h).1
    have h2 := (orderBy_ordered h').1
    constructor
    · intro e he
      exact h2.mem_iff.2 (hg.kept e (h1.mem_iff.1 he))
    · intro hx e he ha
      exact h1.mem_iff.2 (hg.same hx e (h2.mem_iff.1 he) ha)
  | limit k => exact absurd rfl (hl k)
  | related d t =>
    cases h
    cases h'
    refine ⟨fun e he => ?_, fun hx => absurd rfl (hp hx d t)⟩
    by_cases hd : 1 ≤ d
    · rw [(C12_related_ball gops rt n es hs d hd t).2] at he
      rw [(C12_related_ball gops' rt' n' es' hs' d hd t).2]
      obtain ⟨h1, ⟨s, hs1, hw⟩, h3⟩ := he
      exact ⟨hsub e h1, ⟨s, hg.kept s hs1, within_mono hsub hw⟩, h3⟩
    · obtain rfl : d = 0 := by omega
      exact hg.kept e he

theorem nodes_build (gops : List GOp) : (Graph.run (gops ++ [.build])).nodes = accepted gops := by
  rw [nodes_run, accepted_snoc]; rfl

theorem grows_ops {env : Env} {rt rt' : Runtime} {gops gops' : List GOp} (hsub : ∀ e ∈ accepted gops, e ∈ accepted gops')
    {p : Prop} : ∀ {ops : List QueryOperation}, Uncut ops → (p → Standing ops) → ∀ {es es' r r' : List Entity},
    Bag (Graph.run (gops ++ [.build])) es → Bag (Graph.run (gops' ++ [.build])) es' →
    Grows (accepted gops) p es es' →
    applyOperations env rt (Graph.run (gops ++ [.build])) ops es = .ok r →
    applyOperations env rt' (Graph.run (gops' ++ [.build])) ops es' = .ok r' →
    Grows (accepted gops) p r r' ∧ Bag (Graph.run (gops ++ [.build])) r ∧ Bag (Graph.run (gops' ++ [.build])) r'
  | [], _, _, _, _, _, _, hb, hb', hg, h, h' => by
    cases h; cases h'; exact ⟨hg, hb, hb'⟩
  | o :: ops, hu, hs, es, es', r, r', hb, hb', hg, h, h' => by
    simp only [applyOperations] at h h'
    split at h
    · cases h
    · next m hm =>
      split at h'
      · cases h'
      · next m' hm' =>
        refine grows_ops hsub (fun x hx => hu x (List.mem_cons_of_mem _ hx))
          (fun hp x hx => hs hp x (List.mem_cons_of_mem _ hx))
          (Bag.applyOperation (Inv.run _) env rt _ o hb hm) (Bag.applyOperation (Inv.run _) env rt' _ o hb' hm')
          (grows_op hsub (hu o (List.mem_cons_self ..)) (fun hp => hs hp o (List.mem_cons_self ..)) ?_ ?_ hg hm hm') h h'
        · intro e he; rw [← nodes_build]; exact hb.1 e he
        · intro e he; rw [← nodes_build]; exact hb'.1 e he

theorem grows_query {env : Env} {rt rt' : Runtime} {gops gops' : List GOp}
    (hsub : ∀ e ∈ accepted gops, e ∈ accepted gops') {src : EntitySelector} {ops : List QueryOperation} {p : Prop}
    (hu : Uncut ops) (hp : p → Standing ops) {es es' : List Entity}
    (h : Query.execute env rt (Graph.run (gops ++ [.build])) ⟨src, ops, none⟩ = .ok (.entities es))
    (h' : Query.execute env rt' (Graph.run (gops' ++ [.build])) ⟨src, ops, none⟩ = .ok (.entities es')) :
    Grows (accepted gops) p es es' ∧ Bag (Graph.run (gops ++ [.build])) es ∧
      Bag (Graph.run (gops' ++ [.build])) es' := by
  simp only [Query.execute] at h h'
  split at h
  · cases h
  · next m hm =>
    split at h
    · cases h
    · next k hk =>
      cases h
      split at h'
      · cases h'
      · next m' hm' =>
        split at h'
        · cases h'
        · next k' hk' =>
          cases h'
          refine grows_ops hsub hu hp (Bag.selectFrom (Inv.run _) rt src hm) (Bag.selectFrom (Inv.run _) rt' src hm')
            ⟨fun e he => ?_, fun _ e he ha => ?_⟩ hk hk'
          · rw [mem_selectFrom gops rt src hm] at he
            rw [mem_selectFrom gops' rt' src hm']
            exact ⟨hsub e he.1, he.2⟩
          · rw [mem_selectFrom gops' rt' src hm'] at he
            rw [mem_selectFrom gops rt src hm]
            exact ⟨ha, he.2⟩

/-! ## Theorems -/

/-- C156: adding entities, one by one or in batches, and building never takes an entity away; only clearing does. -/
theorem C156_history (gops more : List GOp) (hm : .clear ∉ more) :
    ∀ e ∈ accepted gops, e ∈ accepted (gops ++ more) := by
  induction more using List.reverseRecOn with
  | nil => intro e he; simpa using he
  | append_singleton more o ih =>
    intro e he
    rw [← List.append_assoc, accepted_snoc]
    have := ih (fun hc => hm (List.mem_append_left _ hc)) e he
    cases o with
    | build => exact this
    | add x =>
      simp only [accept, acceptOne]
      split
      · exact this
      · exact List.mem_append_left _ this
    | addAll xs => exact mem_acceptAll xs _ e this
    | clear => exact absurd (by simp) hm

/-- C156 without `limit`: what a query finds, it also finds in every built graph that has all the entities of the
first one, whatever else that graph has, in whatever order its entities were added, and whatever the hash orders of
the two runs. -/
theorem C156_found_partial (env : Env) (rt rt' : Runtime) (gops gops' : List GOp)
    (hsub : ∀ e ∈ accepted gops, e ∈ accepted gops') (src : EntitySelector)
    {ops : List QueryOperation} (hu : Uncut ops) {es es' : List Entity}
    (h : Query.execute env rt (Graph.run (gops ++ [.build])) ⟨src, ops, none⟩ = .ok (.entities es))
    (h' : Query.execute env rt' (Graph.run (gops' ++ [.build])) ⟨src, ops, none⟩ = .ok (.entities es')) :
    ∀ e ∈ es, e ∈ es' :=
  (grows_query (p := False) hsub hu False.elim h h').1.kept

/-- C156: if the query does not follow references either, everything it finds in addition is new. -/
theorem C156_new (env : Env) (rt rt' : Runtime) (gops gops' : List GOp)
    (hsub : ∀ e ∈ accepted gops, e ∈ accepted gops') (src : EntitySelector)
    {ops : List QueryOperation} (hu : Uncut ops) (hn : Standing ops) {es es' : List Entity}
    (h : Query.execute env rt (Graph.run (gops ++ [.build])) ⟨src, ops, none⟩ = .ok (.entities es))
    (h' : Query.execute env rt' (Graph.run (gops' ++ [.build])) ⟨src, ops, none⟩ = .ok (.entities es')) :
    ∀ e, e ∈ es ↔ e ∈ es' ∧ e ∈ accepted gops := by
  obtain ⟨hg, hb, _⟩ := grows_query (p := True) hsub hu (fun _ => hn) h h'
  exact fun e => ⟨fun he => ⟨hg.kept e he, nodes_build gops ▸ hb.1 e he⟩, fun ⟨h1, h2⟩ => hg.same trivial e h1 h2⟩

theorem execute_count {env : Env} {rt : Runtime} {g : Graph} {src : EntitySelector} {ops : List QueryOperation}
    {f : Option FieldRef} {n : Nat}
    (h : Query.execute env rt g ⟨src, ops, some (.count f)⟩ = .ok (.aggregation (.count n))) :
    ∃ es, Query.execute env rt g ⟨src, ops, none⟩ = .ok (.entities es) ∧ executeCount f es = .count n := by
  simp only [Query.execute] at h ⊢
  split at h
  · cases h
  · split at h
    · cases h
    · next k hk =>
      simp only [Aggregation.execute, Except.ok.injEq, QueryResult.aggregation.injEq] at h
      exact ⟨k, by simp only, h⟩

/-- C156 without `limit`: counts do not go down, neither those of entities nor those of a field. -/
theorem C156_count_partial (env : Env) (rt rt' : Runtime) (gops gops' : List GOp)
    (hsub : ∀ e ∈ accepted gops, e ∈ accepted gops') (src : EntitySelector)
    {ops : List QueryOperation} (hu : Uncut ops) (f : Option FieldRef) {n n' : Nat}
    (h : Query.execute env rt (Graph.run (gops ++ [.build])) ⟨src, ops, some (.count f)⟩ = .ok (.aggregation (.count n)))
    (h' : Query.execute env rt' (Graph.run (gops' ++ [.build])) ⟨src, ops, some (.count f)⟩ =
      .ok (.aggregation (.count n'))) : n ≤ n' := by
  obtain ⟨es, h1, h2⟩ := execute_count h
  obtain ⟨es', h1', h2'⟩ := execute_count h'
  obtain ⟨hg, hb, _⟩ := grows_query (p := False) hsub hu False.elim h1 h1'
  have hlen : ∀ q : Entity → Bool, (es.filter q).length ≤ (es'.filter q).length := fun q =>
    (List.subperm_of_subset (hb.2.filter q) (fun e he => by
      rw [List.mem_filter] at he ⊢
      exact ⟨hg.kept e he.1, he.2⟩)).length_le
  have hall : es.length ≤ es'.length := by simpa using hlen fun _ => true
  cases f with
  | none => cases h2; cases h2'; exact hall
  | some f =>
    cases f with
    | metadata m => cases h2; cases h2'; exact hall
    | regular f => cases h2; cases h2'; exact hlen _

/-! ## Cases -/

/-- C156 is false with `limit`: the two deals of the first graph by rank, and after a third deal has been added, one
of them is no longer among the first two. -/
theorem C156_limit : ∃ (env : Env) (rt : Runtime) (gops : List GOp) (e : Entity) (es es' : List Entity) (x : Entity),
    let q : Query := ⟨.type "deal".toList, [.order (.regular "n".toList) .ascending, .limit 2], none⟩
    Query.execute env rt (Graph.run (gops ++ [.build])) q = .ok (.entities es) ∧
    Query.execute env rt (Graph.run (gops ++ [.add e] ++ [.build])) q = .ok (.entities es') ∧
    x ∈ es ∧ x ∉ es' := by
  refine ⟨exEnv, exRt, [
    .add ⟨"deal.a".toList, "deal".toList, [("n".toList, .integer 3)]⟩,
    .add ⟨"deal.b".toList, "deal".toList, [("n".toList, .integer 4)]⟩],
    ⟨"deal.c".toList, "deal".toList, [("n".toList, .integer 1)]⟩,
    [⟨"deal.a".toList, "deal".toList, [("n".toList, .integer 3)]⟩,
     ⟨"deal.b".toList, "deal".toList, [("n".toList, .integer 4)]⟩],
    [⟨"deal.c".toList, "deal".toList, [("n".toList, .integer 1)]⟩,
     ⟨"deal.a".toList, "deal".toList, [("n".toList, .integer 3)]⟩],
    ⟨"deal.b".toList, "deal".toList, [("n".toList, .integer 4)]⟩, ?_⟩
  decide +kernel

/-- C156: the premise that the second query succeeds is needed. Where a field of a new entity has another type, the
query that answered before fails. -/
theorem C156_fails : ∃ (env : Env) (rt : Runtime) (gops : List GOp) (e : Entity) (es : List Entity),
    let q : Query := ⟨.type "deal".toList,
      [.where (.single ⟨.regular "n".toList, .greaterThan, .integer 2⟩)], none⟩
    es ≠ [] ∧ Query.execute env rt (Graph.run (gops ++ [.build])) q = .ok (.entities es) ∧
    (Query.execute env rt (Graph.run (gops ++ [.add e] ++ [.build])) q).toOption = none := by
  refine ⟨exEnv, exRt, [
    .add ⟨"deal.a".toList, "deal".toList, [("n".toList, .integer 3)]⟩],
    ⟨"deal.c".toList, "deal".toList, [("n".toList, .string "four".toList)]⟩,
    [⟨"deal.a".toList, "deal".toList, [("n".toList, .integer 3)]⟩], ?_⟩
  decide +kernel

/-- C156: `C156_new` needs that the query follows no references. An entity that was there before is found only
after the one that leads to it has been added. -/
theorem C156_leads : ∃ (env : Env) (rt : Runtime) (gops : List GOp) (e : Entity) (es es' : List Entity) (x : Entity),
    let q : Query := ⟨.type "deal".toList, [.related 2 (some "person".toList)], none⟩
    Query.execute env rt (Graph.run (gops ++ [.build])) q = .ok (.entities es) ∧
    Query.execute env rt (Graph.run (gops ++ [.add e] ++ [.build])) q = .ok (.entities es') ∧
    x ∈ accepted gops ∧ x ∉ es ∧ x ∈ es' := by
  refine ⟨exEnv, exRt, [
    .add ⟨"deal.a".toList, "deal".toList, []⟩,
    .add ⟨"person.b".toList, "person".toList, []⟩],
    ⟨"task.c".toList, "task".toList, [("deal".toList, .reference (.entity "deal.a".toList)),
      ("owner".toList, .reference (.entity "person.b".toList))]⟩,
    [], [⟨"person.b".toList, "person".toList, []⟩], ⟨"person.b".toList, "person".toList, []⟩, ?_⟩
  decide +kernel

/-- What the premises of `C156_found_partial` and `C156_count_partial` say of the deals and one more deal. -/
example : let more : List GOp := [.addAll [⟨"deal.e".toList, "deal".toList, [("n".toList, .integer 9)]⟩], .build]
    let ops : List QueryOperation := [.where (.single ⟨.regular "n".toList, .greaterThan, .integer 3⟩),
      .order (.regular "n".toList) .descending]
    (∀ e ∈ accepted exDeals, e ∈ accepted (exDeals ++ more)) ∧ Uncut ops ∧ Standing ops ∧
    Query.execute exEnv exRt (Graph.run (exDeals ++ [.build])) ⟨.type "deal".toList, ops, some (.count none)⟩ =
      .ok (.aggregation (.count 2)) ∧
    Query.execute exEnv exRt (Graph.run (exDeals ++ more ++ [.build])) ⟨.type "deal".toList, ops, some (.count none)⟩ =
      .ok (.aggregation (.count 3)) :=
  ⟨C156_history _ _ (by simp), by simp [Uncut], by simp [Standing], by decide +kernel, by decide +kernel⟩

end Firm
