import Verif.Props.Found
import Verif.Props.Agreement

/-!
# Two ways to ask for the same entities (C141, C142)

`in`, which the query reference describes as "value in list"; and a selection by type against a filter on `@type`.
-/

namespace Firm
open Firm.Spec

/-! ## C141: `in` -/

/-- C141: `in` is answered with "yes" for no value and no literal, a list or not. -/
theorem C141_never (env : Env) (fv : FieldValue) (w : FilterValue) : compareField env fv .isIn w ≠ .ok true := by
  intro h
  by_cases hc : CurrencyApart env fv w
  · rw [(C26_exceptions env fv .isIn w).1 hc] at h
    cases h
  · obtain ⟨e, he⟩ := C26_in_rejected_partial env fv w hc
    rw [he] at h
    cases h

/-- C141: no entity passes a condition with `in`. -/
theorem C141_passes (L : Lang) (e : Entity) (f : QField) (v : QValue) : ¬ Passes L e ⟨f, .isIn, v⟩ := by
  rintro ⟨_, _, _, _, _, _, h⟩
  exact C141_never _ _ _ h

theorem keeps_nil {p : Entity → Prop} {r : List Entity} (h : Keeps p [] r) : r = [] := by
  obtain ⟨k, rfl, _⟩ := h
  rfl

theorem keeps_none {p : Entity → Prop} {es r : List Entity} (hp : ∀ e, ¬ p e) (h : Keeps p es r) : r = [] := by
  obtain ⟨k, rfl, hk⟩ := h
  rw [List.filter_eq_nil_iff]
  exact fun e he hke => hp e ((hk e he).1 hke)

theorem around_nil {all : List Entity} {n : Nat} {p : Entity → Prop} {r : List Entity} (h : Around all n p [] r) :
    r = [] := by
  apply List.eq_nil_iff_forall_not_mem.2
  intro e he
  obtain ⟨_, ⟨s, hs, _⟩, _⟩ := (h.2 e).1 he
  cases hs

theorem clause_nil {L : Lang} {all : List Entity} {o : QOp} {r : List Entity} (h : Clause L all o [] r) : r = [] := by
  generalize hes : ([] : List Entity) = es at h
  cases h with
  | whereAll _ h2 => subst hes; exact keeps_nil h2
  | whereAny _ _ h2 => subst hes; exact keeps_nil h2
  | around _ _ h3 => subst hes; exact around_nil h3
  | next h1 => subst hes; exact around_nil h1
  | none _ => rfl
  | order _ h2 => subst hes; exact List.perm_nil.1 h2.1
  | orderUp _ h2 => subst hes; exact List.perm_nil.1 h2.1
  | limit _ _ =>
    obtain ⟨rfl, rfl⟩ := List.append_eq_nil_iff.1 hes.symm
    rfl

theorem clauses_nil {L : Lang} {all : List Entity} : ∀ {os : List QOp} {r : List Entity}, Clauses L all os [] r → r = []
  | [], _, h => by cases h; rfl
  | o :: os, _, h => by
    cases h with
    | cons h1 h2 =>
      have := clause_nil h1
      subst this
      exact clauses_nil h2

/-- C141: a query that has a clause with `in` and no `or` gives no entity, whatever comes before and after it. -/
theorem C141_query (L : Lang) (rt : Runtime) (ops : List GOp) {src : QSelector} {pre post : List QOp} {c : QCond}
    {more : List (Combinator × QCond)} {f : QField} {v : QValue}
    (hc : c = ⟨f, .isIn, v⟩ ∨ (Combinator.and, ⟨f, .isIn, v⟩) ∈ more) (hand : ∀ m ∈ more, m.1 = .and)
    (hq : ValidTree ⟨src, pre ++ .where c more :: post, none⟩) {r : QueryResult}
    (h : runQuery L rt (Graph.run (ops ++ [.build])) (showQuery ⟨src, pre ++ .where c more :: post, none⟩) = .ok r) :
    r = .entities [] := by
  obtain ⟨s, es, h1, h2, h3⟩ := C94_written L rt ops hq h
  obtain ⟨m, k1, k2⟩ := clauses_append h2
  have hes : es = [] := by
    cases k2 with
    | cons k k3 =>
      refine clauses_nil (?_ : Clauses L (accepted ops) post [] es)
      rename_i m'
      have : m' = [] := by
        cases k with
        | whereAll _ hk =>
          refine keeps_none (fun e he => ?_) hk
          rcases hc with rfl | hm
          · exact C141_passes L e f v he.1
          · exact C141_passes L e f v (he.2 _ hm)
        | whereAny hne hor _ =>
          exfalso
          obtain ⟨x, hx⟩ := List.exists_mem_of_ne_nil _ hne
          have := (hand x hx).symm.trans (hor x hx)
          cases this
      rw [← this]
      exact k3
  subst hes
  cases h3
  rfl

/-- C141: what finds the values in a list is one comparison with each of them, joined by `or`. Missing: the
operator for it. -/
theorem C141_or_partial (L : Lang) (rt : Runtime) (ops : List GOp) {src : QSelector} {f : QField} {v : QValue}
    {vs : List QValue} (hq : ValidTree ⟨src, [.where ⟨f, .equal, v⟩ (vs.map fun w => (.or, ⟨f, .equal, w⟩))], none⟩)
    {r : QueryResult}
    (h : runQuery L rt (Graph.run (ops ++ [.build]))
      (showQuery ⟨src, [.where ⟨f, .equal, v⟩ (vs.map fun w => (.or, ⟨f, .equal, w⟩))], none⟩) = .ok r) :
    ∃ es, r = .entities es ∧ ∀ e, e ∈ es ↔ e ∈ accepted ops ∧ Selects L.cases src e ∧
      ∃ w ∈ v :: vs, Passes L e ⟨f, .equal, w⟩ := by
  obtain ⟨s, es, h1, h2, h3⟩ := C94_written L rt ops hq h
  cases h3
  refine ⟨es, rfl, fun e => ?_⟩
  have hs : e ∈ s ↔ e ∈ accepted ops ∧ Selects L.cases src e := by
    cases h1 with
    | type => simp [Selects]
    | wildcard _ ht =>
      simp only [List.mem_flatMap, List.mem_filter, decide_eq_true_eq, Selects, and_true]
      exact ⟨fun ⟨_, _, he, _⟩ => he, fun he => ⟨_, (ht _).2 ⟨e, he, rfl⟩, he, rfl⟩⟩
  have hk : Keeps (fun e => ∃ w ∈ v :: vs, Passes L e ⟨f, .equal, w⟩) s es := by
    cases h2 with
    | cons k k2 =>
      cases k2
      cases k with
      | whereAll hand hk =>
        have hv : vs = [] := by
          cases vs with
          | nil => rfl
          | cons w ws => cases hand (.or, ⟨f, .equal, w⟩) (by simp)
        subst hv
        simpa using hk
      | whereAny _ _ hk =>
        have : (fun e => Passes L e ⟨f, .equal, v⟩ ∨ ∃ m ∈ vs.map fun w => (Combinator.or, (⟨f, .equal, w⟩ : QCond)),
            Passes L e m.2) = fun e => ∃ w ∈ v :: vs, Passes L e ⟨f, .equal, w⟩ := by
          funext e
          simp
        rwa [this] at hk
  obtain ⟨keep, rfl, hkeep⟩ := hk
  rw [List.mem_filter]
  constructor
  · exact fun ⟨a, b⟩ => ⟨(hs.1 a).1, (hs.1 a).2, (hkeep e a).1 b⟩
  · exact fun ⟨a, b, c⟩ => ⟨hs.2 ⟨a, b⟩, (hkeep e (hs.2 ⟨a, b⟩)).2 c⟩

/-! ## C142: types -/

/-- The condition `@type == "s"`. -/
def Spec.isOfType (s : Str) : QCond := ⟨.metadata "type".toList, .equal, .string s⟩

/-- The condition `@id == "s"`. -/
def Spec.hasId (s : Str) : QCond := ⟨.metadata "id".toList, .equal, .string s⟩

/-- In these entities the text finds exactly the type: no other one differs from it in case only. -/
def Spec.Names (all : List Entity) (s : Str) (t : EntityType) : Prop :=
  ∀ e ∈ all, SameText e.entityType s ↔ e.entityType = t

theorem filterEntities_one {env : Env} {c : FilterCondition} {p : Entity → Bool} : ∀ {es : List Entity},
    (∀ e ∈ es, c.matches env e = .ok (p e)) → filterEntities env ⟨[c], .and⟩ es = .ok (es.filter p)
  | [], _ => rfl
  | e :: es, h => by
    have ih := filterEntities_one (c := c) (p := p) (es := es) (fun x hx => h x (by simp [hx]))
    have hm : (⟨[c], .and⟩ : CompoundCondition).matches env e = .ok (p e) := by
      simp [CompoundCondition.matches, collectResults, h e (by simp)]
    unfold filterEntities
    rw [hm, ih]
    cases hp : p e <;> simp [hp]

theorem matches_text {env : Env} {m : MetadataField} {s x : Str} {e : Entity} {p : Prop} [Decidable p]
    (hx : valueAt e (.metadata m) = some (.string x)) (h : SameText x s ↔ p) :
    (⟨.metadata m, .equal, .string s⟩ : FilterCondition).matches env e = .ok (decide p) := by
  rw [matches_valueAt, hx]
  have hc := C25_equal env (.string x) x s rfl (.string s) (.inl rfl)
  by_cases hs : p
  · simp only [hs, decide_true]
    exact hc.1.2 (h.2 hs)
  · simp only [hs, decide_false]
    exact hc.2.2.2 (mt h.1 hs)

/-- The query with one more clause in front. -/
theorem validTree_where {src : QSelector} {os : List QOp} {a : Option QAgg} (h : ValidTree ⟨src, os, a⟩) {c : QCond}
    (hc : ValidCond c) : ValidTree ⟨.wildcard, .where c [] :: os, a⟩ :=
  ⟨trivial, fun o ho => by
    rcases List.mem_cons.1 ho with rfl | ho
    · exact ⟨hc, nofun⟩
    · exact h.2.1 o ho, h.2.2⟩

theorem isOfType_valid {s : Str} (hs : IsQuotable s) : ValidCond (isOfType s) :=
  ⟨⟨'t', "ype".toList, rfl, by decide, by decide⟩, hs⟩

theorem hasId_valid {s : Str} (hs : IsQuotable s) : ValidCond (hasId s) :=
  ⟨⟨'i', "d".toList, rfl, by decide, by decide⟩, hs⟩

/-- C142: to start from the entities of a type is to start from all entities and to keep those of the type: the
same result, or the same error, with the same clauses after it, in the same order. Missing: a type of which
there is no entity (`C142_unknown`) and types that differ in case only (`C142_case`). -/
theorem C142_from_partial (L : Lang) (rt : Runtime) (ops : List GOp) {t s : Str} {os : List QOp} {a : Option QAgg}
    (hq : ValidTree ⟨.type t, os, a⟩) (hs : IsQuotable s) (ht : ∃ e ∈ accepted ops, e.entityType = L.cases.snake t)
    (hn : Names (accepted ops) s (L.cases.snake t)) :
    runQuery L rt (Graph.run ops) (showQuery ⟨.wildcard, .where (isOfType s) [] :: os, a⟩) =
      runQuery L rt (Graph.run ops) (showQuery ⟨.type t, os, a⟩) := by
  obtain ⟨hnd, hmem⟩ := C03_all_types ops
  have hp := rt.order_perm 0 (Graph.run ops).getAllEntityTypes
  have hin : L.cases.snake t ∈ rt.order 0 (Graph.run ops).getAllEntityTypes := by
    rw [hp.mem_iff, hmem]
    exact ht
  obtain ⟨all, hall, hperm, hfil⟩ := C34_from_all ops L.env rt
  have hsel : selectFrom rt (Graph.run ops) .all = .ok all := by
    simp only [Query.execute] at hall
    cases hx : selectFrom rt (Graph.run ops) .all with
    | error e => rw [hx] at hall; cases hall
    | ok es => rw [hx] at hall; simp only [applyOperations] at hall; cases hall; rfl
  have hty : selectFrom rt (Graph.run ops) (.type (L.cases.snake t)) =
      .ok ((accepted ops).filter fun e => e.entityType = L.cases.snake t) := by
    simp only [selectFrom, if_pos hin]
    rw [C03_list_by_type]
  have hf : filterEntities L.env ⟨[⟨.metadata .type, .equal, .string s⟩], .and⟩ all =
      .ok ((accepted ops).filter fun e => e.entityType = L.cases.snake t) := by
    rw [← hfil]
    exact filterEntities_one fun e he => matches_text rfl (hn e (hperm.mem_iff.1 he))
  have hread : readOp L (.where (isOfType s) []) = .ok (.where [⟨.metadata "type".toList, .equal, .string s⟩] .and) := rfl
  unfold runQuery parseQuery
  rw [C73_reads_back hq, C73_reads_back (validTree_where hq (isOfType_valid hs))]
  simp only [collectResults, hread]
  cases hr : collectResults (readOp L) os with
  | error e => rfl
  | ok ps =>
    have hconv : convertOp L.cases (.where [⟨.metadata "type".toList, .equal, .string s⟩] .and) =
        .where ⟨[⟨.metadata .type, .equal, .string s⟩], .and⟩ := by rfl
    simp only [convertQuery, selectorType, Query.execute, hsel, hty, List.map_cons, hconv, applyOperations,
      applyOperation, hf]

/-- C142: of a type without entities the selection is an error, the filter gives nothing. -/
theorem C142_unknown (L : Lang) (rt : Runtime) (ops : List GOp) {t s : Str} (ht : IsIdent t) (hs : IsQuotable s)
    (hno : ¬ ∃ e ∈ accepted ops, e.entityType = L.cases.snake t) (hn : ∀ e ∈ accepted ops, ¬ SameText e.entityType s) :
    (∃ known, runQuery L rt (Graph.run ops) (showQuery ⟨.type t, [], none⟩) =
      .error (.execution (.unknownEntityType (L.cases.snake t) known))) ∧
    runQuery L rt (Graph.run ops) (showQuery ⟨.wildcard, [.where (isOfType s) []], none⟩) = .ok (.entities []) := by
  have hq : ValidTree ⟨.type t, [], none⟩ := ⟨ht, nofun, nofun⟩
  constructor
  · obtain ⟨known, hk, _⟩ := (C34_from_type ops L.env rt (L.cases.snake t)).2 hno
    refine ⟨known, ?_⟩
    unfold runQuery parseQuery
    rw [C73_reads_back hq]
    show (match Query.execute L.env rt (Graph.run ops) ⟨.type (L.cases.snake t), [], none⟩ with
      | .error e => Except.error (QueryFailure.execution e)
      | .ok r => .ok r) = _
    rw [hk]
  · obtain ⟨all, hall, hperm, hfil⟩ := C34_from_all ops L.env rt
    have hsel : selectFrom rt (Graph.run ops) .all = .ok all := by
      simp only [Query.execute] at hall
      cases hx : selectFrom rt (Graph.run ops) .all with
      | error e => rw [hx] at hall; cases hall
      | ok es => rw [hx] at hall; simp only [applyOperations] at hall; cases hall; rfl
    have hf : filterEntities L.env ⟨[⟨.metadata .type, .equal, .string s⟩], .and⟩ all = .ok [] := by
      have := filterEntities_one (env := L.env) (c := ⟨.metadata .type, .equal, .string s⟩) (p := fun _ => decide False)
        (es := all) fun e he => matches_text rfl (iff_of_false (hn e (hperm.mem_iff.1 he)) id)
      simpa using this
    have hread : readOp L (.where (isOfType s) []) = .ok (.where [⟨.metadata "type".toList, .equal, .string s⟩] .and) := rfl
    have hconv : convertOp L.cases (.where [⟨.metadata "type".toList, .equal, .string s⟩] .and) =
        .where ⟨[⟨.metadata .type, .equal, .string s⟩], .and⟩ := by rfl
    unfold runQuery parseQuery
    rw [C73_reads_back (validTree_where hq (isOfType_valid hs))]
    simp only [collectResults, hread, convertQuery, selectorType, Query.execute, hsel, List.map_cons, List.map_nil, hconv,
      applyOperations, applyOperation, hf, Option.map_none]

/-- C142: an entity is found by its id among all entities, and nothing else is, if no other id differs from it in
case only: `from * | where @id == "…"` is `get` (C01). -/
theorem C142_get_partial (L : Lang) (rt : Runtime) (ops : List GOp) {s : Str} (hs : IsQuotable s)
    (hcase : ∀ e ∈ accepted ops, SameText e.id s → e.id = s) :
    runQuery L rt (Graph.run ops) (showQuery ⟨.wildcard, [.where (hasId s) []], none⟩) =
      .ok (.entities ((Graph.run ops).getEntity s).toList) := by
  obtain ⟨all, hall, hperm, hfil⟩ := C34_from_all ops L.env rt
  have hsel : selectFrom rt (Graph.run ops) .all = .ok all := by
    simp only [Query.execute] at hall
    cases hx : selectFrom rt (Graph.run ops) .all with
    | error e => rw [hx] at hall; cases hall
    | ok es => rw [hx] at hall; simp only [applyOperations] at hall; cases hall; rfl
  have hnd : (all.map (·.id)).Nodup := (hperm.map _).nodup_iff.2 (C01_unique ops)
  have huniq : all.filter (fun e => e.id = s) = ((Graph.run ops).getEntity s).toList := by
    have hsub : ((all.filter fun e => e.id = s).map (·.id)).Nodup := hnd.sublist (List.filter_sublist.map _)
    cases hg : (Graph.run ops).getEntity s with
    | none =>
      rw [Option.toList_none, List.filter_eq_nil_iff]
      intro e he hid
      have := (C01_lookup ops s e).2 ⟨hperm.mem_iff.1 he, by simpa using hid⟩
      rw [hg] at this
      cases this
    | some a =>
      obtain ⟨ha, hid⟩ := (C01_lookup ops s a).1 hg
      have hmem : ∀ e ∈ all.filter fun e => e.id = s, e = a := by
        intro e he
        have h1 := List.mem_filter.1 he
        have := (C01_lookup ops s e).2 ⟨hperm.mem_iff.1 h1.1, by simpa using h1.2⟩
        rw [hg] at this
        exact (Option.some.inj this).symm
      have hin : a ∈ all.filter fun e => e.id = s := List.mem_filter.2 ⟨hperm.mem_iff.2 ha, by simpa using hid⟩
      cases hl : all.filter fun e => e.id = s with
      | nil => rw [hl] at hin; cases hin
      | cons x xs =>
        rw [hl] at hmem hsub
        have hx := hmem x (by simp)
        cases xs with
        | nil => rw [hx]; rfl
        | cons y ys =>
          exfalso
          have hy := hmem y (by simp)
          rw [hx, hy] at hsub
          simp at hsub
  have hf : filterEntities L.env ⟨[⟨.metadata .id, .equal, .string s⟩], .and⟩ all =
      .ok ((Graph.run ops).getEntity s).toList := by
    rw [← huniq]
    exact filterEntities_one fun e he => matches_text rfl
      ⟨hcase e (hperm.mem_iff.1 he), fun h => h ▸ sameText_refl _⟩
  have hread : readOp L (.where (hasId s) []) = .ok (.where [⟨.metadata "id".toList, .equal, .string s⟩] .and) := rfl
  have hconv : convertOp L.cases (.where [⟨.metadata "id".toList, .equal, .string s⟩] .and) =
      .where ⟨[⟨.metadata .id, .equal, .string s⟩], .and⟩ := by rfl
  have hq : ValidTree ⟨.wildcard, [], none⟩ := ⟨trivial, nofun, nofun⟩
  unfold runQuery parseQuery
  rw [C73_reads_back (validTree_where hq (hasId_valid hs))]
  simp only [collectResults, hread, convertQuery, selectorType, Query.execute, hsel, List.map_cons, List.map_nil, hconv,
    applyOperations, applyOperation, hf, Option.map_none]

/-! ### `related` -/

theorem related_type {L : Lang} {all : List Entity} {d : Option Str} (hd : ∀ x, d = some x → ¬ Numeral x 0) {t s : Str}
    (hn : Names all s (L.cases.snake t)) {es es' r r' : List Entity} (hp : es.Perm es')
    (h : Clause L all (.related d (some (.type t))) es r)
    (h' : Clauses L all [.related d none, .where (isOfType s) []] es' r') : r.Perm r' := by
  have hpass : ∀ e ∈ all, Passes L e (isOfType s) ↔ e.entityType = L.cases.snake t := by
    intro e he
    rw [← hn e he]
    have hc := C25_equal L.env (.string e.entityType) e.entityType s rfl (.string s) (.inl rfl)
    constructor
    · rintro ⟨f, w, v, h1, h2, h3, h4⟩
      have := fieldNamed_unique h1 (.type (n := "type".toList) (by decide))
      subst this
      cases h2
      cases h3
      exact hc.1.1 h4
    · exact fun hs => ⟨_, _, _, .type (by decide), .string s, rfl, hc.1.2 hs⟩
  cases h' with
  | cons k1 k2 =>
    cases k2 with
    | cons k2 k3 =>
      cases k3
      rename_i m
      have hk : Keeps (fun e => Passes L e (isOfType s)) m r' := by
        cases k2 with
        | whereAll _ hk => simpa using hk
        | whereAny hne _ _ => exact absurd rfl hne
      obtain ⟨keep, rfl, hkeep⟩ := hk
      have main : ∀ n, Around all n (fun e => ∀ x ∈ (some (QSelector.type t)), Selects L.cases x e) es r →
          Around all n (fun e => ∀ x ∈ (none : Option QSelector), Selects L.cases x e) es' m → r.Perm (m.filter keep) := by
        intro n a1 a2
        refine (List.perm_ext_iff_of_nodup a1.1 (a2.1.filter _)).2 fun e => ?_
        rw [a1.2, List.mem_filter]
        constructor
        · rintro ⟨b1, ⟨x, hx, hw⟩, b3⟩
          have hm : e ∈ m := (a2.2 e).2 ⟨b1, ⟨x, hp.mem_iff.1 hx, hw⟩, nofun⟩
          exact ⟨hm, (hkeep e hm).2 ((hpass e b1).2 (b3 _ rfl))⟩
        · rintro ⟨hm, hk⟩
          obtain ⟨b1, ⟨x, hx, hw⟩, _⟩ := (a2.2 e).1 hm
          refine ⟨b1, ⟨x, hp.mem_iff.2 hx, hw⟩, ?_⟩
          intro x hx
          cases hx
          exact (hpass e b1).1 ((hkeep e hm).1 hk)
      cases h with
      | around h1 h2 h3 =>
        cases k1 with
        | around j1 j2 j3 =>
          have := numeral_unique h1 j1
          subst this
          exact main _ h3 j3
        | none j1 => exact absurd j1 (hd _ rfl)
      | next h1 => cases k1 with
        | next j1 => exact main _ h1 j1
      | none h1 => exact absurd h1 (hd _ rfl)

/-- C142: `related t` gives what `related | where @type == "t"` gives, in some order, whatever clauses without
`limit` come before and after. Missing: `related(0)` (`C142_zero`) and types that differ in case only. -/
theorem C142_related_partial (L : Lang) (rt rt' : Runtime) (ops : List GOp) {src : QSelector} {pre post : List QOp}
    {d : Option Str} {t s : Str} {a : Option QAgg}
    (hq : ValidTree ⟨src, pre ++ .related d (some (.type t)) :: post, a⟩) (hs : IsQuotable s)
    (hn : Names (accepted ops) s (L.cases.snake t)) (hd : ∀ x, d = some x → ¬ Numeral x 0)
    (hpre : ∀ o ∈ pre, NoLimit o) (hpost : ∀ o ∈ post, NoLimit o) (ha : NoArithmetic a) {r r' : QueryResult}
    (h : runQuery L rt (Graph.run (ops ++ [.build]))
      (showQuery ⟨src, pre ++ .related d (some (.type t)) :: post, a⟩) = .ok r)
    (h' : runQuery L rt' (Graph.run (ops ++ [.build]))
      (showQuery ⟨src, pre ++ .related d none :: .where (isOfType s) [] :: post, a⟩) = .ok r') : SameResult r r' := by
  have hq' : ValidTree ⟨src, pre ++ .related d none :: .where (isOfType s) [] :: post, a⟩ := by
    refine ⟨hq.1, fun o ho => ?_, hq.2.2⟩
    have hr := hq.2.1 (.related d (some (.type t))) (by simp)
    simp only [List.mem_append, List.mem_cons] at ho
    rcases ho with ho | rfl | rfl | ho
    · exact hq.2.1 o (by simp [ho])
    · exact ⟨hr.1, nofun⟩
    · exact ⟨isOfType_valid hs, nofun⟩
    · exact hq.2.1 o (by simp [ho])
  obtain ⟨st, es, h1, h2, h3⟩ := C94_written L rt ops hq h
  obtain ⟨st', es', k1, k2, k3⟩ := C94_written L rt' ops hq' h'
  obtain ⟨m, a1, a2⟩ := clauses_append h2
  obtain ⟨m', b1, b2⟩ := clauses_append k2
  have hm := clauses_perm (List.Perm.refl _) hpre (starts_perm (List.Perm.refl _) h1 k1) a1 b1
  cases a2 with
  | cons a2 a3 =>
    obtain ⟨m2', b3, b4⟩ := clauses_append (os := [.related d none, .where (isOfType s) []]) b2
    have := related_type hd hn hm a2 b3
    exact result_perm (clauses_perm (List.Perm.refl _) hpost this a3 b4) ha h3 k3

/-- C142 is false for degree 0: `related(0) t` keeps everything, the filter does not. -/
theorem C142_zero : ∃ (L : Lang) (rt : Runtime) (ops : List GOp) (src : QSelector) (t : Str) (es es' : List Entity),
    Names (accepted ops) t (L.cases.snake t) ∧
    runQuery L rt (Graph.run (ops ++ [.build])) (showQuery ⟨src, [.related (some "0".toList) (some (.type t))], none⟩) =
      .ok (.entities es) ∧
    runQuery L rt (Graph.run (ops ++ [.build]))
      (showQuery ⟨src, [.related (some "0".toList) none, .where (isOfType t) []], none⟩) = .ok (.entities es') ∧
    ¬ es.Perm es' := by
  refine ⟨exLang, exRt, exOps, .type "person".toList, "task".toList, [exAlice, exBob], [], ?_, by decide +kernel,
    by decide +kernel, by decide⟩
  intro e he
  rw [show accepted exOps = [exAlice, exTask, exBob] by decide] at he
  rw [sameText_iff]
  simp only [List.mem_cons, List.not_mem_nil, or_false] at he
  rcases he with rfl | rfl | rfl <;> decide +kernel

/-- Two types that differ in case only. -/
def exCaseOps : List GOp :=
  [.add ⟨"task.a".toList, "task".toList, []⟩, .add ⟨"task.b".toList, "Task".toList, []⟩]

/-- C142 is false for types that differ in case only: the selection takes one of them, the filter both. -/
theorem C142_case : ∃ (L : Lang) (rt : Runtime) (ops : List GOp) (t : Str) (es es' : List Entity),
    runQuery L rt (Graph.run ops) (showQuery ⟨.type t, [], none⟩) = .ok (.entities es) ∧
    runQuery L rt (Graph.run ops) (showQuery ⟨.wildcard, [.where (isOfType t) []], none⟩) = .ok (.entities es') ∧
    es.length = 1 ∧ es'.length = 2 :=
  ⟨exLang, exRt, exCaseOps, "task".toList, [⟨"task.a".toList, "task".toList, []⟩],
    [⟨"task.b".toList, "Task".toList, []⟩, ⟨"task.a".toList, "task".toList, []⟩], by decide +kernel, by decide +kernel,
    by decide, by decide⟩

/-! ## Examples -/

theorem exOps_names {s : Str} {t : EntityType} (hp : asciiLower "person".toList = asciiLower s ↔ "person".toList = t)
    (ht : asciiLower "task".toList = asciiLower s ↔ "task".toList = t) : Names (accepted exOps) s t := by
  intro e he
  rw [show accepted exOps = [exAlice, exTask, exBob] by decide] at he
  rw [sameText_iff]
  simp only [List.mem_cons, List.not_mem_nil, or_false] at he
  rcases he with rfl | rfl | rfl
  · exact hp
  · exact ht
  · exact hp

theorem exPerson_ident : IsIdent "person".toList := ⟨'p', "erson".toList, rfl, by decide, by decide⟩
theorem exTask_ident : IsIdent "task".toList := ⟨'t', "ask".toList, rfl, by decide, by decide⟩
theorem exName_ident : IsIdent "name".toList := ⟨'n', "ame".toList, rfl, by decide, by decide⟩
theorem exAge_ident : IsIdent "age".toList := ⟨'a', "ge".toList, rfl, by decide, by decide⟩

/-- `from * | where @type == "PERSON" | limit 1` -/
example : runQuery exLang exRt (Graph.run exOps)
      (showQuery ⟨.wildcard, [.where (isOfType "PERSON".toList) [], .limit "1".toList], none⟩) = .ok (.entities [exAlice]) := by
  have hq : ValidTree ⟨.type "person".toList, [.limit "1".toList], none⟩ := ⟨exPerson_ident, fun o ho => by
    cases List.mem_singleton.1 ho
    exact ⟨[], "1".toList, [], rfl, .inl rfl, ⟨by decide, by decide⟩, .inl rfl⟩, fun a h => by cases h⟩
  rw [C142_from_partial exLang exRt exOps hq (s := "PERSON".toList) ⟨by decide, .inl (by decide)⟩
    ⟨exAlice, by decide, by decide⟩ (exOps_names (by decide) (by decide))]
  decide +kernel

example : (∃ known, runQuery exLang exRt (Graph.run exOps) (showQuery ⟨.type "robot".toList, [], none⟩) =
      .error (.execution (.unknownEntityType (exLang.cases.snake "robot".toList) known))) ∧
    runQuery exLang exRt (Graph.run exOps) (showQuery ⟨.wildcard, [.where (isOfType "robot".toList) []], none⟩) =
      .ok (.entities []) :=
  C142_unknown exLang exRt exOps ⟨'r', "obot".toList, rfl, by decide, by decide⟩ ⟨by decide, .inl (by decide)⟩ (by decide)
    (by
      intro e he
      rw [show accepted exOps = [exAlice, exTask, exBob] by decide] at he
      rw [sameText_iff]
      simp only [List.mem_cons, List.not_mem_nil, or_false] at he
      rcases he with rfl | rfl | rfl <;> decide)

example : runQuery exLang exRt (Graph.run exOps) (showQuery ⟨.wildcard, [.where (hasId "person.bob".toList) []], none⟩) =
    .ok (.entities [exBob]) := by
  rw [C142_get_partial exLang exRt exOps ⟨by decide, .inl (by decide)⟩ (by
      intro e he
      rw [show accepted exOps = [exAlice, exTask, exBob] by decide] at he
      rw [sameText_iff]
      simp only [List.mem_cons, List.not_mem_nil, or_false] at he
      rcases he with rfl | rfl | rfl <;> decide),
    show (Graph.run exOps).getEntity "person.bob".toList = some exBob by decide]
  rfl

/-- `from task | related person` and `from task | related | where @type == "person"`. -/
example : ∃ r r', runQuery exLang exRt (Graph.run (exOps ++ [.build]))
      (showQuery ⟨.type "task".toList, [] ++ .related none (some (.type "person".toList)) :: [], none⟩) = .ok r ∧
    runQuery exLang exRt2 (Graph.run (exOps ++ [.build]))
      (showQuery ⟨.type "task".toList, [] ++ .related none none :: .where (isOfType "person".toList) [] :: [], none⟩) = .ok r' ∧
    SameResult r r' ∧ r = .entities [exAlice] := by
  have h : runQuery exLang exRt (Graph.run (exOps ++ [.build]))
      (showQuery ⟨.type "task".toList, [] ++ .related none (some (.type "person".toList)) :: [], none⟩) =
      .ok (.entities [exAlice]) := by decide +kernel
  have h' : runQuery exLang exRt2 (Graph.run (exOps ++ [.build]))
      (showQuery ⟨.type "task".toList, [] ++ .related none none :: .where (isOfType "person".toList) [] :: [], none⟩) =
      .ok (.entities [exAlice]) := by decide +kernel
  have hq : ValidTree ⟨.type "task".toList, [] ++ .related none (some (.type "person".toList)) :: [], none⟩ := by
    refine ⟨exTask_ident, fun o ho => ?_, fun a h => by cases h⟩
    cases List.mem_singleton.1 ho
    refine ⟨fun x hx => (by cases hx), fun x hx => ?_⟩
    cases hx
    exact exPerson_ident
  exact ⟨_, _, h, h', C142_related_partial exLang exRt exRt2 exOps hq (s := "person".toList) ⟨by decide, .inl (by decide)⟩
    (exOps_names (by decide) (by decide)) (fun x hx => by cases hx) (fun o ho => by cases ho) (fun o ho => by cases ho)
    trivial h h', rfl⟩

/-- `from * | where age in ["a"] | related`, where no entity has the field. -/
example : ∃ r, runQuery exLang exRt (Graph.run (exOps ++ [.build])) (showQuery ⟨.wildcard,
      [] ++ .where ⟨.regular "age".toList, .isIn, .list [.string "a".toList]⟩ [] :: [.related none none], none⟩) = .ok r ∧
    r = .entities [] := by
  have h : runQuery exLang exRt (Graph.run (exOps ++ [.build])) (showQuery ⟨.wildcard,
      [] ++ .where ⟨.regular "age".toList, .isIn, .list [.string "a".toList]⟩ [] :: [.related none none], none⟩) =
      .ok (.entities []) := by decide +kernel
  have hq : ValidTree ⟨.wildcard,
      [] ++ .where ⟨.regular "age".toList, .isIn, .list [.string "a".toList]⟩ [] :: [.related none none], none⟩ := by
    refine ⟨trivial, fun o ho => ?_, fun a h => by cases h⟩
    simp only [List.nil_append, List.mem_cons, List.not_mem_nil, or_false] at ho
    rcases ho with rfl | rfl
    · exact ⟨⟨exAge_ident, nofun, ⟨⟨by decide, .inl (by decide)⟩, trivial⟩⟩, nofun⟩
    · exact ⟨nofun, nofun⟩
  exact ⟨_, h, C141_query exLang exRt exOps (.inl rfl) (fun m hm => by cases hm) hq h⟩

/-- `from person | where name == "Bob" or name == "Alice"`; the same with `in` is an error. -/
example : (∃ es, runQuery exLang exRt (Graph.run (exOps ++ [.build])) (showQuery ⟨.type "person".toList,
      [.where ⟨.regular "name".toList, .equal, .string "Bob".toList⟩
        ([QValue.string "Alice".toList].map fun w => (.or, ⟨.regular "name".toList, .equal, w⟩))], none⟩) = .ok (.entities es) ∧
    ∀ e, e ∈ es ↔ e ∈ accepted exOps ∧ Selects exLang.cases (.type "person".toList) e ∧
      ∃ w ∈ [QValue.string "Bob".toList, .string "Alice".toList], Passes exLang e ⟨.regular "name".toList, .equal, w⟩) ∧
    (match runQuery exLang exRt (Graph.run (exOps ++ [.build])) (showQuery ⟨.type "person".toList,
      [.where ⟨.regular "name".toList, .isIn, .list [.string "Bob".toList, .string "Alice".toList]⟩ []], none⟩) with
      | .error (.execution _) => true
      | _ => false) = true := by
  have h : runQuery exLang exRt (Graph.run (exOps ++ [.build])) (showQuery ⟨.type "person".toList,
      [.where ⟨.regular "name".toList, .equal, .string "Bob".toList⟩
        ([QValue.string "Alice".toList].map fun w => (.or, ⟨.regular "name".toList, .equal, w⟩))], none⟩) =
      .ok (.entities [exAlice, exBob]) := by decide +kernel
  have hq : ValidTree ⟨.type "person".toList, [.where ⟨.regular "name".toList, .equal, .string "Bob".toList⟩
        ([QValue.string "Alice".toList].map fun w => (.or, ⟨.regular "name".toList, .equal, w⟩))], none⟩ := by
    refine ⟨exPerson_ident, fun o ho => ?_, fun a h => by cases h⟩
    cases List.mem_singleton.1 ho
    refine ⟨⟨exName_ident, by decide, .inl (by decide)⟩, fun m hm => ?_⟩
    cases List.mem_singleton.1 hm
    exact ⟨exName_ident, by decide, .inl (by decide)⟩
  obtain ⟨es, hes, hm⟩ := C141_or_partial exLang exRt exOps hq h
  cases hes
  exact ⟨⟨_, h, hm⟩, by decide +kernel⟩

end Firm
