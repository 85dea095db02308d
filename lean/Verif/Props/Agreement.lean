import Verif.Props.Meaning
import Mathlib.Data.List.Perm.Basic

/-!
# Queries do not depend on the order of things (C95)

Neither the order in which entities were added nor the orders of the hash containers show in a result, except
where the query cuts a list off or adds up floats.
-/

namespace Firm
open Spec

theorem keeps_perm {p : Entity → Prop} {es es' r r' : List Entity} (hp : es.Perm es') (h : Keeps p es r)
    (h' : Keeps p es' r') : r.Perm r' := by
  obtain ⟨k, rfl, hk⟩ := h
  obtain ⟨k', rfl, hk'⟩ := h'
  have : es'.filter k' = es'.filter k := by
    apply List.filter_congr
    intro e he
    rw [Bool.eq_iff_iff, hk' e he, hk e (hp.mem_iff.2 he)]
  rw [this]
  exact hp.filter k

theorem refLink_perm {all all' : List Entity} (hp : all.Perm all') : RefLink all = RefLink all' := by
  funext a b
  simp only [RefLink, hp.mem_iff]

theorem around_perm {all all' : List Entity} (ha : all.Perm all') {n : Nat} {p : Entity → Prop}
    {es es' r r' : List Entity} (hp : es.Perm es') (h : Around all n p es r) (h' : Around all' n p es' r') : r.Perm r' := by
  refine (List.perm_ext_iff_of_nodup h.1 h'.1).2 fun e => ?_
  rw [h.2, h'.2, refLink_perm ha, ha.mem_iff]
  simp only [hp.mem_iff]

theorem numeral_unique {t : Str} {n m : Nat} (h : Numeral t n) (h' : Numeral t m) : n = m := by
  have := (numeral_parse h).symm.trans (numeral_parse h')
  exact Option.some.inj this

/-- The clause does not cut the list off. -/
def Spec.NoLimit : QOp → Prop
  | .limit _ => False
  | _ => True

theorem clause_perm {L : Lang} {all all' : List Entity} (ha : all.Perm all') {o : QOp} (ho : NoLimit o)
    {es es' r r' : List Entity} (hp : es.Perm es') (h : Clause L all o es r) (h' : Clause L all' o es' r') : r.Perm r' := by
  cases h with
  | whereAll h1 h2 =>
    cases h' with
    | whereAll k1 k2 => exact keeps_perm hp h2 k2
    | whereAny k0 k1 k2 =>
      exfalso
      obtain ⟨m, hm⟩ := List.exists_mem_of_ne_nil _ k0
      have := (h1 m hm).symm.trans (k1 m hm)
      cases this
  | whereAny h0 h1 h2 =>
    cases h' with
    | whereAny k0 k1 k2 => exact keeps_perm hp h2 k2
    | whereAll k1 k2 =>
      exfalso
      obtain ⟨m, hm⟩ := List.exists_mem_of_ne_nil _ h0
      have := (h1 m hm).symm.trans (k1 m hm)
      cases this
  | around h1 h2 h3 =>
    cases h' with
    | around k1 k2 k3 => rw [numeral_unique h1 k1] at h3; exact around_perm ha hp h3 k3
    | none k1 => have := numeral_unique h1 k1; omega
  | next h1 => cases h' with
    | next k1 => exact around_perm ha hp h1 k1
  | none h1 =>
    cases h' with
    | around k1 k2 k3 => have := numeral_unique h1 k1; omega
    | none k1 => exact hp
  | order h1 h2 => cases h' with
    | order k1 k2 => exact h2.1.trans (hp.trans k2.1.symm)
  | orderUp h1 h2 => cases h' with
    | orderUp k1 k2 => exact h2.1.trans (hp.trans k2.1.symm)
  | limit => exact absurd ho id

theorem clauses_perm {L : Lang} {all all' : List Entity} (ha : all.Perm all') : ∀ {os : List QOp}, (∀ o ∈ os, NoLimit o) →
    ∀ {es es' r r' : List Entity}, es.Perm es' → Clauses L all os es r → Clauses L all' os es' r' → r.Perm r'
  | [], _, _, _, _, _, hp, h, h' => by cases h; cases h'; exact hp
  | o :: os, ho, _, _, _, _, hp, h, h' => by
    cases h with
    | cons h1 h2 => cases h' with
      | cons k1 k2 =>
        exact clauses_perm ha (fun x hx => ho x (by simp [hx])) (clause_perm ha (ho o (by simp)) hp h1 k1) h2 k2

theorem starts_perm {T : CaseTable} {all all' : List Entity} (ha : all.Perm all') {sel : QSelector} {es es' : List Entity}
    (h : Starts T all sel es) (h' : Starts T all' sel es') : es.Perm es' := by
  cases h with
  | type => cases h' with
    | type => exact ha.filter _
  | wildcard h1 h2 => cases h' with
    | wildcard k1 k2 =>
      refine List.Perm.flatMap ((List.perm_ext_iff_of_nodup h1 k1).2 fun t => ?_) fun t _ => ha.filter _
      rw [h2, k2]
      simp only [ha.mem_iff]

/-! ## Results -/

theorem present_perm {f : FieldId} {es es' : List Entity} (h : es.Perm es') : (present f es).Perm (present f es') :=
  h.filterMap _

/-- The same result up to order: the same entities, the same titles and rows, the same count. -/
def Spec.SameResult : QueryResult → QueryResult → Prop
  | .entities r, .entities r' => r.Perm r'
  | .aggregation (.select ts rows), .aggregation (.select ts' rows') => ts = ts' ∧ rows.Perm rows'
  | .aggregation (.count n), .aggregation (.count n') => n = n'
  | _, _ => False

theorem named_unique {T : CaseTable} : ∀ {ns : List QField} {fs gs : List FieldRef}, List.Forall₂ (FieldNamed T) ns fs →
    List.Forall₂ (FieldNamed T) ns gs → fs = gs
  | [], _, _, h, h' => by cases h; cases h'; rfl
  | n :: ns, _, _, h, h' => by
    cases h with
    | cons a b => cases h' with
      | cons c d => rw [fieldNamed_unique a c, named_unique b d]

theorem titles_unique : ∀ {fs : List FieldRef} {ts us : List Str}, List.Forall₂ Title fs ts →
    List.Forall₂ Title fs us → ts = us
  | [], _, _, h, h' => by cases h; cases h'; rfl
  | f :: fs, _, _, h, h' => by
    cases h with
    | cons a b => cases h' with
      | cons c d =>
        have : ∀ {t u : Str}, Title f t → Title f u → t = u := by
          intro t u h1 h2
          cases h1 <;> cases h2 <;> rfl
        rw [this a c, titles_unique b d]

theorem result_perm {L : Lang} {es es' : List Entity} (hp : es.Perm es') {a : Option QAgg} (ha : NoArithmetic a)
    {r r' : QueryResult} (h : Result L es a r) (h' : Result L es' a r') : SameResult r r' := by
  cases h with
  | entities => cases h'; exact hp
  | select h1 h2 => cases h' with
    | select k1 k2 =>
      have := named_unique h1 k1
      subst this
      exact ⟨titles_unique h2 k2, hp.map _⟩
  | count => cases h'; exact hp.length_eq
  | countField h1 => cases h' with
    | countField k1 =>
      rw [fieldNamed_unique h1 k1]
      exact hp.countP_eq _
  | sum => exact absurd ha id
  | average => exact absurd ha id
  | median => exact absurd ha id

/-- C95: two runs of a query without `limit` and without arithmetic, on graphs with the same entities, added in
any order and with any orders of the hash containers, give the same result up to order. Missing: `limit`
(`C95_limit`), for which see `C95_ordered_partial`, and sums of floats (`C95_floats`), for which see
`C95_integers_partial`. -/
theorem C95_same_partial (L : Lang) (rt rt' : Runtime) {ops ops' : List GOp} (hp : (accepted ops).Perm (accepted ops'))
    {q : QTree} (hq : ValidTree q) (ho : ∀ o ∈ q.operations, NoLimit o) (ha : NoArithmetic q.aggregation)
    {r r' : QueryResult} (h : runQuery L rt (Graph.run (ops ++ [.build])) (showQuery q) = .ok r)
    (h' : runQuery L rt' (Graph.run (ops' ++ [.build])) (showQuery q) = .ok r') : SameResult r r' := by
  obtain ⟨s, es, h1, h2, h3⟩ := C94_written L rt ops hq h
  obtain ⟨s', es', k1, k2, k3⟩ := C94_written L rt' ops' hq h'
  exact result_perm (clauses_perm hp ho (starts_perm hp h1 k1) h2 k2) ha h3 k3

/-! ## Sums -/

theorem ints_of_perm {ns : List Int} {vs : List FieldValue} (h : (ns.map FieldValue.integer).Perm vs) :
    ∃ ms : List Int, vs = ms.map .integer ∧ ms.Perm ns :=
  perm_map_inj (fun _ _ h => by cases h; rfl) h.symm

theorem sumOf_integer {env : Env} {vs vs' : List FieldValue} (hp : vs.Perm vs') {n : Int} {v : AggregateValue}
    (h : SumOf env vs (.integer n)) (h' : SumOf env vs' v) : v = .integer n := by
  have key : ∃ ns : List Int, vs = ns.map .integer ∧ -(2 ^ 63) ≤ n ∧ n < 2 ^ 63 ∧ (n - total ns) % 2 ^ 64 = 0 := by
    cases h with
    | empty => exact ⟨[], rfl, by decide, by decide, by decide⟩
    | exact h1 h2 h3 => exact ⟨_, rfl, h2, h3, by simp⟩
    | wrapped h1 _ h2 h3 h4 => exact ⟨_, rfl, h2, h3, h4⟩
  obtain ⟨ns, rfl, h1, h2, h3⟩ := key
  obtain ⟨ms, rfl, hperm⟩ := ints_of_perm hp
  rw [← total_perm hperm] at h3
  generalize hw : ms.map FieldValue.integer = ws at h'
  have inj : ∀ {xs : List Int}, ms.map FieldValue.integer = xs.map .integer → ms = xs := fun h =>
    (List.map_injective_iff.2 (fun _ _ h => by cases h; rfl)) h
  cases h' with
  | empty =>
    simp only [List.map_eq_nil_iff] at hw
    subst hw
    simp only [total] at h3
    congr 1
    omega
  | exact k1 k2 k3 =>
    have := inj hw
    subst this
    congr 1
    omega
  | wrapped k1 _ k2 k3 k4 =>
    have := inj hw
    subst this
    congr 1
    omega
  | floats k1 k2 =>
    obtain ⟨x, hx⟩ := k2
    rw [← hw] at hx
    simp at hx
  | amounts k1 k2 =>
    exfalso
    rename_i ds c d
    cases ds with
    | nil => exact k1 rfl
    | cons d ds => cases ms <;> simp at hw

/-- C95: if the sum of a query without `limit` is an integer in one run, it is the same integer in every other
one. -/
theorem C95_integers_partial (L : Lang) (rt rt' : Runtime) {ops ops' : List GOp}
    (hp : (accepted ops).Perm (accepted ops')) {q : QTree} (hq : ValidTree q) (ho : ∀ o ∈ q.operations, NoLimit o)
    {n : Int} {r : QueryResult}
    (h : runQuery L rt (Graph.run (ops ++ [.build])) (showQuery q) = .ok (.aggregation (.sum (.integer n))))
    (h' : runQuery L rt' (Graph.run (ops' ++ [.build])) (showQuery q) = .ok r) :
    r = .aggregation (.sum (.integer n)) := by
  obtain ⟨s, es, h1, h2, h3⟩ := C94_written L rt ops hq h
  obtain ⟨s', es', k1, k2, k3⟩ := C94_written L rt' ops' hq h'
  have hes := clauses_perm hp ho (starts_perm hp h1 k1) h2 k2
  generalize hag : q.aggregation = a at h3 k3
  cases h3 with
  | sum hn hv =>
    cases k3 with
    | sum kn kv =>
      have := fieldNamed_unique hn kn
      cases this
      rw [sumOf_integer (present_perm hes) hv kv]

/-! ## Ordered results -/

theorem starts_mem {T : CaseTable} {all : List Entity} {sel : QSelector} {es : List Entity} (h : Starts T all sel es) :
    ∀ e ∈ es, e ∈ all := by
  intro e he
  cases h with
  | type => exact (List.mem_filter.1 he).1
  | wildcard =>
    obtain ⟨t, _, he⟩ := List.mem_flatMap.1 he
    exact (List.mem_filter.1 he).1

theorem clause_mem {L : Lang} {all : List Entity} {o : QOp} {es r : List Entity} (hs : ∀ e ∈ es, e ∈ all)
    (h : Clause L all o es r) : ∀ e ∈ r, e ∈ all := by
  intro e he
  cases h with
  | whereAll _ h2 => obtain ⟨k, rfl, _⟩ := h2; exact hs e (List.mem_filter.1 he).1
  | whereAny _ _ h2 => obtain ⟨k, rfl, _⟩ := h2; exact hs e (List.mem_filter.1 he).1
  | around _ _ h3 => exact ((h3.2 e).1 he).1
  | next h1 => exact ((h1.2 e).1 he).1
  | none _ => exact hs e he
  | order _ h2 => exact hs e (h2.1.mem_iff.1 he)
  | orderUp _ h2 => exact hs e (h2.1.mem_iff.1 he)
  | limit => exact hs e (List.mem_append_left _ he)

theorem clauses_mem {L : Lang} {all : List Entity} : ∀ {os : List QOp} {es r : List Entity}, (∀ e ∈ es, e ∈ all) →
    Clauses L all os es r → ∀ e ∈ r, e ∈ all
  | [], _, _, hs, h => by cases h; exact hs
  | o :: os, _, _, hs, h => by
    cases h with
    | cons h1 h2 => exact clauses_mem (clause_mem hs h1) h2

theorem clauses_append {L : Lang} {all : List Entity} : ∀ {os os' : List QOp} {es r : List Entity},
    Clauses L all (os ++ os') es r → ∃ m, Clauses L all os es m ∧ Clauses L all os' m r
  | [], _, es, _, h => ⟨es, .nil es, h⟩
  | o :: os, _, _, _, h => by
    cases h with
    | cons h1 h2 =>
      obtain ⟨m, k1, k2⟩ := clauses_append h2
      exact ⟨m, .cons h1 k1, k2⟩

/-- Clauses that keep a part of the list in its order. -/
def Spec.KeepsOrder : QOp → Prop
  | .where _ _ => True
  | .limit _ => True
  | _ => False

theorem keeps_unique {p : Entity → Prop} {es r r' : List Entity} (h : Keeps p es r) (h' : Keeps p es r') : r = r' := by
  obtain ⟨k, rfl, hk⟩ := h
  obtain ⟨k', rfl, hk'⟩ := h'
  apply List.filter_congr
  intro e he
  rw [Bool.eq_iff_iff, hk' e he, hk e he]

theorem clause_unique {L : Lang} {all all' : List Entity} {o : QOp} (ho : KeepsOrder o) {es r r' : List Entity}
    (h : Clause L all o es r) (h' : Clause L all' o es r') : r = r' := by
  cases h with
  | whereAll h1 h2 =>
    cases h' with
    | whereAll k1 k2 => exact keeps_unique h2 k2
    | whereAny k0 k1 k2 =>
      exfalso
      obtain ⟨m, hm⟩ := List.exists_mem_of_ne_nil _ k0
      have := (h1 m hm).symm.trans (k1 m hm)
      cases this
  | whereAny h0 h1 h2 =>
    cases h' with
    | whereAny k0 k1 k2 => exact keeps_unique h2 k2
    | whereAll k1 k2 =>
      exfalso
      obtain ⟨m, hm⟩ := List.exists_mem_of_ne_nil _ h0
      have := (h1 m hm).symm.trans (k1 m hm)
      cases this
  | around => exact absurd ho id
  | next => exact absurd ho id
  | none => exact absurd ho id
  | order => exact absurd ho id
  | orderUp => exact absurd ho id
  | @limit t n r rest h1 h2 =>
    generalize hes : r ++ rest = es at h'
    cases h' with
    | @limit _ m _ rest' k1 k2 =>
      have := numeral_unique h1 k1
      subst this
      have hl := congrArg List.length hes
      simp only [List.length_append] at hl
      refine (List.append_inj hes ?_).1
      rcases h2 with h2 | ⟨h2, rfl⟩ <;> rcases k2 with k2 | ⟨k2, rfl⟩ <;> (try simp only [List.length_nil] at hl) <;> omega

theorem clauses_unique {L : Lang} {all all' : List Entity} : ∀ {os : List QOp}, (∀ o ∈ os, KeepsOrder o) →
    ∀ {es r r' : List Entity}, Clauses L all os es r → Clauses L all' os es r' → r = r'
  | [], _, _, _, _, h, h' => by cases h; cases h'; rfl
  | o :: os, ho, _, _, _, h, h' => by
    cases h with
    | cons h1 h2 => cases h' with
      | cons k1 k2 =>
        have := clause_unique (ho o (by simp)) h1 k1
        subst this
        exact clauses_unique (fun x hx => ho x (by simp [hx])) h2 k2

theorem ordered_unique {env : Env} {f : FieldRef} {dir : SortDirection} {es es' r r' : List Entity} (hp : es.Perm es')
    (hk : OneKind f es) (ht : ∀ a ∈ es, ∀ b ∈ es, Tied env f a b → a = b) (h : Ordered env f dir es r)
    (h' : Ordered env f dir es' r') : r = r' := by
  have hk' : OneKind f es' := oneKind_subset hk (fun e he => hp.mem_iff.2 he)
  refine List.Perm.eq_of_pairwise (le := InOrder env f dir) ?_ (h.2 hk).1 (h'.2 hk').1 (h.1.trans (hp.trans h'.1.symm))
  intro a b ha hb h1 h2
  have ha' := h.1.mem_iff.1 ha
  have hb' := hp.mem_iff.2 (h'.1.mem_iff.1 hb)
  cases dir with
  | ascending => exact ht a ha' b hb' ⟨h1, h2⟩
  | descending => exact ht a ha' b hb' ⟨h2, h1⟩

theorem result_unique {L : Lang} {es : List Entity} {a : Option QAgg} (ha : NoArithmetic a)
    {r r' : QueryResult} (h : Result L es a r) (h' : Result L es a r') : r = r' := by
  cases h with
  | entities => cases h'; rfl
  | select h1 h2 => cases h' with
    | select k1 k2 =>
      have := named_unique h1 k1
      subst this
      rw [titles_unique h2 k2]
  | count => cases h'; rfl
  | countField h1 => cases h' with
    | countField k1 => rw [fieldNamed_unique h1 k1]
  | sum => exact absurd ha id
  | average => exact absurd ha id
  | median => exact absurd ha id

/-- C95: a query that orders by a column of one kind without ties before it cuts the list off gives exactly the same
result in every run: `order` first, then only conditions and limits. -/
theorem C95_ordered_partial (L : Lang) (rt rt' : Runtime) {ops ops' : List GOp}
    (hp : (accepted ops).Perm (accepted ops')) {q : QTree} (hq : ValidTree q) {pre post : List QOp} {n : QField}
    {dir : Option SortDirection} {f : FieldRef} (hops : q.operations = pre ++ .order n dir :: post)
    (hpre : ∀ o ∈ pre, NoLimit o) (hpost : ∀ o ∈ post, KeepsOrder o) (hf : FieldNamed L.cases n f)
    (hk : OneKind f (accepted ops)) (ht : ∀ a ∈ accepted ops, ∀ b ∈ accepted ops, Tied L.env f a b → a = b)
    (ha : NoArithmetic q.aggregation) {r r' : QueryResult}
    (h : runQuery L rt (Graph.run (ops ++ [.build])) (showQuery q) = .ok r)
    (h' : runQuery L rt' (Graph.run (ops' ++ [.build])) (showQuery q) = .ok r') : r = r' := by
  obtain ⟨s, es, h1, h2, h3⟩ := C94_written L rt ops hq h
  obtain ⟨s', es', k1, k2, k3⟩ := C94_written L rt' ops' hq h'
  rw [hops] at h2 k2
  obtain ⟨m, h4, h5⟩ := clauses_append h2
  obtain ⟨m', k4, k5⟩ := clauses_append k2
  have hm := clauses_perm hp hpre (starts_perm hp h1 k1) h4 k4
  have hmem := clauses_mem (starts_mem h1) h4
  have heq : es = es' := by
    cases h5 with
    | cons h6 h7 => cases k5 with
      | cons k6 k7 =>
        have key : ∀ {x y}, Clause L (accepted ops) (.order n dir) m x → Clause L (accepted ops') (.order n dir) m' y →
            x = y := by
          intro x y hx hy
          have ho : Ordered L.env f (dir.getD .ascending) m x := by
            cases hx with
            | order h1 h2 => rw [fieldNamed_unique hf h1]; exact h2
            | orderUp h1 h2 => rw [fieldNamed_unique hf h1]; exact h2
          have ho' : Ordered L.env f (dir.getD .ascending) m' y := by
            cases hy with
            | order h1 h2 => rw [fieldNamed_unique hf h1]; exact h2
            | orderUp h1 h2 => rw [fieldNamed_unique hf h1]; exact h2
          exact ordered_unique hm (oneKind_subset hk hmem)
            (fun a ha b hb => ht a (hmem a ha) b (hmem b hb)) ho ho'
        have := key h6 k6
        subst this
        exact clauses_unique hpost h7 k7
  subst heq
  exact result_unique ha h3 k3

theorem textNotAfter_antisymm {a b : Str} (h : TextNotAfter a b) (h' : TextNotAfter b a) : a = b := by
  by_contra hne
  have h1 := (strCmp_lt_iff a b).2 ⟨h, hne⟩
  have h2 := (strCmp_lt_iff b a).2 ⟨h', fun h => hne h.symm⟩
  rw [strCmp_eq_swap, h1] at h2
  cases h2

/-- C95: ordering by the id before cutting off gives the same result in every run, if no two ids differ in
case only. -/
theorem C95_by_id_partial (L : Lang) (rt rt' : Runtime) {ops ops' : List GOp}
    (hp : (accepted ops).Perm (accepted ops')) {q : QTree} (hq : ValidTree q) {pre post : List QOp}
    {dir : Option SortDirection} (hops : q.operations = pre ++ .order (.metadata "id".toList) dir :: post)
    (hpre : ∀ o ∈ pre, NoLimit o) (hpost : ∀ o ∈ post, KeepsOrder o)
    (hl : ∀ a ∈ accepted ops, ∀ b ∈ accepted ops, L.env.lower a.id = L.env.lower b.id → a.id = b.id)
    (ha : NoArithmetic q.aggregation) {r r' : QueryResult}
    (h : runQuery L rt (Graph.run (ops ++ [.build])) (showQuery q) = .ok r)
    (h' : runQuery L rt' (Graph.run (ops' ++ [.build])) (showQuery q) = .ok r') : r = r' := by
  refine C95_ordered_partial L rt rt' hp hq hops hpre hpost .id ⟨.string, by decide, ?_⟩ ?_ ha h h'
  · intro e _ v hv
    cases hv
    rfl
  · intro a ha b hb ht
    have hid := hl a ha b hb (textNotAfter_antisymm ht.1 ht.2)
    exact List.inj_on_of_nodup_map (C01_unique ops) ha hb hid

/-! ## Where the order shows -/

/-! ## Arithmetic -/

theorem starts_nodup {T : CaseTable} {all : List Entity} (hn : all.Nodup) {sel : QSelector} {es : List Entity}
    (h : Starts T all sel es) : es.Nodup := by
  cases h with
  | type => exact hn.filter _
  | wildcard h1 _ =>
    rw [List.nodup_flatMap]
    refine ⟨fun t _ => hn.filter _, h1.imp ?_⟩
    intro a b hab e ha hb
    rw [List.mem_filter] at ha hb
    exact hab ((of_decide_eq_true ha.2).symm.trans (of_decide_eq_true hb.2))

theorem clause_nodup {L : Lang} {all : List Entity} {o : QOp} {es r : List Entity} (hn : es.Nodup)
    (h : Clause L all o es r) : r.Nodup := by
  cases h with
  | whereAll _ h2 => obtain ⟨k, rfl, _⟩ := h2; exact hn.filter _
  | whereAny _ _ h2 => obtain ⟨k, rfl, _⟩ := h2; exact hn.filter _
  | around _ _ h3 => exact h3.1
  | next h1 => exact h1.1
  | none _ => exact hn
  | order _ h2 => exact h2.1.nodup_iff.2 hn
  | orderUp _ h2 => exact h2.1.nodup_iff.2 hn
  | limit => exact (List.nodup_append.1 hn).1

theorem clauses_nodup {L : Lang} {all : List Entity} : ∀ {os : List QOp} {es r : List Entity}, es.Nodup →
    Clauses L all os es r → r.Nodup
  | [], _, _, hn, h => by cases h; exact hn
  | o :: os, _, _, hn, h => by
    cases h with
    | cons h1 h2 => exact clauses_nodup (clause_nodup hn h1) h2

/-- The column of a result is, up to order, a part of the column of the graph. -/
theorem column_part {L : Lang} {ops : List GOp} {sel : QSelector} {os : List QOp} {s es : List Entity}
    (h1 : Starts L.cases (accepted ops) sel s) (h2 : Clauses L (accepted ops) os s es) (f : FieldId) :
    ∃ part : List FieldValue, part.Perm (present f es) ∧ part.Sublist (present f (accepted ops)) := by
  have hn : (accepted ops).Nodup := (C01_unique ops).of_map _
  obtain ⟨l, hl, hs⟩ := List.subperm_of_subset (clauses_nodup (starts_nodup hn h1) h2) (clauses_mem (starts_mem h1) h2)
  exact ⟨_, hl.filterMap _, hs.filterMap _⟩

/-- The amounts in a column. -/
def Spec.amountsIn (vs : List FieldValue) : List Decimal :=
  vs.filterMap fun | .currency d _ => some d | _ => none

/-- The integers in a column. -/
def Spec.integersIn (vs : List FieldValue) : List Int :=
  vs.filterMap fun | .integer n => some n | _ => none

theorem weight_sublist (s : Nat) {a b : List Decimal} (h : a.Sublist b) : weight s a ≤ weight s b := by
  induction h with
  | slnil => exact Nat.le_refl _
  | cons d _ ih => exact ih.trans (Nat.le_add_left _ _)
  | cons_cons d _ ih => exact Nat.add_le_add_left ih _

theorem summable_part {a b c : List Decimal} (hp : a.Perm b) (hs : a.Sublist c) (h : Summable c) : Summable b := by
  obtain ⟨s, h1, h2, h3⟩ := h
  refine ⟨s, h1, fun d hd => h2 d (hs.subset (hp.mem_iff.2 hd)), ?_⟩
  rw [← weight_perm s hp]
  exact lt_of_le_of_lt (weight_sublist s hs) h3

theorem amountsIn_map (ds : List Decimal) (c : Str) : amountsIn (ds.map (.currency · c)) = ds := by
  induction ds with
  | nil => rfl
  | cons d ds ih =>
    show d :: amountsIn (ds.map (.currency · c)) = _
    rw [ih]

theorem sumOf_amount {env : Env} {vs vs' : List FieldValue} (hp : vs.Perm vs') (hs : Summable (amountsIn vs)) {d : Decimal}
    {c : Str} {v : AggregateValue} (h : SumOf env vs (.currency d c)) (h' : SumOf env vs' v) :
    ∃ d', v = .currency d' c ∧ d'.val = d.val := by
  cases h with
  | @amounts ds _ _ hne hv =>
    rw [amountsIn_map] at hs
    obtain ⟨ms, rfl, hperm⟩ := perm_map_inj (fun a b h => by cases h; rfl) hp.symm
    have hne' : ms ≠ [] := by rintro rfl; exact hne hperm.nil_eq.symm
    generalize hw : (ms.map fun d => FieldValue.currency d c) = ws at h'
    cases h' with
    | empty => exact absurd (List.map_eq_nil_iff.1 hw) hne'
    | @exact ns k1 _ _ =>
      exfalso
      cases ms with
      | nil => exact hne' rfl
      | cons m ms => cases ns <;> simp at hw
    | @wrapped ns _ k1 _ _ _ _ =>
      exfalso
      cases ms with
      | nil => exact hne' rfl
      | cons m ms => cases ns <;> simp at hw
    | floats _ k2 =>
      obtain ⟨x, hx⟩ := k2
      rw [← hw] at hx
      simp at hx
    | @amounts es c' d' k1 k2 =>
      have hc : c' = c ∧ es = ms := by
        have h1 := congrArg amountsIn hw
        rw [amountsIn_map, amountsIn_map] at h1
        subst h1
        cases ms with
        | nil => exact absurd rfl hne'
        | cons m ms =>
          rw [List.map_cons, List.map_cons, List.cons.injEq] at hw
          cases hw.1
          exact ⟨rfl, rfl⟩
      obtain ⟨rfl, rfl⟩ := hc
      refine ⟨d', rfl, ?_⟩
      rw [hv hs, k2 (summable_part hperm.symm (List.Sublist.refl _) hs), totalAmount_perm hperm]

/-- C95: if the sum of a query without `limit` is an amount in one run, it is the same amount of the same currency in every
other one, when all amounts of the column together leave room for summing. Missing: amounts beyond the range of the decimal
type. -/
theorem C95_amounts_partial (L : Lang) (rt rt' : Runtime) {ops ops' : List GOp}
    (hp : (accepted ops).Perm (accepted ops')) {q : QTree} (hq : ValidTree q) (ho : ∀ o ∈ q.operations, NoLimit o)
    {n : QField} (hn : q.aggregation = some (.sum n)) {f : FieldId} (hf : FieldNamed L.cases n (.regular f))
    (hs : Summable (amountsIn (present f (accepted ops)))) {d : Decimal} {c : Str} {r : QueryResult}
    (h : runQuery L rt (Graph.run (ops ++ [.build])) (showQuery q) = .ok (.aggregation (.sum (.currency d c))))
    (h' : runQuery L rt' (Graph.run (ops' ++ [.build])) (showQuery q) = .ok r) :
    ∃ d', r = .aggregation (.sum (.currency d' c)) ∧ d'.val = d.val := by
  obtain ⟨s, es, h1, h2, h3⟩ := C94_written L rt ops hq h
  obtain ⟨s', es', k1, k2, k3⟩ := C94_written L rt' ops' hq h'
  have hes := clauses_perm hp ho (starts_perm hp h1 k1) h2 k2
  rw [hn] at h3 k3
  cases h3 with
  | sum hn hv =>
    cases k3 with
    | sum kn kv =>
      cases fieldNamed_unique hn hf
      cases fieldNamed_unique kn hf
      obtain ⟨part, hperm, hsub⟩ := column_part h1 h2 f
      obtain ⟨d', rfl, hd⟩ := sumOf_amount (present_perm hes)
        (summable_part (hperm.filterMap _) (hsub.filterMap _) hs) hv kv
      exact ⟨d', rfl, hd⟩

theorem absTotal_sublist {a b : List Int} (h : a.Sublist b) : absTotal a ≤ absTotal b := by
  induction h with
  | slnil => exact Nat.le_refl _
  | cons d _ ih => exact ih.trans (Nat.le_add_left _ _)
  | cons_cons d _ ih => exact Nat.add_le_add_left ih _

theorem integersIn_map (ns : List Int) : integersIn (ns.map .integer) = ns := by
  induction ns with
  | nil => rfl
  | cons d ds ih =>
    show d :: integersIn (ds.map .integer) = _
    rw [ih]

/-- C95: the average of a column of integers does not depend on the order, when their sizes add up to at most `2^53`.
Missing: floats and amounts (`C95_floats` shows that their sums depend on the order), greater integers. -/
theorem C95_average_partial (L : Lang) (rt rt' : Runtime) {ops ops' : List GOp}
    (hp : (accepted ops).Perm (accepted ops')) {q : QTree} (hq : ValidTree q) (ho : ∀ o ∈ q.operations, NoLimit o)
    {n : QField} (hn : q.aggregation = some (.average n)) {f : FieldId} (hf : FieldNamed L.cases n (.regular f))
    {ns : List Int} (hi : present f (accepted ops) = ns.map .integer) (hs : absTotal ns ≤ 2 ^ 53) {r r' : QueryResult}
    (h : runQuery L rt (Graph.run (ops ++ [.build])) (showQuery q) = .ok r)
    (h' : runQuery L rt' (Graph.run (ops' ++ [.build])) (showQuery q) = .ok r') : r = r' := by
  obtain ⟨s, es, h1, h2, h3⟩ := C94_written L rt ops hq h
  obtain ⟨s', es', k1, k2, k3⟩ := C94_written L rt' ops' hq h'
  have hes := clauses_perm hp ho (starts_perm hp h1 k1) h2 k2
  rw [hn] at h3 k3
  cases h3 with
  | average hn hv =>
    cases k3 with
    | average kn kv =>
      cases fieldNamed_unique hn hf
      cases fieldNamed_unique kn hf
      obtain ⟨part, hperm, hsub⟩ := column_part h1 h2 f
      rw [hi] at hsub
      obtain ⟨ps, rfl, hps⟩ : ∃ ps : List Int, part = ps.map .integer ∧ ps.Sublist ns := by
        obtain ⟨ps, h1, h2⟩ := List.sublist_map_iff.1 hsub
        exact ⟨ps, h2, h1⟩
      obtain ⟨ms, hms, hm⟩ := ints_of_perm hperm
      obtain ⟨ms', hms', hm'⟩ := ints_of_perm (hms ▸ present_perm hes)
      have hle : absTotal ms ≤ 2 ^ 53 := by rw [absTotal_perm hm]; exact (absTotal_sublist hps).trans hs
      rw [hv.2.2.2 ms hms hle, kv.2.2.2 ms' hms' (by rw [absTotal_perm hm']; exact hle), total_perm hm', hm'.length_eq]

theorem floatNotAfter_antisymm {a b : F64} (ha : a ≠ .nan ∧ a ≠ .negZero) (hb : b ≠ .nan ∧ b ≠ .negZero)
    (h : FloatNotAfter a b) (h' : FloatNotAfter b a) : a = b := by
  rcases a with _ | (_ | _) | _ | p
  · exact absurd rfl ha.1
  · rcases b with _ | (_ | _) | _ | q <;> simp_all [FloatNotAfter, finiteValue]
  · rcases b with _ | (_ | _) | _ | q <;> simp_all [FloatNotAfter, finiteValue]
  · exact absurd rfl ha.2
  · rcases b with _ | (_ | _) | _ | q
    · exact absurd rfl hb.1
    · simp_all [FloatNotAfter, finiteValue]
    · simp_all [FloatNotAfter, finiteValue]
    · exact absurd rfl hb.2
    · have h1 : p ≤ q := by simpa [FloatNotAfter, finiteValue] using h
      have h2 : q ≤ p := by simpa [FloatNotAfter, finiteValue] using h'
      rw [le_antisymm h1 h2]

theorem middle_unique {s : List F64} {m m' : F64} (h : Middle s m) (h' : Middle s m') : m = m' := by
  rcases h with ⟨h0, h1⟩ | ⟨h0, a, b, h1, h2, rfl⟩ <;> rcases h' with ⟨k0, k1⟩ | ⟨k0, a', b', k1, k2, rfl⟩
  · exact Option.some.inj (h1.symm.trans k1)
  · omega
  · omega
  · rw [Option.some.inj (h1.symm.trans k1), Option.some.inj (h2.symm.trans k2)]

theorem asFloats_perm {env : Env} {vs vs' : List FieldValue} (h : vs.Perm vs') : (asFloats env vs).Perm (asFloats env vs') := by
  unfold asFloats
  exact h.filterMap _

/-- C95: the median of a column does not depend on the order, when the column has neither NaN nor negative zero. Missing:
these (see `C95_zero`). -/
theorem C95_median_partial (L : Lang) (rt rt' : Runtime) {ops ops' : List GOp}
    (hp : (accepted ops).Perm (accepted ops')) {q : QTree} (hq : ValidTree q) (ho : ∀ o ∈ q.operations, NoLimit o)
    {n : QField} (hn : q.aggregation = some (.median n)) {f : FieldId} (hf : FieldNamed L.cases n (.regular f))
    (hx : ∀ x ∈ asFloats L.env (present f (accepted ops)), x ≠ .nan ∧ x ≠ .negZero) {r r' : QueryResult}
    (h : runQuery L rt (Graph.run (ops ++ [.build])) (showQuery q) = .ok r)
    (h' : runQuery L rt' (Graph.run (ops' ++ [.build])) (showQuery q) = .ok r') : r = r' := by
  obtain ⟨s, es, h1, h2, h3⟩ := C94_written L rt ops hq h
  obtain ⟨s', es', k1, k2, k3⟩ := C94_written L rt' ops' hq h'
  have hes := clauses_perm hp ho (starts_perm hp h1 k1) h2 k2
  rw [hn] at h3 k3
  cases h3 with
  | median hn hv =>
    cases k3 with
    | median kn kv =>
      cases fieldNamed_unique hn hf
      cases fieldNamed_unique kn hf
      obtain ⟨part, hperm, hsub⟩ := column_part h1 h2 f
      have hfl := asFloats_perm (env := L.env) (present_perm (f := f) hes)
      have hx1 : ∀ x ∈ asFloats L.env (present f es), x ≠ .nan ∧ x ≠ .negZero := by
        intro x hm
        have := (asFloats_perm (env := L.env) hperm).mem_iff.2 hm
        exact hx x ((show (asFloats L.env part).Sublist _ by unfold asFloats; exact hsub.filterMap _).subset this)
      obtain ⟨t, ht1, ht2, ht3⟩ := hv.2.2.1 fun x hm => (hx1 x hm).1
      obtain ⟨t', ht1', ht2', ht3'⟩ := kv.2.2.1 fun x hm => (hx1 x (hfl.mem_iff.2 hm)).1
      have : t = t' := by
        refine List.Perm.eq_of_pairwise (le := FloatNotAfter) ?_ ht2 ht2' (ht1.trans (hfl.trans ht1'.symm))
        intro a b ha hb
        exact floatNotAfter_antisymm (hx1 a (ht1.mem_iff.1 ha)) (hx1 b (hfl.mem_iff.2 (ht1'.mem_iff.1 hb)))
      subst this
      rw [middle_unique ht3 ht3']

/-- A runtime that keeps every order. -/
def exRt2 : Runtime where
  order := fun _ l => l
  order_perm := fun _ l => List.Perm.refl l
  sort := fun le l => some (stableSort le l)
  sort_perm := by intro le l l' h; cases h; exact stableSort_perm le l
  sort_stable := fun _ _ _ _ => rfl

/-- Entities of three types with floats. -/
def exFloats : List GOp :=
  [.add ⟨"a.a".toList, "a".toList, [("x".toList, .float (.fin (2 ^ 53)))]⟩,
   .add ⟨"b.b".toList, "b".toList, [("x".toList, .float (.fin 1))]⟩,
   .add ⟨"c.c".toList, "c".toList, [("x".toList, .float (.fin 1))]⟩]

/-- C95 is false for `limit`: which entity comes first out of `from *` depends on the order of the types. -/
theorem C95_limit : ∃ (L : Lang) (rt rt' : Runtime) (ops : List GOp) (e e' : Entity), e ≠ e' ∧
    runQuery L rt (Graph.run (ops ++ [.build])) "from * | limit 1".toList = .ok (.entities [e]) ∧
    runQuery L rt' (Graph.run (ops ++ [.build])) "from * | limit 1".toList = .ok (.entities [e']) :=
  ⟨exLang, exRt, exRt2, exFloats, ⟨"c.c".toList, "c".toList, [("x".toList, .float (.fin 1))]⟩,
    ⟨"a.a".toList, "a".toList, [("x".toList, .float (.fin (2 ^ 53)))]⟩, by decide +kernel, by decide +kernel,
    by decide +kernel⟩

/-- C95 is false for sums of floats: they depend on the order of the types. -/
theorem C95_floats : ∃ (L : Lang) (rt rt' : Runtime) (ops : List GOp) (x y : F64), x ≠ y ∧
    runQuery L rt (Graph.run (ops ++ [.build])) "from * | sum x".toList = .ok (.aggregation (.sum (.float x))) ∧
    runQuery L rt' (Graph.run (ops ++ [.build])) "from * | sum x".toList = .ok (.aggregation (.sum (.float y))) :=
  ⟨exLang, exRt, exRt2, exFloats, .fin (2 ^ 53 + 2), .fin (2 ^ 53), by decide +kernel, by decide +kernel, by decide +kernel⟩

/-- Entities of three types with zeros. -/
def exZeros : List GOp :=
  [.add ⟨"a.a".toList, "a".toList, [("x".toList, .float .negZero)]⟩,
   .add ⟨"b.b".toList, "b".toList, [("x".toList, .float (.fin 0))]⟩]

/-- C95 is false for medians with both zeros: which of them is at a place depends on the order of the types. -/
theorem C95_zero : ∃ (L : Lang) (rt rt' : Runtime) (ops : List GOp) (x y : F64), x ≠ y ∧
    runQuery L rt (Graph.run (ops ++ [.build])) "from * | median x".toList = .ok (.aggregation (.median x)) ∧
    runQuery L rt' (Graph.run (ops ++ [.build])) "from * | median x".toList = .ok (.aggregation (.median y)) :=
  ⟨exLang, exRt, exRt2, exZeros ++ [.add ⟨"c.c".toList, "c".toList, [("x".toList, .float (.fin 1))]⟩], .negZero, .fin 0, by decide +kernel, by decide +kernel, by decide +kernel⟩

/-! ### Examples -/

/-- `from * | where @id != "c.c" | order @id desc | limit 1` -/
def exAgreeTree : QTree where
  source := .wildcard
  operations :=
    [.where ⟨.metadata "id".toList, .notEqual, .string "c.c".toList⟩ [],
     .order (.metadata "id".toList) (some .descending), .limit "1".toList]
  aggregation := none

theorem exAgreeTree_valid : ValidTree exAgreeTree := by
  refine ⟨trivial, ?_, nofun⟩
  intro o ho
  simp only [exAgreeTree, List.mem_cons, List.not_mem_nil, or_false] at ho
  rcases ho with rfl | rfl | rfl
  · exact ⟨⟨⟨'i', "d".toList, rfl, by decide, by decide⟩, by decide, .inl (by decide)⟩, nofun⟩
  · exact ⟨'i', "d".toList, rfl, by decide, by decide⟩
  · exact ⟨[], "1".toList, [], rfl, .inl rfl, ⟨by decide, by decide⟩, .inl rfl⟩

/-- The same entities, added in another order and over a detour. -/
def exFloats2 : List GOp := .add exAlice :: .clear :: .build :: exFloats.reverse

example {r r' : QueryResult} (h : runQuery exLang exRt (Graph.run (exFloats ++ [.build])) (showQuery exAgreeTree) = .ok r)
    (h' : runQuery exLang exRt2 (Graph.run (exFloats2 ++ [.build])) (showQuery exAgreeTree) = .ok r') : r = r' :=
  C95_by_id_partial exLang exRt exRt2 (by decide +kernel) exAgreeTree_valid (pre := [_]) (post := [_]) rfl
    (by intro o ho; cases List.mem_singleton.1 ho; trivial) (by intro o ho; cases List.mem_singleton.1 ho; trivial)
    (by decide +kernel) trivial h h'

/-- The runs of the example succeed, on lists that come in different orders. -/
example :
    runQuery exLang exRt (Graph.run (exFloats ++ [.build])) (showQuery exAgreeTree) =
      .ok (.entities [⟨"b.b".toList, "b".toList, [("x".toList, .float (.fin 1))]⟩]) ∧
    runQuery exLang exRt2 (Graph.run (exFloats2 ++ [.build])) (showQuery exAgreeTree) =
      .ok (.entities [⟨"b.b".toList, "b".toList, [("x".toList, .float (.fin 1))]⟩]) := by
  constructor <;> decide +kernel

/-- `from * | count` -/
example : ∃ q : QTree, ValidTree q ∧ (∀ o ∈ q.operations, NoLimit o) ∧
    runQuery exLang exRt (Graph.run (exFloats ++ [.build])) (showQuery q) = .ok (.aggregation (.count 3)) ∧
    runQuery exLang exRt2 (Graph.run (exFloats2 ++ [.build])) (showQuery q) = .ok (.aggregation (.count 3)) :=
  ⟨⟨.wildcard, [], some (.count none)⟩, ⟨trivial, nofun, by intro a ha; cases ha; exact nofun⟩, nofun,
    by decide +kernel, by decide +kernel⟩

/-- Integers, one of them close to the limit. -/
def exInts : List GOp :=
  [.add ⟨"a.a".toList, "a".toList, [("x".toList, .integer (2 ^ 63 - 8))]⟩,
   .add ⟨"b.b".toList, "b".toList, [("x".toList, .integer 5)]⟩]

example : ∃ q : QTree, ValidTree q ∧ (∀ o ∈ q.operations, NoLimit o) ∧
    runQuery exLang exRt (Graph.run (exInts ++ [.build])) (showQuery q) =
      .ok (.aggregation (.sum (.integer (2 ^ 63 - 3)))) ∧
    runQuery exLang exRt2 (Graph.run (exInts.reverse ++ [.build])) (showQuery q) =
      .ok (.aggregation (.sum (.integer (2 ^ 63 - 3)))) :=
  ⟨⟨.wildcard, [], some (.sum (.regular "x".toList))⟩,
    ⟨trivial, nofun, by intro a ha; cases ha; exact ⟨'x', [], rfl, by decide, by decide⟩⟩, nofun,
    by decide +kernel, by decide +kernel⟩

/-- `from * | median x`, `from * | average x` -/
def exMedianTree : QTree := ⟨.wildcard, [], some (.median (.regular "x".toList))⟩
def exAverageTree : QTree := ⟨.wildcard, [], some (.average (.regular "x".toList))⟩

example {r r' : QueryResult} (h : runQuery exLang exRt (Graph.run (exFloats ++ [.build])) (showQuery exMedianTree) = .ok r)
    (h' : runQuery exLang exRt2 (Graph.run (exFloats2 ++ [.build])) (showQuery exMedianTree) = .ok r') : r = r' :=
  C95_median_partial exLang exRt exRt2 (by decide +kernel) (q := exMedianTree)
    ⟨trivial, nofun, by intro a ha; cases ha; exact ⟨'x', [], rfl, by decide, by decide⟩⟩ nofun rfl
    (show FieldNamed exLang.cases (.regular "x".toList) (.regular (exLang.cases.snake "x".toList)) from .regular _)
    (by decide +kernel) h h'

example {r r' : QueryResult} (h : runQuery exLang exRt (Graph.run (exInts.tail ++ [.build])) (showQuery exAverageTree) = .ok r)
    (h' : runQuery exLang exRt2 (Graph.run (exInts.tail ++ [.build])) (showQuery exAverageTree) = .ok r') : r = r' :=
  C95_average_partial exLang exRt exRt2 (by decide +kernel) (q := exAverageTree)
    ⟨trivial, nofun, by intro a ha; cases ha; exact ⟨'x', [], rfl, by decide, by decide⟩⟩ nofun rfl
    (show FieldNamed exLang.cases (.regular "x".toList) (.regular (exLang.cases.snake "x".toList)) from .regular _)
    (ns := [5]) (by decide +kernel) (by decide +kernel) h h'

example : runQuery exLang exRt (Graph.run (exFloats ++ [.build])) (showQuery exMedianTree) = .ok (.aggregation (.median (.fin 1))) ∧
    runQuery exLang exRt (Graph.run (exInts.tail ++ [.build])) (showQuery exAverageTree) =
      .ok (.aggregation (.average (.fin 5))) := by
  constructor <;> decide +kernel

/-- Amounts with different numbers of decimals. -/
def exAmounts : List GOp :=
  [.add ⟨"a.a".toList, "a".toList, [("x".toList, .currency ⟨150, 2⟩ "EUR".toList)]⟩,
   .add ⟨"b.b".toList, "b".toList, [("x".toList, .currency ⟨-25, 1⟩ "EUR".toList)]⟩]

example : Summable (amountsIn (present "x".toList (accepted exAmounts))) :=
  ⟨2, by decide +kernel, by decide +kernel, by decide +kernel⟩

example : runQuery exLang exRt (Graph.run (exAmounts ++ [.build])) "from * | sum x".toList =
      .ok (.aggregation (.sum (.currency ⟨-100, 2⟩ "EUR".toList))) ∧
    runQuery exLang exRt2 (Graph.run (exAmounts ++ [.build])) "from * | sum x".toList =
      .ok (.aggregation (.sum (.currency ⟨-100, 2⟩ "EUR".toList))) := by
  constructor <;> decide +kernel

end Firm
