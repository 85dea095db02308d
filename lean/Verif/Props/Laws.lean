import Verif.Props.SortKeys
import Verif.Props.Steps
import Verif.Props.Ways

/-!
# C168: clauses that can be left out, put together or exchanged
-/

namespace Firm
open Spec

namespace Spec

/-- An answer that a query text may get: the iteration order of hash containers and the sort are not fixed. -/
def MayAnswer (L : Lang) (g : Graph) (s : Str) (a : Except QueryFailure QueryResult) : Prop :=
  ∃ rt : Runtime, runQuery L rt g s = a

/-- Two lists of clauses that can replace each other wherever they stand in a query: the answers that the query may
get, failures included, are the same. -/
def Exchangeable (L : Lang) (g : Graph) (A B : List QOp) : Prop :=
  ∀ (src : QSelector) (pre post : List QOp) (agg : Option QAgg) (a : Except QueryFailure QueryResult),
    ValidTree ⟨src, pre ++ A ++ post, agg⟩ → ValidTree ⟨src, pre ++ B ++ post, agg⟩ →
    (MayAnswer L g (showQuery ⟨src, pre ++ A ++ post, agg⟩) a ↔ MayAnswer L g (showQuery ⟨src, pre ++ B ++ post, agg⟩) a)

end Spec

/-! ## Runs whose clauses are counted from another number -/

/-- The clauses of `A`, run before `n` others. -/
def applyBefore (env : Env) (rt : Runtime) (g : Graph) (n : Nat) :
    List QueryOperation → List Entity → Except QueryError (List Entity)
  | [], es => .ok es
  | op :: ops, es =>
    match applyOperation env rt (n + ops.length) g es op with
    | .error err => .error err
    | .ok es' => applyBefore env rt g n ops es'

theorem applyBefore_zero (env : Env) (rt : Runtime) (g : Graph) (ops : List QueryOperation) :
    ∀ es, applyBefore env rt g 0 ops es = applyOperations env rt g ops es := by
  induction ops with
  | nil => intro es; rfl
  | cons op ops ih =>
    intro es
    simp only [applyBefore, applyOperations, Nat.zero_add]
    cases applyOperation env rt ops.length g es op with
    | error e => rfl
    | ok es' => exact ih es'

theorem applyBefore_append (env : Env) (rt : Runtime) (g : Graph) (n : Nat) (A B : List QueryOperation) :
    ∀ es, applyBefore env rt g n (A ++ B) es =
      match applyBefore env rt g (n + B.length) A es with
      | .error e => .error e
      | .ok es' => applyBefore env rt g n B es' := by
  induction A with
  | nil => intro es; rfl
  | cons op A ih =>
    intro es
    simp only [List.cons_append, applyBefore, List.length_append]
    rw [show n + (A.length + B.length) = n + B.length + A.length by omega]
    cases applyOperation env rt (n + B.length + A.length) g es op with
    | error e => rfl
    | ok es' => exact ih es'

theorem relatedLoop_congr {rt rt' : Runtime} {i j : Nat} (g : Graph) : ∀ (n : Nat),
    (∀ k, 1 ≤ k → k ≤ n → rt.order (i * 8 + k) = rt'.order (j * 8 + k)) →
    ∀ cur all, relatedLoop rt i g n cur all = relatedLoop rt' j g n cur all := by
  intro n
  induction n with
  | zero => intro _ _ _; rfl
  | succ n ih =>
    intro h cur all
    rw [relatedLoop_succ, relatedLoop_succ, show i * 8 + n + 1 = i * 8 + (n + 1) by omega,
      show j * 8 + n + 1 = j * 8 + (n + 1) by omega, h (n + 1) (by omega) (by omega)]
    rw [ih (fun k h1 h2 => h k h1 (by omega))]

theorem applyOperation_congr {env : Env} {rt rt' : Runtime} {i j : Nat} (g : Graph) (hsort : rt.sort = rt'.sort)
    (h : ∀ k, 1 ≤ k → k ≤ 7 → rt.order (i * 8 + k) = rt'.order (j * 8 + k)) (es : List Entity) (op : QueryOperation) :
    applyOperation env rt i g es op = applyOperation env rt' j g es op := by
  cases op with
  | «where» c => rfl
  | limit n => rfl
  | order f d => simp only [applyOperation, orderBy, hsort]
  | related d t =>
    simp only [applyOperation, getRelatedEntities]
    rw [h 7 (by omega) (by omega), relatedLoop_congr g (min d maxDegrees) (fun k h1 h2 => h k h1 (by
      unfold maxDegrees at h2; omega))]

theorem applyBefore_congr {env : Env} {rt rt' : Runtime} {i j : Nat} (g : Graph) (hsort : rt.sort = rt'.sort)
    (ops : List QueryOperation) (h : ∀ k, 1 ≤ k → k < 8 * ops.length → rt.order (i * 8 + k) = rt'.order (j * 8 + k)) :
    ∀ es, applyBefore env rt g i ops es = applyBefore env rt' g j ops es := by
  induction ops with
  | nil => intro es; rfl
  | cons op ops ih =>
    intro es
    simp only [applyBefore]
    have h1 : applyOperation env rt (i + ops.length) g es op = applyOperation env rt' (j + ops.length) g es op := by
      refine applyOperation_congr g hsort (fun k h1 h2 => ?_) es op
      rw [show (i + ops.length) * 8 + k = i * 8 + (8 * ops.length + k) by omega,
        show (j + ops.length) * 8 + k = j * 8 + (8 * ops.length + k) by omega]
      exact h _ (by omega) (by simp only [List.length_cons]; omega)
    rw [h1]
    cases applyOperation env rt' (j + ops.length) g es op with
    | error e => rfl
    | ok es' => exact ih (fun k h1 h2 => h k h1 (by simp only [List.length_cons]; omega)) es'

/-- A runtime with other iteration orders. -/
def Runtime.reorder (rt : Runtime) (o : Nat → List Str → List Str) (ho : ∀ n l, (o n l).Perm l) : Runtime :=
  { rt with order := o, order_perm := ho }

/-- What the clauses of `A` give, the clauses of `B` give under some iteration orders. -/
def Simulated (env : Env) (g : Graph) (A B : List QueryOperation) : Prop :=
  ∀ (n : Nat) (rt : Runtime) (es : List Entity), Bag g es →
    ∃ rt' : Runtime, rt'.sort = rt.sort ∧ applyBefore env rt g n A es = applyBefore env rt' g n B es

theorem Bag.applyBefore {g : Graph} (h : Inv g) (env : Env) (rt : Runtime) (n : Nat) (ops : List QueryOperation)
    {es r : List Entity} (hb : Bag g es) (hr : applyBefore env rt g n ops es = .ok r) : Bag g r := by
  induction ops generalizing es with
  | nil => simp only [Firm.applyBefore, Except.ok.injEq] at hr; subst hr; exact hb
  | cons op ops ih =>
    simp only [Firm.applyBefore] at hr
    cases ho : Firm.applyOperation env rt (n + ops.length) g es op with
    | error e => rw [ho] at hr; cases hr
    | ok es' => rw [ho] at hr; exact ih (Bag.applyOperation h env rt _ op hb ho) hr

/-- The run up to the aggregation. -/
def runClauses (env : Env) (rt : Runtime) (g : Graph) (src : EntitySelector) (ops : List QueryOperation) :
    Except QueryError (List Entity) :=
  match selectFrom rt g src with
  | .error e => .error e
  | .ok es => applyOperations env rt g ops es

theorem execute_runClauses (env : Env) (rt : Runtime) (g : Graph) (q : Query) :
    q.execute env rt g =
      match runClauses env rt g q.source q.operations with
      | .error e => .error e
      | .ok es' =>
        match q.aggregation with
        | none => .ok (.entities es')
        | some a =>
          match a.execute env es' with
          | .ok r => .ok (.aggregation r)
          | .error e => .error e := by
  unfold Query.execute runClauses
  cases selectFrom rt g q.source with
  | error e => rfl
  | ok es => rfl

theorem selectFrom_congr {rt rt' : Runtime} (g : Graph) (h : rt.order 0 = rt'.order 0) (src : EntitySelector) :
    selectFrom rt g src = selectFrom rt' g src := by
  cases src with
  | type t => simp only [selectFrom, h]
  | all => simp only [selectFrom, h]

/-- Simulated clauses are simulated in every query. -/
theorem simulated_run {env : Env} {g : Graph} (hI : Inv g) {A B : List QueryOperation} (hAB : Simulated env g A B)
    (src : EntitySelector) (pre post : List QueryOperation) (rt : Runtime) :
    ∃ rt' : Runtime, runClauses env rt g src (pre ++ A ++ post) = runClauses env rt' g src (pre ++ B ++ post) := by
  -- the runtime with the orders of `rt` before and after the clauses and those of `rt2` for them
  let mix : Runtime → Runtime := fun rt2 => rt.reorder
    (fun k => if k = 0 then rt.order 0 else if k < 8 * post.length + 1 then rt.order k else
      if k < 8 * (post.length + B.length) then rt2.order k else rt.order (k - 8 * B.length + 8 * A.length))
    (fun k l => by
      split
      · exact rt.order_perm _ _
      · split
        · exact rt.order_perm _ _
        · split
          · exact rt2.order_perm _ _
          · exact rt.order_perm _ _)
  have hsel : ∀ rt2, selectFrom rt g src = selectFrom (mix rt2) g src := fun rt2 =>
    selectFrom_congr g (by simp [mix, Runtime.reorder]) src
  have hpre : ∀ rt2 es, applyBefore env rt g (A.length + post.length) pre es =
      applyBefore env (mix rt2) g (B.length + post.length) pre es := by
    intro rt2 es
    refine applyBefore_congr (rt := rt) (rt' := mix rt2) g rfl pre (fun k h1 h2 => ?_) es
    simp only [mix, Runtime.reorder]
    rw [if_neg (by omega), if_neg (by omega), if_neg (by omega)]
    congr 1
    omega
  have hpost : ∀ rt2 es, applyBefore env rt g 0 post es = applyBefore env (mix rt2) g 0 post es := by
    intro rt2 es
    refine applyBefore_congr (rt := rt) (rt' := mix rt2) g rfl post (fun k h1 h2 => ?_) es
    simp only [mix, Runtime.reorder]
    rw [if_neg (by omega), if_pos (by omega)]
  have hmid : ∀ rt2 : Runtime, rt2.sort = rt.sort → ∀ es, applyBefore env rt2 g post.length B es =
      applyBefore env (mix rt2) g post.length B es := by
    intro rt2 hs es
    refine applyBefore_congr (rt := rt2) (rt' := mix rt2) g hs B (fun k h1 h2 => ?_) es
    simp only [mix, Runtime.reorder]
    rw [if_neg (by omega), if_neg (by omega), if_pos (by omega)]
  have hrun : ∀ (r : Runtime) (C : List QueryOperation) (es : List Entity),
      applyOperations env r g (pre ++ C ++ post) es =
        match applyBefore env r g (C.length + post.length) pre es with
        | .error e => .error e
        | .ok es1 =>
          match applyBefore env r g post.length C es1 with
          | .error e => .error e
          | .ok es2 => applyBefore env r g 0 post es2 := by
    intro r C es
    rw [← applyBefore_zero, List.append_assoc, applyBefore_append, List.length_append, Nat.zero_add]
    cases applyBefore env r g (C.length + post.length) pre es with
    | error e => rfl
    | ok es1 =>
      dsimp only
      rw [applyBefore_append, Nat.zero_add]
  unfold runClauses
  cases hs : selectFrom rt g src with
  | error e => exact ⟨mix rt, by rw [← hsel, hs]⟩
  | ok es =>
    dsimp only
    cases h1 : applyBefore env rt g (A.length + post.length) pre es with
    | error e =>
      refine ⟨mix rt, ?_⟩
      rw [← hsel, hs]
      dsimp only
      rw [hrun, hrun, h1, ← hpre, h1]
    | ok es1 =>
      obtain ⟨rt2, hs2, h2⟩ := hAB post.length rt es1
        (Bag.applyBefore hI env rt _ pre (Bag.selectFrom hI rt src hs) h1)
      refine ⟨mix rt2, ?_⟩
      rw [← hsel, hs]
      dsimp only
      rw [hrun, hrun, h1, ← hpre, h1]
      dsimp only
      rw [h2, hmid rt2 hs2]
      cases applyBefore env (mix rt2) g post.length B es1 with
      | error e => rfl
      | ok es2 => exact hpost rt2 es2

theorem collectResults_append {α β ε : Type} (f : α → Except ε β) (l l' : List α) :
    collectResults f (l ++ l') =
      match collectResults f l with
      | .error e => .error e
      | .ok rs =>
        match collectResults f l' with
        | .error e => .error e
        | .ok rs' => .ok (rs ++ rs') := by
  induction l with
  | nil =>
    simp only [List.nil_append, collectResults]
    cases collectResults f l' with
    | error e => rfl
    | ok rs => rfl
  | cons x l ih =>
    simp only [List.cons_append, collectResults]
    cases f x with
    | error e => rfl
    | ok r =>
      dsimp only
      rw [ih]
      cases collectResults f l with
      | error e => rfl
      | ok rs =>
        cases collectResults f l' with
        | error e => rfl
        | ok rs' => rfl

/-- The same for query texts. -/
theorem simulated_text {L : Lang} {g : Graph} (hI : Inv g) {A B : List QOp} {as bs : List ParsedOperation}
    (hA : collectResults (readOp L) A = .ok as) (hB : collectResults (readOp L) B = .ok bs)
    (hAB : Simulated L.env g (as.map (convertOp L.cases)) (bs.map (convertOp L.cases)))
    {src : QSelector} {pre post : List QOp} {agg : Option QAgg} {a : Except QueryFailure QueryResult}
    (hv : ValidTree ⟨src, pre ++ A ++ post, agg⟩) (hv' : ValidTree ⟨src, pre ++ B ++ post, agg⟩)
    (h : MayAnswer L g (showQuery ⟨src, pre ++ A ++ post, agg⟩) a) :
    MayAnswer L g (showQuery ⟨src, pre ++ B ++ post, agg⟩) a := by
  obtain ⟨rt, h⟩ := h
  unfold runQuery parseQuery at h
  rw [qQuery_show hv] at h
  dsimp only at h
  have happ : ∀ {C : List QOp} {cs : List ParsedOperation}, collectResults (readOp L) C = .ok cs →
      collectResults (readOp L) (pre ++ C ++ post) =
        match collectResults (readOp L) pre with
        | .error e => .error e
        | .ok ps =>
          match collectResults (readOp L) post with
          | .error e => .error e
          | .ok qs => .ok (ps ++ cs ++ qs) := by
    intro C cs hC
    rw [List.append_assoc, collectResults_append, collectResults_append, hC]
    cases collectResults (readOp L) pre with
    | error e => rfl
    | ok ps =>
      cases collectResults (readOp L) post with
      | error e => rfl
      | ok qs => simp
  rw [happ hA] at h
  cases hp : collectResults (readOp L) pre with
  | error e =>
    rw [hp] at h
    refine ⟨rt, ?_⟩
    unfold runQuery parseQuery
    rw [qQuery_show hv']
    dsimp only
    rw [happ hB, hp]
    exact h
  | ok ps =>
    rw [hp] at h
    cases hq : collectResults (readOp L) post with
    | error e =>
      rw [hq] at h
      refine ⟨rt, ?_⟩
      unfold runQuery parseQuery
      rw [qQuery_show hv']
      dsimp only
      rw [happ hB, hp, hq]
      exact h
    | ok qs =>
      rw [hq] at h
      dsimp only at h
      rw [execute_runClauses] at h
      simp only [convertQuery, List.map_append] at h
      obtain ⟨rt', h'⟩ := simulated_run hI hAB (convertQuery L.cases ⟨src, [], none⟩).source (ps.map (convertOp L.cases)) (qs.map (convertOp L.cases)) rt
      simp only [convertQuery] at h'
      rw [h'] at h
      refine ⟨rt', ?_⟩
      unfold runQuery parseQuery
      rw [qQuery_show hv']
      dsimp only
      rw [happ hB, hp, hq]
      dsimp only
      rw [execute_runClauses]
      simp only [convertQuery, List.map_append]
      exact h

theorem exchangeable_of {L : Lang} {g : Graph} (hI : Inv g) {A B : List QOp} {as bs : List ParsedOperation}
    (hA : collectResults (readOp L) A = .ok as) (hB : collectResults (readOp L) B = .ok bs)
    (h1 : Simulated L.env g (as.map (convertOp L.cases)) (bs.map (convertOp L.cases)))
    (h2 : Simulated L.env g (bs.map (convertOp L.cases)) (as.map (convertOp L.cases))) : Exchangeable L g A B :=
  fun _ _ _ _ _ hv hv' => ⟨simulated_text hI hA hB h1 hv hv', simulated_text hI hB hA h2 hv' hv⟩

theorem exchangeable_eq {L : Lang} {g : Graph} (hI : Inv g) {A B : List QOp} {as bs : List ParsedOperation}
    (hA : collectResults (readOp L) A = .ok as) (hB : collectResults (readOp L) B = .ok bs)
    (h : ∀ (n : Nat) (rt : Runtime) (es : List Entity), Bag g es →
      applyBefore L.env rt g n (as.map (convertOp L.cases)) es = applyBefore L.env rt g n (bs.map (convertOp L.cases)) es) :
    Exchangeable L g A B :=
  exchangeable_of hI hA hB (fun n rt es hb => ⟨rt, rfl, h n rt es hb⟩) (fun n rt es hb => ⟨rt, rfl, (h n rt es hb).symm⟩)

/-- Clauses that are not read, for the same reason. -/
theorem exchangeable_unread {L : Lang} {g : Graph} {A B : List QOp} {e : QueryParseError}
    (hA : collectResults (readOp L) A = .error e) (hB : collectResults (readOp L) B = .error e) : Exchangeable L g A B := by
  intro src pre post agg a hv hv'
  have key : ∀ rt, runQuery L rt g (showQuery ⟨src, pre ++ A ++ post, agg⟩) =
      runQuery L rt g (showQuery ⟨src, pre ++ B ++ post, agg⟩) := by
    intro rt
    unfold runQuery parseQuery
    rw [qQuery_show hv, qQuery_show hv']
    dsimp only
    rw [List.append_assoc, List.append_assoc, collectResults_append, collectResults_append _ A, hA,
      collectResults_append _ pre, collectResults_append _ B, hB]
  constructor
  · rintro ⟨rt, h⟩
    exact ⟨rt, (key rt).symm.trans h⟩
  · rintro ⟨rt, h⟩
    exact ⟨rt, (key rt).trans h⟩

/-! ## Clauses that can be left out -/

/-- C168: a `where` clause that stands twice can as well stand once. -/
theorem C168_again (L : Lang) (ops : List GOp) (c : QCond) (more : List (Combinator × QCond)) :
    Exchangeable L (Graph.run ops) [.where c more, .where c more] [.where c more] := by
  cases hr : readOp L (.where c more) with
  | error e => exact exchangeable_unread (e := e) (by simp only [collectResults, hr]) (by simp only [collectResults, hr])
  | ok p =>
    refine exchangeable_eq (Inv.run ops) (as := [p, p]) (bs := [p]) (by simp only [collectResults, hr])
      (by simp only [collectResults, hr]) fun n rt es _ => ?_
    obtain ⟨cs, k, rfl⟩ : ∃ cs k, p = .where cs k := by
      simp only [readOp] at hr
      split at hr
      · cases hr
      · split at hr
        · cases hr
        · cases hr; exact ⟨_, _, rfl⟩
    simp only [List.map_cons, List.map_nil, convertOp, applyBefore, applyOperation]
    cases hf : filterEntities L.env ⟨cs.map (convertCond L.cases), k⟩ es with
    | error e => rfl
    | ok r =>
      obtain ⟨h1, rfl⟩ := (filterEntities_ok _ _ _ _).1 hf
      dsimp only
      rw [(filterEntities_ok _ _ _ _).2 ⟨fun e he => h1 e (List.mem_filter.1 he).1, rfl⟩, List.filter_filter]
      simp

/-- C168: of two `limit` clauses, one after the other, the smaller one alone does the same. -/
theorem C168_limits (L : Lang) (ops : List GOp) {a b c : Str} {n m : Nat} (ha : Numeral a n) (hb : Numeral b m)
    (hc : Numeral c (min n m)) (hn : n < 2 ^ 64) (hm : m < 2 ^ 64) :
    Exchangeable L (Graph.run ops) [.limit a, .limit b] [.limit c] := by
  refine exchangeable_eq (Inv.run ops) (as := [.limit n, .limit m]) (bs := [.limit (min n m)])
    (by simp only [collectResults, readOp, readUsize_ok ha hn, readUsize_ok hb hm])
    (by simp only [collectResults, readOp, readUsize_ok hc (by omega)]) fun k rt es _ => ?_
  simp only [List.map_cons, List.map_nil, convertOp, applyBefore, applyOperation, List.take_take]
  rw [Nat.min_comm]

/-- C168: a `limit` that is not smaller than the number of all entities can be left out. -/
theorem C168_large (L : Lang) (ops : List GOp) {a : Str} {n : Nat} (ha : Numeral a n) (hn : n < 2 ^ 64)
    (hl : (accepted ops).length ≤ n) : Exchangeable L (Graph.run ops) [.limit a] [] := by
  refine exchangeable_eq (Inv.run ops) (as := [.limit n]) (bs := [])
    (by simp only [collectResults, readOp, readUsize_ok ha hn]) rfl fun k rt es hb => ?_
  have hle : es.length ≤ (accepted ops).length := by
    rw [← nodes_run]
    exact (List.subperm_of_subset hb.2 hb.1).length_le
  simp only [List.map_cons, List.map_nil, convertOp, applyBefore, applyOperation]
  rw [List.take_of_length_le (by omega)]

theorem related_nothing (rt : Runtime) (n : Nat) (g : Graph) (d : Nat) (t : Option EntityType) :
    getRelatedEntities rt n g [] d t = [] := by
  have h0 : ∀ k, rt.order k [] = [] := fun k => List.perm_nil.1 (rt.order_perm k [])
  have h1 : ∀ k, relatedLoop rt n g k [] [] = [] := by
    intro k
    cases k with
    | zero => rfl
    | succ k => rw [relatedLoop_succ, h0]; rfl
  unfold getRelatedEntities
  dsimp only
  split
  · rfl
  · simp only [List.map_nil, List.foldl_nil, h1, h0, List.filterMap_nil]
    cases t <;> rfl

theorem applyBefore_nothing (env : Env) (rt : Runtime) (g : Graph) (n : Nat) (ops : List QueryOperation) :
    applyBefore env rt g n ops [] = .ok [] := by
  induction ops with
  | nil => rfl
  | cons op ops ih =>
    have : applyOperation env rt (n + ops.length) g [] op = .ok [] := by
      cases op with
      | «where» c => rfl
      | limit k => simp [applyOperation]
      | related d t => simp only [applyOperation, related_nothing]
      | order f d =>
        simp only [applyOperation, orderBy]
        rw [rt.sort_stable _ [] (by simp) (by simp)]
        rfl
    simp only [applyBefore, this, ih]

/-- C168: after `limit 0`, nothing that comes next matters, provided it can be read. -/
theorem C168_nothing (L : Lang) (ops : List GOp) {z : Str} (hz : Numeral z 0) {A : List QOp}
    (hA : ∀ o ∈ A, ∃ p, readOp L o = .ok p) : Exchangeable L (Graph.run ops) (.limit z :: A) [.limit z] := by
  obtain ⟨as, has⟩ := (collectResults_isOk _ _).2 hA
  refine exchangeable_eq (Inv.run ops) (as := .limit 0 :: as) (bs := [.limit 0])
    (by simp only [collectResults, readOp, readUsize_ok hz (by decide : (0 : Nat) < 2 ^ 64), has])
    (by simp only [collectResults, readOp, readUsize_ok hz (by decide : (0 : Nat) < 2 ^ 64)]) fun k rt es _ => ?_
  simp only [List.map_cons, List.map_nil, convertOp, applyBefore, applyOperation, List.take_zero, applyBefore_nothing]

/-- C168: more than five steps are five steps, and no step is nothing to do, even if a type is asked for. -/
theorem C168_degrees (L : Lang) (ops : List GOp) (sel : Option QSelector) {a f z : Str} {n : Nat} (ha : Numeral a n)
    (hn : n < 2 ^ 64) (h5 : 5 ≤ n) (hf : Numeral f 5) (hz : Numeral z 0) :
    Exchangeable L (Graph.run ops) [.related (some a) sel] [.related (some f) sel] ∧
    Exchangeable L (Graph.run ops) [.related (some z) sel] [] := by
  constructor
  · refine exchangeable_eq (Inv.run ops) (as := [.related (some n) sel]) (bs := [.related (some 5) sel])
      (by simp only [collectResults, readOp, readUsize_ok ha hn])
      (by simp only [collectResults, readOp, readUsize_ok hf (by decide : (5 : Nat) < 2 ^ 64)]) fun k rt es _ => ?_
    simp only [List.map_cons, List.map_nil, convertOp, applyBefore, applyOperation, getRelatedEntities, Option.getD_some,
      show min n maxDegrees = min 5 maxDegrees by unfold maxDegrees; omega]
  · refine exchangeable_eq (Inv.run ops) (as := [.related (some 0) sel]) (bs := [])
      (by simp only [collectResults, readOp, readUsize_ok hz (by decide : (0 : Nat) < 2 ^ 64)]) rfl fun k rt es _ => ?_
    simp [convertOp, applyBefore, applyOperation, getRelatedEntities]

/-! ## Conditions -/

/-- A `where` clause that can be carried out. -/
theorem feasible_where {L : Lang} {all : List Entity} {c : QCond} {more : List (Combinator × QCond)}
    (h : Feasible L all (.where c more)) : ∃ p cc, readOp L (.where c more) = .ok p ∧ convertOp L.cases p = .where cc ∧
      ∀ es : List Entity, (∀ e ∈ es, e ∈ all) →
        filterEntities L.env cc es = .ok (es.filter fun e => cc.matches L.env e = .ok true) := by
  obtain ⟨p, hp⟩ := feasible_reads h
  obtain ⟨cs, k, rfl⟩ : ∃ cs k, p = .where cs k := by
    simp only [readOp] at hp
    split at hp
    · cases hp
    · split at hp
      · cases hp
      · cases hp; exact ⟨_, _, rfl⟩
  refine ⟨_, _, hp, rfl, fun es hes => ?_⟩
  obtain ⟨r, hr⟩ := feasible_applies h hp exRt 0 Graph.empty hes
  have hr' : filterEntities L.env ⟨cs.map (convertCond L.cases), k⟩ es = .ok r := hr
  rw [hr', ((filterEntities_ok _ _ _ _).1 hr').2]

/-- C168, part: two `where` clauses can change places, if both can be carried out on all entities. Missing: a clause
that fails on some entity (`C168_swap_fails`). -/
theorem C168_swap_partial (L : Lang) (ops : List GOp) {c d : QCond} {more rest : List (Combinator × QCond)}
    (hc : Feasible L (accepted ops) (.where c more)) (hd : Feasible L (accepted ops) (.where d rest)) :
    Exchangeable L (Graph.run ops) [.where c more, .where d rest] [.where d rest, .where c more] := by
  obtain ⟨p, cc, hp, hpc, hpf⟩ := feasible_where hc
  obtain ⟨q, dd, hq, hqc, hqf⟩ := feasible_where hd
  refine exchangeable_eq (Inv.run ops) (as := [p, q]) (bs := [q, p])
    (by simp only [collectResults, hp, hq]) (by simp only [collectResults, hp, hq]) fun n rt es hb => ?_
  have hes : ∀ e ∈ es, e ∈ accepted ops := fun e he => by rw [← nodes_run]; exact hb.1 e he
  simp only [List.map_cons, List.map_nil, hpc, hqc, applyBefore, applyOperation]
  rw [hpf es hes, hqf es hes]
  dsimp only
  rw [hqf _ (fun e he => hes e (List.mem_filter.1 he).1), hpf _ (fun e he => hes e (List.mem_filter.1 he).1)]
  simp only [List.filter_filter, Bool.and_comm]

/-- C168, part: two `where` clauses are one with `and`, if the second can be carried out on all entities. Missing: a
second clause that fails on some entity (`C20_not_equivalent`), and clauses with `or`. -/
theorem C168_and_partial (L : Lang) (ops : List GOp) {c d : QCond} {more rest : List (Combinator × QCond)}
    (h1 : ∀ m ∈ more, m.1 = .and) (h2 : ∀ m ∈ rest, m.1 = .and) (hd : Feasible L (accepted ops) (.where d rest)) :
    Exchangeable L (Graph.run ops) [.where c more, .where d rest] [.where c (more ++ (.and, d) :: rest)] := by
  have hk : ∀ ms : List (Combinator × QCond), (∀ m ∈ ms, m.1 = .and) → readCombinator (ms.map (·.1)) = .ok .and := by
    intro ms hms
    cases ms with
    | nil => rfl
    | cons m ms =>
      have e1 : m.1 = .and := hms m (by simp)
      simp only [List.map_cons, readCombinator, e1]
      rw [if_pos]
      simp only [List.all_map, List.all_eq_true, Function.comp_apply, beq_iff_eq]
      exact fun y hy => hms y (by simp [hy])
  have hread : ∀ (x : QCond) (ms : List (Combinator × QCond)), (∀ m ∈ ms, m.1 = .and) → ∀ cs,
      collectResults (readCond L) (x :: ms.map (·.2)) = .ok cs → readOp L (.where x ms) = .ok (.where cs .and) := by
    intro x ms hms cs hcs
    unfold readOp
    dsimp only
    rw [hcs]
    dsimp only
    rw [hk ms hms]
  have hread' : ∀ (x : QCond) (ms : List (Combinator × QCond)) (e : QueryParseError),
      collectResults (readCond L) (x :: ms.map (·.2)) = .error e → readOp L (.where x ms) = .error e := by
    intro x ms e he
    unfold readOp
    dsimp only
    rw [he]
  have h3 : ∀ m ∈ more ++ (.and, d) :: rest, m.1 = .and := by
    intro m hm
    simp only [List.mem_append, List.mem_cons] at hm
    rcases hm with hm | rfl | hm
    · exact h1 m hm
    · rfl
    · exact h2 m hm
  obtain ⟨q, dd, hq, hqc, hqf⟩ := feasible_where hd
  cases hds : collectResults (readCond L) (d :: rest.map (·.2)) with
  | error e => rw [hread' d rest e hds] at hq; cases hq
  | ok ds =>
    have hq' := hread d rest h2 ds hds
    rw [hq'] at hq
    cases hq
    simp only [convertOp, QueryOperation.where.injEq] at hqc
    have hlist : c :: (more ++ (.and, d) :: rest).map (·.2) = (c :: more.map (·.2)) ++ (d :: rest.map (·.2)) := by simp
    cases hcs : collectResults (readCond L) (c :: more.map (·.2)) with
    | error e =>
      have hall : collectResults (readCond L) (c :: (more ++ (.and, d) :: rest).map (·.2)) = .error e := by
        rw [hlist, collectResults_append, hcs]
      refine exchangeable_unread (e := e) ?_ ?_
      · rw [collectResults, hread' c more e hcs]
      · rw [collectResults, hread' c _ e hall]
    | ok cs =>
      have hall : collectResults (readCond L) (c :: (more ++ (.and, d) :: rest).map (·.2)) = .ok (cs ++ ds) := by
        rw [hlist, collectResults_append, hcs, hds]
      refine exchangeable_eq (Inv.run ops) (as := [.where cs .and, .where ds .and]) (bs := [.where (cs ++ ds) .and])
        (by rw [collectResults, hread c more h1 cs hcs, collectResults, hq', collectResults])
        (by rw [collectResults, hread c _ h3 _ hall, collectResults]) fun n rt es hb => ?_
      have hes : ∀ e ∈ es, e ∈ accepted ops := fun e he => by rw [← nodes_run]; exact hb.1 e he
      simp only [List.map_cons, List.map_nil, convertOp, applyBefore, applyOperation, List.map_append]
      rw [C20_chain_total_partial]
      · cases filterEntities L.env ⟨cs.map (convertCond L.cases), .and⟩ es with
        | error e => rfl
        | ok m =>
          dsimp only
      · intro e he x hx
        have := hqf [e] (by intro y hy; rw [List.mem_singleton.1 hy]; exact hes e he)
        rw [← hqc] at this
        obtain ⟨b, hb⟩ := ((filterEntities_ok _ _ _ _).1 this).1 e (by simp)
        exact ((compound_ok_iff _ _ _ _).1 hb).1 x hx

/-! ## Sorting -/

/-- C168, part: sorting before or after a condition is the same, if both can be carried out. Missing: a condition that
fails on some entity, and columns of several kinds (C30). -/
theorem C168_sort_where_partial (L : Lang) (ops : List GOp) {f : QField} {dir : Option SortDirection} {c : QCond}
    {more : List (Combinator × QCond)} (hf : Feasible L (accepted ops) (.order f dir))
    (hc : Feasible L (accepted ops) (.where c more)) :
    Exchangeable L (Graph.run ops) [.order f dir, .where c more] [.where c more, .order f dir] := by
  obtain ⟨p, cc, hp, hpc, hpf⟩ := feasible_where hc
  obtain ⟨f', hf', hk⟩ := hf
  have hff := fieldNamed_unique (convertField_named L.cases f) hf'
  have ho : readOp L (.order f dir) = .ok (.order f (dir.getD .ascending)) := rfl
  refine exchangeable_eq (Inv.run ops) (as := [.order f (dir.getD .ascending), p]) (bs := [p, .order f (dir.getD .ascending)])
    (by simp only [collectResults, hp, ho]) (by simp only [collectResults, hp, ho]) fun n rt es hb => ?_
  have hes : ∀ e ∈ es, e ∈ accepted ops := fun e he => by rw [← nodes_run]; exact hb.1 e he
  obtain ⟨t, fl, hs⟩ := oneKind_sortable (oneKind_subset hk hes)
  have hoc : convertOp L.cases (.order f (dir.getD .ascending)) = .order f' (dir.getD .ascending) := by rw [← hff]; rfl
  simp only [List.map_cons, List.map_nil, hpc, hoc, applyBefore, applyOperation]
  obtain ⟨sorted, r, h1, h2, h3⟩ := C35_commute L.env rt f' (dir.getD .ascending) t fl cc es _ hs (hpf es hes)
  simp only [h1, h2, hpf es hes, h3]

/-- C168: sorting by a field makes an earlier sorting by the same field void, if the field is of one kind. -/
theorem C168_sort_again (L : Lang) (ops : List GOp) {f : QField} {dir dir' : Option SortDirection}
    (hf : Feasible L (accepted ops) (.order f dir)) :
    Exchangeable L (Graph.run ops) [.order f dir, .order f dir'] [.order f dir'] := by
  obtain ⟨f', hf', hk⟩ := hf
  have hff := fieldNamed_unique (convertField_named L.cases f) hf'
  refine exchangeable_eq (Inv.run ops) (as := [.order f (dir.getD .ascending), .order f (dir'.getD .ascending)])
    (bs := [.order f (dir'.getD .ascending)]) rfl rfl fun n rt es hb => ?_
  have hes : ∀ e ∈ es, e ∈ accepted ops := fun e he => by rw [← nodes_run]; exact hb.1 e he
  have := C165_again L.env rt (Graph.run ops) f' (dir.getD .ascending) (dir'.getD .ascending) es (oneKind_subset hk hes)
  simp only [applyOperations, applyOperation] at this
  simp only [List.map_cons, List.map_nil, convertOp, hff, applyBefore, applyOperation]
  exact this

/-! ## Related entities -/

theorem filterMap_perm_lift {α β : Type} (h : α → Option β) : ∀ (l : List α) (r : List β), r.Perm (l.filterMap h) →
    ∃ l' : List α, l'.Perm l ∧ l'.filterMap h = r := by
  intro l
  induction l with
  | nil => intro r hr; exact ⟨[], .refl _, (List.perm_nil.1 hr).symm⟩
  | cons x l ih =>
    intro r hr
    rw [List.filterMap_cons] at hr
    cases hx : h x with
    | none =>
      rw [hx] at hr
      obtain ⟨l', h1, h2⟩ := ih r hr
      exact ⟨x :: l', h1.cons x, by rw [List.filterMap_cons, hx]; exact h2⟩
    | some y =>
      rw [hx] at hr
      obtain ⟨a, b, rfl⟩ := List.append_of_mem (hr.mem_iff.2 (by simp : y ∈ y :: l.filterMap h))
      obtain ⟨l', h1, h2⟩ := ih (a ++ b) ((List.perm_cons y).1 (List.perm_middle.symm.trans hr))
      obtain ⟨l1, l2, rfl, h3, h4⟩ := List.filterMap_eq_append_iff.1 h2
      refine ⟨l1 ++ x :: l2, List.perm_middle.trans (h1.cons x), ?_⟩
      rw [List.filterMap_append, List.filterMap_cons, hx, h3, h4]

/-- The entity with an id, if it is of the type that is asked for. -/
def pickEntity (g : Graph) (t : Option EntityType) (i : EntityId) : Option Entity :=
  (g.getEntity i).bind fun e => if (∀ t', t = some t' → e.entityType = t') then some e else none

theorem related_form (rt : Runtime) (n : Nat) (g : Graph) (es : List Entity) (d : Nat) (hd : 1 ≤ d)
    (t : Option EntityType) : getRelatedEntities rt n g es d t =
      (rt.order (n * 8 + 7) (relatedLoop rt n g (min d maxDegrees) ((es.map (·.id)).foldl setInsert [])
        ((es.map (·.id)).foldl setInsert []))).filterMap (pickEntity g t) := by
  have hmin : ¬ min d maxDegrees < 1 := by unfold maxDegrees; omega
  unfold getRelatedEntities
  simp only [hmin, if_false]
  cases t with
  | none =>
    show List.filterMap g.getEntity _ = _
    congr 1
    funext i
    simp only [pickEntity]
    cases g.getEntity i with
    | none => rfl
    | some e => simp
  | some t =>
    show List.filter (fun e => e.entityType == t) (List.filterMap g.getEntity _) = _
    rw [← List.filterMap_eq_filter, List.filterMap_filterMap]
    congr 1
    funext i
    simp only [pickEntity]
    cases g.getEntity i with
    | none => rfl
    | some e => simp [Option.guard]

/-- `related` may give its entities in any order. -/
theorem related_any_order (rt : Runtime) (n : Nat) (g : Graph) (es : List Entity) (d : Nat) (hd : 1 ≤ d)
    (t : Option EntityType) (r : List Entity) (hr : r.Perm (getRelatedEntities rt n g es d t)) :
    ∃ rt' : Runtime, rt'.sort = rt.sort ∧ (∀ k, k ≠ n * 8 + 7 → rt'.order k = rt.order k) ∧
      getRelatedEntities rt' n g es d t = r := by
  let ids := (es.map (·.id)).foldl setInsert []
  let all := relatedLoop rt n g (min d maxDegrees) ids ids
  rw [related_form rt n g es d hd t] at hr
  obtain ⟨l', h1, h2⟩ := filterMap_perm_lift _ _ _ hr
  have hl' : l'.Perm all := h1.trans (rt.order_perm _ _)
  refine ⟨rt.reorder (fun k l => if k = n * 8 + 7 ∧ l = all then l' else rt.order k l) (fun k l => ?_), rfl, ?_, ?_⟩
  · split
    · next hc => rw [hc.2]; exact hl'
    · exact rt.order_perm k l
  · intro k hk
    funext l
    simp [Runtime.reorder, hk]
  · rw [related_form _ n g es d hd t, relatedLoop_congr (rt' := rt) (j := n) g _ (fun k h1 h2 => ?_)]
    · have : (if n * 8 + 7 = n * 8 + 7 ∧ all = all then l' else rt.order (n * 8 + 7) all) = l' := if_pos ⟨rfl, rfl⟩
      show List.filterMap _ (if n * 8 + 7 = n * 8 + 7 ∧ all = all then l' else rt.order (n * 8 + 7) all) = r
      rw [this]
      exact h2
    · funext l
      have h7 : ¬ (n * 8 + k = n * 8 + 7 ∧ l = all) := by unfold maxDegrees at h2; omega
      exact if_neg h7

/-- C168: sorting before `related` has no effect, if the field is of one kind. -/
theorem C168_sort_related (L : Lang) (ops : List GOp) {f : QField} {dir : Option SortDirection} {a : Str} {n : Nat}
    {sel : Option QSelector} (hf : Feasible L (accepted ops) (.order f dir)) (ha : Numeral a n) (hn : n < 2 ^ 64)
    (h1 : 1 ≤ n) :
    Exchangeable L (Graph.run ops) [.order f dir, .related (some a) sel] [.related (some a) sel] := by
  obtain ⟨f', hf', hk⟩ := hf
  have hff := fieldNamed_unique (convertField_named L.cases f) hf'
  have hI := Inv.run ops
  have hperm : ∀ (rt rt' : Runtime) (k : Nat) (es es' : List Entity), Bag (Graph.run ops) es → es'.Perm es →
      (getRelatedEntities rt k (Graph.run ops) es' n (sel.bind (selectorType L.cases))).Perm
        (getRelatedEntities rt' k (Graph.run ops) es n (sel.bind (selectorType L.cases))) := by
    intro rt rt' k es es' hb hp
    refine (List.perm_ext_iff_of_nodup (hI.nodup_getRelatedEntities rt k _ n h1 _)
      (hI.nodup_getRelatedEntities rt' k _ n h1 _)).2 fun e => ?_
    rw [hI.mem_getRelatedEntities rt k _ (fun s hs => hb.1 s (hp.mem_iff.1 hs)) n h1,
      hI.mem_getRelatedEntities rt' k _ hb.1 n h1]
    simp only [hp.mem_iff]
  have hsort : ∀ (rt : Runtime) (es : List Entity), Bag (Graph.run ops) es →
      ∃ es', orderBy L.env rt f' (dir.getD .ascending) es = .ok es' ∧ es'.Perm es := by
    intro rt es hb
    have hes : ∀ e ∈ es, e ∈ accepted ops := fun e he => by rw [← nodes_run]; exact hb.1 e he
    obtain ⟨r, e1, p1, -⟩ := C29_stable_sort L.env rt f' (dir.getD .ascending) es (oneKind_subset hk hes)
    exact ⟨r, e1, p1⟩
  refine exchangeable_of hI (as := [.order f (dir.getD .ascending), .related (some n) sel]) (bs := [.related (some n) sel])
    (by simp only [collectResults, readOp, readUsize_ok ha hn]) (by simp only [collectResults, readOp, readUsize_ok ha hn])
    (fun k rt es hb => ?_) (fun k rt es hb => ?_)
  · obtain ⟨es', e1, p1⟩ := hsort rt es hb
    obtain ⟨rt', s1, -, r1⟩ := related_any_order rt k (Graph.run ops) es n h1 (sel.bind (selectorType L.cases)) _
      (hperm rt rt k es es' hb p1)
    refine ⟨rt', s1, ?_⟩
    simp only [List.map_cons, List.map_nil, convertOp, hff, applyBefore, applyOperation, e1, Option.getD_some,
      List.length_nil, Nat.add_zero, r1]
  · obtain ⟨es', e1, p1⟩ := hsort rt es hb
    obtain ⟨rt', s1, -, r1⟩ := related_any_order rt k (Graph.run ops) es' n h1 (sel.bind (selectorType L.cases)) _
      (hperm rt rt k es es' hb p1).symm
    refine ⟨rt', s1, ?_⟩
    have e1' : orderBy L.env rt' f' (dir.getD .ascending) es = .ok es' := by
      unfold orderBy at e1 ⊢
      rw [s1]
      exact e1
    simp only [List.map_cons, List.map_nil, convertOp, hff, applyBefore, applyOperation, e1', Option.getD_some,
      List.length_nil, Nat.add_zero, r1]

theorem next_key (k : Nat) {j : Nat} (hj : 1 ≤ j) : (k + 1) * 8 + j ≠ k * 8 + 7 := by omega

/-- C168, part: two `related` clauses are one with the sum of the degrees. Missing: sums above five
(`C146_beyond`), and a type for the first one. -/
theorem C168_steps_partial (L : Lang) (ops : List GOp) {a b c : Str} {n m : Nat} {sel : Option QSelector}
    (ha : Numeral a n) (hb : Numeral b m) (hc : Numeral c (n + m)) (hn : 1 ≤ n) (hm : 1 ≤ m) (h5 : n + m ≤ 5) :
    Exchangeable L (Graph.run (ops ++ [.build])) [.related (some a) none, .related (some b) sel]
      [.related (some c) sel] := by
  have hI := Inv.run (ops ++ [.build])
  have hnodes : (Graph.run (ops ++ [.build])).nodes = accepted ops := by
    rw [nodes_run, accepted_snoc]; rfl
  have hperm : ∀ (rt rt' : Runtime) (k : Nat) (es : List Entity), Bag (Graph.run (ops ++ [.build])) es →
      (getRelatedEntities rt k (Graph.run (ops ++ [.build]))
        (getRelatedEntities rt (k + 1) (Graph.run (ops ++ [.build])) es n none) m (sel.bind (selectorType L.cases))).Perm
        (getRelatedEntities rt' k (Graph.run (ops ++ [.build])) es (n + m) (sel.bind (selectorType L.cases))) := by
    intro rt rt' k es hbag
    have hs : ∀ s ∈ es, s ∈ accepted ops := fun s h => by rw [← hnodes]; exact hbag.1 s h
    have b1 := C12_related_ball ops rt (k + 1) es hs n hn none
    have b2 := C12_related_ball ops rt k _ (fun s hsm => ((b1.2 s).1 hsm).1) m hm (sel.bind (selectorType L.cases))
    have b3 := C12_related_ball ops rt' k es hs (n + m) (by omega) (sel.bind (selectorType L.cases))
    rw [List.perm_ext_iff_of_nodup b2.1 b3.1]
    intro e
    rw [b2.2, b3.2]
    have e1 : min n 5 = n := by omega
    have e2 : min m 5 = m := by omega
    have e3 : min (n + m) 5 = n + m := by omega
    rw [e2, e3]
    rw [e1] at b1
    constructor
    · rintro ⟨h1, ⟨x, hx, hw⟩, ht⟩
      obtain ⟨_, ⟨s, hsm, hw'⟩, _⟩ := (b1.2 x).1 hx
      exact ⟨h1, ⟨s, hsm, Within.trans hw' hw⟩, ht⟩
    · rintro ⟨h1, ⟨s, hsm, hw⟩, ht⟩
      obtain ⟨x, w1, w2⟩ := Within.split n m hw
      exact ⟨h1, ⟨x, (b1.2 x).2 ⟨within_mem (hs s hsm) w1, ⟨s, hsm, w1⟩, by simp⟩, w2⟩, ht⟩
  have l1 : n < 2 ^ 64 := by omega
  have l2 : m < 2 ^ 64 := by omega
  have l3 : n + m < 2 ^ 64 := by omega
  refine exchangeable_of hI (as := [.related (some n) none, .related (some m) sel]) (bs := [.related (some (n + m)) sel])
    (by simp only [collectResults, readOp, readUsize_ok ha l1, readUsize_ok hb l2])
    (by simp only [collectResults, readOp, readUsize_ok hc l3]) (fun k rt es hbag => ?_) (fun k rt es hbag => ?_)
  · obtain ⟨rt', s1, -, r1⟩ := related_any_order rt k _ es (n + m) (by omega) (sel.bind (selectorType L.cases)) _
      (hperm rt rt k es hbag)
    refine ⟨rt', s1, ?_⟩
    simp only [List.map_cons, List.map_nil, convertOp, applyBefore, applyOperation, Option.getD_some, List.length_nil,
      List.length_cons, Nat.add_zero, Nat.zero_add, r1, Option.bind_none]
  · obtain ⟨rt', s1, o1, r1⟩ := related_any_order rt k (Graph.run (ops ++ [.build]))
      (getRelatedEntities rt (k + 1) (Graph.run (ops ++ [.build])) es n none) m hm (sel.bind (selectorType L.cases))
      (getRelatedEntities rt k (Graph.run (ops ++ [.build])) es (n + m) (sel.bind (selectorType L.cases)))
      (hperm rt rt k es hbag).symm
    have hsame : getRelatedEntities rt' (k + 1) (Graph.run (ops ++ [.build])) es n none =
        getRelatedEntities rt (k + 1) (Graph.run (ops ++ [.build])) es n none := by
      have := applyOperation_congr (env := L.env) (rt := rt') (rt' := rt) (i := k + 1) (j := k + 1)
        (Graph.run (ops ++ [.build])) s1 (fun j hj _ => o1 _ (next_key k hj)) es (.related n none)
      exact Except.ok.inj this
    refine ⟨rt', s1, ?_⟩
    simp only [List.map_cons, List.map_nil, convertOp, applyBefore, applyOperation, Option.getD_some, List.length_nil,
      List.length_cons, Nat.add_zero, Nat.zero_add, Option.bind_none, hsame, r1]

/-! ## Clauses that cannot change places -/

/-- A query over the two people of the example. -/
theorem exPeople_run (rt : Runtime) {os : List QOp} {ps : List ParsedOperation} (ho : ∀ o ∈ os, ValidOp o)
    (hr : collectResults (readOp exLang) os = .ok ps) :
    runQuery exLang rt (Graph.run exOps) (showQuery ⟨.type "person".toList, os, none⟩) =
      match applyOperations exEnv rt (Graph.run exOps) (ps.map (convertOp exLang.cases)) [exAlice, exBob] with
      | .error e => .error (.execution e)
      | .ok es => .ok (.entities es) := by
  have hv : ValidTree ⟨.type "person".toList, os, none⟩ := ⟨exPerson_ident, ho, nofun⟩
  have hsn : exLang.cases.snake "person".toList = "person".toList := by decide +kernel
  have hsel : selectFrom rt (Graph.run exOps) (.type "person".toList) = .ok [exAlice, exBob] := by
    simp only [selectFrom]
    rw [if_pos ((rt.order_perm 0 _).mem_iff.2 (by decide))]
    exact congrArg _ (by decide)
  unfold runQuery parseQuery
  rw [qQuery_show hv]
  dsimp only
  rw [hr]
  simp only [convertQuery, selectorType, hsn, Query.execute, hsel, Option.map_none]
  rw [show exEnv = exLang.env from rfl]
  cases applyOperations exLang.env rt (Graph.run exOps) (ps.map (convertOp exLang.cases)) [exAlice, exBob] with
  | error e => rfl
  | ok es => rfl

/-- `@id == "…"` -/
theorem hasId_reads (s : Str) : readOp exLang (.where (hasId s) []) =
    .ok (.where [⟨.metadata "id".toList, .equal, .string s⟩] .and) := rfl

theorem one_read : readUsize "1".toList = .ok 1 := by decide

theorem numberText_one : ValidOp (.limit "1".toList) :=
  ⟨[], "1".toList, [], rfl, .inl rfl, ⟨by decide, by decide⟩, .inl rfl⟩

theorem hasBob_valid : ValidOp (.where (hasId "person.bob".toList) []) :=
  ⟨hasId_valid ⟨by decide, by decide⟩, nofun⟩

/-- C168 is false for `limit` and `where`: the first entity that meets a condition is not the first entity, if that
meets it. -/
theorem C168_limit_where : ¬ Exchangeable exLang (Graph.run exOps)
    [.limit "1".toList, .where (hasId "person.bob".toList) []] [.where (hasId "person.bob".toList) [], .limit "1".toList] := by
  intro h
  have v1 : ∀ o ∈ [QOp.limit "1".toList, .where (hasId "person.bob".toList) []], ValidOp o := by
    intro o ho
    simp only [List.mem_cons, List.not_mem_nil, or_false] at ho
    rcases ho with rfl | rfl
    · exact numberText_one
    · exact hasBob_valid
  have v2 : ∀ o ∈ [.where (hasId "person.bob".toList) [], QOp.limit "1".toList], ValidOp o := fun o ho =>
    v1 o (by simp only [List.mem_cons, List.not_mem_nil, or_false] at ho ⊢; exact ho.symm)
  have r1 : collectResults (readOp exLang) [QOp.limit "1".toList, .where (hasId "person.bob".toList) []] =
      .ok [.limit 1, .where [⟨.metadata "id".toList, .equal, .string "person.bob".toList⟩] .and] := by
    rw [collectResults, readOp, one_read, collectResults, hasId_reads, collectResults]
  have r2 : collectResults (readOp exLang) [.where (hasId "person.bob".toList) [], QOp.limit "1".toList] =
      .ok [.where [⟨.metadata "id".toList, .equal, .string "person.bob".toList⟩] .and, .limit 1] := by
    rw [collectResults, hasId_reads, collectResults, readOp, one_read, collectResults]
  obtain ⟨rt, hrt⟩ := (h (.type "person".toList) [] [] none (.ok (.entities [exBob])) ⟨exPerson_ident, v1, nofun⟩
    ⟨exPerson_ident, v2, nofun⟩).2 ⟨exRt, by
      show runQuery exLang exRt (Graph.run exOps) (showQuery ⟨.type "person".toList,
        [.where (hasId "person.bob".toList) [], .limit "1".toList], none⟩) = _
      rw [exPeople_run exRt v2 r2]
      rfl⟩
  have hrt' : runQuery exLang rt (Graph.run exOps) (showQuery ⟨.type "person".toList,
      [.limit "1".toList, .where (hasId "person.bob".toList) []], none⟩) = .ok (.entities [exBob]) := hrt
  rw [exPeople_run rt v1 r1] at hrt'
  have : applyOperations exEnv rt (Graph.run exOps)
      ([ParsedOperation.limit 1, .where [⟨.metadata "id".toList, .equal, .string "person.bob".toList⟩] .and].map
        (convertOp exLang.cases)) [exAlice, exBob] = .ok [] := rfl
  rw [this] at hrt'
  cases hrt'

/-- C168 is false for `limit` and `order`: the least of the first is not the first of the least. -/
theorem C168_limit_order : ¬ Exchangeable exLang (Graph.run exOps)
    [.limit "1".toList, .order (.metadata "id".toList) (some .descending)]
    [.order (.metadata "id".toList) (some .descending), .limit "1".toList] := by
  intro h
  have v1 : ∀ o ∈ [QOp.limit "1".toList, .order (.metadata "id".toList) (some .descending)], ValidOp o := by
    intro o ho
    simp only [List.mem_cons, List.not_mem_nil, or_false] at ho
    rcases ho with rfl | rfl
    · exact numberText_one
    · exact ⟨'i', "d".toList, rfl, by decide, by decide⟩
  have v2 : ∀ o ∈ [.order (.metadata "id".toList) (some .descending), QOp.limit "1".toList], ValidOp o := fun o ho =>
    v1 o (by simp only [List.mem_cons, List.not_mem_nil, or_false] at ho ⊢; exact ho.symm)
  have r1 : collectResults (readOp exLang) [QOp.limit "1".toList, .order (.metadata "id".toList) (some .descending)] =
      .ok [.limit 1, .order (.metadata "id".toList) .descending] := by
    rw [collectResults, readOp, one_read, collectResults]
    rfl
  have r2 : collectResults (readOp exLang) [.order (.metadata "id".toList) (some .descending), QOp.limit "1".toList] =
      .ok [.order (.metadata "id".toList) .descending, .limit 1] := by
    rw [collectResults, show readOp exLang (.order (.metadata "id".toList) (some .descending)) =
      .ok (.order (.metadata "id".toList) .descending) from rfl, collectResults, readOp, one_read, collectResults]
  obtain ⟨rt, hrt⟩ := (h (.type "person".toList) [] [] none (.ok (.entities [exBob])) ⟨exPerson_ident, v1, nofun⟩
    ⟨exPerson_ident, v2, nofun⟩).2 ⟨exRt, by
      show runQuery exLang exRt (Graph.run exOps) (showQuery ⟨.type "person".toList,
        [.order (.metadata "id".toList) (some .descending), .limit "1".toList], none⟩) = _
      rw [exPeople_run exRt v2 r2]
      have : applyOperations exEnv exRt (Graph.run exOps)
        ([ParsedOperation.order (.metadata "id".toList) .descending, .limit 1].map (convertOp exLang.cases))
          [exAlice, exBob] = .ok [exBob] := by decide +kernel
      rw [this]⟩
  have hrt' : runQuery exLang rt (Graph.run exOps) (showQuery ⟨.type "person".toList,
      [.limit "1".toList, .order (.metadata "id".toList) (some .descending)], none⟩) = .ok (.entities [exBob]) := hrt
  rw [exPeople_run rt v1 r1] at hrt'
  have hone : rt.sort (orderLe exEnv (.metadata .id) .descending) [exAlice] = some [exAlice] :=
    rt.sort_stable _ _ (by
      intro a ha b hb
      cases List.mem_singleton.1 ha
      cases List.mem_singleton.1 hb
      decide +kernel) (by
      intro a ha b hb c hc _ _
      cases List.mem_singleton.1 ha
      cases List.mem_singleton.1 hc
      decide +kernel)
  have : applyOperations exEnv rt (Graph.run exOps)
      ([ParsedOperation.limit 1, .order (.metadata "id".toList) .descending].map (convertOp exLang.cases))
        [exAlice, exBob] = .ok [exAlice] := by
    show (match (match rt.sort (orderLe exEnv (.metadata .id) .descending) [exAlice] with
      | some l => Except.ok l
      | none => Except.error QueryError.panic) with
      | .error err => Except.error err
      | .ok es' => Except.ok es') = _
    rw [hone]
  rw [this] at hrt'
  exact absurd hrt' (by decide)

/-- A condition that compares an id with a truth value. -/
def exFails : QCond := ⟨.metadata "id".toList, .equal, .boolean true⟩

/-- C168 is false for a `where` clause that fails on some entities: after another one that takes these away, it does not
fail. -/
theorem C168_swap_fails : ¬ Exchangeable exLang (Graph.run exOps)
    [.where (hasId "nobody".toList) [], .where exFails []] [.where exFails [], .where (hasId "nobody".toList) []] := by
  intro h
  have v1 : ∀ o ∈ [QOp.where (hasId "nobody".toList) [], .where exFails []], ValidOp o := by
    intro o ho
    simp only [List.mem_cons, List.not_mem_nil, or_false] at ho
    rcases ho with rfl | rfl
    · exact ⟨hasId_valid ⟨by decide, by decide⟩, nofun⟩
    · exact ⟨⟨⟨'i', "d".toList, rfl, by decide, by decide⟩, trivial⟩, nofun⟩
  have v2 : ∀ o ∈ [QOp.where exFails [], .where (hasId "nobody".toList) []], ValidOp o := fun o ho =>
    v1 o (by simp only [List.mem_cons, List.not_mem_nil, or_false] at ho ⊢; exact ho.symm)
  have r1 : collectResults (readOp exLang) [QOp.where (hasId "nobody".toList) [], .where exFails []] =
      .ok [.where [⟨.metadata "id".toList, .equal, .string "nobody".toList⟩] .and,
        .where [⟨.metadata "id".toList, .equal, .boolean true⟩] .and] := rfl
  have r2 : collectResults (readOp exLang) [QOp.where exFails [], .where (hasId "nobody".toList) []] =
      .ok [.where [⟨.metadata "id".toList, .equal, .boolean true⟩] .and,
        .where [⟨.metadata "id".toList, .equal, .string "nobody".toList⟩] .and] := rfl
  obtain ⟨rt, hrt⟩ := (h (.type "person".toList) [] [] none (.ok (.entities [])) ⟨exPerson_ident, v1, nofun⟩
    ⟨exPerson_ident, v2, nofun⟩).1 ⟨exRt, by
      show runQuery exLang exRt (Graph.run exOps) (showQuery ⟨.type "person".toList,
        [.where (hasId "nobody".toList) [], .where exFails []], none⟩) = _
      rw [exPeople_run exRt v1 r1]
      rfl⟩
  have hrt' : runQuery exLang rt (Graph.run exOps) (showQuery ⟨.type "person".toList,
      [.where exFails [], .where (hasId "nobody".toList) []], none⟩) = .ok (.entities []) := hrt
  rw [exPeople_run rt v2 r2] at hrt'
  have : applyOperations exEnv rt (Graph.run exOps)
      ([ParsedOperation.where [⟨.metadata "id".toList, .equal, .boolean true⟩] .and,
        .where [⟨.metadata "id".toList, .equal, .string "nobody".toList⟩] .and].map (convertOp exLang.cases))
        [exAlice, exBob] = .error (.typeMismatch .string .boolean) := rfl
  rw [this] at hrt'
  cases hrt'

/-! ## Examples -/

theorem exDigit (c : Char) (d : Nat) (h : c.toNat = 48 + d := by decide) (h' : d < 10 := by decide) : Numeral [c] d := .one h h'

/-- `@id` can be sorted by, and compared with a text. -/
theorem exIds : Feasible exLang (accepted exOps) (.order (.metadata "id".toList) none) ∧
    ∀ s, Feasible exLang (accepted exOps) (.where (hasId s) []) := by
  refine ⟨⟨.metadata .id, .id, .string, by decide, ?_⟩, fun s => ⟨⟨.and, nofun⟩, ?_⟩⟩
  · intro e _ v hv
    cases hv
    rfl
  · intro x hx
    cases List.mem_singleton.1 hx
    refine ⟨.metadata .id, .string s, .id, .string s, ?_⟩
    intro e _ v hv
    cases hv
    exact ⟨_, rfl⟩

example : Exchangeable exLang (Graph.run exOps) [.limit "7".toList, .limit "2".toList] [.limit "2".toList] :=
  C168_limits _ _ (exDigit '7' 7) (exDigit '2' 2) (exDigit '2' 2) (by decide) (by decide)

example : Exchangeable exLang (Graph.run exOps) [.limit "3".toList] [] :=
  C168_large _ _ (exDigit '3' 3) (by decide) (by decide)

example : Exchangeable exLang (Graph.run exOps) [.limit "0".toList, .related none none, .where exFails []] [.limit "0".toList] :=
  C168_nothing _ _ (exDigit '0' 0) (A := [.related none none, .where exFails []]) (by
    intro o ho
    simp only [List.mem_cons, List.not_mem_nil, or_false] at ho
    rcases ho with rfl | rfl
    · exact ⟨_, rfl⟩
    · exact ⟨_, rfl⟩)

example : Exchangeable exLang (Graph.run exOps) [.related (some "9".toList) none] [.related (some "5".toList) none] ∧
    Exchangeable exLang (Graph.run exOps) [.related (some "0".toList) none] [] :=
  C168_degrees _ _ _ (exDigit '9' 9) (by decide) (by decide) (exDigit '5' 5) (exDigit '0' 0)

example : Exchangeable exLang (Graph.run exOps)
    [.where (hasId "person.bob".toList) [], .where (hasId "task.t".toList) []]
    [.where (hasId "task.t".toList) [], .where (hasId "person.bob".toList) []] := C168_swap_partial _ _ (exIds.2 _) (exIds.2 _)

example : Exchangeable exLang (Graph.run exOps) [.where exFails [], .where (hasId "task.t".toList) []]
    [.where exFails [(.and, hasId "task.t".toList)]] := C168_and_partial _ _ nofun nofun (exIds.2 _)

example : Exchangeable exLang (Graph.run exOps) [.order (.metadata "id".toList) none, .where (hasId "task.t".toList) []]
    [.where (hasId "task.t".toList) [], .order (.metadata "id".toList) none] :=
  C168_sort_where_partial _ _ exIds.1 (exIds.2 _)

example : Exchangeable exLang (Graph.run exOps)
    [.order (.metadata "id".toList) none, .order (.metadata "id".toList) (some .descending)]
    [.order (.metadata "id".toList) (some .descending)] := C168_sort_again _ _ exIds.1

example : Exchangeable exLang (Graph.run exOps) [.order (.metadata "id".toList) none, .related (some "2".toList) none]
    [.related (some "2".toList) none] := C168_sort_related _ _ exIds.1 (exDigit '2' 2) (by decide) (by decide)

example : Exchangeable exLang (Graph.run (exOps ++ [.build])) [.related (some "1".toList) none, .related (some "2".toList) none]
    [.related (some "3".toList) none] :=
  C168_steps_partial _ _ (exDigit '1' 1) (exDigit '2' 2) (exDigit '3' 3) (by decide) (by decide) (by decide)

/-- `where` twice and once, in a query that gives something. -/
example : ∃ a, MayAnswer exLang (Graph.run exOps) (showQuery ⟨.type "person".toList,
      [.where (hasId "person.bob".toList) [], .where (hasId "person.bob".toList) []], none⟩) a ∧ a = .ok (.entities [exBob]) :=
  ⟨_, (C168_again exLang exOps (hasId "person.bob".toList) [] (.type "person".toList) [] [] none _
    ⟨exPerson_ident, by
      intro o ho
      simp only [List.nil_append, List.append_nil, List.mem_cons, List.not_mem_nil, or_false, or_self] at ho
      cases ho
      exact hasBob_valid, nofun⟩
    ⟨exPerson_ident, by
      intro o ho
      simp only [List.nil_append, List.append_nil, List.mem_cons, List.not_mem_nil, or_false] at ho
      cases ho
      exact hasBob_valid, nofun⟩).2 ⟨exRt, rfl⟩, by
    show runQuery exLang exRt (Graph.run exOps) (showQuery ⟨.type "person".toList, [.where (hasId "person.bob".toList) []], none⟩) = _
    rw [exPeople_run exRt (fun o ho => by cases List.mem_singleton.1 ho; exact hasBob_valid) rfl]
    rfl⟩

end Firm
