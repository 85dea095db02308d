import Verif.Props.Advice
import Verif.Props.Ways
import Verif.Props.Names

/-!
# C149: the advice of a sum over several currencies
-/

namespace Firm
open Spec

/-! ## The specification -/

/-- The amounts in currency `c` that the field has. -/
def Spec.amountsOf (f : FieldId) (c : Str) (es : List Entity) : List Decimal :=
  es.filterMap fun e => match e.getField f with
    | some (.currency d x) => if x = c then some d else none
    | _ => none

/-- The clause that the message advises. -/
def Spec.adviceOp (f c : Str) : QOp := .where ⟨.regular f, .greaterOrEqual, .currency "0".toList c⟩ []

/-- No step of the query follows references. -/
def Spec.NoRelated (ops : List QOp) : Prop := ∀ o ∈ ops, ∀ d s, o ≠ .related d s

/-! ## The condition -/

/-- C149: the message ends in a clause of the query language, `where field >= 0 CODE`. -/
theorem C149_text (f c c' : Str) : ∃ pre,
    queryMessage (some (.sum (.regular f))) (.invalidAggregation (.mixedCurrencies c c')) =
      pre ++ showQOp (adviceOp f c) := by
  refine ⟨"Invalid aggregation: ".toList ++ ("Cannot sum mixed currencies (found ".toList ++ c ++ ", ".toList ++ c' ++
    "). Filter first, e.g.: ".toList), ?_⟩
  show "Invalid aggregation: ".toList ++ ("Cannot sum mixed currencies (found ".toList ++ c ++ ", ".toList ++ c' ++
    "). Filter first, e.g.: where ".toList ++ f ++ " >= 0 ".toList ++ c) = _ ++ ("where ".toList ++ (f ++ ' ' ::
      ">=".toList ++ ' ' :: ("0".toList ++ ' ' :: c)) ++ [])
  rw [show "). Filter first, e.g.: where ".toList = "). Filter first, e.g.: ".toList ++ "where ".toList from by decide,
    show " >= 0 ".toList = ' ' :: (">=".toList ++ ' ' :: ("0".toList ++ [' '])) from by decide]
  simp only [List.append_assoc, List.cons_append, List.append_nil, List.nil_append]

theorem compare_zero (env : Env) {z : Decimal} (hz : env.decOfF64 (.fin 0) = some z) (hz0 : z.val = 0) (d : Decimal)
    (x c : Str) : compareField env (.currency d x) .greaterOrEqual (.currency (.fin 0) c) =
      .ok (decide (x = c ∧ 0 ≤ d.val)) := by
  show compareCurrency env (.currency d x) .greaterOrEqual (.currency (.fin 0) c) = _
  unfold compareCurrency
  dsimp only
  by_cases h : x = c
  · rw [if_neg (by simpa using h), hz]
    show Except.ok (d.cmp z != .lt) = _
    unfold Decimal.cmp ratCmp
    rw [hz0]
    congr 1
    by_cases h1 : d.val < 0
    · have : ¬ (0 ≤ d.val) := by simpa using h1
      rw [if_pos h1]; simp [this]
    · have : 0 ≤ d.val := by simpa using h1
      rw [if_neg h1]
      split <;> simp [h, this]
  · rw [if_pos (by simpa using h)]
    simp [h]

/-- The entities that the clause keeps. -/
def Spec.keeps (f : FieldId) (c : Str) (e : Entity) : Bool := match e.getField f with
  | some (.currency d x) => decide (x = c ∧ 0 ≤ d.val)
  | _ => false

theorem filter_advice (env : Env) {z : Decimal} (hz : env.decOfF64 (.fin 0) = some z) (hz0 : z.val = 0) (f : FieldId)
    (c : Str) (es : List Entity) (h : ∀ v ∈ present f es, ∃ d x, v = .currency d x) :
    filterEntities env ⟨[⟨.regular f, .greaterOrEqual, .currency (.fin 0) c⟩], .and⟩ es =
      .ok (es.filter (keeps f c)) := by
  refine filterEntities_one fun e he => ?_
  show FilterCondition.matchesField env _ e f = _
  unfold FilterCondition.matchesField keeps
  cases hv : e.getField f with
  | none => rfl
  | some v =>
    obtain ⟨d, x, rfl⟩ := h v (List.mem_filterMap.2 ⟨e, he, hv⟩)
    exact compare_zero env hz hz0 d x c

theorem present_keeps (f : FieldId) (c : Str) (es : List Entity) :
    present f (es.filter (keeps f c)) = ((amountsOf f c es).filter (0 ≤ ·.val)).map (.currency · c) := by
  induction es with
  | nil => rfl
  | cons e es ih =>
    unfold present amountsOf at *
    rw [List.filterMap_cons]
    unfold keeps at *
    cases hv : e.getField f with
    | none => simpa [hv] using ih
    | some v =>
      cases v with
      | currency d x =>
        by_cases hx : x = c
        · by_cases hd : 0 ≤ d.val
          · simpa [hv, hx, hd] using ih
          · simpa [hv, hx, hd] using ih
        · simpa [hv, hx] using ih
      | _ => simpa [hv] using ih

/-! ## Conditions and orders do not fail with the errors of aggregations -/

section
variable {ae : AggError}

theorem compareText_noAgg (env : Env) (t : FieldType) (v : Str) (op : FilterOperator) (s : Str) :
    compareText env t v op s ≠ .error (.invalidAggregation ae) := by
  cases op <;> simp [compareText]

theorem compareString_noAgg (env : Env) (v : FieldValue) (op : FilterOperator) (w : FilterValue) :
    compareString env v op w ≠ .error (.invalidAggregation ae) := by
  cases v <;> simp only [compareString] <;> try (intro h; cases h)
  all_goals
    cases w.text? with
    | none => intro h; cases h
    | some t => exact compareText_noAgg _ _ _ _ _

theorem compareInteger_noAgg (v : FieldValue) (op : FilterOperator) (w : FilterValue) :
    compareInteger v op w ≠ .error (.invalidAggregation ae) := by
  cases v <;> simp only [compareInteger] <;> try (intro h; cases h)
  cases w <;> simp only <;> try (intro h; cases h)
  all_goals cases op <;> (intro h; cases h)

theorem compareFloat_noAgg (v : FieldValue) (op : FilterOperator) (w : FilterValue) :
    compareFloat v op w ≠ .error (.invalidAggregation ae) := by
  cases v <;> simp only [compareFloat] <;> try (intro h; cases h)
  cases w <;> simp only <;> try (intro h; cases h)
  all_goals cases op <;> (intro h; cases h)

theorem compareBoolean_noAgg (v : FieldValue) (op : FilterOperator) (w : FilterValue) :
    compareBoolean v op w ≠ .error (.invalidAggregation ae) := by
  cases v <;> simp only [compareBoolean] <;> try (intro h; cases h)
  cases w <;> simp only <;> try (intro h; cases h)
  all_goals cases op <;> (intro h; cases h)

theorem orderedOp_noAgg (t : FieldType) (o : Ordering) (op : FilterOperator) :
    orderedOp t o op ≠ .error (.invalidAggregation ae) := by
  cases op <;> (intro h; cases h)

theorem compareCurrency_noAgg (env : Env) (v : FieldValue) (op : FilterOperator) (w : FilterValue) :
    compareCurrency env v op w ≠ .error (.invalidAggregation ae) := by
  cases v <;> simp only [compareCurrency] <;> try (intro h; cases h)
  cases w <;> simp only <;> try (intro h; cases h)
  split
  · intro h; cases h
  · split
    · exact orderedOp_noAgg _ _ _
    · intro h; cases h

theorem compareDateTime_noAgg (env : Env) (v : FieldValue) (op : FilterOperator) (w : FilterValue) :
    compareDateTime env v op w ≠ .error (.invalidAggregation ae) := by
  cases v <;> simp only [compareDateTime] <;> try (intro h; cases h)
  cases w <;> simp only <;> try (intro h; cases h)
  split
  · exact orderedOp_noAgg _ _ _
  · split
    · exact orderedOp_noAgg _ _ _
    · intro h; cases h

theorem compareReference_noAgg (v : FieldValue) (op : FilterOperator) (w : FilterValue) :
    compareReference v op w ≠ .error (.invalidAggregation ae) := by
  cases v <;> simp only [compareReference] <;> try (intro h; cases h)
  split
  · intro h; cases h
  · cases w <;> (intro h; cases h)

theorem compareListItem_noAgg (env : Env) (v : FieldValue) (op : FilterOperator) (w : FilterValue) :
    compareListItem env v op w ≠ .error (.invalidAggregation ae) := by
  cases v <;> simp only [compareListItem] <;>
    first
    | exact compareString_noAgg _ _ _ _
    | exact compareInteger_noAgg _ _ _
    | exact compareFloat_noAgg _ _ _
    | exact compareBoolean_noAgg _ _ _
    | exact compareCurrency_noAgg _ _ _ _
    | exact compareDateTime_noAgg _ _ _ _
    | exact compareReference_noAgg _ _ _
    | (intro h; cases h)

theorem listItemMatches_noAgg (env : Env) (v : FieldValue) (w : FilterValue) :
    listItemMatches env v w ≠ .error (.invalidAggregation ae) := by
  unfold listItemMatches
  split
  · exact compareString_noAgg _ _ _ _
  · exact compareListItem_noAgg _ _ _ _

theorem listContains_noAgg (env : Env) (w : FilterValue) (vs : List FieldValue) :
    listContains env w vs ≠ .error (.invalidAggregation ae) := by
  induction vs with
  | nil => intro h; cases h
  | cons v vs ih =>
    intro h
    simp only [listContains] at h
    split at h
    · rename_i e he; cases h; exact listItemMatches_noAgg env v w he
    · cases h
    · exact ih h

theorem listEqualItems_noAgg (env : Env) (vs : List FieldValue) (ws : List FilterValue) :
    listEqualItems env vs ws ≠ .error (.invalidAggregation ae) := by
  induction vs generalizing ws with
  | nil => intro h; simp [listEqualItems] at h
  | cons v vs ih =>
    cases ws with
    | nil => intro h; simp [listEqualItems] at h
    | cons w ws =>
      intro h
      simp only [listEqualItems] at h
      split at h
      · rename_i e he; cases h; exact compareListItem_noAgg env v _ w he
      · cases h
      · exact ih ws h

theorem compareField_noAgg (env : Env) (v : FieldValue) (op : FilterOperator) (w : FilterValue) :
    compareField env v op w ≠ .error (.invalidAggregation ae) := by
  cases v with
  | list items =>
    simp only [compareField, compareList]
    cases op <;> simp only <;> try (intro h; cases h)
    · cases w <;> simp only <;> try (intro h; cases h)
      split
      · intro h; cases h
      · exact listEqualItems_noAgg _ _ _
    · exact listContains_noAgg _ _ _
  | _ =>
    simp only [compareField]
    first
    | exact compareString_noAgg _ _ _ _
    | exact compareInteger_noAgg _ _ _
    | exact compareFloat_noAgg _ _ _
    | exact compareBoolean_noAgg _ _ _
    | exact compareCurrency_noAgg _ _ _ _
    | exact compareDateTime_noAgg _ _ _ _
    | exact compareReference_noAgg _ _ _

theorem condition_noAgg (env : Env) (c : FilterCondition) (e : Entity) :
    c.matches env e ≠ .error (.invalidAggregation ae) := by
  unfold FilterCondition.matches
  split
  · exact compareString_noAgg _ _ _ _
  · unfold FilterCondition.matchesField
    split
    · exact compareField_noAgg _ _ _ _
    · intro h; cases h

theorem collectResults_noAgg {α β : Type} {f : α → Except QueryError β}
    (hf : ∀ a, f a ≠ .error (.invalidAggregation ae)) (as : List α) : collectResults f as ≠ .error (.invalidAggregation ae) := by
  induction as with
  | nil => intro h; cases h
  | cons a as ih =>
    intro h
    simp only [collectResults] at h
    split at h
    · rename_i e he; cases h; exact hf a he
    · split at h
      · rename_i e he; cases h; exact ih he
      · cases h

theorem filterEntities_noAgg (env : Env) (c : CompoundCondition) (es : List Entity) :
    filterEntities env c es ≠ .error (.invalidAggregation ae) := by
  have key : ∀ e, c.matches env e ≠ .error (.invalidAggregation ae) := by
    intro e h
    unfold CompoundCondition.matches at h
    split at h
    · rename_i err he; cases h; exact collectResults_noAgg (condition_noAgg env · e) _ he
    · split at h <;> cases h
  induction es with
  | nil => intro h; cases h
  | cons e es ih =>
    intro h
    simp only [filterEntities] at h
    split at h
    · rename_i err he; cases h; exact key e he
    · split at h
      · rename_i err he; cases h; exact ih he
      · cases h

end

/-! ## The error -/

theorem sumCurrency_no_mixed (env : Env) (c : Str) (ds : List Decimal) (acc : Decimal) {x y : Str} :
    sumCurrency env c acc (ds.map fun d => .currency d c) ≠ .error (.invalidAggregation (.mixedCurrencies x y)) := by
  induction ds generalizing acc with
  | nil => intro h; cases h
  | cons d ds ih =>
    rw [List.map_cons]
    unfold sumCurrency
    dsimp only
    rw [if_neg (by simp)]
    split
    · exact ih _
    · next e he =>
      intro h
      cases h
      unfold addDecimal at he
      split at he
      · cases he
      · split at he <;> cases he

theorem sumI64_no_mixed (env : Env) (ns : List Int) (acc : Int) {x y : Str} :
    sumI64 env acc ns ≠ .error (.invalidAggregation (.mixedCurrencies x y)) := by
  induction ns generalizing acc with
  | nil => intro h; cases h
  | cons n ns ih =>
    unfold sumI64
    split
    · exact ih _
    · next e he =>
      intro h
      cases h
      unfold addI64 at he
      split at he
      · cases he
      · split at he <;> cases he

/-- What the error says about the values. -/
theorem mixed_all {env : Env} {f : FieldId} {es : List Entity} {c c' : Str}
    (h : Aggregation.execute env (.sum (.regular f)) es = .error (.invalidAggregation (.mixedCurrencies c c'))) :
    (∀ v ∈ present f es, ∃ d x, v = .currency d x) ∧ c ≠ c' ∧ (∃ d, FieldValue.currency d c ∈ present f es) ∧
      ∃ d, FieldValue.currency d c' ∈ present f es := by
  have hnum : ∀ v ∈ present f es, IsNumber v := by
    by_contra hn
    obtain ⟨pre, v, post, e1, _, e3, e4⟩ := C38_non_numeric env f es (by
      by_contra hcon
      exact hn fun v hv => by by_contra hx; exact hcon ⟨v, hv, hx⟩)
    rw [e4] at h
    cases h
  have hne : present f es ≠ [] := fun he => by rw [C37_empty env f es he] at h; cases h
  have hcur : ∃ d x, FieldValue.currency d x ∈ present f es := by
    by_contra hcon
    have hx : ¬ ∃ d c, NumericValue.currency d c ∈ (present f es).filterMap num? :=
      fun ⟨d, x, hd⟩ => hcon ⟨d, x, mem_nums_currency.1 hd⟩
    rw [executeSum_of_values env f es hnum hne] at h
    by_cases hfl : ∃ x, NumericValue.float x ∈ (present f es).filterMap num?
    · rw [(classify_plain _ hx).1 hfl] at h
      cases h
    · rw [(classify_plain _ hx).2 hfl] at h
      dsimp only at h
      split at h
      · cases h
      · next e he => cases h; exact sumI64_no_mixed env _ _ he
  have hall : ∀ v ∈ present f es, ∃ d x, v = .currency d x := by
    intro v hv
    by_cases hp : IsPlain v
    · obtain ⟨d, x, hd⟩ := hcur
      rw [C38_currency_and_number env f es hnum ⟨d, x, hd⟩ ⟨v, hv, hp⟩] at h
      cases h
    · have := hnum v hv
      cases v <;> first | exact absurd trivial hp | exact ⟨_, _, rfl⟩ | exact absurd this (by simp [IsNumber])
  obtain ⟨d, x, hd⟩ := hcur
  by_cases hmix : ∃ d' x', FieldValue.currency d' x' ∈ present f es ∧ x' ≠ x
  · obtain ⟨d', x', hd', hx⟩ := hmix
    obtain ⟨e, he, hc⟩ := C38_mixed_codes env f es d' d x' x hx hd' hd
    rw [h] at he
    cases he
    obtain ⟨a, b, hab, he, h1, h2⟩ := hc hall nofun
    cases he
    exact ⟨hall, hab, h1, h2⟩
  · exfalso
    have hsame : ∃ ds : List Decimal, present f es = ds.map (.currency · x) := by
      have hz : ∀ v ∈ present f es, ∃ d, v = FieldValue.currency d x := by
        intro v hv
        obtain ⟨d', x', rfl⟩ := hall v hv
        by_cases hx : x' = x
        · exact ⟨d', by rw [hx]⟩
        · exact absurd ⟨d', x', hv, hx⟩ hmix
      revert hz
      generalize present f es = vs
      intro hz
      induction vs with
      | nil => exact ⟨[], rfl⟩
      | cons v vs ih =>
        obtain ⟨ds, hds⟩ := ih fun w hw => hz w (by simp [hw])
        obtain ⟨d, rfl⟩ := hz v (by simp)
        exact ⟨d :: ds, by rw [hds]; rfl⟩
    obtain ⟨ds, hds⟩ := hsame
    rw [executeSum_currency env f es x ds hds (by rintro rfl; exact hne hds)] at h
    split at h
    · cases h
    · next e he => cases h; exact sumCurrency_no_mixed env x ds _ he

/-! ## The sum of what is kept -/

/-- C149: after the advised clause, the sum is exactly that of the amounts in the named currency that are not
negative; it never fails again because of several currencies. If there are none, it is the number 0. -/
theorem C149_kept (env : Env) {z : Decimal} (hz : env.decOfF64 (.fin 0) = some z) (hz0 : z.val = 0) {f : FieldId}
    {es : List Entity} {c c' : Str}
    (h : Aggregation.execute env (.sum (.regular f)) es = .error (.invalidAggregation (.mixedCurrencies c c'))) :
    ∃ es', filterEntities env ⟨[⟨.regular f, .greaterOrEqual, .currency (.fin 0) c⟩], .and⟩ es = .ok es' ∧
      (((amountsOf f c es).filter (0 ≤ ·.val)) = [] →
        Aggregation.execute env (.sum (.regular f)) es' = .ok (.sum (.integer 0))) ∧
      (((amountsOf f c es).filter (0 ≤ ·.val)) ≠ [] → Summable ((amountsOf f c es).filter (0 ≤ ·.val)) →
        ∃ d, Aggregation.execute env (.sum (.regular f)) es' = .ok (.sum (.currency d c)) ∧
          d.val = totalAmount ((amountsOf f c es).filter (0 ≤ ·.val))) ∧
      ∀ x y, Aggregation.execute env (.sum (.regular f)) es' ≠ .error (.invalidAggregation (.mixedCurrencies x y)) := by
  have hall := (mixed_all h).1
  have hp := present_keeps f c es
  refine ⟨_, filter_advice env hz hz0 f c es hall, fun he => ?_, fun hne hs => ?_, fun x y hxy => ?_⟩
  · rw [he] at hp
    exact C37_empty env f _ hp
  · exact C37_currency_partial env f _ c _ hp hne hs
  · obtain ⟨-, hne, ⟨d, hd⟩, ⟨d', hd'⟩⟩ := mixed_all hxy
    rw [hp] at hd hd'
    obtain ⟨_, _, e1⟩ := List.mem_map.1 hd
    obtain ⟨_, _, e2⟩ := List.mem_map.1 hd'
    cases e1
    cases e2
    exact hne rfl

/-! ## The query -/

theorem parse_show {L : Lang} {q : QTree} (hq : ValidTree q) :
    parseQuery L (showQuery q) = match collectResults (readOp L) q.operations with
      | .error e => .error e
      | .ok ops => .ok ⟨q.source, ops, q.aggregation⟩ := by
  unfold parseQuery
  rw [qQuery_show hq]
  rfl

theorem collectResults_snoc {α β ε : Type} {g : α → Except ε β} {a : α} {b : β} (ha : g a = .ok b) :
    ∀ {as : List α} {bs : List β}, collectResults g as = .ok bs → collectResults g (as ++ [a]) = .ok (bs ++ [b]) := by
  intro as bs h
  rw [collectResults_ok] at h ⊢
  simp [h, ha]

theorem applyOperations_noAgg {env : Env} {rt : Runtime} {g : Graph} {ae : AggError} : ∀ {ops : List QueryOperation}
    {es : List Entity}, applyOperations env rt g ops es ≠ .error (.invalidAggregation ae)
  | [], es => nofun
  | o :: ops, es => by
    intro h
    simp only [applyOperations] at h
    split at h
    · next e he =>
      cases h
      cases o with
      | «where» c => exact filterEntities_noAgg env c es he
      | order f dir =>
        simp only [applyOperation, orderBy] at he
        split at he <;> cases he
      | limit n => cases he
      | related d t => cases he
    · exact applyOperations_noAgg h

/-- Without `related`, a further clause works on what the query gives without it. -/
theorem applyOperations_snoc (env : Env) (rt : Runtime) (g : Graph) {o : QueryOperation}
    (ho : ∀ d t, o ≠ .related d t) : ∀ {ops : List QueryOperation} {es es' : List Entity},
    (∀ o ∈ ops, ∀ d t, o ≠ .related d t) → applyOperations env rt g ops es = .ok es' →
    applyOperations env rt g (ops ++ [o]) es = applyOperation env rt 0 g es' o
  | [], es, es', _, h => by
    cases h
    simp only [List.nil_append, applyOperations, List.length_nil]
    cases applyOperation env rt 0 g es o <;> rfl
  | p :: ops, es, es', hn, h => by
    have hsame : ∀ n m, applyOperation env rt n g es p = applyOperation env rt m g es p := by
      intro n m
      have := hn p (by simp)
      cases p with
      | related d t => exact absurd rfl (this d t)
      | _ => rfl
    simp only [applyOperations] at h
    simp only [List.cons_append, applyOperations]
    rw [hsame _ ops.length]
    cases hp : applyOperation env rt ops.length g es p with
    | error e => rw [hp] at h; cases h
    | ok es₁ =>
      rw [hp] at h
      exact applyOperations_snoc env rt g ho (fun o ho => hn o (by simp [ho])) h

theorem read_noRelated {L : Lang} {T : CaseTable} : ∀ {ops : List QOp} {ps : List ParsedOperation}, NoRelated ops →
    collectResults (readOp L) ops = .ok ps → ∀ o ∈ ps.map (convertOp T), ∀ d t, o ≠ .related d t
  | [], ps, _, h => by cases h; exact nofun
  | o :: ops, ps, hn, h => by
    simp only [collectResults] at h
    split at h
    · cases h
    · next p hp =>
      split at h
      · cases h
      · next ps' hps =>
        cases h
        intro q hq
        rw [List.map_cons, List.mem_cons] at hq
        rcases hq with rfl | hq
        · intro d t he
          cases p with
          | related d' s' =>
            cases o with
            | related d s => exact hn _ (by simp) d s rfl
            | «where» cnd more =>
              simp only [readOp] at hp
              split at hp
              · cases hp
              · split at hp <;> cases hp
            | order f d => cases hp
            | limit t =>
              simp only [readOp] at hp
              split at hp <;> cases hp
          | _ => cases he
        · exact read_noRelated (fun o ho => hn o (by simp [ho])) hps q hq

theorem code_advice {f c : Str} (hf : IsIdent f) (hc : IsCode c) : ValidOp (adviceOp f c) :=
  ⟨⟨hf, ⟨⟨[], "0".toList, [], by decide, .inl rfl, ⟨by decide, by decide⟩, .inl rfl⟩, hc⟩⟩, nofun⟩

/-- C149: if a query is told that its sum mixes currencies, the same query with the advised clause before `sum` gives
the sum of the amounts in the named currency that are not negative, and 0 if there are none; it is never told so
again. Missing for the full claim: amounts below zero (`C149_negative`); queries that follow references, whose order
of results may differ from run to run. -/
theorem C149_sum_partial (L : Lang) (rt : Runtime) (g : Graph) (hL : RegularCase L.cases) {z : Decimal}
    (h0 : L.parseF64 "0".toList = some (.fin 0)) (hz : L.env.decOfF64 (.fin 0) = some z) (hz0 : z.val = 0)
    {sel : QSelector} {ops : List QOp} {f c c' : Str} (hv : ValidTree ⟨sel, ops, some (.sum (.regular f))⟩)
    (hn : NoRelated ops) (hid : IsIdent (L.cases.snake f)) (hc : IsCode c)
    (h : runQuery L rt g (showQuery ⟨sel, ops, some (.sum (.regular f))⟩) =
      .error (.execution (.invalidAggregation (.mixedCurrencies c c')))) :
    ∃ es, runQuery L rt g (showQuery ⟨sel, ops, none⟩) = .ok (.entities es) ∧
      Aggregation.execute L.env (.sum (.regular (L.cases.snake f))) es =
        .error (.invalidAggregation (.mixedCurrencies c c')) ∧
      let ds := (amountsOf (L.cases.snake f) c es).filter (0 ≤ ·.val)
      let r := runQuery L rt g (showQuery ⟨sel, ops ++ [adviceOp (L.cases.snake f) c], some (.sum (.regular f))⟩)
      (ds = [] → r = .ok (.aggregation (.sum (.integer 0)))) ∧
      (ds ≠ [] → Summable ds → ∃ d, r = .ok (.aggregation (.sum (.currency d c))) ∧ d.val = totalAmount ds) ∧
      ∀ x y, r ≠ .error (.execution (.invalidAggregation (.mixedCurrencies x y))) := by
  have hv' : ValidTree ⟨sel, ops, none⟩ := ⟨hv.1, hv.2.1, nofun⟩
  have hv'' : ValidTree ⟨sel, ops ++ [adviceOp (L.cases.snake f) c], some (.sum (.regular f))⟩ := by
    refine ⟨hv.1, fun o ho => ?_, hv.2.2⟩
    rcases List.mem_append.1 ho with ho | ho
    · exact hv.2.1 o ho
    · rw [List.mem_singleton.1 ho]
      exact code_advice hid hc
  have hadv : readOp L (adviceOp (L.cases.snake f) c) =
      .ok (.where [⟨.regular (L.cases.snake f), .greaterOrEqual, .currency (.fin 0) c⟩] .and) := by
    simp only [adviceOp, readOp, List.map_nil, collectResults, readCond, readQValue, readF64, h0, readCombinator]
  obtain ⟨src, hsrc⟩ : ∃ src, ∀ ps a, convertQuery L.cases ⟨sel, ps, a⟩ =
      ⟨src, ps.map (convertOp L.cases), a.map (convertAgg L.cases)⟩ := ⟨(convertQuery L.cases ⟨sel, [], none⟩).source, fun _ _ => rfl⟩
  unfold runQuery at h
  rw [parse_show hv] at h
  dsimp only at h
  cases hps : collectResults (readOp L) ops with
  | error e => rw [hps] at h; cases h
  | ok ps =>
    rw [hps] at h
    dsimp only at h
    rw [hsrc] at h
    unfold Query.execute at h
    dsimp only at h
    cases hs : selectFrom rt g src with
    | error e =>
      rw [hs] at h
      cases h
      cases src with
      | all => cases hs
      | type t =>
        dsimp only [selectFrom] at hs
        split at hs <;> cases hs
    | ok es₀ =>
      rw [hs] at h
      dsimp only at h
      cases ha : applyOperations L.env rt g (ps.map (convertOp L.cases)) es₀ with
      | error e =>
        rw [ha] at h
        cases h
        exact absurd ha applyOperations_noAgg
      | ok es =>
        rw [ha] at h
        dsimp only [Option.map, convertAgg, convertField] at h
        have hex : Aggregation.execute L.env (.sum (.regular (L.cases.snake f))) es =
            .error (.invalidAggregation (.mixedCurrencies c c')) := by
          cases hr : Aggregation.execute L.env (.sum (.regular (L.cases.snake f))) es with
          | ok r => rw [hr] at h; cases h
          | error e => rw [hr] at h; cases h; rfl
        obtain ⟨es', hf, k1, k2, k3⟩ := C149_kept L.env hz hz0 hex
        refine ⟨es, ?_, hex, ?_⟩
        · unfold runQuery
          rw [parse_show hv']
          dsimp only
          rw [hps]
          dsimp only
          rw [hsrc]
          unfold Query.execute
          dsimp only
          rw [hs]
          dsimp only
          rw [ha]
          rfl
        · have hrun : runQuery L rt g (showQuery ⟨sel, ops ++ [adviceOp (L.cases.snake f) c],
              some (.sum (.regular f))⟩) =
              match Aggregation.execute L.env (.sum (.regular (L.cases.snake f))) es' with
              | .ok r => .ok (.aggregation r)
              | .error e => .error (.execution e) := by
            unfold runQuery
            rw [parse_show hv'']
            dsimp only
            rw [collectResults_snoc hadv hps]
            dsimp only
            rw [hsrc]
            unfold Query.execute
            dsimp only
            rw [hs]
            dsimp only
            rw [List.map_append, List.map_singleton, applyOperations_snoc L.env rt g
              (by intro d t he; cases he) (read_noRelated hn hps) ha]
            have hap : applyOperation L.env rt 0 g es (convertOp L.cases (.where
                [⟨.regular (L.cases.snake f), .greaterOrEqual, .currency (.fin 0) c⟩] .and)) = .ok es' := by
              show filterEntities L.env ⟨[⟨.regular (L.cases.snake (L.cases.snake f)), .greaterOrEqual,
                convertValue (.currency (.fin 0) c)⟩], .and⟩ es = _
              rw [C47_idempotent_partial hL, show convertValue (.currency (.fin 0) c) = .currency (.fin 0) c from by
                simp [convertValue]]
              exact hf
            rw [hap]
            dsimp only [Option.map, convertAgg, convertField]
            cases Aggregation.execute L.env (.sum (.regular (L.cases.snake f))) es' <;> rfl
          dsimp only
          rw [hrun]
          refine ⟨fun hd => ?_, fun hd hsum => ?_, fun x y hxy => ?_⟩
          · rw [k1 hd]
          · obtain ⟨d, e1, e2⟩ := k2 hd hsum
            exact ⟨d, by rw [e1], e2⟩
          · cases hr : Aggregation.execute L.env (.sum (.regular (L.cases.snake f))) es' with
            | ok r => rw [hr] at hxy; cases hxy
            | error e => rw [hr] at hxy; cases hxy; exact k3 _ _ hr

/-- C149: the sum of the named currency is what the advised query gives, if no amount in that currency is negative. -/
theorem C149_all_partial (L : Lang) (rt : Runtime) (g : Graph) (hL : RegularCase L.cases) {z : Decimal}
    (h0 : L.parseF64 "0".toList = some (.fin 0)) (hz : L.env.decOfF64 (.fin 0) = some z) (hz0 : z.val = 0)
    {sel : QSelector} {ops : List QOp} {f c c' : Str} (hv : ValidTree ⟨sel, ops, some (.sum (.regular f))⟩)
    (hn : NoRelated ops) (hid : IsIdent (L.cases.snake f)) (hc : IsCode c)
    (h : runQuery L rt g (showQuery ⟨sel, ops, some (.sum (.regular f))⟩) =
      .error (.execution (.invalidAggregation (.mixedCurrencies c c')))) {es : List Entity}
    (hes : runQuery L rt g (showQuery ⟨sel, ops, none⟩) = .ok (.entities es))
    (hpos : ∀ d ∈ amountsOf (L.cases.snake f) c es, 0 ≤ d.val) (hs : Summable (amountsOf (L.cases.snake f) c es)) :
    ∃ d, runQuery L rt g (showQuery ⟨sel, ops ++ [adviceOp (L.cases.snake f) c], some (.sum (.regular f))⟩) =
        .ok (.aggregation (.sum (.currency d c))) ∧ d.val = totalAmount (amountsOf (L.cases.snake f) c es) := by
  obtain ⟨es', he, hex, -, h2, -⟩ := C149_sum_partial L rt g hL h0 hz hz0 hv hn hid hc h
  rw [hes] at he
  cases he
  have hall : (amountsOf (L.cases.snake f) c es).filter (0 ≤ ·.val) = amountsOf (L.cases.snake f) c es :=
    List.filter_eq_self.2 fun d hd => by simpa using hpos d hd
  rw [hall] at h2
  refine h2 ?_ hs
  obtain ⟨-, -, ⟨d, hd⟩, -⟩ := mixed_all hex
  obtain ⟨e, he, hd⟩ := List.mem_filterMap.1 hd
  refine List.ne_nil_of_mem (a := d) (List.mem_filterMap.2 ⟨e, he, ?_⟩)
  rw [hd]
  simp

/-! ## Amounts below zero -/

/-- An entry of an account. -/
def exEntry (id : String) (n : Int) (c : String) : Entity :=
  ⟨("entry.".toList ++ id.toList), "entry".toList, [("amount".toList, .currency ⟨n, 0⟩ c.toList)]⟩

/-- C149 is false: of the entries 100 EUR, -30 EUR and 5 USD, the advised query sums 100 EUR instead of 70; of -30 EUR
and 5 USD it gives 0, without a currency. -/
theorem C149_negative :
    let g := Graph.run [.add (exEntry "a" 100 "EUR"), .add (exEntry "b" 5 "USD"), .add (exEntry "c" (-30) "EUR"), .build]
    let g' := Graph.run [.add (exEntry "b" 5 "USD"), .add (exEntry "c" (-30) "EUR"), .build]
    let told := .error (.execution (.invalidAggregation (.mixedCurrencies "EUR".toList "USD".toList)))
    queryMessage (some (.sum (.regular "amount".toList))) (.invalidAggregation (.mixedCurrencies "EUR".toList "USD".toList)) =
      ("Invalid aggregation: Cannot sum mixed currencies (found EUR, USD). " ++
        "Filter first, e.g.: where amount >= 0 EUR").toList ∧
    runQuery exNumberLang exRt g "from entry | sum amount".toList = told ∧
    runQuery exNumberLang exRt g "from entry | where amount >= 0 EUR | sum amount".toList =
      .ok (.aggregation (.sum (.currency ⟨100, 0⟩ "EUR".toList))) ∧
    runQuery exNumberLang exRt g' "from entry | sum amount".toList = told ∧
    runQuery exNumberLang exRt g' "from entry | where amount >= 0 EUR | sum amount".toList =
      .ok (.aggregation (.sum (.integer 0))) := by
  refine ⟨?_, ?_, ?_, ?_, ?_⟩ <;> decide +kernel

/-! ## Example -/

example : RegularCase exNumberLang.cases ∧ exNumberLang.parseF64 "0".toList = some (.fin 0) ∧
    exNumberLang.env.decOfF64 (.fin 0) = some ⟨0, 0⟩ ∧ (⟨0, 0⟩ : Decimal).val = 0 ∧
    ValidTree ⟨.type "entry".toList, [], some (.sum (.regular "amount".toList))⟩ ∧ NoRelated [] ∧
    IsIdent (exNumberLang.cases.snake "amount".toList) ∧ IsCode "EUR".toList ∧
    showQuery ⟨.type "entry".toList, [], some (.sum (.regular "amount".toList))⟩ = "from entry | sum amount".toList := by
  have hi : exNumberLang.cases.snake "amount".toList = "amount".toList := by decide +kernel
  have ha : IsIdent "amount".toList := ⟨'a', "mount".toList, by decide, by decide, by decide⟩
  refine ⟨asciiTable_regular, by decide +kernel, by decide +kernel, by decide +kernel,
    ⟨⟨'e', "ntry".toList, by decide, by decide, by decide⟩, nofun, fun a h => ?_⟩, nofun, hi ▸ ha,
    ⟨by decide, by decide, by decide, by decide⟩, by decide⟩
  cases h
  exact ha

end Firm
