import Verif.Props.Aggregation
import Verif.Props.Order
import Verif.Props.Query

/-!
# What can crash a query (C137)
-/

namespace Firm
open Spec

/-! ## Conditions -/

theorem compareText_panic (env : Env) (t : FieldType) (v : Str) (op : FilterOperator) (s : Str) :
    compareText env t v op s ≠ .error .panic := by
  cases op <;> simp [compareText]

theorem compareString_panic (env : Env) (v : FieldValue) (op : FilterOperator) (w : FilterValue) :
    compareString env v op w ≠ .error .panic := by
  cases v <;> simp only [compareString] <;> try (intro h; cases h)
  all_goals
    cases w.text? with
    | none => intro h; cases h
    | some t => exact compareText_panic _ _ _ _ _

theorem compareInteger_panic (v : FieldValue) (op : FilterOperator) (w : FilterValue) :
    compareInteger v op w ≠ .error .panic := by
  cases v <;> simp only [compareInteger] <;> try (intro h; cases h)
  cases w <;> simp only <;> try (intro h; cases h)
  all_goals cases op <;> (intro h; cases h)

theorem compareFloat_panic (v : FieldValue) (op : FilterOperator) (w : FilterValue) :
    compareFloat v op w ≠ .error .panic := by
  cases v <;> simp only [compareFloat] <;> try (intro h; cases h)
  cases w <;> simp only <;> try (intro h; cases h)
  all_goals cases op <;> (intro h; cases h)

theorem compareBoolean_panic (v : FieldValue) (op : FilterOperator) (w : FilterValue) :
    compareBoolean v op w ≠ .error .panic := by
  cases v <;> simp only [compareBoolean] <;> try (intro h; cases h)
  cases w <;> simp only <;> try (intro h; cases h)
  all_goals cases op <;> (intro h; cases h)

theorem orderedOp_panic (t : FieldType) (o : Ordering) (op : FilterOperator) :
    orderedOp t o op ≠ .error .panic := by
  cases op <;> (intro h; cases h)

theorem compareCurrency_panic (env : Env) (v : FieldValue) (op : FilterOperator) (w : FilterValue) :
    compareCurrency env v op w ≠ .error .panic := by
  cases v <;> simp only [compareCurrency] <;> try (intro h; cases h)
  cases w <;> simp only <;> try (intro h; cases h)
  split
  · intro h; cases h
  · split
    · exact orderedOp_panic _ _ _
    · intro h; cases h

theorem compareDateTime_panic (env : Env) (v : FieldValue) (op : FilterOperator) (w : FilterValue) :
    compareDateTime env v op w ≠ .error .panic := by
  cases v <;> simp only [compareDateTime] <;> try (intro h; cases h)
  cases w <;> simp only <;> try (intro h; cases h)
  split
  · exact orderedOp_panic _ _ _
  · split
    · exact orderedOp_panic _ _ _
    · intro h; cases h

theorem compareReference_panic (v : FieldValue) (op : FilterOperator) (w : FilterValue) :
    compareReference v op w ≠ .error .panic := by
  cases v <;> simp only [compareReference] <;> try (intro h; cases h)
  split
  · intro h; cases h
  · cases w <;> (intro h; cases h)

theorem compareListItem_panic (env : Env) (v : FieldValue) (op : FilterOperator) (w : FilterValue) :
    compareListItem env v op w ≠ .error .panic := by
  cases v <;> simp only [compareListItem] <;>
    first
    | exact compareString_panic _ _ _ _
    | exact compareInteger_panic _ _ _
    | exact compareFloat_panic _ _ _
    | exact compareBoolean_panic _ _ _
    | exact compareCurrency_panic _ _ _ _
    | exact compareDateTime_panic _ _ _ _
    | exact compareReference_panic _ _ _
    | (intro h; cases h)

theorem listItemMatches_panic (env : Env) (v : FieldValue) (w : FilterValue) :
    listItemMatches env v w ≠ .error .panic := by
  unfold listItemMatches
  split
  · exact compareString_panic _ _ _ _
  · exact compareListItem_panic _ _ _ _

theorem listContains_panic (env : Env) (w : FilterValue) (vs : List FieldValue) :
    listContains env w vs ≠ .error .panic := by
  induction vs with
  | nil => intro h; cases h
  | cons v vs ih =>
    intro h
    simp only [listContains] at h
    split at h
    · rename_i e he; cases h; exact listItemMatches_panic env v w he
    · cases h
    · exact ih h

theorem listEqualItems_panic (env : Env) (vs : List FieldValue) (ws : List FilterValue) :
    listEqualItems env vs ws ≠ .error .panic := by
  induction vs generalizing ws with
  | nil => intro h; simp [listEqualItems] at h
  | cons v vs ih =>
    cases ws with
    | nil => intro h; simp [listEqualItems] at h
    | cons w ws =>
      intro h
      simp only [listEqualItems] at h
      split at h
      · rename_i e he; cases h; exact compareListItem_panic env v _ w he
      · cases h
      · exact ih ws h

theorem compareField_panic (env : Env) (v : FieldValue) (op : FilterOperator) (w : FilterValue) :
    compareField env v op w ≠ .error .panic := by
  cases v with
  | list items =>
    simp only [compareField, compareList]
    cases op <;> simp only <;> try (intro h; cases h)
    · cases w <;> simp only <;> try (intro h; cases h)
      split
      · intro h; cases h
      · exact listEqualItems_panic _ _ _
    · exact listContains_panic _ _ _
  | _ =>
    simp only [compareField]
    first
    | exact compareString_panic _ _ _ _
    | exact compareInteger_panic _ _ _
    | exact compareFloat_panic _ _ _
    | exact compareBoolean_panic _ _ _
    | exact compareCurrency_panic _ _ _ _
    | exact compareDateTime_panic _ _ _ _
    | exact compareReference_panic _ _ _

theorem condition_panic (env : Env) (c : FilterCondition) (e : Entity) :
    c.matches env e ≠ .error .panic := by
  unfold FilterCondition.matches
  split
  · exact compareString_panic _ _ _ _
  · unfold FilterCondition.matchesField
    split
    · exact compareField_panic _ _ _ _
    · intro h; cases h

theorem collectResults_panic {α β : Type} {f : α → Except QueryError β}
    (hf : ∀ a, f a ≠ .error .panic) (as : List α) : collectResults f as ≠ .error .panic := by
  induction as with
  | nil => intro h; cases h
  | cons a as ih =>
    intro h
    simp only [collectResults] at h
    split at h
    · rename_i e he; cases h; exact hf a he
    · split at h
      · rename_i e he; cases h; exact ih he
      · cases h

/-- C137: no condition crashes, whatever the values it is applied to. -/
theorem C137_conditions (env : Env) (c : CompoundCondition) (es : List Entity) :
    filterEntities env c es ≠ .error .panic := by
  have key : ∀ e, c.matches env e ≠ .error .panic := by
    intro e h
    unfold CompoundCondition.matches at h
    split at h
    · rename_i err he; cases h; exact collectResults_panic (condition_panic env · e) _ he
    · split at h <;> cases h
  induction es with
  | nil => intro h; cases h
  | cons e es ih =>
    intro h
    simp only [filterEntities] at h
    split at h
    · rename_i err he; cases h; exact key e he
    · split at h
      · rename_i err he; cases h; exact ih he
      · cases h

/-! ## Sums -/

/-- Adding the amounts one after the other to `s`, exactly where the exact sum is a decimal and as the
library rounds elsewhere, arrives at `t`. -/
inductive Spec.TotalOf (env : Env) : Decimal → List Decimal → Decimal → Prop
  | none (s : Decimal) : TotalOf env s [] s
  | exact {s d t : Decimal} {ds : List Decimal} : (s.addExact d).fits = true →
      TotalOf env (s.addExact d) ds t → TotalOf env s (d :: ds) t
  | rounded {s d r t : Decimal} {ds : List Decimal} : (s.addExact d).fits = false →
      env.decAddWide s d = some r → TotalOf env r ds t → TotalOf env s (d :: ds) t

/-- The running total of the field leaves its range: a sum of the first integers is not a 64-bit
integer and overflow is checked; or the amounts up to some place, all in the currency of the last
amount, have a sum that no decimal is near to. -/
inductive Spec.Overruns (env : Env) (f : FieldId) (es : List Entity) : Prop
  | integers {ns : List Int} {k : Nat} : present f es = ns.map .integer → env.overflowChecks = true →
      ¬ (-(2 ^ 63) ≤ total (ns.take k) ∧ total (ns.take k) < 2 ^ 63) → Overruns env f es
  | amounts {ds : List Decimal} {d t : Decimal} {post : List (Decimal × Str)} {c : Str} :
      present f es = ds.map (.currency · c) ++ .currency d c :: post.map (fun p => .currency p.1 p.2) →
      (∀ p, post.getLast? = some p → p.2 = c) →
      TotalOf env ⟨0, 0⟩ ds t → (t.addExact d).fits = false → env.decAddWide t d = none →
      Overruns env f es

theorem sumI64_panic (env : Env) (ns : List Int) (acc : Int) :
    sumI64 env acc ns = .error .panic ↔ env.overflowChecks = true ∧ ¬ PrefixesOk acc ns := by
  cases hw : env.overflowChecks with
  | false =>
    have : ∀ acc, ∃ n, sumI64 env acc ns = .ok n := by
      induction ns with
      | nil => intro acc; exact ⟨acc, rfl⟩
      | cons n ns ih =>
        intro acc
        simp only [sumI64, addI64, hw]
        split <;> rename_i h
        · exact ih _
        · split at h <;> simp at h
    obtain ⟨n, hn⟩ := this acc
    rw [hn]; simp
  | true =>
    simp only [true_and]
    induction ns generalizing acc with
    | nil => simp [sumI64, PrefixesOk]
    | cons n ns ih =>
      simp only [sumI64, addI64, hw, PrefixesOk]
      by_cases h : isI64 (acc + n) = true
      · simp [h, ih]
      · simp [h]

theorem addDecimal_cases (env : Env) (s d : Decimal) :
    ((s.addExact d).fits = true ∧ addDecimal env s d = .ok (s.addExact d)) ∨
    (∃ r, (s.addExact d).fits = false ∧ env.decAddWide s d = some r ∧ addDecimal env s d = .ok r) ∨
    ((s.addExact d).fits = false ∧ env.decAddWide s d = none ∧ addDecimal env s d = .error .panic) := by
  unfold addDecimal
  cases h : (s.addExact d).fits with
  | true => exact .inl ⟨rfl, if_pos rfl⟩
  | false =>
    cases hr : env.decAddWide s d with
    | none => exact .inr (.inr ⟨rfl, rfl, if_neg (by simp)⟩)
    | some r => exact .inr (.inl ⟨r, rfl, rfl, if_neg (by simp)⟩)

theorem sumCurrency_panic (env : Env) (c : Str) (vs : List (Decimal × Str)) (s : Decimal) :
    sumCurrency env c s (vs.map fun p => .currency p.1 p.2) = .error .panic ↔
      ∃ ds d t post, vs = ds.map (·, c) ++ (d, c) :: post ∧ TotalOf env s ds t ∧
        (t.addExact d).fits = false ∧ env.decAddWide t d = none := by
  induction vs generalizing s with
  | nil =>
    constructor
    · intro h; cases h
    · rintro ⟨ds, d, t, post, h, _⟩; simp at h
  | cons v vs ih =>
    obtain ⟨x, k⟩ := v
    simp only [List.map_cons, sumCurrency]
    by_cases hk : k = c
    · subst hk
      simp only [ne_eq, not_true_eq_false, if_false]
      rcases addDecimal_cases env s x with ⟨h1, h2⟩ | ⟨r, h1, h2, h3⟩ | ⟨h1, h2, h3⟩
      · rw [h2]; simp only [ih]
        constructor
        · rintro ⟨ds, d, t, post, rfl, ht, h⟩
          exact ⟨x :: ds, d, t, post, rfl, .exact h1 ht, h⟩
        · rintro ⟨ds, d, t, post, he, ht, hf, hw⟩
          cases ds with
          | nil =>
            cases ht
            simp only [List.map_nil, List.nil_append, List.cons.injEq, Prod.mk.injEq, and_true] at he
            obtain ⟨rfl, rfl⟩ := he
            rw [h1] at hf; cases hf
          | cons y ds =>
            simp only [List.map_cons, List.cons_append, List.cons.injEq, Prod.mk.injEq, and_true] at he
            obtain ⟨rfl, he⟩ := he
            cases ht with
            | exact _ ht => exact ⟨ds, d, t, post, he, ht, hf, hw⟩
            | rounded h _ _ => rw [h1] at h; cases h
      · rw [h3]; simp only [ih]
        constructor
        · rintro ⟨ds, d, t, post, rfl, ht, h⟩
          exact ⟨x :: ds, d, t, post, rfl, .rounded h1 h2 ht, h⟩
        · rintro ⟨ds, d, t, post, he, ht, hf, hw⟩
          cases ds with
          | nil =>
            cases ht
            simp only [List.map_nil, List.nil_append, List.cons.injEq, Prod.mk.injEq, and_true] at he
            obtain ⟨rfl, rfl⟩ := he
            rw [h2] at hw; cases hw
          | cons y ds =>
            simp only [List.map_cons, List.cons_append, List.cons.injEq, Prod.mk.injEq, and_true] at he
            obtain ⟨rfl, he⟩ := he
            cases ht with
            | exact h _ => rw [h1] at h; cases h
            | rounded _ h' ht =>
              rw [h2] at h'; cases h'
              exact ⟨ds, d, t, post, he, ht, hf, hw⟩
      · rw [h3]
        simp only [true_iff]
        exact ⟨[], x, s, vs, rfl, .none s, h1, h2⟩
    · simp only [ne_eq, hk, not_false_eq_true, if_true, Except.error.injEq, reduceCtorEq, false_iff]
      rintro ⟨ds, d, t, post, he, _⟩
      cases ds with
      | nil => simp only [List.map_nil, List.nil_append, List.cons.injEq, Prod.mk.injEq] at he; exact hk he.1.2
      | cons y ds =>
        simp only [List.map_cons, List.cons_append, List.cons.injEq, Prod.mk.injEq] at he
        exact hk he.1.2

theorem classify_last (ps : List (Decimal × Str)) (p : Decimal × Str) (h : ps.getLast? = some p) :
    classifyNumericType (ps.map fun p => .currency p.1 p.2) = .ok (.currency p.2) := by
  have key : ∀ (ps : List (Decimal × Str)) (s : ClassifyState), s.hasInteger = false →
      s.hasFloat = false →
      (ps.map fun p => NumericValue.currency p.1 p.2).foldl classifyStep s =
        ⟨false, false, match ps.getLast? with | some p => some p.2 | none => s.currency⟩ := by
    intro ps
    induction ps with
    | nil => intro s h1 h2; obtain ⟨_, _, _⟩ := s; simp_all
    | cons q ps ih =>
      intro s h1 h2
      simp only [List.map_cons, List.foldl_cons]
      rw [ih _ (by simpa [classifyStep] using h1) (by simpa [classifyStep] using h2)]
      cases ps with
      | nil => simp [classifyStep]
      | cons r ps =>
        rw [List.getLast?_cons_cons]
        cases hl : (r :: ps).getLast? with
        | none => simp at hl
        | some p => rfl
  unfold classifyNumericType
  rw [key ps _ rfl rfl, h]
  rfl

theorem nums_integer {vs : List FieldValue} (h : ∀ v ∈ vs, ∃ n, v = .integer n) :
    ∃ ns : List Int, vs = ns.map .integer := by
  induction vs with
  | nil => exact ⟨[], rfl⟩
  | cons v vs ih =>
    obtain ⟨n, rfl⟩ := h v (by simp)
    obtain ⟨ns, rfl⟩ := ih fun v hv => h v (by simp [hv])
    exact ⟨n :: ns, rfl⟩

theorem nums_currency {vs : List FieldValue} (h : ∀ v ∈ vs, ∃ d c, v = .currency d c) :
    ∃ ps : List (Decimal × Str), vs = ps.map fun p => .currency p.1 p.2 := by
  induction vs with
  | nil => exact ⟨[], rfl⟩
  | cons v vs ih =>
    obtain ⟨d, c, rfl⟩ := h v (by simp)
    obtain ⟨ps, rfl⟩ := ih fun v hv => h v (by simp [hv])
    exact ⟨(d, c) :: ps, rfl⟩

theorem nums_of_currencies (ps : List (Decimal × Str)) :
    (ps.map fun p => FieldValue.currency p.1 p.2).filterMap num? =
      ps.map fun p => NumericValue.currency p.1 p.2 := by
  induction ps with
  | nil => rfl
  | cons p ps ih => simp only [List.map_cons, List.filterMap_cons, num?, ih]

theorem currencies_inj {ps qs : List (Decimal × Str)}
    (h : (ps.map fun p => FieldValue.currency p.1 p.2) = qs.map fun p => FieldValue.currency p.1 p.2) :
    ps = qs := by
  refine List.map_injective_iff.2 ?_ h
  rintro ⟨a, b⟩ ⟨a', b'⟩ h
  cases h; rfl

theorem sum_of_currencies (env : Env) (f : FieldId) (es : List Entity) (ps : List (Decimal × Str))
    (p : Decimal × Str) (h : present f es = ps.map fun p => .currency p.1 p.2)
    (hl : ps.getLast? = some p) :
    Aggregation.execute env (.sum (.regular f)) es = .error .panic ↔
      sumCurrency env p.2 ⟨0, 0⟩ (ps.map fun p => .currency p.1 p.2) = .error .panic := by
  rw [executeSum_of_values env f es ?_ ?_, h, nums_of_currencies, classify_last ps p hl]
  · simp only
    cases sumCurrency env p.2 ⟨0, 0⟩ (ps.map fun p => .currency p.1 p.2) <;> simp
  · rw [h]; intro v hv
    obtain ⟨n, _, rfl⟩ := List.mem_map.1 hv
    trivial
  · rw [h]; intro hn
    rw [List.map_eq_nil_iff] at hn
    subst hn; cases hl

/-- C137: summing a field crashes exactly when its running total leaves the range of its type: an
integer sum with overflow checks, or amounts of one currency beyond the largest decimal.  Nothing else
about the values makes it crash. -/
theorem C137_sum (env : Env) (f : FieldId) (es : List Entity) :
    Aggregation.execute env (.sum (.regular f)) es = .error .panic ↔ Overruns env f es := by
  have fits : ∀ n : Int, isI64 n = true ↔ -(2 ^ 63) ≤ n ∧ n < 2 ^ 63 := by
    intro n; simp [isI64]
  constructor
  · intro h
    by_cases hnum : ∀ v ∈ present f es, IsNumber v
    · by_cases hc : ∃ d c, FieldValue.currency d c ∈ present f es
      · by_cases hp : ∃ v ∈ present f es, IsPlain v
        · rw [C38_currency_and_number env f es hnum hc hp] at h; cases h
        · obtain ⟨ps, hps⟩ := nums_currency (vs := present f es) (fun v hv => by
            have hn := hnum v hv
            cases v <;> simp only [IsNumber] at hn
            · exact absurd ⟨_, hv, trivial⟩ hp
            · exact absurd ⟨_, hv, trivial⟩ hp
            · exact ⟨_, _, rfl⟩)
          cases hl : ps.getLast? with
          | none =>
            rw [List.getLast?_eq_none_iff] at hl
            subst hl
            obtain ⟨d, c, hd⟩ := hc
            rw [hps] at hd; cases hd
          | some p =>
            rw [sum_of_currencies env f es ps p hps hl, sumCurrency_panic] at h
            obtain ⟨ds, d, t, post, rfl, ht, hf, hw⟩ := h
            refine .amounts (ds := ds) (post := post) (c := p.2) ?_ ?_ ht hf hw
            · rw [hps]; simp
            · intro q hq
              rw [List.getLast?_append, List.getLast?_cons, hq] at hl
              simp at hl
              rw [hl]
      · by_cases hfl : ∃ x, FieldValue.float x ∈ present f es
        · obtain ⟨x, hx⟩ := C38_floats env f es (fun v hv => by
            have hn := hnum v hv
            cases v <;> simp only [IsNumber] at hn
            · trivial
            · trivial
            · exact absurd ⟨_, _, hv⟩ hc) hfl
          rw [hx] at h; cases h
        · obtain ⟨ns, hns⟩ := nums_integer (vs := present f es) (fun v hv => by
            have hn := hnum v hv
            cases v <;> simp only [IsNumber] at hn
            · exact ⟨_, rfl⟩
            · exact absurd ⟨_, hv⟩ hfl
            · exact absurd ⟨_, _, hv⟩ hc)
          by_cases hne : ns = []
          · subst hne
            rw [C37_empty env f es (by rw [hns]; rfl)] at h; cases h
          · rw [executeSum_integers env f es ns hns hne] at h
            have hp : sumI64 env 0 ns = .error .panic := by
              cases hs : sumI64 env 0 ns with
              | ok n => rw [hs] at h; cases h
              | error e => rw [hs] at h; cases h; rfl
            obtain ⟨hw, hp⟩ := (sumI64_panic env ns 0).1 hp
            rw [prefixesOk_iff ns 0 (by decide)] at hp
            obtain ⟨k, hk⟩ := Classical.not_forall.1 hp
            refine .integers hns hw (k := k) ?_
            rw [Int.zero_add, fits] at hk
            exact hk
    · have hx : ∃ v ∈ present f es, ¬ IsNumber v := by
        by_contra hcon
        exact hnum (fun v hv => by by_contra hn; exact hcon ⟨v, hv, hn⟩)
      obtain ⟨_, v, _, _, _, _, e4⟩ := C38_non_numeric env f es hx
      rw [e4] at h; cases h
  · rintro (⟨hns, hw, hk⟩ | ⟨hp, hl, ht, hf, hw⟩)
    · rename_i ns k
      have hne : ns ≠ [] := by
        rintro rfl; simp [total] at hk
      rw [executeSum_integers env f es ns hns hne, (sumI64_panic env ns 0).2 ⟨hw, ?_⟩]
      rw [prefixesOk_iff ns 0 (by decide)]
      intro hall
      have := hall k
      rw [Int.zero_add, fits] at this
      exact hk this
    · rename_i ds d t post c
      have hps : present f es = (ds.map (·, c) ++ (d, c) :: post).map fun p => .currency p.1 p.2 := by
        rw [hp]; simp
      have hlast : ∃ p, (ds.map (·, c) ++ (d, c) :: post).getLast? = some p ∧ p.2 = c := by
        rw [List.getLast?_append, List.getLast?_cons]
        cases hq : post.getLast? with
        | none => exact ⟨(d, c), by simp, rfl⟩
        | some q => exact ⟨q, by simp, hl q hq⟩
      obtain ⟨p, hp1, hp2⟩ := hlast
      rw [sum_of_currencies env f es _ p hps hp1, hp2, sumCurrency_panic]
      exact ⟨ds, d, t, post, rfl, ht, hf, hw⟩

/-- C137: the other aggregations never crash. -/
theorem C137_aggregations (env : Env) (a : Aggregation) (es : List Entity)
    (h : a.execute env es = .error .panic) : ∃ f, a = .sum (.regular f) := by
  have collect : ∀ f es, collectNumericValues f es ≠ .error .panic := by
    intro f es h
    by_cases hn : ∀ v ∈ present f es, IsNumber v
    · rw [collect_ok f es hn] at h; cases h
    · obtain ⟨_, _, _, _, _, _, e⟩ := collect_err f es hn
      rw [e] at h; cases h
  cases a with
  | select fs => cases h
  | count f => cases h
  | sum f =>
    cases f with
    | regular f => exact ⟨f, rfl⟩
    | metadata m => cases h
  | average f =>
    exfalso
    cases f with
    | metadata m => cases h
    | regular f =>
      simp only [Aggregation.execute, executeAverage, requireRegularField] at h
      split at h
      · rename_i e he; cases h; exact collect f es he
      · split at h <;> cases h
  | median f =>
    exfalso
    cases f with
    | metadata m => cases h
    | regular f =>
      simp only [Aggregation.execute, executeMedian, requireRegularField] at h
      split at h
      · rename_i e he; cases h; exact collect f es he
      · split at h <;> cases h

example : Overruns exEnv "a".toList
    [exAmount "1" (.integer (2 ^ 62)), exAmount "2" (.integer (2 ^ 62)), exAmount "3" (.integer (-5))] :=
  .integers (ns := [2 ^ 62, 2 ^ 62, -5]) (k := 2) rfl rfl (by decide)
example : Overruns exEnv "a".toList
    [exAmount "1" (.currency ⟨2 ^ 95, 0⟩ "EUR".toList), exAmount "2" (.currency ⟨2 ^ 95, 0⟩ "EUR".toList)] :=
  .amounts (ds := [⟨2 ^ 95, 0⟩]) (d := ⟨2 ^ 95, 0⟩) (t := ⟨2 ^ 95, 0⟩) (post := []) (c := "EUR".toList)
    rfl (by simp) (.exact (by decide) (.none _)) (by decide) rfl

/-! ## Ordering -/

/-- Three of the entities have values for the field of which the first is not after the second and the
second not after the third, but the first is after the third. -/
def Spec.Circle (env : Env) (f : FieldRef) (es : List Entity) : Prop :=
  ∃ a ∈ es, ∃ b ∈ es, ∃ c ∈ es, ∃ x y z, valueAt a f = some x ∧ valueAt b f = some y ∧
    valueAt c f = some z ∧ compareFieldValues env x y ≠ .gt ∧ compareFieldValues env y z ≠ .gt ∧
    compareFieldValues env x z = .gt

theorem isLE_iff (o : Ordering) : o.isLE = true ↔ o ≠ .gt := by cases o <;> simp

theorem circle_iff (env : Env) (f : FieldRef) (dir : SortDirection) (es : List Entity) :
    Circle env f es ↔ ¬ ∀ a ∈ es, ∀ b ∈ es, ∀ c ∈ es, orderLe env f dir a b = true →
      orderLe env f dir b c = true → orderLe env f dir a c = true := by
  have asc : Circle env f es ↔ ∃ a ∈ es, ∃ b ∈ es, ∃ c ∈ es, orderLe env f .ascending a b = true ∧
      orderLe env f .ascending b c = true ∧ ¬ orderLe env f .ascending a c = true := by
    constructor
    · rintro ⟨a, ha, b, hb, c, hc, x, y, z, hx, hy, hz, h1, h2, h3⟩
      refine ⟨a, ha, b, hb, c, hc, ?_, ?_, ?_⟩ <;> rw [orderLe_asc] <;>
        simp only [hx, hy, hz, compareOptValues, isLE_iff]
      · exact h1
      · exact h2
      · simpa using h3
    · rintro ⟨a, ha, b, hb, c, hc, h1, h2, h3⟩
      rw [orderLe_asc] at h1 h2 h3
      cases hx : valueAt a f <;> cases hy : valueAt b f <;> cases hz : valueAt c f <;>
        rw [hx, hy] at h1 <;> rw [hy, hz] at h2 <;> rw [hx, hz] at h3 <;>
        simp only [compareOptValues, Ordering.isLE_gt, Ordering.isLE_lt, Ordering.isLE_eq,
          Bool.false_eq_true, not_true_eq_false] at h1 h2 h3
      rename_i x y z
      refine ⟨a, ha, b, hb, c, hc, x, y, z, hx, hy, hz, (isLE_iff _).1 h1, (isLE_iff _).1 h2, ?_⟩
      rw [isLE_iff] at h3
      exact Classical.not_not.1 h3
  rw [asc]
  constructor
  · rintro ⟨a, ha, b, hb, c, hc, h1, h2, h3⟩ hall
    cases dir with
    | ascending => exact h3 (hall a ha b hb c hc h1 h2)
    | descending =>
      have := hall c hc b hb a ha
      simp only [orderLe_desc] at this
      exact h3 (this h2 h1)
  · intro h
    by_contra hno
    apply h
    intro a ha b hb c hc h1 h2
    by_contra h3
    cases dir with
    | ascending => exact hno ⟨a, ha, b, hb, c, hc, h1, h2, h3⟩
    | descending =>
      simp only [orderLe_desc] at h1 h2 h3
      exact hno ⟨c, hc, b, hb, a, ha, h2, h1, h3⟩

open Classical in
/-- A runtime whose sort panics whenever it may. -/
noncomputable def strictRuntime (rt : Runtime) : Runtime where
  order := rt.order
  order_perm := rt.order_perm
  sort := fun le l =>
    if (∀ a ∈ l, ∀ b ∈ l, le a b = true ∨ le b a = true) ∧
      (∀ a ∈ l, ∀ b ∈ l, ∀ c ∈ l, le a b = true → le b c = true → le a c = true) then
      some (stableSort le l)
    else none
  sort_perm := by
    intro le l l' h
    split at h
    · cases h; exact stableSort_perm le l
    · cases h
  sort_stable := fun le l h1 h2 => if_pos ⟨h1, h2⟩

/-- C137: ordering can crash exactly when the values of the column compare in a circle. -/
theorem C137_order (env : Env) (rt : Runtime) (f : FieldRef) (dir : SortDirection) (es : List Entity) :
    (orderBy env rt f dir es = .error .panic → Circle env f es) ∧
    (Circle env f es → orderBy env (strictRuntime rt) f dir es = .error .panic) := by
  constructor
  · intro h
    rw [circle_iff env f dir]
    intro hall
    unfold orderBy at h
    rw [rt.sort_stable _ _ (fun a _ b _ => orderLe_total env f dir a b) hall] at h
    cases h
  · intro h
    rw [circle_iff env f dir] at h
    unfold orderBy strictRuntime
    simp only
    rw [if_neg (fun hh => h hh.2)]

/-- C137: a circle needs values of several kinds: several kinds of texts, or integers too large for a
float among floats.  In particular a column of one kind has none. -/
theorem C137_circle (env : Env) (f : FieldRef) (es : List Entity) (h : Circle env f es) :
    ¬ OneKind f es ∧ ∀ text floats, ∃ e ∈ es, ∃ v, valueAt e f = some v ∧ ¬ Sortable text floats v := by
  have key : ∀ text floats, ∃ e ∈ es, ∃ v, valueAt e f = some v ∧ ¬ Sortable text floats v := by
    intro t fl
    by_contra hno
    refine (circle_iff env f .ascending es).1 h ?_
    have hs : ∀ e ∈ es, SortableColumn t fl f e := by
      intro e he v hv
      by_contra hn
      exact hno ⟨e, he, v, hv, hn⟩
    intro a ha b hb c hc h1 h2
    exact orderLe_trans env f .ascending t fl (hs a ha) (hs b hb) (hs c hc) h1 h2
  refine ⟨?_, key⟩
  intro hk
  obtain ⟨t, fl, hs⟩ := oneKind_sortable hk
  obtain ⟨e, he, v, hv, hn⟩ := key t fl
  exact hn (hs e he v hv)

/-- Three values of a column that compare in a circle. -/
theorem exCircle : Circle exEnv (.regular "a".toList)
    [exAmount "1" (.string "b".toList), exAmount "2" (.path "x".toList),
      exAmount "3" (.string "a".toList)] :=
  ⟨exAmount "1" (.string "b".toList), by simp, exAmount "2" (.path "x".toList), by simp,
    exAmount "3" (.string "a".toList), by simp, .string "b".toList, .path "x".toList, .string "a".toList,
    rfl, rfl, rfl, by decide +kernel, by decide +kernel, by decide +kernel⟩

/-! ## Queries -/

theorem circle_mono {env : Env} {f : FieldRef} {es all : List Entity} (hs : ∀ e ∈ es, e ∈ all)
    (h : Circle env f es) : Circle env f all := by
  obtain ⟨a, ha, b, hb, c, hc, h⟩ := h
  exact ⟨a, hs a ha, b, hs b hb, c, hs c hc, h⟩

theorem operations_panic {g : Graph} (hI : Inv g) (env : Env) (rt : Runtime) (ops : List QueryOperation)
    {es : List Entity} (hb : Bag g es) (h : applyOperations env rt g ops es = .error .panic) :
    ∃ f dir, .order f dir ∈ ops ∧ Circle env f g.nodes := by
  induction ops generalizing es with
  | nil => cases h
  | cons op ops ih =>
    simp only [applyOperations] at h
    cases ho : applyOperation env rt ops.length g es op with
    | ok es' =>
      rw [ho] at h
      obtain ⟨f, dir, hm, hc⟩ := ih (Bag.applyOperation hI env rt _ op hb ho) h
      exact ⟨f, dir, by simp [hm], hc⟩
    | error e =>
      rw [ho] at h
      cases h
      cases op with
      | «where» c => exact absurd ho (C137_conditions env c es)
      | order f dir => exact ⟨f, dir, by simp, circle_mono hb.1 ((C137_order env rt f dir es).1 ho)⟩
      | limit n => cases ho
      | related d t => cases ho

/-- C137: a query crashes only if it orders by a column of the graph whose values compare in a circle
(so that they are of several kinds), or sums a field whose running total over the entities it selected
leaves its range. -/
theorem C137_query (gops : List GOp) (env : Env) (rt : Runtime) (q : Query)
    (h : q.execute env rt (Graph.run gops) = .error .panic) :
    (∃ f dir, .order f dir ∈ q.operations ∧ Circle env f (accepted gops) ∧ ¬ OneKind f (accepted gops)) ∨
    ∃ f es, q.aggregation = some (.sum (.regular f)) ∧
      Query.execute env rt (Graph.run gops) { q with aggregation := none } = .ok (.entities es) ∧
      Overruns env f es := by
  have hI := Inv.run gops
  simp only [Query.execute] at h ⊢
  cases hs : selectFrom rt (Graph.run gops) q.source with
  | error e =>
    rw [hs] at h
    simp only [Except.error.injEq] at h
    subst h
    cases hq : q.source with
    | type t =>
      rw [hq] at hs
      simp only [selectFrom] at hs
      split at hs <;> cases hs
    | all => rw [hq] at hs; cases hs
  | ok start =>
    rw [hs] at h
    simp only at h ⊢
    cases ho : applyOperations env rt (Graph.run gops) q.operations start with
    | error e =>
      rw [ho] at h
      simp only [Except.error.injEq] at h
      subst h
      obtain ⟨f, dir, hm, hc⟩ := operations_panic hI env rt _ (Bag.selectFrom hI rt _ hs) ho
      rw [nodes_run] at hc
      exact .inl ⟨f, dir, hm, hc, (C137_circle env f _ hc).1⟩
    | ok es =>
      rw [ho] at h
      simp only at h ⊢
      cases ha : q.aggregation with
      | none => rw [ha] at h; cases h
      | some a =>
        rw [ha] at h
        simp only at h
        cases hx : a.execute env es with
        | ok r => rw [hx] at h; cases h
        | error e =>
          rw [hx] at h
          simp only [Except.error.injEq] at h
          subst h
          obtain ⟨f, rfl⟩ := C137_aggregations env a es hx
          exact .inr ⟨f, es, rfl, rfl, (C137_sum env f es).1 hx⟩

/-- C137: a query that orders only by columns of one kind and does not sum never crashes, whatever
the order of hash containers and the sorting algorithm. -/
theorem C137_safe (gops : List GOp) (env : Env) (rt : Runtime) (q : Query)
    (ho : ∀ f dir, .order f dir ∈ q.operations → OneKind f (accepted gops))
    (ha : ∀ f, q.aggregation ≠ some (.sum f)) :
    q.execute env rt (Graph.run gops) ≠ .error .panic := by
  intro h
  rcases C137_query gops env rt q h with ⟨f, dir, hm, _, hn⟩ | ⟨f, es, hq, _⟩
  · exact hn (ho f dir hm)
  · exact ha _ hq

/-- A graph of three entities whose field `a` compares in a circle. -/
def exCircleOps : List GOp :=
  [exAmount "1" (.string "b".toList), exAmount "2" (.path "x".toList),
    exAmount "3" (.string "a".toList)].map .add

/-- C137: such a query does crash on some runtime. -/
theorem C137_witness (rt : Runtime) : ∃ q : Query,
    q.execute exEnv (strictRuntime rt) (Graph.run exCircleOps) = .error .panic := by
  refine ⟨⟨.type "x".toList, [.order (.regular "a".toList) .ascending], none⟩, ?_⟩
  have ht : "x".toList ∈ (strictRuntime rt).order 0 (Graph.run exCircleOps).getAllEntityTypes :=
    ((strictRuntime rt).order_perm 0 _).mem_iff.2 (by decide +kernel)
  have hl : (Graph.run exCircleOps).listByType "x".toList = [exAmount "1" (.string "b".toList),
      exAmount "2" (.path "x".toList), exAmount "3" (.string "a".toList)] := by decide +kernel
  simp only [Query.execute, selectFrom, if_pos ht, hl, applyOperations, applyOperation,
    (C137_order exEnv rt (.regular "a".toList) .ascending _).2 exCircle]

example (rt : Runtime) : Query.execute exEnv rt (Graph.run exCircleOps)
    ⟨.all, [.where ⟨[exNameErr], .and⟩, .order (.metadata .id) .descending],
      some (.median (.regular "a".toList))⟩ ≠ .error .panic := by
  refine C137_safe _ _ _ _ ?_ (by simp)
  intro f dir hm
  simp only [List.mem_cons, reduceCtorEq, QueryOperation.order.injEq, List.not_mem_nil, or_false,
    false_or] at hm
  obtain ⟨rfl, _⟩ := hm
  exact ⟨.string, by decide, fun e _ v hv => by cases hv; rfl⟩

end Firm
