import Verif.Props.QueryCrash
import Verif.Props.SumAdvice
import Verif.Props.InitAdvice

/-!
# Queries that fit the schemas

C152. The schemas say of which type a field is, and the query language says which operators and values go with which
type. From the two one can tell before a query runs whether its conditions, orderings and aggregation fit every entity
they can meet.
-/

namespace Firm
open Spec

/-! ## Specification -/

/-- Which entities an operation can meet: those of one type, or all. -/
def Spec.InScope (scope : Option EntityType) (t : EntityType) : Bool :=
  match scope with
  | some u => t == u
  | none => true

/-- Every schema of a type in scope declares the field, with a type for which `p` holds. -/
def Spec.Column (ss : List EntitySchema) (scope : Option EntityType) (f : FieldId) (p : FieldType → Bool) : Bool :=
  ss.all fun s => !InScope scope s.entityType || s.fields.any fun d => d.1 == f && p d.2.fieldType

/-- The operator and the kind of value go with the type. -/
def Spec.Suits (op : FilterOperator) (k : FilterKind) (t : FieldType) : Bool :=
  t != .list && (operators t).contains op && comparable t k

/-- A date can be read. -/
def Spec.DateReadable (env : Env) : FilterValue → Bool
  | .dateTime s => (env.parseDateTime s).isSome || (env.parseDate s).isSome
  | _ => true

/-- The condition fits every entity in scope. The metadata are texts. -/
def Spec.FitsCondition (env : Env) (ss : List EntitySchema) (scope : Option EntityType) (c : FilterCondition) : Bool :=
  match c.field with
  | .metadata _ => Suits c.operator c.value.kind .string
  | .regular f => Column ss scope f (Suits c.operator c.value.kind) && DateReadable env c.value

/-- The types of which a column can be ordered. -/
def Spec.orderedTypes : List FieldType :=
  [.boolean, .string, .integer, .float, .currency, .reference, .dateTime, .path, .enum]

/-- The operation fits: a column that is ordered by is of one type. -/
def Spec.FitsOperation (env : Env) (ss : List EntitySchema) (scope : Option EntityType) : QueryOperation → Bool
  | .where c => c.conditions.all (FitsCondition env ss scope)
  | .order (.regular f) _ => orderedTypes.any fun t => Column ss scope f (· == t)
  | .order (.metadata _) _ => true
  | .limit _ => true
  | .related _ _ => true

/-- What the next operation can meet. `related` with no steps changes nothing. -/
def Spec.scopeAfter (scope : Option EntityType) : QueryOperation → Option EntityType
  | .related 0 _ => scope
  | .related (_ + 1) t => t
  | _ => scope

/-- The aggregation fits: there are numbers to calculate with, and sums are of plain numbers or of money. -/
def Spec.FitsAggregation (ss : List EntitySchema) (scope : Option EntityType) : Aggregation → Bool
  | .select _ => true
  | .count _ => true
  | .sum (.regular f) =>
    Column ss scope f (fun t => t == .integer || t == .float) || Column ss scope f (· == .currency)
  | .average (.regular f) => Column ss scope f fun t => t == .integer || t == .float || t == .currency
  | .median (.regular f) => Column ss scope f fun t => t == .integer || t == .float || t == .currency
  | _ => false

/-- All of the query fits. -/
def Spec.FitsFrom (env : Env) (ss : List EntitySchema) (scope : Option EntityType) (agg : Option Aggregation) :
    List QueryOperation → Bool
  | [] => agg.all (FitsAggregation ss scope)
  | op :: ops => FitsOperation env ss scope op && FitsFrom env ss (scopeAfter scope op) agg ops

/-- The query fits the schemas. -/
def Spec.FitsSchemas (env : Env) (ss : List EntitySchema) (q : Query) : Bool :=
  FitsFrom env ss (match q.source with | .type t => some t | .all => none) q.aggregation q.operations

/-! ## Proofs -/

/-- Every entity conforms to one of the schemas. -/
def Spec.AllConform (env : Env) (ss : List EntitySchema) (es : List Entity) : Prop :=
  ∀ e ∈ es, ∃ s ∈ ss, Conforms env s e

/-- The entities are in scope. -/
def AllInScope (scope : Option EntityType) (es : List Entity) : Prop := ∀ e ∈ es, InScope scope e.entityType = true

theorem column_value {env : Env} {ss : List EntitySchema} {scope : Option EntityType} {f : FieldId} {p : FieldType → Bool}
    (h : Column ss scope f p = true) {es : List Entity} (hc : AllConform env ss es) (hw : AllInScope scope es) {e : Entity}
    (he : e ∈ es) {v : FieldValue} (hv : e.getField f = some v) : p v.getType = true := by
  obtain ⟨s, hs, ht, hf⟩ := hc e he
  have h1 := List.all_eq_true.1 h s hs
  rw [← ht, hw e he, Bool.not_true, Bool.false_or] at h1
  obtain ⟨⟨g, fs⟩, hm, h2⟩ := List.any_eq_true.1 h1
  rw [Bool.and_eq_true, beq_iff_eq] at h2
  obtain ⟨rfl, h2⟩ := h2
  have := (hf _ _ hm).1 v (getField_iff.1 hv)
  rw [this.1]; exact h2

theorem suits_ok {op : FilterOperator} {k : FilterKind} {t : FieldType} (h : Suits op k t = true) :
    t ≠ .list ∧ rejection t op k = none := by
  simp only [Suits, Bool.and_eq_true, bne_iff_ne, ne_eq, List.contains_iff_mem] at h
  obtain ⟨⟨h1, h2⟩, h3⟩ := h
  refine ⟨h1, ?_⟩
  unfold rejection
  have h3' : ¬ comparable t k = false := by rw [h3]; exact Bool.noConfusion
  rw [if_neg (not_not.2 h2), if_neg h3', if_neg h3', if_neg (not_not.2 h2)]
  split <;> rfl

theorem suits_compare {env : Env} {fv : FieldValue} {op : FilterOperator} {v : FilterValue}
    (h : Suits op v.kind fv.getType = true) (hr : DateReadable env v = true) : ∃ b, compareField env fv op v = .ok b := by
  obtain ⟨h1, h2⟩ := suits_ok h
  by_cases hc : CurrencyApart env fv v
  · exact ⟨_, (C26_exceptions env fv op v).1 hc⟩
  · have hu : ¬ Unreadable env fv v := by
      intro hu
      cases v with
      | dateTime s =>
        cases fv with
        | dateTime d =>
          obtain ⟨a, b⟩ := hu
          rw [DateReadable, a, b] at hr
          exact Bool.noConfusion hr
        | _ => exact hu
      | _ => cases fv <;> exact hu
    have := C26_error_table env fv h1 op v hc hu
    rw [h2] at this
    exact this

theorem fits_condition {env : Env} {ss : List EntitySchema} {scope : Option EntityType} {c : FilterCondition}
    (h : FitsCondition env ss scope c = true) {es : List Entity} (hc : AllConform env ss es) (hw : AllInScope scope es)
    {e : Entity} (he : e ∈ es) : ∃ b, c.matches env e = .ok b := by
  unfold FilterCondition.matches
  unfold FitsCondition at h
  cases hf : c.field with
  | metadata m =>
    rw [hf] at h
    dsimp only at h ⊢
    have key : ∀ s : Str, ∃ b, compareString env (.string s) c.operator c.value = .ok b := by
      intro s
      have hr : DateReadable env c.value = true := by
        simp only [Suits, Bool.and_eq_true] at h
        have h3 := h.2
        cases hv : c.value <;> rw [hv] at h3 <;> first | rfl | exact Bool.noConfusion h3
      exact suits_compare (fv := .string s) h hr
    unfold FilterCondition.matchesMetadata
    cases m
    · exact key _
    · exact key _
  | regular f =>
    rw [hf] at h
    dsimp only at h ⊢
    rw [Bool.and_eq_true] at h
    unfold FilterCondition.matchesField
    cases hg : e.getField f with
    | none => exact ⟨_, rfl⟩
    | some v => exact suits_compare (column_value h.1 hc hw he hg) h.2

theorem collect_total {α β ε : Type} {f : α → Except ε β} {l : List α} (h : ∀ a ∈ l, ∃ b, f a = .ok b) :
    ∃ bs, collectResults f l = .ok bs := by
  induction l with
  | nil => exact ⟨_, rfl⟩
  | cons a l ih =>
    obtain ⟨b, hb⟩ := h a List.mem_cons_self
    obtain ⟨bs, hbs⟩ := ih (fun x hx => h x (List.mem_cons_of_mem _ hx))
    exact ⟨b :: bs, by rw [collectResults, hb]; dsimp only; rw [hbs]⟩

theorem fits_where {env : Env} {ss : List EntitySchema} {scope : Option EntityType} {c : CompoundCondition}
    (h : c.conditions.all (FitsCondition env ss scope) = true) {es : List Entity} (hc : AllConform env ss es)
    (hw : AllInScope scope es) : ∃ r, filterEntities env c es = .ok r := by
  have key : ∀ e ∈ es, ∃ b, c.matches env e = .ok b := by
    intro e he
    obtain ⟨bs, hbs⟩ := collect_total (f := fun c => FilterCondition.matches env c e) (l := c.conditions)
      (fun d hd => fits_condition (List.all_eq_true.1 h d hd) hc hw he)
    unfold CompoundCondition.matches
    rw [hbs]
    cases c.combinator
    · exact ⟨_, rfl⟩
    · exact ⟨_, rfl⟩
  clear hc hw
  induction es with
  | nil => exact ⟨_, rfl⟩
  | cons e es ih =>
    obtain ⟨b, hb⟩ := key e List.mem_cons_self
    obtain ⟨r, hr⟩ := ih (fun x hx => key x (List.mem_cons_of_mem _ hx))
    rw [filterEntities, hb]
    dsimp only
    rw [hr]
    exact ⟨_, rfl⟩

theorem fits_order {env : Env} {ss : List EntitySchema} {scope : Option EntityType} {f : FieldRef} {dir : SortDirection}
    (h : FitsOperation env ss scope (.order f dir) = true) {es : List Entity} (hc : AllConform env ss es)
    (hw : AllInScope scope es) : OneKind f es := by
  cases f with
  | metadata m =>
    refine ⟨.string, (fun hh => by cases hh), ?_⟩
    intro e _ v hv
    cases m <;> cases hv <;> rfl
  | regular f =>
    obtain ⟨t, ht, hcol⟩ := List.any_eq_true.1 h
    refine ⟨t, ?_, ?_⟩
    · rintro rfl
      exact absurd ht (by decide)
    · intro e he v hv
      exact beq_iff_eq.1 (column_value hcol hc hw he hv)

/-- The operations that fit go through, and the entities stay conforming and in scope. -/
theorem fits_operations {gops : List GOp} {env : Env} (rt : Runtime) {ss : List EntitySchema} {agg : Option Aggregation}
    (hall : AllConform env ss (accepted gops)) (ops : List QueryOperation) {scope : Option EntityType}
    (h : FitsFrom env ss scope agg ops = true) {es : List Entity} (hb : Bag (Graph.run gops) es) (hw : AllInScope scope es) :
    ∃ r scope', applyOperations env rt (Graph.run gops) ops es = .ok r ∧ Bag (Graph.run gops) r ∧ AllInScope scope' r ∧
      agg.all (FitsAggregation ss scope') = true := by
  have hI := Inv.run gops
  induction ops generalizing scope es with
  | nil => exact ⟨es, scope, rfl, hb, hw, h⟩
  | cons op ops ih =>
    rw [FitsFrom, Bool.and_eq_true] at h
    have hc : AllConform env ss es := fun e he => hall e (by rw [← nodes_run]; exact hb.1 e he)
    have step : ∃ r, applyOperation env rt ops.length (Graph.run gops) es op = .ok r := by
      cases op with
      | «where» c => exact fits_where (scope := scope) h.1 hc hw
      | limit n => exact ⟨_, rfl⟩
      | related d t => exact ⟨_, rfl⟩
      | order f dir =>
        have hk := fits_order (dir := dir) h.1 hc hw
        show ∃ r, orderBy env rt f dir es = .ok r
        cases ho : orderBy env rt f dir es with
        | ok r => exact ⟨r, rfl⟩
        | error e =>
          have he : e = .panic := by
            unfold orderBy at ho
            split at ho <;> cases ho
            rfl
          subst he
          exact absurd hk (C137_circle env f es ((C137_order env rt f dir es).1 ho)).1
    obtain ⟨r, hr⟩ := step
    have hbr := Bag.applyOperation hI env rt _ op hb hr
    have hwr : AllInScope (scopeAfter scope op) r := by
      cases op with
      | «where» c =>
        obtain ⟨_, rfl⟩ := (filterEntities_ok _ _ _ _).1 hr
        exact fun e he => hw e (List.mem_filter.1 he).1
      | limit n => cases hr; exact fun e he => hw e (List.mem_of_mem_take he)
      | order f dir =>
        have hr' : orderBy env rt f dir es = .ok r := hr
        unfold orderBy at hr'
        split at hr'
        · rename_i l hs; cases hr'
          exact fun e he => hw e ((rt.sort_perm _ _ _ hs).mem_iff.1 he)
        · cases hr'
      | related d t =>
        cases d with
        | zero =>
          have : getRelatedEntities rt ops.length (Graph.run gops) es 0 t = es := by simp [getRelatedEntities]
          have hr' : Except.ok (getRelatedEntities rt ops.length (Graph.run gops) es 0 t) =
            (Except.ok r : Except QueryError _) := hr
          rw [this] at hr'
          cases hr'
          exact hw
        | succ d =>
          cases t with
          | none => exact fun e _ => rfl
          | some t =>
            cases hr
            intro e he
            have := C13_type_filter_partial gops rt _ es (fun s hs => by rw [← nodes_run]; exact hb.1 s hs) (d + 1)
              (by omega) t e he
            exact beq_iff_eq.2 this
    obtain ⟨r', scope', h1, h2⟩ := ih h.2 hbr hwr
    exact ⟨r', scope', by rw [applyOperations, hr]; exact h1, h2⟩

theorem present_type {env : Env} {ss : List EntitySchema} {scope : Option EntityType} {f : FieldId} {p : FieldType → Bool}
    (h : Column ss scope f p = true) {es : List Entity} (hc : AllConform env ss es) (hw : AllInScope scope es) :
    ∀ v ∈ present f es, p v.getType = true := by
  intro v hv
  obtain ⟨e, he, hg⟩ := List.mem_filterMap.1 hv
  exact column_value h hc hw he hg

/-- Why an aggregation that fits can still fail. -/
inductive Spec.AggregationFault (env : Env) (es : List Entity) : Aggregation → QueryError → Prop where
  /-- None of the entities has a value to average. -/
  | average (f) : present f es = [] → AggregationFault env es (.average (.regular f)) (.invalidAggregation .emptyResult)
  /-- None of the entities has a value to take the median of. -/
  | median (f) : present f es = [] → AggregationFault env es (.median (.regular f)) (.invalidAggregation .emptyResult)
  /-- There are amounts in two currencies. -/
  | currencies (f c d) : c ≠ d → (∃ x, .currency x c ∈ present f es) → (∃ x, .currency x d ∈ present f es) →
      AggregationFault env es (.sum (.regular f)) (.invalidAggregation (.mixedCurrencies c d))
  /-- The running total leaves its range. -/
  | overrun (f) : Overruns env f es → AggregationFault env es (.sum (.regular f)) .panic


theorem sumI64_error {env : Env} {ns : List Int} {acc : Int} {e : QueryError} (h : sumI64 env acc ns = .error e) :
    e = .panic := by
  induction ns generalizing acc with
  | nil => cases h
  | cons n ns ih =>
    rw [sumI64] at h
    split at h
    · exact ih h
    · rename_i e' he
      cases h
      unfold addI64 at he
      split at he
      · cases he
      · split at he <;> cases he
        rfl

theorem sumCurrency_error {env : Env} {c : Str} {vs : List NumericValue} {t : Decimal} {e : QueryError}
    (hv : ∀ v ∈ vs, ∃ d, v = .currency d c) (h : sumCurrency env c t vs = .error e) : e = .panic := by
  induction vs generalizing t with
  | nil => cases h
  | cons v vs ih =>
    obtain ⟨d, rfl⟩ := hv v List.mem_cons_self
    rw [sumCurrency] at h
    rw [if_neg (fun hh => hh rfl)] at h
    split at h
    · exact ih (fun x hx => hv x (List.mem_cons_of_mem _ hx)) h
    · rename_i e' he
      cases h
      unfold addDecimal at he
      split at he
      · cases he
      · split at he <;> cases he
        rfl

/-- A sum of plain numbers, or of amounts. -/
theorem sum_faults {env : Env} {f : FieldId} {es : List Entity}
    (h : (∀ v ∈ present f es, IsPlain v) ∨ ∀ v ∈ present f es, ∃ d c, v = .currency d c) {e : QueryError}
    (he : Aggregation.execute env (.sum (.regular f)) es = .error e) :
    AggregationFault env es (.sum (.regular f)) e := by
  have panics : e = .panic → AggregationFault env es (.sum (.regular f)) e := by
    rintro rfl
    exact .overrun f ((C137_sum env f es).1 he)
  rcases h with h | h
  · by_cases hfl : ∃ x, FieldValue.float x ∈ present f es
    · obtain ⟨x, hx⟩ := C38_floats env f es h hfl
      rw [hx] at he; cases he
    · obtain ⟨ns, hns⟩ := nums_integer (vs := present f es) (fun v hv => by
        have hn := h v hv
        cases v <;> simp only [IsPlain] at hn
        · exact ⟨_, rfl⟩
        · exact absurd ⟨_, hv⟩ hfl)
      by_cases hne : ns = []
      · subst hne
        rw [C37_empty env f es (by rw [hns]; rfl)] at he; cases he
      · rw [executeSum_integers env f es ns hns hne] at he
        cases hs : sumI64 env 0 ns with
        | ok n => rw [hs] at he; cases he
        | error e' =>
          rw [hs] at he; cases he
          exact panics (sumI64_error hs)
  · by_cases hp : e = .panic
    · exact panics hp
    · by_cases hm : ∃ d d' c c', c ≠ c' ∧ FieldValue.currency d c ∈ present f es ∧ FieldValue.currency d' c' ∈ present f es
      · obtain ⟨d, d', c, c', hne, h1, h2⟩ := hm
        obtain ⟨e', he', hx⟩ := C38_mixed_codes env f es d d' c c' hne h1 h2
        rw [he] at he'
        cases he'
        obtain ⟨x, y, hxy, rfl, h3, h4⟩ := hx h hp
        exact .currencies f x y hxy h3 h4
      · exfalso
        by_cases hne : present f es = []
        · rw [C37_empty env f es hne] at he; cases he
        · obtain ⟨v, hv⟩ := List.exists_mem_of_ne_nil _ hne
          obtain ⟨d, c, rfl⟩ := h v hv
          have hall : ∀ w ∈ present f es, ∃ d, w = .currency d c := by
            intro w hw
            obtain ⟨d', c', rfl⟩ := h w hw
            by_cases hcc : c' = c
            · exact ⟨d', by rw [hcc]⟩
            · exact absurd ⟨d', d, c', c, hcc, hw, hv⟩ hm
          have hlist : ∀ vs : List FieldValue, (∀ w ∈ vs, ∃ d, w = FieldValue.currency d c) →
              ∃ ds : List Decimal, vs = ds.map (.currency · c) := by
            intro vs
            induction vs with
            | nil => exact fun _ => ⟨[], rfl⟩
            | cons v vs ih =>
              intro hh
              obtain ⟨d, rfl⟩ := hh v List.mem_cons_self
              obtain ⟨ds, rfl⟩ := ih (fun x hx => hh x (List.mem_cons_of_mem _ hx))
              exact ⟨d :: ds, rfl⟩
          obtain ⟨ds, hds⟩ := hlist _ hall
          rw [executeSum_currency env f es c ds hds (by rintro rfl; exact hne hds)] at he
          cases hs : sumCurrency env c ⟨0, 0⟩ (ds.map fun d => .currency d c) with
          | ok n => rw [hs] at he; cases he
          | error e' =>
            rw [hs] at he; cases he
            exact hp (sumCurrency_error (fun v hv => by
              obtain ⟨d, _, rfl⟩ := List.mem_map.1 hv
              exact ⟨d, rfl⟩) hs)

theorem aggregation_faults {env : Env} {ss : List EntitySchema} {scope : Option EntityType} {a : Aggregation}
    (h : FitsAggregation ss scope a = true) {es : List Entity} (hc : AllConform env ss es) (hw : AllInScope scope es)
    {e : QueryError} (he : a.execute env es = .error e) : AggregationFault env es a e := by
  have numbers : ∀ f, Column ss scope f (fun t => t == .integer || t == .float || t == .currency) = true →
      ∀ v ∈ present f es, IsNumber v := by
    intro f hcol v hv
    have := present_type hcol hc hw v hv
    cases v <;> trivial
  have empty : ∀ f, (∀ v ∈ present f es, IsNumber v) → ∀ vs, collectNumericValues f es = .ok vs → vs.isEmpty = true →
      present f es = [] := by
    intro f hn vs hvs hemp
    rw [collect_ok f es hn] at hvs
    cases hvs
    cases hp : present f es with
    | nil => rfl
    | cons v vs =>
      rw [hp] at hemp hn
      obtain ⟨x, hx⟩ := Option.isSome_iff_exists.1 (num?_isSome.2 (hn v List.mem_cons_self))
      rw [List.filterMap_cons, hx] at hemp
      cases hemp
  cases a with
  | select fs => cases he
  | count f => cases he
  | sum f =>
    cases f with
    | metadata m => cases h
    | regular f =>
      refine sum_faults ?_ he
      rcases Bool.or_eq_true_iff.1 h with h | h
      · refine .inl fun v hv => ?_
        have := present_type h hc hw v hv
        cases v <;> trivial
      · refine .inr fun v hv => ?_
        have := present_type h hc hw v hv
        cases v <;> first | exact ⟨_, _, rfl⟩ | exact Bool.noConfusion this
  | average f =>
    cases f with
    | metadata m => cases h
    | regular f =>
      have hn := numbers f h
      simp only [Aggregation.execute, executeAverage, requireRegularField] at he
      split at he
      · rename_i e' hx; rw [collect_ok f es hn] at hx; cases hx
      · rename_i vs hx
        split at he
        · rename_i hemp; cases he; exact .average f (empty f hn vs hx hemp)
        · cases he
  | median f =>
    cases f with
    | metadata m => cases h
    | regular f =>
      have hn := numbers f h
      simp only [Aggregation.execute, executeMedian, requireRegularField] at he
      split at he
      · rename_i e' hx; rw [collect_ok f es hn] at hx; cases hx
      · rename_i vs hx
        split at he
        · rename_i hemp; cases he; exact .median f (empty f hn vs hx hemp)
        · cases he

/-- C152: a query that fits the schemas of conforming entities fails only because there is no entity of the type it
begins with, or in its aggregation: nothing to average, amounts in two currencies, or a total that leaves its range. No
condition and no ordering fails. -/
theorem C152_fits (gops : List GOp) (env : Env) (rt : Runtime) (ss : List EntitySchema)
    (hall : AllConform env ss (accepted gops)) (q : Query) (hq : FitsSchemas env ss q = true) (e : QueryError)
    (he : q.execute env rt (Graph.run gops) = .error e) :
    (∃ t avail, q.source = .type t ∧ e = .unknownEntityType t avail ∧ ∀ x ∈ accepted gops, x.entityType ≠ t) ∨
    ∃ a es, q.aggregation = some a ∧
      Query.execute env rt (Graph.run gops) { q with aggregation := none } = .ok (.entities es) ∧
      AggregationFault env es a e := by
  have hI := Inv.run gops
  simp only [Query.execute] at he ⊢
  cases hs : selectFrom rt (Graph.run gops) q.source with
  | error e' =>
    rw [hs] at he
    cases he
    cases hsrc : q.source with
    | all => rw [hsrc] at hs; cases hs
    | type t =>
      rw [hsrc] at hs
      simp only [selectFrom] at hs
      split at hs
      · cases hs
      · rename_i hno
        cases hs
        refine .inl ⟨t, _, rfl, rfl, ?_⟩
        intro x hx ht
        apply hno
        rw [(rt.order_perm 0 _).mem_iff, (C03_all_types gops).2]
        exact ⟨x, hx, ht⟩
  | ok start =>
    rw [hs] at he
    simp only at he ⊢
    have hb := Bag.selectFrom hI rt _ hs
    have hw : AllInScope (match q.source with | .type t => some t | .all => none) start := by
      cases hsrc : q.source with
      | all => exact fun _ _ => rfl
      | type t =>
        rw [hsrc] at hs
        simp only [selectFrom] at hs
        split at hs
        · cases hs
          intro x hx
          rw [hI.listByType_eq] at hx
          exact (List.mem_filter.1 hx).2
        · cases hs
    obtain ⟨r, scope, h1, h2, h3, h4⟩ := fits_operations rt hall q.operations hq hb hw
    rw [h1] at he ⊢
    simp only at he ⊢
    cases ha : q.aggregation with
    | none => rw [ha] at he; cases he
    | some a =>
      rw [ha] at he h4
      simp only at he
      cases hx : a.execute env r with
      | ok r => rw [hx] at he; cases he
      | error e' =>
        rw [hx] at he
        cases he
        exact .inr ⟨a, r, rfl, rfl, aggregation_faults h4
          (fun x hx => hall x (by rw [← nodes_run]; exact h2.1 x hx)) h3 hx⟩

/-- C152: the same for a workspace that builds and a query as text: if it can be read and fits the schemas of the
workspace, it fails for no other reason. -/
theorem C152_workspace (L : Lang) (rt : Runtime) (w : Workspace) (b : WorkspaceBuild) (g : Graph)
    (hb : w.build L = .ok b) (hg : b.toGraph = (g, .ok ())) (text : Str) (p : ParsedQuery)
    (hp : parseQuery L text = .ok p) (hq : FitsSchemas L.env b.schemas (convertQuery L.cases p) = true) (x : QueryFailure)
    (hx : runQuery L rt g text = .error x) :
    ∃ e, x = .execution e ∧
      ((∃ t avail, (convertQuery L.cases p).source = .type t ∧ e = .unknownEntityType t avail ∧
          ∀ x ∈ b.entities, x.entityType ≠ t) ∨
        ∃ a es, p.aggregation.isSome = true ∧ (convertQuery L.cases p).aggregation = some a ∧
          (∀ y ∈ es, y ∈ b.entities) ∧ AggregationFault L.env es a e) := by
  obtain ⟨rfl, hacc, _⟩ := toGraph_run hg
  obtain ⟨es0, ss0⟩ := b
  have hv := (C41_build L w es0 ss0).1 hb
  have hall : AllConform L.env ss0 (accepted (es0.map .add ++ [.build])) := by
    intro e he
    rw [hacc] at he
    obtain ⟨s, hs, _, hc⟩ := hv.checked e he
    exact ⟨s, hs, hc⟩
  unfold runQuery at hx
  rw [hp] at hx
  dsimp only at hx
  split at hx
  · rename_i e he
    cases hx
    refine ⟨e, rfl, ?_⟩
    rcases C152_fits _ L.env rt ss0 hall _ hq e he with ⟨t, av, h1, h2, h3⟩ | ⟨a, es, h1, h2, h3⟩
    · exact .inl ⟨t, av, h1, h2, by rw [hacc] at h3; exact h3⟩
    · have h4 := (C32_bag _ L.env rt _ es h2).1
      rw [hacc] at h4
      refine .inr ⟨a, es, ?_, h1, h4, h3⟩
      cases hpa : p.aggregation with
      | some _ => rfl
      | none => rw [convertQuery, hpa] at h1; cases h1
  · cases hx

/-- C152: the table is exact. If one entity of the type has a value of a scalar type that the condition does not go
with, the query fails, unless the condition compares amounts that have no common currency. -/
theorem C152_needed (gops : List GOp) (env : Env) (rt : Runtime) (e : Entity) (he : e ∈ accepted gops) (f : FieldId)
    (fv : FieldValue) (hv : e.getField f = some fv) (hl : fv.getType ≠ .list) (op : FilterOperator) (v : FilterValue)
    (hs : Suits op v.kind fv.getType = false) (hc : ¬ CurrencyApart env fv v) (ops : List QueryOperation)
    (a : Option Aggregation) :
    ∃ x, Query.execute env rt (Graph.run gops)
      ⟨.type e.entityType, .where (.single ⟨.regular f, op, v⟩) :: ops, a⟩ = .error x := by
  have hcmp : ∃ x, compareField env fv op v = .error x := by
    by_cases hu : Unreadable env fv v
    · cases v with
      | dateTime s => exact ⟨_, (C26_exceptions env fv op _).2 s rfl hu⟩
      | _ => cases fv <;> exact absurd hu (fun h => h)
    · have ht := C26_error_table env fv hl op v hc hu
      cases hr : rejection fv.getType op v.kind with
      | some x => rw [hr] at ht; exact ⟨x, ht⟩
      | none =>
        exfalso
        have : Suits op v.kind fv.getType = true := by
          simp only [Suits, Bool.and_eq_true, bne_iff_ne, ne_eq, List.contains_iff_mem]
          refine ⟨⟨hl, ?_⟩, ?_⟩
          · by_contra hn
            unfold rejection at hr
            rw [if_pos hn, if_pos hn] at hr
            split at hr
            · cases hr
            · split at hr <;> cases hr
          · by_contra hn
            have hn' : comparable fv.getType v.kind = false := by simpa using hn
            unfold rejection at hr
            rw [if_pos hn', if_pos hn'] at hr
            split at hr
            · split at hr <;> cases hr
            · cases hr
        rw [hs] at this
        cases this
  obtain ⟨x, hx⟩ := hcmp
  have hm : CompoundCondition.matches env (.single ⟨.regular f, op, v⟩) e = .error x := by
    simp only [CompoundCondition.matches, CompoundCondition.single, collectResults, FilterCondition.matches,
      FilterCondition.matchesField, hv, hx]
  have hfilter : ∀ es : List Entity, e ∈ es → ∃ y, filterEntities env (.single ⟨.regular f, op, v⟩) es = .error y := by
    intro es
    induction es with
    | nil => intro h; cases h
    | cons d es ih =>
      intro h
      rw [filterEntities]
      cases hd : CompoundCondition.matches env (.single ⟨.regular f, op, v⟩) d with
      | error y => exact ⟨y, rfl⟩
      | ok k =>
        rcases List.mem_cons.1 h with rfl | h
        · rw [hm] at hd; cases hd
        · obtain ⟨y, hy⟩ := ih h
          dsimp only
          rw [hy]
          exact ⟨y, rfl⟩
  have hsel : selectFrom rt (Graph.run gops) (.type e.entityType) = .ok ((Graph.run gops).listByType e.entityType) := by
    rw [selectFrom]
    rw [if_pos]
    rw [(rt.order_perm 0 _).mem_iff, (C03_all_types gops).2]
    exact ⟨e, he, rfl⟩
  obtain ⟨y, hy⟩ := hfilter ((Graph.run gops).listByType e.entityType) (by
    rw [(Inv.run gops).listByType_eq, nodes_run]
    exact List.mem_filter.2 ⟨he, beq_self_eq_true _⟩)
  refine ⟨y, ?_⟩
  simp only [Query.execute, hsel, applyOperations, applyOperation, hy]

/-! ## What the schemas do not say -/

/-- A schema of tasks with tags. -/
def exTagSchema : EntitySchema := ⟨"task".toList, [("tags".toList, ⟨.list, .optional, 0, none⟩)]⟩

/-- C152: a list field is declared without the type of its elements, so that the operator lists have, `contains`, can
fail although everything conforms: here because the tags of one task are numbers. -/
theorem C152_lists : ∃ (gops : List GOp) (env : Env) (rt : Runtime) (ss : List EntitySchema),
    AllConform env ss (accepted gops) ∧
    Column ss (some "task".toList) "tags".toList (· == .list) = true ∧
    Query.execute env rt (Graph.run gops) ⟨.type "task".toList,
      [.where (.single ⟨.regular "tags".toList, .contains, .string "urgent".toList⟩)], none⟩ =
      .error (.typeMismatch .integer .string) := by
  refine ⟨[.add ⟨"task.a".toList, "task".toList, [("tags".toList, .list [.integer 1])]⟩], exEnv,
    exRt, [exTagSchema], ?_, by decide +kernel, by decide +kernel⟩
  intro e he
  refine ⟨exTagSchema, by simp, (C15_verdict _ _ _).1 ?_⟩
  revert e
  decide +kernel

/-- C152: fields that no schema declares are accepted with values of any type, so that a condition on such a field can
fail although everything conforms. -/
theorem C152_undeclared : ∃ (gops : List GOp) (env : Env) (rt : Runtime) (ss : List EntitySchema),
    AllConform env ss (accepted gops) ∧
    Query.execute env rt (Graph.run gops) ⟨.type "task".toList,
      [.where (.single ⟨.regular "priority".toList, .greaterThan, .integer 5⟩)], none⟩ =
      .error (.typeMismatch .string .integer) := by
  refine ⟨[.add ⟨"task.a".toList, "task".toList, [("priority".toList, .string "high".toList)]⟩], exEnv,
    exRt, [exTagSchema], ?_, by decide +kernel⟩
  intro e he
  refine ⟨exTagSchema, by simp, (C15_verdict _ _ _).1 ?_⟩
  revert e
  decide +kernel

/-- Does the text read as a query that fits the built-in schemas? -/
def exFitsDefaults (text : String) : Option Bool :=
  match parseQuery exLang text.toList with
  | .ok p => some (FitsSchemas exEnv (defaultSchemas exLang) (convertQuery asciiTable p))
  | .error _ => none

/-! Queries of the documentation that fit the built-in schemas (query-reference.md, querying.md, cli-reference.md). -/

example : exFitsDefaults "from task | where is_completed == false" = some true := by decide +kernel
example : exFitsDefaults "from task | where assignee_ref == person.john_doe" = some true := by decide +kernel
example : exFitsDefaults "from project | where status == \"active\" | related task" = some true := by decide +kernel
example : exFitsDefaults
    "from task | where is_completed == false | order due_date | select @id, name, due_date" = some true := by
  decide +kernel
example : exFitsDefaults "from * | where @type == \"task\"" = some true := by decide +kernel
example : exFitsDefaults "from * | order @type" = some true := by decide +kernel
example : exFitsDefaults "from organization | where name contains \"Acme\" | related project | related task" =
    some true := by decide +kernel

/-! Queries that do not: a field that is declared in no built-in schema of the type, an ordering comparison of a text,
the same name with several types, a list. -/

example : exFitsDefaults "from organization | where industry == \"tech\"" = some false := by decide +kernel
example : exFitsDefaults "from task | where name > \"a\"" = some false := by decide +kernel
example : exFitsDefaults "from * | where status == \"open\"" = some false := by decide +kernel
example : exFitsDefaults "from person | where urls contains \"firm\"" = some false := by decide +kernel
example : exFitsDefaults "from task | sum name" = some false := by decide +kernel
example : exFitsDefaults "from opportunity | sum value" = some true := by decide +kernel

/-! A graph that conforms, and the three ways in which an aggregation that fits fails. -/

/-- A schema of deals with a value. -/
def exDealSchema : EntitySchema := ⟨"deal".toList, [("value".toList, ⟨.currency, .optional, 0, none⟩),
  ("score".toList, ⟨.integer, .optional, 1, none⟩)]⟩

/-- Two deals in two currencies. -/
def exDealOps : List GOp :=
  [.add ⟨"deal.a".toList, "deal".toList, [("value".toList, .currency ⟨1, 0⟩ "EUR".toList)]⟩,
    .add ⟨"deal.b".toList, "deal".toList, [("value".toList, .currency ⟨1, 0⟩ "USD".toList)]⟩]

theorem exDeal_conform : AllConform exEnv [exDealSchema] (accepted exDealOps) := by
  intro e he
  refine ⟨exDealSchema, by simp, (C15_verdict _ _ _).1 ?_⟩
  revert e
  decide +kernel

example : FitsSchemas exEnv [exDealSchema] ⟨.type "deal".toList, [], some (.sum (.regular "value".toList))⟩ = true ∧
    Query.execute exEnv exRt (Graph.run exDealOps) ⟨.type "deal".toList, [], some (.sum (.regular "value".toList))⟩ =
      .error (.invalidAggregation (.mixedCurrencies "USD".toList "EUR".toList)) := by decide +kernel
example : FitsSchemas exEnv [exDealSchema] ⟨.all, [], some (.average (.regular "score".toList))⟩ = true ∧
    Query.execute exEnv exRt (Graph.run exDealOps) ⟨.all, [], some (.average (.regular "score".toList))⟩ =
      .error (.invalidAggregation .emptyResult) := by decide +kernel
example : FitsSchemas exEnv [exDealSchema] ⟨.type "task".toList, [], none⟩ = true ∧
    Query.execute exEnv exRt (Graph.run exDealOps) ⟨.type "task".toList, [], none⟩ =
      .error (.unknownEntityType "task".toList ["deal".toList]) := by decide +kernel

end Firm
