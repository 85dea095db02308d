import Verif.Props.Typed

/-!
# C154: a condition and its opposite split what they are asked about
-/

namespace Firm
open Spec

/-! ## The specification -/

/-- The operator that says the opposite. -/
def Spec.opposite : FilterOperator → Option FilterOperator
  | .equal => some .notEqual
  | .notEqual => some .equal
  | .greaterThan => some .lessOrEqual
  | .lessOrEqual => some .greaterThan
  | .lessThan => some .greaterOrEqual
  | .greaterOrEqual => some .lessThan
  | _ => none

/-- One of the two numbers is not a number. -/
def Spec.NoNumber : FieldValue → FilterValue → Prop
  | .float a, .float b => a = .nan ∨ b = .nan
  | .float a, .integer _ => a = .nan
  | .integer _, .float b => b = .nan
  | _, _ => False

/-- The value and the value asked for can be told apart: an amount is asked for in its own currency, no number is
missing, and the value is not a list. -/
structure Spec.ToldApart (env : Env) (fv : FieldValue) (v : FilterValue) : Prop where
  scalar : fv.getType ≠ .list
  currency : ¬ CurrencyApart env fv v
  difference : ¬ FloatApart fv v
  number : ¬ NoNumber fv v

/-- The condition that says the opposite of a single one. -/
def Spec.Opposite (c c' : FilterCondition) : Prop :=
  c'.field = c.field ∧ c'.value = c.value ∧ opposite c.operator = some c'.operator

/-- The condition that says the opposite of a combined one: all parts are replaced by their opposites, and "and" by
"or". -/
def Spec.OppositeAll (c c' : CompoundCondition) : Prop :=
  List.Forall₂ Opposite c.conditions c'.conditions ∧ c'.combinator ≠ c.combinator

/-- A 64-bit number, as all numbers of queries are. -/
def Spec.SmallValue (v : FilterValue) : Prop := ∀ n, v = .integer n → n.natAbs ≤ 2 ^ 63

/-- The entity has what the condition asks about, and it can be told apart. -/
def Spec.Answers (env : Env) (e : Entity) (c : FilterCondition) : Prop :=
  SmallValue c.value ∧ ∀ f, c.field = .regular f → ∃ fv, e.getField f = some fv ∧ ToldApart env fv c.value

/-! ## One value -/

theorem orderedOp_opposite {t : FieldType} {o : Ordering} {op op' : FilterOperator} {b : Bool}
    (ho : opposite op = some op') (h : orderedOp t o op = .ok b) : orderedOp t o op' = .ok (!b) := by
  cases op <;> cases ho <;> cases o <;> cases h <;> rfl

theorem compareText_opposite {env : Env} {t : FieldType} {s x : Str} {op op' : FilterOperator} {b : Bool}
    (ho : opposite op = some op') (h : compareText env t s op x = .ok b) : compareText env t s op' x = .ok (!b) := by
  cases op <;> cases ho <;> simp [compareText] at h ⊢ <;> simp [h]

theorem compareString_opposite {env : Env} {fv : FieldValue} {v : FilterValue} {op op' : FilterOperator} {b : Bool}
    (ho : opposite op = some op') (h : compareString env fv op v = .ok b) :
    compareString env fv op' v = .ok (!b) := by
  unfold compareString at *
  cases fv <;> simp only at h ⊢ <;> (try cases h)
  all_goals
    cases v <;> simp only [FilterValue.text?] at h ⊢ <;> (try cases h)
    all_goals exact compareText_opposite ho h

theorem float_order {a x : F64} (ha : a ≠ .nan) (hx : x ≠ .nan) : a.le x = !a.gt x ∧ a.ge x = !a.lt x := by
  have hn : a.partialCmp x ≠ none := by rw [Ne, F64.partialCmp_none]; simp [ha, hx]
  obtain ⟨o, ho⟩ := Option.ne_none_iff_exists'.1 hn
  simp only [F64.le, F64.gt, F64.ge, F64.lt, ho]
  cases o <;> exact ⟨rfl, rfl⟩

theorem ofInt_ne_nan (n : Int) : F64.ofInt n ≠ .nan := by
  unfold F64.ofInt F64.rnd; simp only; repeat' split
  all_goals simp

/-- C154: if a condition can be answered for a value, so can its opposite, and the answers are opposite. -/
theorem C154_value_partial (env : Env) (fv : FieldValue) (v : FilterValue) {op op' : FilterOperator} {b : Bool}
    (ho : opposite op = some op') (hv : SmallValue v) (hd : ToldApart env fv v)
    (h : compareField env fv op v = .ok b) : compareField env fv op' v = .ok (!b) := by
  have hnum := hd.number
  cases fv with
  | string s => exact compareString_opposite (fv := .string s) ho h
  | enum s => exact compareString_opposite (fv := .enum s) ho h
  | path s => exact compareString_opposite (fv := .path s) ho h
  | list l => exact absurd rfl hd.scalar
  | boolean x =>
    simp only [compareField, compareBoolean] at h ⊢
    cases v <;> simp only at h ⊢ <;> (try cases h)
    cases op <;> cases ho <;> cases h <;> simp [bne]
  | reference r =>
    simp only [compareField, compareReference] at h ⊢
    cases op <;> cases ho <;> simp at h ⊢ <;> cases v <;> simp_all
  | integer n =>
    simp only [compareField, compareInteger] at h ⊢
    cases v with
    | integer m =>
      cases op <;> cases ho <;> cases h <;> refine congrArg _ (Bool.eq_iff_iff.2 ?_) <;> simp
    | float x =>
      have hx : x ≠ .nan := hnum
      obtain ⟨h1, h2⟩ := float_order (ofInt_ne_nan n) hx
      cases op <;> cases ho <;> cases h <;> simp [h1, h2]
    | _ => cases h
  | dateTime d =>
    simp only [compareField, compareDateTime] at h ⊢
    cases v with
    | dateTime s =>
      simp only at h ⊢
      split at h
      · exact orderedOp_opposite ho h
      · split at h
        · exact orderedOp_opposite ho h
        · cases h
    | _ => cases h
  | currency a code =>
    have hc := hd.currency
    simp only [compareField, compareCurrency] at h ⊢
    cases v with
    | currency x code' =>
      simp only [CurrencyApart, not_or, not_not] at hc
      obtain ⟨rfl, hx⟩ := hc
      obtain ⟨d, hx⟩ := Option.ne_none_iff_exists'.1 hx
      simp only [ne_eq, not_true_eq_false, if_false, hx] at h ⊢
      exact orderedOp_opposite ho h
    | _ => cases h
  | float a =>
    have key : ∀ x : F64, a ≠ .nan → x ≠ .nan → (¬ ∃ s, a = .inf s ∧ x = .inf s) → compareFloatOp a op x = .ok b →
        compareFloatOp a op' x = .ok (!b) := by
      intro x h1 h2 h3 hcmp
      obtain ⟨o1, o2⟩ := float_order h1 h2
      have hs : a.sub x ≠ .nan := F64.sub_ne_nan h1 h2 (fun s hs => h3 ⟨s, hs⟩)
      have habs : (a.sub x).abs ≠ .nan := by
        cases hs' : a.sub x <;> simp [F64.abs]; exact hs hs'
      obtain ⟨-, o4⟩ := float_order (x := F64.epsilon) habs (by simp [F64.epsilon])
      cases op <;> cases ho <;> simp [compareFloatOp] at hcmp ⊢ <;> subst hcmp <;> simp [o1, o2, o4]
    have hf := hd.difference
    simp only [compareField, compareFloat] at h ⊢
    cases v with
    | float x =>
      simp only [FloatApart, not_or] at hf
      exact key x hf.1 hf.2.1 hf.2.2 h
    | integer n =>
      simp only [FloatApart] at hf
      exact key _ hf (ofInt_ne_nan n) (by rintro ⟨s, _, hs⟩; exact F64.ofInt_finite (hv n rfl) s hs) h
    | _ => cases h

/-- C154, what is missing: if an amount is asked for in another currency, or a number is missing, neither the condition
nor its opposite holds; and lists have no `!=`. -/
theorem C154_neither : ∃ env : Env,
    (compareField env (.currency ⟨5, 0⟩ "EUR".toList) .greaterThan (.currency (.fin 1) "USD".toList) = .ok false ∧
      compareField env (.currency ⟨5, 0⟩ "EUR".toList) .lessOrEqual (.currency (.fin 1) "USD".toList) = .ok false) ∧
    (compareField env (.float .nan) .greaterThan (.integer 1) = .ok false ∧
      compareField env (.float .nan) .lessOrEqual (.integer 1) = .ok false) ∧
    compareField env (.list [.integer 1]) .equal (.list [.integer 1]) = .ok true ∧
    compareField env (.list [.integer 1]) .notEqual (.list [.integer 1]) =
      .error (.unsupportedOperator .list .notEqual listOps) :=
  ⟨exEnv, by decide +kernel, by decide +kernel, by decide +kernel, by decide +kernel⟩

/-! ## One entity -/

theorem condition_opposite {env : Env} {e : Entity} {c c' : FilterCondition} {b : Bool} (ho : Opposite c c')
    (ha : Answers env e c) (h : c.matches env e = .ok b) : c'.matches env e = .ok (!b) := by
  obtain ⟨f, op, v⟩ := c
  obtain ⟨f', op', v'⟩ := c'
  obtain ⟨rfl, rfl, hop⟩ := ho
  dsimp only at hop
  cases f' with
  | metadata m => exact compareString_opposite hop h
  | regular f =>
    obtain ⟨fv, hf, hd⟩ := ha.2 f rfl
    simp only [FilterCondition.matches, FilterCondition.matchesField, hf] at h ⊢
    exact C154_value_partial env fv v' hop ha.1 hd h

theorem collect_opposite {env : Env} {e : Entity} {cs cs' : List FilterCondition} {rs : List Bool}
    (ho : List.Forall₂ Opposite cs cs') (ha : ∀ c ∈ cs, Answers env e c)
    (h : collectResults (fun c => c.matches env e) cs = .ok rs) :
    collectResults (fun c => c.matches env e) cs' = .ok (rs.map (!·)) := by
  induction ho generalizing rs with
  | nil => cases h; rfl
  | @cons c c' cs cs' hc _ ih =>
    simp only [collectResults] at h ⊢
    split at h
    · cases h
    · next b hb =>
      split at h
      · cases h
      · next bs hbs =>
        cases h
        rw [condition_opposite hc (ha c (by simp)) hb, ih (fun x hx => ha x (by simp [hx])) hbs]
        rfl

theorem all_not (rs : List Bool) : (rs.map (!·)).any id = !rs.all id ∧ (rs.map (!·)).all id = !rs.any id := by
  induction rs with
  | nil => exact ⟨rfl, rfl⟩
  | cons r rs ih =>
    simp only [List.map_cons, List.any_cons, List.all_cons, ih.1, ih.2, id]
    cases r <;> simp

/-- C154: for an entity that has all the fields asked about, with values that can be told apart, a combined condition
and its opposite have opposite answers. -/
theorem C154_entity_partial {env : Env} {e : Entity} {c c' : CompoundCondition} {b : Bool} (ho : OppositeAll c c')
    (ha : ∀ x ∈ c.conditions, Answers env e x) (h : c.matches env e = .ok b) : c'.matches env e = .ok (!b) := by
  obtain ⟨cs, k⟩ := c
  obtain ⟨cs', k'⟩ := c'
  obtain ⟨hcs, hk⟩ := ho
  simp only [CompoundCondition.matches] at h ⊢
  split at h
  · cases h
  · next rs hrs =>
    rw [collect_opposite hcs ha hrs]
    obtain ⟨h1, h2⟩ := all_not rs
    cases k <;> cases k' <;> first | exact absurd rfl hk | skip
    · cases h; simp only [h1]
    · cases h; simp only [h2]

/-! ## Queries -/

/-- The entities that have the field; all of them, if it is metadata. -/
def Spec.hasField (f : FieldRef) (e : Entity) : Bool := match f with
  | .metadata _ => true
  | .regular f => (e.getField f).isSome

theorem filter_opposite {env : Env} {c c' : CompoundCondition} : ∀ {es r : List Entity},
    (∀ e ∈ es, ∀ b, c.matches env e = .ok b → c'.matches env e = .ok (!b)) → filterEntities env c es = .ok r →
    ∃ r', filterEntities env c' es = .ok r' ∧ List.Perm (r ++ r') es
  | [], r, _, h => by cases h; exact ⟨[], rfl, .refl _⟩
  | e :: es, r, hm, h => by
    simp only [filterEntities] at h ⊢
    split at h
    · cases h
    · next b hb =>
      split at h
      · cases h
      · next t ht =>
        obtain ⟨r', hr', hp⟩ := filter_opposite (fun x hx => hm x (by simp [hx])) ht
        cases h
        rw [hm e (by simp) b hb, hr']
        refine ⟨_, rfl, ?_⟩
        cases b
        · exact List.perm_middle.trans (hp.cons e)
        · exact hp.cons e

/-- The clauses of a query before its last condition and what they find. -/
theorem execute_snoc {env : Env} {rt : Runtime} {g : Graph} {src : EntitySelector} {ops : List QueryOperation}
    (hn : ∀ o ∈ ops, ∀ d t, o ≠ .related d t) (c : CompoundCondition) {es : List Entity}
    (h : Query.execute env rt g ⟨src, ops, none⟩ = .ok (.entities es)) (a : Option Aggregation) :
    Query.execute env rt g ⟨src, ops ++ [.where c], a⟩ = match filterEntities env c es with
      | .error e => .error e
      | .ok r => match a with
        | none => .ok (.entities r)
        | some a => match a.execute env r with
          | .ok x => .ok (.aggregation x)
          | .error e => .error e := by
  simp only [Query.execute] at h ⊢
  split at h
  · cases h
  · next all hall =>
    split at h
    · cases h
    · next es' hes' =>
      cases h
      rw [applyOperations_snoc env rt g (by intro d t; exact nofun) hn hes']
      simp only [applyOperation]
      cases filterEntities env c es with
      | error e => rfl
      | ok r =>
        cases a with
        | none => rfl
        | some a => cases a.execute env r <;> rfl

theorem execute_agg {env : Env} {rt : Runtime} {g : Graph} {src : EntitySelector} {ops : List QueryOperation}
    {es : List Entity} (h : Query.execute env rt g ⟨src, ops, none⟩ = .ok (.entities es)) (a : Aggregation) :
    Query.execute env rt g ⟨src, ops, some a⟩ = match a.execute env es with
      | .ok x => .ok (.aggregation x)
      | .error e => .error e := by
  simp only [Query.execute] at h ⊢
  split at h
  · cases h
  · next all hall =>
    split at h
    · cases h
    · next es' hes' => cases h; rfl

/-- C154: if all the entities that a query finds have the fields that a condition asks about, with values that can be
told apart, then each of them is found by the query with the condition or by the query with the opposite condition, and
none by both. Missing for the full claim: fields that are not given (`C154_count_partial` counts them), values that
cannot be told apart (`C154_neither`), and queries that follow references, whose order of results may differ from run to
run. -/
theorem C154_split_partial {env : Env} {rt : Runtime} {g : Graph} {src : EntitySelector} {ops : List QueryOperation}
    (hn : ∀ o ∈ ops, ∀ d t, o ≠ .related d t) {c c' : CompoundCondition} (ho : OppositeAll c c')
    {es r : List Entity} (h : Query.execute env rt g ⟨src, ops, none⟩ = .ok (.entities es))
    (ha : ∀ e ∈ es, ∀ x ∈ c.conditions, Answers env e x)
    (hr : Query.execute env rt g ⟨src, ops ++ [.where c], none⟩ = .ok (.entities r)) :
    ∃ r', Query.execute env rt g ⟨src, ops ++ [.where c'], none⟩ = .ok (.entities r') ∧ List.Perm (r ++ r') es := by
  rw [execute_snoc hn c h] at hr
  split at hr
  · cases hr
  · next t ht =>
    cases hr
    obtain ⟨r', hr', hp⟩ := filter_opposite (fun e he b hb => C154_entity_partial ho (ha e he) hb) ht
    exact ⟨r', by rw [execute_snoc hn c' h, hr'], hp⟩

/-- How often the parts of a split answer: the entities that have the field. -/
theorem filter_count {env : Env} {c c' : FilterCondition} (ho : Opposite c c') : ∀ {es r : List Entity},
    (∀ e ∈ es, hasField c.field e = true → Answers env e c) → filterEntities env (.single c) es = .ok r →
    ∃ r', filterEntities env (.single c') es = .ok r' ∧ List.Perm (r ++ r') (es.filter (hasField c.field))
  | [], r, _, h => by cases h; exact ⟨[], rfl, .refl _⟩
  | e :: es, r, ha, h => by
    simp only [filterEntities] at h ⊢
    split at h
    · cases h
    · next b hb =>
      split at h
      · cases h
      · next t ht =>
        obtain ⟨r', hr', hp⟩ := filter_count ho (fun x hx => ha x (by simp [hx])) ht
        cases h
        rw [hr']
        by_cases hf : hasField c.field e = true
        · have hm : (CompoundCondition.single c').matches env e = .ok (!b) := by
            have h1 : c.matches env e = .ok b := by
              simp only [CompoundCondition.single, CompoundCondition.matches, collectResults] at hb
              split at hb
              · cases hb
              · next rs hrs =>
                split at hrs
                · cases hrs
                · next x hx => cases hrs; cases hb; rw [hx]; simp
            simp [CompoundCondition.single, CompoundCondition.matches, collectResults,
              condition_opposite ho (ha e (by simp) hf) h1]
          rw [hm, List.filter_cons_of_pos hf]
          refine ⟨_, rfl, ?_⟩
          cases b
          · exact List.perm_middle.trans (hp.cons e)
          · exact hp.cons e
        · have hno : ∀ x : FilterCondition, x.field = c.field → (CompoundCondition.single x).matches env e = .ok false := by
            intro x hx
            cases hc : c.field with
            | metadata m => rw [hc] at hf; exact absurd rfl hf
            | regular f =>
              rw [hc] at hf hx
              have : e.getField f = none := by simpa [hasField] using hf
              simp [CompoundCondition.single, CompoundCondition.matches, collectResults, FilterCondition.matches,
                FilterCondition.matchesField, hx, this]
          rw [hno c rfl] at hb
          cases hb
          rw [hno c' ho.1, List.filter_cons_of_neg hf]
          exact ⟨_, rfl, hp⟩

/-- C154: the numbers that `count` gives for a condition and for its opposite add up to what `count` gives for the field
they ask about. -/
theorem C154_count_partial {env : Env} {rt : Runtime} {g : Graph} {src : EntitySelector} {ops : List QueryOperation}
    (hn : ∀ o ∈ ops, ∀ d t, o ≠ .related d t) {c c' : FilterCondition} (ho : Opposite c c')
    {es : List Entity} {n : Nat} (h : Query.execute env rt g ⟨src, ops, none⟩ = .ok (.entities es))
    (ha : ∀ e ∈ es, hasField c.field e = true → Answers env e c)
    (hr : Query.execute env rt g ⟨src, ops ++ [.where (.single c)], some (.count none)⟩ = .ok (.aggregation (.count n))) :
    ∃ m, Query.execute env rt g ⟨src, ops ++ [.where (.single c')], some (.count none)⟩ =
        .ok (.aggregation (.count m)) ∧
      Query.execute env rt g ⟨src, ops, some (.count (some c.field))⟩ = .ok (.aggregation (.count (n + m))) := by
  rw [execute_snoc hn _ h] at hr
  split at hr
  · cases hr
  · next t ht =>
    simp only [Aggregation.execute, executeCount] at hr
    cases hr
    obtain ⟨r', hr', hp⟩ := filter_count ho ha ht
    refine ⟨r'.length, by rw [execute_snoc hn _ h, hr']; rfl, ?_⟩
    have hl := hp.length_eq
    rw [List.length_append] at hl
    rw [execute_agg h, hl]
    cases hc : c.field with
    | metadata m =>
      have : es.filter (hasField (.metadata m)) = es := List.filter_eq_self.2 (fun _ _ => rfl)
      simp only [Aggregation.execute, executeCount, this]
    | regular f => rfl

/-! ## Sums -/

theorem absTotal_append (a b : List Int) : absTotal (a ++ b) = absTotal a + absTotal b := by
  induction a with
  | nil => simp [absTotal]
  | cons x a ih => simp only [List.cons_append, absTotal, ih]; omega

theorem total_append (a b : List Int) : total (a ++ b) = total a + total b := by
  induction a with
  | nil => simp [total]
  | cons x a ih => simp only [List.cons_append, total, ih]; omega

theorem fit_of_abs {l : List Int} (hl : absTotal l < 2 ^ 63) : PrefixSumsFit l := fun k => by
  simpa using (prefixesOk_iff l 0 (by decide)).1 (prefixesOk_of_abs l 0 (by simpa using hl)) k

/-- C154: the sums of a field of whole numbers over the entities that meet a condition and over those that meet its
opposite add up to the sum over all of them, if all that have the number also have the field asked about and the
numbers are not too large for 64 bits. -/
theorem C154_sum_partial {env : Env} {rt : Runtime} {g : Graph} {src : EntitySelector} {ops : List QueryOperation}
    (hn : ∀ o ∈ ops, ∀ d t, o ≠ .related d t) {c c' : FilterCondition} (ho : Opposite c c') {f : FieldId}
    {es r : List Entity} {ns : List Int} (h : Query.execute env rt g ⟨src, ops, none⟩ = .ok (.entities es))
    (ha : ∀ e ∈ es, hasField c.field e = true → Answers env e c)
    (hboth : ∀ e ∈ es, hasField (.regular f) e = true → hasField c.field e = true)
    (hints : present f es = ns.map .integer) (hsize : absTotal ns < 2 ^ 63)
    (hr : Query.execute env rt g ⟨src, ops ++ [.where (.single c)], none⟩ = .ok (.entities r)) :
    ∃ a b : Int, Query.execute env rt g ⟨src, ops ++ [.where (.single c)], some (.sum (.regular f))⟩ =
        .ok (.aggregation (.sum (.integer a))) ∧
      Query.execute env rt g ⟨src, ops ++ [.where (.single c')], some (.sum (.regular f))⟩ =
        .ok (.aggregation (.sum (.integer b))) ∧
      Query.execute env rt g ⟨src, ops, some (.sum (.regular f))⟩ = .ok (.aggregation (.sum (.integer (a + b)))) := by
  rw [execute_snoc hn _ h] at hr
  split at hr
  · cases hr
  · next t ht =>
    cases hr
    obtain ⟨r', hr', hp⟩ := filter_count ho ha ht
    have hpres : present f (es.filter (hasField c.field)) = present f es := by
      unfold present
      clear h hr' hp ht ha hints
      induction es with
      | nil => rfl
      | cons e es ih =>
        have ih := ih (fun x hx => hboth x (by simp [hx]))
        by_cases hf : hasField c.field e = true
        · rw [List.filter_cons_of_pos hf, List.filterMap_cons, List.filterMap_cons, ih]
        · rw [List.filter_cons_of_neg hf, List.filterMap_cons, ih]
          have : e.getField f = none := by
            have := fun hx => hf (hboth e (by simp) hx)
            simpa [hasField] using this
          rw [this]
    have hp' : (present f (r ++ r')).Perm (ns.map .integer) := by
      rw [← hints, ← hpres]; exact hp.filterMap _
    rw [show present f (r ++ r') = present f r ++ present f r' from List.filterMap_append] at hp'
    obtain ⟨ms, hms, hperm⟩ := perm_map_inj (fun a b h => by cases h; rfl) hp'
    obtain ⟨xs, ys, rfl, hx, hy⟩ := List.map_eq_append_iff.1 hms.symm
    have hsz : absTotal xs + absTotal ys < 2 ^ 63 := by
      rw [← absTotal_append, absTotal_perm hperm]; exact hsize
    refine ⟨total xs, total ys, ?_, ?_, ?_⟩
    · rw [execute_snoc hn _ h, ht]
      simp only [C37_integers env f r xs hx.symm (fit_of_abs (by omega))]
    · rw [execute_snoc hn _ h, hr']
      simp only [C37_integers env f r' ys hy.symm (fit_of_abs (by omega))]
    · rw [execute_agg h, C37_integers env f es ns hints (fit_of_abs hsize), ← total_append, total_perm hperm]

/-! ## Cases -/

/-- Four deals: two in euros, one in dollars, one without an amount. -/
def exDeals : List GOp := [
  .add ⟨"deal.a".toList, "deal".toList, [("amount".toList, .currency ⟨5, 0⟩ "EUR".toList), ("n".toList, .integer 3)]⟩,
  .add ⟨"deal.b".toList, "deal".toList, [("amount".toList, .currency ⟨1, 0⟩ "EUR".toList), ("n".toList, .integer 4)]⟩,
  .add ⟨"deal.c".toList, "deal".toList, [("amount".toList, .currency ⟨9, 0⟩ "USD".toList), ("n".toList, .integer 5)]⟩,
  .add ⟨"deal.d".toList, "deal".toList, []⟩]

/-- C154 is false of amounts in several currencies: of three deals with an amount, one is above two euros, one is not
above two euros, and the third is neither. -/
theorem C154_currencies : ∃ (env : Env) (rt : Runtime) (gops : List GOp),
    let q := fun (ops : List QueryOperation) (a : Aggregation) =>
      Query.execute env rt (Graph.run gops) ⟨.type "deal".toList, ops, some a⟩
    q [.where (.single ⟨.regular "amount".toList, .greaterThan, .currency (.fin 2) "EUR".toList⟩)] (.count none) =
      .ok (.aggregation (.count 1)) ∧
    q [.where (.single ⟨.regular "amount".toList, .lessOrEqual, .currency (.fin 2) "EUR".toList⟩)] (.count none) =
      .ok (.aggregation (.count 1)) ∧
    q [] (.count (some (.regular "amount".toList))) = .ok (.aggregation (.count 3)) :=
  ⟨exEnv, exRt, exDeals, by decide +kernel, by decide +kernel, by decide +kernel⟩

/-- What the premises of `C154_count_partial` and `C154_sum_partial` say of the deals and `where n > 3`: one deal is
above, two are not, and three have the number. -/
example : let c : FilterCondition := ⟨.regular "n".toList, .greaterThan, .integer 3⟩
    let c' : FilterCondition := ⟨.regular "n".toList, .lessOrEqual, .integer 3⟩
    Opposite c c' ∧ (∃ es, Query.execute exEnv exRt (Graph.run exDeals) ⟨.type "deal".toList, [], none⟩ =
        .ok (.entities es) ∧ (∀ e ∈ es, hasField c.field e = true → Answers exEnv e c) ∧
        present "n".toList es = [3, 4, 5].map .integer) ∧
    Query.execute exEnv exRt (Graph.run exDeals) ⟨.type "deal".toList, [.where (.single c)], some (.count none)⟩ =
      .ok (.aggregation (.count 2)) ∧
    Query.execute exEnv exRt (Graph.run exDeals) ⟨.type "deal".toList, [.where (.single c')], some (.count none)⟩ =
      .ok (.aggregation (.count 1)) ∧
    Query.execute exEnv exRt (Graph.run exDeals) ⟨.type "deal".toList, [], some (.count (some c.field))⟩ =
      .ok (.aggregation (.count 3)) := by
  refine ⟨⟨rfl, rfl, rfl⟩, ⟨(Graph.run exDeals).listByType "deal".toList, by decide +kernel, fun e he hf => ⟨?_, ?_⟩,
    by decide +kernel⟩, by decide +kernel, by decide +kernel, by decide +kernel⟩
  · intro n hn; cases hn; decide
  · intro f hf'
    cases hf'
    obtain ⟨fv, hfv⟩ := Option.isSome_iff_exists.1 hf
    have hall : ∀ e ∈ (Graph.run exDeals).listByType "deal".toList, ∀ fv ∈ e.getField "n".toList,
        fv.getType = .integer := by decide +kernel
    have ht := hall e he fv hfv
    refine ⟨fv, hfv, ?_⟩
    cases fv <;> cases ht
    exact ⟨nofun, id, id, id⟩

end Firm
