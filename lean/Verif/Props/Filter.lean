import Verif.Lemmas.Filter
import Verif.Lemmas.F64
import Verif.Props.Graph

/-!
# Properties C19–C28: filter conditions
-/

namespace Firm
open Spec

section Examples
/-- An environment for examples. -/
def exEnv : Env where
  lower := asciiLower
  decOfF64 := fun x => match x with
    | .fin q => if q.den = 1 then some ⟨q.num, 0⟩ else none
    | .negZero => some ⟨0, 0⟩
    | _ => none
  decToF64 := fun d => some (F64.rnd d.val)
  decAddWide := fun _ _ => none
  overflowChecks := true
  parseDateTime := fun s => if s = "noon".toList then some ⟨43200, 0, 3600⟩ else none
  parseDate := fun s => if s = "1970-01-02".toList then some 1 else none

def exCond (f : String) (op : FilterOperator) (v : FilterValue) : FilterCondition :=
  ⟨.regular f.toList, op, v⟩
/-- `name contains "B"`. -/
def exNameB : FilterCondition := exCond "name" .contains (.string "B".toList)
/-- `name > 3`: always a type error on a text field. -/
def exNameErr : FilterCondition := exCond "name" .greaterThan (.integer 3)
end Examples

/-! ## C19 -/

/-- C19: a successful `where` keeps exactly the matching entities, in their order. -/
theorem C19_where_ok (env : Env) (c : CompoundCondition) (es r : List Entity) :
    filterEntities env c es = .ok r ↔
      (∀ e ∈ es, ∃ b, c.matches env e = .ok b) ∧
        r = es.filter fun e => c.matches env e = .ok true :=
  filterEntities_ok env c es r

/-- C19: the result is a sublist of the input. -/
theorem C19_where_sublist (env : Env) (c : CompoundCondition) (es r : List Entity)
    (h : filterEntities env c es = .ok r) :
    r.Sublist es ∧ ∀ e ∈ es, e ∈ r ↔ c.matches env e = .ok true := by
  obtain ⟨_, rfl⟩ := (C19_where_ok env c es r).1 h
  exact ⟨List.filter_sublist, fun e he => by simp [he]⟩

/-- C19: it fails exactly when evaluating the condition fails on some entity, with the error of the
first such entity. -/
theorem C19_where_error (env : Env) (c : CompoundCondition) (es : List Entity) (err : QueryError) :
    filterEntities env c es = .error err ↔
      ∃ pre e post, es = pre ++ e :: post ∧ (∀ a ∈ pre, ∃ b, c.matches env a = .ok b) ∧
        c.matches env e = .error err :=
  filterEntities_error env c es err

example : filterEntities exEnv (.single exNameB) [exAlice, exBob, exTask] = .ok [exBob] := by decide
example : filterEntities exEnv (.single exNameErr) [exTask, exAlice, exBob] =
    .error (.typeMismatch .string .integer) := by decide

/-! ## C20 -/

/-- C20, partial: whenever `where A and B` succeeds, `where A | where B` gives the same result.
Missing: the converse is false (`C20_not_equivalent`), because a later `where` no longer evaluates
its condition on entities that were already dropped. -/
theorem C20_chain_partial (env : Env) (as bs : List FilterCondition) (es r : List Entity)
    (h : filterEntities env ⟨as ++ bs, .and⟩ es = .ok r) :
    ∃ m, filterEntities env ⟨as, .and⟩ es = .ok m ∧ filterEntities env ⟨bs, .and⟩ m = .ok r := by
  obtain ⟨h1, rfl⟩ := (filterEntities_ok _ _ _ _).1 h
  have hsplit : ∀ e ∈ es, IsOk (CompoundCondition.matches env ⟨as, .and⟩ e) ∧
      IsOk (CompoundCondition.matches env ⟨bs, .and⟩ e) ∧
      (CompoundCondition.matches env ⟨as ++ bs, .and⟩ e = .ok true ↔
        CompoundCondition.matches env ⟨as, .and⟩ e = .ok true ∧
        CompoundCondition.matches env ⟨bs, .and⟩ e = .ok true) := by
    intro e he
    obtain ⟨b, hb⟩ := h1 e he
    have hall := ((compound_ok_iff env _ e b).1 hb).1
    simp only [List.mem_append] at hall
    have ha : ∀ d ∈ as, IsOk (d.matches env e) := fun d hd => hall d (.inl hd)
    have hb' : ∀ d ∈ bs, IsOk (d.matches env e) := fun d hd => hall d (.inr hd)
    refine ⟨⟨decide (∀ d ∈ as, d.matches env e = .ok true),
        (compound_ok_iff env _ e _).2 ⟨ha, by simp⟩⟩,
      ⟨decide (∀ d ∈ bs, d.matches env e = .ok true),
        (compound_ok_iff env _ e _).2 ⟨hb', by simp⟩⟩, ?_⟩
    rw [compound_ok_iff, compound_ok_iff, compound_ok_iff]
    simp only [List.mem_append, true_iff]
    constructor
    · rintro ⟨_, h⟩
      exact ⟨⟨ha, fun d hd => h d (.inl hd)⟩, ⟨hb', fun d hd => h d (.inr hd)⟩⟩
    · rintro ⟨⟨_, h1⟩, ⟨_, h2⟩⟩
      exact ⟨hall, fun d hd => hd.elim (h1 d) (h2 d)⟩
  refine ⟨_, (filterEntities_ok _ _ _ _).2 ⟨fun e he => (hsplit e he).1, rfl⟩, ?_⟩
  rw [filterEntities_ok]
  refine ⟨fun e he => (hsplit e (List.mem_filter.1 he).1).2.1, ?_⟩
  rw [List.filter_filter]
  apply List.filter_congr
  intro e he
  have := (hsplit e he).2.2
  simp only [this, Bool.decide_and, Bool.and_comm]

/-- C20, partial: if `B` evaluates without error on every input entity, the two forms agree
completely, errors of `A` included. -/
theorem C20_chain_total_partial (env : Env) (as bs : List FilterCondition) (es : List Entity)
    (hB : ∀ e ∈ es, ∀ d ∈ bs, ∃ b, d.matches env e = .ok b) :
    filterEntities env ⟨as ++ bs, .and⟩ es =
      match filterEntities env ⟨as, .and⟩ es with
      | .error err => .error err
      | .ok m => filterEntities env ⟨bs, .and⟩ m := by
  cases hc : filterEntities env ⟨as ++ bs, .and⟩ es with
  | ok r =>
    obtain ⟨m, h1, h2⟩ := C20_chain_partial env as bs es r hc
    rw [h1]; exact h2.symm
  | error err =>
    obtain ⟨pre, e, post, rfl, hpre, he⟩ := (filterEntities_error _ _ _ _).1 hc
    have key : filterEntities env ⟨as, .and⟩ (pre ++ e :: post) = .error err := by
      rw [filterEntities_error]
      refine ⟨pre, e, post, rfl, ?_, ?_⟩
      · intro a ha
        obtain ⟨b, hb⟩ := hpre a ha
        have hall := ((compound_ok_iff env _ a b).1 hb).1
        exact ⟨decide (∀ d ∈ as, d.matches env a = .ok true),
          (compound_ok_iff env _ a _).2 ⟨fun d hd => hall d (by simp [hd]), by simp⟩⟩
      · unfold CompoundCondition.matches at he ⊢
        simp only at he ⊢
        cases hr : collectResults (fun c => FilterCondition.matches env c e) (as ++ bs) with
        | ok rs => rw [hr] at he; simp at he
        | error err' =>
          rw [hr] at he
          simp only [Except.error.injEq] at he
          subst he
          obtain ⟨p, d, q, hsp, hp, hd⟩ := (collectResults_error _ _ _).1 hr
          have hdn : d ∉ bs := by
            intro hdb
            obtain ⟨b, hb⟩ := hB e (by simp) d hdb
            rw [hb] at hd; simp at hd
          have : collectResults (fun c => FilterCondition.matches env c e) as = .error err' := by
            rw [collectResults_error]
            rcases List.append_eq_append_iff.1 hsp with ⟨t, h1, h2⟩ | ⟨t, h1, h2⟩
            · exact absurd (by rw [h2]; simp) hdn
            · cases t with
              | nil => exact absurd (by simp at h2; rw [← h2]; simp) hdn
              | cons x t =>
                simp at h2
                exact ⟨p, d, t, by rw [h1, h2.1], hp, hd⟩
          rw [this]
    rw [key]

/-- C20 is false of the code: `name contains "B" | name > 3` on an entity whose name does not contain
"B" succeeds, the combined condition is a type error. -/
theorem C20_not_equivalent : ∃ (env : Env) (a b : FilterCondition) (es m r : List Entity)
    (err : QueryError),
    filterEntities env (.single a) es = .ok m ∧ filterEntities env (.single b) m = .ok r ∧
    filterEntities env ⟨[a, b], .and⟩ es = .error err :=
  ⟨exEnv, exNameB, exNameErr, [exAlice], [], [], .typeMismatch .string .integer,
    by decide, by decide, by decide⟩

example : filterEntities exEnv ⟨[exNameB] ++ [exCond "name" .equal (.string "BOB".toList)], .and⟩
    [exAlice, exBob] = .ok [exBob] := by decide

/-! ## C21 -/

/-- C21: `and` holds exactly when every condition holds, `or` exactly when some condition holds;
evaluation succeeds exactly when every condition evaluates. -/
theorem C21_meaning (env : Env) (conds : List FilterCondition) (e : Entity) (b : Bool) :
    (CompoundCondition.matches env ⟨conds, .and⟩ e = .ok b ↔
      (∀ c ∈ conds, ∃ r, c.matches env e = .ok r) ∧
        (b = true ↔ ∀ c ∈ conds, c.matches env e = .ok true)) ∧
    (CompoundCondition.matches env ⟨conds, .or⟩ e = .ok b ↔
      (∀ c ∈ conds, ∃ r, c.matches env e = .ok r) ∧
        (b = true ↔ ∃ c ∈ conds, c.matches env e = .ok true)) :=
  ⟨compound_ok_iff env ⟨conds, .and⟩ e b, compound_ok_iff env ⟨conds, .or⟩ e b⟩

/-- C21: reordering (or repeating) the conditions changes neither success nor the answer. -/
theorem C21_reorder (env : Env) (conds conds' : List FilterCondition)
    (h : ∀ c, c ∈ conds ↔ c ∈ conds') (k : Combinator) (e : Entity) (b : Bool) :
    CompoundCondition.matches env ⟨conds, k⟩ e = .ok b ↔
      CompoundCondition.matches env ⟨conds', k⟩ e = .ok b := by
  rw [compound_ok_iff, compound_ok_iff]
  cases k <;> simp only [h]

/-- C21: when evaluation fails, the error is that of the first failing condition. -/
theorem C21_first_error (env : Env) (conds : List FilterCondition) (k : Combinator) (e : Entity)
    (err : QueryError) :
    CompoundCondition.matches env ⟨conds, k⟩ e = .error err ↔
      ∃ pre c post, conds = pre ++ c :: post ∧ (∀ d ∈ pre, ∃ r, d.matches env e = .ok r) ∧
        c.matches env e = .error err := by
  refine Iff.trans ?_ (collectResults_error (fun c => FilterCondition.matches env c e) conds err)
  unfold CompoundCondition.matches
  simp only
  cases collectResults (fun c => FilterCondition.matches env c e) conds with
  | error e' => simp
  | ok rs => cases k <;> simp

example : CompoundCondition.matches exEnv ⟨[exNameB, exNameErr], .or⟩ exBob =
      .error (.typeMismatch .string .integer) ∧
    CompoundCondition.matches exEnv ⟨[exNameB, exCond "x" .isIn (.integer 1)], .or⟩ exBob = .ok true ∧
    CompoundCondition.matches exEnv ⟨[exNameB, exCond "x" .isIn (.integer 1)], .and⟩ exBob =
      .ok false := by decide

/-! ## C22 -/

/-- C22: a condition on a field that no field of the entity has is false, never an error. -/
theorem C22_missing_field (env : Env) (f : FieldId) (op : FilterOperator) (v : FilterValue)
    (e : Entity) (h : ∀ p ∈ e.fields, p.1 ≠ f) :
    FilterCondition.matches env ⟨.regular f, op, v⟩ e = .ok false := by
  have hg : e.getField f = none := by
    unfold Entity.getField
    rw [Option.map_eq_none_iff, List.find?_eq_none]
    intro p hp; simpa using h p hp
  simp only [FilterCondition.matches, FilterCondition.matchesField, hg]

/-- C22: conversely a condition on a regular field that holds is about a field the entity has. -/
theorem C22_match_has_field (env : Env) (f : FieldId) (op : FilterOperator) (v : FilterValue)
    (e : Entity) (h : FilterCondition.matches env ⟨.regular f, op, v⟩ e ≠ .ok false) :
    ∃ w, (f, w) ∈ e.fields ∧
      FilterCondition.matches env ⟨.regular f, op, v⟩ e = compareField env w op v := by
  by_contra hc
  simp only [FilterCondition.matches, FilterCondition.matchesField] at h hc
  cases hg : e.getField f with
  | none => rw [hg] at h; exact h rfl
  | some w =>
    rw [hg] at hc
    apply hc
    unfold Entity.getField at hg
    obtain ⟨p, hp, rfl⟩ := Option.map_eq_some_iff.1 hg
    have h1 := List.find?_some hp
    have h2 := List.mem_of_find?_eq_some hp
    simp only [beq_iff_eq] at h1
    exact ⟨p.2, by rw [← h1]; exact h2, rfl⟩

example : ∀ p ∈ exBob.fields, p.1 ≠ "age".toList := by decide

/-! ## C23 -/

/-- C23: integer fields against integers: the exact order of the integers. -/
theorem C23_integer (env : Env) (a n : Int) :
    AnswersOrder (fun op => compareField env (.integer a) op (.integer n)) (a < n) (a = n) (n < a) := by
  constructor <;> refine ⟨_, rfl, ?_⟩ <;> simp <;> omega

/-- C23: currency fields against an amount of the same currency: the exact order of the decimals.
Missing: amounts that the decimal type cannot hold (`C23_no_decimal`). -/
theorem C23_currency_partial (env : Env) (a : Decimal) (code : Str) (x : F64) (d : Decimal)
    (hd : env.decOfF64 x = some d) :
    AnswersOrder (fun op => compareField env (.currency a code) op (.currency x code))
      (a.val < d.val) (a.val = d.val) (d.val < a.val) := by
  have h : (fun op => compareField env (.currency a code) op (.currency x code)) =
      orderedOp .currency (a.cmp d) := by
    funext op; simp [compareField, compareCurrency, hd]
  rw [h]
  exact AnswersOrder.congr (orderedOp_answers _ _) ratCmp_lt ratCmp_eq ratCmp_gt

/-- C23 is false for amounts that the decimal type cannot hold: no operator answers yes. -/
theorem C23_no_decimal (env : Env) (a : Decimal) (code : Str) (x : F64) (h : env.decOfF64 x = none)
    (op : FilterOperator) : compareField env (.currency a code) op (.currency x code) = .ok false := by
  simp [compareField, compareCurrency, h]

example : exEnv.decOfF64 (.fin (1/3)) = none := by decide +kernel

theorem DateTime.cmp_ns {a b : DateTime} (ha : a.nanos < 1000000000) (hb : b.nanos < 1000000000) :
    (a.cmp b = .lt ↔ instantNs a < instantNs b) ∧ (a.cmp b = .eq ↔ instantNs a = instantNs b) ∧
      (a.cmp b = .gt ↔ instantNs b < instantNs a) := by
  unfold DateTime.cmp instantNs
  rcases lt_trichotomy a.secs b.secs with h | h | h
  · rw [Int.compare_eq_lt.2 h]
    simp only [Ordering.then]
    refine ⟨?_, ?_, ?_⟩ <;> simp <;> omega
  · rw [Int.compare_eq_eq.2 h]
    simp only [Ordering.then, h]
    refine ⟨?_, ?_, ?_⟩
    · rw [Nat.compare_eq_lt]; omega
    · rw [Nat.compare_eq_eq]; omega
    · rw [Nat.compare_eq_gt]; omega
  · rw [Int.compare_eq_gt.2 h]
    simp only [Ordering.then]
    refine ⟨?_, ?_, ?_⟩ <;> simp <;> omega

/-- C23: date-time fields against a full date-time: the exact order of the instants, whatever the
offsets. -/
theorem C23_dateTime (env : Env) (a x : DateTime) (s : Str) (hs : env.parseDateTime s = some x)
    (ha : a.nanos < 1000000000) (hx : x.nanos < 1000000000) :
    AnswersOrder (fun op => compareField env (.dateTime a) op (.dateTime s))
      (instantNs a < instantNs x) (instantNs a = instantNs x) (instantNs x < instantNs a) := by
  have h : (fun op => compareField env (.dateTime a) op (.dateTime s)) =
      orderedOp .dateTime (a.cmp x) := by
    funext op; simp [compareField, compareDateTime, hs, compareWithDateTime]
  rw [h]
  obtain ⟨h1, h2, h3⟩ := DateTime.cmp_ns ha hx
  exact AnswersOrder.congr (orderedOp_answers _ _) h1 h2 h3

/-- C23: float fields: among `<`, `<=`, `>`, `>=` the answers are consistent for all numbers, and for
finite ones they are the exact order. -/
theorem C23_float (env : Env) (a x : F64) (ha : a ≠ .nan) (hx : x ≠ .nan) :
    ∃ lt gt : Bool,
      compareField env (.float a) .lessThan (.float x) = .ok lt ∧
      compareField env (.float a) .greaterThan (.float x) = .ok gt ∧
      compareField env (.float a) .lessOrEqual (.float x) = .ok (!gt) ∧
      compareField env (.float a) .greaterOrEqual (.float x) = .ok (!lt) ∧
      ¬ (lt = true ∧ gt = true) ∧
      ∀ p q, finiteValue a = some p → finiteValue x = some q →
        (lt = true ↔ p < q) ∧ (gt = true ↔ q < p) := by
  have hsome : a.partialCmp x ≠ none := by
    rw [Ne, F64.partialCmp_none]; tauto
  obtain ⟨o, ho⟩ := Option.ne_none_iff_exists'.1 hsome
  refine ⟨_, _, rfl, rfl, ?_, ?_, ?_, ?_⟩
  · simp only [compareField, compareFloat, compareFloatOp, F64.le, F64.gt, ho]
    cases o <;> rfl
  · simp only [compareField, compareFloat, compareFloatOp, F64.ge, F64.lt, ho]
    cases o <;> rfl
  · simp only [F64.lt, F64.gt, ho]
    cases o <;> simp
  · intro p q hp hq
    have hk : a.partialCmp x = some (ratCmp p q) := by
      cases a <;> simp [finiteValue] at hp <;> cases x <;> simp [finiteValue] at hq <;>
        subst hp <;> subst hq <;> simp [F64.partialCmp, F64.key, Ordering.then]
    simp only [F64.lt, F64.gt, hk, beq_iff_eq, Option.some.injEq, ratCmp_lt, ratCmp_gt, and_self]

/-- C23: for float fields `==` is tolerant, so it is not one of three exclusive cases: two different
floats are at the same time `<` and `==`. -/
theorem C23_float_equal_tolerant : ∃ (env : Env) (a x : F64), a ≠ x ∧
    compareField env (.float a) .lessThan (.float x) = .ok true ∧
    compareField env (.float a) .equal (.float x) = .ok true :=
  ⟨exEnv, .fin 0, .fin (F64.pow2 (-60)), by decide +kernel, by decide +kernel, by decide +kernel⟩

example : exEnv.decOfF64 (.fin 3) = some ⟨3, 0⟩ := by decide +kernel
example : exEnv.parseDateTime "noon".toList = some ⟨43200, 0, 3600⟩ := by decide

/-! ## C24 -/

/-- C24, partial: if `==` and `!=` both evaluate, they give opposite answers (integers being `i64`).
Missing: a currency field compared with another currency, and floats whose difference is not a number
(NaN, equal infinities); there both answer "no" (`C24_both_false`). -/
theorem C24_not_equal_partial (env : Env) (fv : FieldValue) (v : FilterValue)
    (hv : ∀ n, v = .integer n → n.natAbs ≤ 2 ^ 63)
    (hc : ¬ CurrencyApart env fv v) (hf : ¬ FloatApart fv v) (b : Bool)
    (h : compareField env fv .equal v = .ok b)
    (c : Bool) (h' : compareField env fv .notEqual v = .ok c) : c = !b := by
  cases fv with
  | boolean x => cases v <;> simp_all [compareField, compareBoolean, bne]
  | string s => cases v <;> simp_all [compareField, compareString, FilterValue.text?, compareText]
  | enum s => cases v <;> simp_all [compareField, compareString, FilterValue.text?, compareText]
  | path s => cases v <;> simp_all [compareField, compareString, FilterValue.text?, compareText]
  | list l => simp [compareField, compareList] at h'
  | integer n => cases v <;> simp [compareField, compareInteger] at h h' <;> subst h <;> simp [h']
  | reference r =>
    cases v <;> simp [compareField, compareReference] at h h' <;> subst h <;> simp [h']
  | dateTime d =>
    cases v with
    | dateTime s =>
      simp only [compareField, compareDateTime] at h h'
      cases hp : env.parseDateTime s with
      | some x =>
        simp [hp, compareWithDateTime, orderedOp] at h h'
        subst h; subst h'; cases d.cmp x <;> rfl
      | none =>
        cases hd : env.parseDate s with
        | some x =>
          simp [hp, hd, compareWithDate, orderedOp] at h h'
          subst h; subst h'; cases compare d.localDay x <;> rfl
        | none => simp [hp, hd] at h
    | _ => simp [compareField, compareDateTime] at h
  | currency a code =>
    cases v with
    | currency x code' =>
      simp only [CurrencyApart, not_or, not_not] at hc
      obtain ⟨rfl, hd⟩ := hc
      obtain ⟨d, hd⟩ := Option.ne_none_iff_exists'.1 hd
      simp [compareField, compareCurrency, hd, orderedOp] at h h'
      subst h; subst h'; cases a.cmp d <;> rfl
    | _ => simp [compareField, compareCurrency] at h
  | float a =>
    have key : ∀ x : F64, a.sub x ≠ .nan → compareFloatOp a .equal x = .ok b →
        compareFloatOp a .notEqual x = .ok c → c = !b := by
      intro x hx h h'
      have habs : (a.sub x).abs ≠ .nan := by
        cases hs : a.sub x <;> simp [F64.abs] <;> exact hx hs
      have hn : (a.sub x).abs.partialCmp F64.epsilon ≠ none := by
        rw [Ne, F64.partialCmp_none]; simp [habs, F64.epsilon]
      obtain ⟨o, ho⟩ := Option.ne_none_iff_exists'.1 hn
      simp [compareFloatOp, F64.lt, F64.ge, ho] at h h'
      subst h; subst h'; cases o <;> rfl
    have hsub : ∀ x : F64, a ≠ .nan → x ≠ .nan → ¬ (∃ s, a = .inf s ∧ x = .inf s) →
        a.sub x ≠ .nan := by
      intro x h1 h2 h3
      exact F64.sub_ne_nan h1 h2 (fun s hs => h3 ⟨s, hs⟩)
    cases v with
    | float x =>
      simp only [FloatApart, not_or] at hf
      exact key x (hsub x hf.1 hf.2.1 hf.2.2) h h'
    | integer n =>
      simp only [FloatApart] at hf
      have hn : F64.ofInt n ≠ .nan := by
        unfold F64.ofInt F64.rnd; simp only; repeat' split
        all_goals simp
      have hi : ¬ ∃ s, a = .inf s ∧ F64.ofInt n = .inf s := by
        rintro ⟨s, _, hs⟩
        exact F64.ofInt_finite (hv n rfl) s hs
      exact key _ (hsub _ hf hn hi) h h'
    | _ => simp [compareField, compareFloat] at h

/-- C24 is false of the code in these cases: neither `==` nor `!=` holds. -/
theorem C24_both_false : ∃ env : Env,
    (compareField env (.float .nan) .equal (.float (.fin 1)) = .ok false ∧
      compareField env (.float .nan) .notEqual (.float (.fin 1)) = .ok false) ∧
    (compareField env (.float (.inf false)) .equal (.float (.inf false)) = .ok false ∧
      compareField env (.float (.inf false)) .notEqual (.float (.inf false)) = .ok false) ∧
    (compareField env (.currency ⟨5, 0⟩ "EUR".toList) .equal (.currency (.fin 5) "USD".toList) =
        .ok false ∧
      compareField env (.currency ⟨5, 0⟩ "EUR".toList) .notEqual (.currency (.fin 5) "USD".toList) =
        .ok false) :=
  ⟨exEnv, by decide +kernel⟩

example : ¬ CurrencyApart exEnv (.currency ⟨5, 0⟩ "EUR".toList) (.currency (.fin 5) "EUR".toList) ∧
    compareField exEnv (.currency ⟨50, 1⟩ "EUR".toList) .equal (.currency (.fin 5) "EUR".toList) =
      .ok true ∧
    compareField exEnv (.currency ⟨50, 1⟩ "EUR".toList) .notEqual (.currency (.fin 5) "EUR".toList) =
      .ok false := by
  refine ⟨?_, by decide +kernel, by decide +kernel⟩
  simp only [CurrencyApart, ne_eq, not_true_eq_false, false_or]
  decide +kernel

/-! ## C25 -/

/-- C25: on string, enum and path fields `==` means "same text up to ASCII case", for any of the three
text kinds of filter value, and `!=` its negation. -/
theorem C25_equal (env : Env) (fv : FieldValue) (s t : Str) (hfv : textOf fv = some s)
    (v : FilterValue) (hv : v = .string t ∨ v = .enum t ∨ v = .path t) :
    (compareField env fv .equal v = .ok true ↔ SameText s t) ∧
    (compareField env fv .notEqual v = .ok true ↔ ¬ SameText s t) ∧
    (compareField env fv .equal v = .ok false ↔ ¬ SameText s t) := by
  have h : ∀ op, compareField env fv op v = compareText env fv.getType s op t := by
    intro op
    cases fv <;> simp [textOf] at hfv <;> subst hfv <;> rcases hv with rfl | rfl | rfl <;> rfl
  rw [h, h]
  simp only [compareText, Except.ok.injEq, ← eqIgnoreAsciiCase_iff]
  cases eqIgnoreAsciiCase s t <;> simp

/-- C25: "same text up to ASCII case" is an equivalence. -/
theorem C25_equivalence : (∀ s, SameText s s) ∧ (∀ s t, SameText s t → SameText t s) ∧
    ∀ s t u, SameText s t → SameText t u → SameText s u := by
  simp only [← eqIgnoreAsciiCase_iff, eqIgnoreAsciiCase, beq_iff_eq]
  exact ⟨fun _ => trivial, fun _ _ h => h.symm, fun _ _ _ h h' => h.trans h'⟩

/-- C25: `contains`, `startswith` and `endswith` are occurrence, prefix and suffix of the lower-cased
texts. -/
theorem C25_substring (env : Env) (fv : FieldValue) (s t : Str) (hfv : textOf fv = some s)
    (v : FilterValue) (hv : v = .string t ∨ v = .enum t ∨ v = .path t) :
    (compareField env fv .contains v = .ok true ↔ Occurs (env.lower t) (env.lower s)) ∧
    (compareField env fv .startsWith v = .ok true ↔ ∃ r, env.lower s = env.lower t ++ r) ∧
    (compareField env fv .endsWith v = .ok true ↔ ∃ r, env.lower s = r ++ env.lower t) := by
  have h : ∀ op, compareField env fv op v = compareText env fv.getType s op t := by
    intro op
    cases fv <;> simp [textOf] at hfv <;> subst hfv <;> rcases hv with rfl | rfl | rfl <;> rfl
  rw [h, h, h]
  simp only [compareText, Except.ok.injEq, strContains_iff, startsWith_iff, endsWith_iff, and_self]

/-- C25: what `startswith` or `endswith` accepts, `contains` accepts; the exact text is accepted by
all three; the empty text is accepted by all three (lower-casing it gives the empty text). -/
theorem C25_coherent (env : Env) (hempty : env.lower [] = []) (fv : FieldValue) (s t : Str)
    (hfv : textOf fv = some s) (v : FilterValue) (hv : v = .string t ∨ v = .enum t ∨ v = .path t) :
    (compareField env fv .startsWith v = .ok true → compareField env fv .contains v = .ok true) ∧
    (compareField env fv .endsWith v = .ok true → compareField env fv .contains v = .ok true) ∧
    (s = t ∨ t = [] → compareField env fv .contains v = .ok true ∧
      compareField env fv .startsWith v = .ok true ∧ compareField env fv .endsWith v = .ok true) := by
  obtain ⟨h1, h2, h3⟩ := C25_substring env fv s t hfv v hv
  rw [h1, h2, h3]
  refine ⟨fun ⟨r, h⟩ => ⟨[], r, by simpa using h⟩, fun ⟨r, h⟩ => ⟨r, [], by simpa using h⟩, ?_⟩
  rintro (rfl | rfl)
  · exact ⟨⟨[], [], by simp⟩, ⟨[], by simp⟩, ⟨[], by simp⟩⟩
  · rw [hempty]; exact ⟨⟨[], env.lower s, by simp⟩, ⟨_, rfl⟩, ⟨env.lower s, by simp⟩⟩

example : exEnv.lower [] = [] ∧
    compareField exEnv (.enum "In Progress".toList) .endsWith (.path "GRESS".toList) = .ok true ∧
    SameText "ab".toList "Ab".toList ∧ ¬ SameText "ab".toList "ac".toList := by
  refine ⟨rfl, by decide, ?_, ?_⟩ <;> rw [← eqIgnoreAsciiCase_iff] <;> decide

/-! ## C26 -/

/-- C26: for a scalar field whether and how a condition is rejected is given by a table of the
field's type, the operator and the kind of the filter value, except for the two documented
content-dependent cases. -/
theorem C26_error_table (env : Env) (fv : FieldValue) (hfv : fv.getType ≠ .list)
    (op : FilterOperator) (v : FilterValue) (hc : ¬ CurrencyApart env fv v)
    (hu : ¬ Unreadable env fv v) :
    match rejection fv.getType op v.kind with
    | some err => compareField env fv op v = .error err
    | none => ∃ b, compareField env fv op v = .ok b := by
  cases fv with
  | list l => exact absurd rfl hfv
  | currency a code =>
    cases v with
    | currency x code' =>
      simp only [CurrencyApart, not_or, not_not] at hc
      obtain ⟨rfl, hd⟩ := hc
      obtain ⟨d, hd⟩ := Option.ne_none_iff_exists'.1 hd
      cases op <;> simp [compareField, compareCurrency, hd, orderedOp, rejection, FieldValue.getType,
        FilterValue.kind, comparable, operators, orderOps]
    | _ => cases op <;> rfl
  | dateTime d =>
    cases v with
    | dateTime s =>
      simp only [Unreadable, not_and] at hu
      cases hp : env.parseDateTime s with
      | some x =>
        cases op <;> simp [compareField, compareDateTime, hp, compareWithDateTime, orderedOp, rejection,
          FieldValue.getType, FilterValue.kind, comparable, operators, orderOps]
      | none =>
        obtain ⟨x, hx⟩ := Option.ne_none_iff_exists'.1 (hu hp)
        cases op <;> simp [compareField, compareDateTime, hp, hx, compareWithDate, orderedOp, rejection,
          FieldValue.getType, FilterValue.kind, comparable, operators, orderOps]
    | _ => cases op <;> rfl
  | _ =>
    cases v <;> cases op <;> first | rfl | exact ⟨_, rfl⟩

/-- C26: the two content-dependent cases: a currency comparison without common ground is false, an
unreadable date is an error naming the text. -/
theorem C26_exceptions (env : Env) (fv : FieldValue) (op : FilterOperator) (v : FilterValue) :
    (CurrencyApart env fv v → compareField env fv op v = .ok false) ∧
    (∀ s, v = .dateTime s → Unreadable env fv v →
      compareField env fv op v = .error (.invalidDateFormat s)) := by
  constructor
  · intro h
    cases fv with
    | currency a code =>
      cases v with
      | currency x code' =>
        simp only [CurrencyApart] at h
        by_cases hcc : code = code'
        · rcases h with h | h
          · exact absurd hcc h
          · simp [compareField, compareCurrency, hcc, h]
        · simp [compareField, compareCurrency, hcc]
      | _ => exact absurd h (by simp [CurrencyApart])
    | _ => exact absurd h (by simp [CurrencyApart])
  · rintro s rfl h
    cases fv with
    | dateTime d =>
      simp only [Unreadable] at h
      simp [compareField, compareDateTime, h.1, h.2]
    | _ => exact absurd h (by simp [Unreadable])

/-- C26 is false for `in` on a currency field with another code: the answer is "no". -/
theorem C26_in_currency : ∃ (env : Env) (fv : FieldValue) (v : FilterValue),
    fv.getType = .currency ∧ compareField env fv .isIn v = .ok false :=
  ⟨exEnv, .currency ⟨1, 0⟩ "EUR".toList, .currency (.fin 1) "USD".toList, by decide, by decide⟩

/-- C26: `in` is rejected for every present field, lists included, and every filter value, except that
a currency comparison without common ground is answered with "no" (`C26_in_currency`). -/
theorem C26_in_rejected_partial (env : Env) (fv : FieldValue) (v : FilterValue)
    (hc : ¬ CurrencyApart env fv v) : ∃ err, compareField env fv .isIn v = .error err := by
  by_cases hl : fv.getType = .list
  · cases fv with
    | list l => exact ⟨_, rfl⟩
    | _ => simp [FieldValue.getType] at hl
  · by_cases hu : Unreadable env fv v
    · cases v with
      | dateTime s => exact ⟨_, (C26_exceptions env fv .isIn _).2 s rfl hu⟩
      | _ => cases fv <;> exact absurd hu (by simp [Unreadable])
    · have := C26_error_table env fv hl .isIn v hc hu
      have hr : ∀ t k, ∃ e, rejection t .isIn k = some e := by
        intro t k
        cases t <;> cases k <;> exact ⟨_, rfl⟩
      obtain ⟨e, he⟩ := hr fv.getType v.kind
      rw [he] at this
      exact ⟨e, this⟩

example : rejection .reference .contains .integer =
      some (.unsupportedOperator .reference .contains [.equal, .notEqual]) ∧
    rejection .string .contains .integer = some (.typeMismatch .string .integer) ∧
    rejection .integer .lessThan .float = none := by decide

/-! ## C27 -/

/-- What "element `item` matches `v`" means for `contains` on lists: for a string element and a string
value the element contains the value as text (lower-cased); otherwise the element `==` the value. -/
def ItemMatches (env : Env) (item : FieldValue) (v : FilterValue) : Prop :=
  (∃ s t, item = .string s ∧ v = .string t ∧ Occurs (env.lower t) (env.lower s)) ∨
  ((∀ s t, ¬ (item = .string s ∧ v = .string t)) ∧ (∀ l, item ≠ .list l) ∧
    compareField env item .equal v = .ok true)

theorem compareListItem_eq (env : Env) (item : FieldValue) (hl : ∀ l, item ≠ .list l)
    (op : FilterOperator) (v : FilterValue) :
    compareListItem env item op v = compareField env item op v := by
  cases item with
  | list l => exact absurd rfl (hl l)
  | _ => rfl

theorem listItemMatches_iff (env : Env) (item : FieldValue) (v : FilterValue) :
    listItemMatches env item v = .ok true ↔ ItemMatches env item v := by
  by_cases hst : ∃ s t, item = .string s ∧ v = .string t
  · obtain ⟨s, t, rfl, rfl⟩ := hst
    simp only [listItemMatches, compareString, FilterValue.text?, compareText, Except.ok.injEq,
      strContains_iff, ItemMatches]
    constructor
    · intro h; exact .inl ⟨s, t, rfl, rfl, h⟩
    · rintro (⟨s', t', h1, h2, h⟩ | ⟨h, _⟩)
      · cases h1; cases h2; exact h
      · exact absurd ⟨rfl, rfl⟩ (h s t)
  · have hno : ∀ s t, ¬ (item = .string s ∧ v = .string t) := fun s t h => hst ⟨s, t, h⟩
    have heq : listItemMatches env item v = compareListItem env item .equal v := by
      cases item with
      | string s => cases v with
        | string t => exact absurd ⟨rfl, rfl⟩ (hno s t)
        | _ => rfl
      | _ => cases v <;> rfl
    rw [heq]
    unfold ItemMatches
    by_cases hl : ∃ l, item = .list l
    · obtain ⟨l, rfl⟩ := hl
      simp [compareListItem]
    · have hl' : ∀ l, item ≠ .list l := fun l h => hl ⟨l, h⟩
      rw [compareListItem_eq env item hl']
      constructor
      · intro h; exact .inr ⟨hno, hl', h⟩
      · rintro (⟨s, t, h1, h2, _⟩ | ⟨_, _, h⟩)
        · exact absurd ⟨h1, h2⟩ (hno s t)
        · exact h

/-- C27: `contains v` holds exactly when some element matches `v` and no earlier element is an
incomparable one (which makes the whole condition an error). -/
theorem C27_contains (env : Env) (items : List FieldValue) (v : FilterValue) :
    compareField env (.list items) .contains v = .ok true ↔
      ∃ pre x post, items = pre ++ x :: post ∧ ItemMatches env x v ∧
        ∀ y ∈ pre, ∃ b, listItemMatches env y v = .ok b := by
  simp only [compareField, compareList]
  induction items with
  | nil => simp [listContains]
  | cons a items ih =>
    simp only [listContains]
    cases hm : listItemMatches env a v with
    | error e =>
      constructor
      · intro h; simp at h
      · rintro ⟨pre, x, post, hsp, hx, hpre⟩
        cases pre with
        | nil =>
          simp at hsp
          rw [← hsp.1, ← listItemMatches_iff, hm] at hx; simp at hx
        | cons p pre =>
          simp at hsp
          obtain ⟨b, hb⟩ := hpre p (by simp)
          rw [← hsp.1, hm] at hb; simp at hb
    | ok b =>
      cases b with
      | true =>
        simp only [true_iff]
        exact ⟨[], a, items, rfl, (listItemMatches_iff env a v).1 hm, by simp⟩
      | false =>
        simp only
        rw [ih]
        constructor
        · rintro ⟨pre, x, post, hsp, hx, hpre⟩
          refine ⟨a :: pre, x, post, by simp [hsp], hx, ?_⟩
          intro y hy
          rcases List.mem_cons.1 hy with rfl | hy
          · exact ⟨_, hm⟩
          · exact hpre y hy
        · rintro ⟨pre, x, post, hsp, hx, hpre⟩
          cases pre with
          | nil =>
            simp at hsp
            rw [← hsp.1, ← listItemMatches_iff, hm] at hx; simp at hx
          | cons p pre =>
            simp at hsp
            exact ⟨pre, x, post, hsp.2, hx, fun y hy => hpre y (by simp [hy])⟩

/-- C27: for a list all of whose elements can be compared with `v` (or are lists), `contains v` always
answers, and holds exactly when some element matches. -/
theorem C27_contains_homogeneous (env : Env) (items : List FieldValue) (v : FilterValue)
    (h : ∀ x ∈ items, (∃ l, x = .list l) ∨
      (comparable x.getType v.kind = true ∧ ¬ Unreadable env x v)) :
    ∃ b, compareField env (.list items) .contains v = .ok b ∧
      (b = true ↔ ∃ x ∈ items, ItemMatches env x v) := by
  have hok : ∀ x ∈ items, ∃ b, listItemMatches env x v = .ok b := by
    intro x hx
    by_cases hst : ∃ s t, x = .string s ∧ v = .string t
    · obtain ⟨s, t, rfl, rfl⟩ := hst
      exact ⟨_, rfl⟩
    · have heq : listItemMatches env x v = compareListItem env x .equal v := by
        cases x with
        | string s => cases v with
          | string t => exact absurd ⟨s, t, rfl, rfl⟩ hst
          | _ => rfl
        | _ => cases v <;> rfl
      rw [heq]
      rcases h x hx with ⟨l, rfl⟩ | ⟨hcmp, hu⟩
      · exact ⟨_, rfl⟩
      · have hl : ∀ l, x ≠ .list l := by
          rintro l rfl; simp [FieldValue.getType, comparable] at hcmp
        rw [compareListItem_eq env x hl]
        by_cases hca : CurrencyApart env x v
        · exact ⟨_, (C26_exceptions env x .equal v).1 hca⟩
        · have ht := C26_error_table env x (by cases x <;> simp_all [FieldValue.getType]) .equal v hca hu
          have hr : rejection x.getType .equal v.kind = none := by
            revert hcmp
            generalize x.getType = t; generalize v.kind = k
            cases t <;> cases k <;> decide
          rw [hr] at ht; exact ht
  have hcont : ∃ b, compareField env (.list items) .contains v = .ok b := by
    simp only [compareField, compareList]
    clear h
    induction items with
    | nil => exact ⟨_, rfl⟩
    | cons a items ih =>
      obtain ⟨b, hb⟩ := hok a (by simp)
      simp only [listContains, hb]
      cases b with
      | true => exact ⟨_, rfl⟩
      | false => exact ih (fun x hx => hok x (by simp [hx]))
  obtain ⟨b, hb⟩ := hcont
  refine ⟨b, hb, ?_⟩
  have hiff := C27_contains env items v
  rw [hb] at hiff
  simp only [Except.ok.injEq] at hiff
  rw [hiff]
  constructor
  · rintro ⟨pre, x, post, rfl, hx, _⟩; exact ⟨x, by simp, hx⟩
  · rintro ⟨x, hx, hm⟩
    obtain ⟨pre, post, rfl⟩ := List.append_of_mem hx
    exact ⟨pre, x, post, rfl, hm, fun y hy => hok y (by simp [hy])⟩

/-- C27: `== [..]` holds exactly when the lengths agree and the elements are pairwise equal.  Missing:
a nested list equals nothing (`C27_nested`). -/
theorem C27_equal_partial (env : Env) (items : List FieldValue) (vs : List FilterValue) :
    compareField env (.list items) .equal (.list vs) = .ok true ↔
      items.length = vs.length ∧
      ∀ p ∈ items.zip vs, (∀ l, p.1 ≠ .list l) ∧ compareField env p.1 .equal p.2 = .ok true := by
  have key : ∀ (items : List FieldValue) (vs : List FilterValue), items.length = vs.length →
      (listEqualItems env items vs = .ok true ↔
        ∀ p ∈ items.zip vs, (∀ l, p.1 ≠ .list l) ∧ compareField env p.1 .equal p.2 = .ok true) := by
    intro items
    induction items with
    | nil => intro vs h; cases vs <;> simp_all [listEqualItems]
    | cons a items ih =>
      intro vs h
      cases vs with
      | nil => simp at h
      | cons v vs =>
        simp only [List.length_cons, Nat.add_right_cancel_iff] at h
        simp only [listEqualItems, List.zip_cons_cons, List.mem_cons, forall_eq_or_imp, ← ih vs h]
        by_cases hl : ∃ l, a = .list l
        · obtain ⟨l, rfl⟩ := hl
          simp [compareListItem]
        · have hl' : ∀ l, a ≠ .list l := fun l h => hl ⟨l, h⟩
          rw [compareListItem_eq env a hl']
          cases hc : compareField env a .equal v with
          | error e => simp
          | ok b => cases b <;> simp [hl']
  simp only [compareField, compareList]
  by_cases h : items.length = vs.length
  · simp only [h, ne_eq, not_true_eq_false, if_false, true_and]
    exact key items vs h
  · simp [h]

/-- C27 is false for lists of lists: such a list is not even equal to itself. -/
theorem C27_nested (env : Env) (pre post : List FieldValue) (l : List FieldValue) (vs : List FilterValue) :
    compareField env (.list (pre ++ .list l :: post)) .equal (.list vs) ≠ .ok true := by
  intro h
  obtain ⟨h1, h2⟩ := (C27_equal_partial env _ _).1 h
  have hlt : pre.length < vs.length := by rw [← h1]; simp
  have hm : (FieldValue.list l, vs[pre.length]) ∈ (pre ++ .list l :: post).zip vs :=
    List.mem_iff_getElem?.2 ⟨pre.length, by simp [List.getElem?_zip_eq_some, hlt]⟩
  exact (h2 _ hm).1 l rfl

/-- C27: lists of different length are different, without looking at the elements. -/
theorem C27_length (env : Env) (items : List FieldValue) (vs : List FilterValue)
    (h : items.length ≠ vs.length) :
    compareField env (.list items) .equal (.list vs) = .ok false := by
  simp [compareField, compareList, h]

example : compareField exEnv (.list [.string "Red wine".toList, .string "Beer".toList]) .contains
    (.string "BEER".toList) = .ok true := by decide
example : compareField exEnv (.list [.integer 1, .integer 2]) .equal
    (.list [.integer 1, .float (.fin 2)]) = .ok true := by decide +kernel
/-- The order matters: an incomparable element before the match is an error, after it is not. -/
example : compareField exEnv (.list [.integer 1, .string "a".toList]) .contains (.string "a".toList) =
      .error (.typeMismatch .integer .string) ∧
    compareField exEnv (.list [.string "a".toList, .integer 1]) .contains (.string "a".toList) =
      .ok true := by decide

/-! ## C28 -/

/-- C28: a bare date stands for the seconds of that local day in the field's own offset. -/
theorem C28_local_day (env : Env) (d : DateTime) (s : Str) (day : Int)
    (h1 : env.parseDateTime s = none) (h2 : env.parseDate s = some day) :
    AnswersOrder (fun op => compareField env (.dateTime d) op (.dateTime s))
      (d.secs + d.offset < day * 86400)
      (day * 86400 ≤ d.secs + d.offset ∧ d.secs + d.offset < (day + 1) * 86400)
      ((day + 1) * 86400 ≤ d.secs + d.offset) := by
  have h : (fun op => compareField env (.dateTime d) op (.dateTime s)) =
      orderedOp .dateTime (compare d.localDay day) := by
    funext op; simp [compareField, compareDateTime, h1, h2, compareWithDate]
  rw [h]
  refine AnswersOrder.congr (orderedOp_answers _ _) ?_ ?_ ?_
  · rw [Int.compare_eq_lt]; unfold DateTime.localDay; omega
  · rw [Int.compare_eq_eq]; unfold DateTime.localDay; omega
  · rw [Int.compare_eq_gt]; unfold DateTime.localDay; omega

/-- C28: these three cases partition all field values. -/
theorem C28_partition (env : Env) (d : DateTime) (s : Str) (day : Int)
    (h1 : env.parseDateTime s = none) (h2 : env.parseDate s = some day) :
    ∃ o : FilterOperator, (o = .lessThan ∨ o = .equal ∨ o = .greaterThan) ∧
      ∀ o', (o' = .lessThan ∨ o' = .equal ∨ o' = .greaterThan) →
        compareField env (.dateTime d) o' (.dateTime s) = .ok (decide (o' = o)) := by
  obtain ⟨⟨b1, e1, i1⟩, ⟨b2, e2, i2⟩, ⟨b3, e3, i3⟩, _, _, _⟩ := C28_local_day env d s day h1 h2
  rcases lt_or_ge (d.secs + d.offset) (day * 86400) with ha | ha
  · refine ⟨.lessThan, .inl rfl, ?_⟩
    rintro o' (rfl | rfl | rfl)
    · rw [e1, i1.2 ha]; rfl
    · rw [e2]; cases b2 with
      | false => rfl
      | true => have := i2.1 rfl; omega
    · rw [e3]; cases b3 with
      | false => rfl
      | true => have := i3.1 rfl; omega
  · rcases lt_or_ge (d.secs + d.offset) ((day + 1) * 86400) with hb | hb
    · refine ⟨.equal, .inr (.inl rfl), ?_⟩
      rintro o' (rfl | rfl | rfl)
      · rw [e1]; cases b1 with
        | false => rfl
        | true => have := i1.1 rfl; omega
      · rw [e2, i2.2 ⟨ha, hb⟩]; rfl
      · rw [e3]; cases b3 with
        | false => rfl
        | true => have := i3.1 rfl; omega
    · refine ⟨.greaterThan, .inr (.inr rfl), ?_⟩
      rintro o' (rfl | rfl | rfl)
      · rw [e1]; cases b1 with
        | false => rfl
        | true => have := i1.1 rfl; omega
      · rw [e2]; cases b2 with
        | false => rfl
        | true => have := i2.1 rfl; omega
      · rw [e3, i3.2 hb]; rfl

-- an instant that is 23:30 of 1970-01-01 in UTC, but 00:30 of the next day in its own offset
example : exEnv.parseDateTime "1970-01-02".toList = none ∧
    exEnv.parseDate "1970-01-02".toList = some 1 ∧
    compareField exEnv (.dateTime ⟨84600, 0, 3600⟩) .equal (.dateTime "1970-01-02".toList) =
      .ok true := by decide

end Firm
