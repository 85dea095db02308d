import Verif.Model.Messages
import Verif.Props.QueryFields
import Verif.Props.Dates
import Verif.Props.Found
import Verif.Props.Printed

/-!
# C148: what the errors of a query advise
-/

namespace Firm
open Spec

/-! ## The specification -/

/-- The answer is the refusal of an operator. -/
def Spec.Refused (r : Except QueryError Bool) : Prop := ∃ t op sup, r = .error (.unsupportedOperator t op sup)

/-- `w` is one of the words that the message lists after `Supported:`. -/
def Spec.Listed (w m : Str) : Prop :=
  ∃ pre ws, m = pre ++ "Supported: ".toList ++ joinWith ", ".toList ws ∧ (∀ x ∈ ws, ',' ∉ x ∧ ' ' ∉ x) ∧ w ∈ ws

/-- A query with one condition, its operator and its value as texts. -/
def Spec.whereText (t f w v : Str) : Str :=
  "from ".toList ++ t ++ " | where ".toList ++ f ++ ' ' :: w ++ ' ' :: v

/-! ## Operators -/

theorem not_refused_ok {b : Bool} : ¬ Refused (.ok b) := by rintro ⟨_, _, _, h⟩; cases h

theorem not_refused_mismatch {t : FieldType} {k : FilterKind} : ¬ Refused (.error (.typeMismatch t k)) := by
  rintro ⟨_, _, _, h⟩; cases h

theorem not_refused_date {s : Str} : ¬ Refused (.error (.invalidDateFormat s)) := by
  rintro ⟨_, _, _, h⟩; cases h

/-- The operators for the fields of a type. -/
def Spec.fitting : FieldType → List FilterOperator
  | .string | .enum | .path => [.equal, .notEqual, .contains, .startsWith, .endsWith]
  | .integer | .float | .currency | .dateTime =>
    [.equal, .notEqual, .greaterThan, .lessThan, .greaterOrEqual, .lessOrEqual]
  | .boolean | .reference => [.equal, .notEqual]
  | .list => [.contains, .equal]

/-- A refusal with its list: it names type and operator, and the list has exactly the operators that are not
refused. -/
def Spec.GoodRefusal (f : FilterOperator → Except QueryError Bool) (fv : FieldValue) : Prop :=
  ∀ op t o sup, f op = .error (.unsupportedOperator t o sup) →
    t = fv.getType ∧ o = op ∧ sup = fitting t ∧ ∀ op', op' ∈ sup ↔ ¬ Refused (f op')

theorem good_of_table {f : FilterOperator → Except QueryError Bool} {fv : FieldValue} (sup : List FilterOperator)
    (hs : sup = fitting fv.getType) (h1 : ∀ op ∈ sup, ¬ Refused (f op))
    (h2 : ∀ op, op ∉ sup → f op = .error (.unsupportedOperator fv.getType op sup)) : GoodRefusal f fv := by
  intro op t o sup' h
  by_cases hm : op ∈ sup
  · exact absurd ⟨t, o, sup', h⟩ (h1 op hm)
  · rw [h2 op hm] at h
    cases h
    refine ⟨rfl, rfl, hs, fun op' => ⟨h1 op', fun hn => ?_⟩⟩
    by_cases hm' : op' ∈ sup
    · exact hm'
    · exact absurd ⟨_, _, _, h2 op' hm'⟩ hn

theorem good_of_never {f : FilterOperator → Except QueryError Bool} {fv : FieldValue} (h : ∀ op, ¬ Refused (f op)) :
    GoodRefusal f fv := fun op t o sup e => absurd ⟨t, o, sup, e⟩ (h op)

theorem good_orderedOp {fv : FieldValue} (t : FieldType) (ht : t = fv.getType) (hs : orderOps = fitting t) (o : Ordering) :
    GoodRefusal (fun op => orderedOp t o op) fv := by
  subst ht
  refine good_of_table orderOps hs (fun op hm => ?_) (fun op hm => ?_)
  · cases op <;> first | exact not_refused_ok | exact absurd hm (by decide)
  · cases op <;> first | rfl | exact absurd (by decide) hm

theorem good_text (env : Env) {fv : FieldValue} (t : FieldType) (ht : t = fv.getType) (hs : stringOps = fitting t) (s x : Str) :
    GoodRefusal (fun op => compareText env t s op x) fv := by
  subst ht
  refine good_of_table stringOps hs (fun op hm => ?_) (fun op hm => ?_)
  · cases op <;> first | exact not_refused_ok | exact absurd hm (by decide)
  · cases op <;> first | rfl | exact absurd (by decide) hm

theorem good_float {fv : FieldValue} (ht : FieldType.float = fv.getType) (a b : F64) :
    GoodRefusal (fun op => compareFloatOp a op b) fv := by
  refine good_of_table orderOps (by rw [← ht]; rfl) (fun op hm => ?_) (fun op hm => ?_)
  · cases op <;> first | exact not_refused_ok | exact absurd hm (by decide)
  · rw [← ht]; cases op <;> first | rfl | exact absurd (by decide) hm

/-- Comparing an item of a list for equality, or two texts for containment, is never refused. -/
theorem equal_not_refused (env : Env) (item : FieldValue) (v : FilterValue) :
    ¬ Refused (compareListItem env item .equal v) := by
  cases item with
  | string s =>
    show ¬ Refused (match v.text? with | some t => compareText env _ s .equal t | none => _)
    split
    · exact not_refused_ok
    · exact not_refused_mismatch
  | enum s =>
    show ¬ Refused (match v.text? with | some t => compareText env _ s .equal t | none => _)
    split
    · exact not_refused_ok
    · exact not_refused_mismatch
  | path s =>
    show ¬ Refused (match v.text? with | some t => compareText env _ s .equal t | none => _)
    split
    · exact not_refused_ok
    · exact not_refused_mismatch
  | integer n => cases v <;> first | exact not_refused_mismatch | exact not_refused_ok
  | float n => cases v <;> first | exact not_refused_mismatch | exact not_refused_ok
  | boolean n => cases v <;> first | exact not_refused_mismatch | exact not_refused_ok
  | currency d c =>
    cases v with
    | currency x c' =>
      show ¬ Refused (if c ≠ c' then _ else match env.decOfF64 x with | some d' => _ | none => _)
      split
      · exact not_refused_ok
      · split
        · exact not_refused_ok
        · exact not_refused_ok
    | _ => exact not_refused_mismatch
  | dateTime d =>
    cases v with
    | dateTime s =>
      show ¬ Refused (match env.parseDateTime s with
        | some x => _
        | none => match env.parseDate s with | some day => _ | none => _)
      split
      · exact not_refused_ok
      · split
        · exact not_refused_ok
        · exact not_refused_date
    | _ => exact not_refused_mismatch
  | reference r => cases v <;> first | exact not_refused_mismatch | exact not_refused_ok
  | list l => exact not_refused_ok

theorem itemMatches_not_refused (env : Env) (item : FieldValue) (v : FilterValue) :
    ¬ Refused (listItemMatches env item v) := by
  unfold listItemMatches
  split
  · exact not_refused_ok
  · exact equal_not_refused env item v

theorem listContains_not_refused (env : Env) (v : FilterValue) : ∀ items, ¬ Refused (listContains env v items)
  | [] => not_refused_ok
  | item :: items => by
    unfold listContains
    split
    · next e h =>
      have := itemMatches_not_refused env item v
      rwa [h] at this
    · exact not_refused_ok
    · exact listContains_not_refused env v items

theorem listEqual_not_refused (env : Env) : ∀ items vs, ¬ Refused (listEqualItems env items vs)
  | [], _ => not_refused_ok
  | _ :: _, [] => not_refused_ok
  | item :: items, v :: vs => by
    unfold listEqualItems
    split
    · next e h =>
      have := equal_not_refused env item v
      rwa [h] at this
    · exact not_refused_ok
    · exact listEqual_not_refused env items vs

theorem good_compareField (env : Env) (fv : FieldValue) (v : FilterValue) :
    GoodRefusal (fun op => compareField env fv op v) fv := by
  have text : ∀ s, (fv = .string s ∨ fv = .enum s ∨ fv = .path s) → GoodRefusal (fun op => compareField env fv op v) fv := by
    rintro s hs
    cases hx : v.text? with
    | none =>
      refine good_of_never fun op => ?_
      rcases hs with rfl | rfl | rfl <;> (simp only [compareField, compareString, hx]; exact not_refused_mismatch)
    | some x =>
      have := good_text env (fv := fv) fv.getType rfl (by rcases hs with rfl | rfl | rfl <;> rfl) s x
      rcases hs with rfl | rfl | rfl <;> simpa only [compareField, compareString, hx] using this
  cases fv with
  | string s => exact text s (.inl rfl)
  | enum s => exact text s (.inr (.inl rfl))
  | path s => exact text s (.inr (.inr rfl))
  | integer n =>
    cases v with
    | integer m =>
      refine good_of_table orderOps rfl (fun op hm => ?_) (fun op hm => ?_)
      · cases op <;> first | exact not_refused_ok | exact absurd hm (by decide)
      · cases op <;> first | rfl | exact absurd (by decide) hm
    | float m =>
      refine good_of_table orderOps rfl (fun op hm => ?_) (fun op hm => ?_)
      · cases op <;> first | exact not_refused_ok | exact absurd hm (by decide)
      · cases op <;> first | rfl | exact absurd (by decide) hm
    | _ => exact good_of_never fun op => not_refused_mismatch
  | float n =>
    cases v with
    | integer m => exact good_float rfl n _
    | float m => exact good_float rfl n _
    | _ => exact good_of_never fun op => not_refused_mismatch
  | boolean n =>
    cases v with
    | boolean m =>
      refine good_of_table equalityOps rfl (fun op hm => ?_) (fun op hm => ?_)
      · cases op <;> first | exact not_refused_ok | exact absurd hm (by decide)
      · cases op <;> first | rfl | exact absurd (by decide) hm
    | _ => exact good_of_never fun op => not_refused_mismatch
  | currency d c =>
    cases v with
    | currency x c' =>
      by_cases hc : c = c'
      · cases hd : env.decOfF64 x with
        | none =>
          refine good_of_never fun op => ?_
          simp only [compareField, compareCurrency, hd, hc, ne_eq, not_true_eq_false, if_false]
          exact not_refused_ok
        | some d' =>
          have := good_orderedOp (fv := .currency d c) .currency rfl rfl (d.cmp d')
          simpa only [compareField, compareCurrency, hd, hc, ne_eq, not_true_eq_false, if_false] using this
      · refine good_of_never fun op => ?_
        simp only [compareField, compareCurrency, ne_eq, hc, not_false_eq_true, if_true]
        exact not_refused_ok
    | _ => exact good_of_never fun op => not_refused_mismatch
  | dateTime d =>
    cases v with
    | dateTime s =>
      cases h1 : env.parseDateTime s with
      | some x =>
        have := good_orderedOp (fv := .dateTime d) .dateTime rfl rfl (d.cmp x)
        simpa only [compareField, compareDateTime, h1, compareWithDateTime] using this
      | none =>
        cases h2 : env.parseDate s with
        | some day =>
          have := good_orderedOp (fv := .dateTime d) .dateTime rfl rfl (compare d.localDay day)
          simpa only [compareField, compareDateTime, h1, h2, compareWithDate] using this
        | none =>
          refine good_of_never fun op => ?_
          simp only [compareField, compareDateTime, h1, h2]
          exact not_refused_date
    | _ => exact good_of_never fun op => not_refused_mismatch
  | reference r =>
    refine good_of_table equalityOps rfl (fun op hm => ?_) (fun op hm => ?_)
    · cases op <;> first
        | exact absurd hm (by decide)
        | (cases v <;> first | exact not_refused_ok | exact not_refused_mismatch)
    · cases op <;> first | rfl | exact absurd (by decide) hm
  | list items =>
    refine good_of_table listOps rfl (fun op hm => ?_) (fun op hm => ?_)
    · cases op <;> first
        | exact absurd hm (by decide)
        | exact listContains_not_refused env v items
        | (cases v with
          | list vs =>
            show ¬ Refused (if _ then _ else _)
            split
            · exact not_refused_ok
            · exact listEqual_not_refused env items vs
          | _ => exact not_refused_mismatch)
    · cases op <;> first | rfl | exact absurd (by decide) hm

/-- C148: the refusal of an operator lists exactly the operators that are not refused for this field and this
value. -/
theorem C148_operators (env : Env) {fv : FieldValue} {op o : FilterOperator} {v : FilterValue} {t : FieldType}
    {sup : List FilterOperator} (h : compareField env fv op v = .error (.unsupportedOperator t o sup)) :
    t = fv.getType ∧ o = op ∧ ∀ op', op' ∈ sup ↔ ¬ Refused (compareField env fv op' v) :=
  let h' := good_compareField env fv v op t o sup h
  ⟨h'.1, h'.2.1, h'.2.2.2⟩

/-! ## The words of the operators -/

theorem supportedWord_clean : ∀ o : FilterOperator, ',' ∉ supportedWord o ∧ ' ' ∉ supportedWord o := by
  intro o; cases o <;> decide

theorem listed_supported {op o : FilterOperator} {t : FieldType} {sup : List FilterOperator} {a : Option Aggregation}
    (h : o ∈ sup) : Listed (supportedWord o) (queryMessage a (.unsupportedOperator t op sup)) := by
  refine ⟨"Cannot use '".toList ++ operatorName op ++ "' operator on ".toList ++ showFieldType t ++ " fields. ".toList,
    sup.map supportedWord, ?_, ?_, List.mem_map_of_mem h⟩
  · show _ ++ _ ++ _ ++ _ ++ _ ++ _ = _
    rw [show " fields. Supported: ".toList = " fields. ".toList ++ "Supported: ".toList from by decide]
    simp only [List.append_assoc]
  · intro x hx
    obtain ⟨o', -, rfl⟩ := List.mem_map.1 hx
    exact supportedWord_clean o'

theorem whereText_show (t f : Str) (op : FilterOperator) (x : QValue) :
    whereText t f (showQOperator op) (showQValue x) =
      showQuery ⟨.type t, [.where ⟨.regular f, op, x⟩ []], none⟩ := by
  show "from ".toList ++ t ++ " | where ".toList ++ f ++ ' ' :: showQOperator op ++ ' ' :: showQValue x =
    "from ".toList ++ t ++ ((" | ".toList ++ ("where ".toList ++
      (f ++ ' ' :: showQOperator op ++ ' ' :: showQValue x) ++ [])) ++ []) ++ []
  rw [show " | where ".toList = " | ".toList ++ "where ".toList from by decide]
  simp only [List.append_assoc, List.append_nil, List.cons_append]

/-- C148: a listed operator, written with the word of the message, is read as that operator. Missing for the full
claim: `starts_with` and `ends_with` (`C148_starts_with`). -/
theorem C148_words_partial (env : Env) {fv : FieldValue} {op o op' : FilterOperator} {v : FilterValue} {t : FieldType}
    {sup : List FilterOperator} (h : compareField env fv op v = .error (.unsupportedOperator t o sup))
    (a : Option Aggregation) (hop : ¬ Refused (compareField env fv op' v)) (h1 : op' ≠ .startsWith)
    (h2 : op' ≠ .endsWith) :
    ∃ w, Listed w (queryMessage a (.unsupportedOperator t o sup)) ∧
      ∀ {ty f : Str} {x : QValue}, IsIdent ty → IsIdent f → ValidValue x →
        qQuery (whereText ty f w (showQValue x)) = some ⟨.type ty, [.where ⟨.regular f, op', x⟩ []], none⟩ := by
  have hm := ((C148_operators env h).2.2 op').2 hop
  refine ⟨supportedWord op', listed_supported hm, fun {ty f x} ht hf hx => ?_⟩
  have hv : ValidTree ⟨.type ty, [.where ⟨.regular f, op', x⟩ []], none⟩ := by
    refine ⟨ht, fun y hy => ?_, nofun⟩
    rw [List.mem_singleton.1 hy]
    exact ⟨⟨hf, hx⟩, nofun⟩
  have hw : supportedWord op' = showQOperator op' := by
    cases op' <;> first | rfl | exact absurd rfl h1 | exact absurd rfl h2
  rw [hw, whereText_show]
  exact C73_reads_back hv

theorem ident_starts {f : Str} (h : IsIdent f) (r : Str) : Stops qWs (f ++ r) := by
  obtain ⟨c, cs, rfl, hc, -⟩ := h
  refine stops_cons ?_
  cases hq : qWs c with
  | false => rfl
  | true =>
    unfold qWs at hq
    simp only [Bool.or_eq_true, beq_iff_eq] at hq
    rcases hq with (rfl | rfl) | rfl <;> exact absurd hc (by decide)

theorem qField_ident {f r : Str} (h : IsIdent f) (hr : Stops identChar r) :
    qField (f ++ r) = some (.regular f, r) := qField_show (f := .regular f) h hr

theorem qCond_no_operator {f w : Str} (hf : IsIdent f) (hw : Stops qWs w) (h : qWord operatorWords w = none) (n : Nat) :
    qCond n (f ++ ' ' :: w) = none := by
  unfold qCond
  rw [qField_ident hf (stops_cons (by decide))]
  dsimp only
  rw [qSkip_space, qSkip_stops hw, h]

theorem qWhere_no_operator {f w : Str} (hf : IsIdent f) (hw : Stops qWs w) (h : qWord operatorWords w = none) (n : Nat) :
    qWhere n ("where ".toList ++ (f ++ ' ' :: w)) = none := by
  unfold qWhere
  rw [show "where ".toList ++ (f ++ ' ' :: w) = "where".toList ++ (' ' :: (f ++ ' ' :: w)) from rfl, qLit_append]
  dsimp only
  rw [qSkip_space, qSkip_stops (ident_starts hf _), qCond_no_operator hf hw h]

theorem where_only (n : Nat) (x : Str) (h : qWhere n ("where ".toList ++ x) = none) :
    qOperation n ("where ".toList ++ x) = none := by
  unfold qOperation
  rw [h]
  rfl

theorem no_aggregation (x : Str) : qAggregation ("where ".toList ++ x) = none := rfl

theorem qAfter_pipe {α : Type} (p : Str → Option (α × Str)) {x : Str} (hx : Stops qWs x) :
    qAfter '|' p ('|' :: ' ' :: x) = p x := by
  show (if '|' = '|' then p (qSkip (' ' :: x)) else none) = _
  rw [if_pos rfl, qSkip_space, qSkip_stops hx]

/-- A query whose first clause cannot be read. -/
theorem qQuery_stuck {t x : Str} (ht : IsIdent t) (hx : Stops qWs x) (ho : ∀ n, qOperation n x = none)
    (ha : qAggregation x = none) : qQuery ("from ".toList ++ t ++ " | ".toList ++ x) = none := by
  have hsel : qSelector (t ++ (" | ".toList ++ x)) = some (.type t, " | ".toList ++ x) := by
    have hi := qIdent_show (r := " | ".toList ++ x) ht (stops_cons (by decide))
    obtain ⟨c, cs, rfl, hc, -⟩ := ht
    have hne : c ≠ '*' := by rintro rfl; exact absurd hc (by decide)
    rw [List.cons_append] at hi ⊢
    unfold qSelector
    dsimp only
    rw [if_neg hne, hi]
  have hskip : qSkip (" | ".toList ++ x) = '|' :: ' ' :: x := rfl
  have hm : ∀ {α : Type} (p : Str → Option (α × Str)) (_ : p x = none) (k : Nat),
      qMany (qAfter '|' p) k (" | ".toList ++ x) = ([], " | ".toList ++ x) := by
    intro α p hp k
    cases k with
    | zero => rfl
    | succ k =>
      unfold qMany
      rw [hskip, qAfter_pipe p hx, hp]
  unfold qQuery
  rw [show qSkip ("from ".toList ++ t ++ " | ".toList ++ x) = "from".toList ++ (' ' :: (t ++ (" | ".toList ++ x))) by
    rw [List.append_assoc]; rfl, qLit_append]
  dsimp only
  rw [qSkip_space, qSkip_stops (ident_starts ht _), hsel]
  dsimp only
  rw [hm _ (ho _)]
  dsimp only
  have : qOpt (qAfter '|' qAggregation) (" | ".toList ++ x) = (none, " | ".toList ++ x) := by
    unfold qOpt
    rw [hskip, qAfter_pipe _ hx, ha]
  rw [this]
  dsimp only
  rw [hskip, if_neg (by simp)]

/-- C148 is false: for text fields the message lists `starts_with` and `ends_with`, which are words the query
language does not have. Every query with one of them is a syntax error. -/
theorem C148_starts_with :
    (∀ (env : Env) (s x : Str) (a : Option Aggregation),
      ∃ e, compareField env (.string s) .isIn (.string x) = .error e ∧
        Listed "starts_with".toList (queryMessage a e) ∧ Listed "ends_with".toList (queryMessage a e)) ∧
    ∀ (L : Lang) (t f v : Str), IsIdent t → IsIdent f →
      parseQuery L (whereText t f "starts_with".toList v) = .error .syntaxError ∧
      parseQuery L (whereText t f "ends_with".toList v) = .error .syntaxError := by
  refine ⟨fun env s x a => ⟨_, rfl, listed_supported (o := .startsWith) (by decide),
    listed_supported (o := .endsWith) (by decide)⟩, fun L t f v ht hf => ?_⟩
  have key : ∀ w : Str, Stops qWs (w ++ ' ' :: v) → qWord operatorWords (w ++ ' ' :: v) = none →
      parseQuery L (whereText t f w v) = .error .syntaxError := by
    intro w h1 h2
    have h : qQuery (whereText t f w v) = none := by
      rw [show whereText t f w v = "from ".toList ++ t ++ " | ".toList ++
          ("where ".toList ++ (f ++ ' ' :: (w ++ ' ' :: v))) by
        unfold whereText
        rw [show " | where ".toList = " | ".toList ++ "where ".toList from by decide]
        simp only [List.append_assoc, List.cons_append]]
      exact qQuery_stuck ht (stops_cons (by decide)) (fun n => where_only n _ (qWhere_no_operator hf h1 h2 n))
        (no_aggregation _)
    unfold parseQuery
    rw [h]
  exact ⟨key _ (stops_cons (by decide)) rfl, key _ (stops_cons (by decide)) rfl⟩

/-! ## Following the advice -/

theorem filterEntities_fails {env : Env} {c : CompoundCondition} : ∀ {es : List Entity} {err : QueryError},
    filterEntities env c es = .error err → ∃ e ∈ es, c.matches env e = .error err
  | [], _, h => by cases h
  | e :: es, err, h => by
    unfold filterEntities at h
    split at h
    · next he => cases h; exact ⟨e, List.mem_cons_self .., he⟩
    · split at h
      · next hr =>
        cases h
        obtain ⟨e', he', h'⟩ := filterEntities_fails hr
        exact ⟨e', List.mem_cons_of_mem _ he', h'⟩
      · cases h

theorem matches_single_error {env : Env} {c : FilterCondition} {e : Entity} {err : QueryError}
    (h : (CompoundCondition.mk [c] .and).matches env e = .error err) : c.matches env e = .error err := by
  unfold CompoundCondition.matches collectResults at h
  cases hc : c.matches env e with
  | error err' => rw [hc] at h; cases h; rfl
  | ok b => rw [hc] at h; cases h

/-- C148: of a query with one condition that is refused, the same query with a listed operator is not refused, if
the field has one type in all entities it is asked of. Missing for the full claim: fields with several types, where
the next refusal is about another type. -/
theorem C148_follow_partial (L : Lang) (rt : Runtime) (ops : List GOp) {t f : Str} (ht : IsIdent t) (hf : IsIdent f)
    {x : QValue} (hx : ValidValue x) {op op' o : FilterOperator} {ty : FieldType} {sup : List FilterOperator}
    (h : runQuery L rt (Graph.run ops) (showQuery (oneCondition t (.regular f) op x)) =
      .error (.execution (.unsupportedOperator ty o sup)))
    (hty : ∀ e ∈ accepted ops, e.entityType = L.cases.snake t → ∀ v, e.getField (L.cases.snake f) = some v →
      v.getType = ty) (hop : op' ∈ sup) {ty' : FieldType} {o' : FilterOperator} {sup' : List FilterOperator} :
    runQuery L rt (Graph.run ops) (showQuery (oneCondition t (.regular f) op' x)) ≠
      .error (.execution (.unsupportedOperator ty' o' sup')) := by
  have hread : ∃ w, readQValue L x = .ok w := by
    cases hw : readQValue L x with
    | ok w => exact ⟨w, rfl⟩
    | error err =>
      have hvalid : ValidTree (oneCondition t (.regular f) op x) := by
        refine ⟨ht, fun y hy => ?_, nofun⟩
        rw [List.mem_singleton.1 hy]
        exact ⟨⟨hf, hx⟩, nofun⟩
      unfold runQuery parseQuery at h
      rw [qQuery_show hvalid] at h
      simp [oneCondition, collectResults, readOp, readCond, hw] at h
  obtain ⟨w, hw⟩ := hread
  have hrun : ∀ {op : FilterOperator} {ty o sup}, runQuery L rt (Graph.run ops) (showQuery (oneCondition t (.regular f) op x)) =
        .error (.execution (.unsupportedOperator ty o sup)) →
      ∃ e ∈ accepted ops, e.entityType = L.cases.snake t ∧ ∃ v, e.getField (L.cases.snake f) = some v ∧
        compareField L.env v op (convertValue w) = .error (.unsupportedOperator ty o sup) := by
    intro op ty o sup h
    unfold runQuery at h
    rw [oneCondition_parse L ht (f := .regular f) hf hx hw] at h
    dsimp only [convertQuery, selectorType] at h
    unfold Query.execute at h
    dsimp only at h
    split at h
    · next herr =>
      split at herr
      · next e1 hsel =>
        cases herr
        cases h
        unfold selectFrom at hsel
        dsimp only at hsel
        split at hsel <;> cases hsel
      · next es hsel =>
        split at herr
        · next e1 hap =>
          cases herr
          cases h
          have hes : es = (accepted ops).filter fun e => e.entityType = L.cases.snake t := by
            unfold selectFrom at hsel
            dsimp only at hsel
            split at hsel
            · cases hsel; rw [C03_list_by_type]
            · cases hsel
          have hf' : filterEntities L.env ⟨[⟨.regular (L.cases.snake f), op, convertValue w⟩], .and⟩ es =
              .error (.unsupportedOperator ty o sup) := by
            simp only [List.map_cons, List.map_nil, applyOperations] at hap
            split at hap
            · next he => cases hap; exact he
            · cases hap
          obtain ⟨e, he, hm⟩ := filterEntities_fails hf'
          have hm := matches_single_error hm
          rw [hes, List.mem_filter] at he
          refine ⟨e, he.1, by simpa using he.2, ?_⟩
          have hm : FilterCondition.matchesField L.env _ e (L.cases.snake f) = _ := hm
          unfold FilterCondition.matchesField at hm
          cases hv : e.getField (L.cases.snake f) with
          | none => rw [hv] at hm; cases hm
          | some v => rw [hv] at hm; exact ⟨v, rfl, hm⟩
        · cases herr
    · cases h
  intro h'
  obtain ⟨e, he, het, v, hv, hc⟩ := hrun h
  obtain ⟨e', he', het', v', hv', hc'⟩ := hrun h'
  obtain ⟨h1, -, h3, -⟩ := good_compareField L.env v (convertValue w) op ty o sup hc
  obtain ⟨h1', -, h3', h4'⟩ := good_compareField L.env v' (convertValue w) op' ty' o' sup' hc'
  have : ty' = ty := by rw [h1', hty e' he' het' v' hv']
  rw [h3, ← this, ← h3'] at hop
  exact (h4' op').1 hop ⟨_, _, _, hc'⟩

/-! ## Kinds of values -/

theorem rejection_kinds {t t' : FieldType} {k k' : FilterKind} {op : FilterOperator}
    (h : rejection t op k = some (.typeMismatch t' k')) :
    t' = t ∧ k' = k ∧ ¬ (t = .currency ∧ k = .currency) ∧ ∀ op', ∃ e, rejection t op' k = some e := by
  cases t <;> cases k <;> cases op <;> cases h <;>
    exact ⟨rfl, rfl, by decide, fun op' => by cases op' <;> exact ⟨_, rfl⟩⟩

/-- C148: if a field and a value of one kind cannot be compared, no field of that type can be compared with a value
of that kind, whatever the operator. Missing for the full claim: lists (`C148_list_mismatch`). -/
theorem C148_mismatch_partial (env : Env) {fv : FieldValue} {op : FilterOperator} {v : FilterValue} {t : FieldType}
    {k : FilterKind} (hl : fv.getType ≠ .list) (h : compareField env fv op v = .error (.typeMismatch t k)) :
    t = fv.getType ∧ k = v.kind ∧
      ∀ (fv' : FieldValue) (v' : FilterValue) (op' : FilterOperator), fv'.getType = t → v'.kind = k →
        ∀ b, compareField env fv' op' v' ≠ .ok b := by
  have hc : ¬ CurrencyApart env fv v := fun hc => by
    rw [(C26_exceptions env fv op v).1 hc] at h; cases h
  have hu : ¬ Unreadable env fv v := fun hu => by
    cases v with
    | dateTime s => rw [(C26_exceptions env fv op _).2 s rfl hu] at h; cases h
    | _ => cases fv <;> exact absurd hu (by simp [Unreadable])
  have hr : rejection fv.getType op v.kind = some (.typeMismatch t k) := by
    have := C26_error_table env fv hl op v hc hu
    split at this
    · next e he => rw [he]; rw [h] at this; cases this; rfl
    · next he => obtain ⟨b, hb⟩ := this; rw [h] at hb; cases hb
  obtain ⟨rfl, rfl, hne, hall⟩ := rejection_kinds hr
  refine ⟨rfl, rfl, fun fv' v' op' ht hk b hb => ?_⟩
  by_cases hc' : CurrencyApart env fv' v'
  · cases fv' <;> cases v' <;> first
      | exact hc'.elim
      | exact hne ⟨ht.symm, hk.symm⟩
  by_cases hu' : Unreadable env fv' v'
  · cases v' with
    | dateTime s => rw [(C26_exceptions env fv' op' _).2 s rfl hu'] at hb; cases hb
    | _ => cases fv' <;> exact absurd hu' (by simp [Unreadable])
  have := C26_error_table env fv' (by rw [ht]; exact hl) op' v' hc' hu'
  rw [ht, hk] at this
  obtain ⟨e, he⟩ := hall op'
  rw [he] at this
  rw [hb] at this
  cases this

/-- C148 is false for lists: of `== 1` on a list of integers it is said that lists cannot be compared with integers,
but `contains 1` finds it. -/
theorem C148_list_mismatch (env : Env) :
    compareField env (.list [.integer 1]) .equal (.integer 1) = .error (.typeMismatch .list .integer) ∧
    queryMessage none (.typeMismatch .list .integer) =
      "Type mismatch: List field cannot be compared with Integer value".toList ∧
    compareField env (.list [.integer 1]) .contains (.integer 1) = .ok true := ⟨rfl, by decide, rfl⟩

/-! ## Types -/

/-- C148: a type that the message of `from` lists is found by `from`, if it is written in snake case. Missing for
the full claim: other types (`C148_again`). -/
theorem C148_types_partial (L : Lang) (rt : Runtime) (ops : List GOp) {t t' r : Str} (ht : IsIdent t)
    {known : List EntityType}
    (h : runQuery L rt (Graph.run ops) (showQuery ⟨.type t, [], none⟩) =
      .error (.execution (.unknownEntityType r known))) (hm : t' ∈ known) (ht' : IsIdent t')
    (hs : L.cases.snake t' = t') :
    ∃ es, runQuery L rt (Graph.run ops) (showQuery ⟨.type t', [], none⟩) = .ok (.entities es) ∧ es ≠ [] := by
  obtain ⟨h1, h2⟩ := C78_from L rt ops ht
  by_cases hx : ∃ e ∈ accepted ops, e.entityType = L.cases.snake t
  · rw [h1 hx] at h; cases h
  · obtain ⟨known', e1, e2⟩ := h2 hx
    rw [h] at e1
    cases e1
    obtain ⟨e, he, het⟩ := (e2 t').1 hm
    refine ⟨_, (C78_from L rt ops ht').1 ⟨e, he, by rw [hs, het]⟩, List.ne_nil_of_mem (a := e) ?_⟩
    simp [he, hs, het]

/-- C148 is false for types that are not in snake case: `from line_item` says that there is `lineItem`, and
`from lineItem` says the same again. -/
theorem C148_again :
    let g := Graph.run [.add ⟨"lineitem.a".toList, "lineItem".toList, []⟩, .build]
    let e := QueryError.unknownEntityType "line_item".toList ["lineItem".toList]
    queryMessage none e = "Entity type 'line_item' not found. Available types: lineItem".toList ∧
    runQuery exLang exRt g "from line_item".toList = .error (.execution e) ∧
    runQuery exLang exRt g "from lineItem".toList = .error (.execution e) := by
  refine ⟨?_, ?_, ?_⟩ <;> decide +kernel

/-- C148: the message about a type that does not exist names the type that was looked for and lists the types of
the entities that there are, all of them and no others; without entities it says so. -/
theorem C148_all_types (L : Lang) (rt : Runtime) (ops : List GOp) {t : Str} (ht : IsIdent t)
    (hn : ¬ ∃ e ∈ accepted ops, e.entityType = L.cases.snake t) :
    ∃ err, runQuery L rt (Graph.run ops) (showQuery ⟨.type t, [], none⟩) = .error (.execution err) ∧
      ∀ a, (accepted ops = [] → queryMessage a err =
          "Entity type '".toList ++ L.cases.snake t ++ "' not found. No entity types exist.".toList) ∧
        (accepted ops ≠ [] → ∃ ws, queryMessage a err =
            "Entity type '".toList ++ L.cases.snake t ++ "' not found. Available types: ".toList ++
              joinWith ", ".toList ws ∧
          ∀ t', t' ∈ ws ↔ ∃ e ∈ accepted ops, e.entityType = t') := by
  obtain ⟨known, hr, hk⟩ := (C78_from L rt ops ht).2 hn
  refine ⟨_, hr, fun a => ⟨fun h0 => ?_, fun h0 => ⟨known, ?_, hk⟩⟩⟩
  · have : known = [] := by
      cases known with
      | nil => rfl
      | cons k ks =>
        obtain ⟨e, he, -⟩ := (hk k).1 (List.mem_cons_self ..)
        rw [h0] at he
        cases he
    subst this
    unfold queryMessage
    dsimp only
    rw [if_pos rfl]
  · obtain ⟨e, he⟩ := List.exists_mem_of_ne_nil _ h0
    have hm : e.entityType ∈ known := (hk _).2 ⟨e, he, rfl⟩
    show (if known = [] then _ else _) = _
    exact if_neg (List.ne_nil_of_mem hm)

/-! ## The names in the messages -/

theorem operatorName_inj : ∀ o o', operatorName o = operatorName o' → o = o' := by
  intro o o'; cases o <;> cases o' <;> decide

theorem operatorName_quote : ∀ o, '\'' ∉ operatorName o := by intro o; cases o <;> decide

theorem filterKindName_inj : ∀ k k', filterKindName k = filterKindName k' → k = k' := by
  intro k k'; cases k <;> cases k' <;> decide

theorem shownType_inj : ∀ t t', showFieldType t = showFieldType t' → t = t' := by
  intro t t'; cases t <;> cases t' <;> decide

theorem shownType_space : ∀ t, ' ' ∉ showFieldType t := by intro t; cases t <;> decide

/-- C148: the message about a refused operator tells which operator it was and of which type the field is, and the
message about a kind of value tells the type of the field and the kind of the value: other operators, types and
kinds have other messages. -/
theorem C148_tells (a a' : Option Aggregation) (t t' : FieldType) :
    (∀ (o o' : FilterOperator) (sup : List FilterOperator),
      queryMessage a (.unsupportedOperator t o sup) = queryMessage a' (.unsupportedOperator t' o' sup) →
        t = t' ∧ o = o') ∧
    ∀ k k' : FilterKind, queryMessage a (.typeMismatch t k) = queryMessage a' (.typeMismatch t' k') →
      t = t' ∧ k = k' := by
  refine ⟨fun o o' sup h => ?_, fun k k' h => ?_⟩
  · have h := List.append_cancel_right (List.append_cancel_right
      (show _ ++ _ ++ _ ++ _ ++ _ ++ _ = _ ++ _ ++ _ ++ _ ++ _ ++ _ from h))
    simp only [List.append_assoc] at h
    obtain ⟨h1, h2⟩ := upto_inj (c := '\'') (operatorName_quote o) (operatorName_quote o')
      (show operatorName o ++ '\'' :: (" operator on ".toList ++ showFieldType t) =
        operatorName o' ++ '\'' :: (" operator on ".toList ++ showFieldType t') from List.append_cancel_left h)
    exact ⟨shownType_inj _ _ (List.append_cancel_left h2), operatorName_inj _ _ h1⟩
  · have h := List.append_cancel_right (show _ ++ _ ++ _ ++ _ ++ _ = _ ++ _ ++ _ ++ _ ++ _ from h)
    simp only [List.append_assoc] at h
    obtain ⟨h1, h2⟩ := upto_inj (c := ' ') (shownType_space t) (shownType_space t')
      (show showFieldType t ++ ' ' :: ("field cannot be compared with ".toList ++ filterKindName k) =
        showFieldType t' ++ ' ' :: ("field cannot be compared with ".toList ++ filterKindName k') from
        List.append_cancel_left h)
    exact ⟨shownType_inj _ _ h1, filterKindName_inj _ _ (List.append_cancel_left h2)⟩

/-! ## Dates -/

/-- C148: a date of the calendar, written as the message about dates says, is accepted by the operators for dates.
Missing for the full claim: moments, which the message also offers (`C148_iso`). -/
theorem C148_date_partial (env : Env) (he : Chrono env) {y m d : Str} (hy : IsDigitsN 4 y) (hm : IsDigitsN 2 m)
    (hd : IsDigitsN 2 d) (hv : Civil.valid ⟨digitsVal y, digitsVal m, digitsVal d⟩ = true) (x : DateTime)
    {op : FilterOperator} (ho : op ∈ [.equal, .notEqual, .greaterThan, .lessThan, .greaterOrEqual, .lessOrEqual]) :
    ∃ b, compareField env (.dateTime x) op (.dateTime (y ++ '-' :: m ++ '-' :: d)) = .ok b := by
  have := (C124_days_partial env he hy hm hd x).1 hv
  simp only [List.mem_cons, List.not_mem_nil, or_false] at ho
  rcases ho with rfl | rfl | rfl | rfl | rfl | rfl
  · exact this.equal.imp fun b hb => hb.1
  · exact this.notEqual.imp fun b hb => hb.1
  · exact this.greater.imp fun b hb => hb.1
  · exact this.less.imp fun b hb => hb.1
  · exact this.greaterOrEqual.imp fun b hb => hb.1
  · exact this.lessOrEqual.imp fun b hb => hb.1

theorem qLeaf_iso {d : Str} (hd : IsDate d) (r : Str) : qLeaf (d ++ 'T' :: r) = some (.dateTime d, 'T' :: r) := by
  unfold qLeaf
  rw [qCurrency_date ⟨d, hd, .inl rfl⟩]
  dsimp only
  unfold qDateTime
  rw [qDate_show hd]
  dsimp only
  rw [show qTime ('T' :: r) = none from rfl]

theorem date_starts {d : Str} (h : IsDate d) (r : Str) : Stops qWs (d ++ r) := by
  obtain ⟨y, m, dd, hy, -, -, rfl⟩ := h
  cases y with
  | nil => exact absurd hy.1 (by decide)
  | cons c y =>
    refine stops_cons ?_
    have := hy.2 c (List.mem_cons_self ..)
    cases hq : qWs c with
    | false => rfl
    | true =>
      unfold qWs at hq
      simp only [Bool.or_eq_true, beq_iff_eq] at hq
      rcases hq with (rfl | rfl) | rfl <;> exact absurd this (by decide)

theorem qWhere_iso {f d r : Str} (hf : IsIdent f) (hd : IsDate d) (n : Nat) :
    qWhere (n + 1) ("where ".toList ++ (f ++ ' ' :: ("==".toList ++ ' ' :: (d ++ 'T' :: r)))) =
      some (.where ⟨.regular f, .equal, .dateTime d⟩ [], 'T' :: r) := by
  have hc : qCond (n + 1) (f ++ ' ' :: ("==".toList ++ ' ' :: (d ++ 'T' :: r))) =
      some (⟨.regular f, .equal, .dateTime d⟩, 'T' :: r) := by
    unfold qCond
    rw [qField_ident hf (stops_cons (by decide))]
    dsimp only
    rw [qSkip_space, show qSkip ("==".toList ++ ' ' :: (d ++ 'T' :: r)) = "==".toList ++ ' ' :: (d ++ 'T' :: r) from rfl,
      show qWord operatorWords ("==".toList ++ ' ' :: (d ++ 'T' :: r)) = some (.equal, ' ' :: (d ++ 'T' :: r)) from rfl]
    dsimp only
    rw [qSkip_space, qSkip_stops (date_starts hd _)]
    unfold qValue
    rw [qLeaf_iso hd]
  have hm : ∀ k, qMany (qMore (n + 1)) k ('T' :: r) = ([], 'T' :: r) := by
    intro k
    cases k with
    | zero => rfl
    | succ k =>
      unfold qMany
      rw [qSkip_of (by decide)]
      unfold qMore
      rw [show qCombinator ('T' :: r) = none by
        unfold qCombinator qLitI
        rw [if_neg (by intro h; cases r with
          | nil => exact absurd h (by decide)
          | cons a r => exact absurd (congrArg List.head? h) (by simp; decide)),
          if_neg (by intro h; exact absurd (congrArg List.head? h) (by simp; decide))]]
  unfold qWhere
  rw [show "where ".toList ++ (f ++ ' ' :: ("==".toList ++ ' ' :: (d ++ 'T' :: r))) =
    "where".toList ++ (' ' :: (f ++ ' ' :: ("==".toList ++ ' ' :: (d ++ 'T' :: r)))) from rfl, qLit_append]
  dsimp only
  rw [qSkip_space, qSkip_stops (ident_starts hf _), hc]
  dsimp only
  rw [hm]

/-- C148 is false: a full ISO 8601 moment, which the message about dates asks for, is a syntax error in every
query. -/
theorem C148_iso (L : Lang) {t f d : Str} (ht : IsIdent t) (hf : IsIdent f) (hd : IsDate d) (r : Str) :
    parseQuery L (whereText t f "==".toList (d ++ 'T' :: r)) = .error .syntaxError := by
  have hx : whereText t f "==".toList (d ++ 'T' :: r) = "from ".toList ++ t ++ (" | ".toList ++
      ("where ".toList ++ (f ++ ' ' :: ("==".toList ++ ' ' :: (d ++ 'T' :: r))))) := by
    unfold whereText
    rw [show " | where ".toList = " | ".toList ++ "where ".toList from by decide]
    simp only [List.append_assoc, List.cons_append]
  have h : qQuery (whereText t f "==".toList (d ++ 'T' :: r)) = none := by
    rw [hx]
    generalize hX : "where ".toList ++ (f ++ ' ' :: ("==".toList ++ ' ' :: (d ++ 'T' :: r))) = X
    have hXs : Stops qWs X := by rw [← hX]; exact stops_cons (by decide)
    have hskip : qSkip (" | ".toList ++ X) = '|' :: ' ' :: X := rfl
    have hop : ∀ n, qOperation (n + 1) X = some (.where ⟨.regular f, .equal, .dateTime d⟩ [], 'T' :: r) := by
      intro n
      unfold qOperation
      rw [← hX, qWhere_iso hf hd]
    have hmany : ∀ n k, qMany (qAfter '|' (qOperation (n + 1))) (k + 1) (" | ".toList ++ X) =
        ([.where ⟨.regular f, .equal, .dateTime d⟩ []], 'T' :: r) := by
      intro n k
      have h2 : ∀ k, qMany (qAfter '|' (qOperation (n + 1))) k ('T' :: r) = ([], 'T' :: r) := by
        intro k
        cases k with
        | zero => rfl
        | succ k => rfl
      unfold qMany
      rw [hskip, qAfter_pipe _ hXs, hop]
      dsimp only
      rw [h2]
    unfold qQuery
    rw [show qSkip ("from ".toList ++ t ++ (" | ".toList ++ X)) = "from".toList ++ (' ' :: (t ++ (" | ".toList ++ X))) by
      rw [List.append_assoc]; rfl, qLit_append]
    dsimp only
    rw [qSkip_space, qSkip_stops (ident_starts ht _),
      show qSelector (t ++ (" | ".toList ++ X)) = some (.type t, " | ".toList ++ X) from
        qSelector_show (f := .type t) ht (stops_cons (by decide))]
    dsimp only
    rw [show (" | ".toList ++ X).length = (X.length + 2) + 1 by simp, hmany]
    dsimp only
    rw [show qOpt (qAfter '|' qAggregation) ('T' :: r) = (none, 'T' :: r) from rfl]
    dsimp only
    rw [qSkip_of (by decide), if_neg (by simp)]
  unfold parseQuery
  rw [h]

/-! ## Examples -/

/-- A query that is refused, and the same query with an operator from the list. -/
example : runQuery exLang exRt (Graph.run [.add exAlice, .build]) "from person | where name > \"B\"".toList =
      .error (.execution (.unsupportedOperator .string .greaterThan
        [.equal, .notEqual, .contains, .startsWith, .endsWith])) ∧
    queryMessage none (.unsupportedOperator .string .greaterThan [.equal, .notEqual, .contains, .startsWith, .endsWith]) =
      "Cannot use 'GreaterThan' operator on String fields. Supported: ==, !=, contains, starts_with, ends_with".toList ∧
    runQuery exLang exRt (Graph.run [.add exAlice, .build]) "from person | where name starts_with \"A\"".toList =
      .error (.parse .syntaxError) ∧
    runQuery exLang exRt (Graph.run [.add exAlice, .build]) "from person | where name startswith \"A\"".toList =
      .ok (.entities [exAlice]) := by
  refine ⟨?_, ?_, ?_, ?_⟩ <;> decide +kernel

example : compareField exEnv (.boolean true) .contains (.boolean true) =
    .error (.unsupportedOperator .boolean .contains [.equal, .notEqual]) := rfl

example : compareField exEnv (.integer 1) .equal (.string []) = .error (.typeMismatch .integer .string) := rfl

example : (¬ ∃ e ∈ accepted [.add exAlice, .build], e.entityType = exLang.cases.snake "robot".toList) ∧
    accepted [.add exAlice, .build] ≠ [] := by
  constructor <;> decide +kernel

example : runQuery exLang exRt (Graph.run [.add exAlice, .build]) "from robot".toList =
    .error (.execution (.unknownEntityType "robot".toList ["person".toList])) := by decide +kernel

example : IsDate "2025-01-15".toList :=
  ⟨"2025".toList, "01".toList, "15".toList, ⟨rfl, by decide⟩, ⟨rfl, by decide⟩, ⟨rfl, by decide⟩, by decide⟩

end Firm
