import Verif.Lemmas.Aggregation
import Verif.Props.Query

/-!
# Properties of `sum`, `average` and `median` (C37–C39)
-/

namespace Firm
open Spec

/-- All prefix sums of the list, starting with the first element, are 64-bit integers. -/
def PrefixSumsFit (ns : List Int) : Prop := ∀ k, isI64 (total (ns.take k)) = true

theorem prefixesOk_iff (ns : List Int) (acc : Int) (ha : isI64 acc = true) :
    PrefixesOk acc ns ↔ ∀ k, isI64 (acc + total (ns.take k)) = true := by
  induction ns generalizing acc with
  | nil => simp [PrefixesOk, total, ha]
  | cons n ns ih =>
    simp only [PrefixesOk]
    constructor
    · rintro ⟨h1, h2⟩ k
      cases k with
      | zero => simpa [total] using ha
      | succ k =>
        have := (ih _ h1).1 h2 k
        simp only [List.take_succ_cons, total]
        rwa [← Int.add_assoc]
    · intro h
      have h1 : isI64 (acc + n) = true := by simpa [total] using h 1
      refine ⟨h1, (ih _ h1).2 fun k => ?_⟩
      have := h (k + 1)
      simp only [List.take_succ_cons, total] at this
      rwa [Int.add_assoc]

theorem executeSum_of_values (env : Env) (f : FieldId) (es : List Entity)
    (h : ∀ v ∈ present f es, IsNumber v) (hne : present f es ≠ []) :
    Aggregation.execute env (.sum (.regular f)) es =
      match classifyNumericType ((present f es).filterMap num?) with
      | .error e => .error e
      | .ok .integer =>
        match sumI64 env 0 (((present f es).filterMap num?).map (·.intOr0)) with
        | .ok n => .ok (.sum (.integer n))
        | .error e => .error e
      | .ok .float => .ok (.sum (.float (sumF64 (((present f es).filterMap num?).map (·.asF64 env)))))
      | .ok (.currency c) =>
        match sumCurrency env c ⟨0, 0⟩ ((present f es).filterMap num?) with
        | .ok d => .ok (.sum (.currency d c))
        | .error e => .error e := by
  simp only [Aggregation.execute, executeSum, requireRegularField, collect_ok f es h]
  have : ((present f es).filterMap num?).isEmpty = false := by
    cases hp : present f es with
    | nil => exact absurd hp hne
    | cons v vs =>
      rw [hp] at h
      have := num?_isSome.2 (h v (by simp))
      obtain ⟨x, hx⟩ := Option.isSome_iff_exists.1 this
      simp [hx]
  rw [this]
  simp only [Bool.false_eq_true, if_false]
  generalize (present f es).filterMap num? = ns
  rcases classifyNumericType ns with e | t
  · rfl
  · cases t with
    | integer => cases sumI64 env 0 (ns.map (·.intOr0)) <;> rfl
    | float => rfl
    | currency c => cases sumCurrency env c ⟨0, 0⟩ ns <;> rfl

theorem executeSum_integers (env : Env) (f : FieldId) (es : List Entity) (ns : List Int)
    (h : present f es = ns.map .integer) (hne : ns ≠ []) :
    Aggregation.execute env (.sum (.regular f)) es =
      match sumI64 env 0 ns with
      | .ok n => .ok (.sum (.integer n))
      | .error e => .error e := by
  have hnum : (present f es).filterMap num? = ns.map .integer := by
    rw [h, List.filterMap_map]
    induction ns with
    | nil => rfl
    | cons n ns ih => simp [num?, Function.comp_def]
  rw [executeSum_of_values env f es ?_ ?_, hnum]
  · rw [(classify_plain (ns.map .integer) (by simp)).2 (by simp)]
    simp only [List.map_map]
    have : ns.map (NumericValue.intOr0 ∘ NumericValue.integer) = ns := by
      have : (NumericValue.intOr0 ∘ NumericValue.integer) = id := by funext n; rfl
      rw [this, List.map_id]
    rw [this]
  · rw [h]; intro v hv
    obtain ⟨n, _, rfl⟩ := List.mem_map.1 hv
    trivial
  · rw [h]; simpa using hne

theorem executeSum_currency (env : Env) (f : FieldId) (es : List Entity) (c : Str) (ds : List Decimal)
    (h : present f es = ds.map (.currency · c)) (hne : ds ≠ []) :
    Aggregation.execute env (.sum (.regular f)) es =
      match sumCurrency env c ⟨0, 0⟩ (ds.map fun d => .currency d c) with
      | .ok d => .ok (.sum (.currency d c))
      | .error e => .error e := by
  have hnum : (present f es).filterMap num? = ds.map fun d => .currency d c := by
    rw [h, List.filterMap_map]
    induction ds with
    | nil => rfl
    | cons n ns ih => simp [num?, Function.comp_def]
  rw [executeSum_of_values env f es ?_ ?_, hnum]
  · obtain ⟨c', d, hm, hc⟩ := classify_currency (ds.map fun d => NumericValue.currency d c)
      (by cases ds with
        | nil => exact absurd rfl hne
        | cons d ds => exact ⟨d, c, by simp⟩) (by simp)
    rw [hc]
    obtain ⟨d', _, hd⟩ := List.mem_map.1 hm
    cases hd
    rfl
  · rw [h]; intro v hv
    obtain ⟨n, _, rfl⟩ := List.mem_map.1 hv
    trivial
  · rw [h]; simpa using hne

/-! ## C37 -/

/-- C37: the sum of an integer field is the exact sum when no partial sum leaves the 64-bit range. -/
theorem C37_integers (env : Env) (f : FieldId) (es : List Entity) (ns : List Int)
    (h : present f es = ns.map .integer) (hfit : PrefixSumsFit ns) :
    Aggregation.execute env (.sum (.regular f)) es = .ok (.sum (.integer (total ns))) := by
  by_cases hne : ns = []
  · subst hne
    have : collectNumericValues f es = .ok [] := by
      rw [collect_ok f es (by simp [h]), h]; rfl
    simp [Aggregation.execute, executeSum, requireRegularField, this, total]
  · rw [executeSum_integers env f es ns h hne]
    have hp : PrefixesOk 0 ns := (prefixesOk_iff ns 0 (by decide)).2 (fun k => by simpa using hfit k)
    rw [sumI64_exact env ns 0 hp, Int.zero_add]

/-- C37: without overflow checks (release builds) the sum is exact modulo 2^64, hence exact whenever
the exact sum is a 64-bit integer, whatever the partial sums are. -/
theorem C37_integers_wrapping (env : Env) (hw : env.overflowChecks = false) (f : FieldId)
    (es : List Entity) (ns : List Int) (h : present f es = ns.map .integer) :
    ∃ n, Aggregation.execute env (.sum (.regular f)) es = .ok (.sum (.integer n)) ∧
      -(2 ^ 63) ≤ n ∧ n < 2 ^ 63 ∧ (n - total ns) % 2 ^ 64 = 0 := by
  by_cases hne : ns = []
  · subst hne
    have : collectNumericValues f es = .ok [] := by
      rw [collect_ok f es (by simp [h]), h]; rfl
    exact ⟨0, by simp [Aggregation.execute, executeSum, requireRegularField, this], by decide, by decide,
      by decide⟩
  · rw [executeSum_integers env f es ns h hne, sumI64_wrap env hw ns 0 (by decide)]
    refine ⟨_, rfl, ?_, ?_, ?_⟩ <;> unfold wrapI64 <;> omega

/-- C37: the sum of a currency field with one code is the exact sum in that code.  Missing: amounts whose
sum leaves the range of the decimal type (`C37_currency_overflow`). -/
theorem C37_currency_partial (env : Env) (f : FieldId) (es : List Entity) (c : Str) (ds : List Decimal)
    (h : present f es = ds.map (.currency · c)) (hne : ds ≠ []) (hs : Summable ds) :
    ∃ d, Aggregation.execute env (.sum (.regular f)) es = .ok (.sum (.currency d c)) ∧
      d.val = totalAmount ds := by
  rw [executeSum_currency env f es c ds h hne]
  obtain ⟨s, hs28, hsc, hw⟩ := hs
  obtain ⟨r, hr, hv⟩ := sumCurrency_exact env c s hs28 ds ⟨0, 0⟩ (by simp) hsc (by simpa using hw)
  rw [hr]
  refine ⟨r, rfl, ?_⟩
  rw [hv]; simp [Decimal.val]

/-- C37: with no values at all the sum is the integer 0. -/
theorem C37_empty (env : Env) (f : FieldId) (es : List Entity) (h : present f es = []) :
    Aggregation.execute env (.sum (.regular f)) es = .ok (.sum (.integer 0)) := by
  have : collectNumericValues f es = .ok [] := by
    rw [collect_ok f es (by simp [h]), h]; rfl
  simp [Aggregation.execute, executeSum, requireRegularField, this]

/-- C37: entities without the field do not contribute. -/
theorem C37_missing (env : Env) (f : FieldId) (es es' : List Entity)
    (h : present f es = present f es') :
    Aggregation.execute env (.sum (.regular f)) es = Aggregation.execute env (.sum (.regular f)) es' := by
  have : collectNumericValues f es = collectNumericValues f es' := by
    have key : ∀ es, collectNumericValues f es =
        collectNumericValues f ((present f es).map fun v => ⟨[], [], [(f, v)]⟩) := by
      intro es
      induction es with
      | nil => rfl
      | cons e es ih =>
        cases hv : e.getField f with
        | none =>
          have hp : present f (e :: es) = present f es := by simp [present, hv]
          rw [hp, ← ih]
          simp [collectNumericValues, hv]
        | some v =>
          have hp : present f (e :: es) = v :: present f es := by simp [present, hv]
          rw [hp]
          have hg : Entity.getField ⟨[], [], [(f, v)]⟩ f = some v := by simp [Entity.getField]
          simp only [List.map_cons, collectNumericValues, hv, hg, ← ih]
    rw [key es, key es', h]
  simp only [Aggregation.execute, executeSum, requireRegularField, this]

def exAmount (id : String) (v : FieldValue) : Entity := ⟨id.toList, "x".toList, [("a".toList, v)]⟩
example : Aggregation.execute exEnv (.sum (.regular "a".toList))
    [exAmount "1" (.currency ⟨150, 2⟩ "EUR".toList), exTask,
      exAmount "2" (.currency ⟨-25, 1⟩ "EUR".toList)] =
    .ok (.sum (.currency ⟨-100, 2⟩ "EUR".toList)) := by decide
example : PrefixSumsFit [2 ^ 62, -5, 2 ^ 62] := by
  have : PrefixesOk 0 [2 ^ 62, -5, 2 ^ 62] := by simp [PrefixesOk]; decide
  intro k
  simpa using (prefixesOk_iff _ 0 (by decide)).1 this k
example : Summable [⟨150, 2⟩, ⟨-25, 1⟩] :=
  ⟨2, by decide, by decide, by decide⟩
example : Aggregation.execute { exEnv with overflowChecks := false } (.sum (.regular "a".toList))
    [exAmount "1" (.integer (2 ^ 62)), exAmount "2" (.integer (2 ^ 62)),
      exAmount "3" (.integer (-5))] = .ok (.sum (.integer (2 ^ 63 - 5))) := by decide

/-- C37 is false for currencies when the sum leaves the range of the decimal type and the library gives
up: the program panics. -/
theorem C37_currency_overflow : ∃ (env : Env) (f : FieldId) (es : List Entity) (ds : List Decimal) (c : Str),
    present f es = ds.map (.currency · c) ∧ (∀ d ∈ ds, d.fits = true) ∧
    Aggregation.execute env (.sum (.regular f)) es = .error .panic :=
  ⟨exEnv, "a".toList, [exAmount "1" (.currency ⟨2 ^ 95, 0⟩ "EUR".toList),
    exAmount "2" (.currency ⟨2 ^ 95, 0⟩ "EUR".toList)], [⟨2 ^ 95, 0⟩, ⟨2 ^ 95, 0⟩], "EUR".toList,
    by decide, by decide, by decide⟩

/-! ## C38 -/

/-- C38: any value that is not a number makes `sum` fail, naming the type of the first one. -/
theorem C38_non_numeric (env : Env) (f : FieldId) (es : List Entity)
    (h : ∃ v ∈ present f es, ¬ IsNumber v) :
    ∃ pre v post, present f es = pre ++ v :: post ∧ (∀ w ∈ pre, IsNumber w) ∧ ¬ IsNumber v ∧
      Aggregation.execute env (.sum (.regular f)) es =
        .error (.invalidAggregation (.nonNumeric f v.getType)) := by
  have h' : ¬ ∀ v ∈ present f es, IsNumber v := by
    intro hc; obtain ⟨v, hv, hn⟩ := h; exact hn (hc v hv)
  obtain ⟨pre, v, post, e1, e2, e3, e4⟩ := collect_err f es h'
  exact ⟨pre, v, post, e1, e2, e3, by
    simp only [Aggregation.execute, executeSum, requireRegularField, e4]⟩

/-- C38: currency amounts together with plain numbers make `sum` fail. -/
theorem C38_currency_and_number (env : Env) (f : FieldId) (es : List Entity)
    (h : ∀ v ∈ present f es, IsNumber v) (hc : ∃ d c, FieldValue.currency d c ∈ present f es)
    (hp : ∃ v ∈ present f es, IsPlain v) :
    Aggregation.execute env (.sum (.regular f)) es =
      .error (.invalidAggregation .mixedCurrencyAndNumber) := by
  have hne : present f es ≠ [] := by
    obtain ⟨d, c, hm⟩ := hc; exact List.ne_nil_of_mem hm
  rw [executeSum_of_values env f es h hne, classify_mixed]
  · obtain ⟨d, c, hm⟩ := hc; exact ⟨d, c, mem_nums_currency.2 hm⟩
  · obtain ⟨v, hv, hp⟩ := hp
    cases v <;> simp [IsPlain] at hp
    · exact .inl ⟨_, mem_nums_integer.2 hv⟩
    · exact .inr ⟨_, mem_nums_float.2 hv⟩

/-- C38: two different currency codes make `sum` fail (with the mixed-currencies error, unless the
amounts before already exceed the decimal range). -/
theorem C38_mixed_codes (env : Env) (f : FieldId) (es : List Entity) (d d' : Decimal) (c c' : Str)
    (hne : c ≠ c') (h1 : FieldValue.currency d c ∈ present f es)
    (h2 : FieldValue.currency d' c' ∈ present f es) :
    ∃ e, Aggregation.execute env (.sum (.regular f)) es = .error e ∧
      ((∀ v ∈ present f es, ∃ d c, v = .currency d c) → e ≠ .panic →
        ∃ x y, x ≠ y ∧ e = .invalidAggregation (.mixedCurrencies x y) ∧
          (∃ d, FieldValue.currency d x ∈ present f es) ∧
          ∃ d, FieldValue.currency d y ∈ present f es) := by
  by_cases hnum : ∀ v ∈ present f es, IsNumber v
  · by_cases hp : ∃ v ∈ present f es, IsPlain v
    · refine ⟨_, C38_currency_and_number env f es hnum ⟨d, c, h1⟩ hp, ?_⟩
      intro hall _
      obtain ⟨v, hv, hpl⟩ := hp
      obtain ⟨d, c, rfl⟩ := hall v hv
      exact absurd hpl (by simp [IsPlain])
    · have hnp : ¬ ((∃ n, NumericValue.integer n ∈ (present f es).filterMap num?) ∨
          ∃ x, NumericValue.float x ∈ (present f es).filterMap num?) := by
        rintro (⟨n, hn⟩ | ⟨x, hx⟩)
        · exact hp ⟨_, mem_nums_integer.1 hn, trivial⟩
        · exact hp ⟨_, mem_nums_float.1 hx, trivial⟩
      obtain ⟨ce, de, hm, hcl⟩ := classify_currency ((present f es).filterMap num?)
        ⟨d, c, mem_nums_currency.2 h1⟩ hnp
      have hex : ∃ d0 c0, NumericValue.currency d0 c0 ∈ (present f es).filterMap num? ∧ c0 ≠ ce := by
        by_cases hce : c = ce
        · exact ⟨d', c', mem_nums_currency.2 h2, by rw [← hce]; exact Ne.symm hne⟩
        · exact ⟨d, c, mem_nums_currency.2 h1, hce⟩
      obtain ⟨e, he, hcase⟩ := sumCurrency_mixed env ce _ ⟨0, 0⟩ hex
      refine ⟨e, ?_, ?_⟩
      · rw [executeSum_of_values env f es hnum (List.ne_nil_of_mem h1), hcl]
        simp only [he]
      · intro _ hnp
        rcases hcase with hpan | ⟨dy, y, hy, hyne, rfl⟩
        · exact absurd hpan hnp
        · exact ⟨ce, y, Ne.symm hyne, rfl, ⟨de, mem_nums_currency.1 hm⟩, ⟨dy, mem_nums_currency.1 hy⟩⟩
  · have hx : ∃ v ∈ present f es, ¬ IsNumber v := by
      by_contra hcon
      exact hnum (fun v hv => by by_contra hn; exact hcon ⟨v, hv, hn⟩)
    obtain ⟨pre, v, post, e1, _, e3, e4⟩ := C38_non_numeric env f es hx
    refine ⟨_, e4, ?_⟩
    intro hall _
    obtain ⟨d, c, rfl⟩ := hall v (by rw [e1]; simp)
    exact absurd trivial e3

/-- C38: in all remaining cases `sum` succeeds: plain numbers with at least one float give a float;
integers and single-code currency are covered by C37. -/
theorem C38_floats (env : Env) (f : FieldId) (es : List Entity)
    (h : ∀ v ∈ present f es, IsPlain v) (hf : ∃ x, FieldValue.float x ∈ present f es) :
    ∃ x, Aggregation.execute env (.sum (.regular f)) es = .ok (.sum (.float x)) := by
  obtain ⟨x, hx⟩ := hf
  rw [executeSum_of_values env f es
    (fun v hv => by have := h v hv; cases v <;> simp_all [IsPlain, IsNumber]) (List.ne_nil_of_mem hx),
    (classify_plain _ ?_).1 ⟨x, mem_nums_float.2 hx⟩]
  · exact ⟨_, rfl⟩
  · rintro ⟨d, c, hd⟩
    exact absurd (h _ (mem_nums_currency.1 hd)) (by simp [IsPlain])

theorem perm_map_inj {α β : Type} {g : α → β} (hg : ∀ a b, g a = g b → a = b) {l : List β}
    {xs : List α} (h : l.Perm (xs.map g)) : ∃ ys : List α, l = ys.map g ∧ ys.Perm xs := by
  have hall : ∀ b ∈ l, ∃ a, b = g a := by
    intro b hb
    obtain ⟨a, _, rfl⟩ := List.mem_map.1 (h.mem_iff.1 hb)
    exact ⟨a, rfl⟩
  have : ∃ ys : List α, l = ys.map g := by
    clear h
    induction l with
    | nil => exact ⟨[], rfl⟩
    | cons b l ih =>
      obtain ⟨a, rfl⟩ := hall b (by simp)
      obtain ⟨ys, rfl⟩ := ih (fun b hb => hall b (by simp [hb]))
      exact ⟨a :: ys, rfl⟩
  obtain ⟨ys, rfl⟩ := this
  refine ⟨ys, rfl, ?_⟩
  exact (List.map_perm_map_iff (fun a b h => hg a b h)).1 h

/-- C38: for integers of moderate total size the outcome does not depend on the order of the
entities.  Missing: larger ones, for which it does when overflow is checked (`C38_overflow_order`). -/
theorem C38_integer_order_partial (env : Env) (f : FieldId) (es es' : List Entity) (ns : List Int)
    (hp : es.Perm es') (h : present f es = ns.map .integer) (hsize : absTotal ns < 2 ^ 63) :
    Aggregation.execute env (.sum (.regular f)) es = Aggregation.execute env (.sum (.regular f)) es' := by
  have hp' : (present f es').Perm (ns.map .integer) := by
    rw [← h]; exact (hp.symm.filterMap _)
  obtain ⟨ms, hms, hperm⟩ := perm_map_inj (fun a b h => by cases h; rfl) hp'
  have fit : ∀ l : List Int, absTotal l < 2 ^ 63 → PrefixSumsFit l := by
    intro l hl k
    have := (prefixesOk_iff l 0 (by decide)).1 (prefixesOk_of_abs l 0 (by simpa using hl)) k
    simpa using this
  rw [C37_integers env f es ns h (fit ns hsize),
    C37_integers env f es' ms hms (fit ms (by rw [absTotal_perm hperm]; exact hsize)),
    total_perm hperm]

/-- C38: without overflow checks this holds for all integers. -/
theorem C38_integer_order_wrapping (env : Env) (hw : env.overflowChecks = false) (f : FieldId)
    (es es' : List Entity) (ns : List Int) (hp : es.Perm es') (h : present f es = ns.map .integer) :
    Aggregation.execute env (.sum (.regular f)) es = Aggregation.execute env (.sum (.regular f)) es' := by
  have hp' : (present f es').Perm (ns.map .integer) := by
    rw [← h]; exact (hp.symm.filterMap _)
  obtain ⟨ms, hms, hperm⟩ := perm_map_inj (fun a b h => by cases h; rfl) hp'
  obtain ⟨m, hm, l1, u1, e1⟩ := C37_integers_wrapping env hw f es ns h
  obtain ⟨n, hn, l2, u2, e2⟩ := C37_integers_wrapping env hw f es' ms hms
  rw [total_perm hperm] at e2
  rw [hm, hn]
  have : m = n := by omega
  rw [this]

/-- C38: for amounts of one currency the summed amount does not depend on the order of the entities.
Missing: amounts whose sum leaves the range of the decimal type (`C37_currency_overflow`). -/
theorem C38_currency_order_partial (env : Env) (f : FieldId) (es es' : List Entity) (c : Str)
    (ds : List Decimal) (hp : es.Perm es') (h : present f es = ds.map (.currency · c)) (hne : ds ≠ [])
    (hs : Summable ds) :
    ∃ d d', Aggregation.execute env (.sum (.regular f)) es = .ok (.sum (.currency d c)) ∧
      Aggregation.execute env (.sum (.regular f)) es' = .ok (.sum (.currency d' c)) ∧
      d.val = d'.val := by
  have hp' : (present f es').Perm (ds.map (.currency · c)) := by
    rw [← h]; exact (hp.symm.filterMap _)
  obtain ⟨ms, hms, hperm⟩ := perm_map_inj (fun a b h => by cases h; rfl) hp'
  have hs' : Summable ms := by
    obtain ⟨s, h1, h2, h3⟩ := hs
    exact ⟨s, h1, fun d hd => h2 d (hperm.mem_iff.1 hd), by rw [weight_perm s hperm]; exact h3⟩
  have hne' : ms ≠ [] := by
    rintro rfl; exact hne hperm.nil_eq.symm
  obtain ⟨d, e1, v1⟩ := C37_currency_partial env f es c ds h hne hs
  obtain ⟨d', e2, v2⟩ := C37_currency_partial env f es' c ms hms hne' hs'
  exact ⟨d, d', e1, e2, by rw [v1, v2, totalAmount_perm hperm]⟩

/-- With overflow checks the order matters once partial sums overflow. -/
theorem C38_overflow_order : ∃ (env : Env) (f : FieldId) (es es' : List Entity), es.Perm es' ∧
    Aggregation.execute env (.sum (.regular f)) es = .ok (.sum (.integer (2 ^ 62))) ∧
    Aggregation.execute env (.sum (.regular f)) es' = .error .panic :=
  ⟨exEnv, "a".toList,
    [exAmount "1" (.integer (2 ^ 62)), exAmount "3" (.integer (-(2 ^ 62))),
      exAmount "2" (.integer (2 ^ 62))],
    [exAmount "1" (.integer (2 ^ 62)), exAmount "2" (.integer (2 ^ 62)),
      exAmount "3" (.integer (-(2 ^ 62)))], by decide, by decide, by decide⟩

example : Aggregation.execute exEnv (.sum (.regular "a".toList))
    [exAmount "1" (.currency ⟨1, 0⟩ "EUR".toList), exAmount "2" (.integer 1)] =
    .error (.invalidAggregation .mixedCurrencyAndNumber) := by decide
example : Aggregation.execute exEnv (.sum (.regular "a".toList))
    [exAmount "1" (.currency ⟨1, 0⟩ "EUR".toList), exAmount "2" (.currency ⟨1, 0⟩ "USD".toList)] =
    .error (.invalidAggregation (.mixedCurrencies "USD".toList "EUR".toList)) := by decide
example : absTotal [2 ^ 61, -(2 ^ 61), 7] < 2 ^ 63 := by decide

/-! ## C39 -/

/-- The numbers `average` and `median` work on. -/
def asFloats (env : Env) (vs : List FieldValue) : List F64 :=
  vs.filterMap fun
    | .integer n => some (F64.ofInt n)
    | .float x => some x
    | .currency d _ => some ((env.decToF64 d).getD (.fin 0))
    | _ => none

theorem asFloats_eq (env : Env) (vs : List FieldValue) :
    (vs.filterMap num?).map (·.asF64 env) = asFloats env vs := by
  unfold asFloats
  induction vs with
  | nil => rfl
  | cons v vs ih => cases v <;> simp_all [num?, NumericValue.asF64, List.filterMap_cons]

theorem nums_isEmpty {vs : List FieldValue} (h : ∀ v ∈ vs, IsNumber v) :
    (vs.filterMap num?).isEmpty = vs.isEmpty := by
  cases vs with
  | nil => rfl
  | cons v vs =>
    have := num?_isSome.2 (h v (by simp))
    obtain ⟨x, hx⟩ := Option.isSome_iff_exists.1 this
    simp [hx]

/-- C39: `average` and `median` fail exactly when the field is metadata, some value is not a number,
or no entity has the field. -/
theorem C39_failure (env : Env) (field : FieldRef) (es : List Entity) :
    ((∃ e, Aggregation.execute env (.average field) es = .error e) ↔
      (∃ m, field = .metadata m) ∨ ∃ f, field = .regular f ∧
        (present f es = [] ∨ ∃ v ∈ present f es, ¬ IsNumber v)) ∧
    ((∃ e, Aggregation.execute env (.median field) es = .error e) ↔
      (∃ m, field = .metadata m) ∨ ∃ f, field = .regular f ∧
        (present f es = [] ∨ ∃ v ∈ present f es, ¬ IsNumber v)) := by
  cases field with
  | metadata m =>
    simp [Aggregation.execute, executeAverage, executeMedian, requireRegularField]
  | regular f =>
    by_cases h : ∀ v ∈ present f es, IsNumber v
    · have hno : ¬ ∃ v ∈ present f es, ¬ IsNumber v := by
        rintro ⟨v, hv, hn⟩; exact hn (h v hv)
      simp only [Aggregation.execute, executeAverage, executeMedian, requireRegularField,
        collect_ok f es h, nums_isEmpty h]
      cases hp : present f es with
      | nil => simp [hp]
      | cons v vs =>
        rw [hp] at hno
        simp only [List.isEmpty_cons, Bool.false_eq_true, if_false]
        simp only [reduceCtorEq, exists_false, false_iff, false_or, FieldRef.regular.injEq]
        constructor <;>
        · rintro ⟨g, rfl, hh⟩
          exact hno (hh.resolve_left (by simp [hp]) |> fun x => by rwa [hp] at x)
    · obtain ⟨pre, v, post, e1, _, e3, e4⟩ := collect_err f es h
      have hex : ∃ v ∈ present f es, ¬ IsNumber v := ⟨v, by rw [e1]; simp, e3⟩
      simp only [Aggregation.execute, executeAverage, executeMedian, requireRegularField, e4]
      constructor
      · exact ⟨fun _ => .inr ⟨f, rfl, .inr hex⟩, fun _ => ⟨_, rfl⟩⟩
      · exact ⟨fun _ => .inr ⟨f, rfl, .inr hex⟩, fun _ => ⟨_, rfl⟩⟩

/-- C39: the average of integers of moderate total size is the correctly rounded exact average. -/
theorem C39_average_integers (env : Env) (f : FieldId) (es : List Entity) (ns : List Int)
    (h : present f es = ns.map .integer) (hne : ns ≠ []) (hsize : absTotal ns ≤ 2 ^ 53) :
    Aggregation.execute env (.average (.regular f)) es =
      .ok (.average (F64.rnd ((total ns : Rat) / (ns.length : Rat)))) := by
  have hnum : ∀ v ∈ present f es, IsNumber v := by
    rw [h]; intro v hv
    obtain ⟨n, _, rfl⟩ := List.mem_map.1 hv
    trivial
  have hnums : (present f es).filterMap num? = ns.map .integer := by
    rw [h, List.filterMap_map]
    clear h hne hsize hnum
    induction ns with
    | nil => rfl
    | cons n ns ih => simp [num?, Function.comp_def]
  have hfold : ∀ (l : List Int) (acc : Int), acc.natAbs + absTotal l ≤ 2 ^ 53 →
      (l.map F64.ofInt).foldl F64.add (.fin acc) = .fin ((acc + total l : Int) : Rat) := by
    intro l
    induction l with
    | nil => intro acc _; simp [total]
    | cons n l ih =>
      intro acc hb
      simp only [absTotal] at hb
      rw [List.map_cons, List.foldl_cons, F64.ofInt_exact (by omega)]
      have : F64.add (.fin acc) (.fin n) = .fin ((acc + n : Int) : Rat) := by
        simp only [F64.add]
        rw [show (acc : Rat) + (n : Rat) = ((acc + n : Int) : Rat) by push_cast; rfl]
        exact F64.ofInt_exact (by omega)
      rw [this, ih (acc + n) (by omega), total, Int.add_assoc]
  have hsum : sumF64 (ns.map F64.ofInt) = .fin (total ns : Rat) := by
    cases ns with
    | nil => exact absurd rfl hne
    | cons n l =>
      simp only [absTotal] at hsize
      unfold sumF64
      rw [List.map_cons, List.foldl_cons, F64.ofInt_exact (by omega)]
      have : F64.add .negZero (.fin (n : Rat)) = .fin n := rfl
      rw [this, hfold l n hsize, total]
  simp only [Aggregation.execute, executeAverage, requireRegularField, collect_ok f es hnum, hnums,
    List.map_map, List.length_map]
  have hcomp : (ns.map ((fun x => NumericValue.asF64 env x) ∘ NumericValue.integer)) =
      ns.map F64.ofInt := rfl
  rw [hcomp, hsum]
  have hemp : (ns.map NumericValue.integer).isEmpty = false := by
    cases ns <;> simp_all
  rw [hemp]
  simp only [Bool.false_eq_true, if_false, Except.ok.injEq, AggregationResult.average.injEq, F64.divPos]
  split
  · rename_i h0; rw [h0]; simp [F64.rnd]
  · rfl

open Classical in
/-- How many of the numbers are not greater than `m`. -/
noncomputable def atMost (m : F64) (xs : List F64) : Nat :=
  xs.countP fun x => decide (FloatNotAfter x m)
open Classical in
/-- How many of the numbers are not smaller than `m`. -/
noncomputable def atLeast (m : F64) (xs : List F64) : Nat :=
  xs.countP fun x => decide (FloatNotAfter m x)

theorem medianLe_spec {a b : F64} (ha : a ≠ .nan) (hb : b ≠ .nan) :
    medianLe a b = true ↔ FloatNotAfter a b := by
  rw [medianLe_iff ha hb, float_isLE]

theorem executeMedian_eq (env : Env) (f : FieldId) (es : List Entity)
    (h : ∀ v ∈ present f es, IsNumber v) (hne : present f es ≠ []) :
    Aggregation.execute env (.median (.regular f)) es =
      .ok (.median (medianOf (stableSort medianLe (asFloats env (present f es))))) := by
  simp only [Aggregation.execute, executeMedian, requireRegularField, collect_ok f es h,
    nums_isEmpty h, asFloats_eq]
  have : (present f es).isEmpty = false := by cases hp : present f es <;> simp_all
  rw [this]; simp

theorem getD_lt {α : Type} {s : List α} {i : Nat} {d : α} (h : i < s.length) :
    s.getD i d = s[i] := by simp [List.getD, h]

open Classical in
/-- Positions in a sorted list: everything up to position `i` is not greater than the element there,
everything from it on is not smaller. -/
theorem sorted_counts {xs s : List F64} (hn : ∀ x ∈ xs, x ≠ .nan) (hp : s.Perm xs)
    (hs : s.Pairwise fun a b => medianLe a b = true) {i : Nat} (hi : i < s.length) :
    i + 1 ≤ atMost s[i] xs ∧ s.length - i ≤ atLeast s[i] xs := by
  have hns : ∀ x ∈ s, x ≠ .nan := fun x hx => hn x (hp.mem_iff.1 hx)
  have hrefl : ∀ x ∈ s, FloatNotAfter x x := fun x hx =>
    (medianLe_spec (hns x hx) (hns x hx)).1 (medianLe_preorder.refl (hns x hx))
  constructor
  · unfold atMost
    rw [← hp.countP_eq]
    have htake : ∀ x ∈ s.take (i + 1), (decide (FloatNotAfter x s[i]) : Bool) = true := by
      intro x hx
      rw [decide_eq_true_eq]
      obtain ⟨j, hj, rfl⟩ := List.getElem_of_mem hx
      rw [List.length_take] at hj
      rw [List.getElem_take]
      by_cases hji : j = i
      · subst hji; exact hrefl _ (List.getElem_mem hi)
      · have := List.pairwise_iff_getElem.1 hs j i (by omega) hi (by omega)
        exact (medianLe_spec (hns _ (List.getElem_mem _)) (hns _ (List.getElem_mem _))).1 this
    have h1 := List.countP_eq_length.2 htake
    have h2 := (List.take_sublist (i + 1) s).countP_le (p := fun x => decide (FloatNotAfter x s[i]))
    rw [List.length_take] at h1
    omega
  · unfold atLeast
    rw [← hp.countP_eq]
    have hdrop : ∀ x ∈ s.drop i, (decide (FloatNotAfter s[i] x) : Bool) = true := by
      intro x hx
      rw [decide_eq_true_eq]
      obtain ⟨j, hj, rfl⟩ := List.getElem_of_mem hx
      rw [List.length_drop] at hj
      rw [List.getElem_drop]
      by_cases hj0 : j = 0
      · subst hj0; exact hrefl _ (List.getElem_mem hi)
      · have := List.pairwise_iff_getElem.1 hs i (i + j) hi (by omega) (by omega)
        exact (medianLe_spec (hns _ (List.getElem_mem _)) (hns _ (List.getElem_mem _))).1 this
    have h1 := List.countP_eq_length.2 hdrop
    have h2 := (List.drop_sublist i s).countP_le (p := fun x => decide (FloatNotAfter s[i] x))
    rw [List.length_drop] at h1
    omega

/-- C39: the median of an odd number of values is one of them, at least half of the values are not
greater and at least half are not smaller. -/
theorem C39_median_odd (env : Env) (f : FieldId) (es : List Entity)
    (h : ∀ v ∈ present f es, IsNumber v)
    (hn : ∀ x ∈ asFloats env (present f es), x ≠ .nan)
    (hodd : (asFloats env (present f es)).length % 2 = 1) :
    ∃ m ∈ asFloats env (present f es),
      Aggregation.execute env (.median (.regular f)) es = .ok (.median m) ∧
      (asFloats env (present f es)).length ≤ 2 * atMost m (asFloats env (present f es)) ∧
      (asFloats env (present f es)).length ≤ 2 * atLeast m (asFloats env (present f es)) := by
  have hne : present f es ≠ [] := by
    intro hc; rw [hc] at hodd; simp [asFloats] at hodd
  have hp := stableSort_perm medianLe (asFloats env (present f es))
  have hs := stableSort_sorted medianLe_preorder hn
  have hl := hp.length_eq
  rw [executeMedian_eq env f es h hne]
  generalize asFloats env (present f es) = xs at *
  generalize stableSort medianLe xs = s at *
  have hi : s.length / 2 < s.length := by omega
  refine ⟨s[s.length / 2], hp.mem_iff.1 (List.getElem_mem _), ?_, ?_, ?_⟩
  · simp only [medianOf]
    rw [if_neg (by omega), getD_lt hi]
  · have := (sorted_counts hn hp hs hi).1; omega
  · have := (sorted_counts hn hp hs hi).2; omega

/-- The middle of a list: the element in the middle, or the two in the middle added and halved as floats. -/
def Spec.Middle (s : List F64) (m : F64) : Prop :=
  (s.length % 2 = 1 ∧ s[s.length / 2]? = some m) ∨
    (s.length % 2 = 0 ∧ ∃ a b, s[s.length / 2 - 1]? = some a ∧ s[s.length / 2]? = some b ∧ m = (a.add b).divPos 2)

/-- C39: the median of numbers, none of them NaN, is the middle of the numbers sorted by size. -/
theorem C39_median_middle (env : Env) (f : FieldId) (es : List Entity)
    (h : ∀ v ∈ present f es, IsNumber v) (hne : present f es ≠ [])
    (hn : ∀ x ∈ asFloats env (present f es), x ≠ .nan) :
    ∃ m s, Aggregation.execute env (.median (.regular f)) es = .ok (.median m) ∧
      s.Perm (asFloats env (present f es)) ∧ s.Pairwise FloatNotAfter ∧ Middle s m := by
  have hp := stableSort_perm medianLe (asFloats env (present f es))
  have hs := stableSort_sorted medianLe_preorder hn
  have hne' : asFloats env (present f es) ≠ [] := by
    rw [← asFloats_eq]
    intro hc
    have := nums_isEmpty h
    rw [List.map_eq_nil_iff] at hc
    rw [hc] at this
    exact hne (List.isEmpty_iff.1 this.symm)
  refine ⟨_, _, executeMedian_eq env f es h hne, hp, ?_, ?_⟩
  · refine List.Pairwise.imp_of_mem ?_ hs
    intro a b ha hb hab
    exact (medianLe_spec (hn a (hp.mem_iff.1 ha)) (hn b (hp.mem_iff.1 hb))).1 hab
  · have hl := hp.length_eq
    generalize asFloats env (present f es) = xs at *
    generalize stableSort medianLe xs = s at *
    have hpos : 0 < s.length := by
      rw [hl]; exact List.length_pos_iff.2 hne'
    unfold medianOf
    dsimp only
    split
    · rename_i he
      have h1 : s.length / 2 - 1 < s.length := by omega
      have h2 : s.length / 2 < s.length := by omega
      exact .inr ⟨he, _, _, by rw [getD_lt h1]; exact List.getElem?_eq_getElem h1,
        by rw [getD_lt h2]; exact List.getElem?_eq_getElem h2, rfl⟩
    · have h2 : s.length / 2 < s.length := by omega
      exact .inl ⟨by omega, by rw [getD_lt h2]; exact List.getElem?_eq_getElem h2⟩

/-- A finite binary64 value small enough to be doubled. -/
def Moderate (x : F64) : Prop :=
  ∃ q, finiteValue x = some q ∧ F64.OnGrid q ∧ |q| < F64.pow2 1023

theorem Moderate.ne_nan {x : F64} (h : Moderate x) : x ≠ .nan := by
  rintro rfl; obtain ⟨q, hq, _⟩ := h; simp [finiteValue] at hq

theorem half_between {a b : F64} {p q : Rat} (ha : finiteValue a = some p) (hb : finiteValue b = some q)
    (gp : F64.OnGrid p) (gq : F64.OnGrid q) (bp : |p| < F64.pow2 1023) (bq : |q| < F64.pow2 1023)
    (hpq : p ≤ q) :
    ∃ r, finiteValue ((a.add b).divPos 2) = some r ∧ p ≤ r ∧ r ≤ q := by
  have h2 : F64.pow2 1024 = 2 * F64.pow2 1023 := by
    rw [show (1024 : Int) = 1 + 1023 by norm_num, F64.pow2_add]
    congr 1
  have dbl : ∀ x : Rat, |x| < F64.pow2 1023 → |2 * x| < F64.pow2 1024 := by
    intro x hx; rw [abs_mul, h2]; norm_num; linarith
  have big : ∀ x : Rat, |x| < F64.pow2 1023 → |x| < F64.pow2 1024 := by
    intro x hx; rw [h2]; have := F64.pow2_pos 1023; linarith
  have hdiv : ∀ v : Rat, 2 * p ≤ v → v ≤ 2 * q → ∃ r, finiteValue ((F64.fin v).divPos 2) = some r ∧
      p ≤ r ∧ r ≤ q := by
    intro v h1 h2
    simp only [F64.divPos]
    by_cases h0 : v = 0
    · rw [if_pos h0]; exact ⟨0, rfl, by linarith, by linarith⟩
    · rw [if_neg h0]
      obtain ⟨r, hr, l, u⟩ := F64.rnd_between gp gq (big p bp) (big q bq)
        (show p ≤ v / 2 by linarith) (show v / 2 ≤ q by linarith)
      refine ⟨r, ?_, l, u⟩
      rcases hr with hr | ⟨hr, rfl⟩ <;> rw [hr] <;> rfl
  have hfin : ∀ v : Rat, v = p + q → ∃ r, finiteValue ((F64.rnd v).divPos 2) = some r ∧
      p ≤ r ∧ r ≤ q := by
    intro v hv
    obtain ⟨w, hw, l, u⟩ := F64.rnd_between gp.double gq.double (dbl p bp) (dbl q bq)
      (show 2 * p ≤ v by linarith) (show v ≤ 2 * q by linarith)
    rcases hw with hw | ⟨hw, rfl⟩
    · rw [hw]; exact hdiv w l u
    · rw [hw]; exact ⟨0, rfl, by linarith, by linarith⟩
  cases a <;> simp [finiteValue] at ha <;> cases b <;> simp [finiteValue] at hb
  · subst ha; subst hb
    exact ⟨0, rfl, by linarith, by linarith⟩
  · subst ha; subst hb
    exact hdiv _ (by linarith) (by linarith)
  · subst ha; subst hb
    exact hdiv _ (by linarith) (by linarith)
  · subst ha; subst hb
    exact hfin _ rfl

theorem floatNotAfter_finite {a b : F64} {p q : Rat} (ha : finiteValue a = some p)
    (hb : finiteValue b = some q) : FloatNotAfter a b ↔ p ≤ q := by
  unfold FloatNotAfter
  cases a <;> simp [finiteValue] at ha <;> cases b <;> simp [finiteValue] at hb <;>
    subst ha <;> subst hb <;> simp [finiteValue]

/-- C39: the median of an even number of values lies between two of the values, the middle ones: at
least half of the values are not greater than the lower one, at least half not smaller than the upper
one. -/
theorem C39_median_even (env : Env) (f : FieldId) (es : List Entity)
    (h : ∀ v ∈ present f es, IsNumber v) (hne : present f es ≠ [])
    (hm : ∀ x ∈ asFloats env (present f es), Moderate x)
    (heven : (asFloats env (present f es)).length % 2 = 0) :
    ∃ a ∈ asFloats env (present f es), ∃ b ∈ asFloats env (present f es), ∃ m,
      Aggregation.execute env (.median (.regular f)) es = .ok (.median m) ∧
      FloatNotAfter a m ∧ FloatNotAfter m b ∧
      (asFloats env (present f es)).length ≤ 2 * atMost a (asFloats env (present f es)) ∧
      (asFloats env (present f es)).length ≤ 2 * atLeast b (asFloats env (present f es)) := by
  have hn : ∀ x ∈ asFloats env (present f es), x ≠ .nan := fun x hx => (hm x hx).ne_nan
  have hpos : 0 < (asFloats env (present f es)).length := by
    rw [← asFloats_eq, List.length_map]
    have := nums_isEmpty h
    cases hp : (present f es).filterMap num? with
    | nil => rw [hp] at this; cases hq : present f es <;> simp_all
    | cons _ _ => simp
  have hp := stableSort_perm medianLe (asFloats env (present f es))
  have hs := stableSort_sorted medianLe_preorder hn
  have hl := hp.length_eq
  rw [executeMedian_eq env f es h hne]
  generalize asFloats env (present f es) = xs at *
  generalize stableSort medianLe xs = s at *
  have hi : s.length / 2 - 1 < s.length := by omega
  have hj : s.length / 2 < s.length := by omega
  have ma := hp.mem_iff.1 (List.getElem_mem hi)
  have mb := hp.mem_iff.1 (List.getElem_mem hj)
  obtain ⟨p, ep, gp, bp⟩ := hm _ ma
  obtain ⟨q, eq, gq, bq⟩ := hm _ mb
  have hab := List.pairwise_iff_getElem.1 hs _ _ hi hj (by omega)
  rw [medianLe_spec (hn _ ma) (hn _ mb), floatNotAfter_finite ep eq] at hab
  obtain ⟨r, er, l, u⟩ := half_between ep eq gp gq bp bq hab
  refine ⟨_, ma, _, mb, _, ?_, (floatNotAfter_finite ep er).2 l, (floatNotAfter_finite er eq).2 u, ?_, ?_⟩
  · simp only [medianOf]
    rw [if_pos (by omega), getD_lt hi, getD_lt hj]
  · have := (sorted_counts hn hp hs hi).1; omega
  · have := (sorted_counts hn hp hs hj).2; omega

/-- 64-bit integers are moderate, so the theorems apply to all integer columns. -/
theorem moderate_ofInt {n : Int} (h : n.natAbs ≤ 2 ^ 63) : Moderate (F64.ofInt n) := by
  have hb : |(n : ℚ)| ≤ F64.pow2 63 := by
    have h2 : F64.pow2 63 = 2 ^ 63 := by rw [F64.pow2_eq]; norm_num
    rw [h2, abs_le]
    constructor
    · have : -(2 ^ 63 : ℤ) ≤ n := by omega
      exact_mod_cast this
    · have : n ≤ (2 ^ 63 : ℤ) := by omega
      exact_mod_cast this
  have hlt : F64.pow2 63 < F64.pow2 1023 := F64.pow2_lt.2 (by omega)
  have habs : |F64.pow2 63| = F64.pow2 63 := abs_of_pos (F64.pow2_pos _)
  have hpow : |F64.pow2 63| < F64.pow2 1024 := by rw [habs]; exact F64.pow2_lt.2 (by omega)
  rw [abs_le] at hb
  have g := F64.pow2_grid (e := 63) (by omega)
  obtain ⟨v, hv, l, u⟩ := F64.rnd_between g.neg g (by rwa [abs_neg]) hpow hb.1 hb.2
  have hvb : |v| < F64.pow2 1023 := lt_of_le_of_lt (abs_le.2 ⟨l, u⟩) hlt
  rcases hv with hv | ⟨hv, rfl⟩
  · exact ⟨v, by unfold F64.ofInt; rw [hv]; rfl, (F64.rnd_onGrid hv).1, hvb⟩
  · exact ⟨0, by unfold F64.ofInt; rw [hv]; rfl, ⟨0, 0, by simp, by simp, by omega⟩, hvb⟩

/-- C39 is false about currencies: `average` and `median` mix amounts of different currencies, and
currency with plain numbers, silently. -/
theorem C39_mixes_currencies : ∃ (env : Env) (f : FieldId) (a b : Entity) (x y : Decimal) (c d : Str),
    c ≠ d ∧ a.getField f = some (.currency x c) ∧ b.getField f = some (.currency y d) ∧
    (∃ r, Aggregation.execute env (.average (.regular f)) [a, b] = .ok r) ∧
    ∃ r, Aggregation.execute env (.median (.regular f)) [a, b] = .ok r :=
  ⟨exEnv, "a".toList, exAmount "1" (.currency ⟨1, 0⟩ "EUR".toList),
    exAmount "2" (.currency ⟨3, 0⟩ "USD".toList), ⟨1, 0⟩, ⟨3, 0⟩, "EUR".toList, "USD".toList,
    by decide, by decide, by decide, ⟨_, rfl⟩, ⟨_, rfl⟩⟩

/-- C39, partial: for a column of one currency (or without currency) the failure conditions and the
median are as stated; nothing is mixed because there is nothing to mix. Missing: the code does not
reject mixed currencies (`C39_mixes_currencies`). -/
theorem C39_no_mixing_partial (env : Env) (f : FieldId) (es : List Entity) (c : Str)
    (h : ∀ v ∈ present f es, HasCode c v) (hne : present f es ≠ []) :
    (∃ r, Aggregation.execute env (.average (.regular f)) es = .ok (.average r)) ∧
    ∃ r, Aggregation.execute env (.median (.regular f)) es = .ok (.median r) := by
  have hn : ∀ v ∈ present f es, IsNumber v := fun v hv => by
    have := h v hv; cases v <;> simp_all [HasCode, IsNumber]
  refine ⟨?_, _, executeMedian_eq env f es hn hne⟩
  simp only [Aggregation.execute, executeAverage, requireRegularField, collect_ok f es hn,
    nums_isEmpty hn]
  have : (present f es).isEmpty = false := by cases hp : present f es <;> simp_all
  rw [this]; exact ⟨_, rfl⟩

/-- Without the size bound the median of two equal finite numbers can be infinite. -/
theorem C39_median_overflow : ∃ (env : Env) (f : FieldId) (es : List Entity) (q : Rat),
    asFloats env (present f es) = [.fin q, .fin q] ∧ F64.rnd q = .fin q ∧
    Aggregation.execute env (.median (.regular f)) es = .ok (.median (.inf false)) :=
  ⟨exEnv, "a".toList, [exAmount "1" (.float (.fin (2 ^ 1023))), exAmount "2" (.float (.fin (2 ^ 1023)))],
    2 ^ 1023, by decide +kernel, by decide +kernel, by decide +kernel⟩

example : Aggregation.execute exEnv (.median (.regular "a".toList))
    [exAmount "1" (.integer 7), exAmount "2" (.integer 1), exAmount "3" (.float (.fin (5/2)))] =
    .ok (.median (.fin (5/2))) := by decide +kernel
example : Aggregation.execute exEnv (.median (.regular "a".toList))
    [exAmount "1" (.integer 7), exAmount "2" (.integer 1)] = .ok (.median (.fin 4)) := by
  decide +kernel
example : Aggregation.execute exEnv (.average (.regular "a".toList))
    [exAmount "1" (.integer 7), exAmount "2" (.integer 2)] = .ok (.average (.fin (9/2))) := by
  decide +kernel

end Firm
