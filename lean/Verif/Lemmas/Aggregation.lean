import Verif.Spec.Query
import Verif.Lemmas.Values

/-! Lemmas about the aggregations. -/

namespace Firm
open Spec

/-- The numeric value of a field value. -/
def num? : FieldValue → Option NumericValue
  | .integer n => some (.integer n)
  | .float x => some (.float x)
  | .currency d c => some (.currency d c)
  | _ => none

theorem num?_isSome {v : FieldValue} : (num? v).isSome ↔ IsNumber v := by
  cases v <;> simp [num?, IsNumber]

theorem collect_ok (f : FieldId) (es : List Entity) (h : ∀ v ∈ present f es, IsNumber v) :
    collectNumericValues f es = .ok ((present f es).filterMap num?) := by
  induction es with
  | nil => rfl
  | cons e es ih =>
    simp only [collectNumericValues]
    cases hv : e.getField f with
    | none =>
      have hp : present f (e :: es) = present f es := by simp [present, hv]
      rw [hp] at h ⊢
      exact ih h
    | some v =>
      have hp : present f (e :: es) = v :: present f es := by simp [present, hv]
      rw [hp] at h ⊢
      have h1 := h v (by simp)
      rw [ih (fun w hw => h w (by simp [hw]))]
      cases v <;> simp [IsNumber] at h1 <;> simp [numericOf, num?]

theorem collect_err (f : FieldId) (es : List Entity) (h : ¬ ∀ v ∈ present f es, IsNumber v) :
    ∃ pre v post, present f es = pre ++ v :: post ∧ (∀ w ∈ pre, IsNumber w) ∧ ¬ IsNumber v ∧
      collectNumericValues f es = .error (.invalidAggregation (.nonNumeric f v.getType)) := by
  induction es with
  | nil => simp [present] at h
  | cons e es ih =>
    simp only [collectNumericValues]
    cases hv : e.getField f with
    | none =>
      have hp : present f (e :: es) = present f es := by simp [present, hv]
      rw [hp] at h ⊢
      exact ih h
    | some v =>
      have hp : present f (e :: es) = v :: present f es := by simp [present, hv]
      rw [hp] at h ⊢
      by_cases h1 : IsNumber v
      · have h2 : ¬ ∀ v ∈ present f es, IsNumber v := by
          intro hc; apply h; intro w hw
          rcases List.mem_cons.1 hw with rfl | hw
          · exact h1
          · exact hc w hw
        obtain ⟨pre, w, post, e1, e2, e3, e4⟩ := ih h2
        refine ⟨v :: pre, w, post, by simp [e1], ?_, e3, ?_⟩
        · intro u hu
          rcases List.mem_cons.1 hu with rfl | hu
          · exact h1
          · exact e2 u hu
        · cases v <;> simp [IsNumber] at h1 <;> simp [numericOf, e4]
      · refine ⟨[], v, present f es, rfl, by simp, h1, ?_⟩
        cases v <;> simp [IsNumber] at h1 <;> simp [numericOf]

/-! ### Classification -/

theorem classify_fold (vs : List NumericValue) (s : ClassifyState) :
    ((vs.foldl classifyStep s).hasInteger = true ↔
      s.hasInteger = true ∨ ∃ n, NumericValue.integer n ∈ vs) ∧
    ((vs.foldl classifyStep s).hasFloat = true ↔
      s.hasFloat = true ∨ ∃ x, NumericValue.float x ∈ vs) ∧
    ((vs.foldl classifyStep s).currency.isSome = true ↔
      s.currency.isSome = true ∨ ∃ d c, NumericValue.currency d c ∈ vs) ∧
    (∀ c, (vs.foldl classifyStep s).currency = some c →
      s.currency = some c ∨ ∃ d, NumericValue.currency d c ∈ vs) := by
  induction vs generalizing s with
  | nil => simp
  | cons v vs ih =>
    simp only [List.foldl_cons]
    obtain ⟨h1, h2, h3, h4⟩ := ih (classifyStep s v)
    refine ⟨?_, ?_, ?_, ?_⟩
    · rw [h1]
      cases v <;> simp [classifyStep]
    · rw [h2]
      cases v <;> simp [classifyStep]
    · rw [h3]
      cases v <;> simp [classifyStep]
      rename_i d c
      right; exact ⟨d, c, .inl ⟨rfl, rfl⟩⟩
    · intro c hc
      rcases h4 c hc with h | ⟨d, hd⟩
      · cases v <;> simp [classifyStep] at h
        · exact .inl h
        · exact .inl h
        · rename_i d0 c0; subst h; exact .inr ⟨d0, by simp⟩
      · exact .inr ⟨d, by simp [hd]⟩

theorem mem_nums {vs : List FieldValue} {n : NumericValue} :
    n ∈ vs.filterMap num? ↔ ∃ v ∈ vs, num? v = some n := by
  simp [List.mem_filterMap]

theorem mem_nums_integer {vs : List FieldValue} {n : Int} :
    NumericValue.integer n ∈ vs.filterMap num? ↔ FieldValue.integer n ∈ vs := by
  rw [mem_nums]
  constructor
  · rintro ⟨v, hv, h⟩; cases v <;> simp [num?] at h; rw [← h]; exact hv
  · intro h; exact ⟨_, h, rfl⟩
theorem mem_nums_float {vs : List FieldValue} {x : F64} :
    NumericValue.float x ∈ vs.filterMap num? ↔ FieldValue.float x ∈ vs := by
  rw [mem_nums]
  constructor
  · rintro ⟨v, hv, h⟩; cases v <;> simp [num?] at h; rw [← h]; exact hv
  · intro h; exact ⟨_, h, rfl⟩
theorem mem_nums_currency {vs : List FieldValue} {d : Decimal} {c : Str} :
    NumericValue.currency d c ∈ vs.filterMap num? ↔ FieldValue.currency d c ∈ vs := by
  rw [mem_nums]
  constructor
  · rintro ⟨v, hv, h⟩; cases v <;> simp [num?] at h; rw [← h.1, ← h.2]; exact hv
  · intro h; exact ⟨_, h, rfl⟩

/-- The four outcomes of the classification. -/
theorem classify_mixed (vs : List NumericValue) (hc : ∃ d c, NumericValue.currency d c ∈ vs)
    (hn : (∃ n, NumericValue.integer n ∈ vs) ∨ ∃ x, NumericValue.float x ∈ vs) :
    classifyNumericType vs = .error (.invalidAggregation .mixedCurrencyAndNumber) := by
  obtain ⟨h1, h2, h3, _⟩ := classify_fold vs ⟨false, false, none⟩
  simp only [Bool.false_eq_true, false_or, Option.isSome_none] at h1 h2 h3
  unfold classifyNumericType
  have a := h3.2 hc
  have b : ((vs.foldl classifyStep ⟨false, false, none⟩).hasInteger ||
      (vs.foldl classifyStep ⟨false, false, none⟩).hasFloat) = true := by
    rw [Bool.or_eq_true, h1, h2]; exact hn
  simp only [a, b, Bool.and_self, if_true]

theorem classify_currency (vs : List NumericValue) (hc : ∃ d c, NumericValue.currency d c ∈ vs)
    (hn : ¬ ((∃ n, NumericValue.integer n ∈ vs) ∨ ∃ x, NumericValue.float x ∈ vs)) :
    ∃ c d, NumericValue.currency d c ∈ vs ∧ classifyNumericType vs = .ok (.currency c) := by
  obtain ⟨h1, h2, h3, h4⟩ := classify_fold vs ⟨false, false, none⟩
  simp only [Bool.false_eq_true, false_or, Option.isSome_none] at h1 h2 h3
  have a := h3.2 hc
  have b : ((vs.foldl classifyStep ⟨false, false, none⟩).hasInteger ||
      (vs.foldl classifyStep ⟨false, false, none⟩).hasFloat) = false := by
    rw [← Bool.not_eq_true, Bool.or_eq_true, h1, h2]; exact hn
  obtain ⟨c, hcc⟩ := Option.isSome_iff_exists.1 a
  rcases h4 c hcc with h | ⟨d, hd⟩
  · simp at h
  · refine ⟨c, d, hd, ?_⟩
    unfold classifyNumericType
    simp only [b, Bool.and_false, Bool.false_eq_true, if_false, hcc]

theorem classify_plain (vs : List NumericValue) (hc : ¬ ∃ d c, NumericValue.currency d c ∈ vs) :
    ((∃ x, NumericValue.float x ∈ vs) → classifyNumericType vs = .ok .float) ∧
    ((¬ ∃ x, NumericValue.float x ∈ vs) → classifyNumericType vs = .ok .integer) := by
  obtain ⟨h1, h2, h3, h4⟩ := classify_fold vs ⟨false, false, none⟩
  simp only [Bool.false_eq_true, false_or, Option.isSome_none] at h1 h2 h3
  have a : (vs.foldl classifyStep ⟨false, false, none⟩).currency = none := by
    cases hh : (vs.foldl classifyStep ⟨false, false, none⟩).currency with
    | none => rfl
    | some c => exact absurd (h3.1 (by rw [hh]; rfl)) hc
  unfold classifyNumericType
  simp only [a, Option.isSome_none, Bool.false_and, Bool.false_eq_true, if_false]
  constructor
  · intro h; rw [if_pos (h2.2 h)]
  · intro h; rw [if_neg (fun hf => h (h2.1 hf))]

/-! ### Integer sums -/

/-- All prefix sums starting from `acc` stay in range. -/
def PrefixesOk (acc : Int) : List Int → Prop
  | [] => True
  | n :: ns => isI64 (acc + n) = true ∧ PrefixesOk (acc + n) ns

theorem sumI64_exact (env : Env) (ns : List Int) (acc : Int) (h : PrefixesOk acc ns) :
    sumI64 env acc ns = .ok (acc + total ns) := by
  induction ns generalizing acc with
  | nil => simp [sumI64, total]
  | cons n ns ih =>
    simp only [PrefixesOk] at h
    simp only [sumI64, addI64, h.1, if_true, total]
    rw [ih _ h.2, Int.add_assoc]

theorem wrapI64_id {n : Int} (h : isI64 n = true) : wrapI64 n = n := by
  simp only [isI64, Bool.and_eq_true, decide_eq_true_eq] at h
  unfold wrapI64
  omega

theorem wrapI64_isI64 (n : Int) : isI64 (wrapI64 n) = true := by
  simp only [isI64, Bool.and_eq_true, decide_eq_true_eq]
  unfold wrapI64
  omega

theorem wrapI64_add (a b : Int) : wrapI64 (wrapI64 a + b) = wrapI64 (a + b) := by
  unfold wrapI64
  omega

theorem sumI64_wrap (env : Env) (hw : env.overflowChecks = false) (ns : List Int) (acc : Int)
    (ha : isI64 acc = true) : sumI64 env acc ns = .ok (wrapI64 (acc + total ns)) := by
  have hadd : ∀ a b, addI64 env a b = .ok (wrapI64 (a + b)) := by
    intro a b
    unfold addI64
    rw [hw]
    by_cases h : isI64 (a + b) = true
    · rw [if_pos h, wrapI64_id h]
    · rw [if_neg h]; rfl
  induction ns generalizing acc with
  | nil => simp [sumI64, total, wrapI64_id ha]
  | cons n ns ih =>
    simp only [sumI64, hadd, total]
    rw [ih _ (wrapI64_isI64 _), wrapI64_add, Int.add_assoc]

/-- Total size. -/
def absTotal : List Int → Nat
  | [] => 0
  | n :: ns => n.natAbs + absTotal ns

theorem prefixesOk_of_abs (ns : List Int) (acc : Int) (h : acc.natAbs + absTotal ns < 2 ^ 63) :
    PrefixesOk acc ns := by
  induction ns generalizing acc with
  | nil => trivial
  | cons n ns ih =>
    simp only [absTotal] at h
    refine ⟨?_, ih _ (by omega)⟩
    simp only [isI64, Bool.and_eq_true, decide_eq_true_eq]
    omega

theorem total_perm {a b : List Int} (h : a.Perm b) : total a = total b := by
  induction h with
  | nil => rfl
  | cons x _ ih => simp [total, ih]
  | swap x y l => simp only [total]; omega
  | trans _ _ ih1 ih2 => exact ih1.trans ih2

theorem absTotal_perm {a b : List Int} (h : a.Perm b) : absTotal a = absTotal b := by
  induction h with
  | nil => rfl
  | cons x _ ih => simp [absTotal, ih]
  | swap x y l => simp only [absTotal]; omega
  | trans _ _ ih1 ih2 => exact ih1.trans ih2

/-! ### Decimal sums -/

theorem Decimal.addExact_val (a b : Decimal) : (a.addExact b).val = a.val + b.val := by
  unfold Decimal.addExact Decimal.val
  simp only
  have key : ∀ (m : Int) (i s : Nat), i ≤ s →
      ((m * ((10 ^ (s - i) : Nat) : Int) : Int) : ℚ) / ((10 ^ s : Nat) : ℚ) =
        (m : ℚ) / ((10 ^ i : Nat) : ℚ) := by
    intro m i s h
    have e : (10 : ℚ) ^ s = 10 ^ (s - i) * 10 ^ i := by rw [← pow_add]; congr 1; omega
    push_cast
    rw [e]
    have h1 : (10 : ℚ) ^ (s - i) ≠ 0 := by positivity
    have h2 : (10 : ℚ) ^ i ≠ 0 := by positivity
    field_simp
  have h1 := key a.mant a.scale (max a.scale b.scale) (by omega)
  have h2 := key b.mant b.scale (max a.scale b.scale) (by omega)
  rw [← h1, ← h2, ← add_div]
  push_cast
  ring

theorem addDecimal_step (env : Env) (s : Nat) (hs : s ≤ 28) (a b : Decimal) (ha : a.scale ≤ s)
    (hb : b.scale ≤ s) (w : Nat)
    (h : a.mant.natAbs * 10 ^ (s - a.scale) + (b.mant.natAbs * 10 ^ (s - b.scale) + w) < 2 ^ 96) :
    addDecimal env a b = .ok (a.addExact b) ∧ (a.addExact b).scale ≤ s ∧
      (a.addExact b).mant.natAbs * 10 ^ (s - (a.addExact b).scale) + w < 2 ^ 96 := by
  have hS : max a.scale b.scale ≤ s := by omega
  have hm : (a.addExact b).mant.natAbs * 10 ^ (s - max a.scale b.scale) ≤
      a.mant.natAbs * 10 ^ (s - a.scale) + b.mant.natAbs * 10 ^ (s - b.scale) := by
    have h1 : (a.addExact b).mant.natAbs ≤ a.mant.natAbs * 10 ^ (max a.scale b.scale - a.scale) +
        b.mant.natAbs * 10 ^ (max a.scale b.scale - b.scale) := by
      unfold Decimal.addExact
      simp only
      refine Nat.le_trans (Int.natAbs_add_le _ _) ?_
      rw [Int.natAbs_mul, Int.natAbs_mul, Int.natAbs_natCast, Int.natAbs_natCast]
    have e1 : 10 ^ (s - a.scale) =
        10 ^ (max a.scale b.scale - a.scale) * 10 ^ (s - max a.scale b.scale) := by
      rw [← Nat.pow_add]; congr 1; omega
    have e2 : 10 ^ (s - b.scale) =
        10 ^ (max a.scale b.scale - b.scale) * 10 ^ (s - max a.scale b.scale) := by
      rw [← Nat.pow_add]; congr 1; omega
    rw [e1, e2, ← Nat.mul_assoc, ← Nat.mul_assoc, ← Nat.add_mul]
    exact Nat.mul_le_mul_right _ h1
  have hpos : 1 ≤ 10 ^ (s - max a.scale b.scale) := Nat.one_le_pow _ _ (by omega)
  have hmant : (a.addExact b).mant.natAbs < 2 ^ 96 := by
    have := Nat.le_mul_of_pos_right (a.addExact b).mant.natAbs hpos
    omega
  have hscale : (a.addExact b).scale = max a.scale b.scale := rfl
  have hfit : (a.addExact b).fits = true := by
    unfold Decimal.fits
    rw [Bool.and_eq_true, decide_eq_true_eq, decide_eq_true_eq, hscale]
    exact ⟨hmant, by omega⟩
  refine ⟨by unfold addDecimal; rw [if_pos hfit], by rw [hscale]; exact hS, ?_⟩
  rw [hscale]; omega

theorem sumCurrency_exact (env : Env) (c : Str) (s : Nat) (hs : s ≤ 28) (ds : List Decimal)
    (acc : Decimal) (ha : acc.scale ≤ s) (hd : ∀ d ∈ ds, d.scale ≤ s)
    (h : acc.mant.natAbs * 10 ^ (s - acc.scale) + weight s ds < 2 ^ 96) :
    ∃ r, sumCurrency env c acc (ds.map fun d => .currency d c) = .ok r ∧
      r.val = acc.val + totalAmount ds := by
  induction ds generalizing acc with
  | nil => exact ⟨acc, rfl, by simp [totalAmount]⟩
  | cons d ds ih =>
    simp only [weight] at h
    obtain ⟨h1, h2, h3⟩ := addDecimal_step env s hs acc d ha (hd d (by simp)) _ h
    obtain ⟨r, hr, hv⟩ := ih _ h2 (fun x hx => hd x (by simp [hx])) h3
    refine ⟨r, ?_, ?_⟩
    · simp only [List.map_cons, sumCurrency, ne_eq, not_true_eq_false, if_false, h1, hr]
    · rw [hv, Decimal.addExact_val, totalAmount]; ring

theorem sumCurrency_mixed (env : Env) (c : Str) (vs : List NumericValue) (acc : Decimal)
    (h : ∃ d c', NumericValue.currency d c' ∈ vs ∧ c' ≠ c) :
    ∃ e, sumCurrency env c acc vs = .error e ∧
      (e = .panic ∨ ∃ d c', NumericValue.currency d c' ∈ vs ∧ c' ≠ c ∧
        e = .invalidAggregation (.mixedCurrencies c c')) := by
  induction vs generalizing acc with
  | nil => simp at h
  | cons v vs ih =>
    cases v with
    | currency d code =>
      simp only [sumCurrency]
      by_cases hcode : code = c
      · subst hcode
        have h' : ∃ d c', NumericValue.currency d c' ∈ vs ∧ c' ≠ code := by
          obtain ⟨d', c', hm, hne⟩ := h
          rcases List.mem_cons.1 hm with heq | hm
          · cases heq; exact absurd rfl hne
          · exact ⟨d', c', hm, hne⟩
        simp only [ne_eq, not_true_eq_false, if_false]
        cases ha : addDecimal env acc d with
        | error e =>
          refine ⟨e, rfl, .inl ?_⟩
          unfold addDecimal at ha
          split at ha
          · cases ha
          · split at ha <;> cases ha; rfl
        | ok t =>
          obtain ⟨e, he, hcase⟩ := ih t h'
          refine ⟨e, he, ?_⟩
          rcases hcase with hp | ⟨d', c', hm, hne, he'⟩
          · exact .inl hp
          · exact .inr ⟨d', c', by simp [hm], hne, he'⟩
      · refine ⟨.invalidAggregation (.mixedCurrencies c code), ?_, .inr ⟨d, code, by simp, hcode, rfl⟩⟩
        simp [hcode]
    | integer n =>
      have h' : ∃ d c', NumericValue.currency d c' ∈ vs ∧ c' ≠ c := by
        obtain ⟨d', c', hm, hne⟩ := h
        exact ⟨d', c', by simpa using hm, hne⟩
      obtain ⟨e, he, hcase⟩ := ih acc h'
      refine ⟨e, he, ?_⟩
      rcases hcase with hp | ⟨d', c', hm, hne, he'⟩
      · exact .inl hp
      · exact .inr ⟨d', c', by simp [hm], hne, he'⟩
    | float x =>
      have h' : ∃ d c', NumericValue.currency d c' ∈ vs ∧ c' ≠ c := by
        obtain ⟨d', c', hm, hne⟩ := h
        exact ⟨d', c', by simpa using hm, hne⟩
      obtain ⟨e, he, hcase⟩ := ih acc h'
      refine ⟨e, he, ?_⟩
      rcases hcase with hp | ⟨d', c', hm, hne, he'⟩
      · exact .inl hp
      · exact .inr ⟨d', c', by simp [hm], hne, he'⟩

theorem totalAmount_perm {a b : List Decimal} (h : a.Perm b) : totalAmount a = totalAmount b := by
  induction h with
  | nil => rfl
  | cons x _ ih => simp [totalAmount, ih]
  | swap x y l => simp only [totalAmount]; ring
  | trans _ _ ih1 ih2 => exact ih1.trans ih2

theorem weight_perm (s : Nat) {a b : List Decimal} (h : a.Perm b) : weight s a = weight s b := by
  induction h with
  | nil => rfl
  | cons x _ ih => simp [weight, ih]
  | swap x y l => simp only [weight]; omega
  | trans _ _ ih1 ih2 => exact ih1.trans ih2

/-! ### Median -/

theorem medianLe_iff {a b : F64} (ha : a ≠ .nan) (hb : b ≠ .nan) :
    medianLe a b = (floatCmp a b).isLE := by
  unfold medianLe floatCmp
  have h1 : a.isNan = false := by cases a <;> simp_all [F64.isNan]
  have h2 : b.isNan = false := by cases b <;> simp_all [F64.isNan]
  simp [h1, h2]

theorem medianLe_preorder : TotalPreorderOn medianLe (fun x => x ≠ F64.nan) where
  total a b ha hb := by
    rw [medianLe_iff ha hb, medianLe_iff hb ha, floatCmp_swap b a]
    cases floatCmp a b <;> simp
  trans a b c ha hb hc h1 h2 := by
    rw [medianLe_iff ha hb] at h1
    rw [medianLe_iff hb hc] at h2
    rw [medianLe_iff ha hc]
    exact (floatCmp_composes a b c).isLE h1 h2

end Firm
