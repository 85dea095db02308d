import Verif.Spec.Query
import Verif.Lemmas.Order
import Mathlib.Tactic.Tauto
import Mathlib.Tactic.Linarith
import Mathlib.Tactic.NormNum
import Mathlib.Algebra.Order.Field.Rat

/-! # Lemmas about filter conditions -/

namespace Firm
open Spec

/-! ### Results -/

/-- Evaluation succeeds. -/
def IsOk {α ε : Type} (r : Except ε α) : Prop := ∃ a, r = .ok a

theorem collectResults_ok {α β ε : Type} (f : α → Except ε β) (l : List α) (bs : List β) :
    collectResults f l = .ok bs ↔ l.map f = bs.map .ok := by
  induction l generalizing bs with
  | nil => cases bs <;> simp [collectResults]
  | cons a l ih =>
    simp only [collectResults, List.map_cons]
    cases hf : f a with
    | error e => cases bs <;> simp
    | ok b =>
      cases hr : collectResults f l with
      | error e =>
        cases bs with
        | nil => simp
        | cons c cs =>
          have := ih cs
          rw [hr] at this
          simp at this ⊢
          intro _ h; exact this h
      | ok rs =>
        cases bs with
        | nil => simp
        | cons c cs =>
          have := ih cs
          rw [hr] at this
          simp at this ⊢
          rw [this]
          exact fun _ => Iff.rfl

theorem collectResults_error {α β ε : Type} (f : α → Except ε β) (l : List α) (err : ε) :
    collectResults f l = .error err ↔
      ∃ pre a post, l = pre ++ a :: post ∧ (∀ x ∈ pre, IsOk (f x)) ∧ f a = .error err := by
  induction l with
  | nil => simp [collectResults]
  | cons a l ih =>
    simp only [collectResults]
    cases hf : f a with
    | error e =>
      constructor
      · intro h; cases h; exact ⟨[], a, l, rfl, by simp, hf⟩
      · rintro ⟨pre, x, post, hl, hpre, hx⟩
        cases pre with
        | nil => simp at hl; rw [← hl.1, hf] at hx; simpa using hx
        | cons p pre =>
          simp at hl
          obtain ⟨b, hb⟩ := hpre p (by simp)
          rw [← hl.1, hf] at hb; simp at hb
    | ok b =>
      have step : (∃ pre x post, a :: l = pre ++ x :: post ∧ (∀ x ∈ pre, IsOk (f x)) ∧
          f x = .error err) ↔ collectResults f l = .error err := by
        rw [ih]
        constructor
        · rintro ⟨pre, x, post, hl, hpre, hx⟩
          cases pre with
          | nil => simp at hl; rw [← hl.1, hf] at hx; simp at hx
          | cons p pre =>
            simp at hl
            exact ⟨pre, x, post, hl.2, fun y hy => hpre y (by simp [hy]), hx⟩
        · rintro ⟨pre, x, post, hl, hpre, hx⟩
          refine ⟨a :: pre, x, post, by simp [hl], ?_, hx⟩
          intro y hy
          rcases List.mem_cons.1 hy with rfl | hy
          · exact ⟨b, hf⟩
          · exact hpre y hy
      rw [step]
      cases hr : collectResults f l <;> simp

theorem collectResults_isOk {α β ε : Type} (f : α → Except ε β) (l : List α) :
    IsOk (collectResults f l) ↔ ∀ a ∈ l, IsOk (f a) := by
  induction l with
  | nil => simp [collectResults, IsOk]
  | cons a l ih =>
    simp only [List.mem_cons, forall_eq_or_imp, ← ih, collectResults]
    cases hf : f a with
    | error e => simp [IsOk]
    | ok b => cases hr : collectResults f l <;> simp [IsOk]

theorem compound_ok_iff (env : Env) (c : CompoundCondition) (e : Entity) (b : Bool) :
    c.matches env e = .ok b ↔
      (∀ d ∈ c.conditions, IsOk (d.matches env e)) ∧
      (b = true ↔ match c.combinator with
        | .and => ∀ d ∈ c.conditions, d.matches env e = .ok true
        | .or => ∃ d ∈ c.conditions, d.matches env e = .ok true) := by
  rw [← collectResults_isOk]
  unfold CompoundCondition.matches
  cases hr : collectResults (fun c => FilterCondition.matches env c e) c.conditions with
  | error err => simp [IsOk]
  | ok rs =>
    have h := (collectResults_ok _ _ _).1 hr
    have hall : (∀ d ∈ c.conditions, FilterCondition.matches env d e = .ok true) ↔
        ∀ r ∈ rs, r = true := by
      have : (∀ x ∈ c.conditions.map (fun c => FilterCondition.matches env c e), x = .ok true) ↔
          ∀ x ∈ rs.map Except.ok, x = (.ok true : Except QueryError Bool) := by rw [h]
      rw [List.forall_mem_map, List.forall_mem_map] at this
      rw [this]
      simp only [Except.ok.injEq]
    have hany : (∃ d ∈ c.conditions, FilterCondition.matches env d e = .ok true) ↔
        ∃ r ∈ rs, r = true := by
      have : (∃ x ∈ c.conditions.map (fun c => FilterCondition.matches env c e), x = .ok true) ↔
          ∃ x ∈ rs.map Except.ok, x = (.ok true : Except QueryError Bool) := by rw [h]
      simpa using this
    have hok : IsOk (Except.ok rs : Except QueryError (List Bool)) := ⟨rs, rfl⟩
    simp only [hok, true_and]
    cases c.combinator with
    | and =>
      simp only [hall]
      have : rs.all id = true ↔ ∀ r ∈ rs, r = true := by simp
      rw [← this]
      cases b <;> cases rs.all id <;> simp
    | or =>
      simp only [hany]
      have : rs.any id = true ↔ ∃ r ∈ rs, r = true := by simp
      rw [← this]
      cases b <;> cases rs.any id <;> simp

theorem filterEntities_ok (env : Env) (c : CompoundCondition) (es r : List Entity) :
    filterEntities env c es = .ok r ↔
      (∀ e ∈ es, IsOk (c.matches env e)) ∧ r = es.filter fun e => c.matches env e = .ok true := by
  induction es generalizing r with
  | nil => simp [filterEntities, eq_comm]
  | cons e es ih =>
    simp only [filterEntities, List.mem_cons, forall_eq_or_imp, List.filter_cons]
    cases hm : c.matches env e with
    | error err => simp [IsOk]
    | ok b =>
      cases hf : filterEntities env c es with
      | error err =>
        have : ¬ ∀ a ∈ es, IsOk (c.matches env a) := by
          intro hall
          have := (ih (es.filter fun e => c.matches env e = .ok true)).2 ⟨hall, rfl⟩
          rw [hf] at this; simp at this
        simp [this]
      | ok rest =>
        have h := (ih rest).1 hf
        have hok : IsOk (Except.ok b : Except QueryError Bool) := ⟨b, rfl⟩
        simp only [hok, true_and, ← h.2]
        cases b <;> simp [eq_comm] <;> exact fun _ => h.1

theorem filterEntities_error (env : Env) (c : CompoundCondition) (es : List Entity)
    (err : QueryError) :
    filterEntities env c es = .error err ↔
      ∃ pre e post, es = pre ++ e :: post ∧ (∀ a ∈ pre, IsOk (c.matches env a)) ∧
        c.matches env e = .error err := by
  rw [← collectResults_error (fun e => c.matches env e)]
  induction es with
  | nil => simp [filterEntities, collectResults]
  | cons e es ih =>
    simp only [filterEntities, collectResults]
    cases hm : c.matches env e with
    | error err => simp
    | ok b =>
      cases hf : filterEntities env c es <;> cases hr : collectResults (fun e => c.matches env e) es <;>
        simp_all

/-! ### Text -/

theorem toLower_toNat (c : Char) :
    c.toLower.toNat = if 65 ≤ c.toNat ∧ c.toNat ≤ 90 then c.toNat + 32 else c.toNat := by
  unfold Char.toLower
  by_cases h : c.val ≥ 'A'.val ∧ c.val ≤ 'Z'.val
  · have h' : 65 ≤ c.toNat ∧ c.toNat ≤ 90 := ⟨h.1, h.2⟩
    rw [dif_pos h, if_pos h']
    have : ('a'.val - 'A'.val) = 32 := by decide
    simp only [Char.toNat, this]
    rw [UInt32.toNat_add]
    have h2 : c.val.toNat ≤ 90 := h.2
    have : (32 : UInt32).toNat = 32 := rfl
    omega
  · have h' : ¬ (65 ≤ c.toNat ∧ c.toNat ≤ 90) := h
    rw [dif_neg h, if_neg h']

theorem char_toNat_inj {a b : Char} : a = b ↔ a.toNat = b.toNat := by
  constructor
  · rintro rfl; rfl
  · intro h; exact Char.ext (UInt32.toNat_inj.1 h)

theorem toLower_eq_iff (a b : Char) : a.toLower = b.toLower ↔ SameLetter a b := by
  unfold SameLetter
  rw [char_toNat_inj, toLower_toNat, toLower_toNat, char_toNat_inj]
  split <;> split <;> omega

theorem eqIgnoreAsciiCase_iff (a b : Str) : eqIgnoreAsciiCase a b = true ↔ SameText a b := by
  unfold eqIgnoreAsciiCase asciiLower SameText
  rw [beq_iff_eq]
  induction a generalizing b with
  | nil => cases b <;> simp
  | cons x a ih =>
    cases b with
    | nil => simp
    | cons y b =>
      simp only [List.map_cons, List.cons.injEq, ih, toLower_eq_iff, List.length_cons,
        Nat.add_right_cancel_iff, List.zip_cons_cons, List.mem_cons, forall_eq_or_imp]
      tauto

theorem startsWith_iff (hay needle : Str) :
    startsWith hay needle = true ↔ ∃ post, hay = needle ++ post := by
  unfold startsWith
  rw [List.isPrefixOf_iff_prefix]
  constructor
  · rintro ⟨t, rfl⟩; exact ⟨t, rfl⟩
  · rintro ⟨t, rfl⟩; exact ⟨t, rfl⟩

theorem endsWith_iff (hay needle : Str) :
    endsWith hay needle = true ↔ ∃ pre, hay = pre ++ needle := by
  unfold endsWith
  rw [List.isSuffixOf_iff_suffix]
  constructor
  · rintro ⟨t, rfl⟩; exact ⟨t, rfl⟩
  · rintro ⟨t, rfl⟩; exact ⟨t, rfl⟩

theorem strContains_iff (hay needle : Str) :
    strContains hay needle = true ↔ Occurs needle hay := by
  unfold Occurs
  induction hay with
  | nil =>
    simp only [strContains, List.isEmpty_iff]
    constructor
    · rintro rfl; exact ⟨[], [], rfl⟩
    · rintro ⟨pre, post, h⟩
      simp at h; exact h.2.1
  | cons c hay ih =>
    simp only [strContains, Bool.or_eq_true, startsWith_iff, ih]
    constructor
    · rintro (⟨post, h⟩ | ⟨pre, post, h⟩)
      · exact ⟨[], post, by simpa using h⟩
      · exact ⟨c :: pre, post, by simp [h]⟩
    · rintro ⟨pre, post, h⟩
      cases pre with
      | nil => exact .inl ⟨post, by simpa using h⟩
      | cons d pre => simp at h; exact .inr ⟨pre, post, by simp [h.2]⟩

/-! ### Numbers -/

theorem ratCmp_lt {a b : Rat} : ratCmp a b = .lt ↔ a < b := by
  unfold ratCmp
  split
  · simp [*]
  · split <;> simp [*]
theorem ratCmp_eq {a b : Rat} : ratCmp a b = .eq ↔ a = b := by
  unfold ratCmp
  split
  · rename_i h; simp; exact ne_of_lt h
  · split <;> simp [*]
theorem ratCmp_gt {a b : Rat} : ratCmp a b = .gt ↔ b < a := by
  unfold ratCmp
  split
  · rename_i h; simp; exact le_of_lt h
  · split
    · rename_i h; simp [h]
    · rename_i h1 h2; simp; exact lt_of_le_of_ne (not_lt.1 h1) (Ne.symm h2)

theorem F64.partialCmp_none {a b : F64} : a.partialCmp b = none ↔ a = .nan ∨ b = .nan := by
  unfold F64.partialCmp F64.key
  cases a with
  | inf s => cases s <;> cases b with
    | inf t => cases t <;> simp
    | _ => simp
  | nan => simp
  | _ => cases b with
    | inf t => cases t <;> simp
    | _ => simp

theorem orderedOp_answers (t : FieldType) (o : Ordering) :
    AnswersOrder (orderedOp t o) (o = .lt) (o = .eq) (o = .gt) := by
  constructor <;> refine ⟨_, rfl, ?_⟩ <;> cases o <;> simp

theorem AnswersOrder.congr {f : FilterOperator → Except QueryError Bool} {a b c a' b' c' : Prop}
    (h : AnswersOrder f a b c) (ha : a ↔ a') (hb : b ↔ b') (hc : c ↔ c') :
    AnswersOrder f a' b' c' := by
  rw [← propext ha, ← propext hb, ← propext hc]; exact h

end Firm
