import Verif.Props.Aggregation
import Verif.Props.Opposite
import Mathlib.Data.List.Perm.Basic
import Mathlib.Algebra.BigOperators.Group.List.Basic

/-!
# C179: what is computed for groups fits what is computed for all
-/

namespace Firm
open Spec

/-- The entities divided into groups: every entity is in exactly one of them. -/
def Spec.Divided (es : List Entity) (groups : List (List Entity)) : Prop := es.Perm groups.flatten

/-- The number in the answer of a sum. -/
def Spec.summed : AggregateValue → Rat
  | .integer n => n
  | .currency d _ => d.val
  | .float _ => 0

theorem present_flatten (f : FieldId) (groups : List (List Entity)) :
    present f groups.flatten = (groups.map (present f)).flatten := by
  induction groups with
  | nil => rfl
  | cons g gs ih =>
    rw [List.flatten_cons, List.map_cons, List.flatten_cons, ← ih]
    simp [present]

theorem Spec.Divided.present {es : List Entity} {groups : List (List Entity)} (h : Divided es groups) (f : FieldId) :
    (Spec.present f es).Perm (groups.map (Spec.present f)).flatten := by
  rw [← present_flatten]
  exact h.filterMap _

/-! ## count -/

/-- C179: the counts of the groups add up to the count of all. -/
theorem C179_count (env : Env) (field : Option FieldRef) {es : List Entity} {groups : List (List Entity)}
    (h : Divided es groups) {n : Nat} {ks : List Nat}
    (hn : Aggregation.execute env (.count field) es = .ok (.count n))
    (hk : List.Forall₂ (fun g k => Aggregation.execute env (.count field) g = .ok (.count k)) groups ks) :
    n = ks.sum := by
  have key : ∀ p : Entity → Bool, (es.filter p).length = (groups.map fun g => (g.filter p).length).sum := by
    intro p
    rw [(h.filter p).length_eq]
    clear hk hn h
    induction groups with
    | nil => rfl
    | cons g gs ih =>
      rw [List.flatten_cons, List.filter_append, List.length_append, ih]; rfl
  have go : ∀ (c : List Entity → Nat), (∀ g, Aggregation.execute env (.count field) g = .ok (.count (c g))) →
      c es = (groups.map c).sum → n = ks.sum := by
    intro c hc hsum
    rw [hc] at hn; cases hn
    rw [hsum]; congr 1
    clear hsum key h
    induction hk with
    | nil => rfl
    | cons h1 _ ih => rw [hc] at h1; cases h1; simp [ih]
  cases field with
  | none => exact go List.length (fun _ => rfl) (by simpa using key fun _ => true)
  | some x =>
    cases x with
    | metadata m => exact go List.length (fun _ => rfl) (by simpa using key fun _ => true)
    | regular f => exact go (fun g => (g.filter fun e => (e.getField f).isSome).length) (fun _ => rfl) (key _)

/-! ## sum -/

theorem sumI64_result (env : Env) : ∀ (ns : List Int) (acc r : Int), sumI64 env acc ns = .ok r →
    (r - (acc + total ns)) % 2 ^ 64 = 0 ∧ (env.overflowChecks = true → r = acc + total ns)
  | [], acc, r, h => by simp only [sumI64] at h; cases h; simp [total]
  | n :: ns, acc, r, h => by
    simp only [sumI64] at h
    split at h
    · next a ha =>
      obtain ⟨h1, h2⟩ := sumI64_result env ns a r h
      unfold addI64 at ha
      split at ha
      · cases ha
        simp only [total]
        exact ⟨by rw [← Int.add_assoc]; exact h1, fun hc => by rw [h2 hc]; omega⟩
      · split at ha
        · cases ha
        · next hc =>
          cases ha
          refine ⟨?_, fun h => absurd h hc⟩
          simp only [total]
          unfold wrapI64 at h1
          omega
    · cases h

theorem sum_result {env : Env} {f : FieldId} {es : List Entity} {ns : List Int}
    (h : present f es = ns.map .integer) {r : AggregateValue}
    (hr : Aggregation.execute env (.sum (.regular f)) es = .ok (.sum r)) :
    ∃ n, r = .integer n ∧ (n - total ns) % 2 ^ 64 = 0 ∧ (env.overflowChecks = true → n = total ns) := by
  by_cases hne : ns = []
  · subst hne
    rw [C37_empty env f es h] at hr
    cases hr
    exact ⟨0, rfl, by simp [total], fun _ => rfl⟩
  · rw [executeSum_integers env f es ns h hne] at hr
    split at hr
    · next n hn =>
      cases hr
      obtain ⟨h1, h2⟩ := sumI64_result env ns 0 n hn
      simp only [Int.zero_add] at h1 h2
      exact ⟨n, rfl, h1, h2⟩
    · cases hr

theorem ints_of_groups {groups : List (List FieldValue)} {ns : List Int}
    (h : (ns.map FieldValue.integer).Perm groups.flatten) :
    ∃ nss : List (List Int), groups = nss.map (·.map .integer) ∧ ns.Perm nss.flatten := by
  have hall : ∀ g ∈ groups, ∃ l : List Int, g = l.map .integer := by
    intro g hg
    have : ∀ v ∈ g, ∃ n, v = FieldValue.integer n := by
      intro v hv
      obtain ⟨n, _, rfl⟩ := List.mem_map.1 (h.mem_iff.2 (List.mem_flatten.2 ⟨g, hg, hv⟩))
      exact ⟨n, rfl⟩
    clear hg h
    induction g with
    | nil => exact ⟨[], rfl⟩
    | cons v g ih =>
      obtain ⟨n, rfl⟩ := this v (by simp)
      obtain ⟨l, rfl⟩ := ih fun v hv => this v (by simp [hv])
      exact ⟨n :: l, rfl⟩
  have : ∃ nss : List (List Int), groups = nss.map (·.map .integer) := by
    clear h
    induction groups with
    | nil => exact ⟨[], rfl⟩
    | cons g gs ih =>
      obtain ⟨l, rfl⟩ := hall g (by simp)
      obtain ⟨ls, rfl⟩ := ih fun g hg => hall g (by simp [hg])
      exact ⟨l :: ls, rfl⟩
  obtain ⟨nss, rfl⟩ := this
  refine ⟨nss, rfl, ?_⟩
  have e : (nss.map (·.map FieldValue.integer)).flatten = nss.flatten.map .integer := by
    rw [List.map_flatten]
  rw [e] at h
  exact (List.map_perm_map_iff fun a b hab => by cases hab; rfl).1 h

/-- C179: the sums of whole numbers of the groups add up to the sum of all, exactly where overflow is checked and
up to a multiple of 2^64 where it is not. -/
theorem C179_integers {env : Env} {f : FieldId} {es : List Entity} {groups : List (List Entity)} (h : Divided es groups)
    {ns : List Int} (hints : present f es = ns.map .integer) {v : AggregateValue} {vs : List AggregateValue}
    (hv : Aggregation.execute env (.sum (.regular f)) es = .ok (.sum v))
    (hvs : List.Forall₂ (fun g v => Aggregation.execute env (.sum (.regular f)) g = .ok (.sum v)) groups vs) :
    ∃ (n : Int) (ms : List Int), v = .integer n ∧ vs = ms.map .integer ∧ (n - ms.sum) % 2 ^ 64 = 0 ∧
      (env.overflowChecks = true → n = ms.sum) := by
  obtain ⟨n, rfl, h1, h2⟩ := sum_result hints hv
  have hp := h.present f
  rw [hints] at hp
  obtain ⟨nss, hnss, hperm⟩ := ints_of_groups hp
  rw [total_perm hperm] at h1 h2
  clear hp hints hv h hperm
  have : ∃ ms : List Int, vs = ms.map .integer ∧ (total nss.flatten - ms.sum) % 2 ^ 64 = 0 ∧
      (env.overflowChecks = true → total nss.flatten = ms.sum) := by
    clear h1 h2
    induction hvs generalizing nss with
    | nil =>
      cases nss with
      | nil => exact ⟨[], rfl, by simp [total], fun _ => by simp [total]⟩
      | cons l ls => cases hnss
    | cons hg _ ih =>
      cases nss with
      | nil => cases hnss
      | cons l ls =>
        simp only [List.map_cons, List.cons.injEq] at hnss
        obtain ⟨ms, rfl, k1, k2⟩ := ih ls hnss.2
        obtain ⟨m, rfl, j1, j2⟩ := sum_result hnss.1 hg
        refine ⟨m :: ms, rfl, ?_, fun hc => ?_⟩
        · rw [List.flatten_cons, total_append, List.sum_cons]; omega
        · rw [List.flatten_cons, total_append, List.sum_cons, ← k2 hc, ← j2 hc]
  obtain ⟨ms, rfl, k1, k2⟩ := this
  exact ⟨n, ms, rfl, rfl, by omega, fun hc => by rw [h2 hc, k2 hc]⟩

/-- C179, what is missing: where overflow is checked, the sum of all can be given and the sum of a group not. -/
theorem C179_group_overflow : ∃ (env : Env) (f : FieldId) (es : List Entity) (groups : List (List Entity)),
    Divided es groups ∧ Aggregation.execute env (.sum (.regular f)) es = .ok (.sum (.integer (2 ^ 62))) ∧
    ∃ g ∈ groups, Aggregation.execute env (.sum (.regular f)) g = .error .panic :=
  ⟨exEnv, "a".toList,
    [exAmount "1" (.integer (2 ^ 62)), exAmount "3" (.integer (-(2 ^ 62))), exAmount "2" (.integer (2 ^ 62))],
    [[exAmount "1" (.integer (2 ^ 62)), exAmount "2" (.integer (2 ^ 62))], [exAmount "3" (.integer (-(2 ^ 62)))]],
    by unfold Divided; decide, by decide, _, List.mem_cons_self, by decide⟩

/-! ## Amounts of one currency -/

theorem weight_append (s : Nat) (a b : List Decimal) : weight s (a ++ b) = weight s a + weight s b := by
  induction a with
  | nil => simp [weight]
  | cons x a ih => simp only [List.cons_append, weight, ih]; omega

theorem totalAmount_append (a b : List Decimal) : totalAmount (a ++ b) = totalAmount a + totalAmount b := by
  induction a with
  | nil => simp [totalAmount]
  | cons x a ih => simp only [List.cons_append, totalAmount, ih]; ring

theorem Spec.Summable.left {a b : List Decimal} (h : Summable (a ++ b)) : Summable a := by
  obtain ⟨s, h1, h2, h3⟩ := h
  rw [weight_append] at h3
  exact ⟨s, h1, fun d hd => h2 d (List.mem_append_left _ hd), by omega⟩

theorem Spec.Summable.right {a b : List Decimal} (h : Summable (a ++ b)) : Summable b := by
  obtain ⟨s, h1, h2, h3⟩ := h
  rw [weight_append] at h3
  exact ⟨s, h1, fun d hd => h2 d (List.mem_append_right _ hd), by omega⟩

/-- The sum of a group of amounts: in the currency, or the number 0 if there is no amount. -/
def Spec.InCode (c : Str) (f : FieldId) (g : List Entity) (v : AggregateValue) : Prop :=
  (present f g = [] ∧ v = .integer 0) ∨ (present f g ≠ [] ∧ ∃ d, v = .currency d c)

/-- C179: the sums of amounts of one currency of the groups add up to the sum of all, and all but the sums of groups
without any amount are in this currency. Missing: amounts whose sum leaves the range of the decimal type
(`C37_currency_overflow`), and the currency of an empty sum (`C179_no_currency`). -/
theorem C179_currency_partial {env : Env} {f : FieldId} {es : List Entity} {groups : List (List Entity)}
    (h : Divided es groups) {c : Str} {ds : List Decimal} (hd : present f es = ds.map (.currency · c)) (hne : ds ≠ [])
    (hs : Summable ds) :
    ∃ (d : Decimal) (vs : List AggregateValue),
      Aggregation.execute env (.sum (.regular f)) es = .ok (.sum (.currency d c)) ∧
      List.Forall₂ (fun g v => Aggregation.execute env (.sum (.regular f)) g = .ok (.sum v) ∧ InCode c f g v) groups vs ∧
      d.val = (vs.map summed).sum := by
  obtain ⟨d, e1, v1⟩ := C37_currency_partial env f es c ds hd hne hs
  have hp := h.present f
  rw [hd, ← present_flatten] at hp
  obtain ⟨ms, hms, hperm⟩ := perm_map_inj (fun a b h => by cases h; rfl) hp.symm
  have hs' : Summable ms := by
    obtain ⟨s, h1, h2, h3⟩ := hs
    exact ⟨s, h1, fun d hd => h2 d (hperm.mem_iff.1 hd), by rw [weight_perm s hperm]; exact h3⟩
  rw [← totalAmount_perm hperm] at v1
  have : ∃ vs : List AggregateValue,
      List.Forall₂ (fun g v => Aggregation.execute env (.sum (.regular f)) g = .ok (.sum v) ∧ InCode c f g v) groups vs ∧
      totalAmount ms = (vs.map summed).sum := by
    clear hp hperm v1 e1 hs hd h hne
    induction groups generalizing ms with
    | nil =>
      cases ms with
      | nil => exact ⟨[], .nil, by simp [totalAmount]⟩
      | cons _ _ => cases hms
    | cons g gs ih =>
      have e : present f (g :: gs).flatten = present f g ++ present f gs.flatten := by simp [present]
      rw [e] at hms
      obtain ⟨m1, m2, rfl, q1, q2⟩ := List.append_eq_map_iff.1 hms
      obtain ⟨vs, k1, k2⟩ := ih m2 q2.symm hs'.right
      by_cases hm : m1 = []
      · subst hm
        have hg : present f g = [] := by rw [← q1]; rfl
        exact ⟨.integer 0 :: vs, .cons ⟨C37_empty env f g hg, .inl ⟨hg, rfl⟩⟩ k1, by simp [summed, k2]⟩
      · obtain ⟨d', e', v'⟩ := C37_currency_partial env f g c m1 q1.symm hm hs'.left
        refine ⟨.currency d' c :: vs, .cons ⟨e', .inr ⟨?_, d', rfl⟩⟩ k1, ?_⟩
        · rw [← q1]; simpa using hm
        · rw [totalAmount_append, List.map_cons, List.sum_cons, ← k2, ← v']; rfl
  obtain ⟨vs, k1, k2⟩ := this
  exact ⟨d, vs, e1, k1, by rw [v1, k2]⟩

/-- C179, what is missing: the sum of a group without amounts is a number without a currency. -/
theorem C179_no_currency : ∃ (env : Env) (f : FieldId) (es : List Entity) (groups : List (List Entity)) (d : Decimal),
    Divided es groups ∧ Aggregation.execute env (.sum (.regular f)) es = .ok (.sum (.currency d "EUR".toList)) ∧
    ∃ g ∈ groups, g ≠ [] ∧ Aggregation.execute env (.sum (.regular f)) g = .ok (.sum (.integer 0)) :=
  ⟨exEnv, "a".toList, [exAmount "1" (.currency ⟨150, 2⟩ "EUR".toList), exTask],
    [[exAmount "1" (.currency ⟨150, 2⟩ "EUR".toList)], [exTask]], ⟨150, 2⟩,
    by unfold Divided; decide, by decide, [exTask], by simp, by simp, by decide⟩

/-! ## median -/

theorem floatNotAfter_trans {a b c : F64} (h1 : FloatNotAfter a b) (h2 : FloatNotAfter b c) : FloatNotAfter a c := by
  unfold FloatNotAfter at *
  rcases h2 with h2 | ⟨hb, h2⟩
  · exact .inl h2
  · rcases h1 with h1 | ⟨ha, h1⟩
    · exact absurd h1 hb
    · refine .inr ⟨ha, ?_⟩
      rcases h1 with h1 | h1 | ⟨p, q, hp, hq, hpq⟩
      · exact .inl h1
      · subst h1
        rcases h2 with h2 | h2 | ⟨p, q, hp, _⟩
        · cases h2
        · exact .inr (.inl h2)
        · cases hp
      · rcases h2 with h2 | h2 | ⟨p', q', hp', hq', hpq'⟩
        · subst h2; cases hq
        · exact .inr (.inl h2)
        · rw [hq] at hp'; cases hp'
          exact .inr (.inr ⟨p, q', hp, hq', hpq.trans hpq'⟩)

theorem asFloats_flatten (env : Env) (vss : List (List FieldValue)) :
    asFloats env vss.flatten = (vss.map (asFloats env)).flatten := by
  induction vss with
  | nil => rfl
  | cons v vs ih =>
    rw [List.flatten_cons, List.map_cons, List.flatten_cons, ← ih]
    simp [asFloats]

/-- The median of a group and numbers around it that half of the values do not exceed, or do not fall below. -/
theorem group_median {env : Env} {f : FieldId} {g : List Entity} (h : ∀ v ∈ present f g, IsNumber v)
    (hne : present f g ≠ []) (hm : ∀ x ∈ asFloats env (present f g), Moderate x) :
    ∃ m a b, Aggregation.execute env (.median (.regular f)) g = .ok (.median m) ∧ FloatNotAfter a m ∧ FloatNotAfter m b ∧
      (asFloats env (present f g)).length ≤ 2 * atMost a (asFloats env (present f g)) ∧
      (asFloats env (present f g)).length ≤ 2 * atLeast b (asFloats env (present f g)) := by
  by_cases hodd : (asFloats env (present f g)).length % 2 = 1
  · obtain ⟨m, hmem, e, k1, k2⟩ := C39_median_odd env f g h (fun x hx => (hm x hx).ne_nan) hodd
    obtain ⟨q, hq, _⟩ := hm m hmem
    have hr : FloatNotAfter m m := (floatNotAfter_finite hq hq).2 le_rfl
    exact ⟨m, m, m, e, hr, hr, k1, k2⟩
  · obtain ⟨a, _, b, _, m, e, k1, k2, k3, k4⟩ := C39_median_even env f g h hne hm (by omega)
    exact ⟨m, a, b, e, k1, k2, k3, k4⟩

theorem count_groups {p : F64 → Bool} : ∀ {xss : List (List F64)}, (∀ xs ∈ xss, xs.length ≤ 2 * xs.countP p) →
    xss.flatten.length ≤ 2 * xss.flatten.countP p
  | [], _ => by simp
  | xs :: xss, h => by
    have h1 := h xs (by simp)
    have h2 := count_groups fun ys hy => h ys (List.mem_cons_of_mem _ hy)
    rw [List.flatten_cons, List.length_append, List.countP_append]
    omega

open Classical in
/-- The median of an odd number of values lies between medians of the groups: one of these is not smaller and one
is not greater. -/
theorem odd_median_groups {env : Env} {f : FieldId} {es : List Entity} {groups : List (List Entity)}
    (h : Divided es groups) (hnum : ∀ v ∈ present f es, IsNumber v)
    (hmod : ∀ x ∈ asFloats env (present f es), Moderate x)
    (hodd : (asFloats env (present f es)).length % 2 = 1) :
    ∃ m, Aggregation.execute env (.median (.regular f)) es = .ok (.median m) ∧
      (∃ g ∈ groups, ∃ k, Aggregation.execute env (.median (.regular f)) g = .ok (.median k) ∧ FloatNotAfter m k) ∧
      (∃ g ∈ groups, ∃ k, Aggregation.execute env (.median (.regular f)) g = .ok (.median k) ∧ FloatNotAfter k m) := by
  obtain ⟨m, hmem, em, k1, k2⟩ := C39_median_odd env f es hnum (fun x hx => (hmod x hx).ne_nan) hodd
  have hp := h.present f
  have hpf : (asFloats env (present f es)).Perm (groups.map fun g => asFloats env (present f g)).flatten := by
    have : (asFloats env (present f es)).Perm (asFloats env (groups.map (present f)).flatten) := hp.filterMap _
    rw [asFloats_flatten, List.map_map] at this
    exact this
  have hin : ∀ g ∈ groups, ∀ v ∈ present f g, v ∈ present f es := fun g hg v hv =>
    hp.mem_iff.2 (List.mem_flatten.2 ⟨_, List.mem_map_of_mem hg, hv⟩)
  have hinf : ∀ g ∈ groups, ∀ x ∈ asFloats env (present f g), Moderate x := fun g hg x hx =>
    hmod x (hpf.mem_iff.2 (List.mem_flatten.2 ⟨_, List.mem_map_of_mem (f := fun g => asFloats env (present f g)) hg, hx⟩))
  have half : ∀ p : F64 → Bool, (∀ g ∈ groups, (asFloats env (present f g)).length ≤ 2 * (asFloats env (present f g)).countP p) →
      (asFloats env (present f es)).length ≤ 2 * (asFloats env (present f es)).countP p := by
    intro p hall
    rw [hpf.length_eq, hpf.countP_eq]
    refine count_groups fun xs hxs => ?_
    obtain ⟨g, hg, rfl⟩ := List.mem_map.1 hxs
    exact hall g hg
  have split : ∀ p : F64 → Bool, (asFloats env (present f es)).length =
      (asFloats env (present f es)).countP p + (asFloats env (present f es)).countP fun x => !p x := by
    intro p
    have := List.length_eq_countP_add_countP (p := p) (l := asFloats env (present f es))
    rw [this]; congr 2; funext x; cases p x <;> simp
  refine ⟨m, em, ?_, ?_⟩
  · by_contra hc
    have hall : ∀ g ∈ groups, (asFloats env (present f g)).length ≤
        2 * (asFloats env (present f g)).countP fun x => !decide (FloatNotAfter m x) := by
      intro g hg
      by_cases hne : present f g = []
      · simp [hne, asFloats]
      · obtain ⟨k, a, b, ek, ha, _, c1, _⟩ := group_median (fun v hv => hnum v (hin g hg v hv)) hne (hinf g hg)
        refine c1.trans (Nat.mul_le_mul_left _ (List.countP_mono_left fun x _ hx => ?_))
        rw [decide_eq_true_eq] at hx
        rw [Bool.not_eq_true', decide_eq_false_iff_not]
        exact fun hmx => hc ⟨g, hg, k, ek, floatNotAfter_trans (floatNotAfter_trans hmx hx) ha⟩
    have h1 := half _ hall
    have h2 := split fun x => decide (FloatNotAfter m x)
    unfold atLeast at k2
    omega
  · by_contra hc
    have hall : ∀ g ∈ groups, (asFloats env (present f g)).length ≤
        2 * (asFloats env (present f g)).countP fun x => !decide (FloatNotAfter x m) := by
      intro g hg
      by_cases hne : present f g = []
      · simp [hne, asFloats]
      · obtain ⟨k, a, b, ek, _, hb, _, c2⟩ := group_median (fun v hv => hnum v (hin g hg v hv)) hne (hinf g hg)
        refine c2.trans (Nat.mul_le_mul_left _ (List.countP_mono_left fun x _ hx => ?_))
        rw [decide_eq_true_eq] at hx
        rw [Bool.not_eq_true', decide_eq_false_iff_not]
        exact fun hmx => hc ⟨g, hg, k, ek, floatNotAfter_trans hb (floatNotAfter_trans hx hmx)⟩
    have h1 := half _ hall
    have h2 := split fun x => decide (FloatNotAfter x m)
    unfold atMost at k1
    omega

/-! ## Groups by type -/

theorem filter_groups {env : Env} {c : CompoundCondition} : ∀ {a b r : List Entity},
    filterEntities env c (a ++ b) = .ok r →
    ∃ ra rb, filterEntities env c a = .ok ra ∧ filterEntities env c b = .ok rb ∧ r = ra ++ rb
  | [], b, r, h => ⟨[], r, rfl, h, rfl⟩
  | e :: a, b, r, h => by
    simp only [List.cons_append, filterEntities] at h ⊢
    split at h
    · cases h
    · next keep hk =>
      split at h
      · cases h
      · next t ht =>
        obtain ⟨ra, rb, h1, h2, rfl⟩ := filter_groups ht
        cases h
        rw [h1]
        cases keep <;> exact ⟨_, rb, rfl, h2, rfl⟩

theorem filter_all_groups {env : Env} {c : CompoundCondition} : ∀ {groups : List (List Entity)} {r : List Entity},
    filterEntities env c groups.flatten = .ok r →
    ∃ groups', List.Forall₂ (fun a b => filterEntities env c a = .ok b) groups groups' ∧ r = groups'.flatten
  | [], r, h => ⟨[], .nil, by cases h; rfl⟩
  | g :: gs, r, h => by
    rw [List.flatten_cons] at h
    obtain ⟨ra, rb, h1, h2, rfl⟩ := filter_groups h
    obtain ⟨gs', h3, rfl⟩ := filter_all_groups h2
    exact ⟨ra :: gs', .cons h1 h3, rfl⟩

theorem wheres_groups {env : Env} {rt : Runtime} {g : Graph} : ∀ {cs : List CompoundCondition}
    {groups : List (List Entity)} {r : List Entity},
    applyOperations env rt g (cs.map .where) groups.flatten = .ok r →
    ∃ groups', List.Forall₂ (fun a b => applyOperations env rt g (cs.map .where) a = .ok b) groups groups' ∧
      r = groups'.flatten
  | [], groups, r, h => by
    simp only [List.map_nil, applyOperations] at h ⊢
    cases h
    exact ⟨groups, List.forall₂_same.2 fun _ _ => rfl, rfl⟩
  | c :: cs, groups, r, h => by
    simp only [List.map_cons, applyOperations, applyOperation] at h ⊢
    split at h
    · cases h
    · next t ht =>
      obtain ⟨mid, h1, rfl⟩ := filter_all_groups ht
      obtain ⟨groups', h2, rfl⟩ := wheres_groups h
      refine ⟨groups', ?_, rfl⟩
      clear h ht
      induction h1 generalizing groups' with
      | nil => cases h2; exact .nil
      | cons a1 _ ih =>
        cases h2 with
        | cons b1 b2 => exact .cons (by rw [a1]; exact b1) (ih _ b2)

/-- C179: what a query with conditions finds among all entities is divided into what it finds among the entities of
each type; so the statements above hold of counts, sums and medians by type. -/
theorem C179_types {env : Env} {rt : Runtime} {g : Graph} {cs : List CompoundCondition} {es : List Entity}
    (h : Query.execute env rt g ⟨.all, cs.map .where, none⟩ = .ok (.entities es)) :
    ∃ (types : List EntityType) (groups : List (List Entity)), types.Perm g.getAllEntityTypes ∧
      List.Forall₂ (fun t r => Query.execute env rt g ⟨.type t, cs.map .where, none⟩ = .ok (.entities r)) types groups ∧
      Divided es groups := by
  simp only [Query.execute, selectFrom] at h
  split at h
  · cases h
  · next r hr =>
    cases h
    rw [List.flatMap_def] at hr
    obtain ⟨groups, h1, rfl⟩ := wheres_groups hr
    refine ⟨_, groups, rt.order_perm 0 _, ?_, List.Perm.refl _⟩
    rw [List.forall₂_map_left_iff] at h1
    have : ∀ ts, (∀ t ∈ ts, t ∈ rt.order 0 g.getAllEntityTypes) →
        ∀ gs, List.Forall₂ (fun t b => applyOperations env rt g (cs.map .where) (g.listByType t) = .ok b) ts gs →
        List.Forall₂ (fun t r => Query.execute env rt g ⟨.type t, cs.map .where, none⟩ = .ok (.entities r)) ts gs := by
      intro ts hts gs hgs
      induction hgs with
      | nil => exact .nil
      | cons a1 _ ih =>
        refine .cons ?_ (ih fun t ht => hts t (by simp [ht]))
        simp only [Query.execute, selectFrom]
        rw [if_pos (hts _ (by simp))]
        simp only [a1]
    exact this _ (fun _ h => h) _ h1

/-! ## Examples -/

def exGroups : List (List Entity) :=
  [[exAmount "1" (.integer 3), exTask, exAmount "2" (.integer 9)], [], [exAmount "3" (.integer (-4))]]

example : Divided [exAmount "3" (.integer (-4)), exAmount "1" (.integer 3), exAmount "2" (.integer 9), exTask] exGroups := by
  unfold Divided; decide
example : (exGroups.map fun g => Aggregation.execute exEnv (.sum (.regular "a".toList)) g) =
    [.ok (.sum (.integer 12)), .ok (.sum (.integer 0)), .ok (.sum (.integer (-4)))] ∧
    Aggregation.execute exEnv (.sum (.regular "a".toList)) exGroups.flatten = .ok (.sum (.integer 8)) ∧
    Aggregation.execute exEnv (.count (some (.regular "a".toList))) exGroups.flatten = .ok (.count 3) := by decide +kernel
example : (asFloats exEnv (present "a".toList exGroups.flatten)).length % 2 = 1 ∧
    Aggregation.execute exEnv (.median (.regular "a".toList)) exGroups.flatten = .ok (.median (.fin 3)) ∧
    (exGroups.map fun g => Aggregation.execute exEnv (.median (.regular "a".toList)) g) =
      [.ok (.median (.fin 6)), .error (.invalidAggregation .emptyResult), .ok (.median (.fin (-4)))] := by decide +kernel
example : Summable [⟨150, 2⟩, ⟨-25, 1⟩] := ⟨2, by decide, by decide, by decide⟩
example : ∃ es, Query.execute exEnv exRt (Graph.run [.addAll [exAlice, exBob, exTask], .build]) ⟨.all, [], none⟩ =
    .ok (.entities es) ∧ es.length = 3 := ⟨_, rfl, by decide⟩

end Firm
