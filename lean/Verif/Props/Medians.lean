import Verif.Props.Parts

/-!
# C179: the median of all and the medians of groups
-/

namespace Firm
open Spec

/-! ## Rounding keeps the order -/

/-- The rounded number, without regard to overflow. -/
def nearest (q : Rat) : Rat := if q = 0 then 0 else if 0 < q then F64.rndPos q else -F64.rndPos (-q)

theorem nearest_mono {p q : Rat} (h : p ≤ q) : nearest p ≤ nearest q := by
  unfold nearest
  rcases lt_trichotomy p 0 with hp | hp | hp
  · rw [if_neg (ne_of_lt hp), if_neg (not_lt.2 hp.le)]
    have np := F64.rndPos_nonneg (q := -p) (by linarith)
    rcases lt_trichotomy q 0 with hq | hq | hq
    · rw [if_neg (ne_of_lt hq), if_neg (not_lt.2 hq.le)]
      have := F64.rndPos_mono (p := -q) (q := -p) (by linarith) (by linarith)
      linarith
    · rw [if_pos hq]; linarith
    · rw [if_neg (ne_of_gt hq), if_pos hq]
      have := F64.rndPos_nonneg hq
      linarith
  · rw [if_pos hp]
    rcases lt_trichotomy q 0 with hq | hq | hq
    · linarith
    · rw [if_pos hq]
    · rw [if_neg (ne_of_gt hq), if_pos hq]
      exact F64.rndPos_nonneg hq
  · have hq : 0 < q := lt_of_lt_of_le hp h
    rw [if_neg (ne_of_gt hp), if_pos hp, if_neg (ne_of_gt hq), if_pos hq]
    exact F64.rndPos_mono hp h

theorem nearest_grid {q : Rat} (hg : F64.OnGrid q) : nearest q = q := by
  unfold nearest
  split
  · next h => exact h.symm
  · split
    · next h => exact F64.rndPos_grid h hg
    · next h0 h =>
      rw [F64.rndPos_grid (by rcases lt_trichotomy q 0 with hq | hq | hq <;> [linarith; exact absurd hq h0; exact absurd hq h])
        hg.neg, neg_neg]

theorem rnd_nearest {q r : Rat} (h : finiteValue (F64.rnd q) = some r) : r = nearest q := by
  unfold F64.rnd at h
  unfold nearest
  split at h
  · next h0 => rw [if_pos h0]; cases h; rfl
  · next h0 =>
    rw [if_neg h0]
    split at h
    · next hp =>
      rw [if_pos hp]
      dsimp only at h
      split at h
      · cases h
      · cases h; rfl
    · next hp =>
      rw [if_neg hp]
      dsimp only at h
      split at h
      · cases h
      · split at h
        · next hz => cases h; rw [hz]; rfl
        · cases h; rfl

theorem div_nearest {v r : Rat} (h : finiteValue ((F64.fin v).divPos 2) = some r) : r = nearest (v / 2) := by
  simp only [F64.divPos] at h
  split at h
  · next h0 => cases h; subst h0; simp [nearest]
  · exact rnd_nearest h

theorem half_value {a b : F64} {p q r : Rat} (ha : finiteValue a = some p) (hb : finiteValue b = some q)
    (gp : F64.OnGrid p) (gq : F64.OnGrid q) (h : finiteValue ((a.add b).divPos 2) = some r) :
    r = nearest (nearest (p + q) / 2) := by
  cases a with
  | nan => cases ha
  | inf s => cases ha
  | negZero =>
    cases ha
    cases b with
    | nan => cases hb
    | inf s => cases hb
    | negZero => cases hb; cases h; simp [nearest]
    | fin y => cases hb; rw [zero_add, nearest_grid gq]; exact div_nearest h
  | fin x =>
    cases ha
    cases b with
    | nan => cases hb
    | inf s => cases hb
    | negZero => cases hb; rw [add_zero, nearest_grid gp]; exact div_nearest h
    | fin y =>
      cases hb
      simp only [F64.add] at h
      cases hr : F64.rnd (p + q) with
      | nan => rw [hr] at h; cases h
      | inf s => rw [hr] at h; cases h
      | negZero =>
        rw [hr] at h; cases h
        have : (0 : Rat) = nearest (p + q) := rnd_nearest (by rw [hr]; rfl)
        rw [← this]; simp [nearest]
      | fin v =>
        rw [hr] at h
        have : v = nearest (p + q) := rnd_nearest (by rw [hr]; rfl)
        rw [← this]
        exact div_nearest h

/-- Half the sum of two floats, for two pairs of which one is not after the other. -/
theorem half_mono {a b c d : F64} (ha : Moderate a) (hb : Moderate b) (hc : Moderate c) (hd : Moderate d)
    (hab : FloatNotAfter a b) (hcd : FloatNotAfter c d) (hac : FloatNotAfter a c) (hbd : FloatNotAfter b d) :
    FloatNotAfter ((a.add b).divPos 2) ((c.add d).divPos 2) := by
  obtain ⟨p, ep, gp, bp⟩ := ha
  obtain ⟨q, eq, gq, bq⟩ := hb
  obtain ⟨p', ep', gp', bp'⟩ := hc
  obtain ⟨q', eq', gq', bq'⟩ := hd
  rw [floatNotAfter_finite ep eq] at hab
  rw [floatNotAfter_finite ep' eq'] at hcd
  rw [floatNotAfter_finite ep ep'] at hac
  rw [floatNotAfter_finite eq eq'] at hbd
  obtain ⟨r, er, _, _⟩ := half_between ep eq gp gq bp bq hab
  obtain ⟨r', er', _, _⟩ := half_between ep' eq' gp' gq' bp' bq' hcd
  rw [floatNotAfter_finite er er', half_value ep eq gp gq er, half_value ep' eq' gp' gq' er']
  have h1 := nearest_mono (show p + q ≤ p' + q' by linarith)
  exact nearest_mono (by linarith)

theorem half_inside {a b : F64} (ha : Moderate a) (hb : Moderate b) (hab : FloatNotAfter a b) :
    FloatNotAfter a ((a.add b).divPos 2) ∧ FloatNotAfter ((a.add b).divPos 2) b := by
  obtain ⟨p, ep, gp, bp⟩ := ha
  obtain ⟨q, eq, gq, bq⟩ := hb
  rw [floatNotAfter_finite ep eq] at hab
  obtain ⟨r, er, l, u⟩ := half_between ep eq gp gq bp bq hab
  exact ⟨(floatNotAfter_finite ep er).2 l, (floatNotAfter_finite er eq).2 u⟩

/-! ## Positions in sorted lists -/

open Classical in
theorem at_least_here {s : List F64} (hs : s.Pairwise FloatNotAfter) {u : F64} {j : Nat} (hj : j < s.length)
    (h : s.length ≤ atLeast u s + j) : FloatNotAfter u s[j] := by
  by_contra hc
  have h0 : (s.take (j + 1)).countP (fun x => decide (FloatNotAfter u x)) = 0 := by
    rw [List.countP_eq_zero]
    intro x hx
    rw [decide_eq_true_eq]
    intro hux
    obtain ⟨i, hi, rfl⟩ := List.getElem_of_mem hx
    rw [List.length_take] at hi
    rw [List.getElem_take] at hux
    by_cases hij : i = j
    · subst hij; exact hc hux
    · exact hc (floatNotAfter_trans hux (List.pairwise_iff_getElem.1 hs i j (by omega) hj (by omega)))
  have h1 : atLeast u s = (s.take (j + 1)).countP (fun x => decide (FloatNotAfter u x)) +
      (s.drop (j + 1)).countP (fun x => decide (FloatNotAfter u x)) := by
    unfold atLeast
    rw [← List.countP_append, List.take_append_drop]
  have h2 := List.countP_le_length (p := fun x => decide (FloatNotAfter u x)) (l := s.drop (j + 1))
  rw [List.length_drop] at h2
  omega

open Classical in
theorem at_most_here {s : List F64} (hs : s.Pairwise FloatNotAfter) {l : F64} {j : Nat} (hj : j < s.length)
    (h : j + 1 ≤ atMost l s) : FloatNotAfter s[j] l := by
  by_contra hc
  have h0 : (s.drop j).countP (fun x => decide (FloatNotAfter x l)) = 0 := by
    rw [List.countP_eq_zero]
    intro x hx
    rw [decide_eq_true_eq]
    intro hxl
    obtain ⟨i, hi, rfl⟩ := List.getElem_of_mem hx
    rw [List.length_drop] at hi
    rw [List.getElem_drop] at hxl
    by_cases hij : i = 0
    · subst hij; exact hc hxl
    · exact hc (floatNotAfter_trans (List.pairwise_iff_getElem.1 hs j (j + i) hj (by omega) (by omega)) hxl)
  have h1 : atMost l s = (s.take j).countP (fun x => decide (FloatNotAfter x l)) +
      (s.drop j).countP (fun x => decide (FloatNotAfter x l)) := by
    unfold atMost
    rw [← List.countP_append, List.take_append_drop]
  have h2 := List.countP_le_length (p := fun x => decide (FloatNotAfter x l)) (l := s.take j)
  rw [List.length_take] at h2
  omega

/-! ## Groups -/

theorem all_half {c : F64 → Bool} : ∀ {xss : List (List F64)}, (∀ xs ∈ xss, 2 * xs.countP c ≤ xs.length) →
    2 * xss.flatten.countP c ≤ xss.flatten.length ∧
      (xss.flatten.length ≤ 2 * xss.flatten.countP c → ∀ xs ∈ xss, 2 * xs.countP c = xs.length)
  | [], _ => by simp
  | xs :: xss, h => by
    obtain ⟨h2, h3⟩ := all_half fun ys hy => h ys (List.mem_cons_of_mem _ hy)
    have h1 := h xs (by simp)
    rw [List.flatten_cons, List.length_append, List.countP_append]
    refine ⟨by omega, fun hle ys hy => ?_⟩
    rcases List.mem_cons.1 hy with rfl | hy
    · omega
    · exact h3 (by omega) ys hy

theorem all_less {c d : F64 → Bool} : ∀ {xss : List (List F64)}, (∀ xs ∈ xss, xs.countP c ≤ xs.countP d) →
    xss.flatten.countP c ≤ xss.flatten.countP d
  | [], _ => by simp
  | xs :: xss, h => by
    have h2 := all_less fun ys hy => h ys (List.mem_cons_of_mem _ hy)
    have h1 := h xs (by simp)
    rw [List.flatten_cons, List.countP_append, List.countP_append]
    omega

/-- The two floats in the middle of a sorted list, and its middle. -/
theorem middle_parts {s : List F64} {m : F64} (hs : s.Pairwise FloatNotAfter) (hmod : ∀ x ∈ s, Moderate x) (h : Middle s m)
    (hpos : 0 < s.length) :
    ∃ (hi : (s.length - 1) / 2 < s.length) (hj : s.length / 2 < s.length),
      FloatNotAfter s[(s.length - 1) / 2] m ∧ FloatNotAfter m s[s.length / 2] ∧
      (s.length % 2 = 0 → FloatNotAfter s[(s.length - 1) / 2] s[s.length / 2] ∧
        m = (s[(s.length - 1) / 2].add s[s.length / 2]).divPos 2) := by
  have hi : (s.length - 1) / 2 < s.length := by omega
  have hj : s.length / 2 < s.length := by omega
  refine ⟨hi, hj, ?_⟩
  rcases h with ⟨hodd, hm⟩ | ⟨heven, a, b, ha, hb, rfl⟩
  · have e : (s.length - 1) / 2 = s.length / 2 := by omega
    rw [List.getElem?_eq_getElem hj] at hm
    cases hm
    obtain ⟨q, hq, _⟩ := hmod _ (List.getElem_mem hj)
    have hr := (floatNotAfter_finite hq hq).2 le_rfl
    simp only [e]
    exact ⟨hr, hr, fun h => by omega⟩
  · have e : (s.length - 1) / 2 = s.length / 2 - 1 := by omega
    rw [List.getElem?_eq_getElem hj] at hb
    rw [← e, List.getElem?_eq_getElem hi] at ha
    cases ha; cases hb
    have hab := List.pairwise_iff_getElem.1 hs _ _ hi hj (by omega)
    obtain ⟨k1, k2⟩ := half_inside (hmod _ (List.getElem_mem hi)) (hmod _ (List.getElem_mem hj)) hab
    exact ⟨k1, k2, fun _ => ⟨hab, rfl⟩⟩

open Classical in
/-- C179: the median of all values lies between medians of the groups: one of these is not smaller and one is not
greater. Missing: floats whose sum may overflow (`C39_median_overflow`). -/
theorem C179_median_partial {env : Env} {f : FieldId} {es : List Entity} {groups : List (List Entity)}
    (h : Divided es groups) (hnum : ∀ v ∈ present f es, IsNumber v) (hne : present f es ≠ [])
    (hmod : ∀ x ∈ asFloats env (present f es), Moderate x) :
    ∃ m, Aggregation.execute env (.median (.regular f)) es = .ok (.median m) ∧
      (∃ g ∈ groups, ∃ k, Aggregation.execute env (.median (.regular f)) g = .ok (.median k) ∧ FloatNotAfter m k) ∧
      (∃ g ∈ groups, ∃ k, Aggregation.execute env (.median (.regular f)) g = .ok (.median k) ∧ FloatNotAfter k m) := by
  by_cases hodd : (asFloats env (present f es)).length % 2 = 1
  · exact odd_median_groups h hnum hmod hodd
  obtain ⟨m, s, em, hps, hss, hmid⟩ := C39_median_middle env f es hnum hne fun x hx => (hmod x hx).ne_nan
  have hp := h.present f
  have hpf : (asFloats env (present f es)).Perm (groups.map fun g => asFloats env (present f g)).flatten := by
    have : (asFloats env (present f es)).Perm (asFloats env (groups.map (present f)).flatten) := hp.filterMap _
    rw [asFloats_flatten, List.map_map] at this
    exact this
  have hin : ∀ g ∈ groups, ∀ v ∈ present f g, v ∈ present f es := fun g hg v hv =>
    hp.mem_iff.2 (List.mem_flatten.2 ⟨_, List.mem_map_of_mem hg, hv⟩)
  have hinf : ∀ g ∈ groups, ∀ x ∈ asFloats env (present f g), Moderate x := fun g hg x hx =>
    hmod x (hpf.mem_iff.2 (List.mem_flatten.2 ⟨_, List.mem_map_of_mem (f := fun g => asFloats env (present f g)) hg, hx⟩))
  have hsm : ∀ x ∈ s, Moderate x := fun x hx => hmod x (hps.mem_iff.1 hx)
  have hev : s.length % 2 = 0 := by have := hps.length_eq; omega
  have hpos : 0 < s.length := by
    rcases hmid with ⟨h1, _⟩ | ⟨_, a, b, ha, _, _⟩
    · omega
    · exact List.length_pos_of_mem (List.mem_of_getElem? ha)
  obtain ⟨hi, hj, hlm, hmu, hboth⟩ := middle_parts hss hsm hmid hpos
  obtain ⟨hlu, hm⟩ := hboth hev
  have hs' : s.Pairwise fun a b => medianLe a b = true := hss.imp_of_mem fun {a b} ha hb hab =>
    (medianLe_spec (hsm a ha).ne_nan (hsm b hb).ne_nan).2 hab
  have ci := sorted_counts (fun x hx => (hmod x hx).ne_nan) hps hs' hi
  have cj := sorted_counts (fun x hx => (hmod x hx).ne_nan) hps hs' hj
  have lmod := hsm _ (List.getElem_mem hi)
  have umod := hsm _ (List.getElem_mem hj)
  generalize hl : s[(s.length - 1) / 2] = l at *
  generalize hu : s[s.length / 2] = u at *
  have hlen := hps.length_eq
  unfold atMost atLeast at ci cj
  rw [hpf.countP_eq, hpf.countP_eq] at ci cj
  rw [hpf.length_eq] at hlen
  -- a group that has values
  have group : ∀ g ∈ groups, present f g ≠ [] → ∃ k t, Aggregation.execute env (.median (.regular f)) g = .ok (.median k) ∧
      t.Perm (asFloats env (present f g)) ∧ t.Pairwise FloatNotAfter ∧ Middle t k ∧ (∀ x ∈ t, Moderate x) ∧ 0 < t.length := by
    intro g hg hgne
    obtain ⟨k, t, ek, hpt, hst, hmt⟩ := C39_median_middle env f g (fun v hv => hnum v (hin g hg v hv)) hgne
      fun x hx => (hinf g hg x hx).ne_nan
    refine ⟨k, t, ek, hpt, hst, hmt, fun x hx => hinf g hg x (hpt.mem_iff.1 hx), ?_⟩
    rcases hmt with ⟨h1, _⟩ | ⟨_, a, b, ha, _, _⟩
    · omega
    · exact List.length_pos_of_mem (List.mem_of_getElem? ha)
  refine ⟨m, em, ?_, ?_⟩
  · by_contra hc
    have h1 : ∀ xs ∈ groups.map (fun g => asFloats env (present f g)),
        2 * xs.countP (fun x => decide (FloatNotAfter u x)) ≤ xs.length := by
      intro xs hxs
      obtain ⟨g, hg, rfl⟩ := List.mem_map.1 hxs
      by_cases hgne : present f g = []
      · simp [hgne, asFloats]
      · obtain ⟨k, t, ek, hpt, hst, hmt, htm, htp⟩ := group g hg hgne
        obtain ⟨ti, tj, k1, k2, _⟩ := middle_parts hst htm hmt htp
        by_contra hbig
        rw [← hpt.countP_eq, ← hpt.length_eq] at hbig
        have := at_least_here hst (u := u) ti (by unfold atLeast; omega)
        exact hc ⟨g, hg, k, ek, floatNotAfter_trans hmu (floatNotAfter_trans this k1)⟩
    obtain ⟨h2, h3⟩ := all_half h1
    have heq := h3 (by omega)
    have h4 : ∀ xs ∈ groups.map (fun g => asFloats env (present f g)),
        xs.countP (fun x => decide (FloatNotAfter l x)) ≤ xs.countP (fun x => decide (FloatNotAfter u x)) := by
      intro xs hxs
      have he := heq xs hxs
      obtain ⟨g, hg, rfl⟩ := List.mem_map.1 hxs
      by_cases hgne : present f g = []
      · simp [hgne, asFloats]
      · obtain ⟨k, t, ek, hpt, hst, hmt, htm, htp⟩ := group g hg hgne
        obtain ⟨ti, tj, k1, k2, k3⟩ := middle_parts hst htm hmt htp
        by_contra hbig
        rw [← hpt.countP_eq, ← hpt.countP_eq] at hbig
        rw [← hpt.countP_eq, ← hpt.length_eq] at he
        obtain ⟨kab, rfl⟩ := k3 (by omega)
        have g1 := at_least_here hst (u := l) ti (by unfold atLeast; omega)
        have g2 := at_least_here hst (u := u) tj (by unfold atLeast; omega)
        refine hc ⟨g, hg, _, ek, ?_⟩
        rw [hm]
        exact half_mono lmod umod (htm _ (List.getElem_mem ti)) (htm _ (List.getElem_mem tj)) hlu kab g1 g2
    have h5 := all_less h4
    omega
  · by_contra hc
    have h1 : ∀ xs ∈ groups.map (fun g => asFloats env (present f g)),
        2 * xs.countP (fun x => decide (FloatNotAfter x l)) ≤ xs.length := by
      intro xs hxs
      obtain ⟨g, hg, rfl⟩ := List.mem_map.1 hxs
      by_cases hgne : present f g = []
      · simp [hgne, asFloats]
      · obtain ⟨k, t, ek, hpt, hst, hmt, htm, htp⟩ := group g hg hgne
        obtain ⟨ti, tj, k1, k2, _⟩ := middle_parts hst htm hmt htp
        by_contra hbig
        rw [← hpt.countP_eq, ← hpt.length_eq] at hbig
        have := at_most_here hst (l := l) tj (by unfold atMost; omega)
        exact hc ⟨g, hg, k, ek, floatNotAfter_trans k2 (floatNotAfter_trans this hlm)⟩
    obtain ⟨h2, h3⟩ := all_half h1
    have heq := h3 (by omega)
    have h4 : ∀ xs ∈ groups.map (fun g => asFloats env (present f g)),
        xs.countP (fun x => decide (FloatNotAfter x u)) ≤ xs.countP (fun x => decide (FloatNotAfter x l)) := by
      intro xs hxs
      have he := heq xs hxs
      obtain ⟨g, hg, rfl⟩ := List.mem_map.1 hxs
      by_cases hgne : present f g = []
      · simp [hgne, asFloats]
      · obtain ⟨k, t, ek, hpt, hst, hmt, htm, htp⟩ := group g hg hgne
        obtain ⟨ti, tj, k1, k2, k3⟩ := middle_parts hst htm hmt htp
        by_contra hbig
        rw [← hpt.countP_eq, ← hpt.countP_eq] at hbig
        rw [← hpt.countP_eq, ← hpt.length_eq] at he
        obtain ⟨kab, rfl⟩ := k3 (by omega)
        have g1 := at_most_here hst (l := l) ti (by unfold atMost; omega)
        have g2 := at_most_here hst (l := u) tj (by unfold atMost; omega)
        refine hc ⟨g, hg, _, ek, ?_⟩
        rw [hm]
        exact half_mono (htm _ (List.getElem_mem ti)) (htm _ (List.getElem_mem tj)) lmod umod kab hlu g1 g2
    have h5 := all_less h4
    omega

/-! ## Examples -/

example : ∀ x ∈ asFloats exEnv (present "a".toList (exGroups.flatten ++ [exAmount "4" (.integer 5)])), Moderate x := by
  intro x hx
  have : asFloats exEnv (present "a".toList (exGroups.flatten ++ [exAmount "4" (.integer 5)])) =
      [F64.ofInt 3, F64.ofInt 9, F64.ofInt (-4), F64.ofInt 5] := rfl
  rw [this] at hx
  simp only [List.mem_cons, List.not_mem_nil, or_false] at hx
  rcases hx with rfl | rfl | rfl | rfl <;> exact moderate_ofInt (by decide)
example : Aggregation.execute exEnv (.median (.regular "a".toList)) (exGroups.flatten ++ [exAmount "4" (.integer 5)]) =
      .ok (.median (.fin 4)) ∧
    ((exGroups ++ [[exAmount "4" (.integer 5)]]).map fun g => Aggregation.execute exEnv (.median (.regular "a".toList)) g) =
      [.ok (.median (.fin 6)), .error (.invalidAggregation .emptyResult), .ok (.median (.fin (-4))),
        .ok (.median (.fin 5))] := by decide +kernel

end Firm
