import Verif.Lemmas.Graph
import Verif.Spec.Query
import Mathlib.Tactic.Tauto

/-! # Lemmas about the related traversal -/

namespace Firm
open Spec

theorem mem_foldl_setInsert (l s : List Str) (x : Str) :
    x ∈ l.foldl setInsert s ↔ x ∈ s ∨ x ∈ l := by
  induction l generalizing s with
  | nil => simp
  | cons a l ih =>
    simp only [List.foldl_cons, ih, List.mem_cons]
    unfold setInsert
    split
    · rename_i h
      constructor
      · rintro (h' | h') <;> tauto
      · rintro (h' | rfl | h') <;> tauto
    · simp only [List.mem_append, List.mem_singleton]; tauto

theorem nodup_foldl_setInsert (l s : List Str) (hs : s.Nodup) : (l.foldl setInsert s).Nodup := by
  induction l generalizing s with
  | nil => exact hs
  | cons a l ih =>
    simp only [List.foldl_cons]
    apply ih
    unfold setInsert
    split
    · exact hs
    · rename_i h
      rw [List.nodup_append]
      refine ⟨hs, by simp, ?_⟩
      intro x hx y hy
      simp only [List.mem_singleton] at hy
      rintro rfl
      exact h (hy ▸ hx)

/-- One or more and at most `n` links. -/
inductive WithinPlus {α : Type} (link : α → α → Prop) : Nat → α → α → Prop
  | one (n : Nat) (a b : α) : link a b → WithinPlus link (n + 1) a b
  | step (n : Nat) (a b c : α) : link a b → WithinPlus link n b c → WithinPlus link (n + 1) a c

theorem within_iff_plus {α : Type} (link : α → α → Prop) (n : Nat) (a c : α) :
    Within link n a c ↔ a = c ∨ WithinPlus link n a c := by
  constructor
  · intro h
    induction h with
    | here n a => exact .inl rfl
    | step n a b c hab _ ih =>
      rcases ih with rfl | ih
      · exact .inr (.one n _ _ hab)
      · exact .inr (.step n _ _ _ hab ih)
  · rintro (rfl | h)
    · exact .here n a
    · induction h with
      | one n a b hab => exact .step n _ _ _ hab (.here n b)
      | step n a b c hab _ ih => exact .step n _ _ _ hab ih

theorem withinPlus_zero {α : Type} {link : α → α → Prop} {a c : α} : ¬ WithinPlus link 0 a c := by
  intro h; cases h

theorem withinPlus_succ {α : Type} {link : α → α → Prop} {n : Nat} {a c : α} :
    WithinPlus link (n + 1) a c ↔ ∃ b, link a b ∧ (b = c ∨ WithinPlus link n b c) := by
  constructor
  · intro h
    cases h with
    | one _ _ _ h => exact ⟨c, h, .inl rfl⟩
    | step _ _ b _ h h' => exact ⟨b, h, .inr h'⟩
  · rintro ⟨b, h, rfl | h'⟩
    · exact .one n _ _ h
    · exact .step n _ _ _ h h'

/-- The link relation on ids seen by the traversal. -/
def idLink (g : Graph) (a b : EntityId) : Prop := b ∈ relatedIds g a

theorem relatedLoop_succ (rt : Runtime) (nonce : Nat) (g : Graph) (n : Nat)
    (cur all : List EntityId) :
    relatedLoop rt nonce g (n + 1) cur all =
      if (((rt.order (nonce * 8 + n + 1) cur).flatMap (relatedIds g)).foldl setInsert []).isEmpty then
        ((rt.order (nonce * 8 + n + 1) cur).flatMap (relatedIds g)).foldl setInsert all
      else relatedLoop rt nonce g n
        (((rt.order (nonce * 8 + n + 1) cur).flatMap (relatedIds g)).foldl setInsert [])
        (((rt.order (nonce * 8 + n + 1) cur).flatMap (relatedIds g)).foldl setInsert all) := rfl

theorem mem_relatedLoop (rt : Runtime) (nonce : Nat) (g : Graph) (n : Nat) (cur all : List EntityId)
    (x : EntityId) :
    x ∈ relatedLoop rt nonce g n cur all ↔
      x ∈ all ∨ ∃ y ∈ cur, WithinPlus (idLink g) n y x := by
  induction n generalizing cur all with
  | zero => simp [relatedLoop, withinPlus_zero]
  | succ n ih =>
    have hfound : ∀ z, z ∈ (rt.order (nonce * 8 + n + 1) cur).flatMap (relatedIds g) ↔
        ∃ y ∈ cur, idLink g y z := by
      intro z
      simp only [List.mem_flatMap, (rt.order_perm _ cur).mem_iff]; rfl
    rw [relatedLoop_succ]
    by_cases hempty : (((rt.order (nonce * 8 + n + 1) cur).flatMap (relatedIds g)).foldl setInsert
      []).isEmpty = true
    · rw [if_pos hempty]
      have hno : ∀ z, ¬ ∃ y ∈ cur, idLink g y z := by
        intro z hz
        have hz' := (mem_foldl_setInsert _ [] z).2 (.inr ((hfound z).2 hz))
        rw [List.isEmpty_iff.1 hempty] at hz'
        simp at hz'
      rw [mem_foldl_setInsert, hfound]
      constructor
      · rintro (h | h)
        · exact .inl h
        · exact absurd h (hno x)
      · rintro (h | ⟨y, hy, h⟩)
        · exact .inl h
        · obtain ⟨b, hb, _⟩ := withinPlus_succ.1 h
          exact absurd ⟨y, hy, hb⟩ (hno b)
    · rw [if_neg hempty, ih, mem_foldl_setInsert, hfound]
      simp only [mem_foldl_setInsert, hfound, List.not_mem_nil, false_or, withinPlus_succ]
      constructor
      · rintro ((h | ⟨y, hy, h⟩) | ⟨z, ⟨y, hy, hyz⟩, h⟩)
        · exact .inl h
        · exact .inr ⟨y, hy, x, h, .inl rfl⟩
        · exact .inr ⟨y, hy, z, hyz, .inr h⟩
      · rintro (h | ⟨y, hy, b, hb, rfl | h⟩)
        · exact .inl (.inl h)
        · exact .inl (.inr ⟨y, hy, hb⟩)
        · exact .inr ⟨b, ⟨y, hy, hb⟩, h⟩

theorem nodup_relatedLoop (rt : Runtime) (nonce : Nat) (g : Graph) (n : Nat)
    (cur all : List EntityId) (h : all.Nodup) : (relatedLoop rt nonce g n cur all).Nodup := by
  induction n generalizing cur all with
  | zero => exact h
  | succ n ih =>
    rw [relatedLoop_succ]
    by_cases hempty : (((rt.order (nonce * 8 + n + 1) cur).flatMap (relatedIds g)).foldl setInsert
      []).isEmpty = true
    · rw [if_pos hempty]; exact nodup_foldl_setInsert _ _ h
    · rw [if_neg hempty]; exact ih _ _ (nodup_foldl_setInsert _ _ h)

/-- Link as observed through `get_related` without direction. -/
def Graph.link (g : Graph) (a b : Entity) : Prop :=
  a ∈ g.nodes ∧ ∃ l, g.getRelated a.id none = some l ∧ b ∈ l

theorem Inv.link_iff {g : Graph} (h : Inv g) {a b : Entity} (ha : a ∈ g.nodes) :
    g.link a b ↔ Linked g a b ∨ Linked g b a := by
  obtain ⟨l, h1, _, h3⟩ := h.getRelated_some ha none
  unfold Graph.link
  constructor
  · rintro ⟨_, l', hl, hb⟩
    rw [h1] at hl; cases hl
    exact (h3 b).1 hb
  · intro hl; exact ⟨ha, l, h1, (h3 b).2 hl⟩

theorem Inv.link_mem {g : Graph} (h : Inv g) {a b : Entity} (hl : g.link a b) : b ∈ g.nodes := by
  rcases (h.link_iff hl.1).1 hl with h' | h'
  · exact h'.mem_right
  · exact h'.mem_left

theorem Inv.idLink_iff {g : Graph} (h : Inv g) {a : Entity} (ha : a ∈ g.nodes) (y : EntityId) :
    idLink g a.id y ↔ ∃ b ∈ g.nodes, b.id = y ∧ g.link a b := by
  obtain ⟨l, h1, _, h3⟩ := h.getRelated_some ha none
  have hb : ∀ b ∈ l, g.link a b := fun b hb => ⟨ha, l, h1, hb⟩
  unfold idLink relatedIds
  rw [h1]
  simp only [List.mem_map]
  constructor
  · rintro ⟨b, hm, rfl⟩; exact ⟨b, h.link_mem (hb b hm), rfl, hb b hm⟩
  · rintro ⟨b, _, rfl, hl⟩
    obtain ⟨_, l', hl', hm⟩ := hl
    rw [h1] at hl'; cases hl'
    exact ⟨b, hm, rfl⟩

theorem Inv.within_id_iff {g : Graph} (h : Inv g) {a c : Entity} (ha : a ∈ g.nodes)
    (hc : c ∈ g.nodes) (n : Nat) : WithinPlus (idLink g) n a.id c.id ↔ WithinPlus g.link n a c := by
  induction n generalizing a with
  | zero => constructor <;> intro h <;> cases h
  | succ n ih =>
    rw [withinPlus_succ, withinPlus_succ]
    constructor
    · rintro ⟨y, hy, hr⟩
      obtain ⟨b, hb, rfl, hl⟩ := (h.idLink_iff ha y).1 hy
      refine ⟨b, hl, ?_⟩
      rcases hr with hr | hr
      · exact .inl (h.id_inj hb hc hr)
      · exact .inr ((ih hb).1 hr)
    · rintro ⟨b, hl, hr⟩
      have hb := h.link_mem hl
      refine ⟨b.id, (h.idLink_iff ha _).2 ⟨b, hb, rfl, hl⟩, ?_⟩
      rcases hr with rfl | hr
      · exact .inl rfl
      · exact .inr ((ih hb).2 hr)

/-- The type filter of related. -/
def TypeOk (t : Option EntityType) (e : Entity) : Prop := ∀ t', t = some t' → e.entityType = t'

theorem Inv.mem_getRelatedEntities {g : Graph} (h : Inv g) (rt : Runtime) (nonce : Nat)
    (starts : List Entity) (hs : ∀ s ∈ starts, s ∈ g.nodes) (d : Nat) (hd : 1 ≤ d)
    (t : Option EntityType) (e : Entity) :
    e ∈ getRelatedEntities rt nonce g starts d t ↔
      e ∈ g.nodes ∧ (∃ s ∈ starts, Within g.link (min d 5) s e) ∧ TypeOk t e := by
  have hmin : ¬ min d maxDegrees < 1 := by unfold maxDegrees; omega
  have hmain : ∀ e, e ∈ (rt.order (nonce * 8 + 7) (relatedLoop rt nonce g (min d maxDegrees)
        ((starts.map (·.id)).foldl setInsert []) ((starts.map (·.id)).foldl setInsert []))).filterMap
        g.getEntity ↔ e ∈ g.nodes ∧ ∃ s ∈ starts, Within g.link (min d 5) s e := by
    intro e
    simp only [List.mem_filterMap, (rt.order_perm _ _).mem_iff, mem_relatedLoop,
      mem_foldl_setInsert, List.not_mem_nil, false_or, h.getEntity_iff]
    constructor
    · rintro ⟨x, hx, he, rfl⟩
      refine ⟨he, ?_⟩
      rcases hx with hx | ⟨y, hy, hw⟩
      · obtain ⟨s, hsm, hid⟩ := List.mem_map.1 hx
        have := h.id_inj (hs s hsm) he hid
        exact ⟨s, hsm, this ▸ .here _ _⟩
      · obtain ⟨s, hsm, rfl⟩ := List.mem_map.1 hy
        exact ⟨s, hsm, (within_iff_plus _ _ _ _).2
          (.inr ((h.within_id_iff (hs s hsm) he _).1 hw))⟩
    · rintro ⟨he, s, hsm, hw⟩
      refine ⟨e.id, ?_, he, rfl⟩
      rcases (within_iff_plus _ _ _ _).1 hw with rfl | hw
      · exact .inl (List.mem_map.2 ⟨s, hsm, rfl⟩)
      · exact .inr ⟨s.id, List.mem_map.2 ⟨s, hsm, rfl⟩,
          (h.within_id_iff (hs s hsm) he _).2 hw⟩
  unfold getRelatedEntities
  simp only [hmin, if_false]
  cases t with
  | none => simp only [hmain, TypeOk]; simp
  | some t => simp only [List.mem_filter, hmain, TypeOk]; simp [and_assoc]

theorem Inv.nodup_getRelatedEntities {g : Graph} (h : Inv g) (rt : Runtime) (nonce : Nat)
    (starts : List Entity) (d : Nat) (hd : 1 ≤ d) (t : Option EntityType) :
    (getRelatedEntities rt nonce g starts d t).Nodup := by
  have hmin : ¬ min d maxDegrees < 1 := by unfold maxDegrees; omega
  have hmain : ∀ l : List EntityId, l.Nodup → (l.filterMap g.getEntity).Nodup := by
    intro l hl
    induction l with
    | nil => simp
    | cons a l ih =>
      rw [List.nodup_cons] at hl
      rw [List.filterMap_cons]
      cases hg : g.getEntity a with
      | none => exact ih hl.2
      | some e =>
        rw [List.nodup_cons]
        refine ⟨?_, ih hl.2⟩
        intro hm
        obtain ⟨b, hb, hgb⟩ := List.mem_filterMap.1 hm
        rw [h.getEntity_iff] at hg hgb
        exact hl.1 (by rw [← hg.2, hgb.2]; exact hb)
  have hn := hmain _ ((rt.order_perm (nonce * 8 + 7) _).nodup_iff.2
    (nodup_relatedLoop rt nonce g (min d maxDegrees) ((starts.map (·.id)).foldl setInsert [])
      ((starts.map (·.id)).foldl setInsert [])
      (nodup_foldl_setInsert (starts.map (·.id)) [] (by simp))))
  unfold getRelatedEntities
  simp only [hmin, if_false]
  cases t with
  | none => exact hn
  | some t => exact hn.filter _

theorem Within.mono {α : Type} {link : α → α → Prop} {n m : Nat} (hnm : n ≤ m) {a b : α}
    (h : Within link n a b) : Within link m a b := by
  induction h generalizing m with
  | here n a => exact .here m a
  | step n a b c hab _ ih =>
    obtain ⟨m, rfl⟩ : ∃ k, m = k + 1 := ⟨m - 1, by omega⟩
    exact .step m _ _ _ hab (ih (by omega))

theorem Within.congr {α : Type} {l1 l2 : α → α → Prop} (h : ∀ a b, l1 a b ↔ l2 a b) (n : Nat)
    (a b : α) : Within l1 n a b ↔ Within l2 n a b := by
  have : l1 = l2 := by funext a b; exact propext (h a b)
  rw [this]

end Firm
