import Verif.Model.Sort

/-! Lemmas about the stable sort. -/

namespace Firm

variable {α : Type} {le : α → α → Bool}

theorem insertSorted_perm (le : α → α → Bool) (x : α) (l : List α) :
    (insertSorted le x l).Perm (x :: l) := by
  induction l with
  | nil => exact List.Perm.refl _
  | cons y ys ih =>
    unfold insertSorted
    split
    · exact List.Perm.refl _
    · exact (ih.cons y).trans (List.Perm.swap x y ys)

theorem stableSort_perm (le : α → α → Bool) (l : List α) : (stableSort le l).Perm l := by
  induction l with
  | nil => exact List.Perm.refl _
  | cons x xs ih => exact (insertSorted_perm le x _).trans (ih.cons x)

/-- `le` is a total preorder on the elements satisfying `P`. -/
structure TotalPreorderOn (le : α → α → Bool) (P : α → Prop) : Prop where
  total : ∀ a b, P a → P b → le a b = true ∨ le b a = true
  trans : ∀ a b c, P a → P b → P c → le a b = true → le b c = true → le a c = true

theorem TotalPreorderOn.refl {P : α → Prop} (h : TotalPreorderOn le P) {a : α} (ha : P a) :
    le a a = true := by rcases h.total a a ha ha with h | h <;> exact h

theorem TotalPreorderOn.mono {P Q : α → Prop} (h : TotalPreorderOn le P) (hq : ∀ a, Q a → P a) :
    TotalPreorderOn le Q :=
  ⟨fun a b ha hb => h.total a b (hq a ha) (hq b hb),
   fun a b c ha hb hc => h.trans a b c (hq a ha) (hq b hb) (hq c hc)⟩

theorem insertSorted_sorted {P : α → Prop} (h : TotalPreorderOn le P) {x : α} {l : List α}
    (hx : P x) (hl : ∀ a ∈ l, P a) (hs : l.Pairwise fun a b => le a b = true) :
    (insertSorted le x l).Pairwise fun a b => le a b = true := by
  induction l with
  | nil => exact List.pairwise_singleton _ _
  | cons y ys ih =>
    have hc := List.pairwise_cons.1 hs
    have hy := hl y (by simp)
    have hys : ∀ a ∈ ys, P a := fun a ha => hl a (by simp [ha])
    unfold insertSorted
    split
    · rename_i hxy
      refine List.pairwise_cons.2 ⟨?_, hs⟩
      intro b hb
      rcases List.mem_cons.1 hb with rfl | hb'
      · exact hxy
      · exact h.trans x y b hx hy (hys b hb') hxy (hc.1 b hb')
    · rename_i hxy
      refine List.pairwise_cons.2 ⟨?_, ih hys hc.2⟩
      intro b hb
      have := (insertSorted_perm le x ys).mem_iff.1 hb
      rcases List.mem_cons.1 this with rfl | hb'
      · rcases h.total b y hx hy with h1 | h1
        · exact absurd h1 hxy
        · exact h1
      · exact hc.1 b hb'

theorem stableSort_sorted {P : α → Prop} (h : TotalPreorderOn le P) {l : List α}
    (hl : ∀ a ∈ l, P a) : (stableSort le l).Pairwise fun a b => le a b = true := by
  induction l with
  | nil => exact List.Pairwise.nil
  | cons x xs ih =>
    have hxs : ∀ a ∈ xs, P a := fun a ha => hl a (by simp [ha])
    exact insertSorted_sorted h (hl x (by simp))
      (fun a ha => hxs a ((stableSort_perm le xs).mem_iff.1 ha)) (ih hxs)

/-- Filtering an insertion into a sorted list. -/
theorem filter_insertSorted {P : α → Prop} (h : TotalPreorderOn le P) (p : α → Bool) {x : α}
    {l : List α} (hx : P x) (hl : ∀ a ∈ l, P a) (hs : l.Pairwise fun a b => le a b = true) :
    (insertSorted le x l).filter p =
      if p x then insertSorted le x (l.filter p) else l.filter p := by
  induction l with
  | nil => by_cases hp : p x <;> simp [insertSorted, hp]
  | cons y ys ih =>
    have hc := List.pairwise_cons.1 hs
    have hy := hl y (by simp)
    have hys : ∀ a ∈ ys, P a := fun a ha => hl a (by simp [ha])
    have hins : insertSorted le x (y :: ys) =
        if le x y then x :: y :: ys else y :: insertSorted le x ys := rfl
    rw [hins]
    by_cases hxy : le x y = true
    · rw [if_pos hxy]
      by_cases hp : p x = true
      · rw [List.filter_cons, if_pos hp, if_pos hp]
        -- x is below everything in the list
        have hall : ∀ z ∈ (y :: ys).filter p, le x z = true := by
          intro z hz
          rw [List.mem_filter] at hz
          rcases List.mem_cons.1 hz.1 with rfl | hz'
          · exact hxy
          · exact h.trans x y z hx hy (hys z hz') hxy (hc.1 z hz')
        cases hf : (y :: ys).filter p with
        | nil => rfl
        | cons z zs =>
          have : le x z = true := hall z (by rw [hf]; simp)
          simp [insertSorted, this]
      · rw [List.filter_cons, if_neg hp, if_neg hp]
    · rw [if_neg hxy]
      by_cases hp : p x = true
      · rw [if_pos hp]
        have := ih hys hc.2
        rw [if_pos hp] at this
        by_cases hq : p y = true
        · rw [List.filter_cons, if_pos hq, List.filter_cons, if_pos hq, this]
          simp [insertSorted, hxy]
        · rw [List.filter_cons, if_neg hq, List.filter_cons, if_neg hq, this]
      · rw [if_neg hp]
        have := ih hys hc.2
        rw [if_neg hp] at this
        by_cases hq : p y = true
        · rw [List.filter_cons, if_pos hq, List.filter_cons, if_pos hq, this]
        · rw [List.filter_cons, if_neg hq, List.filter_cons, if_neg hq, this]

/-- Sorting and filtering commute. -/
theorem filter_stableSort {P : α → Prop} (h : TotalPreorderOn le P) (p : α → Bool) {l : List α}
    (hl : ∀ a ∈ l, P a) : (stableSort le l).filter p = stableSort le (l.filter p) := by
  induction l with
  | nil => rfl
  | cons x xs ih =>
    have hxs : ∀ a ∈ xs, P a := fun a ha => hl a (by simp [ha])
    have hperm := stableSort_perm le xs
    have := filter_insertSorted h p (x := x) (l := stableSort le xs) (hl x (by simp))
      (fun a ha => hxs a (hperm.mem_iff.1 ha)) (stableSort_sorted h hxs)
    simp only [stableSort]
    rw [this, ih hxs]
    by_cases hp : p x = true
    · rw [if_pos hp, List.filter_cons, if_pos hp]; rfl
    · rw [if_neg hp, List.filter_cons, if_neg hp]

/-- A list that is already sorted is left alone. -/
theorem stableSort_of_sorted {l : List α} (hs : l.Pairwise fun a b => le a b = true) :
    stableSort le l = l := by
  induction l with
  | nil => rfl
  | cons x xs ih =>
    have hc := List.pairwise_cons.1 hs
    simp only [stableSort]
    rw [ih hc.2]
    cases xs with
    | nil => rfl
    | cons y ys => simp [insertSorted, hc.1 y (by simp)]

/-- Elements equivalent to `x`. -/
def equivTo (le : α → α → Bool) (x : α) (a : α) : Bool := le a x && le x a

/-- Stability: elements that compare equal keep their relative order. -/
theorem stableSort_stable {P : α → Prop} (h : TotalPreorderOn le P) {l : List α}
    (hl : ∀ a ∈ l, P a) {x : α} (hx : P x) :
    (stableSort le l).filter (equivTo le x) = l.filter (equivTo le x) := by
  rw [filter_stableSort h _ hl]
  apply stableSort_of_sorted
  rw [List.pairwise_iff_forall_sublist]
  intro a b hab
  have ha : a ∈ l.filter (equivTo le x) := hab.subset (by simp)
  have hb : b ∈ l.filter (equivTo le x) := hab.subset (by simp)
  rw [List.mem_filter] at ha hb
  unfold equivTo at ha hb
  simp only [Bool.and_eq_true] at ha hb
  exact h.trans a x b (hl a ha.1) hx (hl b hb.1) ha.2.1 hb.2.2

/-- The stable sorted permutation is unique. -/
theorem stableSort_unique {P : α → Prop} (h : TotalPreorderOn le P) {l l' : List α}
    (hl : ∀ a ∈ l, P a) (hp : l'.Perm l) (hs : l'.Pairwise fun a b => le a b = true)
    (hst : ∀ x ∈ l, l'.filter (equivTo le x) = l.filter (equivTo le x)) :
    l' = stableSort le l := by
  -- two sorted lists with the same equivalence classes are equal
  have key : ∀ (a b : List α), (∀ x ∈ a, P x) → (∀ x ∈ b, P x) →
      a.Pairwise (fun a b => le a b = true) → b.Pairwise (fun a b => le a b = true) →
      (∀ x, P x → a.filter (equivTo le x) = b.filter (equivTo le x)) → a = b := by
    intro a
    induction a with
    | nil =>
      intro b _ hb _ _ hf
      cases b with
      | nil => rfl
      | cons y ys =>
        have hy := hb y (by simp)
        have := hf y hy
        simp [equivTo, h.refl hy] at this
    | cons x xs ih =>
      intro b ha hb sa sb hf
      have hx := ha x (by simp)
      cases b with
      | nil =>
        have := hf x hx
        simp [equivTo, h.refl hx] at this
      | cons y ys =>
        have hy := hb y (by simp)
        have ca := List.pairwise_cons.1 sa
        have cb := List.pairwise_cons.1 sb
        -- x occurs in b, y occurs in a
        have hxb : x ∈ y :: ys := by
          have : x ∈ (x :: xs).filter (equivTo le x) := by
            simp [equivTo, h.refl hx]
          rw [hf x hx] at this
          exact (List.mem_filter.1 this).1
        have hya : y ∈ x :: xs := by
          have : y ∈ (y :: ys).filter (equivTo le y) := by
            simp [equivTo, h.refl hy]
          rw [← hf y hy] at this
          exact (List.mem_filter.1 this).1
        have hxy : le x y = true := by
          rcases List.mem_cons.1 hya with rfl | h1
          · exact h.refl hx
          · exact ca.1 y h1
        have hyx : le y x = true := by
          rcases List.mem_cons.1 hxb with rfl | h1
          · exact h.refl hx
          · exact cb.1 x h1
        have h1 := hf x hx
        have e1 : equivTo le x x = true := by simp [equivTo, h.refl hx]
        have e2 : equivTo le x y = true := by simp [equivTo, hxy, hyx]
        rw [List.filter_cons, if_pos e1, List.filter_cons, if_pos e2] at h1
        injection h1 with h2 _
        subst h2
        congr 1
        refine ih ys (fun z hz => ha z (by simp [hz])) (fun z hz => hb z (by simp [hz])) ca.2 cb.2 ?_
        intro z hz
        have h3 := hf z hz
        rw [List.filter_cons, List.filter_cons] at h3
        by_cases e3 : equivTo le z x = true
        · simpa [e3] using h3
        · simpa [e3] using h3
  have hl' : ∀ a ∈ l', P a := fun a ha => hl a (hp.mem_iff.1 ha)
  refine key l' (stableSort le l) hl' (fun a ha => hl a ((stableSort_perm le l).mem_iff.1 ha)) hs
    (stableSort_sorted h hl) ?_
  intro x hx
  rw [stableSort_stable h hl hx]
  -- classes of elements outside `l` are either empty or represented inside
  by_cases hex : ∃ y ∈ l, equivTo le x y = true
  · obtain ⟨y, hy, hxy⟩ := hex
    have hPy := hl y hy
    have heq : ∀ a, P a → equivTo le x a = equivTo le y a := by
      intro a ha
      unfold equivTo at hxy ⊢
      simp only [Bool.and_eq_true] at hxy
      rw [Bool.eq_iff_iff]
      simp only [Bool.and_eq_true]
      constructor
      · rintro ⟨h1, h2⟩
        exact ⟨h.trans a x y ha hx hPy h1 hxy.2, h.trans y x a hPy hx ha hxy.1 h2⟩
      · rintro ⟨h1, h2⟩
        exact ⟨h.trans a y x ha hPy hx h1 hxy.1, h.trans x y a hx hPy ha hxy.2 h2⟩
    rw [List.filter_congr (fun a ha => heq a (hl' a ha)),
      List.filter_congr (fun a ha => heq a (hl a ha))]
    exact hst y hy
  · have h1 : l.filter (equivTo le x) = [] := by
      rw [List.filter_eq_nil_iff]; exact fun a ha hc => hex ⟨a, ha, hc⟩
    have h2 : l'.filter (equivTo le x) = [] := by
      rw [List.filter_eq_nil_iff]; exact fun a ha hc => hex ⟨a, hp.mem_iff.1 ha, hc⟩
    rw [h1, h2]

end Firm
