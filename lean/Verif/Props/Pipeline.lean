import Verif.Props.Order

/-!
# Several clauses in a row (C29, C33)
-/

namespace Firm
open Spec

open Classical in
/-- C29: ordering by a first and then by a second field sorts by the second and, where that one does not decide,
by the first. -/
theorem C29_two (env : Env) (rt : Runtime) (g : Graph) (f f' : FieldRef) (dir dir' : SortDirection)
    (es : List Entity) (h : OneKind f es) (h' : OneKind f' es) :
    ∃ r, applyOperations env rt g [.order f dir, .order f' dir'] es = .ok r ∧ r.Perm es ∧
      r.Pairwise fun x y => InOrder env f' dir' x y ∧ (Tied env f' x y → InOrder env f dir x y) := by
  obtain ⟨m, e1, p1, s1, -, -⟩ := C29_stable_sort env rt f dir es h
  have h2 : OneKind f' m := by
    obtain ⟨k, hk, h⟩ := h'
    exact ⟨k, hk, fun e he => h e (p1.mem_iff.1 he)⟩
  obtain ⟨r, e2, p2, s2, t2, -⟩ := C29_stable_sort env rt f' dir' m h2
  refine ⟨r, ?_, p2.trans p1, ?_⟩
  · simp only [applyOperations, applyOperation, e1, e2]
  · rw [List.pairwise_iff_forall_sublist] at s2 ⊢
    intro x y hxy
    refine ⟨s2 hxy, fun ht => ?_⟩
    have hx : x ∈ m := p2.mem_iff.1 (hxy.subset (by simp))
    have hsub := (hxy.filter (fun e => decide (Tied env f' x e)))
    rw [t2 x hx] at hsub
    have hxx : Tied env f' x x := by
      have hle : orderLe env f' .ascending x x = true := by
        rw [orderLe_asc]
        cases valueAt x f' with
        | none => rfl
        | some v => simp only [compareOptValues]; rw [C30_reflexive]; rfl
      have := (orderLe_inOrder env f' .ascending h2 hx hx).1 hle
      exact ⟨this, this⟩
    simp only [List.filter_cons, hxx, ht, decide_true, if_true, List.filter_nil] at hsub
    exact (List.pairwise_iff_forall_sublist.1 s1) (hsub.trans List.filter_sublist)

/-- C33: after ordering, `limit n` gives the first `n`: nothing that is left out belongs before anything that is
kept. -/
theorem C33_first (env : Env) (rt : Runtime) (g : Graph) (f : FieldRef) (dir : SortDirection) (n : Nat)
    (es : List Entity) (h : OneKind f es) :
    ∃ r rest, applyOperations env rt g [.order f dir, .limit n] es = .ok r ∧ (r ++ rest).Perm es ∧
      (r.length = n ∨ rest = []) ∧ ∀ x ∈ r, ∀ y ∈ rest, InOrder env f dir x y := by
  obtain ⟨m, e1, p1, s1, -, -⟩ := C29_stable_sort env rt f dir es h
  refine ⟨m.take n, m.drop n, ?_, ?_, ?_, ?_⟩
  · simp only [applyOperations, applyOperation, e1]
  · rw [List.take_append_drop]; exact p1
  · rw [List.length_take]
    by_cases hl : n ≤ m.length
    · left; omega
    · right; exact List.drop_eq_nil_of_le (by omega)
  · rw [← List.take_append_drop n m, List.pairwise_append] at s1
    exact s1.2.2

/-! ### A case -/

example : OneKind (.regular "name".toList) [exTask, exAlice] := ⟨.string, by decide, by decide⟩
example : ∃ r, applyOperations exEnv exRt (Graph.run []) [.order (.regular "name".toList) .ascending, .limit 1]
    [exTask, exAlice] = .ok r ∧ r = [exAlice] := ⟨_, rfl, by decide⟩

end Firm
