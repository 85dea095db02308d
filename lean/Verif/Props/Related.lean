import Verif.Lemmas.Related
import Verif.Props.Graph

/-!
# Properties C12–C14: related entities in queries
-/

namespace Firm
open Spec

/-- A runtime for examples: containers iterate backwards, sorting is the stable sort. -/
def exRt : Runtime where
  order := fun _ l => l.reverse
  order_perm := fun _ l => l.reverse_perm
  sort := fun le l => some (stableSort le l)
  sort_perm := by intro le l l' h; cases h; exact stableSort_perm le l
  sort_stable := fun _ _ _ _ => rfl

/-! ## C12 -/

/-- C12: in a graph that was built after the last change, `related(d)` with `d ≥ 1` returns without
repetition exactly the entities within `min d 5` reference links of the input, restricted to the
requested type. -/
theorem C12_related_ball (ops : List GOp) (rt : Runtime) (nonce : Nat) (starts : List Entity)
    (hs : ∀ s ∈ starts, s ∈ accepted ops) (d : Nat) (hd : 1 ≤ d) (t : Option EntityType) :
    (getRelatedEntities rt nonce (Graph.run (ops ++ [.build])) starts d t).Nodup ∧
    ∀ e, e ∈ getRelatedEntities rt nonce (Graph.run (ops ++ [.build])) starts d t ↔
      e ∈ accepted ops ∧ (∃ s ∈ starts, Within (RefLink (accepted ops)) (min d 5) s e) ∧
        ∀ t', t = some t' → e.entityType = t' := by
  have h0 := Inv.run ops
  have hI := Inv.run (ops ++ [.build])
  refine ⟨hI.nodup_getRelatedEntities rt nonce starts d hd t, fun e => ?_⟩
  have hnodes : (Graph.run (ops ++ [.build])).nodes = accepted ops := by
    rw [nodes_run, accepted_snoc]; rfl
  rw [hI.mem_getRelatedEntities rt nonce starts (by rw [hnodes]; exact hs) d hd t e, hnodes]
  have hlink : ∀ a b, (Graph.run (ops ++ [.build])).link a b ↔ RefLink (accepted ops) a b := by
    intro a b
    have hb : ∀ a b, Linked (Graph.run (ops ++ [.build])) a b ↔
        a ∈ accepted ops ∧ b ∈ accepted ops ∧ RefersTo a b.id := by
      intro a b
      rw [run_snoc]
      have := h0.linked_build (a := a) (b := b)
      rw [nodes_run] at this
      exact this
    constructor
    · intro hl
      have ha : a ∈ accepted ops := by rw [← hnodes]; exact hl.1
      rw [hI.link_iff hl.1, hb, hb] at hl
      unfold RefLink; tauto
    · rintro ⟨ha, hbm, hr⟩
      rw [hI.link_iff (by rw [hnodes]; exact ha), hb, hb]
      tauto
  simp only [Within.congr hlink, TypeOk]

/-- C12: on any reachable graph, built or stale, the same holds with "link" meaning "returned by
`get_related` without direction". -/
theorem C12_related_any (ops : List GOp) (rt : Runtime) (nonce : Nat) (starts : List Entity)
    (hs : ∀ s ∈ starts, s ∈ accepted ops) (d : Nat) (hd : 1 ≤ d) (t : Option EntityType) :
    (getRelatedEntities rt nonce (Graph.run ops) starts d t).Nodup ∧
    ∀ e, e ∈ getRelatedEntities rt nonce (Graph.run ops) starts d t ↔
      e ∈ accepted ops ∧
      (∃ s ∈ starts, Within (fun a b => a ∈ accepted ops ∧
        ∃ l, (Graph.run ops).getRelated a.id none = some l ∧ b ∈ l) (min d 5) s e) ∧
      ∀ t', t = some t' → e.entityType = t' := by
  have hI := Inv.run ops
  refine ⟨hI.nodup_getRelatedEntities rt nonce starts d hd t, fun e => ?_⟩
  have hnodes := nodes_run ops
  rw [hI.mem_getRelatedEntities rt nonce starts (by rw [hnodes]; exact hs) d hd t e]
  unfold Graph.link TypeOk
  rw [hnodes]

section Examples
/-- A chain `e0 → e1 → … → e7` of references, the last one pointing back. -/
def exNode (i j : String) (t : String) : Entity :=
  ⟨i.toList, t.toList, [("next".toList, .reference (.entity j.toList))]⟩
def exChainOps : List GOp :=
  [.addAll [exNode "0" "1" "a", exNode "1" "2" "b", exNode "2" "3" "a", exNode "3" "4" "a",
    exNode "4" "5" "a", exNode "5" "6" "a", exNode "6" "7" "b", exNode "7" "7" "a"]]
example : (getRelatedEntities exRt 0 (Graph.run (exChainOps ++ [.build]))
    [exNode "0" "1" "a"] 9 none).map (·.id) =
    ["5".toList, "4".toList, "3".toList, "2".toList, "1".toList, "0".toList] := by decide
example : (getRelatedEntities exRt 0 (Graph.run (exChainOps ++ [.build]))
    [exNode "3" "4" "a"] 2 (some "b".toList)).map (·.id) = ["1".toList] := by decide
end Examples

/-! ## C13 -/

/-- C13, partial: for every degree of at least 1 only entities of the requested type are returned.
Missing: degree 0, where the claim is false (`C13_degree_zero`). -/
theorem C13_type_filter_partial (ops : List GOp) (rt : Runtime) (nonce : Nat) (starts : List Entity)
    (hs : ∀ s ∈ starts, s ∈ accepted ops) (d : Nat) (hd : 1 ≤ d) (t : EntityType) :
    ∀ e ∈ getRelatedEntities rt nonce (Graph.run ops) starts d (some t), e.entityType = t := by
  intro e he
  exact (((C12_related_any ops rt nonce starts hs d hd (some t)).2 e).1 he).2.2 t rfl

/-- C13 is false of the code for degree 0: `related(0) b` keeps an entity of type `a`. -/
theorem C13_degree_zero : ∃ (ops : List GOp) (rt : Runtime) (starts : List Entity) (t : EntityType),
    (∀ s ∈ starts, s ∈ accepted ops) ∧
    ∃ e ∈ getRelatedEntities rt 0 (Graph.run ops) starts 0 (some t), e.entityType ≠ t :=
  ⟨exChainOps, exRt, [exNode "0" "1" "a"], "b".toList, by decide, by decide⟩

/-! ## C14 -/

/-- C14: for `n ≥ 1`, `related(n)` is contained in `related(n+1)`. -/
theorem C14_monotone (ops : List GOp) (rt rt' : Runtime) (nonce nonce' : Nat) (starts : List Entity)
    (hs : ∀ s ∈ starts, s ∈ accepted ops) (n : Nat) (hn : 1 ≤ n) (t : Option EntityType) :
    ∀ e ∈ getRelatedEntities rt nonce (Graph.run ops) starts n t,
      e ∈ getRelatedEntities rt' nonce' (Graph.run ops) starts (n + 1) t := by
  intro e he
  obtain ⟨h1, ⟨s, hsm, hw⟩, h3⟩ := ((C12_related_any ops rt nonce starts hs n hn t).2 e).1 he
  exact ((C12_related_any ops rt' nonce' starts hs (n + 1) (by omega) t).2 e).2
    ⟨h1, ⟨s, hsm, Within.mono (by omega) hw⟩, h3⟩

/-- C14: from degree 5 on the result is the same, up to order. -/
theorem C14_saturates (ops : List GOp) (rt rt' : Runtime) (nonce nonce' : Nat)
    (starts : List Entity) (hs : ∀ s ∈ starts, s ∈ accepted ops) (n : Nat) (hn : 5 ≤ n)
    (t : Option EntityType) :
    (getRelatedEntities rt nonce (Graph.run ops) starts n t).Perm
      (getRelatedEntities rt' nonce' (Graph.run ops) starts 5 t) := by
  have h1 := C12_related_any ops rt nonce starts hs n (by omega) t
  have h2 := C12_related_any ops rt' nonce' starts hs 5 (by omega) t
  rw [List.perm_ext_iff_of_nodup h1.1 h2.1]
  intro e
  rw [h1.2, h2.2]
  have : min n 5 = min 5 5 := by omega
  rw [this]

example : ((getRelatedEntities exRt 0 (Graph.run (exChainOps ++ [.build]))
    [exNode "0" "1" "a"] 2 none).length, (getRelatedEntities exRt 0 (Graph.run (exChainOps ++ [.build]))
    [exNode "0" "1" "a"] 3 none).length) = (3, 4) := by decide

end Firm
