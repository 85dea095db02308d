import Verif.Props.Related
import Verif.Props.Filter

/-!
# C146: steps of related entities add up
-/

namespace Firm
open Spec

namespace Spec

/-- How far a chain of `related` clauses reaches: each clause counts, but with at most five links. -/
def reach : List Nat → Nat
  | [] => 0
  | d :: ds => min d 5 + reach ds

/-- One entity can be reached from the other over references in either direction. -/
inductive Connected (es : List Entity) : Entity → Entity → Prop
  | refl (a : Entity) : Connected es a a
  | step (a b c : Entity) : RefLink es a b → Connected es b c → Connected es a c

end Spec

theorem Within.trans {α : Type} {link : α → α → Prop} {n m : Nat} {a b c : α} (h1 : Within link n a b)
    (h2 : Within link m b c) : Within link (n + m) a c := by
  induction h1 with
  | here n a => exact Within.mono (by omega) h2
  | step n a b' b hab _ ih =>
    have : n + 1 + m = n + m + 1 := by omega
    rw [this]
    exact .step _ _ _ _ hab (ih h2)

theorem Within.split {α : Type} {link : α → α → Prop} (n m : Nat) {a c : α} (h : Within link (n + m) a c) :
    ∃ b, Within link n a b ∧ Within link m b c := by
  induction n generalizing a with
  | zero => exact ⟨a, .here 0 a, by simpa using h⟩
  | succ n ih =>
    generalize hk : n + 1 + m = k at h
    cases h with
    | here => exact ⟨_, .here _ _, .here _ _⟩
    | step k' _ b _ hab hbc =>
      have hk' : k' = n + m := by omega
      subst hk'
      obtain ⟨x, h1, h2⟩ := ih hbc
      exact ⟨x, .step _ _ _ _ hab h1, h2⟩

theorem Within.symm {α : Type} {link : α → α → Prop} (hl : ∀ a b, link a b → link b a) {n : Nat} {a b : α}
    (h : Within link n a b) : Within link n b a := by
  induction h with
  | here n a => exact .here n a
  | step n a b c hab _ ih => exact Within.trans ih (.step 0 b a a (hl _ _ hab) (.here 0 a))

theorem within_mem {es : List Entity} {n : Nat} {a b : Entity} (ha : a ∈ es) (h : Within (RefLink es) n a b) :
    b ∈ es := by
  induction h with
  | here => exact ha
  | step n a b c hab _ ih => exact ih hab.2.1

theorem within_connected {es : List Entity} {n : Nat} {a b : Entity} (h : Within (RefLink es) n a b) :
    Connected es a b := by
  induction h with
  | here n a => exact .refl a
  | step n a b c hab _ ih => exact .step _ _ _ hab ih

theorem refLink_symm (es : List Entity) (a b : Entity) (h : RefLink es a b) : RefLink es b a :=
  ⟨h.2.1, h.1, h.2.2.symm⟩

/-- Any chain of clauses. -/
theorem chain_related (ops : List GOp) (env : Env) (rt : Runtime) (ds : List Nat) (hd : ∀ d ∈ ds, 1 ≤ d)
    (es : List Entity) (hs : ∀ s ∈ es, s ∈ accepted ops) :
    ∃ r, applyOperations env rt (Graph.run (ops ++ [.build])) (ds.map fun d => .related d none) es = .ok r ∧
      (es.Nodup → r.Nodup) ∧ ∀ e, e ∈ r ↔ e ∈ accepted ops ∧ ∃ s ∈ es, Within (RefLink (accepted ops)) (reach ds) s e := by
  induction ds generalizing es with
  | nil =>
    refine ⟨es, rfl, id, fun e => ⟨fun h => ⟨hs e h, e, h, .here _ e⟩, ?_⟩⟩
    rintro ⟨_, s, hm, hw⟩
    cases hw
    exact hm
  | cons d ds ih =>
    have hball := C12_related_ball ops rt (ds.map fun d => QueryOperation.related d none).length es hs d
      (hd d (by simp)) none
    obtain ⟨r, hr, hnd, hmem⟩ := ih (fun x hx => hd x (by simp [hx])) _
      (fun s hsm => ((hball.2 s).1 hsm).1)
    refine ⟨r, hr, fun _ => hnd hball.1, fun e => ?_⟩
    rw [hmem]
    constructor
    · rintro ⟨he, m, hm, hw⟩
      obtain ⟨_, ⟨s, hsm, hw'⟩, _⟩ := (hball.2 m).1 hm
      exact ⟨he, s, hsm, Within.trans hw' hw⟩
    · rintro ⟨he, s, hsm, hw⟩
      obtain ⟨m, h1, h2⟩ := Within.split _ _ hw
      exact ⟨he, m, (hball.2 m).2 ⟨within_mem (hs s hsm) h1, ⟨s, hsm, h1⟩, by simp⟩, h2⟩

/-- C146: a chain of `related` clauses gives, without repetition, exactly the entities within the sum of the
degrees (each counted as at most five) of the input. -/
theorem C146_chain (ops : List GOp) (env : Env) (rt : Runtime) (ds : List Nat) (hd : ∀ d ∈ ds, 1 ≤ d)
    (es : List Entity) (hn : es.Nodup) (hs : ∀ s ∈ es, s ∈ accepted ops) :
    ∃ r, applyOperations env rt (Graph.run (ops ++ [.build])) (ds.map fun d => .related d none) es = .ok r ∧
      r.Nodup ∧ ∀ e, e ∈ r ↔ e ∈ accepted ops ∧ ∃ s ∈ es, Within (RefLink (accepted ops)) (reach ds) s e := by
  obtain ⟨r, h1, h2, h3⟩ := chain_related ops env rt ds hd es hs
  exact ⟨r, h1, h2 hn, h3⟩

/-- C146, partial: two clauses in a row are one with the sum of the degrees, up to order.  Missing: sums above
five, where two clauses reach further (`C146_beyond`). -/
theorem C146_sum_partial (ops : List GOp) (env : Env) (rt rt' : Runtime) (n m : Nat) (hn : 1 ≤ n) (hm : 1 ≤ m)
    (h5 : n + m ≤ 5) (t : Option EntityType) (es : List Entity) (hs : ∀ s ∈ es, s ∈ accepted ops) :
    ∃ r r', applyOperations env rt (Graph.run (ops ++ [.build])) [.related n none, .related m t] es = .ok r ∧
      applyOperations env rt' (Graph.run (ops ++ [.build])) [.related (n + m) t] es = .ok r' ∧ r.Perm r' := by
  have b1 := C12_related_ball ops rt 1 es hs n hn none
  have b2 := C12_related_ball ops rt 0 _ (fun s hsm => ((b1.2 s).1 hsm).1) m hm t
  have b3 := C12_related_ball ops rt' 0 es hs (n + m) (by omega) t
  refine ⟨_, _, rfl, rfl, ?_⟩
  show List.Perm (getRelatedEntities rt 0 _ (getRelatedEntities rt 1 _ es n none) m t) (getRelatedEntities rt' 0 _ es (n + m) t)
  rw [List.perm_ext_iff_of_nodup b2.1 b3.1]
  intro e
  rw [b2.2, b3.2]
  have e1 : min n 5 = n := by omega
  have e2 : min m 5 = m := by omega
  have e3 : min (n + m) 5 = n + m := by omega
  rw [e2, e3]
  rw [e1] at b1
  constructor
  · rintro ⟨h1, ⟨x, hx, hw⟩, ht⟩
    obtain ⟨_, ⟨s, hsm, hw'⟩, _⟩ := (b1.2 x).1 hx
    exact ⟨h1, ⟨s, hsm, Within.trans hw' hw⟩, ht⟩
  · rintro ⟨h1, ⟨s, hsm, hw⟩, ht⟩
    -- the middle of the way is in the result of the chain
    obtain ⟨x, w1, w2⟩ := Within.split n m hw
    exact ⟨h1, ⟨x, (b1.2 x).2 ⟨within_mem (hs s hsm) w1, ⟨s, hsm, w1⟩, by simp⟩, w2⟩, ht⟩

/-- C146: a type given to the first of two clauses only takes entities away. -/
theorem C146_typed (ops : List GOp) (env : Env) (rt rt' : Runtime) (n m : Nat) (hn : 1 ≤ n) (hm : 1 ≤ m)
    (t : EntityType) (u : Option EntityType) (es : List Entity) (hs : ∀ s ∈ es, s ∈ accepted ops) :
    ∃ r r', applyOperations env rt (Graph.run (ops ++ [.build])) [.related n (some t), .related m u] es = .ok r ∧
      applyOperations env rt' (Graph.run (ops ++ [.build])) [.related n none, .related m u] es = .ok r' ∧
      ∀ e ∈ r, e ∈ r' := by
  have b1 := C12_related_ball ops rt 1 es hs n hn (some t)
  have b1' := C12_related_ball ops rt' 1 es hs n hn none
  have b2 := C12_related_ball ops rt 0 _ (fun s hsm => ((b1.2 s).1 hsm).1) m hm u
  have b2' := C12_related_ball ops rt' 0 _ (fun s hsm => ((b1'.2 s).1 hsm).1) m hm u
  refine ⟨_, _, rfl, rfl, ?_⟩
  show ∀ e ∈ getRelatedEntities rt 0 _ (getRelatedEntities rt 1 _ es n (some t)) m u,
    e ∈ getRelatedEntities rt' 0 _ (getRelatedEntities rt' 1 _ es n none) m u
  intro e he
  obtain ⟨h1, ⟨x, hx, hw⟩, hu⟩ := (b2.2 e).1 he
  obtain ⟨x1, x2, _⟩ := (b1.2 x).1 hx
  exact (b2'.2 e).2 ⟨h1, ⟨x, (b1'.2 x).2 ⟨x1, x2, by simp⟩, hw⟩, hu⟩

/-- C146: being related is mutual. -/
theorem C146_mutual (ops : List GOp) (rt rt' : Runtime) (i j d : Nat) (hd : 1 ≤ d) (a b : Entity)
    (ha : a ∈ accepted ops) (hb : b ∈ accepted ops) :
    b ∈ getRelatedEntities rt i (Graph.run (ops ++ [.build])) [a] d none ↔
      a ∈ getRelatedEntities rt' j (Graph.run (ops ++ [.build])) [b] d none := by
  rw [(C12_related_ball ops rt i [a] (by simpa using ha) d hd none).2,
    (C12_related_ball ops rt' j [b] (by simpa using hb) d hd none).2]
  simp only [List.mem_singleton, exists_eq_left, ha, hb, true_and]
  exact ⟨fun h => ⟨Within.symm (refLink_symm _) h.1, by simp⟩, fun h => ⟨Within.symm (refLink_symm _) h.1, by simp⟩⟩

/-- C146: what is related to some of the entities is what is related to one of them. -/
theorem C146_union (ops : List GOp) (rt rt' : Runtime) (i j d : Nat) (hd : 1 ≤ d) (t : Option EntityType)
    (es : List Entity) (hs : ∀ s ∈ es, s ∈ accepted ops) (e : Entity) :
    e ∈ getRelatedEntities rt i (Graph.run (ops ++ [.build])) es d t ↔
      ∃ s ∈ es, e ∈ getRelatedEntities rt' j (Graph.run (ops ++ [.build])) [s] d t := by
  rw [(C12_related_ball ops rt i es hs d hd t).2]
  constructor
  · rintro ⟨h1, ⟨s, hsm, hw⟩, ht⟩
    exact ⟨s, hsm, ((C12_related_ball ops rt' j [s] (by simpa using hs s hsm) d hd t).2 e).2
      ⟨h1, ⟨s, by simp, hw⟩, ht⟩⟩
  · rintro ⟨s, hsm, he⟩
    obtain ⟨h1, ⟨s', hs', hw⟩, ht⟩ :=
      ((C12_related_ball ops rt' j [s] (by simpa using hs s hsm) d hd t).2 e).1 he
    cases List.mem_singleton.1 hs'
    exact ⟨h1, ⟨s, hsm, hw⟩, ht⟩

theorem connected_within {es : List Entity} {a b : Entity} (h : Connected es a b) :
    ∃ n, Within (RefLink es) n a b := by
  induction h with
  | refl a => exact ⟨0, .here 0 a⟩
  | step a b c hab _ ih => obtain ⟨n, hn⟩ := ih; exact ⟨n + 1, .step _ _ _ _ hab hn⟩

theorem reach_replicate (n : Nat) : reach (List.replicate n 1) = n := by
  induction n with
  | zero => rfl
  | succ n ih => simp only [List.replicate_succ, reach, ih]; omega

/-- C146: long enough chains find everything that is connected, although one clause stops after five links. -/
theorem C146_all (ops : List GOp) (env : Env) (rt : Runtime) (a b : Entity) (ha : a ∈ accepted ops)
    (hb : b ∈ accepted ops) :
    Connected (accepted ops) a b ↔ ∃ (n : Nat) (r : List Entity),
      applyOperations env rt (Graph.run (ops ++ [.build])) ((List.replicate n 1).map fun d => .related d none) [a] =
        .ok r ∧ b ∈ r := by
  have hone : ∀ n d, d ∈ List.replicate n 1 → 1 ≤ d := by
    intro n d hd; exact Nat.le_of_eq (List.eq_of_mem_replicate hd).symm
  constructor
  · intro h
    obtain ⟨n, hw⟩ := connected_within h
    obtain ⟨r, h1, -, h3⟩ := C146_chain ops env rt (List.replicate n 1) (hone n) [a] (by simp) (by simpa using ha)
    refine ⟨n, r, h1, (h3 b).2 ⟨hb, a, by simp, ?_⟩⟩
    rwa [reach_replicate]
  · rintro ⟨n, r, h1, h2⟩
    obtain ⟨r', e1, -, e3⟩ := C146_chain ops env rt (List.replicate n 1) (hone n) [a] (by simp) (by simpa using ha)
    rw [h1] at e1
    cases e1
    obtain ⟨_, s, hsm, hw⟩ := (e3 b).1 h2
    cases List.mem_singleton.1 hsm
    exact within_connected hw

/-- C146: two clauses reach further than five links, which one clause never does. -/
theorem C146_beyond : ∃ (ops : List GOp) (env : Env) (rt : Runtime) (a b : Entity),
    a ∈ accepted ops ∧ b ∈ accepted ops ∧
    (∃ r, applyOperations env rt (Graph.run (ops ++ [.build])) [.related 5 none, .related 1 none] [a] = .ok r ∧ b ∈ r) ∧
    ∀ (rt' : Runtime) (i d : Nat), 1 ≤ d → b ∉ getRelatedEntities rt' i (Graph.run (ops ++ [.build])) [a] d none := by
  refine ⟨exChainOps, exEnv, exRt, exNode "0" "1" "a", exNode "6" "7" "b", by decide, by decide, ⟨_, rfl, by decide⟩, ?_⟩
  intro rt' i d hd h
  have hm : ∀ s ∈ [exNode "0" "1" "a"], s ∈ accepted exChainOps := by decide
  have hno : exNode "6" "7" "b" ∉ getRelatedEntities exRt 0 (Graph.run (exChainOps ++ [.build])) [exNode "0" "1" "a"] 5
      none := by decide
  rw [(C12_related_ball exChainOps _ _ _ hm _ (by omega) _).2] at h hno
  obtain ⟨h1, ⟨s, hs, hw⟩, h3⟩ := h
  exact hno ⟨h1, ⟨s, hs, Within.mono (by omega) hw⟩, h3⟩

/-- C146: a type in the first clause may take away what the second one would have found. -/
theorem C146_lost : ∃ (ops : List GOp) (env : Env) (rt : Runtime) (a b : Entity) (t : EntityType) (r r' : List Entity),
    a ∈ accepted ops ∧
    applyOperations env rt (Graph.run (ops ++ [.build])) [.related 1 (some t), .related 1 none] [a] = .ok r ∧
    applyOperations env rt (Graph.run (ops ++ [.build])) [.related 1 none, .related 1 none] [a] = .ok r' ∧
    b ∈ r' ∧ b ∉ r :=
  ⟨exChainOps, exEnv, exRt, exNode "0" "1" "a", exNode "2" "3" "a", "a".toList, _, _, by decide, rfl, rfl, by decide,
    by decide⟩

/-! ### A case -/

example : (∀ s ∈ [exNode "0" "1" "a"], s ∈ accepted exChainOps) ∧ [exNode "0" "1" "a"].Nodup ∧
    reach [2, 1] = 3 ∧ Connected (accepted exChainOps) (exNode "0" "1" "a") (exNode "1" "2" "b") :=
  ⟨by decide, by decide, rfl, .step _ _ _ ⟨by decide, by decide, .inl ⟨"next".toList, .reference (.entity "1".toList), by decide, .ref (.entity "1".toList)⟩⟩ (.refl _)⟩

end Firm
