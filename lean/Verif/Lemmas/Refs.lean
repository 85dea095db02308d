import Verif.Lemmas.Graph

/-! Field reference resolution: the search on a built graph depends only on the lookup function. -/

namespace Firm
open Spec

/-- The search of a built graph, written over the lookup function alone. -/
def searchL (L : EntityId → Option Entity) : Nat → List Key → EntityId → FieldId →
    Except GraphError FieldValue
  | 0, _, _, _ => .error .maxDepthExceeded
  | depth + 1, visited, id, f =>
    if (id, f) ∈ visited then .error .cyclicReference
    else
      match L id with
      | none => .error (.entityNotFound id)
      | some e =>
        match e.getField f with
        | none => .error (.fieldNotFound id f)
        | some (.reference (.field tid tf)) =>
          if (L tid).isSome then searchL L depth ((id, f) :: visited) tid tf
          else .error (.entityNotFound tid)
        | some v => .ok v

theorem getField_mem {e : Entity} {f : FieldId} {v : FieldValue} (h : e.getField f = some v) :
    (f, v) ∈ e.fields := by
  unfold Entity.getField at h
  rw [Option.map_eq_some_iff] at h
  obtain ⟨⟨f', v'⟩, hp, hv⟩ := h
  have h1 := List.find?_some hp
  have h2 := List.mem_of_find?_eq_some hp
  simp only [beq_iff_eq] at h1
  simp only at hv
  subst h1; subst hv; exact h2

theorem Inv.lookup_isSome_getEntity {g : Graph} (h : Inv g) (id : EntityId) :
    (g.idMap.lookup id).isSome = (g.getEntity id).isSome := by
  rw [Bool.eq_iff_iff, h.lookup_isSome, Option.isSome_iff_exists]
  constructor
  · rintro ⟨e, he, hid⟩; exact ⟨e, (h.getEntity_iff id e).2 ⟨he, hid⟩⟩
  · rintro ⟨e, he⟩; obtain ⟨h1, h2⟩ := (h.getEntity_iff id e).1 he; exact ⟨e, h1, h2⟩

theorem Inv.hasFieldEdge_build {g : Graph} (h : Inv g) {id tid : EntityId} {f tf : FieldId}
    {e : Entity} {s t : Nat} (he : g.getEntity id = some e)
    (hf : e.getField f = some (.reference (.field tid tf)))
    (hs : g.idMap.lookup id = some s) (ht : g.idMap.lookup tid = some t) :
    g.build.hasFieldEdge s t f tf = true := by
  unfold Graph.hasFieldEdge
  rw [List.any_eq_true]
  have hse : g.nodes[s]? = some e := by
    unfold Graph.getEntity at he; rw [hs] at he; simpa using he
  refine ⟨⟨s, t, .fieldReference f tf⟩, ?_, by simp⟩
  exact mem_edgesToAdd.2 ⟨e, s, hse, (f, _), getField_mem hf, by simp [collect, ht]⟩

theorem Inv.search_build {g : Graph} (h : Inv g) (d : Nat) (vis : List Key) (id : EntityId)
    (f : FieldId) : g.build.search d vis id f = searchL g.getEntity d vis id f := by
  induction d generalizing vis id f with
  | zero => rfl
  | succ d ih =>
    unfold Graph.search searchL
    by_cases hv : (id, f) ∈ vis
    · simp only [hv, if_true]
    · simp only [hv, if_false]
      have hge : g.build.getEntity id = g.getEntity id := rfl
      have hidm : g.build.idMap = g.idMap := rfl
      rw [hge, hidm]
      cases he : g.getEntity id with
      | none => rfl
      | some e =>
        simp only
        cases hf : e.getField f with
        | none => rfl
        | some v =>
          cases v with
          | reference r =>
            cases r with
            | entity t => rfl
            | field tid tf =>
              have h1 : (g.idMap.lookup id).isSome := by
                rw [h.lookup_isSome_getEntity, he]; rfl
              obtain ⟨s, hs⟩ := Option.isSome_iff_exists.1 h1
              have h2 := h.lookup_isSome_getEntity tid
              simp only [hs]
              cases ht : g.idMap.lookup tid with
              | none =>
                rw [ht] at h2
                simp only [Option.isSome_none] at h2
                simp [← h2]
              | some t =>
                rw [ht] at h2
                simp only [Option.isSome_some] at h2
                simp only [← h2, if_true, h.hasFieldEdge_build he hf hs ht]
                exact ih _ _ _
          | _ => rfl

theorem hasFieldEdge_mono {g : Graph} (h : Inv g) {s t : Nat} {f tf : FieldId}
    (he : g.hasFieldEdge s t f tf = true) : g.build.hasFieldEdge s t f tf = true := by
  unfold Graph.hasFieldEdge at he ⊢
  rw [List.any_eq_true] at he ⊢
  obtain ⟨ed, h1, h2⟩ := he
  exact ⟨ed, h.edges ed h1, h2⟩

theorem Inv.search_stale {g : Graph} (h : Inv g) (d : Nat) (vis : List Key) (id : EntityId)
    (f : FieldId) :
    g.search d vis id f = g.build.search d vis id f ∨
      g.search d vis id f = .error .graphNotBuilt := by
  induction d generalizing vis id f with
  | zero => exact .inl rfl
  | succ d ih =>
    unfold Graph.search
    by_cases hv : (id, f) ∈ vis
    · simp only [hv, if_true]; exact .inl trivial
    · simp only [hv, if_false]
      have hge : g.build.getEntity id = g.getEntity id := rfl
      have hidm : g.build.idMap = g.idMap := rfl
      rw [hge, hidm]
      cases he : g.getEntity id with
      | none => exact .inl rfl
      | some e =>
        simp only
        split
        · exact .inl rfl
        · rename_i tid tf hf
          cases hs : g.idMap.lookup id with
          | none => exact .inl rfl
          | some s =>
            simp only
            cases ht : g.idMap.lookup tid with
            | none => exact .inl rfl
            | some t =>
              simp only
              by_cases hed : g.hasFieldEdge s t f tf = true
              · simp only [hed, if_true, hasFieldEdge_mono h hed]
                exact ih _ _ _
              · simp only [hed]; exact .inr rfl
        · exact .inl rfl

theorem searchL_not_graphNotBuilt (L : EntityId → Option Entity) (d : Nat) (vis : List Key)
    (id : EntityId) (f : FieldId) : searchL L d vis id f ≠ .error .graphNotBuilt := by
  induction d generalizing vis id f with
  | zero => simp [searchL]
  | succ d ih =>
    unfold searchL
    split
    · simp
    · split
      · simp
      · split
        · simp
        · split
          · exact ih _ _ _
          · simp
        · simp

/-! ### Against the chain relation -/

/-- `L` is the lookup function of `es`. -/
def LooksUp (es : List Entity) (L : EntityId → Option Entity) : Prop :=
  ∀ id e, L id = some e ↔ e ∈ es ∧ e.id = id

theorem fieldAt_iff {es : List Entity} {L : EntityId → Option Entity} (hL : LooksUp es L) (k : Key)
    (v : FieldValue) : FieldAt es k v ↔ ∃ e, L k.1 = some e ∧ e.getField k.2 = some v := by
  unfold FieldAt
  constructor
  · rintro ⟨e, h1, h2, h3⟩; exact ⟨e, (hL _ _).2 ⟨h1, h2⟩, h3⟩
  · rintro ⟨e, h1, h3⟩; obtain ⟨h1, h2⟩ := (hL _ _).1 h1; exact ⟨e, h1, h2, h3⟩

theorem fieldAt_det {es : List Entity} {L : EntityId → Option Entity} (hL : LooksUp es L) {k : Key}
    {v w : FieldValue} (h1 : FieldAt es k v) (h2 : FieldAt es k w) : v = w := by
  rw [fieldAt_iff hL] at h1 h2
  obtain ⟨e, h1, h3⟩ := h1
  obtain ⟨e', h2, h4⟩ := h2
  rw [h1] at h2; cases h2; rw [h3] at h4; exact Option.some.inj h4

theorem resolvesIn_det {es : List Entity} {L : EntityId → Option Entity} (hL : LooksUp es L)
    {k : Key} {n m : Nat} {v w : FieldValue} (h1 : ResolvesIn es k n v)
    (h2 : ResolvesIn es k m w) : n = m ∧ v = w := by
  induction h1 generalizing m w with
  | here k v hv hn =>
    cases h2 with
    | here _ _ hw _ => exact ⟨rfl, fieldAt_det hL hv hw⟩
    | step _ t f n _ hf _ => exact absurd ⟨t, f, fieldAt_det hL hv hf⟩ hn
  | step k t f n v hf _ ih =>
    cases h2 with
    | here _ _ hw hn => exact absurd ⟨t, f, fieldAt_det hL hw hf⟩ hn
    | step _ t' f' n' _ hf' hr =>
      have := fieldAt_det hL hf hf'
      injection this with this; injection this with h3 h4; subst h3; subst h4
      obtain ⟨h5, h6⟩ := ih hr
      exact ⟨by rw [h5], h6⟩

theorem searchL_sound {es : List Entity} {L : EntityId → Option Entity} (hL : LooksUp es L)
    (d : Nat) (vis : List Key) (id : EntityId) (f : FieldId) (v : FieldValue)
    (h : searchL L d vis id f = .ok v) : ∃ n, n ≤ d ∧ ResolvesIn es (id, f) n v := by
  induction d generalizing vis id f with
  | zero => simp [searchL] at h
  | succ d ih =>
    unfold searchL at h
    split at h
    · simp at h
    · split at h
      · simp at h
      · rename_i e he
        split at h
        · simp at h
        · rename_i tid tf hf
          split at h
          · obtain ⟨n, hn, hr⟩ := ih _ _ _ h
            exact ⟨n + 1, by omega, .step _ tid tf n v ((fieldAt_iff hL _ _).2 ⟨e, he, hf⟩) hr⟩
          · simp at h
        · rename_i w hw hnf
          simp only [Except.ok.injEq] at h; subst h
          refine ⟨1, by omega, .here _ _ ((fieldAt_iff hL _ _).2 ⟨e, he, ?_⟩) ?_⟩
          · assumption
          · rintro ⟨t, f', rfl⟩; exact absurd rfl (hw t f')

theorem resolvesIn_pos {es : List Entity} {k : Key} {n : Nat} {v : FieldValue}
    (h : ResolvesIn es k n v) : 0 < n := by cases h <;> omega

theorem resolvesIn_entity {es : List Entity} {L : EntityId → Option Entity} (hL : LooksUp es L)
    {k : Key} {n : Nat} {v : FieldValue} (h : ResolvesIn es k n v) : (L k.1).isSome := by
  cases h with
  | here _ _ h _ => obtain ⟨e, he, _⟩ := (fieldAt_iff hL _ _).1 h; simp [he]
  | step _ _ _ _ _ h _ => obtain ⟨e, he, _⟩ := (fieldAt_iff hL _ _).1 h; simp [he]

/-- One step of the search at a field holding a field reference to an existing entity. -/
theorem searchL_hop {L : EntityId → Option Entity} {d : Nat} {vis : List Key} {k : Key}
    {e : Entity} {t : EntityId} {f : FieldId} (hv : k ∉ vis) (he : L k.1 = some e)
    (hf : e.getField k.2 = some (.reference (.field t f))) (ht : (L t).isSome) :
    searchL L (d + 1) vis k.1 k.2 = searchL L d (k :: vis) t f := by
  conv => lhs; unfold searchL
  have hv' : (k.1, k.2) ∉ vis := hv
  simp only [hv', if_false, he, hf, ht, if_true]

/-- Completeness, and exhaustion of the depth on longer chains. -/
theorem searchL_of_resolves {es : List Entity} {L : EntityId → Option Entity} (hL : LooksUp es L)
    {k : Key} {n : Nat} {v : FieldValue} (h : ResolvesIn es k n v) (d : Nat) (vis : List Key)
    (hvis : ∀ k' ∈ vis, ∀ m w, ResolvesIn es k' m w → n < m) :
    searchL L d vis k.1 k.2 = if n ≤ d then .ok v else .error .maxDepthExceeded := by
  induction h generalizing d vis with
  | here k v hv hn =>
    have hk : k ∉ vis := fun hc => by
      have := hvis k hc 1 v (.here k v hv hn); omega
    obtain ⟨e, he, hf⟩ := (fieldAt_iff hL _ _).1 hv
    cases d with
    | zero => simp [searchL]
    | succ d =>
      unfold searchL
      have hk' : (k.1, k.2) ∉ vis := hk
      simp only [hk', if_false, he, hf]
      have : 1 ≤ d + 1 := by omega
      simp only [this, if_true]
      split
      · rename_i hc; simp at hc
      · rename_i tid tf hc
        simp only [Option.some.injEq] at hc
        exact absurd ⟨tid, tf, hc⟩ hn
      · rename_i w _ hc
        simp only [Option.some.injEq] at hc; rw [hc]
  | step k t f n v hf hr ih =>
    have hk : k ∉ vis := fun hc => by
      have := hvis k hc (n + 1) v (.step k t f n v hf hr); omega
    obtain ⟨e, he, hfe⟩ := (fieldAt_iff hL _ _).1 hf
    cases d with
    | zero => simp [searchL]
    | succ d =>
      rw [searchL_hop hk he hfe (resolvesIn_entity hL hr)]
      rw [ih]
      · by_cases h : n ≤ d
        · have : n + 1 ≤ d + 1 := by omega
          simp [h]
        · simp [h]
      · intro k' hk' m w hm
        rcases List.mem_cons.1 hk' with rfl | hk'
        · have := (resolvesIn_det hL hm (.step _ t f n v hf hr)).1; omega
        · have := hvis k' hk' m w hm; omega

/-! ### Cycles -/

/-- The next field on the chain. -/
def nextKey (L : EntityId → Option Entity) (k : Key) : Option Key :=
  match (L k.1).bind (·.getField k.2) with
  | some (.reference (.field t f)) => some (t, f)
  | _ => none

theorem nextKey_iff {es : List Entity} {L : EntityId → Option Entity} (hL : LooksUp es L)
    (k q : Key) : nextKey L k = some q ↔ FieldAt es k (.reference (.field q.1 q.2)) := by
  rw [fieldAt_iff hL]
  unfold nextKey
  constructor
  · intro h
    split at h
    · rename_i t f hb
      rw [Option.bind_eq_some_iff] at hb
      obtain ⟨e, h1, h2⟩ := hb
      simp only [Option.some.injEq] at h; subst h
      exact ⟨e, h1, h2⟩
    · simp at h
  · rintro ⟨e, h1, h2⟩
    rw [h1]; simp [h2]

/-- The field reached after `n` hops. -/
def orbit (L : EntityId → Option Entity) (k : Key) : Nat → Option Key
  | 0 => some k
  | n + 1 => (orbit L k n).bind (nextKey L)

theorem orbit_succ' (L : EntityId → Option Entity) (k : Key) (n : Nat) :
    orbit L k (n + 1) = (nextKey L k).bind fun q => orbit L q n := by
  induction n with
  | zero => simp only [orbit, Option.bind_some]; cases nextKey L k <;> rfl
  | succ n ih =>
    have : orbit L k (n + 2) = (orbit L k (n + 1)).bind (nextKey L) := rfl
    rw [this, ih]
    cases nextKey L k with
    | none => rfl
    | some q => rfl

theorem hops_iff {es : List Entity} {L : EntityId → Option Entity} (hL : LooksUp es L)
    (n : Nat) (k q : Key) : Hops es n k q ↔ orbit L k n = some q := by
  induction n generalizing k with
  | zero =>
    constructor
    · intro h; cases h; rfl
    · intro h; simp only [orbit, Option.some.injEq] at h; subst h; exact .zero _
  | succ n ih =>
    rw [orbit_succ', Option.bind_eq_some_iff]
    constructor
    · intro h
      cases h with
      | succ _ t f _ _ hf hr => exact ⟨(t, f), (nextKey_iff hL _ _).2 hf, (ih _).1 hr⟩
    · rintro ⟨p, h1, h2⟩
      exact .succ k p.1 p.2 n q ((nextKey_iff hL _ _).1 h1) ((ih _).2 h2)

theorem orbit_add (L : EntityId → Option Entity) (k : Key) (i n : Nat) :
    orbit L k (i + n) = (orbit L k i).bind fun p => orbit L p n := by
  induction n with
  | zero => simp [orbit]
  | succ n ih =>
    have : orbit L k (i + (n + 1)) = (orbit L k (i + n)).bind (nextKey L) := rfl
    rw [this, ih]
    cases orbit L k i with
    | none => rfl
    | some p => rfl

theorem orbit_isSome_of_le {L : EntityId → Option Entity} {k : Key} {i j : Nat} (hij : i ≤ j)
    (h : (orbit L k j).isSome) : (orbit L k i).isSome := by
  obtain ⟨d, rfl⟩ := Nat.exists_eq_add_of_le hij
  rw [orbit_add] at h
  cases hi : orbit L k i with
  | none => rw [hi] at h; simp at h
  | some p => rfl

theorem orbit_cyclic_isSome {L : EntityId → Option Entity} {k p : Key} {i n : Nat} (hn : 0 < n)
    (h1 : orbit L k i = some p) (h2 : orbit L p n = some p) (m : Nat) :
    (orbit L k m).isSome := by
  have hmul : ∀ c, orbit L p (n * c) = some p := by
    intro c
    induction c with
    | zero => rfl
    | succ c ih => rw [Nat.mul_succ, orbit_add, ih]; exact h2
  have : orbit L k (i + n * m) = some p := by rw [orbit_add, h1]; exact hmul m
  apply orbit_isSome_of_le (j := i + n * m)
  · have := Nat.le_mul_of_pos_left m hn; omega
  · rw [this]; rfl

/-- Entities along an orbit exist. -/
theorem nextKey_entity {L : EntityId → Option Entity} {k : Key} (h : (nextKey L k).isSome) :
    ∃ e t f, L k.1 = some e ∧ e.getField k.2 = some (.reference (.field t f)) ∧
      nextKey L k = some (t, f) := by
  obtain ⟨q, hq⟩ := Option.isSome_iff_exists.1 h
  have hq' := hq
  unfold nextKey at hq
  split at hq
  · rename_i t f hb
    rw [Option.bind_eq_some_iff] at hb
    obtain ⟨e, h1, h2⟩ := hb
    simp only [Option.some.injEq] at hq; subst hq
    exact ⟨e, t, f, h1, h2, hq'⟩
  · simp at hq

/-- Search along `n` hops over pairwise different, unvisited fields whose next entity exists. -/
theorem searchL_along {L : EntityId → Option Entity} (n : Nat) (d : Nat) (vis : List Key) (k q : Key)
    (hq : orbit L k n = some q)
    (hent : ∀ i, i ≤ n → ∀ p, orbit L k i = some p → (L p.1).isSome)
    (hfresh : ∀ i, i < n → ∀ p, orbit L k i = some p → p ∉ vis)
    (hdist : ∀ i j, i < j → j < n → orbit L k i ≠ orbit L k j) :
    ∃ vis', (∀ p, p ∈ vis' ↔ p ∈ vis ∨ ∃ i, i < n ∧ orbit L k i = some p) ∧
      searchL L (n + d) vis k.1 k.2 = searchL L d vis' q.1 q.2 := by
  induction n generalizing k vis with
  | zero =>
    simp only [orbit, Option.some.injEq] at hq; subst hq
    exact ⟨vis, by simp, by rw [Nat.zero_add]⟩
  | succ n ih =>
    rw [orbit_succ'] at hq
    obtain ⟨k1, hk1, hq1⟩ := Option.bind_eq_some_iff.1 hq
    obtain ⟨e, t, f, h1, h2, h3⟩ := nextKey_entity (L := L) (k := k) (by simp [hk1])
    rw [hk1] at h3; simp only [Option.some.injEq] at h3; subst h3
    have horb : ∀ i, orbit L k (i + 1) = orbit L (t, f) i := by
      intro i; rw [orbit_succ', hk1]; rfl
    have hkv : k ∉ vis := hfresh 0 (by omega) k rfl
    have hts : (L t).isSome := by
      have := hent 1 (by omega) (t, f) (by rw [horb 0]; rfl)
      exact this
    obtain ⟨vis', hv1, hv2⟩ := ih (k :: vis) (t, f) hq1
      (fun i hi p hp => hent (i + 1) (by omega) p (by rw [horb]; exact hp))
      (fun i hi p hp hc => by
        rcases List.mem_cons.1 hc with rfl | hc
        · exact hdist 0 (i + 1) (by omega) (by omega) (by rw [horb, hp]; rfl)
        · exact hfresh (i + 1) (by omega) p (by rw [horb]; exact hp) hc)
      (fun i j hij hj hc => hdist (i + 1) (j + 1) (by omega) (by omega) (by rw [horb, horb]; exact hc))
    refine ⟨vis', ?_, ?_⟩
    · intro p
      rw [hv1]
      constructor
      · rintro (hp | ⟨i, hi, hp⟩)
        · rcases List.mem_cons.1 hp with rfl | hp
          · exact .inr ⟨0, by omega, rfl⟩
          · exact .inl hp
        · exact .inr ⟨i + 1, by omega, by rw [horb]; exact hp⟩
      · rintro (hp | ⟨i, hi, hp⟩)
        · exact .inl (by simp [hp])
        · cases i with
          | zero => simp only [orbit, Option.some.injEq] at hp; subst hp; exact .inl (by simp)
          | succ i => exact .inr ⟨i, by omega, by rw [← horb]; exact hp⟩
    · rw [← hv2]
      have : n + 1 + d = (n + d) + 1 := by omega
      rw [this]
      exact searchL_hop hkv h1 h2 hts

theorem exists_min {P : Nat → Prop} {n : Nat} (h : P n) :
    ∃ m, m ≤ n ∧ P m ∧ ∀ j, j < m → ¬ P j := by
  induction n using Nat.strongRecOn with
  | ind n ih =>
    by_cases hx : ∃ j, j < n ∧ P j
    · obtain ⟨j, hj, hpj⟩ := hx
      obtain ⟨m, h1, h2, h3⟩ := ih j hj hpj
      exact ⟨m, by omega, h2, h3⟩
    · exact ⟨n, Nat.le_refl n, h, fun j hj hp => hx ⟨j, hj, hp⟩⟩

/-- Outcome of the search on a cyclic chain, for any depth. -/
theorem searchL_cyclic {es : List Entity} {L : EntityId → Option Entity} (hL : LooksUp es L)
    {k : Key} (hc : Cyclic es k) (d : Nat) :
    (ClosesWithin es k d → searchL L d [] k.1 k.2 = .error .cyclicReference) ∧
    (¬ ClosesWithin es k d → searchL L d [] k.1 k.2 = .error .maxDepthExceeded) := by
  obtain ⟨i, n, p, hn, h1, h2⟩ := hc
  rw [hops_iff hL] at h1 h2
  have hall := orbit_cyclic_isSome hn h1 h2
  have hent : ∀ i p, orbit L k i = some p → (L p.1).isSome := by
    intro i p hp
    have := hall (i + 1)
    have hs : orbit L k (i + 1) = (orbit L k i).bind (nextKey L) := rfl
    rw [hs, hp] at this
    obtain ⟨e, t, f, h1, _⟩ := nextKey_entity (L := L) (k := p) this
    simp [h1]
  -- a repetition `orbit a = orbit b` with `a < b < d` is a loop that closes within `d`
  have close : ∀ a b, a < b → b < d → orbit L k a = orbit L k b → ClosesWithin es k d := by
    intro a b hab hbd heq
    obtain ⟨p, hp⟩ := Option.isSome_iff_exists.1 (hall a)
    refine ⟨a, b - a, p, by omega, (hops_iff hL _ _ _).2 hp, (hops_iff hL _ _ _).2 ?_, by omega⟩
    have hb : b = a + (b - a) := by omega
    have : orbit L k b = orbit L p (b - a) := by
      conv => lhs; rw [hb, orbit_add, hp]
      rfl
    rw [← this, ← heq, hp]
  constructor
  · rintro ⟨i, n, p, hn, h1, h2, hd⟩
    rw [hops_iff hL] at h1 h2
    -- least position that repeats an earlier one
    have hP : ∃ a, a < i + n ∧ orbit L k a = orbit L k (i + n) :=
      ⟨i, by omega, by rw [orbit_add, h1]; exact h2.symm⟩
    obtain ⟨m, hm1, ⟨a, ham, hae⟩, hm3⟩ :=
      exists_min (P := fun j => ∃ a, a < j ∧ orbit L k a = orbit L k j) hP
    obtain ⟨q, hq⟩ := Option.isSome_iff_exists.1 (hall m)
    obtain ⟨vis', hv1, hv2⟩ := searchL_along m (d - m) [] k q hq
      (fun i _ p hp => hent i p hp) (by simp)
      (fun a b hab hb heq => hm3 b hb ⟨a, hab, heq⟩)
    have hdm : m + (d - m) = d := by omega
    rw [hdm] at hv2
    rw [hv2]
    have : d - m = (d - m - 1) + 1 := by omega
    rw [this]
    unfold searchL
    have hmem : (q.1, q.2) ∈ vis' := (hv1 q).2 (.inr ⟨a, ham, by rw [hae, hq]⟩)
    rw [if_pos hmem]
  · intro hnc
    obtain ⟨q, hq⟩ := Option.isSome_iff_exists.1 (hall d)
    obtain ⟨vis', hv1, hv2⟩ := searchL_along d 0 [] k q hq
      (fun i _ p hp => hent i p hp) (by simp)
      (fun a b hab hb heq => hnc (close a b hab hb heq))
    rw [Nat.add_zero] at hv2
    rw [hv2]; rfl

theorem Inv.looksUp {g : Graph} (h : Inv g) : LooksUp g.nodes g.getEntity := h.getEntity_iff

end Firm
