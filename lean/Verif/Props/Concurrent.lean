import Verif.Model.Concurrent
import Verif.Lemmas.Steady

/-! # Any number of requests at once (C58, C118) -/

namespace Firm

open Spec

/-! ## What requests do to their file -/

/-- What a request that took effect has made of the file at `loc`: `d0` is the disk before. -/
def Spec.Took (d0 d : FsTree) (loc : List Str) : Request → Prop
  | .write _ content _ => Has d loc (.file (some content))
  | .delete _ _ => ∀ u, NotDir u → ¬ Has d loc u
  | .replace _ old new all _ => ∃ text ps, Has d0 loc (.file (some text)) ∧ old ≠ [] ∧ Cut old text ps ∧
      2 ≤ ps.length ∧ (ps.length = 2 ∨ all = true) ∧ Has d loc (.file (some (joinWith new ps)))
  | .add _ => ∃ old more, ((old = [] ∧ ∀ u, NotDir u → ¬ Has d0 loc u) ∨ Has d0 loc (.file (some old))) ∧
      Has d loc (.file (some (old ++ more)))
  | .build => True

/-- The same about the leaves at the place of the request. -/
def Effect (l0 l : Option FsTree) : Request → Prop
  | .write _ content _ => l = some (.file (some content))
  | .delete _ _ => l = none
  | .replace _ old new all _ => ∃ text c n, l0 = some (.file (some text)) ∧ replaceText text old new all = some (c, n) ∧
      l = some (.file (some c))
  | .add _ => ∃ old more, ((old = [] ∧ l0 = none) ∨ l0 = some (.file (some old))) ∧ l = some (.file (some (old ++ more)))
  | .build => True

theorem took_iff {d0 d : FsTree} {loc : List Str} {r : Request} (h0 : WellFormed d0) (h : WellFormed d) 
    (he : Effect (leafAt d0 loc) (leafAt d loc) r) : Took d0 d loc r := by
  have file : ∀ {d : FsTree} {t : Str}, WellFormed d → leafAt d loc = some (.file (some t)) → Has d loc (.file (some t)) :=
    fun hd hl => (has_iff_lookup hd).2 (leafAt_eq_some.1 hl).1
  have none : ∀ {d : FsTree}, WellFormed d → leafAt d loc = none → ∀ u, NotDir u → ¬ Has d loc u := by
    intro d hd hl u hu hh
    rw [leafAt_eq_some.2 ⟨(has_iff_lookup hd).1 hh, hu⟩] at hl
    cases hl
  cases r with
  | write path content force => exact file h he
  | delete path force => exact none h he
  | replace path old new all force =>
    obtain ⟨text, c, n, h1, h2, h3⟩ := he
    obtain ⟨ho, ps, hc, hl, hk, ha, rfl⟩ := (C60_replaces text old new c all n).1 h2
    exact ⟨text, ps, file h0 h1, ho, hc, by omega, ha.imp (fun h => by omega) id, file h h3⟩
  | add p =>
    obtain ⟨old, more, h1, h2⟩ := he
    exact ⟨old, more, h1.imp (fun h => ⟨h.1, none h0 h.2⟩) (file h0), file h h2⟩
  | build => trivial

/-- What a request remembers lets it restore its file. -/
def Restores (H : Host) (d0 d : FsTree) (loc : List Str) (r : Request) : Undo → Prop
  | .nothing => ∃ p, r = .add p
  | .write path o => loc = placeFor H.ws path ∧ endsWith path ".firm".toList = true ∧
      (∃ c, leafAt d loc = some (.file (some c))) ∧ (o.map fun t => FsTree.file (some t)) = leafAt d0 loc
  | .delete path t => loc = placeFor H.ws path ∧ endsWith path ".firm".toList = true ∧
      leafAt d0 loc = some (.file (some t)) ∧ d.lookup loc = none ∧ ∃ es, d.lookup loc.dropLast = some (.dir (some es))

/-- What is known of a request in a stage: `d0` is the disk before all requests. -/
def StageOk (H : Host) (d0 d : FsTree) (loc : List Str) (r : Request) : Stage → Prop
  | .start => leafAt d loc = leafAt d0 loc
  | .computed c => leafAt d loc = leafAt d0 loc ∧ ∃ path old new all force text n,
      r = .replace path old new all force ∧ leafAt d0 loc = some (.file (some text)) ∧
      replaceText text old new all = some (c, n)
  | .changed u => Effect (leafAt d0 loc) (leafAt d loc) r ∧ Restores H d0 d loc r u
  | .failed u => Effect (leafAt d0 loc) (leafAt d loc) r ∧ Restores H d0 d loc r u ∧ u ≠ .nothing
  | .done .error => leafAt d loc = leafAt d0 loc
  | .done _ => Effect (leafAt d0 loc) (leafAt d loc) r

theorem Restores.congr {H : Host} {d0 d d' : FsTree} {loc loc' : List Str} {r : Request} {u : Undo}
    (h : leafAt d' loc = leafAt d loc) (hs : Steady d d' loc') (hl : ¬ loc <+: loc')
    (hr : Restores H d0 d loc r u) : Restores H d0 d' loc r u := by
  cases u with
  | nothing => exact hr
  | write path o =>
    obtain ⟨h1, h2, ⟨c, h3⟩, h4⟩ := hr
    exact ⟨h1, h2, ⟨c, h.trans h3⟩, h4⟩
  | delete path t =>
    obtain ⟨h1, h2, h3, h4, es, h5⟩ := hr
    exact ⟨h1, h2, h3, hs.1 _ hl h4, hs.2 _ es h5⟩

theorem StageOk.congr {H : Host} {d0 d d' : FsTree} {loc loc' : List Str} {r : Request} {st : Stage}
    (h : leafAt d' loc = leafAt d loc) (hs : Steady d d' loc') (hl : ¬ loc <+: loc')
    (hr : StageOk H d0 d loc r st) : StageOk H d0 d' loc r st := by
  cases st with
  | start => exact h.trans hr
  | computed c => exact ⟨h.trans hr.1, hr.2⟩
  | changed u => exact ⟨by rw [h]; exact hr.1, hr.2.congr h hs hl⟩
  | failed u => exact ⟨by rw [h]; exact hr.1, hr.2.1.congr h hs hl, hr.2.2⟩
  | done r' =>
    cases r' with
    | error => exact h.trans hr
    | success => show Effect _ _ _; rw [h]; exact hr
    | warning => show Effect _ _ _; rw [h]; exact hr

/-- Writing the content that the request asks for. -/
theorem writeJob_ok {H : Host} (hws : ∀ n ∈ H.ws, ValidName n) {s : Server} {d0 : FsTree} {r : Request}
    {path content : Str} (hd : WellFormed s.disk) (hb : leafAt d0 (placeFor H.ws path) ≠ some (.file none))
    (h : leafAt s.disk (placeFor H.ws path) = leafAt d0 (placeFor H.ws path))
    (he : Effect (leafAt d0 (placeFor H.ws path)) (some (.file (some content))) r) :
    WellFormed (writeJob H s path content).1.disk ∧
    (∀ l, l ≠ placeFor H.ws path → leafAt (writeJob H s path content).1.disk l = leafAt s.disk l) ∧
    Steady s.disk (writeJob H s path content).1.disk (placeFor H.ws path) ∧
    StageOk H d0 (writeJob H s path content).1.disk (placeFor H.ws path) r (writeJob H s path content).2 := by
  unfold writeJob
  cases hv : validateAndWrite H s.disk path content with
  | mk d o =>
    obtain ⟨h1, h2, h3⟩ := validateAndWrite_spec hd hws hv
    have h4 := validateAndWrite_steady hv
    cases o with
    | none => exact ⟨h1, fun l _ => h2 rfl l, h4, (h2 rfl _).trans h⟩
    | some original =>
      obtain ⟨a, b, c, _, e⟩ := h3 _ rfl
      have hnew : leafAt d (placeFor H.ws path) = some (.file (some content)) := by rw [a, if_pos rfl]
      refine ⟨h1, fun l hl => by rw [a l, if_neg hl], h4, ?_, rfl, e, ⟨content, hnew⟩, ?_⟩
      · show Effect _ (leafAt d _) _
        rw [hnew]; exact he
      · rw [← h, b]
        refine original_leaf c fun hn => hb ?_
        rw [← h]
        exact leafAt_eq_some.2 ⟨hn, fun es h => by cases h⟩

theorem jobStep_ok {H : Host} (hws : ∀ n ∈ H.ws, ValidName n) {rb : FsTree → Except WorkspaceError ServerState}
    {r : Request} {s : Server} {st : Stage} {d0 : FsTree} {loc : List Str} (hd : WellFormed s.disk)
    (hb : leafAt d0 loc ≠ some (.file none)) (hloc : r.target H = some loc) (h : StageOk H d0 s.disk loc r st) :
    WellFormed (jobStep H rb r s st).1.disk ∧
    (∀ l, l ≠ loc → leafAt (jobStep H rb r s st).1.disk l = leafAt s.disk l) ∧
    Steady s.disk (jobStep H rb r s st).1.disk loc ∧
    StageOk H d0 (jobStep H rb r s st).1.disk loc r (jobStep H rb r s st).2 := by
  have still : ∀ st', StageOk H d0 s.disk loc r st' →
      WellFormed s.disk ∧ (∀ l, l ≠ loc → leafAt s.disk l = leafAt s.disk l) ∧ Steady s.disk s.disk loc ∧
      StageOk H d0 s.disk loc r st' := fun st' h => ⟨hd, fun _ _ => rfl, .refl _ _, h⟩
  cases st with
  | start =>
    have h : leafAt s.disk loc = leafAt d0 loc := h
    cases r with
    | write path content force => cases hloc; exact writeJob_ok hws hd hb h rfl
    | delete path force =>
      cases hloc
      rw [jobStep]
      cases hx : deleteExecute s.disk H.ws path with
      | none => exact still _ h
      | some x =>
        obtain ⟨d, original⟩ := x
        obtain ⟨h1, h2, h3, _, h5, h6⟩ := deleteExecute_spec hd hx
        obtain ⟨k1, k2, k3⟩ := deleteExecute_steady hd hx
        refine ⟨h1, fun l hl => by show leafAt d l = _; rw [h2 l, if_neg hl], k1, ?_, rfl, h5, ?_, k2, k3⟩
        · show leafAt d _ = none
          rw [h2]; exact if_pos rfl
        · rw [← h]; exact leafAt_eq_some.2 ⟨h3, fun es h => by cases h⟩
    | replace path old new all force =>
      cases hloc
      rw [jobStep]
      cases hx : replaceExecute s.disk H.ws path old new all with
      | none => exact still _ h
      | some x =>
        obtain ⟨text, k⟩ := x
        obtain ⟨content, hread, hrep⟩ : ∃ content, readSourceFile s.disk H.ws path = some content ∧
            replaceText content old new all = some (text, k) := by
          unfold replaceExecute at hx
          split at hx
          · cases hx
          · split at hx
            · cases hx
            · next heq => exact ⟨_, heq, hx⟩
        refine still (.computed text) ⟨h, path, old, new, all, force, content, k, rfl, ?_, hrep⟩
        rw [← h]
        exact leafAt_eq_some.2 ⟨(readSourceFile_spec hread).1, fun es h => by cases h⟩
    | add p =>
      cases hloc
      rw [jobStep]
      cases hx : addExecute H s p with
      | mk d ok =>
        obtain ⟨h1, h2⟩ := addExecute_spec hd hws hx
        obtain ⟨k1, k2⟩ := addExecute_leaf hd hws hx
        cases ok with
        | false => exact ⟨h1, fun l _ => h2 rfl l, k1, (h2 rfl _).trans h⟩
        | true =>
          obtain ⟨old, more, h3, h4⟩ := k2 rfl
          rw [placeFor, h] at h4
          refine ⟨h1, fun l hl => by show leafAt d l = _; rw [h3 l, if_neg hl], k1, ⟨old, more, h4, ?_⟩, p, rfl⟩
          show leafAt d _ = _
          rw [h3]; exact if_pos rfl
    | build => cases hloc
  | computed c =>
    obtain ⟨h1, path, old, new, all, force, text, n, rfl, h2, h3⟩ := h
    cases hloc
    exact writeJob_ok hws hd hb h1 ⟨text, c, n, h2, h3, rfl⟩
  | changed u =>
    rw [jobStep]
    cases rb s.disk with
    | ok st => exact ⟨hd, fun _ _ => rfl, .refl _ _, h.1⟩
    | error e =>
      refine still _ ?_
      have hu : (∀ p, r ≠ .add p) → u ≠ .nothing := by
        rintro hr rfl
        obtain ⟨p, hp⟩ := h.2
        exact hr p hp
      cases r with
      | write path content force =>
        rw [afterFailure]
        cases force
        · exact ⟨h.1, h.2, hu fun p h => by cases h⟩
        · exact h.1
      | delete path force =>
        rw [afterFailure]
        cases force
        · exact ⟨h.1, h.2, hu fun p h => by cases h⟩
        · exact h.1
      | replace path old new all force =>
        rw [afterFailure]
        cases force
        · exact ⟨h.1, h.2, hu fun p h => by cases h⟩
        · exact h.1
      | add p => exact h.1
      | build => cases hloc
  | failed u =>
    rw [jobStep]
    obtain ⟨h1, h2, h3⟩ := h
    cases u with
    | nothing => exact absurd rfl h3
    | write path o =>
      obtain ⟨rfl, he, ⟨c, hc⟩, ho⟩ := h2
      obtain ⟨k1, k2⟩ := rollbackWrite_spec (original := o) hd hws he hc
      refine ⟨k1, fun l hl => (k2 l).trans (if_neg hl), rollbackWrite_steady he, ?_⟩
      exact (k2 _).trans ((if_pos rfl).trans ho)
    | delete path t =>
      obtain ⟨rfl, he, ht, hn, es, hp⟩ := h2
      obtain ⟨k1, k2, k3⟩ := rollbackDelete_free (original := t) hd hws he hn hp
      exact ⟨k1, fun l hl => (k2 l).trans (if_neg hl), k3, (k2 _).trans ((if_pos rfl).trans ht.symm)⟩
  | done r' => exact still _ h

/-! ## C58: any number of requests for different files -/

/-- The places that the requests can change lie apart: none is another one or inside of it. -/
def Spec.Apart (H : Host) (reqs : List Request) : Prop :=
  ∀ (i j : Nat) (r q : Request) (a b : List Str), i ≠ j → reqs[i]? = some r → reqs[j]? = some q →
    r.target H = some a → q.target H = some b → ¬ a <+: b

/-- What holds at every moment of a run. -/
structure BusyOk (H : Host) (d0 : FsTree) (reqs : List Request) (x : Busy) : Prop where
  wf : WellFormed x.server.disk
  requests : x.jobs.map (·.1) = reqs
  stage : ∀ (i : Nat) (r : Request) (st : Stage) (loc : List Str), x.jobs[i]? = some (r, st) → r.target H = some loc →
    StageOk H d0 x.server.disk loc r st
  rest : ∀ l, (∀ r ∈ reqs, r.target H ≠ some l) → leafAt x.server.disk l = leafAt d0 l

theorem jobStep_build {H : Host} {rb : FsTree → Except WorkspaceError ServerState} {s : Server} {st : Stage}
    (hst : ∀ u, st = .failed u → u = .nothing) :
    (jobStep H rb .build s st).1.disk = s.disk := by
  cases st with
  | start => rfl
  | computed c => rfl
  | changed u => rw [jobStep]; cases rb s.disk <;> rfl
  | failed u => rw [hst u rfl]; rfl
  | done r => rfl

/-- A `build` request never has to restore anything. -/
def BuildOk (x : Busy) : Prop :=
  ∀ (i : Nat) (st : Stage), x.jobs[i]? = some (Request.build, st) → ∀ u, st ≠ .failed u

theorem buildOk_step {H : Host} {x : Busy} {m : Move} (h : BuildOk x) : BuildOk (x.step H m) := by
  unfold Busy.step
  cases hj : x.jobs[m.1]? with
  | none => exact h
  | some y =>
    obtain ⟨r, st⟩ := y
    intro i st' hi u hu
    dsimp only at hi
    rw [List.getElem?_set] at hi
    split at hi
    · next hm =>
      split at hi
      · simp only [Option.some.injEq, Prod.mk.injEq] at hi
        obtain ⟨rfl, h2⟩ := hi
        rw [hu] at h2
        cases st with
        | start => cases h2
        | computed c => cases h2
        | changed u =>
          rw [jobStep] at h2
          cases hr : m.2 x.server.disk with
          | ok st => rw [hr] at h2; cases h2
          | error e => rw [hr] at h2; cases h2
        | failed u => exact h _ _ hj u rfl
        | done r => cases h2
      · cases hi
    · exact h i st' hi u hu

theorem busyOk_step {H : Host} (hws : ∀ n ∈ H.ws, ValidName n) {d0 : FsTree} {reqs : List Request}
    (hb : ∀ loc, leafAt d0 loc ≠ some (.file none)) (ha : Apart H reqs) {x : Busy} {m : Move} (hx : BusyOk H d0 reqs x)
    (hbx : BuildOk x) : BusyOk H d0 reqs (x.step H m) := by
  unfold Busy.step
  cases hj : x.jobs[m.1]? with
  | none => exact hx
  | some y =>
    obtain ⟨r, st⟩ := y
    have hreqs : (x.jobs.set m.1 (r, (jobStep H m.2 r x.server st).2)).map (·.1) = reqs := by
      rw [List.map_set, ← hx.requests]
      apply List.ext_getElem?
      intro k
      rw [List.getElem?_set]
      split
      · next hk =>
        subst hk
        rw [List.getElem?_map, hj]
        split
        · rfl
        · next hlt =>
          obtain ⟨hl, _⟩ := List.getElem?_eq_some_iff.1 hj
          rw [List.length_map] at hlt
          exact absurd hl hlt
      · rfl
    have hreq : ∀ (i : Nat) (q : Request) (st' : Stage), x.jobs[i]? = some (q, st') → reqs[i]? = some q := by
      intro i q st' hi
      rw [← hx.requests, List.getElem?_map, hi]; rfl
    cases hr : r.target H with
    | none =>
      have hdisk : (jobStep H m.2 r x.server st).1.disk = x.server.disk := by
        cases r with
        | build => exact jobStep_build fun u hu => absurd hu (hbx _ _ hj u)
        | _ => cases hr
      refine ⟨by dsimp only; rw [hdisk]; exact hx.wf, hreqs, ?_, fun l hl => by dsimp only; rw [hdisk]; exact hx.rest l hl⟩
      intro i q st' loc hi hq
      dsimp only at hi ⊢
      rw [hdisk]
      rw [List.getElem?_set] at hi
      split at hi
      · split at hi
        · cases hi; rw [hr] at hq; cases hq
        · cases hi
      · exact hx.stage i q st' loc hi hq
    | some loc =>
      obtain ⟨h1, h2, h3, h4⟩ := jobStep_ok (rb := m.2) hws hx.wf (hb loc) hr (hx.stage _ r st loc hj hr)
      refine ⟨h1, hreqs, ?_, fun l hl => ?_⟩
      · intro i q st' loc' hi hq
        dsimp only at hi ⊢
        rw [List.getElem?_set] at hi
        split at hi
        · split at hi
          · cases hi
            rw [hr] at hq
            cases hq
            exact h4
          · cases hi
        · next hne =>
          have hnp := ha i m.1 q r loc' loc (Ne.symm hne) (hreq _ _ _ hi) (hreq _ _ _ hj) hq hr
          refine (hx.stage i q st' loc' hi hq).congr (h2 loc' ?_) h3 hnp
          rintro rfl
          exact hnp (List.prefix_refl _)
      · dsimp only
        rw [h2 l ?_]
        · exact hx.rest l hl
        · rintro rfl
          exact hl r (List.mem_of_getElem? (hreq _ _ _ hj)) hr

theorem busyOk_run {H : Host} (hws : ∀ n ∈ H.ws, ValidName n) {d0 : FsTree} {reqs : List Request}
    (hb : ∀ loc, leafAt d0 loc ≠ some (.file none)) (ha : Apart H reqs) (sched : List Move) {x : Busy}
    (hx : BusyOk H d0 reqs x) (hbx : BuildOk x) : BusyOk H d0 reqs (x.run H sched) := by
  induction sched generalizing x with
  | nil => exact hx
  | cons m ms ih => exact ih (busyOk_step hws hb ha hx hbx) (buildOk_step hbx)

theorem receive_getElem {s : Server} {reqs : List Request} {i : Nat} {r : Request} {st : Stage}
    (h : (Busy.receive s reqs).jobs[i]? = some (r, st)) : reqs[i]? = some r ∧ st = .start := by
  rw [Busy.receive, List.getElem?_map, Option.map_eq_some_iff] at h
  obtain ⟨q, h1, h2⟩ := h
  cases h2
  exact ⟨h1, rfl⟩

/-- C58 for any number of requests of all kinds whose places lie apart, in every interleaving and whatever
the rebuilds yield: a rejected request leaves its file as it was, one that is answered with a success or a
warning has done its work on the file as it was, and no other file is touched. What is missing: requests for
the same file (see `C58_same_file`), and, as in C56, targets that are not valid text. -/
theorem C58_many_partial (H : Host) (hws : ∀ n ∈ H.ws, ValidName n) (reqs : List Request) (ha : Apart H reqs)
    (s : Server) (hd : WellFormed s.disk) (hb : ∀ loc, ¬ Has s.disk loc (.file none)) (sched : List Move) (x : Busy)
    (hx : x = (Busy.receive s reqs).run H sched) :
    (∀ (i : Nat) (r : Request) (loc : List Str) (reply : Reply), x.jobs[i]? = some (r, .done reply) →
      r.target H = some loc →
      if reply = .error then ∀ u, NotDir u → (Has s.disk loc u ↔ Has x.server.disk loc u)
      else Took s.disk x.server.disk loc r) ∧
    ∀ loc u, (∀ r ∈ reqs, r.target H ≠ some loc) → NotDir u → (Has s.disk loc u ↔ Has x.server.disk loc u) := by
  have hb' : ∀ loc, leafAt s.disk loc ≠ some (.file none) := fun loc h =>
    hb loc ((has_iff_lookup hd).2 (leafAt_eq_some.1 h).1)
  have hstart : BusyOk H s.disk reqs (Busy.receive s reqs) := by
    refine ⟨hd, ?_, ?_, fun _ _ => rfl⟩
    · show (reqs.map fun r => (r, Stage.start)).map (·.1) = reqs
      rw [List.map_map]; exact List.map_id _
    · intro i r st loc hi _
      obtain ⟨_, rfl⟩ := receive_getElem hi
      exact rfl
  have hbuild : BuildOk (Busy.receive s reqs) := by
    intro i st hi u hu
    obtain ⟨_, rfl⟩ := receive_getElem hi
    cases hu
  have h := busyOk_run hws hb' ha sched hstart hbuild
  rw [← hx] at h
  have same : ∀ loc, leafAt x.server.disk loc = leafAt s.disk loc → ∀ u, NotDir u →
      (Has s.disk loc u ↔ Has x.server.disk loc u) := by
    intro loc hl u hu
    rw [has_iff_lookup hd, has_iff_lookup h.wf]
    have h1 := leafAt_eq_some (d := s.disk) (u := u) (loc := loc)
    have h2 := leafAt_eq_some (d := x.server.disk) (u := u) (loc := loc)
    rw [hl] at h2
    exact ⟨fun hh => (h2.1 (h1.2 ⟨hh, hu⟩)).1, fun hh => (h1.1 (h2.2 ⟨hh, hu⟩)).1⟩
  refine ⟨fun i r loc reply hi hr => ?_, fun loc u hl hu => same loc (h.rest loc hl) u hu⟩
  have hok := h.stage i r _ loc hi hr
  cases reply with
  | error => rw [if_pos rfl]; exact same loc hok
  | success => rw [if_neg (by decide)]; exact took_iff hd h.wf hok
  | warning => rw [if_neg (by decide)]; exact took_iff hd h.wf hok

/-- A request that is not interrupted does what its tool does. -/
theorem C58_alone (H : Host) (order : Workspace → Workspace) (r : Request) (s : Server) :
    (Busy.receive s [r]).run H (List.replicate 4 (0, rebuild H order)) =
      ⟨(s.handle H order r).1, [(r, .done (s.handle H order r).2)]⟩ := by
  have step : ∀ (s : Server) (st : Stage), Busy.step H ⟨s, [(r, st)]⟩ (0, rebuild H order) =
      ⟨(jobStep H (rebuild H order) r s st).1, [(r, (jobStep H (rebuild H order) r s st).2)]⟩ := fun _ _ => rfl
  show List.foldl _ (Busy.mk s [(r, .start)]) _ = _
  simp only [List.replicate, List.foldl, step]
  cases r with
  | write path content force =>
    simp only [jobStep, writeJob, Server.handle, writeSource]
    cases hv : validateAndWrite H s.disk path content with
    | mk d o =>
      cases o with
      | none => rfl
      | some original =>
        dsimp only
        cases hr : rebuild H order d with
        | ok st => rfl
        | error e => cases force <;> rfl
  | delete path force =>
    simp only [jobStep, Server.handle, deleteSource]
    cases hv : deleteExecute s.disk H.ws path with
    | none => rfl
    | some y =>
      obtain ⟨d, original⟩ := y
      dsimp only
      cases hr : rebuild H order d with
      | ok st => rfl
      | error e => cases force <;> rfl
  | replace path old new all force =>
    simp only [jobStep, Server.handle, replaceSource]
    cases hx : replaceExecute s.disk H.ws path old new all with
    | none => rfl
    | some y =>
      obtain ⟨content, k⟩ := y
      simp only [writeJob]
      cases hv : validateAndWrite H s.disk path content with
      | mk d o =>
        cases o with
        | none => rfl
        | some original =>
          dsimp only
          cases hr : rebuild H order d with
          | ok st => rfl
          | error e => cases force <;> rfl
  | add p =>
    simp only [jobStep, Server.handle, addEntityTool]
    cases hx : addExecute H s p with
    | mk d ok =>
      cases ok with
      | false => rfl
      | true =>
        dsimp only
        cases hr : rebuild H order d with
        | ok st => rfl
        | error e => rfl
  | build =>
    simp only [jobStep, Server.handle, buildTool]
    cases hr : rebuild H order s.disk with
    | ok st => rfl
    | error e => rfl

/-! ## C118: what the server answers from -/

/-- Every rebuild of the schedule is the rebuild of the server, with some order of the files in memory. -/
def Spec.Rebuilds (H : Host) (sched : List Move) : Prop :=
  ∀ m ∈ sched, ∃ order : Workspace → Workspace, (∀ w, (order w).Perm w) ∧ m.2 = rebuild H order

theorem rollback_wf {H : Host} (hws : ∀ n ∈ H.ws, ValidName n) {d : FsTree} (u : Undo) (hd : WellFormed d) :
    WellFormed (rollback H d u) := by
  have wr : ∀ {d : FsTree} {path text : Str}, WellFormed d →
      WellFormed ((d.writeFile (placeFor H.ws path) text).getD d) := by
    intro d path text hd
    cases hw : d.writeFile (placeFor H.ws path) text with
    | none => exact hd
    | some d' =>
      have : d' = d.place (placeFor H.ws path) (.file (some text)) := by
        unfold FsTree.writeFile at hw
        split at hw
        · cases hw; rfl
        · cases hw
        · split at hw
          · cases hw; rfl
          · cases hw
      rw [Option.getD_some, this]
      exact wf_place hd (.file _) (place_valid hws path)
  cases u with
  | nothing => exact hd
  | write path o =>
    cases o with
    | none =>
      show WellFormed (rollbackWrite d H.ws path none)
      rw [rollbackWrite]
      cases hw : d.removeFile (d.placeOf H.ws path) with
      | none => exact hd
      | some d' =>
        have : d' = d.remove (d.placeOf H.ws path) := by
          unfold FsTree.removeFile at hw
          split at hw
          all_goals first | cases hw; done | (cases hw; rfl)
        rw [Option.getD_some, this]
        exact wf_remove hd
    | some o =>
      show WellFormed (rollbackWrite d H.ws path (some o))
      rw [rollbackWrite, placeOf_eq]
      exact wr hd
  | delete path t =>
    show WellFormed (rollbackDelete d H.ws path t)
    unfold rollbackDelete
    rw [placeOf_eq]
    cases hc : d.createDirAll (lexicalPlace H.ws (pathComponents path)).dropLast with
    | none => exact hd
    | some d1 =>
      exact wr (wf_createDirAll hd (fun m hm => place_valid hws path m (List.mem_of_mem_dropLast hm)) hc)

theorem jobStep_wf {H : Host} (hws : ∀ n ∈ H.ws, ValidName n) {rb : FsTree → Except WorkspaceError ServerState}
    {r : Request} {s : Server} {st : Stage} (hd : WellFormed s.disk) :
    WellFormed (jobStep H rb r s st).1.disk := by
  have wr : ∀ path content, WellFormed (writeJob H s path content).1.disk := by
    intro path content
    unfold writeJob
    cases hv : validateAndWrite H s.disk path content with
    | mk d o =>
      have := (validateAndWrite_spec hd hws hv).1
      cases o <;> exact this
  cases st with
  | start =>
    cases r with
    | write path content force => exact wr _ _
    | delete path force =>
      rw [jobStep]
      cases hx : deleteExecute s.disk H.ws path with
      | none => exact hd
      | some y => exact (deleteExecute_spec hd hx).1
    | replace path old new all force =>
      rw [jobStep]
      cases replaceExecute s.disk H.ws path old new all <;> exact hd
    | add p =>
      rw [jobStep]
      cases hx : addExecute H s p with
      | mk d ok =>
        have := (addExecute_spec hd hws hx).1
        cases ok <;> exact this
    | build => exact hd
  | computed c =>
    cases r with
    | replace path old new all force => exact wr _ _
    | _ => exact hd
  | changed u => rw [jobStep]; cases rb s.disk <;> exact hd
  | failed u => exact rollback_wf hws u hd
  | done r => exact hd

/-- A step changes the state only by a rebuild of the disk, and then the request has succeeded. -/
theorem jobStep_state {H : Host} {rb : FsTree → Except WorkspaceError ServerState} {r : Request} {s : Server}
    {st : Stage} :
    ((jobStep H rb r s st).1.state = s.state ∧ ((jobStep H rb r s st).2 = .done .success → st = .done .success)) ∨
    ∃ t, rb s.disk = .ok t ∧ (jobStep H rb r s st).1 = ⟨s.disk, t⟩ := by
  have wr : ∀ path content, (writeJob H s path content).1.state = s.state ∧
      (writeJob H s path content).2 ≠ .done .success := by
    intro path content
    unfold writeJob
    rcases validateAndWrite H s.disk path content with ⟨d, _ | o⟩
    · exact ⟨rfl, by intro h; cases h⟩
    · exact ⟨rfl, by intro h; cases h⟩
  cases st with
  | start =>
    left
    cases r with
    | write path content force => exact ⟨(wr _ _).1, fun h => absurd h (wr _ _).2⟩
    | delete path force =>
      rw [jobStep]
      rcases deleteExecute s.disk H.ws path with _ | ⟨d, o⟩ <;> exact ⟨rfl, fun h => by cases h⟩
    | replace path old new all force =>
      rw [jobStep]
      rcases replaceExecute s.disk H.ws path old new all with _ | ⟨d, o⟩ <;> exact ⟨rfl, fun h => by cases h⟩
    | add p =>
      rw [jobStep]
      rcases addExecute H s p with ⟨d, _ | _⟩ <;> exact ⟨rfl, fun h => by cases h⟩
    | build => exact ⟨rfl, fun h => by cases h⟩
  | computed c =>
    left
    cases r with
    | replace path old new all force => exact ⟨(wr _ _).1, fun h => absurd h (wr _ _).2⟩
    | _ => exact ⟨rfl, fun h => by cases h⟩
  | changed u =>
    rw [jobStep]
    cases hr : rb s.disk with
    | ok t => exact .inr ⟨t, rfl, rfl⟩
    | error e =>
      refine .inl ⟨rfl, fun h => ?_⟩
      exfalso
      revert h
      cases r with
      | write path content force => cases force <;> (intro h; cases h)
      | delete path force => cases force <;> (intro h; cases h)
      | replace path old new all force => cases force <;> (intro h; cases h)
      | add p => intro h; cases h
      | build => intro h; cases h
  | failed u => exact .inl ⟨rfl, fun h => by cases h⟩
  | done r => exact .inl ⟨rfl, fun h => h⟩

theorem step_wf {H : Host} (hws : ∀ n ∈ H.ws, ValidName n) {x : Busy} (m : Move) (hd : WellFormed x.server.disk) :
    WellFormed (x.step H m).server.disk := by
  unfold Busy.step
  cases hj : x.jobs[m.1]? with
  | none => exact hd
  | some y => exact jobStep_wf hws hd

theorem run_wf {H : Host} (hws : ∀ n ∈ H.ws, ValidName n) (sched : List Move) {x : Busy}
    (hd : WellFormed x.server.disk) : WellFormed (x.run H sched).server.disk := by
  induction sched generalizing x with
  | nil => exact hd
  | cons m ms ih => exact ih (step_wf hws m hd)

theorem busy_run_snoc {H : Host} (x : Busy) (ms : List Move) (m : Move) :
    x.run H (ms ++ [m]) = (x.run H ms).step H m := by
  unfold Busy.run; rw [List.foldl_append]; rfl

/-- C118: at every moment the server answers from its first state or from the build of the files as they
were at one moment of the run. -/
theorem C118_snapshot (H : Host) (hws : ∀ n ∈ H.ws, ValidName n) (reqs : List Request) (s : Server)
    (hd : WellFormed s.disk) (sched : List Move) (hs : Rebuilds H sched) :
    ((Busy.receive s reqs).run H sched).server.state = s.state ∨
    ∃ before, before <+: sched ∧
      Serves H ⟨((Busy.receive s reqs).run H before).server.disk, ((Busy.receive s reqs).run H sched).server.state⟩ := by
  induction sched using List.reverseRecOn with
  | nil => exact .inl rfl
  | append_singleton ms m ih =>
    have hd' := run_wf hws ms (x := Busy.receive s reqs) hd
    have ih := ih fun n hn => hs n (List.mem_append_left _ hn)
    have keep : ((Busy.receive s reqs).run H (ms ++ [m])).server.state = ((Busy.receive s reqs).run H ms).server.state →
        ((Busy.receive s reqs).run H (ms ++ [m])).server.state = s.state ∨
        ∃ before, before <+: ms ++ [m] ∧ Serves H ⟨((Busy.receive s reqs).run H before).server.disk,
          ((Busy.receive s reqs).run H (ms ++ [m])).server.state⟩ := by
      intro h
      rw [h]
      exact ih.imp id fun ⟨b, h1, h2⟩ => ⟨b, h1.trans (List.prefix_append _ _), h2⟩
    rw [busy_run_snoc] at keep ⊢
    generalize hx : (Busy.receive s reqs).run H ms = x at *
    unfold Busy.step at keep ⊢
    cases hj : x.jobs[m.1]? with
    | none => rw [hj] at keep; exact keep rfl
    | some y =>
      obtain ⟨r, st⟩ := y
      rw [hj] at keep
      dsimp only at keep ⊢
      rcases jobStep_state (H := H) (rb := m.2) (r := r) (s := x.server) (st := st) with ⟨h, _⟩ | ⟨t, h1, h2⟩
      · exact keep h
      · right
        obtain ⟨order, ho, he⟩ := hs m (by simp)
        rw [he] at h1
        refine ⟨ms, List.prefix_append _ _, ?_⟩
        rw [h2, hx]
        exact rebuild_serves hd' hws ho h1

/-- C118 when all requests have succeeded: the server answers from what is on the disk. What is missing: runs
in which a request is rejected or answered with a warning (see `C118_stale`). -/
theorem C118_served_partial (H : Host) (hws : ∀ n ∈ H.ws, ValidName n) (reqs : List Request) (hne : reqs ≠ [])
    (s : Server) (hd : WellFormed s.disk) (sched : List Move) (hs : Rebuilds H sched)
    (hall : ∀ j ∈ ((Busy.receive s reqs).run H sched).jobs, j.2 = .done .success) :
    Serves H ((Busy.receive s reqs).run H sched).server := by
  induction sched using List.reverseRecOn with
  | nil =>
    obtain ⟨r, rs, rfl⟩ := List.exists_cons_of_ne_nil hne
    exact absurd (hall (r, .start) (List.mem_cons_self)) (by intro h; cases h)
  | append_singleton ms m ih =>
    have hd' := run_wf hws ms (x := Busy.receive s reqs) hd
    have ih := ih fun n hn => hs n (List.mem_append_left _ hn)
    rw [busy_run_snoc] at hall ⊢
    generalize hx : (Busy.receive s reqs).run H ms = x at *
    unfold Busy.step at hall ⊢
    cases hj : x.jobs[m.1]? with
    | none => rw [hj] at hall; exact ih hall
    | some y =>
      obtain ⟨r, st⟩ := y
      rw [hj] at hall
      dsimp only at hall ⊢
      obtain ⟨hlt, hget⟩ := List.getElem?_eq_some_iff.1 hj
      have hmem : (r, (jobStep H m.2 r x.server st).2) ∈ x.jobs.set m.1 (r, (jobStep H m.2 r x.server st).2) :=
        List.mem_iff_getElem?.2 ⟨m.1, by rw [List.getElem?_set, if_pos rfl, if_pos hlt]⟩
      have hdone := hall _ hmem
      rcases jobStep_state (H := H) (rb := m.2) (r := r) (s := x.server) (st := st) with ⟨_, h⟩ | ⟨t, h1, h2⟩
      · have hst := h hdone
        subst hst
        have hset : x.jobs.set m.1 (r, Stage.done .success) = x.jobs := by
          rw [← hget]; exact List.set_getElem_self hlt
        rw [jobStep] at hall ⊢
        dsimp only at hall ⊢
        rw [hset] at hall
        exact ih hall
      · obtain ⟨order, ho, he⟩ := hs m (by simp)
        rw [he] at h1
        rw [h2]
        exact rebuild_serves hd' hws ho h1

/-! ## Witnesses -/

/-- An empty workspace. -/
def exEmptyDisk : FsTree := .dir (some [("w".toList, .dir (some []))])

/-- A server for it. -/
def exEmptyServer : Server := ⟨exEmptyDisk, exState exEmptyDisk⟩

/-- The schedule that lets requests go on in this order. -/
def exSched (is : List Nat) : List Move := is.map fun i => (i, rebuild exHost id)

theorem exSched_rebuilds (is : List Nat) : Rebuilds exHost (exSched is) := by
  intro m hm
  obtain ⟨i, _, rfl⟩ := List.mem_map.1 hm
  exact ⟨id, fun w => List.Perm.refl w, rfl⟩

/-- A file in memory that is not on the disk. -/
theorem not_serves {H : Host} (hws : ∀ n ∈ H.ws, ValidName n) {s : Server} (hd : WellFormed s.disk) {loc : List Str}
    (hl : ∀ n ∈ loc, ValidName n) (hm : placeText (H.ws ++ loc) ∈ s.state.workspace.map (·.1))
    (hr : s.disk.readText (H.ws ++ loc) = none) : ¬ Serves H s := by
  rintro ⟨hload, _, _⟩
  obtain ⟨⟨path, f⟩, hp, hpath⟩ := List.mem_map.1 hm
  obtain ⟨l, text, ⟨_, hh⟩, h1, _⟩ := (hload.2 path f).1 hp
  rw [has_iff_lookup hd] at hh
  have hpath : path = placeText (H.ws ++ loc) := hpath
  have h2 : H.ws ++ l = H.ws ++ loc := by
    refine placeText_inj (lookup_valid hd hh).2 ?_ (h1.symm.trans hpath)
    intro n hn
    rcases List.mem_append.1 hn with hn | hn
    · exact hws n hn
    · exact hl n hn
  rw [h2] at hh
  unfold FsTree.readText at hr
  rw [hh] at hr
  cases hr

theorem exEmpty_wf : WellFormed exEmptyDisk := by
  refine .dir (by simp) ?_ ?_
  · intro p hp; rw [List.mem_singleton.1 hp]; exact ⟨by decide, by decide, by decide, by decide⟩
  · intro p hp; rw [List.mem_singleton.1 hp]; exact wf_empty

theorem exEmpty_serves : Serves exHost exEmptyServer := by
  have h : rebuild exHost id exEmptyDisk = .ok (exState exEmptyDisk) := by
    unfold exState
    cases hr : rebuild exHost id exEmptyDisk with
    | ok st => rfl
    | error e =>
      have : (match rebuild exHost id exEmptyDisk with | .ok _ => true | .error _ => false) = true := by decide +kernel
      rw [hr] at this
      cases this
  exact rebuild_serves exEmpty_wf exHost_ws (fun w => List.Perm.refl w) h

theorem apart_two {H : Host} {r q : Request} {a b : List Str} (hr : r.target H = some a) (hq : q.target H = some b)
    (h1 : ¬ a <+: b) (h2 : ¬ b <+: a) : Apart H [r, q] := by
  intro i j r' q' a' b' hij hi hj hr' hq'
  match i, j, hij with
  | 0, 0, h => exact absurd rfl h
  | 1, 1, h => exact absurd rfl h
  | 0, 1, _ => cases hi; cases hj; rw [hr] at hr'; rw [hq] at hq'; cases hr'; cases hq'; exact h1
  | 1, 0, _ => cases hi; cases hj; rw [hq] at hr'; rw [hr] at hq'; cases hr'; cases hq'; exact h2
  | 0, j + 2, _ => cases hj
  | 1, j + 2, _ => cases hj
  | i + 2, _, _ => cases hi

/-- Two requests to write different files. -/
def exTwo : List Request := [.write "b.firm".toList "B".toList false, .write "a.firm".toList "S".toList false]

theorem exTwo_apart : Apart exHost exTwo := apart_two rfl rfl (by decide) (by decide)

/-- C118 is false when a request is rejected: of two requests without force for different files one is
rejected and taken back on the disk, and the server still answers from what it wrote. The rejected text had
become valid before it was removed. -/
theorem C118_stale : ∃ (reqs : List Request) (is : List Nat),
    (∀ r ∈ reqs, r.unforced) ∧ Apart exHost reqs ∧ Serves exHost exEmptyServer ∧
    let x := (Busy.receive exEmptyServer reqs).run exHost (exSched is)
    x.jobs.map (·.2) = [.done .error, .done .success] ∧ ¬ Serves exHost x.server ∧
    x.server.state.build.entities.map (·.id) = ["person.bob".toList, "person.alice".toList] ∧
    x.server.disk.readText ["w".toList, "b.firm".toList] = none := by
  refine ⟨exTwo, [0, 0, 1, 1, 0], ?_, exTwo_apart, exEmpty_serves, ?_, ?_, ?_, ?_⟩
  · intro r hr
    rcases List.mem_cons.1 hr with rfl | hr
    · rfl
    · rw [List.mem_singleton.1 hr]; rfl
  · decide +kernel
  · refine not_serves exHost_ws (run_wf exHost_ws _ exEmpty_wf) (loc := ["b.firm".toList]) ?_ ?_ ?_
    · intro n hn; rw [List.mem_singleton.1 hn]; exact ⟨by decide, by decide, by decide, by decide⟩
    · decide +kernel
    · decide +kernel
  · decide +kernel
  · decide +kernel

/-- C58 is false for the same file also for a request that succeeds: another one, which is rejected, takes
back the file after it was written. -/
theorem C58_lost : ∃ (p q : Request) (is : List Nat),
    p.target exHost = q.target exHost ∧
    let x := (Busy.receive exEmptyServer [p, q]).run exHost (exSched is)
    x.jobs.map (·.2) = [.done .error, .done .success] ∧
    x.server.disk.readText ["w".toList, "a.firm".toList] = none :=
  ⟨.write "a.firm".toList "bad".toList false, .write "a.firm".toList "S".toList false, [0, 0, 1, 0, 1],
    rfl, by decide +kernel⟩

/-- Both requests can succeed, in an interleaving that is not one after the other. -/
example : ((Busy.receive exEmptyServer exTwo).run exHost (exSched [0, 1, 1, 0])).jobs.map (·.2) =
    [.done .success, .done .success] ∧ Rebuilds exHost (exSched [0, 1, 1, 0]) ∧ WellFormed exEmptyServer.disk :=
  ⟨by decide +kernel, exSched_rebuilds _, exEmpty_wf⟩

/-- Three requests of different kinds, two of them rejected because of the third one. -/
def exThree : List Request := [.delete "b.firm".toList false, .replace "a.firm".toList "S".toList "B".toList false false,
  .write "x/c.firm".toList "bad".toList true]

example : Apart exHost exThree := by
  intro i j r q a b hij hi hj hr hq
  match i, j, hij with
  | 0, 0, h => exact absurd rfl h
  | 1, 1, h => exact absurd rfl h
  | 2, 2, h => exact absurd rfl h
  | 0, 1, _ => cases hi; cases hj; cases hr; cases hq; decide
  | 1, 0, _ => cases hi; cases hj; cases hr; cases hq; decide
  | 0, 2, _ => cases hi; cases hj; cases hr; cases hq; decide
  | 2, 0, _ => cases hi; cases hj; cases hr; cases hq; decide
  | 1, 2, _ => cases hi; cases hj; cases hr; cases hq; decide
  | 2, 1, _ => cases hi; cases hj; cases hr; cases hq; decide
  | 0, j + 3, _ => cases hj
  | 1, j + 3, _ => cases hj
  | 2, j + 3, _ => cases hj
  | i + 3, _, _ => cases hi

example : ((Busy.receive exServer exThree).run exHost (exSched [1, 0, 2, 1, 0, 1, 2, 1, 0])).jobs.map (·.2) =
    [.done .error, .done .error, .done .warning] := by decide +kernel

end Firm
