import Verif.Props.Concurrent

/-! # Requests at the same time and one after the other (C147) -/

namespace Firm

open Spec

/-- Handling the requests with these numbers one after the other: the server and the replies. -/
def Spec.inTurn (H : Host) (order : Workspace → Workspace) (reqs : List Request) :
    Server → List Nat → Server × List (Nat × Reply)
  | s, [] => (s, [])
  | s, i :: is =>
    match reqs[i]? with
    | none => inTurn H order reqs s is
    | some r =>
      ((inTurn H order reqs (s.handle H order r).1 is).1,
        (i, (s.handle H order r).2) :: (inTurn H order reqs (s.handle H order r).1 is).2)

/-! ## One after the other is one of the interleavings -/

/-- Some steps of one request. -/
def jobSteps (H : Host) (rb : FsTree → Except WorkspaceError ServerState) (r : Request) :
    Nat → Server × Stage → Server × Stage
  | 0, y => y
  | n + 1, y => jobSteps H rb r n (jobStep H rb r y.1 y.2)

theorem run_replicate {H : Host} {rb : FsTree → Except WorkspaceError ServerState} {i : Nat} {r : Request} (n : Nat)
    {x : Busy} {st : Stage} (h : x.jobs[i]? = some (r, st)) :
    x.run H (List.replicate n (i, rb)) =
      ⟨(jobSteps H rb r n (x.server, st)).1, x.jobs.set i (r, (jobSteps H rb r n (x.server, st)).2)⟩ := by
  induction n generalizing x st with
  | zero =>
    obtain ⟨hl, he⟩ := List.getElem?_eq_some_iff.1 h
    show x = ⟨x.server, x.jobs.set i (r, st)⟩
    rw [← he, List.set_getElem_self]
  | succ n ih =>
    rw [List.replicate_succ]
    show Busy.run H (x.step H (i, rb)) _ = _
    have hstep : x.step H (i, rb) = ⟨(jobStep H rb r x.server st).1, x.jobs.set i (r, (jobStep H rb r x.server st).2)⟩ := by
      unfold Busy.step
      dsimp only
      rw [h]
    obtain ⟨hl, _⟩ := List.getElem?_eq_some_iff.1 h
    have hget : (x.step H (i, rb)).jobs[i]? = some (r, (jobStep H rb r x.server st).2) := by
      rw [hstep]
      exact List.getElem?_set_self hl
    rw [ih hget, hstep]
    dsimp only
    rw [List.set_set]
    rfl

theorem jobSteps_four (H : Host) (order : Workspace → Workspace) (r : Request) (s : Server) :
    jobSteps H (rebuild H order) r 4 (s, .start) = ((s.handle H order r).1, .done (s.handle H order r).2) := by
  have h := C58_alone H order r s
  rw [run_replicate (st := .start) (r := r) 4 rfl] at h
  injection h with h1 h2
  injection h2 with h2 _
  injection h2 with _ h2
  exact Prod.ext h1 h2

/-- The schedule in which these requests run one after the other. -/
def Spec.turns (H : Host) (order : Workspace → Workspace) (is : List Nat) : List Move :=
  is.flatMap fun i => List.replicate 4 (i, rebuild H order)

theorem run_append (H : Host) (x : Busy) (a b : List Move) : x.run H (a ++ b) = (x.run H a).run H b :=
  List.foldl_append ..

theorem turns_run (H : Host) (order : Workspace → Workspace) (reqs : List Request) (is : List Nat) (hn : is.Nodup)
    (x : Busy) (hx : ∀ i ∈ is, x.jobs[i]? = reqs[i]?.map fun r => (r, .start)) :
    (x.run H (turns H order is)).server = (inTurn H order reqs x.server is).1 ∧
    (∀ i, i ∉ is → (x.run H (turns H order is)).jobs[i]? = x.jobs[i]?) ∧
    (∀ (i : Nat) (reply : Reply), (i, reply) ∈ (inTurn H order reqs x.server is).2 → i ∈ is ∧
      (x.run H (turns H order is)).jobs[i]? = reqs[i]?.map fun r => (r, .done reply)) ∧
    ∀ i ∈ is, i < reqs.length → ∃ reply, (i, reply) ∈ (inTurn H order reqs x.server is).2 := by
  induction is generalizing x with
  | nil =>
    refine ⟨rfl, fun _ _ => rfl, fun i reply h => ?_, fun i h => ?_⟩
    · exact absurd h (List.not_mem_nil)
    · exact absurd h (List.not_mem_nil)
  | cons i is ih =>
    obtain ⟨hni, hn⟩ := List.nodup_cons.1 hn
    have hrun : x.run H (turns H order (i :: is)) =
        (x.run H (List.replicate 4 (i, rebuild H order))).run H (turns H order is) := by
      rw [← run_append]; rfl
    have hi := hx i (by simp)
    rw [hrun]
    cases hr : reqs[i]? with
    | none =>
      rw [hr] at hi
      have hstay : x.run H (List.replicate 4 (i, rebuild H order)) = x := by
        have hs : x.step H (i, rebuild H order) = x := by
          unfold Busy.step
          dsimp only
          rw [hi]; rfl
        simp only [List.replicate, Busy.run, List.foldl, hs]
      rw [hstay]
      obtain ⟨h1, h2, h3, h4⟩ := ih hn x fun j hj => hx j (List.mem_cons_of_mem _ hj)
      have heq : inTurn H order reqs x.server (i :: is) = inTurn H order reqs x.server is := by
        rw [inTurn, hr]
      rw [heq]
      refine ⟨h1, fun j hj => h2 j fun h => hj (List.mem_cons_of_mem _ h),
        fun j reply h => ⟨List.mem_cons_of_mem _ (h3 j reply h).1, (h3 j reply h).2⟩, fun j hj hl => ?_⟩
      rcases List.mem_cons.1 hj with rfl | hj
      · rw [List.getElem?_eq_none_iff] at hr; omega
      · exact h4 j hj hl
    | some r =>
      rw [hr] at hi
      rw [run_replicate 4 hi, jobSteps_four]
      dsimp only
      obtain ⟨hl, _⟩ := List.getElem?_eq_some_iff.1 hi
      obtain ⟨h1, h2, h3, h4⟩ := ih hn
        ⟨(x.server.handle H order r).1, x.jobs.set i (r, .done (x.server.handle H order r).2)⟩ (by
          intro j hj
          have hij : i ≠ j := fun h => hni (h ▸ hj)
          dsimp only
          rw [List.getElem?_set_ne hij]
          exact hx j (List.mem_cons_of_mem _ hj))
      dsimp only at h1 h2 h3 h4
      have heq : inTurn H order reqs x.server (i :: is) =
          ((inTurn H order reqs (x.server.handle H order r).1 is).1, (i, (x.server.handle H order r).2) ::
            (inTurn H order reqs (x.server.handle H order r).1 is).2) := by
        rw [inTurn, hr]
      rw [heq]
      refine ⟨h1, fun j hj => ?_, fun j reply h => ?_, fun j hj hlt => ?_⟩
      · rw [h2 j fun h => hj (List.mem_cons_of_mem _ h)]
        exact List.getElem?_set_ne fun h : i = j => hj (by rw [h]; exact List.mem_cons_self ..)
      · rcases List.mem_cons.1 h with h | h
        · cases h
          refine ⟨by simp, ?_⟩
          rw [h2 _ hni, List.getElem?_set_self hl, hr]
          rfl
        · exact ⟨List.mem_cons_of_mem _ (h3 j reply h).1, (h3 j reply h).2⟩
      · rcases List.mem_cons.1 hj with rfl | hj
        · exact ⟨_, List.mem_cons_self ..⟩
        · obtain ⟨reply, h⟩ := h4 j hj hlt
          exact ⟨reply, List.mem_cons_of_mem _ h⟩

/-- Handling requests one after the other, in any order, is one of the interleavings: with the same server
and the same replies. -/
theorem C147_serial (H : Host) (order : Workspace → Workspace) (reqs : List Request) (s : Server) (is : List Nat)
    (hn : is.Nodup) :
    ((Busy.receive s reqs).run H (turns H order is)).server = (inTurn H order reqs s is).1 ∧
    ∀ i ∈ is, ∀ r, reqs[i]? = some r → ∃ reply, (i, reply) ∈ (inTurn H order reqs s is).2 ∧
      ((Busy.receive s reqs).run H (turns H order is)).jobs[i]? = some (r, .done reply) := by
  obtain ⟨h1, _, h3, h4⟩ := turns_run H order reqs is hn (Busy.receive s reqs) fun i _ => List.getElem?_map
  refine ⟨h1, fun i hi r hr => ?_⟩
  obtain ⟨reply, h⟩ := h4 i hi (List.getElem?_eq_some_iff.1 hr).1
  refine ⟨reply, h, ?_⟩
  rw [(h3 i reply h).2, hr]
  rfl

/-! ## Same replies, same files -/

/-- A request other than adding a generated entity. -/
def Spec.Fixed : Request → Prop
  | .add _ => False
  | _ => True

/-- In both runs every request that can change a file is finished and accepted or rejected alike. -/
def Spec.Agree (H : Host) (x y : Busy) : Prop :=
  ∀ (i : Nat) (r : Request) (loc : List Str), r.target H = some loc → (∃ st, x.jobs[i]? = some (r, st)) →
    ∃ a b, x.jobs[i]? = some (r, .done a) ∧ y.jobs[i]? = some (r, .done b) ∧ (a = .error ↔ b = .error)

theorem effect_unique {l0 l l' : Option FsTree} {r : Request} {H : Host} {loc : List Str} (hr : Fixed r)
    (ht : r.target H = some loc) (h : Effect l0 l r) (h' : Effect l0 l' r) : l = l' := by
  cases r with
  | write path content force => exact Eq.trans h (Eq.symm h')
  | delete path force => exact Eq.trans h (Eq.symm h')
  | replace path old new all force =>
    obtain ⟨text, c, n, h1, h2, h3⟩ := h
    obtain ⟨text', c', n', h1', h2', h3'⟩ := h'
    rw [h1] at h1'
    cases h1'
    rw [h2] at h2'
    cases h2'
    rw [h3, h3']
  | add p => exact hr.elim
  | build => cases ht

theorem receive_ok {H : Host} {s : Server} {reqs : List Request} (hd : WellFormed s.disk) :
    BusyOk H s.disk reqs (Busy.receive s reqs) ∧ BuildOk (Busy.receive s reqs) := by
  refine ⟨⟨hd, ?_, ?_, fun _ _ => rfl⟩, ?_⟩
  · show (reqs.map fun r => (r, Stage.start)).map (·.1) = reqs
    rw [List.map_map]; exact List.map_id _
  · intro i r st loc hi _
    obtain ⟨_, rfl⟩ := receive_getElem hi
    exact rfl
  · intro i st hi u hu
    obtain ⟨_, rfl⟩ := receive_getElem hi
    cases hu

/-- Two runs of the same requests in any interleavings in which the same requests are accepted leave the
same files. -/
theorem C147_files (H : Host) (hws : ∀ n ∈ H.ws, ValidName n) (reqs : List Request) (ha : Apart H reqs)
    (hf : ∀ r ∈ reqs, Fixed r) (s : Server) (hd : WellFormed s.disk) (hb : ∀ loc, ¬ Has s.disk loc (.file none))
    (sched sched' : List Move)
    (h : Agree H ((Busy.receive s reqs).run H sched) ((Busy.receive s reqs).run H sched')) :
    SameFiles ((Busy.receive s reqs).run H sched).server.disk ((Busy.receive s reqs).run H sched').server.disk := by
  have hb' : ∀ loc, leafAt s.disk loc ≠ some (.file none) := fun loc h =>
    hb loc ((has_iff_lookup hd).2 (leafAt_eq_some.1 h).1)
  obtain ⟨k1, k2⟩ := receive_ok (H := H) (reqs := reqs) hd
  have hx := busyOk_run hws hb' ha sched k1 k2
  have hy := busyOk_run hws hb' ha sched' k1 k2
  generalize (Busy.receive s reqs).run H sched = x at *
  generalize (Busy.receive s reqs).run H sched' = y at *
  intro loc u hu
  have hleaf : leafAt x.server.disk loc = leafAt y.server.disk loc := by
    by_cases hex : ∃ r ∈ reqs, r.target H = some loc
    · obtain ⟨r, hr, ht⟩ := hex
      have hfr := hf r hr
      rw [← hx.requests] at hr
      obtain ⟨⟨r', st⟩, hm, rfl⟩ := List.mem_map.1 hr
      obtain ⟨i, hi⟩ := List.mem_iff_getElem?.1 hm
      obtain ⟨a, b, h1, h2, h3⟩ := h i r' loc ht ⟨st, hi⟩
      have o1 := hx.stage i r' _ loc h1 ht
      have o2 := hy.stage i r' _ loc h2 ht
      have herr : a = .error → leafAt x.server.disk loc = leafAt y.server.disk loc := by
        intro he
        rw [h3.1 he] at o2
        rw [he] at o1
        exact Eq.trans o1 (Eq.symm o2)
      have hok : a ≠ .error → leafAt x.server.disk loc = leafAt y.server.disk loc := by
        intro he
        have he' : b ≠ .error := fun hb => he (h3.2 hb)
        refine effect_unique hfr ht (l0 := leafAt s.disk loc) ?_ ?_
        · cases a with
          | error => exact absurd rfl he
          | success => exact o1
          | warning => exact o1
        · cases b with
          | error => exact absurd rfl he'
          | success => exact o2
          | warning => exact o2
      by_cases he : a = .error
      · exact herr he
      · exact hok he
    · have hno : ∀ r ∈ reqs, r.target H ≠ some loc := fun r hr ht => hex ⟨r, hr, ht⟩
      exact (hx.rest loc hno).trans (hy.rest loc hno).symm
  rw [has_iff_lookup hx.wf, has_iff_lookup hy.wf]
  have h1 := leafAt_eq_some (d := x.server.disk) (u := u) (loc := loc)
  have h2 := leafAt_eq_some (d := y.server.disk) (u := u) (loc := loc)
  rw [hleaf] at h1
  exact ⟨fun hh => (h2.1 (h1.2 ⟨hh, hu⟩)).1, fun hh => (h1.1 (h2.2 ⟨hh, hu⟩)).1⟩

/-- The same against handling the requests one after the other: if in some interleaving and in some order
the same requests are accepted, the files end up the same. What is missing: requests that add an entity
(their text is generated from the state at that moment), requests for the same file, and that the same
requests are accepted — which does not hold in general, see `C147_refused` and `C147_together`. -/
theorem C147_in_turn_partial (H : Host) (hws : ∀ n ∈ H.ws, ValidName n) (order : Workspace → Workspace)
    (reqs : List Request) (ha : Apart H reqs) (hf : ∀ r ∈ reqs, Fixed r) (s : Server) (hd : WellFormed s.disk)
    (hb : ∀ loc, ¬ Has s.disk loc (.file none)) (sched : List Move) (is : List Nat) (hn : is.Nodup)
    (h : ∀ (i : Nat) (r : Request), reqs[i]? = some r → r.target H ≠ none → i ∈ is ∧ ∃ a,
      ((Busy.receive s reqs).run H sched).jobs[i]? = some (r, .done a) ∧
      ∀ b, (i, b) ∈ (inTurn H order reqs s is).2 → (a = .error ↔ b = .error)) :
    SameFiles ((Busy.receive s reqs).run H sched).server.disk (inTurn H order reqs s is).1.disk := by
  obtain ⟨h1, h2⟩ := C147_serial H order reqs s is hn
  rw [← h1]
  refine C147_files H hws reqs ha hf s hd hb sched _ ?_
  rintro i r loc ht ⟨st, hi⟩
  have hr : reqs[i]? = some r := by
    have hb' : ∀ loc, leafAt s.disk loc ≠ some (.file none) := fun loc h =>
      hb loc ((has_iff_lookup hd).2 (leafAt_eq_some.1 h).1)
    obtain ⟨k1, k2⟩ := receive_ok (H := H) (reqs := reqs) hd
    rw [← (busyOk_run hws hb' ha sched k1 k2).requests, List.getElem?_map, hi]
    rfl
  obtain ⟨hm, a, h3, h4⟩ := h i r hr (by rw [ht]; exact Option.some_ne_none _)
  obtain ⟨b, h5, h6⟩ := h2 i hm r hr
  exact ⟨a, b, h3, h6, h4 b h5⟩

/-! ## Requests with force -/

/-- A request with `force`, or one to build. -/
def Spec.Forced : Request → Prop
  | .write _ _ force => force = true
  | .delete _ force => force = true
  | .replace _ _ _ _ force => force = true
  | .add _ => False
  | .build => True

/-- A path without two dots in a row that leads into the workspace. -/
def Spec.PlainPath (H : Host) (path : Str) : Prop :=
  ¬ Occurs "..".toList path ∧ H.ws <+: lexicalPlace H.ws (pathComponents path)

/-- A request with such a path. -/
def Spec.PlainRequest (H : Host) : Request → Prop
  | .write path _ _ => PlainPath H path
  | .delete path _ => PlainPath H path
  | .replace path _ _ _ _ => PlainPath H path
  | .add _ => True
  | .build => True

theorem abs_plain {H : Host} {path : Str} (h : PlainPath H path) (d : FsTree) :
    toAbsolutePath d H.ws path = some (placeFor H.ws path) := by
  obtain ⟨hdots, hin⟩ := h
  have hnew : newPath H.ws path = some (placeFor H.ws path) := by
    unfold newPath
    rw [if_neg (fun hc => hdots ((strContains_iff _ _).1 hc))]
  unfold toAbsolutePath
  cases hr : d.resolve H.ws (pathComponents path) with
  | none => exact hnew
  | some l =>
    have hl := resolve_lexical hr
    dsimp only
    cases hlk : d.lookup l with
    | none => exact hnew
    | some v =>
      dsimp only
      rw [hl, if_pos (List.isPrefixOf_iff_prefix.2 hin)]

/-- When the directories of a place can be created: nothing but directories is in the way. -/
theorem createDirAll_open {d : FsTree} {p : List Str} :
    (∃ d1 es, d.createDirAll p = some d1 ∧ d1.lookup p = some (.dir (some es))) ↔
      ∀ l, l <+: p → leafAt d l = none := by
  induction p generalizing d with
  | nil =>
    constructor
    · rintro ⟨d1, es, h1, h2⟩ l hl
      rw [List.prefix_nil.1 hl]
      rw [lookup_nil] at h2
      cases h2
      cases d with
      | dir e => simp only [FsTree.createDirAll, Option.some.injEq] at h1; rw [h1]; exact leafAt_dir_nil _
      | _ => simp [FsTree.createDirAll] at h1
    · intro h
      have h0 := h [] (List.prefix_refl _)
      cases d with
      | dir e =>
        cases e with
        | none => simp [leafAt, leafOf] at h0
        | some es => exact ⟨_, es, by simp [FsTree.createDirAll], lookup_nil _⟩
      | _ => simp [leafAt, leafOf] at h0
  | cons n ns ih =>
    cases d with
    | dir e =>
      cases e with
      | none =>
        constructor
        · rintro ⟨d1, es, h1, _⟩; simp [FsTree.createDirAll] at h1
        · intro h
          have h0 := h [] List.nil_prefix
          simp [leafAt, leafOf] at h0
      | some es =>
        have hleaf : ∀ l, leafAt ((mapGet es n).getD (.dir (some []))) l = leafAt (.dir (some es)) (n :: l) := by
          intro l
          rw [leafAt_cons]
          cases mapGet es n with
          | none => exact leafAt_empty l
          | some c => rfl
        constructor
        · rintro ⟨d1, fs, h1, h2⟩ l hl
          simp only [FsTree.createDirAll, Option.map_eq_some_iff] at h1
          obtain ⟨t, ht, rfl⟩ := h1
          rw [lookup_dir, mapGet_mapInsert, if_pos rfl] at h2
          cases l with
          | nil => exact leafAt_dir_nil _
          | cons m l =>
            obtain ⟨rfl, hl'⟩ := List.cons_prefix_cons.1 hl
            rw [← hleaf]
            exact ih.1 ⟨t, fs, ht, h2⟩ l hl'
        · intro h
          obtain ⟨t, fs, ht, h2⟩ := (ih (d := (mapGet es n).getD (.dir (some [])))).2 fun l hl => by
            rw [hleaf]
            exact h (n :: l) (List.cons_prefix_cons.2 ⟨rfl, hl⟩)
          refine ⟨.dir (some (mapInsert es n t)), fs, ?_, ?_⟩
          · simp only [FsTree.createDirAll, ht, Option.map_some]
          · rw [lookup_dir, mapGet_mapInsert, if_pos rfl]; exact h2
    | _ =>
      constructor
      · rintro ⟨d1, es, h1, _⟩; simp [FsTree.createDirAll] at h1
      · intro h
        have h0 := h [] List.nil_prefix
        simp [leafAt, leafOf] at h0

/-- A readable directory is at this place. -/
def DirAt (d : FsTree) (loc : List Str) : Prop := ∃ es, d.lookup loc = some (.dir (some es))

/-- As far as writing at this place goes the disks are the same. -/
structure SameWay (d d' : FsTree) (loc : List Str) : Prop where
  leaves : ∀ l, l <+: loc → leafAt d' l = leafAt d l
  dirs : DirAt d' loc ↔ DirAt d loc

theorem SameWay.symm {d d' : FsTree} {loc : List Str} (h : SameWay d d' loc) : SameWay d' d loc :=
  ⟨fun l hl => (h.leaves l hl).symm, h.dirs.symm⟩

theorem not_dirAt {d : FsTree} {loc : List Str} (h : ¬ DirAt d loc) : d.lookup loc = leafAt d loc := by
  unfold leafAt
  cases hl : d.lookup loc with
  | none => rfl
  | some u =>
    show some u = leafOf u
    have hu : NotDir u := fun es he => h ⟨es, by rw [hl, he]⟩
    exact (leafOf_eq_some.2 ⟨rfl, hu⟩).symm

theorem writeFile_isSome {d : FsTree} {p : List Str} {n : Str} {text : Str} :
    (∃ d2, d.writeFile (p ++ [n]) text = some d2) ↔
      DirAt d p ∧ ¬ DirAt d (p ++ [n]) ∧ (leafAt d (p ++ [n]) = none ∨ ∃ t, leafAt d (p ++ [n]) = some (.file t)) := by
  unfold FsTree.writeFile
  rw [List.dropLast_concat]
  constructor
  · rintro ⟨d2, h⟩
    cases hl : d.lookup (p ++ [n]) with
    | none =>
      rw [hl] at h
      dsimp only at h
      have hnd : ¬ DirAt d (p ++ [n]) := fun ⟨es, he⟩ => by rw [hl] at he; cases he
      refine ⟨?_, hnd, .inl (by rw [← not_dirAt hnd, hl])⟩
      cases hp : d.lookup p with
      | none => rw [hp] at h; cases h
      | some v =>
        rw [hp] at h
        cases v with
        | dir e =>
          cases e with
          | none => cases h
          | some es => exact ⟨es, hp⟩
        | _ => cases h
    | some u =>
      rw [hl] at h
      cases u with
      | file t =>
        have hnd : ¬ DirAt d (p ++ [n]) := fun ⟨es, he⟩ => by rw [hl] at he; cases he
        obtain ⟨es, hes, _⟩ := lookup_snoc_some hl
        exact ⟨⟨es, hes⟩, hnd, .inr ⟨t, by rw [← not_dirAt hnd, hl]⟩⟩
      | other => cases h
      | dir e => cases h
  · rintro ⟨⟨es, hp⟩, hnd, h⟩
    rw [not_dirAt hnd]
    rcases h with h | ⟨t, h⟩
    · rw [h]
      dsimp only
      rw [hp]
      exact ⟨_, rfl⟩
    · rw [h]
      exact ⟨_, rfl⟩

theorem writes_same {d d' : FsTree} {p : List Str} {n : Str} {text : Str} (h : SameWay d d' (p ++ [n]))
    (hw : ∃ d1 d2, d.createDirAll p = some d1 ∧ d1.writeFile (p ++ [n]) text = some d2) :
    ∃ d1 d2, d'.createDirAll p = some d1 ∧ d1.writeFile (p ++ [n]) text = some d2 := by
  obtain ⟨d1, d2, h1, h2⟩ := hw
  obtain ⟨⟨es, k1⟩, k2, k3⟩ := writeFile_isSome.1 ⟨d2, h2⟩
  obtain ⟨e1, fs, g1, g2⟩ := (createDirAll_open (d := d') (p := p)).2 fun l hl => by
    rw [h.leaves l (hl.trans (List.prefix_append _ _))]
    exact createDirAll_open.1 ⟨d1, es, h1, k1⟩ l hl
  have hnp : ¬ (p ++ [n]) <+: p := fun hp => by
    have := hp.length_le
    rw [List.length_append] at this
    simp at this
  have hdir : ¬ DirAt e1 (p ++ [n]) := by
    rintro ⟨gs, hgs⟩
    -- the directory was there before
    have hd' : DirAt d' (p ++ [n]) := by
      cases hl : d'.lookup (p ++ [n]) with
      | none => rw [(createDirAll_steady g1).1 _ hnp hl] at hgs; cases hgs
      | some u =>
        by_cases hu : ∃ ks, u = .dir (some ks)
        · obtain ⟨ks, rfl⟩ := hu
          exact ⟨ks, hl⟩
        · have hleaf : leafAt d' (p ++ [n]) = some u :=
            leafAt_eq_some.2 ⟨hl, fun ks hk => hu ⟨ks, hk⟩⟩
          rw [← leafAt_createDirAll g1] at hleaf
          rw [(leafAt_eq_some.1 hleaf).1] at hgs
          cases hgs
          exact absurd ⟨gs, rfl⟩ hu
    obtain ⟨ks, hks⟩ := h.dirs.1 hd'
    exact k2 ((createDirAll_steady h1).2 _ ks hks)
  obtain ⟨e2, g3⟩ := (writeFile_isSome (text := text)).2 ⟨⟨fs, g2⟩, hdir, by
    rw [leafAt_createDirAll g1, h.leaves _ (List.prefix_refl _), ← leafAt_createDirAll h1]
    exact k3⟩
  exact ⟨e1, e2, g1, g3⟩

theorem validateAndWrite_isSome {H : Host} {d : FsTree} {path content : Str} (hp : PlainPath H path) :
    (∃ d' o, validateAndWrite H d path content = (d', some o)) ↔
      H.accepts content = true ∧ endsWith path ".firm".toList = true ∧
      ∃ d1 d2, d.createDirAll (placeFor H.ws path).dropLast = some d1 ∧
        d1.writeFile (placeFor H.ws path) content = some d2 := by
  unfold validateAndWrite writeSourceFile
  rw [abs_plain hp]
  dsimp only
  by_cases ha : H.accepts content = true
  · rw [if_pos ha]
    by_cases he : endsWith path ".firm".toList = true
    · rw [if_pos he]
      cases h1 : d.createDirAll (placeFor H.ws path).dropLast with
      | none => exact ⟨fun ⟨_, _, h⟩ => (by cases h), fun ⟨_, _, _, _, h, _⟩ => (by cases h)⟩
      | some d1 =>
        dsimp only
        cases h2 : d1.writeFile (placeFor H.ws path) content with
        | none => exact ⟨fun ⟨_, _, h⟩ => (by cases h), fun ⟨_, _, _, _, h, h'⟩ => by cases h; rw [h2] at h'; cases h'⟩
        | some d2 => exact ⟨fun _ => ⟨ha, he, d1, d2, rfl, h2⟩, fun _ => ⟨_, _, rfl⟩⟩
    · rw [if_neg he]
      exact ⟨fun ⟨_, _, h⟩ => (by cases h), fun h => absurd h.2.1 he⟩
  · rw [if_neg ha]
    exact ⟨fun ⟨_, _, h⟩ => (by cases h), fun h => absurd h.1 ha⟩

/-- Whether writing is possible depends on the way to the place only. -/
theorem write_same {H : Host} {d d' : FsTree} {path content : Str} (hp : PlainPath H path)
    (h : SameWay d d' (placeFor H.ws path)) :
    (∃ x o, validateAndWrite H d' path content = (x, some o)) ↔ ∃ x o, validateAndWrite H d path content = (x, some o) := by
  have key : ∀ {d d' : FsTree}, SameWay d d' (placeFor H.ws path) →
      (∃ x o, validateAndWrite H d path content = (x, some o)) → ∃ x o, validateAndWrite H d' path content = (x, some o) := by
    intro d d' h hx
    obtain ⟨ha, he, hw⟩ := (validateAndWrite_isSome hp).1 hx
    refine (validateAndWrite_isSome hp).2 ⟨ha, he, ?_⟩
    obtain ⟨p, n, hpn, _⟩ := firm_place (ws := H.ws) he
    rw [placeFor, hpn] at h hw ⊢
    rw [List.dropLast_concat] at hw ⊢
    exact writes_same h hw
  exact ⟨key h.symm, key h⟩

theorem readText_same {d d' : FsTree} {loc : List Str} (h : leafAt d' loc = leafAt d loc) :
    d'.readText loc = d.readText loc := by
  have hr : ∀ d : FsTree, d.readText loc = match leafAt d loc with | some (.file t) => t | _ => none := by
    intro d
    unfold FsTree.readText leafAt
    cases d.lookup loc with
    | none => rfl
    | some u =>
      cases u with
      | dir e => cases e <;> rfl
      | _ => rfl
  rw [hr, hr, h]

theorem delete_same {H : Host} {d d' : FsTree} {path : Str} (hp : PlainPath H path)
    (h : leafAt d' (placeFor H.ws path) = leafAt d (placeFor H.ws path)) :
    (∃ x, deleteExecute d' H.ws path = some x) ↔ ∃ x, deleteExecute d H.ws path = some x := by
  have key : ∀ d : FsTree, (∃ x, deleteExecute d H.ws path = some x) ↔
      endsWith path ".firm".toList = true ∧ ∃ t, leafAt d (placeFor H.ws path) = some (.file (some t)) := by
    intro d
    unfold deleteExecute
    rw [abs_plain hp]
    dsimp only
    by_cases he : endsWith path ".firm".toList = true
    · rw [if_pos he]
      constructor
      · rintro ⟨x, hx⟩
        cases hr : d.readText (placeFor H.ws path) with
        | none => rw [hr] at hx; cases hx
        | some t =>
          refine ⟨he, t, leafAt_eq_some.2 ⟨?_, fun es h => by cases h⟩⟩
          unfold FsTree.readText at hr
          split at hr
          · next hl => rw [hl, hr]
          · cases hr
      · rintro ⟨_, t, ht⟩
        have hl := (leafAt_eq_some.1 ht).1
        unfold FsTree.readText FsTree.removeFile
        rw [hl]
        exact ⟨_, rfl⟩
    · rw [if_neg he]
      exact ⟨fun ⟨_, h⟩ => (by cases h), fun h => absurd h.1 he⟩
  rw [key, key, h]

theorem replace_same {H : Host} {d d' : FsTree} {path old new : Str} {all : Bool} (hp : PlainPath H path)
    (h : SameWay d d' (placeFor H.ws path)) :
    replaceExecute d' H.ws path old new all = replaceExecute d H.ws path old new all := by
  have hread : readSourceFile d' H.ws path = readSourceFile d H.ws path := by
    have key : ∀ d : FsTree, readSourceFile d H.ws path =
        if hasFirmExtension (placeFor H.ws path) then d.readText (placeFor H.ws path) else none := by
      intro d
      unfold readSourceFile
      rw [abs_plain hp]
      dsimp only
      cases hl : d.lookup (placeFor H.ws path) with
      | none =>
        dsimp only
        rw [FsTree.readText, hl]
        dsimp only
        split <;> rfl
      | some u => rfl
    rw [key, key, readText_same (h.leaves _ (List.prefix_refl _))]
  unfold replaceExecute
  rw [hread]

/-- The request can be carried out on this disk, apart from the check of the whole workspace. -/
def Goes (H : Host) (d : FsTree) : Request → Prop
  | .write path content _ => ∃ x o, validateAndWrite H d path content = (x, some o)
  | .delete path _ => ∃ x, deleteExecute d H.ws path = some x
  | .replace path old new all _ => ∃ c k, replaceExecute d H.ws path old new all = some (c, k) ∧
      ∃ x o, validateAndWrite H d path c = (x, some o)
  | _ => True

theorem goes_handle {H : Host} {order : Workspace → Workspace} {s : Server} {r : Request} {loc : List Str}
    (hf : Forced r) (ht : r.target H = some loc) : (s.handle H order r).2 ≠ .error ↔ Goes H s.disk r := by
  have hw : ∀ path content, (writeSource H order s path content true).2 ≠ .error ↔
      ∃ x o, validateAndWrite H s.disk path content = (x, some o) := by
    intro path content
    unfold writeSource
    cases hv : validateAndWrite H s.disk path content with
    | mk d o =>
      cases o with
      | none => exact ⟨fun h => absurd rfl h, fun ⟨_, _, h⟩ => by cases h⟩
      | some o =>
        refine ⟨fun _ => ⟨d, o, rfl⟩, fun _ => ?_⟩
        dsimp only
        cases rebuild H order d with
        | ok st => exact Reply.noConfusion
        | error e => exact Reply.noConfusion
  cases r with
  | write path content force =>
    cases (show force = true from hf)
    exact hw path content
  | delete path force =>
    cases (show force = true from hf)
    show (deleteSource H order s path true).2 ≠ .error ↔ ∃ x, deleteExecute s.disk H.ws path = some x
    unfold deleteSource
    cases hv : deleteExecute s.disk H.ws path with
    | none => exact ⟨fun h => absurd rfl h, fun ⟨_, h⟩ => by cases h⟩
    | some y =>
      obtain ⟨d, o⟩ := y
      refine ⟨fun _ => ⟨_, rfl⟩, fun _ => ?_⟩
      dsimp only
      cases rebuild H order d with
      | ok st => exact Reply.noConfusion
      | error e => exact Reply.noConfusion
  | replace path old new all force =>
    cases (show force = true from hf)
    show (replaceSource H order s path old new all true).2 ≠ .error ↔ ∃ c k, _ ∧ _
    unfold replaceSource
    cases hv : replaceExecute s.disk H.ws path old new all with
    | none => exact ⟨fun h => absurd rfl h, fun ⟨_, _, h, _⟩ => by cases h⟩
    | some y =>
      obtain ⟨c, k⟩ := y
      dsimp only
      have := hw path c
      unfold writeSource at this
      constructor
      · intro h
        refine ⟨c, k, rfl, this.1 ?_⟩
        exact h
      · rintro ⟨c', k', h, hx⟩
        cases h
        exact this.2 hx
  | add p => exact hf.elim
  | build => cases ht

/-- What is known of a request with `force` in a stage: `d0` is the disk before all requests. -/
def ForcedOk (H : Host) (d0 d : FsTree) (loc : List Str) (r : Request) : Stage → Prop
  | .start => DirAt d loc ↔ DirAt d0 loc
  | .computed c => (DirAt d loc ↔ DirAt d0 loc) ∧ ∃ path old new all force k, r = .replace path old new all force ∧
      replaceExecute d0 H.ws path old new all = some (c, k)
  | .changed _ => Goes H d0 r
  | .failed _ => False
  | .done b => b ≠ .error ↔ Goes H d0 r

theorem ForcedOk.congr {H : Host} {d0 d d' : FsTree} {loc : List Str} {r : Request} {st : Stage}
    (h : DirAt d' loc ↔ DirAt d loc) (hr : ForcedOk H d0 d loc r st) : ForcedOk H d0 d' loc r st := by
  cases st with
  | start => exact h.trans hr
  | computed c => exact ⟨h.trans hr.1, hr.2⟩
  | changed u => exact hr
  | failed u => exact hr
  | done b => exact hr

theorem dirAt_steady {d d' : FsTree} {loc loc' : List Str} (hl : leafAt d' loc = leafAt d loc) (hs : Steady d d' loc')
    (hp : ¬ loc <+: loc') : DirAt d' loc ↔ DirAt d loc := by
  refine ⟨fun ⟨es, he⟩ => ?_, fun ⟨es, he⟩ => hs.2 loc es he⟩
  cases hk : d.lookup loc with
  | none => rw [hs.1 loc hp hk] at he; cases he
  | some u =>
    by_cases hu : ∃ ks, u = .dir (some ks)
    · obtain ⟨ks, rfl⟩ := hu
      exact ⟨ks, hk⟩
    · have hleaf : leafAt d loc = some u := leafAt_eq_some.2 ⟨hk, fun ks h => hu ⟨ks, h⟩⟩
      rw [← hl] at hleaf
      rw [(leafAt_eq_some.1 hleaf).1] at he
      cases he
      exact absurd ⟨es, rfl⟩ hu

theorem sameWay_of {H : Host} {d0 : FsTree} {reqs : List Request} (ha : Apart H reqs) {x : Busy}
    (hx : BusyOk H d0 reqs x) {i : Nat} {r : Request} {loc : List Str} (hi : reqs[i]? = some r)
    (ht : r.target H = some loc) (hl : leafAt x.server.disk loc = leafAt d0 loc)
    (hd : DirAt x.server.disk loc ↔ DirAt d0 loc) : SameWay d0 x.server.disk loc := by
  refine ⟨fun l hlp => ?_, hd⟩
  by_cases he : l = loc
  · rw [he]; exact hl
  · refine hx.rest l fun q hq hqt => ?_
    obtain ⟨j, hj⟩ := List.mem_iff_getElem?.1 hq
    by_cases hij : j = i
    · subst hij
      rw [hi] at hj
      cases hj
      rw [ht] at hqt
      cases hqt
      exact he rfl
    · exact ha j i q r l loc hij hj hi hqt ht hlp

/-- A step of a request with `force` itself. -/
theorem forcedOk_own {H : Host} {d0 : FsTree} {s : Server} {rb : FsTree → Except WorkspaceError ServerState}
    {r : Request} {loc : List Str} {st : Stage} (hf : Forced r) (hpl : PlainRequest H r) (ht : r.target H = some loc)
    (hsame : (DirAt s.disk loc ↔ DirAt d0 loc) → leafAt s.disk loc = leafAt d0 loc → SameWay d0 s.disk loc)
    (hok : StageOk H d0 s.disk loc r st) (h : ForcedOk H d0 s.disk loc r st) :
    ForcedOk H d0 (jobStep H rb r s st).1.disk loc r (jobStep H rb r s st).2 := by
  have hwrite : ∀ (path content : Str), PlainPath H path → loc = placeFor H.ws path → SameWay d0 s.disk loc →
      ((∃ x o, validateAndWrite H d0 path content = (x, some o)) ↔ Goes H d0 r) →
      ForcedOk H d0 (writeJob H s path content).1.disk loc r (writeJob H s path content).2 := by
    intro path content hp hloc hs hg
    have hsw := write_same (content := content) hp (hloc ▸ hs)
    unfold writeJob
    cases hv : validateAndWrite H s.disk path content with
    | mk d o =>
      cases o with
      | none =>
        refine ⟨fun h => absurd rfl h, fun h => ?_⟩
        obtain ⟨x, o, hx⟩ := hsw.2 (hg.2 h)
        rw [hv] at hx
        cases hx
      | some o => exact hg.1 (hsw.1 ⟨d, o, hv⟩)
  cases st with
  | start =>
    have hs := hsame h hok
    cases r with
    | write path content force =>
      cases ht
      exact hwrite path content hpl rfl hs Iff.rfl
    | delete path force =>
      cases ht
      have hsw := delete_same (H := H) (path := path) hpl (hs.leaves _ (List.prefix_refl _))
      rw [jobStep]
      cases hv : deleteExecute s.disk H.ws path with
      | none =>
        refine ⟨fun h => absurd rfl h, fun h => ?_⟩
        obtain ⟨x, hx⟩ := hsw.2 h
        rw [hv] at hx
        cases hx
      | some y => exact hsw.1 ⟨y, hv⟩
    | replace path old new all force =>
      cases ht
      have hre := replace_same (old := old) (new := new) (all := all) hpl hs
      rw [jobStep]
      cases hv : replaceExecute s.disk H.ws path old new all with
      | none =>
        refine ⟨fun h => absurd rfl h, ?_⟩
        rintro ⟨c, k, h, _⟩
        rw [← hre, hv] at h
        cases h
      | some y =>
        obtain ⟨c, k⟩ := y
        exact ⟨h, path, old, new, all, force, k, rfl, by rw [← hre, hv]⟩
    | add p => exact hf.elim
    | build => cases ht
  | computed c =>
    obtain ⟨h1, path, old, new, all, force, k, rfl, h2⟩ := h
    have hs := hsame h1 hok.1
    cases ht
    refine hwrite path c hpl rfl hs ⟨fun h => ⟨c, k, h2, h⟩, ?_⟩
    rintro ⟨c', k', h3, h4⟩
    rw [h2] at h3
    cases h3
    exact h4
  | changed u =>
    rw [jobStep]
    cases rb s.disk with
    | ok st => exact ⟨fun _ => h, fun _ => Reply.noConfusion⟩
    | error e =>
      have hw : ForcedOk H d0 s.disk loc r (.done .warning) := ⟨fun _ => h, fun _ => Reply.noConfusion⟩
      cases r with
      | write path content force => cases (show force = true from hf); exact hw
      | delete path force => cases (show force = true from hf); exact hw
      | replace path old new all force => cases (show force = true from hf); exact hw
      | add p => exact hf.elim
      | build => cases ht
  | failed u => exact h.elim
  | done b => exact h

theorem forcedOk_run {H : Host} (hws : ∀ n ∈ H.ws, ValidName n) {d0 : FsTree} {reqs : List Request}
    (hb : ∀ loc, leafAt d0 loc ≠ some (.file none)) (ha : Apart H reqs)
    (hf : ∀ r ∈ reqs, Forced r ∧ PlainRequest H r) (sched : List Move) {x : Busy} (hx : BusyOk H d0 reqs x) (hbx : BuildOk x)
    (h : ∀ (i : Nat) (r : Request) (st : Stage) (loc : List Str), x.jobs[i]? = some (r, st) → r.target H = some loc →
      ForcedOk H d0 x.server.disk loc r st) :
    ∀ (i : Nat) (r : Request) (st : Stage) (loc : List Str), (x.run H sched).jobs[i]? = some (r, st) →
      r.target H = some loc → ForcedOk H d0 (x.run H sched).server.disk loc r st := by
  induction sched generalizing x with
  | nil => exact h
  | cons m ms ih =>
    refine ih (busyOk_step hws hb ha hx hbx) (buildOk_step hbx) ?_
    have hreq : ∀ (i : Nat) (q : Request) (st' : Stage), x.jobs[i]? = some (q, st') → reqs[i]? = some q := by
      intro i q st' hi
      rw [← hx.requests, List.getElem?_map, hi]; rfl
    unfold Busy.step
    cases hj : x.jobs[m.1]? with
    | none => exact h
    | some y =>
      obtain ⟨r, st⟩ := y
      dsimp only
      intro i q st' loc' hi hq
      rw [List.getElem?_set] at hi
      have hr := hf r (List.mem_of_getElem? (hreq _ _ _ hj))
      split at hi
      · next hmi =>
        split at hi
        · cases hi
          refine forcedOk_own hr.1 hr.2 hq ?_ (hx.stage _ _ _ _ hj hq) (h _ _ _ _ hj hq)
          exact fun h1 h2 => sameWay_of ha hx (hreq _ _ _ hj) hq h2 h1
        · cases hi
      · next hne =>
        cases hrt : r.target H with
        | none =>
          have hdisk : (jobStep H m.2 r x.server st).1.disk = x.server.disk := by
            cases r with
            | build => exact jobStep_build fun u hu => absurd hu (hbx _ _ hj u)
            | _ => cases hrt
          rw [hdisk]
          exact h i q st' loc' hi hq
        | some loc =>
          obtain ⟨_, h2, h3, _⟩ := jobStep_ok (rb := m.2) hws hx.wf (hb loc) hrt (hx.stage _ r st loc hj hrt)
          have hnp := ha i m.1 q r loc' loc (Ne.symm hne) (hreq _ _ _ hi) (hreq _ _ _ hj) hq hrt
          refine (h i q st' loc' hi hq).congr (dirAt_steady (h2 loc' ?_) h3 hnp)
          rintro rfl
          exact hnp (List.prefix_refl _)

/-- With `force` it makes no difference for a request which others are processed at the same time, nor how:
it is accepted if and only if it would be accepted alone. -/
theorem C147_forced (H : Host) (hws : ∀ n ∈ H.ws, ValidName n) (order : Workspace → Workspace) (reqs : List Request)
    (ha : Apart H reqs) (hf : ∀ r ∈ reqs, Forced r ∧ PlainRequest H r) (s : Server) (hd : WellFormed s.disk)
    (hb : ∀ loc, ¬ Has s.disk loc (.file none)) (sched : List Move) (i : Nat) (r : Request) (reply : Reply)
    (ht : r.target H ≠ none) (hi : ((Busy.receive s reqs).run H sched).jobs[i]? = some (r, .done reply)) :
    reply = .error ↔ (s.handle H order r).2 = .error := by
  have hb' : ∀ loc, leafAt s.disk loc ≠ some (.file none) := fun loc h =>
    hb loc ((has_iff_lookup hd).2 (leafAt_eq_some.1 h).1)
  obtain ⟨k1, k2⟩ := receive_ok (H := H) (reqs := reqs) hd
  cases hloc : r.target H with
  | none => exact absurd hloc ht
  | some loc =>
    have hr : reqs[i]? = some r := by
      rw [← (busyOk_run hws hb' ha sched k1 k2).requests, List.getElem?_map, hi]
      rfl
    have h := forcedOk_run hws hb' ha hf sched k1 k2 (by
      intro i r st loc hi _
      obtain ⟨_, rfl⟩ := receive_getElem hi
      exact Iff.rfl) i r _ loc hi hloc
    have hg := goes_handle (order := order) (s := s) (hf r (List.mem_of_getElem? hr)).1 hloc
    have : reply ≠ .error ↔ (s.handle H order r).2 ≠ .error := Iff.trans h hg.symm
    exact not_iff_not.1 this

/-- Hence requests with `force` for places apart leave the same files in every interleaving, and those are
the files of handling them one after the other in any order. -/
theorem C147_forced_files (H : Host) (hws : ∀ n ∈ H.ws, ValidName n) (order : Workspace → Workspace)
    (reqs : List Request) (ha : Apart H reqs) (hf : ∀ r ∈ reqs, Forced r ∧ PlainRequest H r) (s : Server)
    (hd : WellFormed s.disk) (hb : ∀ loc, ¬ Has s.disk loc (.file none)) (sched : List Move)
    (hall : ∀ y ∈ ((Busy.receive s reqs).run H sched).jobs, ∃ reply, y.2 = .done reply) (is : List Nat)
    (hn : is.Nodup) (his : ∀ i, i < reqs.length → i ∈ is) :
    SameFiles ((Busy.receive s reqs).run H sched).server.disk (inTurn H order reqs s is).1.disk := by
  obtain ⟨h1, h2⟩ := C147_serial H order reqs s is hn
  have hb' : ∀ loc, leafAt s.disk loc ≠ some (.file none) := fun loc h =>
    hb loc ((has_iff_lookup hd).2 (leafAt_eq_some.1 h).1)
  obtain ⟨k1, k2⟩ := receive_ok (H := H) (reqs := reqs) hd
  have hok := busyOk_run hws hb' ha sched k1 k2
  rw [← h1]
  have hfix : ∀ r ∈ reqs, Fixed r := by
    intro r hr
    have := (hf r hr).1
    cases r with
    | add p => exact this
    | _ => trivial
  refine C147_files H hws reqs ha hfix s hd hb sched _ ?_
  rintro i r loc ht ⟨st, hi⟩
  have hr : reqs[i]? = some r := by
    rw [← hok.requests, List.getElem?_map, hi]
    rfl
  obtain ⟨a, hsa⟩ := hall _ (List.mem_of_getElem? hi)
  cases (show st = .done a from hsa)
  obtain ⟨b, _, h6⟩ := h2 i (his i (List.getElem?_eq_some_iff.1 hr).1) r hr
  have hne : r.target H ≠ none := by rw [ht]; exact Option.some_ne_none _
  refine ⟨a, b, hi, h6, ?_⟩
  exact (C147_forced H hws order reqs ha hf s hd hb sched i r a hne hi).trans
    (C147_forced H hws order reqs ha hf s hd hb _ i r b hne h6).symm

/-! ## Witnesses -/

/-- A text that is refused and one that is not. -/
def exBadGood : List Request :=
  [.write "x.firm".toList "bad".toList false, .write "a.firm".toList "S".toList false]

theorem exBadGood_apart : Apart exHost exBadGood := apart_two rfl rfl (by decide) (by decide)

/-- Processing requests at the same time is not like handling them one after the other: a request is
rejected because of the text of another one that is itself rejected, although in either order it is
accepted. -/
theorem C147_refused : ∃ (reqs : List Request) (is : List Nat),
    Apart exHost reqs ∧ (∀ r ∈ reqs, r.unforced) ∧ Serves exHost exEmptyServer ∧
    ((Busy.receive exEmptyServer reqs).run exHost (exSched is)).jobs.map (·.2) = [.done .error, .done .error] ∧
    (inTurn exHost id reqs exEmptyServer [0, 1]).2 = [(0, .error), (1, .success)] ∧
    (inTurn exHost id reqs exEmptyServer [1, 0]).2 = [(1, .success), (0, .error)] := by
  refine ⟨exBadGood, [0, 1, 1, 1, 0, 0], exBadGood_apart, ?_, exEmpty_serves, ?_, ?_, ?_⟩
  · intro r hr
    rcases List.mem_cons.1 hr with rfl | hr
    · rfl
    · rw [List.mem_singleton.1 hr]; rfl
  · decide +kernel
  · decide +kernel
  · decide +kernel

/-- A grammar for two texts each of which has the schema for the entity of the other one. -/
def exCrossGrammar (text : Str) : Node :=
  if text = "P".toList then .mk "source_file".toList text
    [exSchemaNode "rock" [], exEntityNode "tree" "oak" []]
  else .mk "source_file".toList text
    [exSchemaNode "tree" [], exEntityNode "rock" "flint" []]

/-- The host with this grammar. -/
def exCrossHost : Host := { exHost with grammar := exCrossGrammar }

/-- Writing both texts. -/
def exCross : List Request :=
  [.write "p.firm".toList "P".toList false, .write "q.firm".toList "Q".toList false]

/-- Conversely two requests are both accepted, although in either order the first one is rejected and
with it the second one: neither text is valid without the other. -/
theorem C147_together : ∃ (H : Host) (reqs : List Request) (sched : List Move),
    Apart H reqs ∧ (∀ r ∈ reqs, r.unforced) ∧ Rebuilds H sched ∧
    ((Busy.receive exEmptyServer reqs).run H sched).jobs.map (·.2) = [.done .success, .done .success] ∧
    (inTurn H id reqs exEmptyServer [0, 1]).2 = [(0, .error), (1, .error)] ∧
    (inTurn H id reqs exEmptyServer [1, 0]).2 = [(1, .error), (0, .error)] := by
  refine ⟨exCrossHost, exCross, [0, 1, 1, 0].map fun i => (i, rebuild exCrossHost id),
    apart_two rfl rfl (by decide) (by decide), ?_, ?_, ?_, ?_, ?_⟩
  · intro r hr
    rcases List.mem_cons.1 hr with rfl | hr
    · rfl
    · rw [List.mem_singleton.1 hr]; rfl
  · intro m hm
    obtain ⟨i, _, rfl⟩ := List.mem_map.1 hm
    exact ⟨id, fun w => List.Perm.refl w, rfl⟩
  · decide +kernel
  · decide +kernel
  · decide +kernel

/-- The hypotheses of C147 are met by two requests that overlap and are accepted as they are in turn. -/
example : Apart exHost exTwo ∧ (∀ r ∈ exTwo, Fixed r) ∧ WellFormed exEmptyServer.disk ∧ [1, 0].Nodup ∧
    ((Busy.receive exEmptyServer exTwo).run exHost (exSched [0, 1, 1, 0])).jobs.map (·.2) =
      [.done .success, .done .success] ∧
    (inTurn exHost id exTwo exEmptyServer [1, 0]).2 = [(1, .success), (0, .success)] := by
  refine ⟨exTwo_apart, ?_, exEmpty_wf, by decide, by decide +kernel, by decide +kernel⟩
  intro r hr
  rcases List.mem_cons.1 hr with rfl | hr
  · trivial
  · rw [List.mem_singleton.1 hr]; trivial

/-- Requests with `force` of three kinds, one of which breaks the workspace. -/
def exForced : List Request := [.delete "a.firm".toList true, .write "x/c.firm".toList "bad".toList true,
  .replace "b.firm".toList "B".toList "S".toList false true]

/-- The hypotheses of `C147_forced` and `C147_forced_files` are met by them in an interleaving. -/
example : Apart exHost exForced ∧ (∀ r ∈ exForced, Forced r ∧ PlainRequest exHost r) ∧ WellFormed exServer.disk ∧
    ((Busy.receive exServer exForced).run exHost (exSched [2, 0, 1, 1, 2, 0, 2])).jobs.map (·.2) =
      [.done .warning, .done .warning, .done .warning] ∧
    (inTurn exHost id exForced exServer [2, 0, 1]).2 = [(2, .warning), (0, .success), (1, .warning)] := by
  refine ⟨?_, ?_, exDisk_wf, by decide +kernel, by decide +kernel⟩
  · intro i j r q a b hij hi hj hr hq
    match i, j, hij with
    | 0, 0, h => exact absurd rfl h
    | 1, 1, h => exact absurd rfl h
    | 2, 2, h => exact absurd rfl h
    | 0, 1, _ => cases hi; cases hj; cases hr; cases hq; decide
    | 1, 0, _ => cases hi; cases hj; cases hr; cases hq; decide
    | 0, 2, _ => cases hi; cases hj; cases hr; cases hq; decide
    | 2, 0, _ => cases hi; cases hj; cases hr; cases hq; decide
    | 1, 2, _ => cases hi; cases hj; cases hr; cases hq; decide
    | 2, 1, _ => cases hi; cases hj; cases hr; cases hq; decide
    | 0, j + 3, _ => cases hj
    | 1, j + 3, _ => cases hj
    | 2, j + 3, _ => cases hj
    | i + 3, _, _ => cases hi
  · have hp : ∀ path : Str, path ∈ ["a.firm".toList, "x/c.firm".toList, "b.firm".toList] → PlainPath exHost path := by
      intro path hp
      simp only [List.mem_cons, List.not_mem_nil, or_false] at hp
      rcases hp with rfl | rfl | rfl <;>
        exact ⟨fun h => absurd ((strContains_iff _ _).2 h) (by decide), by decide⟩
    intro r hr
    rcases List.mem_cons.1 hr with rfl | hr
    · exact ⟨rfl, hp _ (by simp)⟩
    · rcases List.mem_cons.1 hr with rfl | hr
      · exact ⟨rfl, hp _ (by simp)⟩
      · rw [List.mem_singleton.1 hr]; exact ⟨rfl, hp _ (by simp)⟩

/-- The paths have to be plain: `x/../a.firm` is found once another request has made `x`. -/
theorem C147_dots : ∃ (reqs : List Request) (is : List Nat),
    Apart exHost reqs ∧ (∀ r ∈ reqs, Forced r) ∧ WellFormed exServer.disk ∧
    ((Busy.receive exServer reqs).run exHost (exSched is)).jobs.map (·.2) = [.done .warning, .done .success] ∧
    (exServer.handle exHost id (.delete "x/../a.firm".toList true)).2 = .error ∧
    reqs[1]? = some (.delete "x/../a.firm".toList true) := by
  refine ⟨[.write "x/c.firm".toList "S".toList true, .delete "x/../a.firm".toList true], [0, 0, 1, 1], ?_, ?_, ?_, ?_, ?_, ?_⟩
  · exact apart_two rfl rfl (by decide) (by decide)
  · intro r hr
    rcases List.mem_cons.1 hr with rfl | hr
    · rfl
    · rw [List.mem_singleton.1 hr]; rfl
  · exact exDisk_wf
  · decide +kernel
  · decide +kernel
  · rfl

end Firm
