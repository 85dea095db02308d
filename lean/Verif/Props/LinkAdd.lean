import Verif.Model.LinkAdd
import Verif.Props.Unlinked
import Verif.Props.Served

/-!
# Adding entities on disks with symbolic links (C173)
-/

namespace Firm
open Spec

namespace Spec

/-- What is put between the old text of a file and the new one, so that the new one begins on a line of its own. -/
inductive Separates : Str → Str → Prop
  | empty : Separates [] []
  | ended (line : Str) : Separates (line ++ ['\n']) []
  | open (line : Str) (c : Char) (h : c ≠ '\n') : Separates (line ++ [c]) ['\n']

/-- At one place a text has been added to the end of a file, or a file with that text has been made where there
was nothing. All other files, all links and all directories are still there. -/
structure TextAdded (D D' : LinkDisk) (loc : List Str) (text : Str) : Prop where
  here : (∃ old sep, Has D.tree loc (.file (some old)) ∧ Separates old sep ∧
      Has D'.tree loc (.file (some (old ++ (sep ++ text))))) ∨
    ((∀ u, ¬ Has D.tree loc u) ∧ Has D'.tree loc (.file (some text)))
  others : ∀ l x, l ≠ loc → (Has D.tree l (.file x) ↔ Has D'.tree l (.file x))
  links : ∀ l t, IsLink D l t ↔ IsLink D' l t
  folders : ∀ l, (∃ es, Has D.tree l (.dir (some es))) → ∃ es, Has D'.tree l (.dir (some es))

end Spec

theorem separates_prefix (old : Str) : Separates old (appendPrefix old) := by
  unfold appendPrefix
  rcases List.eq_nil_or_concat old with rfl | ⟨line, c, rfl⟩
  · rw [if_pos (.inl rfl)]; exact .empty
  · rw [List.concat_eq_append, List.getLast?_concat]
    by_cases hc : c = '\n'
    · subst hc; rw [if_pos (.inr rfl)]; exact .ended line
    · rw [if_neg (by simp [hc])]; exact .open line c hc

/-- Creating directories changes nothing else. -/
theorem createAll_only {D D' : LinkDisk} (hs : Sound D) {rs : List PathComp}
    (hv : ∀ n, PathComp.normal n ∈ rs → ValidName n) (h : D.createAll rs = some D') : Grown [] D D' := by
  induction rs generalizing D' with
  | nil => cases h; exact .refl hs
  | cons c rs ih =>
    unfold LinkDisk.createAll at h
    split at h
    · split at h
      · cases h; exact .refl hs
      · cases h
    · rw [Option.bind_eq_some_iff] at h
      obtain ⟨D1, h1, h2⟩ := h
      have hg := ih (fun n hn => hv n (List.mem_cons_of_mem _ hn)) h1
      cases c with
      | normal n =>
        obtain ⟨loc, hloc⟩ : ∃ loc, D1.find rs.reverse = some loc := by
          unfold LinkDisk.mkdir at h2
          rw [Option.bind_eq_some_iff] at h2
          obtain ⟨l, h3, _⟩ := h2
          exact ⟨l, (real_iff.1 h3).1⟩
        have hval := find_valid hloc fun n hn => hv n (List.mem_cons_of_mem _ (List.mem_reverse.1 hn))
        refine hg.trans (mkdir_grown hg.sound hloc List.nil_prefix ?_ h2).1
        intro m hm
        rcases List.mem_append.1 hm with hm | hm
        · exact hval m hm
        · rw [List.mem_singleton] at hm; subst hm; exact hv m (by simp)
      | _ => cases h2

/-- What step 7 does to the disk. -/
theorem appendDsl_links {D : LinkDisk} (hs : Sound D) {cs : List PathComp} (hv : ∀ n, PathComp.normal n ∈ cs → ValidName n)
    {dsl : Str} {D' : LinkDisk} {ok : Bool} (h : D.appendDsl cs dsl = (D', ok)) :
    (ok = false ∧ (D' = D ∨ D.createAll cs.dropLast.reverse = some D')) ∨ (ok = true ∧ ∃ D1 loc old, D.createAll cs.dropLast.reverse = some D1 ∧ Grown [] D D1 ∧
      D1.find cs = some loc ∧ Sound D' ∧ ((D1.tree.lookup loc = none ∧ old = []) ∨
        D1.tree.lookup loc = some (.file (some old))) ∧
      Differ D1 D' loc (some (.file (some (old ++ (appendPrefix old ++ dsl)))))) := by
  unfold LinkDisk.appendDsl at h
  cases hc : D.createAll cs.dropLast.reverse with
  | none => rw [hc] at h; cases h; exact .inl ⟨rfl, .inl rfl⟩
  | some D1 =>
    have hg := createAll_only hs (fun n hn => hv n (List.mem_of_mem_dropLast (List.mem_reverse.1 hn))) hc
    rw [hc] at h
    dsimp only at h
    cases hr : D1.real cs with
    | none =>
      rw [hr] at h
      dsimp only at h
      cases hw : D1.writeFile cs dsl with
      | none => rw [hw] at h; cases h; exact .inl ⟨rfl, .inr rfl⟩
      | some D2 =>
        rw [hw] at h
        cases h
        obtain ⟨loc, hloc⟩ : ∃ loc, D1.find cs = some loc := by
          unfold LinkDisk.writeFile at hw
          rw [Option.bind_eq_some_iff] at hw
          obtain ⟨loc, hloc, _⟩ := hw
          exact ⟨loc, hloc⟩
        obtain ⟨k1, k2⟩ := write_found hg.sound hloc (find_valid hloc hv) hw
        refine .inr ⟨rfl, D1, loc, [], rfl, hg, hloc, k2, .inl ⟨?_, rfl⟩, k1⟩
        cases hl : D1.tree.lookup loc with
        | none => rfl
        | some u => rw [real_iff.2 ⟨hloc, u, hl⟩] at hr; cases hr
    | some loc =>
      obtain ⟨hloc, u, hu⟩ := real_iff.1 hr
      rw [hr] at h
      dsimp only at h
      cases ht : D1.readText cs with
      | none => rw [ht] at h; cases h; exact .inl ⟨rfl, .inr rfl⟩
      | some old =>
        rw [ht] at h
        dsimp only at h
        cases hw : D1.writeFile cs (old ++ (appendPrefix old ++ dsl)) with
        | none => rw [hw] at h; cases h; exact .inl ⟨rfl, .inr rfl⟩
        | some D2 =>
          rw [hw] at h
          cases h
          obtain ⟨k1, k2⟩ := write_found hg.sound hloc (find_valid hloc hv) hw
          refine .inr ⟨rfl, D1, loc, old, rfl, hg, hloc, k2, .inr ?_, k1⟩
          unfold LinkDisk.readText at ht
          rw [hloc] at ht
          exact readText_some ht

/-- What has been looked up in the grown disk was there before, or is a new directory. -/
theorem Grown.leaf {base : List Str} {D D' : LinkDisk} (h : Grown base D D') {l : List Str} {u : FsTree}
    (hu : ∀ es, u ≠ .dir (some es)) : D'.tree.lookup l = some u ↔ D.tree.lookup l = some u := by
  have h1 := leafAt_eq_some (d := D.tree) (u := u) (loc := l)
  have h2 := leafAt_eq_some (d := D'.tree) (u := u) (loc := l)
  rw [h.leaves] at h2
  exact ⟨fun k => (h1.1 (h2.2 ⟨k, hu⟩)).1, fun k => (h2.1 (h1.2 ⟨k, hu⟩)).1⟩

theorem textAdded_of {D D1 D' : LinkDisk} (hs : Sound D) {loc : List Str} {old dsl : Str} (hg : Grown [] D D1) (hs' : Sound D')
    (ho : (D1.tree.lookup loc = none ∧ old = []) ∨ D1.tree.lookup loc = some (.file (some old)))
    (hd : Differ D1 D' loc (some (.file (some (old ++ (appendPrefix old ++ dsl)))))) : TextAdded D D' loc dsl := by
  have hnew : D'.tree.lookup loc = some (.file (some (old ++ (appendPrefix old ++ dsl)))) := by
    have := hd.leaves loc
    rw [if_pos rfl] at this
    exact (leafAt_eq_some.1 this).1
  refine ⟨?_, fun l x hl => ?_, fun l t => ?_, fun l hl => ?_⟩
  · rcases ho with ⟨hn, rfl⟩ | hold
    · right
      refine ⟨fun u hu => ?_, (has_iff_lookup hs'.tree).2 hnew⟩
      have hu' := (has_iff_lookup hs.tree).1 hu
      have hne : ∀ v, D1.tree.lookup loc ≠ some v := fun v hv => by rw [hn] at hv; cases hv
      by_cases hf : ∃ es, u = .dir (some es)
      · obtain ⟨es, rfl⟩ := hf
        obtain ⟨es', he'⟩ := hg.keeps loc ⟨es, hu'⟩
        exact hne _ he'
      · exact hne _ ((hg.leaf fun es he => hf ⟨es, he⟩).2 hu')
    · exact .inl ⟨old, _, (has_iff_lookup hs.tree).2 ((hg.leaf (by simp)).1 hold), separates_prefix old,
        (has_iff_lookup hs'.tree).2 hnew⟩
  · rw [has_iff_lookup hs.tree, has_iff_lookup hs'.tree, ← hg.leaf (l := l) (u := .file x) (by simp)]
    have h1 := leafAt_eq_some (d := D1.tree) (u := .file x) (loc := l)
    have h2 := leafAt_eq_some (d := D'.tree) (u := .file x) (loc := l)
    rw [hd.leaves l, if_neg hl] at h2
    exact ⟨fun k => (h2.1 (h1.2 ⟨k, fun _ h => by cases h⟩)).1, fun k => (h1.1 (h2.2 ⟨k, fun _ h => by cases h⟩)).1⟩
  · rw [← linkAt_iff hs, ← linkAt_iff hs', hd.links, hg.links]
  · simp only [has_iff_lookup hs.tree, has_iff_lookup hs'.tree] at hl ⊢
    exact (hd.folders l).2 (hg.keeps l hl)

/-- C173: whatever links there are, a request to add an entity that is answered with anything but an error adds
the text of one entity to the end of the file to which the target path leads, or makes that file, and loses
nothing; one that is answered with an error leaves all files and links. The state is the one loaded from the
disk if that can be loaded, otherwise the old one. -/
theorem C173_added (H : Host) (hws : ∀ n ∈ H.ws, ValidName n) (order : Workspace → Workspace) (s : LinkServer)
    (hs : Sound s.disk) (p : AddParams) :
    Sound (s.add H order p).1.disk ∧
    ((s.add H order p).2 = .error → SameDisk s.disk (s.add H order p).1.disk) ∧
    ((s.add H order p).2 ≠ .error → ∃ e loc, entityToAdd H s.state p = some e ∧
      Reaches (s.add H order p).1.disk (joinComps H.ws (p.toFile.getD (defaultTarget p.type))) loc ∧
      TextAdded s.disk (s.add H order p).1.disk loc (generateDsl H.lang .default [e])) ∧
    ((s.add H order p).2 = .success → (s.add H order p).1.disk.rebuild H order = .ok (s.add H order p).1.state) ∧
    ((s.add H order p).2 = .warning → ∃ err, (s.add H order p).1.disk.rebuild H order = .error err) ∧
    ((s.add H order p).2 ≠ .success → (s.add H order p).1.state = s.state) := by
  unfold LinkServer.add LinkServer.addExecute
  cases he : entityToAdd H s.state p with
  | none => exact ⟨hs, fun _ => sameDisk_refl _, fun h => absurd rfl h, (fun h => by cases h), (fun h => by cases h), fun _ => rfl⟩
  | some e =>
    dsimp only
    cases hx : s.disk.appendDsl (joinComps H.ws (p.toFile.getD (defaultTarget p.type))) (generateDsl H.lang .default [e]) with
    | mk D' ok =>
      rcases appendDsl_links hs (fun n hn => joinComps_last_valid hws _ n hn) hx with
        ⟨rfl, hg⟩ | ⟨rfl, D1, loc, old, -, hg, hloc, hs', ho, hd⟩
      · have hg : Grown [] s.disk D' := by
          rcases hg with rfl | hc
          · exact .refl hs
          · exact createAll_only hs (fun n hn =>
              joinComps_last_valid hws _ n (List.mem_of_mem_dropLast (List.mem_reverse.1 hn))) hc
        exact ⟨hg.sound, fun _ => hg.same hs, fun h => absurd rfl h, (fun h => by cases h), (fun h => by cases h), fun _ => rfl⟩
      · have hr : Reaches D' (joinComps H.ws (p.toFile.getD (defaultTarget p.type))) loc :=
          (find_iff hs').1 (by rw [hd.find]; exact hloc)
        have ht := textAdded_of hs hg hs' ho hd
        dsimp only
        cases hb : D'.rebuild H order with
        | ok st => exact ⟨hs', (fun h => by cases h), fun _ => ⟨e, loc, rfl, hr, ht⟩, fun _ => hb, (fun h => by cases h), fun h => absurd rfl h⟩
        | error err => exact ⟨hs', (fun h => by cases h), fun _ => ⟨e, loc, rfl, hr, ht⟩, (fun h => by cases h), fun _ => ⟨err, hb⟩, fun _ => rfl⟩

/-- The directories above the workspace exist. -/
theorem workspace_parents {D : LinkDisk} {ws base : List Str} (h : D.find (placeComps ws) = some base) :
    D.createAll (placeComps ws).dropLast.reverse = some D := by
  rcases List.eq_nil_or_concat ws with rfl | ⟨p, n, rfl⟩
  · rfl
  · rw [List.concat_eq_append, placeComps_snoc] at *
    rw [List.dropLast_concat]
    unfold LinkDisk.find at h
    rw [Option.map_eq_some_iff] at h
    obtain ⟨⟨b, k⟩, h, rfl⟩ := h
    rw [walk_append, Option.bind_eq_some_iff] at h
    obtain ⟨⟨q, k'⟩, h1, h2⟩ := h
    by_cases hd : ∃ e, D.tree.lookup q = some (.dir e)
    · obtain ⟨e, he⟩ := hd
      exact createAll_existing (q := q) (by unfold LinkDisk.find; rw [h1]; rfl) he
    · dsimp only at h2
      rw [walk_not_dir (by simp) fun e he => hd ⟨e, he⟩] at h2
      cases h2

/-- C173: when the target is relative and without two dots and there are no links in the workspace, nothing
outside the workspace changes. -/
theorem C173_inside_partial (H : Host) (hws : ∀ n ∈ H.ws, ValidName n) (order : Workspace → Workspace)
    (s : LinkServer) (hs : Sound s.disk) (p : AddParams) (base : List Str)
    (hb : Reaches s.disk (placeComps H.ws) base) (hf : ∃ e, Has s.disk.tree base (.dir e)) (hn : NoLinks s.disk base)
    (hr : (p.toFile.getD (defaultTarget p.type)).head? ≠ some '/')
    (hp : strContains (p.toFile.getD (defaultTarget p.type)) "..".toList = false) :
    SameBeyond base s.disk (s.add H order p).1.disk := by
  have hb' := (find_iff hs).2 hb
  obtain ⟨e, he⟩ := hf
  have he' := (has_iff_lookup hs.tree).1 he
  have hn' : ∀ l, base <+: l → s.disk.linkAt l = none := fun l hl => (linkAt_none hs).2 fun t => hn l t hl
  have hvb := find_valid hb' (fun m hm => by
    unfold placeComps at hm
    simp only [List.mem_cons, reduceCtorEq, List.mem_map, PathComp.normal.injEq, exists_eq_right, false_or] at hm
    exact hws m hm)
  obtain ⟨ms, hj, hmv⟩ := joinComps_straight (ws := H.ws) hp hr
  have key : ∀ dsl, SameBeyond base s.disk
      (s.disk.appendDsl (joinComps H.ws (p.toFile.getD (defaultTarget p.type))) dsl).1 := by
    intro dsl
    cases hx : s.disk.appendDsl (joinComps H.ws (p.toFile.getD (defaultTarget p.type))) dsl with
    | mk D' ok =>
      have grown : ∀ D1, s.disk.createAll (joinComps H.ws (p.toFile.getD (defaultTarget p.type))).dropLast.reverse = some D1 →
          Grown base s.disk D1 := by
        intro D1 hc
        rw [hj] at hc
        rcases List.eq_nil_or_concat ms with rfl | ⟨ns, m, rfl⟩
        · rw [List.map_nil, List.append_nil] at hc
          rw [workspace_parents hb'] at hc
          cases hc
          exact .refl hs
        · rw [List.concat_eq_append, List.map_append, ← List.append_assoc, List.map_singleton, List.dropLast_concat] at hc
          exact (createAll_grown hs hb' he' hn' hvb
            (fun k hk => hmv k (by rw [List.concat_eq_append]; exact List.mem_append_left _ hk)) hc).1
      rcases appendDsl_links hs (fun n hn => joinComps_last_valid hws _ n hn) hx with
        ⟨rfl, rfl | hc⟩ | ⟨rfl, D1, loc, old, hc, -, hloc, hs', ho, hd⟩
      · exact sameBeyond_refl _ _
      · exact (grown D' hc).beyond hs
      · have hg := grown D1 hc
        have hb1 : D1.find (placeComps H.ws) = some base := by
          unfold LinkDisk.find at hb' ⊢
          rw [Option.map_eq_some_iff] at hb'
          obtain ⟨⟨b, k⟩, hb', rfl⟩ := hb'
          rw [hg.limit, hg.walk hb']
          rfl
        have hst := find_straight hb1 (fun l hl => by rw [hg.links]; exact hn' l hl) (hj ▸ hloc)
        exact sameBeyond_trans (hg.beyond hs) (hd.beyond hg.sound hs' (hst ▸ List.prefix_append _ _))
  unfold LinkServer.add LinkServer.addExecute
  cases entityToAdd H s.state p with
  | none => exact sameBeyond_refl _ _
  | some e =>
    have hk := key (generateDsl H.lang .default [e])
    dsimp only
    cases hx : s.disk.appendDsl (joinComps H.ws (p.toFile.getD (defaultTarget p.type))) (generateDsl H.lang .default [e]) with
    | mk D' ok =>
      rw [hx] at hk
      cases ok with
      | false => exact hk
      | true =>
        dsimp only
        cases D'.rebuild H order <;> exact hk

/-! ## On disks without links -/

theorem unlinked_append {d : FsTree} (k : Nat) {ws : List Str} {es : List (Str × FsTree)}
    (hw : d.lookup ws = some (.dir (some es))) {path : Str} (hp : strContains path "..".toList = false) (dsl : Str) :
    (d.unlinked k).appendDsl (joinComps ws path) dsl =
      ((appendDsl d (d.placeOf ws path) dsl).1.unlinked k, (appendDsl d (d.placeOf ws path) dsl).2) := by
  rw [placeOf_eq, join_names ws hp]
  have hdrop : (d.unlinked k).createAll (placeComps (placeFor ws path)).dropLast.reverse =
      (d.createDirAll (placeFor ws path).dropLast).map (·.unlinked k) := by
    rcases List.eq_nil_or_concat (placeFor ws path) with h | ⟨q, n, h⟩
    · obtain ⟨es', he'⟩ := root_folder hw
      rw [h, List.dropLast_nil, createDirAll_existing he']
      rfl
    · rw [h, List.concat_eq_append, placeComps_snoc, List.dropLast_concat, List.dropLast_concat, unlinked_create]
  unfold LinkDisk.appendDsl appendDsl
  rw [hdrop]
  cases d.createDirAll (placeFor ws path).dropLast with
  | none => rfl
  | some d1 =>
    rw [Option.map_some]
    dsimp only
    rw [unlinked_real d1 k (l := placeFor ws path) (.inr rfl), unlinked_read d1 k (l := placeFor ws path) (.inr rfl),
      unlinked_write d1 k (l := placeFor ws path) (.inr rfl)]
    cases hl : d1.lookup (placeFor ws path) with
    | none =>
      rw [if_neg (by exact Bool.noConfusion)]
      dsimp only
      cases d1.writeFile (placeFor ws path) dsl <;> rfl
    | some u =>
      rw [if_pos (by rfl)]
      dsimp only
      cases d1.readText (placeFor ws path) with
      | none => rfl
      | some old =>
        dsimp only
        rw [unlinked_write d1 k (l := placeFor ws path) (.inr rfl)]
        cases d1.writeFile (placeFor ws path) (old ++ (appendPrefix old ++ dsl)) <;> rfl

/-- C173: on a disk without links, adding an entity is what it is in Model/Mcp.lean. Missing: targets with two
dots, for which neither model says which directories come into being. -/
theorem C173_unlinked_partial {H : Host} (hws : ∀ n ∈ H.ws, ValidName n) (order : Workspace → Workspace) (s : Server) (k : Nat)
    (hd : WellFormed s.disk) {es : List (Str × FsTree)} (hw : Has s.disk H.ws (.dir (some es))) (p : AddParams)
    (hp : strContains (p.toFile.getD (defaultTarget p.type)) "..".toList = false) :
    (s.unlinked k).add H order p = ((addEntityTool H order s p).1.unlinked k, (addEntityTool H order s p).2) := by
  have hw' := (has_iff_lookup hd).1 hw
  unfold LinkServer.add addEntityTool LinkServer.addExecute addExecute
  rw [show (s.unlinked k).state = s.state from rfl]
  cases entityToAdd H s.state p with
  | none => rfl
  | some e =>
    dsimp only
    rw [show (s.unlinked k).disk = s.disk.unlinked k from rfl, unlinked_append k hw' hp]
    cases hx : appendDsl s.disk (s.disk.placeOf H.ws (p.toFile.getD (defaultTarget p.type))) (generateDsl H.lang .default [e]) with
    | mk d' ok =>
      cases ok with
      | false => rfl
      | true =>
        dsimp only
        rw [unlinked_rebuild k (appendDsl_spec hd (placeOf_valid hws _) hx).1]
        cases rebuild H order d' <;> rfl

/-- The server on a disk without links. -/
def Server.serve (H : Host) (s : Server) : List ((Workspace → Workspace) × Request) → Server × List Reply
  | [] => (s, [])
  | (order, r) :: rs =>
    (((s.handle H order r).1.serve H rs).1, (s.handle H order r).2 :: ((s.handle H order r).1.serve H rs).2)

/-- The target of a request to add an entity is without two dots. -/
def PlainTarget : Request → Prop
  | .add p => strContains (p.toFile.getD (defaultTarget p.type)) "..".toList = false
  | _ => True

/-- C173: so are any number of requests of all kinds. -/
theorem C173_run_partial {H : Host} (hws : ∀ n ∈ H.ws, ValidName n) (s : Server) (k : Nat) (hd : WellFormed s.disk)
    {es : List (Str × FsTree)} (hw : Has s.disk H.ws (.dir (some es))) (reqs : List ((Workspace → Workspace) × Request))
    (hp : ∀ r ∈ reqs, PlainTarget r.2) :
    (s.unlinked k).serve H reqs = ((s.serve H reqs).1.unlinked k, (s.serve H reqs).2) := by
  induction reqs generalizing s es with
  | nil => rfl
  | cons r reqs ih =>
    obtain ⟨order, r⟩ := r
    have h1 : (s.unlinked k).handle H order r = ((s.handle H order r).1.unlinked k, (s.handle H order r).2) := by
      cases r with
      | write path content force => exact C171_write hws order s k hd hw path content force
      | delete path force => exact C171_delete order s k hd hw path force
      | replace path old new all force => exact C171_replace hws order s k hd hw path old new all force
      | add p => exact C173_unlinked_partial hws order s k hd hw p (hp (order, .add p) (by simp))
      | build =>
        show (match (s.disk.unlinked k).rebuild H order with | .ok st => _ | .error _ => _) =
          ((buildTool H order s).1.unlinked k, (buildTool H order s).2)
        unfold buildTool
        rw [unlinked_rebuild k hd]
        cases rebuild H order s.disk <;> rfl
    have h3 : WellFormed (s.handle H order r).1.disk ∧ ∃ loc, Steady s.disk (s.handle H order r).1.disk loc := by
      cases r with
      | write path content force => exact edit_kept (order := order) hws hd (.write path content force)
      | delete path force => exact edit_kept (order := order) hws hd (.delete path force)
      | replace path old new all force => exact edit_kept (order := order) hws hd (.replace path old new all force)
      | build => exact edit_kept (order := order) hws hd .build
      | add p =>
        show WellFormed (addEntityTool H order s p).1.disk ∧ ∃ loc, Steady s.disk (addEntityTool H order s p).1.disk loc
        unfold addEntityTool addExecute
        cases entityToAdd H s.state p with
        | none => exact ⟨hd, [], .refl _ _⟩
        | some e =>
          dsimp only
          cases hx : appendDsl s.disk (s.disk.placeOf H.ws (p.toFile.getD (defaultTarget p.type))) (generateDsl H.lang .default [e]) with
          | mk d' ok =>
            have a1 := (appendDsl_spec hd (placeOf_valid hws _) hx).1
            have a2 := appendDsl_steady hx
            cases ok with
            | false => exact ⟨a1, _, a2⟩
            | true =>
              dsimp only
              cases rebuild H order d' <;> exact ⟨a1, _, a2⟩
    obtain ⟨hd', loc, hst⟩ := h3
    obtain ⟨es', he'⟩ := hst.2 _ _ ((has_iff_lookup hd).1 hw)
    have h2 := ih (s.handle H order r).1 hd' ((has_iff_lookup hd').2 he') fun r hr => hp r (List.mem_cons_of_mem _ hr)
    rw [LinkServer.serve, Server.serve, h1]
    dsimp only
    rw [h2]

/-! ## Through links -/

/-- `/w/out` is a link to `/etc`, where there is a file `c.firm`. -/
def etcDisk : LinkDisk where
  tree := .dir (some [("w".toList, .dir (some [("a.firm".toList, .file (some "S".toList)), ("out".toList, .other)])),
    ("etc".toList, .dir (some [("c.firm".toList, .file (some "B".toList))]))])
  links := [(["w".toList, "out".toList], "/etc".toList)]
  limit := 40

def exLinkServer (D : LinkDisk) : LinkServer := ⟨D, exLongServer.state⟩

def exAddTo (path : String) : AddParams := { exAdd "carol" with toFile := some path.toList }

/-- C173: through a link, entities are added to files outside the workspace, although the target is relative and
without two dots; `write_source` refuses the same path. -/
theorem C173_escapes : ∃ s : LinkServer, Sound s.disk ∧ Reaches s.disk (placeComps exLongHost.ws) ["w".toList] ∧
    (s.write exLongHost id "out/c.firm".toList "B".toList true).2 = .error ∧
    (s.add exLongHost id (exAddTo "out/c.firm")).2 = .success ∧
    Has s.disk.tree ["etc".toList, "c.firm".toList] (.file (some "B".toList)) ∧
    Has (s.add exLongHost id (exAddTo "out/c.firm")).1.disk.tree ["etc".toList, "c.firm".toList]
      (.file (some "B\nperson carol {\n    name = \"Carol\"\n}\n".toList)) := by
  refine ⟨exLinkServer etcDisk, soundB_sound (by decide +kernel), ex_reaches (by decide +kernel) (by decide +kernel),
    by decide +kernel, by decide +kernel, has_text (by decide +kernel) (by decide +kernel),
    has_text (by decide +kernel) (by decide +kernel)⟩

/-- C173: a link that leads nowhere makes a new file outside the workspace, and the request is answered with a
warning at most: what was written stays. -/
theorem C173_dangling : ∃ s : LinkServer, Sound s.disk ∧ Reaches s.disk (placeComps exLongHost.ws) ["w".toList] ∧
    IsLink s.disk ["w".toList, "x.firm".toList] "/etc/new.firm".toList ∧
    (s.add exLongHost id (exAddTo "x.firm")).2 = .warning ∧
    (∀ text, ¬ Has s.disk.tree ["etc".toList, "new.firm".toList] (.file (some text))) ∧
    Has (s.add exLongHost id (exAddTo "x.firm")).1.disk.tree ["etc".toList, "new.firm".toList]
      (.file (some "person carol {\n    name = \"Carol\"\n}\n".toList)) := by
  refine ⟨exLinkServer danglingDisk, soundB_sound (by decide +kernel), ex_reaches (by decide +kernel) (by decide +kernel),
    (linkAt_iff (soundB_sound (by decide +kernel))).1 (by decide +kernel),
    by decide +kernel, not_has_text (by decide +kernel) (by decide +kernel),
    has_text (by decide +kernel) (by decide +kernel)⟩

-- accepted through a link to a file, refused because the directory is a file, and made in a new directory
example : Sound (exLinkServer notesDisk).disk ∧ ((exLinkServer notesDisk).add exLongHost id (exAddTo "l.firm")).2 = .success ∧
    ((exLinkServer notesDisk).add exLongHost id (exAddTo "notes.txt/l.firm")).2 = .error ∧
    ((exLinkServer notesDisk).add exLongHost id (exAddTo "new/l.firm")).2 = .warning ∧
    ((exLinkServer notesDisk).add exLongHost id (exAddTo "l.firm")).1.disk.tree.readText ["w".toList, "notes.txt".toList] =
      some "B\nperson carol {\n    name = \"Carol\"\n}\n".toList :=
  ⟨soundB_sound (by decide +kernel), by decide +kernel, by decide +kernel, by decide +kernel, by decide +kernel⟩

-- a workspace without links that is itself reached through a link
example : Sound plainDisk ∧ Reaches plainDisk (placeComps exLongHost.ws) ["data".toList] ∧
    (∃ e, Has plainDisk.tree ["data".toList] (.dir e)) ∧ NoLinks plainDisk ["data".toList] ∧
    ((exLinkServer plainDisk).add exLongHost id (exAddTo "new/l.firm")).2 = .warning ∧
    ((exLinkServer plainDisk).add exLongHost id (exAddTo "b.firm")).2 = .success ∧
    strContains ((exAddTo "new/l.firm").toFile.getD (defaultTarget (exAddTo "new/l.firm").type)) "..".toList = false := by
  refine ⟨plainDisk_sound, ex_reaches (by decide +kernel) (by decide +kernel),
    ⟨_, (has_iff_lookup plainDisk_sound.tree).2 (by rfl)⟩, ?_, by decide +kernel, by decide +kernel, by decide +kernel⟩
  rintro loc text ⟨t, rfl⟩ ⟨_, h⟩
  have := (Prod.mk.inj (List.mem_singleton.1 h)).1
  revert this
  exact fun h => absurd (List.cons.inj h).1 (by decide)

-- requests of all kinds on a disk without links
example : (∃ es, Has exDisk exLongHost.ws (.dir (some es))) ∧
    (∀ r ∈ ([(id, .add (exAddTo "b.firm")), (id, .add (exAddTo "sub/x.firm")), (id, .delete "b.firm".toList true)] :
      List ((Workspace → Workspace) × Request)), PlainTarget r.2) ∧
    (exLongServer.serve exLongHost [(id, .add (exAddTo "b.firm")), (id, .add (exAddTo "sub/x.firm")),
      (id, .delete "b.firm".toList true)]).2 = [.success, .error, .success] := by
  refine ⟨⟨_, (has_iff_lookup exDisk_wf).2 (by rfl)⟩, ?_, by decide +kernel⟩
  intro r hr
  simp only [List.mem_cons, List.not_mem_nil, or_false] at hr
  rcases hr with rfl | rfl | rfl
  · show strContains _ _ = false
    decide +kernel
  · show strContains _ _ = false
    decide +kernel
  · trivial

end Firm
