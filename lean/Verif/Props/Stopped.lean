import Verif.Model.Stopped
import Verif.Props.Main
import Verif.Props.Interrupted

/-!
# C134: commands that are stopped
-/

namespace Firm

open Spec

/-! ## What saving changes, wherever it stops -/

/-- The entries of the workspace directory but for the graph files, and everything outside. -/
structure Swapped (ws : List Str) (d d' : FsTree) : Prop where
  wf : WellFormed d'
  away : ∀ l, ¬ ws ++ [currentName] <+: l → ¬ ws ++ [backupName] <+: l → leafAt d' l = leafAt d l
  entries : ∀ es, d.lookup ws = some (.dir (some es)) → ∃ es', d'.lookup ws = some (.dir (some es')) ∧
    es'.filter (fun q => !isGraphName q.1) = es.filter (fun q => !isGraphName q.1) ∧
    ((∀ q ∈ es, isGraphName q.1 = true → ∀ e, q.2 ≠ .dir e) → ∀ q ∈ es', isGraphName q.1 = true → ∀ e, q.2 ≠ .dir e)

theorem Swapped.refl {ws : List Str} {d : FsTree} (hd : WellFormed d) : Swapped ws d d :=
  ⟨hd, fun _ _ _ => rfl, fun es h => ⟨es, h, rfl, id⟩⟩

theorem Swapped.trans {ws : List Str} {a b c : FsTree} (h : Swapped ws a b) (h' : Swapped ws b c) : Swapped ws a c := by
  refine ⟨h'.wf, fun l h1 h2 => (h'.away l h1 h2).trans (h.away l h1 h2), fun es hes => ?_⟩
  obtain ⟨es1, k1, k2, k3⟩ := h.entries es hes
  obtain ⟨es2, m1, m2, m3⟩ := h'.entries es1 k1
  exact ⟨es2, m1, m2.trans k2, fun hh => m3 (k3 hh)⟩

theorem validNames_concat {ws : List Str} (hws : ∀ n ∈ ws, ValidName n) {k : Str} (hk : ValidName k) :
    ∀ n ∈ ws ++ [k], ValidName n := by
  intro n hn
  rcases List.mem_append.1 hn with hn | hn
  · exact hws n hn
  · rw [List.mem_singleton.1 hn]; exact hk

theorem swapped_aside {ws : List Str} {d d1 : FsTree} (hd : WellFormed d) (hws : ∀ n ∈ ws, ValidName n)
    {es : List (Str × FsTree)} (hes : d.lookup ws = some (.dir (some es))) (h : setGraphAside ws d = some d1) :
    Swapped ws d d1 := by
  rcases setGraphAside_eq hes h with ⟨rfl, _⟩ | ⟨t, ht, rfl, hl⟩
  · exact .refl hd
  · refine ⟨wf_place (wf_remove hd) (lookup_valid hd ht).1 (validNames_concat hws validName_backup), fun l h1 h2 => ?_,
      fun es' hes' => ?_⟩
    · rw [leafAt_place_away (lookup_remove_dir hes) h2, leafAt_remove_away hes h1]
    · rw [hes] at hes'
      cases hes'
      refine ⟨_, hl, ?_, fun hg => ?_⟩
      · rw [mapInsert_filter _ _ _ (fun n => !isGraphName n) (by decide), List.filter_filter]
        congr 1
        funext q
        by_cases hq : q.1 = currentName
        · have : isGraphName q.1 = true := isGraphName_iff.2 (.inl hq)
          simp [this]
        · simp [hq]
      · rw [lookup_child hes] at ht
        intro q hq hn
        rcases (mem_mapInsert hq).symm with rfl | hq
        · exact hg (currentName, t) (mapGet_found ht) (isGraphName_iff.2 (.inl rfl))
        · exact hg q (List.mem_filter.1 hq).1 hn

theorem swapped_place {ws : List Str} {d : FsTree} (hd : WellFormed d) (hws : ∀ n ∈ ws, ValidName n)
    {es : List (Str × FsTree)} (hes : d.lookup ws = some (.dir (some es))) (t : Option Str) :
    Swapped ws d (d.place (ws ++ [currentName]) (.file t)) := by
  refine ⟨wf_place hd (.file _) (validNames_concat hws validName_current), fun l h1 _ => leafAt_place_away hes h1,
    fun es' hes' => ?_⟩
  rw [hes] at hes'
  cases hes'
  refine ⟨_, lookup_place_parent hes, mapInsert_filter _ _ _ (fun n => !isGraphName n) (by decide), fun hg q hq hn => ?_⟩
  rcases (mem_mapInsert hq).symm with rfl | hq
  · intro e he; cases he
  · exact hg q hq hn

theorem Swapped.same {ws : List Str} {d d' : FsTree} (hd : WellFormed d) (h : Swapped ws d d') : SameButGraph ws d d' := by
  intro loc u hu h1 h2
  rw [has_iff_lookup hd, has_iff_lookup h.wf]
  have key : ∀ t : FsTree, t.lookup loc = some u ↔ leafAt t loc = some u := fun t => by
    rw [leafAt_eq_some]; exact ⟨fun h => ⟨h, hu⟩, fun h => h.1⟩
  rw [key, key, h.away loc h1 h2]

theorem Swapped.loads {H : Host} {d d' : FsTree} (hd : WellFormed d) (hg : NoGraphDirs H.ws d)
    (h : Swapped H.ws d d') (hr : ∃ es, d.lookup H.ws = some (.dir (some es))) :
    NoGraphDirs H.ws d' ∧ loadFiles H d' = loadFiles H d := by
  obtain ⟨es, hes⟩ := hr
  obtain ⟨es', h1, h2, h3⟩ := h.entries es hes
  have hno := noGraphDirs_entries hd hg hes
  refine ⟨fun n hn e he => ?_, ?_⟩
  · rw [has_iff_lookup h.wf, lookup_child h1] at he
    exact h3 hno _ (mapGet_found he) (isGraphName_iff.2 hn) e rfl
  · unfold loadFiles
    rw [h1, hes]
    dsimp only
    unfold Workspace.loadDirectory
    rw [loadTree_skip H.grammar (placeText H.ws) (placeText H.ws) [] (h3 hno) hno h2]

/-- The same files are built. -/
theorem current_files {H : Host} {d d' : FsTree} (hd : WellFormed d) (hd' : WellFormed d') (hws : ∀ n ∈ H.ws, ValidName n)
    (hl : loadFiles H d' = loadFiles H d) (b : WorkspaceBuild) (h : Current H d b) : Current H d' b := by
  obtain ⟨hr, ⟨w, hw, hb⟩, hn⟩ := h
  obtain ⟨w0, hw0⟩ := (loadFiles_spec hd hws).2 hr
  have h1 := ((loadFiles_spec hd hws).1 w0 hw0).2
  rw [← hl] at hw0
  obtain ⟨h2, h3⟩ := (loadFiles_spec hd' hws).1 w0 hw0
  exact ⟨h2, ⟨w, loadsAs_order (loadsAs_perm hw h1) h3, hb⟩, hn⟩

theorem loadBuild_dir {H : Host} {order : Workspace → Workspace} {d : FsTree} (hd : WellFormed d)
    (hws : ∀ n ∈ H.ws, ValidName n) {b : WorkspaceBuild} (hb : loadBuild H order d = some b) :
    ∃ es, d.lookup H.ws = some (.dir (some es)) := by
  unfold loadBuild at hb
  split at hb
  · cases hb
  · next w hw =>
    obtain ⟨⟨es, hes⟩, _⟩ := ((loadFiles_spec hd hws).1 w hw).1
    exact ⟨es, (has_iff_lookup hd).1 hes⟩

/-- Where the writing of the graph can stop. -/
theorem write_stops {d d' : FsTree} {p : List Str} {n text : Str} (h : StopsAt d [.write (p ++ [n]) text] d') :
    d' = d ∨ ∃ t, Begun text t ∧ d' = d.place (p ++ [n]) (.file t) := by
  generalize hloc : p ++ [n] = loc at h ⊢
  cases h with
  | here => exact .inl rfl
  | inside k =>
    rename_i k
    rw [FsOp.cut]
    cases hw : d.writeFile loc text with
    | none => exact .inl rfl
    | some d2 => exact .inr ⟨_, firstBytes_begun k text, rfl⟩
  | later h =>
    rw [stopsAt_nil h, FsOp.run]
    cases hw : d.writeFile loc text with
    | none => exact .inl rfl
    | some d2 => 
      subst hloc
      exact .inr ⟨_, begun_all text, (writeFile_spec hw).1⟩

theorem buildStop_swapped {M : Machine} {x : Chance} {d d' : FsTree} (hd : WellFormed d)
    (hws : ∀ n ∈ M.host.ws, ValidName n) (h : BuildStop M x d d') : Swapped M.host.ws d d' := by
  cases h with
  | before => exact .refl hd
  | saving hb hg ha hs =>
    obtain ⟨es, hes⟩ := loadBuild_dir hd hws hb
    have h1 := swapped_aside hd hws hes ha
    rcases write_stops hs with rfl | ⟨t, _, rfl⟩
    · exact h1
    · obtain ⟨es1, hes1, _⟩ := h1.entries es hes
      exact h1.trans (swapped_place h1.wf hws hes1 t)

/-- The end of a build is one of the disks at which it can stop. -/
theorem buildStop_end (M : Machine) (x : Chance) (d : FsTree) : BuildStop M x d (buildAndSave M x d).1 := by
  unfold buildAndSave
  cases hb : loadBuild M.host x.files d with
  | none => exact .before
  | some b =>
    dsimp only
    cases hg : b.toGraph with
    | mk g r =>
      cases r with
      | error e => exact .before
      | ok u =>
        dsimp only
        unfold saveGraphFile
        cases ha : setGraphAside M.host.ws d with
        | none => exact .before
        | some d1 =>
          dsimp only
          have key : StopsAt d1 [.write (M.host.ws ++ [currentName]) (graphText M.screen.codec x.maps g)]
              ((d1.writeFile (M.host.ws ++ [currentName]) (graphText M.screen.codec x.maps g)).getD d1) :=
            .later (.here _ _)
          cases hw : d1.writeFile (M.host.ws ++ [currentName]) (graphText M.screen.codec x.maps g) with
          | none => rw [hw] at key; exact .saving hb hg ha key
          | some d2 => rw [hw] at key; exact .saving hb hg ha key

/-! ## What `add` leaves -/

theorem run_writeDslOps (d : FsTree) (loc : List Str) (dsl : Str) :
    runOps d (writeDslOps d loc dsl) = (cliAppend d loc dsl).1 := by
  unfold writeDslOps cliAppend
  cases hc : d.createDirAll loc.dropLast with
  | none => simp [runOps, FsOp.run, hc]
  | some d1 =>
    dsimp only
    cases hl : d1.lookup loc with
    | none =>
      have hr : d1.readText loc = none := by unfold FsTree.readText; rw [hl]
      cases hw : d1.writeFile loc dsl with
      | none => simp [runOps, FsOp.run, hc, hr, hw]
      | some d2 => simp [runOps, FsOp.run, hc, hr, hw]
    | some v =>
      cases v with
      | dir e => simp [runOps, FsOp.run, hc]
      | other => simp [runOps, FsOp.run, hc]
      | file t =>
        cases t with
        | none => simp [runOps, FsOp.run, hc]
        | some old =>
          have hr : d1.readText loc = some old := by unfold FsTree.readText; rw [hl]
          cases hw : d1.writeFile loc (old ++ dsl) with
          | none => simp [runOps, FsOp.run, hc, hr, hw]
          | some d2 => simp [runOps, FsOp.run, hc, hr, hw]

theorem stopsAt_end (d : FsTree) (ops : List FsOp) : StopsAt d ops (runOps d ops) := by
  induction ops generalizing d with
  | nil => exact .here _ _
  | cons op ops ih => exact .later (ih _)

/-- What `firm add` may leave at its target. -/
def CliLeaves (d : FsTree) (loc : List Str) (dsl : Str) (u : Option FsTree) : Prop :=
  u = leafAt d loc ∨
  (leafAt d loc = none ∧ ∃ t, Begun dsl t ∧ u = some (.file t)) ∨
  ∃ old t, leafAt d loc = some (.file (some old)) ∧ Begun dsl t ∧ u = some (.file (t.map (old ++ ·)))

theorem mkdirs_cut {d : FsTree} {loc : List Str} (hd : WellFormed d) (hv : ∀ m ∈ loc, ValidName m) (k : Nat) :
    LeafTo d (FsOp.cut d k (.mkdirs loc.dropLast)) loc (leafAt d loc) := by
  rw [FsOp.cut]
  cases h : d.createDirAll loc.dropLast with
  | none => exact .same hd _
  | some d1 =>
    dsimp only
    cases h' : d.createDirAll (loc.dropLast.take k) with
    | none => exact .same hd _
    | some d2 =>
      exact createDirAll_leafTo hd (fun m hm => hv m (List.mem_of_mem_dropLast (List.mem_of_mem_take hm))) h' _

theorem mkdirs_run {d : FsTree} {loc : List Str} (hd : WellFormed d) (hv : ∀ m ∈ loc, ValidName m) :
    LeafTo d ((FsOp.run d (.mkdirs loc.dropLast)).getD d) loc (leafAt d loc) := by
  rw [FsOp.run]
  cases h : d.createDirAll loc.dropLast with
  | none => exact .same hd _
  | some d1 => exact createDirAll_leafTo hd (fun m hm => hv m (List.mem_of_mem_dropLast hm)) h _

theorem mkdirs_stop {d d' : FsTree} {loc : List Str} (hd : WellFormed d) (hv : ∀ m ∈ loc, ValidName m)
    (h : StopsAt d [.mkdirs loc.dropLast] d') : LeafTo d d' loc (leafAt d loc) := by
  cases h with
  | here => exact .same hd _
  | inside k => exact mkdirs_cut hd hv _
  | later h => rw [stopsAt_nil h]; exact mkdirs_run hd hv

theorem mkdirs_append_stop {d d1 d' : FsTree} {p : List Str} {n text : Str} (hd : WellFormed d)
    (hv : ∀ m ∈ p ++ [n], ValidName m) (hc : d.createDirAll p = some d1)
    (h : StopsAt d [.mkdirs p, .append (p ++ [n]) text] d') :
    LeafTo d d' (p ++ [n]) (leafAt d (p ++ [n])) ∨
    ∃ t, Begun text t ∧ LeafTo d d' (p ++ [n]) (some (.file (t.map ((d1.readText (p ++ [n])).getD [] ++ ·)))) := by
  have hdl : (p ++ [n]).dropLast = p := List.dropLast_concat
  have hd1 := wf_createDirAll hd (fun m hm => hv m (List.mem_append_left _ hm)) hc
  have h0 := createDirAll_leafTo hd (fun m hm => hv m (List.mem_append_left _ hm)) hc (p ++ [n])
  cases h with
  | here => exact .inl (.same hd _)
  | inside =>
    rename_i k
    have := mkdirs_cut hd hv k
    rw [hdl] at this
    exact .inl this
  | later h =>
    rw [FsOp.run, hc, Option.getD_some] at h
    cases h with
    | here => exact .inl h0
    | inside k =>
      rw [FsOp.cut]
      cases hw : d1.writeFile (p ++ [n]) ((d1.readText (p ++ [n])).getD [] ++ text) with
      | none => exact .inl h0
      | some d2 => exact .inr ⟨_, firstBytes_begun _ text, h0.trans (place_leafTo hd1 hv hw _)⟩
    | later h =>
      rw [stopsAt_nil h, FsOp.run]
      cases hw : d1.writeFile (p ++ [n]) ((d1.readText (p ++ [n])).getD [] ++ text) with
      | none => exact .inl h0
      | some d2 =>
        rw [Option.getD_some, (writeFile_spec hw).1]
        exact .inr ⟨_, begun_all text, h0.trans (place_leafTo hd1 hv hw _)⟩

theorem writeDslOps_stop {d d' : FsTree} {loc : List Str} {dsl : Str} (hd : WellFormed d)
    (hv : ∀ m ∈ loc, ValidName m) (h : StopsAt d (writeDslOps d loc dsl) d') :
    ∃ u, CliLeaves d loc dsl u ∧ LeafTo d d' loc u := by
  unfold writeDslOps at h
  cases hc : d.createDirAll loc.dropLast with
  | none => rw [hc] at h; exact ⟨_, .inl rfl, mkdirs_stop hd hv h⟩
  | some d1 =>
    rw [hc] at h
    dsimp only at h
    have hl1 := leafAt_createDirAll hc
    have hne : d1.lookup loc = none ∨ (∃ t, d1.lookup loc = some (.file t)) → ∃ p n, loc = p ++ [n] := by
      intro hlk
      rcases List.eq_nil_or_concat loc with hnil | ⟨q, m, hq⟩
      · exfalso
        rw [hnil, lookup_nil] at hlk
        rw [hnil] at hc
        cases d with
        | dir e =>
          simp only [List.dropLast_nil, FsTree.createDirAll, Option.some.injEq] at hc
          rw [← hc] at hlk
          rcases hlk with hlk | ⟨t, hlk⟩ <;> cases hlk
        | _ => simp [FsTree.createDirAll] at hc
      · exact ⟨q, m, by rw [hq, List.concat_eq_append]⟩
    cases hl : d1.lookup loc with
    | none =>
      obtain ⟨p, n, rfl⟩ := hne (.inl hl)
      rw [hl] at h
      rw [List.dropLast_concat] at h hc
      have hr : d1.readText (p ++ [n]) = none := by unfold FsTree.readText; rw [hl]
      rcases mkdirs_append_stop hd hv hc h with h | ⟨t, ht, h⟩
      · exact ⟨_, .inl rfl, h⟩
      · refine ⟨_, .inr (.inl ⟨?_, t, ht, ?_⟩), h⟩
        · rw [← hl1]; unfold leafAt; rw [hl]; rfl
        · rw [hr]; cases t <;> rfl
    | some v =>
      rw [hl] at h
      cases v with
      | dir e => exact ⟨_, .inl rfl, mkdirs_stop hd hv h⟩
      | other => exact ⟨_, .inl rfl, mkdirs_stop hd hv h⟩
      | file t =>
        cases t with
        | none => exact ⟨_, .inl rfl, mkdirs_stop hd hv h⟩
        | some old =>
          obtain ⟨p, n, rfl⟩ := hne (.inr ⟨_, hl⟩)
          dsimp only at h
          rw [List.dropLast_concat] at h hc
          have hr : d1.readText (p ++ [n]) = some old := by unfold FsTree.readText; rw [hl]
          rcases mkdirs_append_stop hd hv hc h with h | ⟨t, ht, h⟩
          · exact ⟨_, .inl rfl, h⟩
          · refine ⟨_, .inr (.inr ⟨old, t, ?_, ht, ?_⟩), h⟩
            · rw [← hl1]; exact readText_leaf.1 hr
            · rw [hr]; rfl

/-! ## C134 -/

/-- The entity has the type and the id that `firm add` was given and is valid for a schema of the files on the disk. -/
def Spec.Adds (M : Machine) (d : FsTree) (a : AddArgs) (e : Entity) : Prop :=
  (∃ w b, LoadsAs M.host.grammar M.host.ws d w ∧ w.build M.host.lang = .ok b ∧
    ∃ sc ∈ b.schemas, sc.entityType = a.type ∧ Conforms M.shell.lang.env sc e) ∧
  e.id = M.shell.lang.cases.composeEntityId a.type (M.shell.sanitize a.id)

/-- C134: the end of a command is one of the disks at which it can stop. -/
theorem C134_end (M : Machine) (x : Chance) (cached : Bool) (f : OutputFormat) (d : FsTree) (c : Command) :
    FirmStop M x cached d c (firm M x cached f d c).1 := by
  have hadd : ∀ d0 a, AddStop M x d0 a (addCommand M x d0 a).1 := by
    intro d0 a
    unfold addCommand
    cases hg : loadGraphFile M.screen.codec M.host.ws d0 with
    | none => exact .before
    | some g =>
      dsimp only
      cases hb : loadBuild M.host x.again d0 with
      | none => exact .before
      | some b =>
        dsimp only
        suffices h : AddStop M x d0 a (M.shell.add g b.schemas d0 a).1 by
          rcases hr : M.shell.add g b.schemas d0 a with ⟨d', _ | _⟩ <;> (rw [hr] at h; exact h)
        unfold Shell.add
        cases he : M.shell.entityToAdd g b.schemas a with
        | none => exact .before
        | some e =>
          dsimp only
          rw [← run_writeDslOps]
          exact .writing hg hb he (stopsAt_end _ _)
  have hbuild : ((Command.build).run M x f d).1 = (buildAndSave M x d).1 := by
    unfold Command.run
    rcases buildAndSave M x d with ⟨d', _ | _⟩ <;> rfl
  unfold firm
  by_cases hc : (cached || c.skipsBuild) = true
  · rw [if_pos hc]
    cases c with
    | build => rw [hbuild]; exact .build (buildStop_end M x d)
    | get | list | related | query | source => exact .before _
    | add a =>
      refine .addCached ?_ (hadd d a)
      simpa [Command.skipsBuild] using hc
  · rw [if_neg hc]
    have hb := buildStop_end M x d
    cases hbs : buildAndSave M x d with
    | mk d1 ok =>
      rw [hbs] at hb
      have hc' : (cached || c.skipsBuild) = false := by simpa using hc
      cases ok with
      | false => exact .first hc' hb
      | true =>
        cases c with
        | build => exact absurd (Bool.or_true _) hc
        | get | list | related | query | source => exact .first hc' hb
        | add a =>
          refine .add ?_ hbs (hadd d1 a)
          simpa [Command.skipsBuild] using hc

theorem firmStop_swapped {M : Machine} {x : Chance} {cached : Bool} {d d' : FsTree} {c : Command} (hd : WellFormed d)
    (hws : ∀ n ∈ M.host.ws, ValidName n) (hc : ∀ a, c ≠ .add a) (h : FirmStop M x cached d c d') :
    Swapped M.host.ws d d' := by
  cases h with
  | before => exact .refl hd
  | first _ hb => exact buildStop_swapped hd hws hb
  | build hb => exact buildStop_swapped hd hws hb
  | add => exact absurd rfl (hc _)
  | addCached => exact absurd rfl (hc _)

/-- C134: wherever a command other than `add` stops, only the two graph files have changed. -/
theorem C134_others (M : Machine) (x : Chance) (cached : Bool) (d d' : FsTree) (hd : WellFormed d)
    (hws : ∀ n ∈ M.host.ws, ValidName n) (c : Command) (hc : ∀ a, c ≠ .add a) (h : FirmStop M x cached d c d') :
    SameButGraph M.host.ws d d' :=
  (firmStop_swapped hd hws hc h).same hd

/-- C134: wherever `firm add` stops, only the two graph files and the target have changed; what the target held stays,
followed by a beginning of the text of the entity, which is valid for its schema; where nothing was there is nothing or a
beginning of that text. -/
theorem C134_add (M : Machine) (hsh : ∀ n ∈ M.shell.ws, ValidName n) (x : Chance) (hx : Chance.Lawful x) (cached : Bool) (d d' : FsTree)
    (hd : WellFormed d) (hws : ∀ n ∈ M.host.ws, ValidName n) (a : AddArgs) (h : FirmStop M x cached d (.add a) d')
    (loc : List Str) (hloc : loc = lexicalPlace [] (M.shell.dslPath a.toFile a.type)) :
    ∃ d1, SameButGraph M.host.ws d d1 ∧ SameBut d1 d' loc ∧
      (SameAt d1 d' loc ∨ ∃ (e : Entity) (t : Option Str), Adds M d1 a e ∧ Begun (generateDsl M.shell.lang .default [e]) t ∧
        (((∀ u, NotDir u → ¬ Has d1 loc u) ∧ Has d' loc (.file t)) ∨
          ∃ old, Has d1 loc (.file (some old)) ∧ Has d' loc (.file (t.map (old ++ ·))))) := by
  have same : ∀ d2 : FsTree, SameBut d2 d2 loc ∧ SameAt d2 d2 loc := fun d2 => ⟨fun _ _ _ _ => Iff.rfl, fun _ _ => Iff.rfl⟩
  have hadd : ∀ d1, WellFormed d1 → AddStop M x d1 a d' → SameBut d1 d' loc ∧
      (SameAt d1 d' loc ∨ ∃ (e : Entity) (t : Option Str), Adds M d1 a e ∧ Begun (generateDsl M.shell.lang .default [e]) t ∧
        (((∀ u, NotDir u → ¬ Has d1 loc u) ∧ Has d' loc (.file t)) ∨
          ∃ old, Has d1 loc (.file (some old)) ∧ Has d' loc (.file (t.map (old ++ ·))))) := by
    intro d1 hd1 h
    cases h with
    | before => exact ⟨(same _).1, .inl (same _).2⟩
    | writing hg hb he hs =>
      rename_i g b e
      rw [← hloc] at hs
      have hv : ∀ m ∈ loc, ValidName m := hloc ▸ dslPath_valid hsh _ _
      obtain ⟨u, hu, hw⟩ := writeDslOps_stop hd1 hv hs
      have hadds : Adds M d1 a e := by
        obtain ⟨sc, k1, k2, k3, k4, _⟩ := cli_entityToAdd_spec he
        obtain ⟨_, w, hw1, hw2⟩ := loadBuild_sound hd1 hws hx.again hb
        exact ⟨⟨w, b, hw1, hw2, sc, k1, k2, k3⟩, k4⟩
      refine ⟨fun l hl => leaf_sameAt hd1 hw.1 ?_, ?_⟩
      · rw [hw.2 l, if_neg hl]
      · rcases hu with rfl | ⟨ho, t, ht, rfl⟩ | ⟨old, t, ho, ht, rfl⟩
        · exact .inl (leaf_sameAt hd1 hw.1 hw.at)
        · refine .inr ⟨e, t, hadds, ht, .inl ⟨fun u hu h => ?_, leaf_has hw.1 hw.at⟩⟩
          have := has_leaf hd1 hu h
          rw [ho] at this
          cases this
        · exact .inr ⟨e, t, hadds, ht, .inr ⟨old, leaf_has hd1 ho, leaf_has hw.1 hw.at⟩⟩
  cases h with
  | before => exact ⟨d, fun _ _ _ _ _ => Iff.rfl, (same _).1, .inl (same _).2⟩
  | first _ hb => exact ⟨d', (buildStop_swapped hd hws hb).same hd, (same _).1, .inl (same _).2⟩
  | add _ hb ha =>
    have hsw := buildStop_swapped hd hws (buildStop_end M x d)
    rw [hb] at hsw
    obtain ⟨h1, h2⟩ := hadd _ hsw.wf ha
    exact ⟨_, hsw.same hd, h1, h2⟩
  | addCached _ ha =>
    obtain ⟨h1, h2⟩ := hadd _ hd ha
    exact ⟨d, fun _ _ _ _ _ => Iff.rfl, h1, h2⟩

/-- C134: whatever command other than `add` was stopped wherever, the next question without `--cached` is answered for the
files, as if nothing had happened. Missing: as in `C112_answer_partial`. -/
theorem C134_again_partial (M : Machine) (x : Chance) (cached : Bool) (d d' : FsTree) (hd : WellFormed d)
    (hws : ∀ n ∈ M.host.ws, ValidName n) (hg : NoGraphDirs M.host.ws d) (b0 : WorkspaceBuild) (hb : Current M.host d b0)
    (hst : Storable M.screen.codec b0.entities) (c : Command) (hc : ∀ a, c ≠ .add a) (h : FirmStop M x cached d c d')
    (x' : Chance) (hx' : Chance.Lawful x') (f : OutputFormat) (q : Command) (hq : Question q) :
    ∃ b, Current M.host d b ∧ Says M f b (firm M x' false f d' q).2 q := by
  have hsw := firmStop_swapped hd hws hc h
  obtain ⟨es, hes⟩ := hb.readable.1
  obtain ⟨h1, h2⟩ := hsw.loads hd hg ⟨es, (has_iff_lookup hd).1 hes⟩
  obtain ⟨⟨b, h3, h4⟩, _⟩ := C112_answer_partial M x' hx' f d' hsw.wf hws h1 b0 (current_files hd hsw.wf hws h2 b0 hb) hst q hq
  exact ⟨b, current_files hsw.wf hd hws h2.symm b h3, h4⟩

/-! ## With `--cached` -/

theorem question_same {M : Machine} {x : Chance} {f : OutputFormat} {d d' : FsTree} {q : Command} (hq : Question q)
    (hl : loadFiles M.host d' = loadFiles M.host d)
    (hg : loadGraphFile M.screen.codec M.host.ws d' = loadGraphFile M.screen.codec M.host.ws d) :
    (firm M x true f d' q).2 = (firm M x true f d q).2 := by
  unfold firm
  rw [if_pos (by rfl), if_pos (by rfl)]
  have hb := loadBuild_files (order := x.again) hl
  cases q with
  | get type id =>
    show getCommand M x f d' type id = getCommand M x f d type id
    unfold getCommand
    rw [hb, hg]
  | list type =>
    show listCommand M x f d' type = listCommand M x f d type
    unfold listCommand
    rw [hb, hg]
  | related type id dir =>
    show relatedCommand M f d' type id dir = relatedCommand M f d type id dir
    unfold relatedCommand
    rw [hg]
  | query text =>
    show queryCommand M x f d' text = queryCommand M x f d text
    unfold queryCommand
    rw [hg]
  | build => exact hq.elim
  | source => exact hq.elim
  | add => exact hq.elim

theorem question_lost {M : Machine} {x : Chance} {f : OutputFormat} {d d' : FsTree} {q : Command} (hq : Question q)
    (hl : loadFiles M.host d' = loadFiles M.host d) (hg : loadGraphFile M.screen.codec M.host.ws d' = none) :
    (firm M x true f d' q).2 = none ∨ (firm M x true f d' q).2 = (firm M x true f d q).2 := by
  unfold firm
  rw [if_pos (by rfl), if_pos (by rfl)]
  have hb := loadBuild_files (order := x.again) hl
  cases q with
  | get type id =>
    show getCommand M x f d' type id = none ∨ getCommand M x f d' type id = getCommand M x f d type id
    unfold getCommand
    by_cases ht : type = "schema".toList
    · rw [if_pos ht, if_pos ht, hb]; exact .inr rfl
    · rw [if_neg ht, hg]; exact .inl rfl
  | list type =>
    show listCommand M x f d' type = none ∨ listCommand M x f d' type = listCommand M x f d type
    unfold listCommand
    by_cases ht : type = "schema".toList
    · rw [if_pos ht, if_pos ht, hb]; exact .inr rfl
    · rw [if_neg ht, hg]; exact .inl rfl
  | related type id dir =>
    left
    show relatedCommand M f d' type id dir = none
    unfold relatedCommand
    rw [hg]
  | query text =>
    left
    show queryCommand M x f d' text = none
    unfold queryCommand
    rw [hg]
  | build => exact hq.elim
  | source => exact hq.elim
  | add => exact hq.elim

theorem loadGraphFile_at {C : Codec} {ws : List Str} {d : FsTree} {t : Option Str}
    (h : d.lookup (ws ++ [currentName]) = some (.file t)) : loadGraphFile C ws d = t.bind (readGraph C) := by
  unfold loadGraphFile FsTree.readText
  rw [h]

/-- C134: whatever command other than `add` was stopped wherever, a question with `--cached` then finds no graph, or it is
answered as before the command or as after it; half a graph is never taken for one. -/
theorem C134_cached (M : Machine) (x : Chance) (hx : Chance.Lawful x) (cached : Bool) (d d' : FsTree) (hd : WellFormed d)
    (hws : ∀ n ∈ M.host.ws, ValidName n) (hg : NoGraphDirs M.host.ws d) (b0 : WorkspaceBuild) (hb : Current M.host d b0)
    (hfew : b0.entities.length < 2 ^ 32) (hkept : AllKept M.screen.codec b0.entities)
    (c : Command) (hc : ∀ a, c ≠ .add a) (h : FirmStop M x cached d c d')
    (x' : Chance) (f : OutputFormat) (q : Command) (hq : Question q) :
    (firm M x' true f d' q).2 = none ∨ (firm M x' true f d' q).2 = (firm M x' true f d q).2 ∨
      (firm M x' true f d' q).2 = (firm M x' true f (firm M x cached f d c).1 q).2 := by
  have hbuild : ∀ d', BuildStop M x d d' →
      (firm M x' true f d' q).2 = none ∨ (firm M x' true f d' q).2 = (firm M x' true f d q).2 ∨
      (firm M x' true f d' q).2 = (firm M x' true f (buildAndSave M x d).1 q).2 := by
    intro d' h
    have hsw := buildStop_swapped hd hws h
    have hend := buildStop_swapped hd hws (buildStop_end M x d)
    have hdir : ∃ es, d.lookup M.host.ws = some (.dir (some es)) := by
      obtain ⟨es, hes⟩ := hb.readable.1
      exact ⟨es, (has_iff_lookup hd).1 hes⟩
    have hl := (hsw.loads hd hg hdir).2
    have hlend := (hend.loads hd hg hdir).2
    have lost : loadGraphFile M.screen.codec M.host.ws d' = none → (firm M x' true f d' q).2 = none ∨
        (firm M x' true f d' q).2 = (firm M x' true f d q).2 ∨
        (firm M x' true f d' q).2 = (firm M x' true f (buildAndSave M x d).1 q).2 := fun hno => by
      rcases question_lost (x := x') (f := f) hq hl hno with h | h
      · exact .inl h
      · exact .inr (.inl h)
    obtain ⟨es, hes⟩ := hdir
    cases h with
    | before => exact .inr (.inl rfl)
    | saving hb1 hg1 ha hs =>
      rename_i b g d1
      have hsw1 := swapped_aside hd hws hes ha
      obtain ⟨es1, hes1, _⟩ := hsw1.entries es hes
      rcases write_stops hs with rfl | ⟨t, ht, rfl⟩
      · rcases setGraphAside_eq hes ha with ⟨rfl, _⟩ | ⟨t, _, _, hl1⟩
        · exact .inr (.inl rfl)
        · refine lost ?_
          unfold loadGraphFile
          rw [lookup_child hl1, mapGet_mapInsert, if_neg graph_names.symm, mapGet_filter, if_pos rfl]
      · have hat : (d1.place (M.host.ws ++ [currentName]) (.file t)).lookup (M.host.ws ++ [currentName]) =
            some (.file t) := lookup_place hes1
        have hlg := loadGraphFile_at (C := M.screen.codec) hat
        rcases ht with ⟨p, ⟨r, hr⟩, rfl⟩ | ⟨rfl, _⟩
        · by_cases hrn : r = []
          · -- the whole text was written
            subst hrn
            rw [List.append_nil] at hr
            refine .inr (.inr (question_same hq (hl.trans hlend.symm) ?_))
            have hbs : buildAndSave M x d = (d1.place (M.host.ws ++ [currentName]) (.file (some p)), true) := by
              unfold buildAndSave
              rw [hb1]
              dsimp only
              rw [hg1]
              dsimp only
              rcases saveGraphFile_cases M.screen.codec x.maps g hes with ⟨_, k⟩ | ⟨d1', d2, _, k1, k2, _, k3, _⟩
              · rw [ha] at k; cases k
              · rw [ha] at k2
                cases k2
                rw [k1, k3, hr]
            rw [hbs]
          · refine lost ?_
            rw [hlg]
            obtain ⟨b1, m1, m2, m3, _⟩ := loadBuild_complete hd hws hx.files hb
            rw [hb1] at m1
            cases m1
            obtain ⟨n1, n2, _⟩ := toGraph_run hg1
            refine C97_beginning M.screen.codec (b.entities.map .add ++ [.build]) _ p r
              ⟨by rw [n2]; exact m3.length_eq ▸ hfew, by rw [n2]; exact fun e he => hkept e (m3.mem_iff.2 he), x.maps,
                hx.maps, ?_⟩ hr.symm hrn
            rw [n1]
        · exact lost (by rw [hlg]; rfl)
  have hrun : ∀ c, (∀ a, c ≠ .add a) → (cached || c.skipsBuild) = false → (firm M x cached f d c).1 = (buildAndSave M x d).1 := by
    intro c hc hcb
    unfold firm
    rw [if_neg (by rw [hcb]; exact Bool.noConfusion)]
    cases hbs : buildAndSave M x d with
    | mk d1 ok =>
      cases ok with
      | false => rfl
      | true =>
        cases c with
        | build => simp [Command.skipsBuild] at hcb
        | get | list | related | query | source => rfl
        | add a => exact absurd rfl (hc a)
  cases h with
  | before => exact .inr (.inl rfl)
  | first hcb hbst => rw [hrun c hc hcb]; exact hbuild _ hbst
  | build hbst =>
    have : (firm M x cached f d .build).1 = (buildAndSave M x d).1 := by
      unfold firm
      rw [if_pos (by simp [Command.skipsBuild])]
      unfold Command.run
      rcases buildAndSave M x d with ⟨d', _ | _⟩ <;> rfl
    rw [this]
    exact hbuild _ hbst
  | add => exact absurd rfl (hc _)
  | addCached => exact absurd rfl (hc _)

/-! ## The backup -/

theorem rename_graph {ws : List Str} {d : FsTree} {es : List (Str × FsTree)} (hes : d.lookup ws = some (.dir (some es)))
    (hg : ∀ q ∈ es, isGraphName q.1 = true → ∀ e, q.2 ≠ .dir e) {t : FsTree} (ht : d.lookup (ws ++ [currentName]) = some t) :
    setGraphAside ws d = some ((d.remove (ws ++ [currentName])).place (ws ++ [backupName]) t) := by
  have h1 : ∀ e, t ≠ .dir e := by
    rw [lookup_child hes] at ht
    exact hg _ (mapGet_found ht) (isGraphName_iff.2 (.inl rfl))
  have h2 : ∀ e, d.lookup (ws ++ [backupName]) ≠ some (.dir e) := by
    rw [lookup_child hes]
    exact fun e he => hg _ (mapGet_found he) (isGraphName_iff.2 (.inr rfl)) e rfl
  unfold setGraphAside
  rw [ht]
  dsimp only
  unfold FsTree.rename
  rw [ht]
  cases t with
  | dir e => exact absurd rfl (h1 e)
  | file t =>
    dsimp only
    split
    · next e he => exact absurd he (h2 e)
    · rfl
  | other =>
    dsimp only
    split
    · next e he => exact absurd he (h2 e)
    · rfl

/-- C134: the backup is no protection: when two builds are stopped one after the other, neither of the two graph files need
hold a graph any more. -/
theorem C134_lost (M : Machine) (x : Chance) (d : FsTree) (hd : WellFormed d) (hws : ∀ n ∈ M.host.ws, ValidName n)
    (hg : NoGraphDirs M.host.ws d) (hok : (firm M x false .pretty d .build).2 ≠ none) :
    ∃ d1 d2, FirmStop M x false d .build d1 ∧ FirmStop M x false d1 .build d2 ∧
      Has d2 (M.host.ws ++ ["backup.firm.graph".toList]) (.file (some [])) ∧
      ∀ u, ¬ Has d2 (M.host.ws ++ ["current.firm.graph".toList]) u := by
  have hbs : (buildAndSave M x d).2 = true := by
    unfold firm at hok
    rw [if_pos (by rfl)] at hok
    unfold Command.run at hok
    rcases hr : buildAndSave M x d with ⟨d', _ | _⟩
    · rw [hr] at hok; exact absurd rfl hok
    · rfl
  unfold buildAndSave at hbs
  cases hb : loadBuild M.host x.files d with
  | none => rw [hb] at hbs; cases hbs
  | some b =>
    rw [hb] at hbs
    dsimp only at hbs
    cases hgr : b.toGraph with
    | mk g r =>
      rw [hgr] at hbs
      cases r with
      | error e => cases hbs
      | ok u =>
        obtain ⟨es, hes⟩ := loadBuild_dir hd hws hb
        rcases saveGraphFile_cases M.screen.codec x.maps g hes with ⟨k, _⟩ | ⟨d1, _, es1, _, ha, hes1, _, _⟩
        · dsimp only at hbs; rw [k] at hbs; cases hbs
        · -- the first build stops when the new graph file has been created
          obtain ⟨d2, _, hw, _, _⟩ := writeGraph_ok (graphText M.screen.codec x.maps g) hes ha
          have hsw1 := swapped_aside hd hws hes ha
          have hstop1 : StopsAt d1 [.write (M.host.ws ++ [currentName]) (graphText M.screen.codec x.maps g)]
              (d1.place (M.host.ws ++ [currentName]) (.file (some []))) := by
            have := StopsAt.inside d1 (.write (M.host.ws ++ [currentName]) (graphText M.screen.codec x.maps g)) [] 0
            rw [FsOp.cut, hw] at this
            unfold firstBytes at this
            exact this
          have hbuild1 : BuildStop M x d (d1.place (M.host.ws ++ [currentName]) (.file (some []))) :=
            .saving hb hgr ha hstop1
          generalize hd2 : d1.place (M.host.ws ++ [currentName]) (.file (some [])) = e1 at hbuild1
          have hsw := buildStop_swapped hd hws hbuild1
          obtain ⟨hg1, hl1⟩ := hsw.loads hd hg ⟨es, hes⟩
          obtain ⟨es2, hes2, _⟩ := hsw.entries es hes
          have hat : e1.lookup (M.host.ws ++ [currentName]) = some (.file (some [])) := by
            rw [← hd2]; exact lookup_place hes1
          have hren := rename_graph hes2 (noGraphDirs_entries hsw.wf hg1 hes2) hat
          -- the second when that one has become the backup
          have hbuild2 : BuildStop M x e1 ((e1.remove (M.host.ws ++ [currentName])).place (M.host.ws ++ [backupName])
              (.file (some []))) :=
            .saving (by rw [loadBuild_files hl1, hb]) hgr hren (.here _ _)
          have hsw2 := buildStop_swapped hsw.wf hws hbuild2
          refine ⟨e1, _, .build hbuild1, .build hbuild2, ?_, fun u => ?_⟩
          · rw [has_iff_lookup hsw2.wf]
            exact lookup_place (lookup_remove_dir hes2)
          · rw [has_iff_lookup hsw2.wf]
            show _ ≠ _
            rw [show "current.firm.graph".toList = currentName from rfl,
              lookup_child (lookup_place_parent (lookup_remove_dir hes2)), mapGet_mapInsert, if_neg graph_names.symm, mapGet_filter,
              if_pos rfl]
            exact fun h => by cases h

/-! ## Examples -/

example : ∃ d1 d2, FirmStop exMachine exChance false exOldDisk .build d1 ∧ FirmStop exMachine exChance false d1 .build d2 ∧
    Has d2 (exMachine.host.ws ++ ["backup.firm.graph".toList]) (.file (some [])) ∧
    ∀ u, ¬ Has d2 (exMachine.host.ws ++ ["current.firm.graph".toList]) u :=
  C134_lost exMachine exChance exOldDisk exOldDisk_wf exHost_ws exOldDisk_graph (by decide +kernel)

/-- The disk when the first build stops after ten bytes of the graph. -/
def exTornDisk : FsTree :=
  FsOp.cut ((setGraphAside exMachine.host.ws exOldDisk).getD exOldDisk) 10
    (.write (exMachine.host.ws ++ [currentName])
      (((loadBuild exMachine.host exChance.files exOldDisk).map fun b =>
        graphText exMachine.screen.codec exChance.maps b.toGraph.1).getD []))

theorem exTornDisk_stop : FirmStop exMachine exChance false exOldDisk .build exTornDisk := by
  have hok : (loadBuild exMachine.host exChance.files exOldDisk).isSome = true := by decide +kernel
  have hok2 : (setGraphAside exMachine.host.ws exOldDisk).isSome = true := by decide +kernel
  have hok3 : (loadBuild exMachine.host exChance.files exOldDisk).map
      (fun b => match b.toGraph.2 with | .ok _ => true | .error _ => false) = some true := by decide +kernel
  cases hb : loadBuild exMachine.host exChance.files exOldDisk with
  | none => rw [hb] at hok; cases hok
  | some b =>
    cases ha : setGraphAside exMachine.host.ws exOldDisk with
    | none => rw [ha] at hok2; cases hok2
    | some d1 =>
      cases hg : b.toGraph with
      | mk g r =>
        rw [hb, Option.map_some, hg] at hok3
        cases r with
        | error e => cases hok3
        | ok u =>
          refine .build (.saving hb hg ha ?_)
          unfold exTornDisk
          rw [ha, hb, Option.map_some, hg]
          exact .inside _ _ _ _

/-- The next question is answered for the files; with `--cached` nothing is found. -/
example : exTornDisk.readText (exMachine.host.ws ++ [currentName]) = some "{\"graph\":{".toList ∧
    (firm exMachine exChance false .pretty exTornDisk (.list "person".toList)).2 = some "person.bob\nperson.alice\n".toList ∧
    (firm exMachine exChance true .pretty exTornDisk (.list "person".toList)).2 = none := by decide +kernel

example (f : OutputFormat) (q : Command) (hq : Question q) :
    ∃ b, Current exMachine.host exOldDisk b ∧ Says exMachine f b (firm exMachine exChance false f exTornDisk q).2 q :=
  C134_again_partial exMachine exChance false exOldDisk exTornDisk exOldDisk_wf exHost_ws exOldDisk_graph _ exOldBuild_current
    exOldBuild_storable .build (fun _ h => by cases h) exTornDisk_stop exChance exChance_lawful f q hq

example : (firm exMachine exChance true .pretty exTornDisk (.list "person".toList)).2 = none ∨
    (firm exMachine exChance true .pretty exTornDisk (.list "person".toList)).2 =
      (firm exMachine exChance true .pretty exOldDisk (.list "person".toList)).2 ∨
    (firm exMachine exChance true .pretty exTornDisk (.list "person".toList)).2 =
      (firm exMachine exChance true .pretty (firm exMachine exChance false .pretty exOldDisk .build).1
        (.list "person".toList)).2 :=
  C134_cached exMachine exChance exChance_lawful false exOldDisk exTornDisk exOldDisk_wf exHost_ws exOldDisk_graph _
    exOldBuild_current exOldBuild_storable.few exOldBuild_storable.kept .build (fun _ h => by cases h) exTornDisk_stop
    exChance .pretty _ trivial

/-- The end of `firm add` is one of the disks that `C134_add` speaks of, and there the entity has been written. -/
example : ∃ d', FirmStop exMachine exChance false exOldDisk
      (.add ⟨none, "person".toList, "Cy".toList, ["name".toList, "Cy".toList], [], []⟩) d' ∧
    ((d'.readText ["w".toList, "generated".toList, "person.firm".toList]).map (·.take 12)) = some "person cy {\n".toList :=
  ⟨_, C134_end exMachine exChance false .json exOldDisk _, by decide +kernel⟩

end Firm
