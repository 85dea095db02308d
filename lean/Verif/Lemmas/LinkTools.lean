import Verif.Lemmas.Links

/-!
# Lemmas about the file tools on disks with symbolic links
-/

namespace Firm
open Spec

theorem Differ.sound {D D' : LinkDisk} {loc : List Str} {u : Option FsTree} (h : Differ D D' loc u) (hs : Sound D)
    (hw : WellFormed D'.tree) (hl : (D'.links.map (·.1)).Nodup) : Sound D' := by
  refine ⟨hw, ?_, hl⟩
  obtain ⟨es, he⟩ := (h.folders []).2 hs.folder
  rw [lookup_nil] at he
  exact ⟨es, by simpa using he⟩

/-- Outside, nothing changed. -/
theorem Differ.beyond {D D' : LinkDisk} {loc base : List Str} {u : Option FsTree} (h : Differ D D' loc u)
    (hs : Sound D) (hs' : Sound D') (hb : base <+: loc) : SameBeyond base D D' := by
  constructor
  · intro l v hv hl
    rw [has_iff_lookup hs.tree, has_iff_lookup hs'.tree]
    have h1 := leafAt_eq_some (d := D.tree) (u := v) (loc := l)
    have h2 := leafAt_eq_some (d := D'.tree) (u := v) (loc := l)
    rw [h.leaves l, if_neg (by rintro rfl; exact hl hb)] at h2
    exact ⟨fun hh => (h2.1 (h1.2 ⟨hh, hv⟩)).1, fun hh => (h1.1 (h2.2 ⟨hh, hv⟩)).1⟩
  · refine ⟨fun l t _ => by rw [← linkAt_iff hs, ← linkAt_iff hs', h.links], fun l _ => ?_⟩
    simp only [has_iff_lookup hs.tree, has_iff_lookup hs'.tree]
    exact (h.folders l).symm

/-- Nothing changed at all. -/
theorem Differ.same {D D' : LinkDisk} {loc : List Str} {u : Option FsTree} (h : Differ D D' loc u)
    (hs : Sound D) (hs' : Sound D') (hu : leafAt D.tree loc = u) : SameDisk D D' :=
  ⟨(sameFiles_iff hs.tree hs'.tree).2 (h.restored hu), fun l t => by rw [← linkAt_iff hs, ← linkAt_iff hs', h.links]⟩

theorem sameDisk_refl (D : LinkDisk) : SameDisk D D := ⟨fun _ _ _ => Iff.rfl, fun _ _ => Iff.rfl⟩

theorem sameBeyond_refl (base : List Str) (D : LinkDisk) : SameBeyond base D D :=
  ⟨fun _ _ _ _ => Iff.rfl, fun _ _ _ => Iff.rfl, fun _ _ => Iff.rfl⟩

theorem sameBeyond_trans {base : List Str} {D D' D'' : LinkDisk} (h : SameBeyond base D D')
    (h' : SameBeyond base D' D'') : SameBeyond base D D'' :=
  ⟨fun l u hu hl => (h.1 l u hu hl).trans (h'.1 l u hu hl), fun l t hl => (h.2.1 l t hl).trans (h'.2.1 l t hl),
    fun l hl => (h.2.2 l hl).trans (h'.2.2 l hl)⟩

theorem sameDisk_trans {D D' D'' : LinkDisk} (h : SameDisk D D') (h' : SameDisk D' D'') : SameDisk D D'' :=
  ⟨fun l u hu => (h.1 l u hu).trans (h'.1 l u hu), fun l t => (h.2 l t).trans (h'.2 l t)⟩

/-- The place of a file is not the root. -/
theorem file_snoc {D : LinkDisk} (hs : Sound D) {loc : List Str} {x : Option Str}
    (h : D.tree.lookup loc = some (.file x)) : ∃ p n es, loc = p ++ [n] ∧ D.tree.lookup p = some (.dir (some es)) := by
  rcases List.eq_nil_or_concat loc with rfl | ⟨p, n, rfl⟩
  · obtain ⟨es, he⟩ := hs.folder
    rw [he] at h; cases h
  · rw [List.concat_eq_append] at h ⊢
    obtain ⟨es, he, _⟩ := lookup_snoc_some h
    exact ⟨p, n, es, rfl, he⟩

/-- Writing to a path that leads to a place. -/
theorem write_found {D D' : LinkDisk} (hs : Sound D) {cs : List PathComp} {loc : List Str} {text : Str}
    (hf : D.find cs = some loc) (hv : ∀ n ∈ loc, ValidName n) (h : D.writeFile cs text = some D') :
    Differ D D' loc (some (.file (some text))) ∧ Sound D' := by
  unfold LinkDisk.writeFile at h
  rw [hf, Option.bind_some, Option.map_eq_some_iff] at h
  obtain ⟨t, h1, rfl⟩ := h
  obtain ⟨h2, h3⟩ := write_differ hs.folder h1
  exact ⟨h2, h2.sound hs (h3 hv hs.tree) hs.links⟩

/-- Removing the file at a place. -/
theorem remove_found {D D' : LinkDisk} (hs : Sound D) {cs : List PathComp} {p : List Str} {n : Str} {x : Option Str}
    (hf : D.find cs = some p) (hx : D.tree.lookup (p ++ [n]) = some (.file x))
    (h : D.removeFile (cs ++ [.normal n]) = some D') :
    Differ D D' (p ++ [n]) none ∧ Sound D' := by
  obtain ⟨es, he, _⟩ := lookup_snoc_some hx
  unfold LinkDisk.removeFile at h
  rw [List.getLast?_concat, List.dropLast_concat] at h
  dsimp only at h
  rw [real_iff.2 ⟨hf, _, he⟩, Option.bind_some, Option.map_eq_some_iff] at h
  obtain ⟨t, h1, rfl⟩ := h
  obtain ⟨h2, h3⟩ := remove_differ hx h1
  exact ⟨h2, h2.sound hs (h3 hs.tree) ((List.filter_sublist.map _).nodup hs.links)⟩

theorem find_valid {D : LinkDisk} {cs : List PathComp} {l : List Str} (h : D.find cs = some l)
    (hc : ∀ n, PathComp.normal n ∈ cs → ValidName n) : ∀ n ∈ l, ValidName n := by
  unfold LinkDisk.find at h
  rw [Option.map_eq_some_iff] at h
  obtain ⟨⟨l', k⟩, h, rfl⟩ := h
  exact walk_valid h (by simp) hc

theorem joinComps_last_valid {ws : List Str} (hws : ∀ n ∈ ws, ValidName n) (path n : Str)
    (h : PathComp.normal n ∈ joinComps ws path) : ValidName n := by
  unfold joinComps at h
  split at h
  · exact pathComponents_valid h
  · simp only [List.mem_cons, List.mem_append, List.mem_map, List.mem_filter, reduceCtorEq, false_or,
      PathComp.normal.injEq] at h
    rcases h with ⟨m, hm, rfl⟩ | ⟨h, _⟩
    · exact hws _ hm
    · exact pathComponents_valid h

theorem placeComps_snoc (p : List Str) (n : Str) : placeComps (p ++ [n]) = placeComps p ++ [.normal n] := by
  simp [placeComps]

/-- A file was deleted. -/
theorem deleteExecute_links {D D' : LinkDisk} (hs : Sound D) {ws : List Str} {path original : Str}
    (h : D.deleteExecute ws path = some (D', original)) :
    endsWith path ".firm".toList = true ∧ ∃ loc base, D.find (joinComps ws path) = some loc ∧
      D.real (placeComps ws) = some base ∧ base <+: loc ∧ D.tree.lookup loc = some (.file (some original)) ∧
      Differ D D' loc none ∧ Sound D' := by
  unfold LinkDisk.deleteExecute at h
  split at h
  · next he =>
    refine ⟨he, ?_⟩
    rw [Option.bind_eq_some_iff] at h
    obtain ⟨cs, h1, h⟩ := h
    rw [Option.bind_eq_some_iff] at h
    obtain ⟨text, h2, h⟩ := h
    rw [Option.map_eq_some_iff] at h
    obtain ⟨D1, h3, h⟩ := h
    cases h
    rcases toAbsolute_some h1 with ⟨loc, base, h4, h5, h6, rfl⟩ | ⟨h4, _, rfl⟩
    · obtain ⟨h7, u, h8⟩ := real_iff.1 h4
      have hf := find_place h8 (find_link hs h7)
      unfold LinkDisk.readText at h2
      rw [hf] at h2
      have hx := readText_some h2
      obtain ⟨p, n, es, rfl, hp⟩ := file_snoc hs hx
      rw [placeComps_snoc] at h3
      obtain ⟨h9, h10⟩ := remove_found hs (find_place hp (linkAt_of_lookup (by rw [hp]; simp))) hx h3
      exact ⟨_, base, h7, h5, h6, hx, h9, h10⟩
    · rw [real_none_text h4] at h2; cases h2
  · cases h

/-- The deleted file is restored. -/
theorem rollbackDelete_links {D D' : LinkDisk} (hs : Sound D) (hs' : Sound D') {ws : List Str}
    (hws : ∀ n ∈ ws, ValidName n) {path original : Str} (he : endsWith path ".firm".toList = true) {loc : List Str}
    (hf : D.find (joinComps ws path) = some loc) (hx : D.tree.lookup loc = some (.file (some original)))
    (hd : Differ D D' loc none) :
    Differ D (D'.rollbackDelete ws path original) loc (some (.file (some original))) ∧
      Sound (D'.rollbackDelete ws path original) := by
  have hf' := hd.find (joinComps ws path)
  rw [hf] at hf'
  obtain ⟨xs, n, hj, _⟩ := joinComps_last (ws := ws) he
  obtain ⟨q, e, hq, hqe⟩ := find_snoc (by simp) (hj ▸ hf)
  have hq' := hd.find xs
  rw [hq] at hq'
  obtain ⟨e', hqe'⟩ := (hd.dirs q).1 ⟨e, hqe⟩
  unfold LinkDisk.rollbackDelete
  rw [hj, List.dropLast_concat, createAll_existing hq' hqe', ← hj]
  dsimp only
  obtain ⟨p, m, es, rfl, hp⟩ := file_snoc hs hx
  obtain ⟨es', hp'⟩ := (hd.folders p).2 ⟨es, hp⟩
  have hnone : D'.tree.lookup (p ++ [m]) = none := by
    cases hl : D'.tree.lookup (p ++ [m]) with
    | none => rfl
    | some u =>
      exfalso
      by_cases hu : ∃ fs, u = .dir (some fs)
      · obtain ⟨fs, rfl⟩ := hu
        obtain ⟨gs, hg⟩ := (hd.folders _).1 ⟨fs, hl⟩
        rw [hx] at hg; cases hg
      · have := leafAt_eq_some.2 ⟨hl, fun fs h => hu ⟨fs, h⟩⟩
        rw [hd.leaves, if_pos rfl] at this
        cases this
  have hw : D'.writeFile (joinComps ws path) original =
      some { D' with tree := D'.tree.place (p ++ [m]) (.file (some original)) } := by
    unfold LinkDisk.writeFile
    rw [hf', Option.bind_some]
    unfold FsTree.writeFile
    rw [hnone]
    dsimp only
    rw [List.dropLast_concat, hp']
    rfl
  obtain ⟨h1, h2⟩ := write_found hs' hf' (find_valid hf (joinComps_last_valid hws path)) hw
  rw [hw, Option.getD_some]
  exact ⟨hd.again h1, h2⟩

/-- A file was written over one that was there. -/
theorem writeSource_existing {D : LinkDisk} (hs : Sound D) {ws : List Str} (hws : ∀ n ∈ ws, ValidName n)
    {path content : Str} {loc : List Str} {u : FsTree}
    (hf : D.find (joinComps ws path) = some loc) (hx : D.tree.lookup loc = some u) :
    D.writeSource ws path content = (D, false) ∨
    ∃ D' base, D.writeSource ws path content = (D', true) ∧ endsWith path ".firm".toList = true ∧
      D.real (placeComps ws) = some base ∧ base <+: loc ∧ (∃ x, u = .file x) ∧
      Differ D D' loc (some (.file (some content))) ∧ Sound D' := by
  unfold LinkDisk.writeSource
  split
  · next he =>
    cases ha : D.toAbsolute ws path with
    | none => exact .inl rfl
    | some cs =>
      dsimp only
      rcases toAbsolute_some ha with ⟨l, base, h4, h5, h6, rfl⟩ | ⟨h4, _⟩
      · have h4' := (real_iff.1 h4).1
        rw [hf] at h4'
        cases h4'
        have hca : D.createAll (placeComps loc).dropLast.reverse = some D := by
          rcases List.eq_nil_or_concat loc with rfl | ⟨p, n, rfl⟩
          · rfl
          · rw [List.concat_eq_append] at hx ⊢
            obtain ⟨es, hp, _⟩ := lookup_snoc_some hx
            rw [placeComps_snoc, List.dropLast_concat]
            exact createAll_existing (find_place hp (linkAt_of_lookup (by rw [hp]; simp))) hp
        have hfl := find_place hx (find_link hs hf)
        rw [hca]
        dsimp only
        cases hw : D.writeFile (placeComps loc) content with
        | none => exact .inl rfl
        | some D2 =>
          obtain ⟨h1, h2⟩ := write_found hs hfl (find_valid hf (joinComps_last_valid hws path)) hw
          refine .inr ⟨D2, base, rfl, he, h5, h6, ?_, h1, h2⟩
          unfold LinkDisk.writeFile at hw
          rw [hfl, Option.bind_some] at hw
          unfold FsTree.writeFile at hw
          rw [hx] at hw
          cases u with
          | file x => exact ⟨x, rfl⟩
          | other => cases hw
          | dir e => cases hw
      · rw [real_iff.2 ⟨hf, _, hx⟩] at h4; cases h4
  · exact .inl rfl

/-- The overwritten file is restored. -/
theorem rollbackWrite_existing {D D' : LinkDisk} (hs' : Sound D') {ws : List Str}
    (hws : ∀ n ∈ ws, ValidName n) {path content original : Str} {loc : List Str}
    (hf : D.find (joinComps ws path) = some loc) (hd : Differ D D' loc (some (.file (some content)))) :
    Differ D (D'.rollbackWrite ws path (some original)) loc (some (.file (some original))) ∧
      Sound (D'.rollbackWrite ws path (some original)) := by
  have hf' := hd.find (joinComps ws path)
  rw [hf] at hf'
  have hx : D'.tree.lookup loc = some (.file (some content)) := by
    have := hd.leaves loc
    rw [if_pos rfl] at this
    exact (leafAt_eq_some.1 this).1
  have hw : D'.writeFile (joinComps ws path) original =
      some { D' with tree := D'.tree.place loc (.file (some original)) } := by
    unfold LinkDisk.writeFile
    rw [hf', Option.bind_some]
    unfold FsTree.writeFile
    rw [hx]
    rfl
  obtain ⟨h1, h2⟩ := write_found hs' hf' (find_valid hf (joinComps_last_valid hws path)) hw
  have hr : D'.rollbackWrite ws path (some original) = _ := congrArg (Option.getD · D') hw
  rw [hr]
  exact ⟨hd.again h1, h2⟩

/-! ## New files -/

theorem createDirAll_mkdir {d : FsTree} {p : List Str} {n : Str} {es : List (Str × FsTree)}
    (h : d.lookup p = some (.dir (some es))) (hn : d.lookup (p ++ [n]) = none) :
    d.createDirAll (p ++ [n]) = some (d.place (p ++ [n]) (.dir (some []))) := by
  induction p generalizing d with
  | nil =>
    rw [lookup_nil] at h; cases h
    rw [List.nil_append, lookup_dir] at hn
    have hg : mapGet es n = none := by
      cases hg : mapGet es n with
      | none => rfl
      | some c => rw [hg] at hn; change c.lookup [] = none at hn; rw [lookup_nil] at hn; cases hn
    simp [FsTree.createDirAll, FsTree.place, hg]
  | cons m p ih =>
    obtain ⟨fs, c, rfl, hg, hc⟩ := lookup_cons_some h
    rw [List.cons_append, lookup_dir, hg] at hn
    rw [List.cons_append, FsTree.createDirAll, FsTree.place, hg, Option.getD_some, ih hc hn]
    rfl

theorem folder_mkdir {d : FsTree} {p : List Str} {n : Str} {es : List (Str × FsTree)}
    (h : d.lookup p = some (.dir (some es))) (hn : d.lookup (p ++ [n]) = none) (l : List Str) :
    FolderAt (d.place (p ++ [n]) (.dir (some []))) l ↔ FolderAt d l ∨ l = p ++ [n] := by
  induction p generalizing d l with
  | nil =>
    rw [lookup_nil] at h; cases h
    rw [List.nil_append, lookup_dir] at hn
    have hg : mapGet es n = none := by
      cases hg : mapGet es n with
      | none => rfl
      | some c => rw [hg] at hn; change c.lookup [] = none at hn; rw [lookup_nil] at hn; cases hn
    rw [List.nil_append, FsTree.place, show ∀ t : FsTree, t.place [] (.dir (some [])) = .dir (some []) from
      fun t => by cases t <;> simp [FsTree.place]]
    cases l with
    | nil => exact ⟨fun _ => .inl (folder_nil _), fun _ => folder_nil _⟩
    | cons m l =>
      rw [folder_cons, folder_cons, mapGet_mapInsert]
      by_cases hm : m = n
      · subst hm
        rw [if_pos rfl, hg]
        constructor
        · rintro ⟨c, hc, hf⟩
          cases hc
          cases l with
          | nil => exact .inr rfl
          | cons k l => rw [folder_cons] at hf; obtain ⟨c, hc, _⟩ := hf; cases hc
        · rintro (⟨c, hc, _⟩ | hl)
          · cases hc
          · cases hl; exact ⟨_, rfl, folder_nil _⟩
      · rw [if_neg (Ne.symm hm)]
        constructor
        · exact .inl
        · rintro (h | h)
          · exact h
          · cases h; exact absurd rfl hm
  | cons m p ih =>
    obtain ⟨fs, c, rfl, hg, hc⟩ := lookup_cons_some h
    rw [List.cons_append, lookup_dir, hg] at hn
    rw [List.cons_append, FsTree.place, hg, Option.getD_some]
    cases l with
    | nil => exact ⟨fun _ => .inl (folder_nil _), fun _ => folder_nil _⟩
    | cons k l =>
      rw [folder_cons, folder_cons, mapGet_mapInsert]
      by_cases hk : k = m
      · subst hk
        rw [if_pos rfl, hg]
        simp only [Option.some.injEq, exists_eq_left', List.cons.injEq, true_and]
        exact ih hc hn l
      · rw [if_neg (Ne.symm hk)]
        constructor
        · exact .inl
        · rintro (h | h)
          · exact h
          · cases h; exact absurd rfl hk

/-- Only directories below a place are new. -/
structure Grown (base : List Str) (D D' : LinkDisk) : Prop where
  sound : Sound D'
  leaves : ∀ l, leafAt D'.tree l = leafAt D.tree l
  keeps : ∀ l, FolderAt D.tree l → FolderAt D'.tree l
  new : ∀ l, FolderAt D'.tree l → FolderAt D.tree l ∨ base <+: l
  links : ∀ l, D'.linkAt l = D.linkAt l
  limit : D'.limit = D.limit

theorem Grown.refl {base : List Str} {D : LinkDisk} (hs : Sound D) : Grown base D D :=
  ⟨hs, fun _ => rfl, fun _ h => h, fun _ h => .inl h, fun _ => rfl, rfl⟩

theorem Grown.trans {base : List Str} {D D' D'' : LinkDisk} (h : Grown base D D') (h' : Grown base D' D'') :
    Grown base D D'' :=
  ⟨h'.sound, fun l => (h'.leaves l).trans (h.leaves l), fun l hl => h'.keeps l (h.keeps l hl),
    fun l hl => (h'.new l hl).elim (h.new l) .inr, fun l => (h'.links l).trans (h.links l), h'.limit.trans h.limit⟩

theorem Grown.dir {base : List Str} {D D' : LinkDisk} (h : Grown base D D') {l : List Str}
    {e : Option (List (Str × FsTree))} (he : D.tree.lookup l = some (.dir e)) :
    ∃ e', D'.tree.lookup l = some (.dir e') := by
  rw [dir_iff, h.leaves]
  exact (dir_iff.1 ⟨e, he⟩).imp_left (h.keeps l)

theorem Grown.walk {base : List Str} {D D' : LinkDisk} (h : Grown base D D') {k : Nat} {loc : List Str}
    {cs : List PathComp} {l : List Str} {k' : Nat} (hw : D.walk k loc cs = some (l, k')) :
    D'.walk k loc cs = some (l, k') := by
  refine walk_induct (P := fun k loc cs l k' => D'.walk k loc cs = some (l, k')) ?_ ?_ ?_ ?_ hw
  · exact fun k loc => walk_nil _ _ _
  · exact fun k loc cs l k' ih => by rw [walk_root]; exact ih
  · intro k loc c cs l k' e hc he hl ih
    obtain ⟨e', he'⟩ := h.dir he
    rw [walk_dir hc he', h.links, hl]
    exact ih
  · intro k loc c cs l k' e t hc he hl ih
    obtain ⟨e', he'⟩ := h.dir he
    rw [walk_dir hc he', h.links, hl]
    exact ih

theorem Grown.beyond {base : List Str} {D D' : LinkDisk} (h : Grown base D D') (hs : Sound D) : SameBeyond base D D' := by
  refine ⟨fun l u hu _ => (sameFiles_iff hs.tree h.sound.tree).2 h.leaves l u hu, fun l t _ => ?_, fun l hl => ?_⟩
  · rw [← linkAt_iff hs, ← linkAt_iff h.sound, h.links]
  · simp only [has_iff_lookup hs.tree, has_iff_lookup h.sound.tree]
    exact ⟨h.keeps l, fun hh => (h.new l hh).resolve_right hl⟩

theorem Grown.same {base : List Str} {D D' : LinkDisk} (h : Grown base D D') (hs : Sound D) : SameDisk D D' :=
  ⟨(sameFiles_iff hs.tree h.sound.tree).2 h.leaves, fun l t => by rw [← linkAt_iff hs, ← linkAt_iff h.sound, h.links]⟩

/-- Where no links are, names lead straight on. -/
theorem walk_straight {D : LinkDisk} {base : List Str} (hn : ∀ l, base <+: l → D.linkAt l = none) {k : Nat}
    {ns : List Str} {l : List Str} {k' : Nat} (h : D.walk k base (ns.map .normal) = some (l, k')) :
    l = base ++ ns ∧ k' = k := by
  induction ns generalizing base with
  | nil => rw [List.map_nil, walk_nil] at h; cases h; simp
  | cons n ns ih =>
    by_cases hd : ∃ e, D.tree.lookup base = some (.dir e)
    · obtain ⟨e, he⟩ := hd
      rw [List.map_cons, walk_dir (by simp) he,
        show D.linkAt (stepFrom base (.normal n)) = none from hn _ (List.prefix_append _ _)] at h
      have := ih (base := base ++ [n]) (fun l hl => hn l ((List.prefix_append _ _).trans hl)) h
      simpa using this
    · rw [List.map_cons, walk_not_dir (by simp) fun e he => hd ⟨e, he⟩] at h; cases h

theorem find_straight {D : LinkDisk} {ws base : List Str} (hb : D.find (placeComps ws) = some base)
    (hn : ∀ l, base <+: l → D.linkAt l = none) {ns l : List Str}
    (h : D.find (placeComps ws ++ ns.map .normal) = some l) : l = base ++ ns := by
  unfold LinkDisk.find at hb h
  rw [Option.map_eq_some_iff] at hb h
  obtain ⟨⟨b, k⟩, hb, rfl⟩ := hb
  obtain ⟨⟨l, k'⟩, h, rfl⟩ := h
  rw [walk_append, hb] at h
  exact (walk_straight hn h).1

theorem find_below {D : LinkDisk} {ws base : List Str} (hb : D.find (placeComps ws) = some base)
    {ns : List Str} {u : FsTree} (hu : D.tree.lookup (base ++ ns) = some u) (hl : D.linkAt (base ++ ns) = none) :
    D.find (placeComps ws ++ ns.map .normal) = some (base ++ ns) := by
  unfold LinkDisk.find at hb ⊢
  rw [Option.map_eq_some_iff] at hb
  obtain ⟨⟨b, k⟩, hb, rfl⟩ := hb
  rw [walk_append, hb, Option.bind_some, walk_normals hu hl]
  rfl

theorem mkdir_grown {D D' : LinkDisk} (hs : Sound D) {base : List Str} {parent : List PathComp} {loc : List Str} {n : Str}
    (hf : D.find parent = some loc) (hb : base <+: loc) (hv : ∀ m ∈ loc ++ [n], ValidName m)
    (h : D.mkdir parent (.normal n) = some D') : Grown base D D' ∧ FolderAt D'.tree (loc ++ [n]) := by
  unfold LinkDisk.mkdir at h
  rw [Option.bind_eq_some_iff] at h
  obtain ⟨l, h1, h⟩ := h
  have h2 := (real_iff.1 h1).1
  rw [hf] at h2
  cases h2
  split at h
  · next es hp hnone =>
    cases h
    have hcd := createDirAll_mkdir hp hnone
    have hfm := folder_mkdir hp hnone
    have hleaf := leafAt_createDirAll hcd
    refine ⟨⟨⟨wf_createDirAll hs.tree hv hcd, ?_, hs.links⟩, hleaf, fun l hl => (hfm l).2 (.inl hl), fun l hl => ?_,
      fun l => ?_, rfl⟩, (hfm _).2 (.inr rfl)⟩
    · obtain ⟨es, he⟩ := (hfm []).2 (.inl hs.folder)
      rw [lookup_nil] at he
      exact ⟨es, by simpa using he⟩
    · rcases (hfm l).1 hl with h | rfl
      · exact .inl h
      · exact .inr (hb.trans (List.prefix_append _ _))
    · classical
      rw [linkAt_eq, linkAt_eq]
      change (if leafAt (D.tree.place _ _) l = _ then _ else _) = _
      rw [hleaf]
  · cases h

theorem createAll_grown {D D' : LinkDisk} (hs : Sound D) {ws base : List Str} (hb : D.find (placeComps ws) = some base)
    {e : Option (List (Str × FsTree))} (hbd : D.tree.lookup base = some (.dir e))
    (hn : ∀ l, base <+: l → D.linkAt l = none) (hvb : ∀ m ∈ base, ValidName m) {ns : List Str}
    (hv : ∀ m ∈ ns, ValidName m) (h : D.createAll (placeComps ws ++ ns.map PathComp.normal).reverse = some D') :
    Grown base D D' ∧ ∃ e', D'.tree.lookup (base ++ ns) = some (.dir e') := by
  obtain ⟨rs, rfl⟩ : ∃ rs : List Str, ns = rs.reverse := ⟨ns.reverse, by simp⟩
  induction rs generalizing D' with
  | nil =>
    rw [List.reverse_nil, List.map_nil, List.append_nil, createAll_existing hb hbd] at h
    cases h
    exact ⟨.refl hs, e, by simpa using hbd⟩
  | cons n rs ih =>
    rw [List.reverse_cons] at h hv ⊢
    have hrev : (placeComps ws ++ (rs.reverse ++ [n]).map PathComp.normal).reverse =
        .normal n :: (placeComps ws ++ rs.reverse.map PathComp.normal).reverse := by simp
    rw [hrev] at h
    unfold LinkDisk.createAll at h
    rw [show (PathComp.normal n :: (placeComps ws ++ rs.reverse.map PathComp.normal).reverse).reverse =
      placeComps ws ++ (rs.reverse ++ [n]).map PathComp.normal by simp] at h
    cases hr : D.real (placeComps ws ++ (rs.reverse ++ [n]).map PathComp.normal) with
    | some loc =>
      rw [hr] at h
      dsimp only at h
      have hloc := find_straight hb hn (real_iff.1 hr).1
      split at h
      · next e' he' => cases h; exact ⟨.refl hs, e', hloc ▸ he'⟩
      · cases h
    | none =>
      rw [hr] at h
      dsimp only at h
      rw [Option.bind_eq_some_iff] at h
      obtain ⟨D1, h1, h2⟩ := h
      obtain ⟨hg, e1, he1⟩ := ih (fun m hm => hv m (List.mem_append_left _ hm)) h1
      rw [List.reverse_reverse] at h2
      have hb1 : D1.find (placeComps ws) = some base := by
        unfold LinkDisk.find at hb ⊢
        rw [Option.map_eq_some_iff] at hb
        obtain ⟨⟨b, k⟩, hb, rfl⟩ := hb
        rw [hg.limit, hg.walk hb]
        rfl
      have hf1 := find_below hb1 he1 (linkAt_of_lookup (by rw [he1]; simp))
      have hval : ∀ m ∈ (base ++ rs.reverse) ++ [n], ValidName m := by
        intro m hm
        rw [List.append_assoc] at hm
        rcases List.mem_append.1 hm with hm | hm
        · exact hvb m hm
        · exact hv m hm
      obtain ⟨h3, es, h4⟩ := mkdir_grown hg.sound hf1 (List.prefix_append _ _) hval h2
      exact ⟨hg.trans h3, some es, by rw [← List.append_assoc]; exact h4⟩

/-- The components of a relative path without two dots. -/
theorem joinComps_straight {ws : List Str} {path : Str} (hp : strContains path "..".toList = false)
    (hr : path.head? ≠ some '/') : ∃ ns : List Str, joinComps ws path = placeComps ws ++ ns.map .normal ∧
      ∀ n ∈ ns, ValidName n := by
  obtain ⟨pre, ns, h1, h2⟩ := plain_components hp
  refine ⟨ns, ?_, fun n hn => pathComponents_valid (path := path) (by rw [h1]; simp [hn])⟩
  have hfil : (pathComponents path).filter (fun c => decide (c ≠ PathComp.curDir)) = ns.map .normal := by
    rw [h1, List.filter_append]
    have : (ns.map PathComp.normal).filter (fun c => decide (c ≠ PathComp.curDir)) = ns.map .normal :=
      List.filter_eq_self.2 fun c hc => by
        obtain ⟨m, _, rfl⟩ := List.mem_map.1 hc
        rfl
    rw [this]
    rcases h2 with rfl | rfl | ⟨_, h2⟩
    · rfl
    · rfl
    · exact absurd h2 hr
  unfold joinComps
  split
  · exact absurd rfl hr
  · rw [hfil]; rfl

/-- A file at a relative path without two dots was written, and there are no links in the workspace. -/
theorem writeSource_new {D : LinkDisk} (hs : Sound D) {ws base : List Str} (hws : ∀ n ∈ ws, ValidName n)
    (hb : D.find (placeComps ws) = some base) {e : Option (List (Str × FsTree))}
    (hbd : D.tree.lookup base = some (.dir e)) (hn : ∀ l, base <+: l → D.linkAt l = none) {path content : Str}
    (hp : strContains path "..".toList = false) (hr : path.head? ≠ some '/')
    (hd : ∀ u, D.real (joinComps ws path) = some u → False) :
    (∃ D', D.writeSource ws path content = (D', false) ∧ Grown base D D') ∨
    ∃ D1 D' ns n, D.writeSource ws path content = (D', true) ∧ Grown base D D1 ∧
      joinComps ws path = (placeComps ws ++ ns.map .normal) ++ [.normal n] ∧
      D1.find (placeComps ws ++ ns.map .normal) = some (base ++ ns) ∧
      Differ D1 D' (base ++ ns ++ [n]) (some (.file (some content))) ∧ Sound D' := by
  unfold LinkDisk.writeSource
  split
  · next he =>
    have hnone : D.real (joinComps ws path) = none := by
      cases hx : D.real (joinComps ws path) with
      | none => rfl
      | some u => exact absurd hx (hd u)
    unfold LinkDisk.toAbsolute
    rw [hnone]
    dsimp only
    rw [hp]
    obtain ⟨ms, hj, hmv⟩ := joinComps_straight (ws := ws) hp hr
    obtain ⟨xs, n, hjl, _⟩ := joinComps_last (ws := ws) he
    have hvb := find_valid hb (fun m hm => by
      unfold placeComps at hm
      simp only [List.mem_cons, reduceCtorEq, List.mem_map, PathComp.normal.injEq, exists_eq_right, false_or] at hm
      exact hws m hm)
    rcases List.eq_nil_or_concat ms with rfl | ⟨ns, m, rfl⟩
    · -- the path of the workspace exists
      rw [List.map_nil, List.append_nil] at hj
      exact absurd (real_iff.2 ⟨hj ▸ hb, _, hbd⟩) (hd base)
    · rw [List.concat_eq_append] at hj hmv
      have hj' : joinComps ws path = (placeComps ws ++ ns.map .normal) ++ [.normal m] := by rw [hj]; simp
      rw [hj', if_neg (by exact Bool.noConfusion)]
      dsimp only
      rw [List.dropLast_concat]
      cases hc : D.createAll (placeComps ws ++ ns.map PathComp.normal).reverse with
      | none => exact .inl ⟨D, rfl, .refl hs⟩
      | some D1 =>
        obtain ⟨hg, e', he'⟩ := createAll_grown hs hb hbd hn hvb (fun k hk => hmv k (List.mem_append_left _ hk)) hc
        have hb1 : D1.find (placeComps ws) = some base := by
          unfold LinkDisk.find at hb ⊢
          rw [Option.map_eq_some_iff] at hb
          obtain ⟨⟨b, k⟩, hb, rfl⟩ := hb
          rw [hg.limit, hg.walk hb]
          rfl
        have hf1 := find_below hb1 he' (linkAt_of_lookup (by rw [he']; simp))
        dsimp only
        cases hw : D1.writeFile ((placeComps ws ++ ns.map .normal) ++ [.normal m]) content with
        | none => exact .inl ⟨D1, rfl, hg⟩
        | some D2 =>
          right
          obtain ⟨loc, hloc⟩ : ∃ loc, D1.find ((placeComps ws ++ ns.map .normal) ++ [.normal m]) = some loc := by
            unfold LinkDisk.writeFile at hw
            rw [Option.bind_eq_some_iff] at hw
            obtain ⟨loc, hloc, _⟩ := hw
            exact ⟨loc, hloc⟩
          have hst : loc = base ++ (ns ++ [m]) :=
            find_straight hb1 (fun l hl => by rw [hg.links]; exact hn l hl) (by simpa using hloc)
          rw [← List.append_assoc] at hst
          subst hst
          obtain ⟨h1, h2⟩ := write_found hg.sound hloc (by
            intro k hk
            rw [List.append_assoc] at hk
            rcases List.mem_append.1 hk with hk | hk
            · exact hvb k hk
            · exact hmv k hk) hw
          exact ⟨D1, D2, ns, m, rfl, hg, rfl, hf1, h1, h2⟩
  · exact .inl ⟨D, rfl, .refl hs⟩

end Firm
