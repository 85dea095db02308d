import Verif.Lemmas.LinkLoad
import Verif.Props.Mcp

/-! # Properties of workspaces with symbolic links (C126–C128) -/

namespace Firm

open Spec

/-! ## Sample disks with links -/

def validNameB (n : Str) : Bool :=
  !n.isEmpty && !n.contains '/' && decide (n ≠ ['.']) && decide (n ≠ ['.', '.'])

mutual
/-- Decides `WellFormed`. -/
def wellFormedB : FsTree → Bool
  | .dir (some es) => decide ((es.map (·.1)).Nodup) && es.all (fun p => validNameB p.1) && wellFormedAllB es
  | _ => true
def wellFormedAllB : List (Str × FsTree) → Bool
  | [] => true
  | (_, t) :: es => wellFormedB t && wellFormedAllB es
end

theorem validNameB_sound {n : Str} (h : validNameB n = true) : ValidName n := by
  simp only [validNameB, Bool.and_eq_true, Bool.not_eq_true', List.isEmpty_eq_false_iff, decide_eq_true_eq] at h
  obtain ⟨⟨⟨h1, h2⟩, h3⟩, h4⟩ := h
  exact ⟨h1, by simpa using h2, h3, h4⟩

mutual
theorem wellFormedB_sound : ∀ t : FsTree, wellFormedB t = true → WellFormed t
  | .file _, _ => .file _
  | .other, _ => .other
  | .dir none, _ => .unreadable
  | .dir (some es), h => by
    rw [wellFormedB, Bool.and_eq_true, Bool.and_eq_true, decide_eq_true_eq, List.all_eq_true] at h
    exact .dir h.1.1 (fun p hp => validNameB_sound (h.1.2 p hp)) (wellFormedAllB_sound es h.2)
theorem wellFormedAllB_sound : ∀ es : List (Str × FsTree), wellFormedAllB es = true → ∀ p ∈ es, WellFormed p.2
  | [], _, _, hp => by cases hp
  | (_, t) :: es, h, p, hp => by
    rw [wellFormedAllB, Bool.and_eq_true] at h
    rcases List.mem_cons.1 hp with rfl | hp
    · exact wellFormedB_sound t h.1
    · exact wellFormedAllB_sound es h.2 p hp
end

/-- Decides `Sound`. -/
def soundB (D : LinkDisk) : Bool :=
  wellFormedB D.tree && (match D.tree with | .dir (some _) => true | _ => false) && decide ((D.links.map (·.1)).Nodup)

theorem soundB_sound {D : LinkDisk} (h : soundB D = true) : Sound D := by
  rw [soundB, Bool.and_eq_true, Bool.and_eq_true, decide_eq_true_eq] at h
  refine ⟨wellFormedB_sound _ h.1.1, ?_, h.2⟩
  have h2 := h.1.2
  split at h2
  · next es he => exact ⟨es, he⟩
  · cases h2

/-- The text of the file at a place. -/
theorem has_text {D : LinkDisk} (hs : soundB D = true) {loc : List Str} {text : Str}
    (h : D.tree.readText loc = some text) : Has D.tree loc (.file (some text)) :=
  (has_iff_lookup (soundB_sound hs).tree).2 (readText_some h)

theorem not_has_text {D : LinkDisk} (hs : soundB D = true) {loc : List Str}
    (h : D.tree.readText loc = none) (text : Str) : ¬ Has D.tree loc (.file (some text)) := by
  intro hh
  have := (has_iff_lookup (soundB_sound hs).tree).1 hh
  unfold FsTree.readText at h
  rw [this] at h
  cases h

/-- A workspace `/w` with a source file and the given further entries, and an empty directory `/etc`. -/
def linkDisk (entries : List (Str × FsTree)) (links : List (List Str × Str)) : LinkDisk where
  tree := .dir (some [("w".toList, .dir (some (("a.firm".toList, .file (some "S".toList)) :: entries))),
    ("etc".toList, .dir (some []))])
  links := links
  limit := 40

/-- `/w/out` is a link to `/etc`. -/
def outDisk : LinkDisk := linkDisk [("out".toList, .other)] [(["w".toList, "out".toList], "/etc".toList)]

/-- `/w/x.firm` is a link to `/etc/new.firm`, which does not exist. -/
def danglingDisk : LinkDisk :=
  linkDisk [("x.firm".toList, .other)] [(["w".toList, "x.firm".toList], "/etc/new.firm".toList)]

/-- `/w/l.firm` is a link to the file `/w/notes.txt`. -/
def notesDisk : LinkDisk :=
  linkDisk [("l.firm".toList, .other), ("notes.txt".toList, .file (some "B".toList))]
    [(["w".toList, "l.firm".toList], "notes.txt".toList)]

def linkServer (D : LinkDisk) : LinkServer := ⟨D, exState exDisk⟩

theorem ex_reaches {D : LinkDisk} {cs : List PathComp} {l : List Str} (hs : soundB D = true)
    (h : D.find cs = some l) : Reaches D cs l := (find_iff (soundB_sound hs)).1 h

/-! ## C126: the file tools and links -/

/-- C126: what `read_source` returns is the content of a firm file inside the real workspace directory, no
matter which links lead there. -/
theorem C126_read (D : LinkDisk) (hs : Sound D) (ws : List Str) (path text : Str)
    (h : D.readSource ws path = some text) :
    ∃ base loc, Reaches D (placeComps ws) base ∧ Reaches D (joinComps ws path) loc ∧ base <+: loc ∧
      Has D.tree loc (.file (some text)) ∧ ∃ dirs n, loc = dirs ++ [n] ∧ FirmName n := by
  unfold LinkDisk.readSource at h
  rw [Option.bind_eq_some_iff] at h
  obtain ⟨cs, h1, h⟩ := h
  rw [Option.bind_eq_some_iff] at h
  obtain ⟨l, h2, h⟩ := h
  rcases toAbsolute_some h1 with ⟨loc, base, h4, h5, h6, rfl⟩ | ⟨h4, _, rfl⟩
  · obtain ⟨h7, u, h8⟩ := real_iff.1 h4
    have hf := find_place h8 (find_link hs h7)
    by_cases hx : firmComps (placeComps loc) = true
    · rw [if_pos hx] at h
      unfold LinkDisk.readText at h
      rw [hf] at h
      have ht := readText_some h
      refine ⟨base, loc, (find_iff hs).1 (real_iff.1 h5).1, (find_iff hs).1 h7, h6, (has_iff_lookup hs.tree).2 ht, ?_⟩
      obtain ⟨p, n, es, rfl, _⟩ := file_snoc hs ht
      refine ⟨p, n, rfl, isFirmFile_iff.1 ?_⟩
      unfold firmComps at hx
      rw [placeComps_snoc, List.getLast?_concat] at hx
      exact hx
    · rw [if_neg hx] at h; cases h
  · rw [h4] at h2; cases h2

/-- Deleting leaves everything outside the real workspace as it is, and a refused request leaves all files
and links as they are. -/
theorem C126_delete (H : Host) (hws : ∀ n ∈ H.ws, ValidName n) (order : Workspace → Workspace) (s : LinkServer)
    (hs : Sound s.disk) (path : Str) (force : Bool) (base : List Str) (hb : Reaches s.disk (placeComps H.ws) base) :
    SameBeyond base s.disk (s.delete H order path force).1.disk ∧
    ((s.delete H order path force).2 = .error →
      SameDisk s.disk (s.delete H order path force).1.disk ∧ (s.delete H order path force).1.state = s.state) := by
  unfold LinkServer.delete
  cases hx : s.disk.deleteExecute H.ws path with
  | none => exact ⟨sameBeyond_refl _ _, fun _ => ⟨sameDisk_refl _, rfl⟩⟩
  | some r =>
    obtain ⟨D, original⟩ := r
    obtain ⟨he, loc, b, h1, h2, h3, h4, h5, h6⟩ := deleteExecute_links hs hx
    have hbb : b = base := by
      have := (real_iff.1 h2).1
      rw [(find_iff hs).2 hb] at this
      cases this; rfl
    subst hbb
    dsimp only
    cases hr : D.rebuild H order with
    | ok st => exact ⟨h5.beyond hs h6 h3, fun h => by cases h⟩
    | error e =>
      cases force with
      | true => exact ⟨h5.beyond hs h6 h3, fun h => by cases h⟩
      | false =>
        obtain ⟨h7, h8⟩ := rollbackDelete_links hs h6 hws he h1 h4 h5
        refine ⟨h7.beyond hs h8 h3, fun _ => ⟨h7.same hs h8 ?_, rfl⟩⟩
        exact leafAt_eq_some.2 ⟨h4, fun es h => by cases h⟩

/-- Writing to a path that leads to a readable file. -/
theorem write_over {H : Host} (hws : ∀ n ∈ H.ws, ValidName n) {order : Workspace → Workspace} {s : LinkServer}
    (hs : Sound s.disk) {path content old : Str} {force : Bool} {base loc : List Str}
    (hb : Reaches s.disk (placeComps H.ws) base) (hf : s.disk.find (joinComps H.ws path) = some loc)
    (hx : s.disk.tree.lookup loc = some (.file (some old))) :
    SameBeyond base s.disk (s.write H order path content force).1.disk ∧
    ((s.write H order path content force).2 = .error →
      SameDisk s.disk (s.write H order path content force).1.disk ∧
      (s.write H order path content force).1.state = s.state) := by
  have hold : s.disk.readText (joinComps H.ws path) = some old := by
    unfold LinkDisk.readText
    rw [hf, Option.bind_some]
    unfold FsTree.readText
    rw [hx]
  unfold LinkServer.write LinkDisk.validateAndWrite
  cases H.accepts content with
  | false => exact ⟨sameBeyond_refl _ _, fun _ => ⟨sameDisk_refl _, rfl⟩⟩
  | true =>
    rcases writeSource_existing (content := content) hs hws hf hx with h | ⟨D', b, h, he, h1, h2, _, h3, h4⟩
    · rw [if_pos rfl, h]; exact ⟨sameBeyond_refl _ _, fun _ => ⟨sameDisk_refl _, rfl⟩⟩
    · have hbb : b = base := by
        have := (real_iff.1 h1).1
        rw [(find_iff hs).2 hb] at this
        cases this; rfl
      subst hbb
      rw [if_pos rfl, h]
      dsimp only
      cases hr : D'.rebuild H order with
      | ok st => exact ⟨h3.beyond hs h4 h2, fun h => by cases h⟩
      | error e =>
        cases force with
        | true => exact ⟨h3.beyond hs h4 h2, fun h => by cases h⟩
        | false =>
          rw [hold]
          obtain ⟨h7, h8⟩ := rollbackWrite_existing (original := old) h4 hws hf h3
          refine ⟨h7.beyond hs h8 h2, fun _ => ⟨h7.same hs h8 ?_, rfl⟩⟩
          exact leafAt_eq_some.2 ⟨hx, fun es h => by cases h⟩

/-- C126 for `replace_source`. -/
theorem C126_replace (H : Host) (hws : ∀ n ∈ H.ws, ValidName n) (order : Workspace → Workspace) (s : LinkServer)
    (hs : Sound s.disk) (path old new : Str) (all force : Bool) (base : List Str)
    (hb : Reaches s.disk (placeComps H.ws) base) :
    SameBeyond base s.disk (s.replace H order path old new all force).1.disk ∧
    ((s.replace H order path old new all force).2 = .error →
      SameDisk s.disk (s.replace H order path old new all force).1.disk ∧
      (s.replace H order path old new all force).1.state = s.state) := by
  unfold LinkServer.replace
  cases hx : s.disk.replaceExecute H.ws path old new all with
  | none => exact ⟨sameBeyond_refl _ _, fun _ => ⟨sameDisk_refl _, rfl⟩⟩
  | some r =>
    obtain ⟨content, k⟩ := r
    obtain ⟨text, ht⟩ : ∃ text, s.disk.readSource H.ws path = some text := by
      unfold LinkDisk.replaceExecute at hx
      split at hx
      · cases hx
      · rw [Option.bind_eq_some_iff] at hx
        obtain ⟨t, h1, _⟩ := hx
        exact ⟨t, h1⟩
    obtain ⟨b, loc, _, h2, _, h4, _⟩ := C126_read _ hs _ _ _ ht
    exact write_over hws hs hb ((find_iff hs).2 h2) ((has_iff_lookup hs.tree).1 h4)

/-- C126: only a request that insists is answered with a warning, and what the server knows changes only on
success. -/
theorem C126_forced (H : Host) (order : Workspace → Workspace) (s : LinkServer) (path content old new : Str)
    (all force : Bool) :
    ((s.write H order path content force).2 = .warning → force = true) ∧
      ((s.write H order path content force).2 ≠ .success → (s.write H order path content force).1.state = s.state) ∧
      ((s.delete H order path force).2 = .warning → force = true) ∧
      ((s.delete H order path force).2 ≠ .success → (s.delete H order path force).1.state = s.state) ∧
      ((s.replace H order path old new all force).2 = .warning → force = true) ∧
      ((s.replace H order path old new all force).2 ≠ .success →
        (s.replace H order path old new all force).1.state = s.state) := by
  have hw : ∀ content, ((s.write H order path content force).2 = .warning → force = true) ∧
      ((s.write H order path content force).2 ≠ .success →
        (s.write H order path content force).1.state = s.state) := by
    intro content
    unfold LinkServer.write
    split
    · exact ⟨(fun h => by cases h), fun _ => rfl⟩
    · split
      · exact ⟨(fun h => by cases h), fun h => absurd rfl h⟩
      · split
        · next hf => exact ⟨fun _ => hf, fun _ => rfl⟩
        · exact ⟨(fun h => by cases h), fun _ => rfl⟩
  refine ⟨(hw content).1, (hw content).2, ?_⟩
  rw [← and_assoc]
  constructor
  · unfold LinkServer.delete
    split
    · exact ⟨(fun h => by cases h), fun _ => rfl⟩
    · split
      · exact ⟨(fun h => by cases h), fun h => absurd rfl h⟩
      · split
        · next hf => exact ⟨fun _ => hf, fun _ => rfl⟩
        · exact ⟨(fun h => by cases h), fun _ => rfl⟩
  · unfold LinkServer.replace
    split
    · exact ⟨(fun h => by cases h), fun _ => rfl⟩
    · exact hw _

/-- C126 for `write_source`: when the path leads to a readable file, or when the path is relative and without
two dots and there are no links in the workspace. -/
theorem C126_write_partial (H : Host) (hws : ∀ n ∈ H.ws, ValidName n) (order : Workspace → Workspace)
    (s : LinkServer) (hs : Sound s.disk) (path content : Str) (force : Bool) (base : List Str)
    (hb : Reaches s.disk (placeComps H.ws) base)
    (hp : (∃ loc old, Reaches s.disk (joinComps H.ws path) loc ∧ Has s.disk.tree loc (.file (some old))) ∨
      (path.head? ≠ some '/' ∧ strContains path "..".toList = false ∧ NoLinks s.disk base ∧
        ∃ e, Has s.disk.tree base (.dir e))) :
    SameBeyond base s.disk (s.write H order path content force).1.disk := by
  rcases hp with ⟨loc, old, h1, h2⟩ | ⟨hr, hp, hn, e, he⟩
  · exact (write_over hws hs hb ((find_iff hs).2 h1) ((has_iff_lookup hs.tree).1 h2)).1
  · have hb' := (find_iff hs).2 hb
    have he' := (has_iff_lookup hs.tree).1 he
    have hn' : ∀ l, base <+: l → s.disk.linkAt l = none := fun l hl => (linkAt_none hs).2 fun t => hn l t hl
    cases ht : s.disk.readText (joinComps H.ws path) with
    | some old =>
      unfold LinkDisk.readText at ht
      rw [Option.bind_eq_some_iff] at ht
      obtain ⟨loc, h1, h2⟩ := ht
      exact (write_over hws hs hb h1 (readText_some h2)).1
    | none =>
      unfold LinkServer.write LinkDisk.validateAndWrite
      cases H.accepts content with
      | false => exact sameBeyond_refl _ _
      | true =>
        rw [if_pos rfl, ht]
        -- removing what was written
        have key : ∀ (D1 D' : LinkDisk) (ns : List Str) (n : Str),
            joinComps H.ws path = (placeComps H.ws ++ ns.map .normal) ++ [.normal n] →
            Sound D1 → D1.find (placeComps H.ws ++ ns.map .normal) = some (base ++ ns) →
            Differ D1 D' (base ++ ns ++ [n]) (some (.file (some content))) → Sound D' →
            SameBeyond base D' (D'.rollbackWrite H.ws path none) := by
          intro D1 D' ns n hj hs1 hf1 hd hs'
          have hx : D'.tree.lookup (base ++ ns ++ [n]) = some (.file (some content)) := by
            have := hd.leaves (base ++ ns ++ [n])
            rw [if_pos rfl] at this
            exact (leafAt_eq_some.1 this).1
          have hf' := hd.find (placeComps H.ws ++ ns.map .normal)
          rw [hf1] at hf'
          change SameBeyond base D' ((D'.removeFile (joinComps H.ws path)).getD D')
          cases hrm : D'.removeFile (joinComps H.ws path) with
          | none => exact sameBeyond_refl _ _
          | some D3 =>
            obtain ⟨h1, h2⟩ := remove_found hs' hf' hx (hj ▸ hrm)
            exact h1.beyond hs' h2 (by rw [List.append_assoc]; exact List.prefix_append _ _)
        have fin : ∀ (D1 D' : LinkDisk) (ns : List Str) (n : Str), SameBeyond base s.disk D1 →
            joinComps H.ws path = (placeComps H.ws ++ ns.map .normal) ++ [.normal n] →
            Sound D1 → D1.find (placeComps H.ws ++ ns.map .normal) = some (base ++ ns) →
            Differ D1 D' (base ++ ns ++ [n]) (some (.file (some content))) → Sound D' →
            SameBeyond base s.disk (match D'.rebuild H order with
              | .ok st => ((⟨D', st⟩, .success) : LinkServer × Reply)
              | .error _ => if force then (⟨D', s.state⟩, .warning)
                else (⟨D'.rollbackWrite H.ws path none, s.state⟩, .error)).1.disk := by
          intro D1 D' ns n hb1 hj hs1 hf1 hd hs'
          have hb2 := sameBeyond_trans hb1 (hd.beyond hs1 hs' (by rw [List.append_assoc]; exact List.prefix_append _ _))
          cases D'.rebuild H order with
          | ok st => exact hb2
          | error e =>
            cases force with
            | true => exact hb2
            | false => exact sameBeyond_trans hb2 (key D1 D' ns n hj hs1 hf1 hd hs')
        cases hreal : s.disk.real (joinComps H.ws path) with
        | none =>
          rcases writeSource_new (content := content) hs hws hb' he' hn' hp hr (by rw [hreal]; simp) with
            ⟨D', h1, h2⟩ | ⟨D1, D', ns, n, h1, h2, h3, h4, h5, h6⟩
          · rw [h1]; exact h2.beyond hs
          · rw [h1]; exact fin D1 D' ns n (h2.beyond hs) h3 h2.sound h4 h5 h6
        | some loc =>
          obtain ⟨h1, u, h2⟩ := real_iff.1 hreal
          rcases writeSource_existing (content := content) hs hws h1 h2 with
            h | ⟨D', b, h, hends, h3, h4, ⟨x, rfl⟩, h5, h6⟩
          · rw [h]; exact sameBeyond_refl _ _
          · rw [h]
            obtain ⟨ms, hj, _⟩ := joinComps_straight (ws := H.ws) hp hr
            have hst := find_straight hb' hn' (hj ▸ h1)
            rcases List.eq_nil_or_concat ms with rfl | ⟨ns, m, rfl⟩
            · rw [List.append_nil] at hst
              subst hst
              rw [he'] at h2; cases h2
            · rw [List.concat_eq_append, ← List.append_assoc] at hst
              subst hst
              obtain ⟨es, hpar, _⟩ := lookup_snoc_some h2
              exact fin s.disk D' ns m (sameBeyond_refl _ _) (by rw [hj]; simp) hs
                (find_below hb' hpar (linkAt_of_lookup (by rw [hpar]; simp))) h5 h6

/-- C126 is false of `write_source` for new files: a relative path without two dots leads through a linked
directory to a new file outside the workspace. -/
theorem C126_write_escapes : ∃ s : LinkServer, Sound s.disk ∧ Reaches s.disk (placeComps exHost.ws) ["w".toList] ∧
    (s.write exHost id "out/c.firm".toList "B".toList false).2 = .success ∧
    (∀ text, ¬ Has s.disk.tree ["etc".toList, "c.firm".toList] (.file (some text))) ∧
    Has (s.write exHost id "out/c.firm".toList "B".toList false).1.disk.tree ["etc".toList, "c.firm".toList]
      (.file (some "B".toList)) := by
  refine ⟨linkServer outDisk, soundB_sound (by decide +kernel), ex_reaches (by decide +kernel) (by decide +kernel),
    by decide +kernel, not_has_text (by decide +kernel) (by decide +kernel), ?_⟩
  exact has_text (by decide +kernel) (by decide +kernel)

/-- A refused request to write through a link that leads nowhere creates the file outside the workspace,
leaves it there, and takes away the link instead. -/
theorem C126_dangling : ∃ s : LinkServer, Sound s.disk ∧ Reaches s.disk (placeComps exHost.ws) ["w".toList] ∧
    IsLink s.disk ["w".toList, "x.firm".toList] "/etc/new.firm".toList ∧
    (s.write exHost id "x.firm".toList "bad".toList false).2 = .error ∧
    (∀ text, ¬ Has s.disk.tree ["etc".toList, "new.firm".toList] (.file (some text))) ∧
    Has (s.write exHost id "x.firm".toList "bad".toList false).1.disk.tree ["etc".toList, "new.firm".toList]
      (.file (some "bad".toList)) ∧
    ∀ text, ¬ IsLink (s.write exHost id "x.firm".toList "bad".toList false).1.disk ["w".toList, "x.firm".toList] text := by
  refine ⟨linkServer danglingDisk, soundB_sound (by decide +kernel), ex_reaches (by decide +kernel) (by decide +kernel),
    (linkAt_iff (soundB_sound (by decide +kernel))).1 (by decide +kernel),
    by decide +kernel, not_has_text (by decide +kernel) (by decide +kernel),
    has_text (by decide +kernel) (by decide +kernel), ?_⟩
  exact (linkAt_none (soundB_sound (by decide +kernel))).1 (by decide +kernel)

/-- Deleting a firm file that is a link deletes the file it leads to, which need not be a firm file, and
leaves the link. -/
theorem C126_deletes_target : ∃ s : LinkServer, Sound s.disk ∧
    IsLink s.disk ["w".toList, "l.firm".toList] "notes.txt".toList ∧
    Has s.disk.tree ["w".toList, "notes.txt".toList] (.file (some "B".toList)) ∧
    (s.delete exHost id "l.firm".toList false).2 = .success ∧
    IsLink (s.delete exHost id "l.firm".toList false).1.disk ["w".toList, "l.firm".toList] "notes.txt".toList ∧
    ∀ text, ¬ Has (s.delete exHost id "l.firm".toList false).1.disk.tree ["w".toList, "notes.txt".toList]
      (.file (some text)) := by
  refine ⟨linkServer notesDisk, soundB_sound (by decide +kernel),
    (linkAt_iff (soundB_sound (by decide +kernel))).1 (by decide +kernel),
    has_text (by decide +kernel) (by decide +kernel), by decide +kernel,
    (linkAt_iff (soundB_sound (by decide +kernel))).1 (by decide +kernel), ?_⟩
  exact not_has_text (by decide +kernel) (by decide +kernel)

/-! ## C127: loading through links -/

/-- C127: loading a directory succeeds exactly when everything to which paths below it lead can be read, and
then the workspace consists of exactly the firm files to which such paths lead, one for each path. -/
theorem C127_load (grammar : Str → Node) (ws : List Str) (hws : ∀ n ∈ ws, ValidName n) (D : LinkDisk) (hs : Sound D) :
    ∃ w r, D.loadDirectory grammar ws = (w, r) ∧
      (r = .ok () ↔ ReadableLinked ws D) ∧ (r = .ok () → LoadsLinked grammar ws D w) :=
  loadDirectory_links hs hws

/-- C127: a loaded file can be read under the path under which it is listed exactly when that path leads to a
firm file inside the real workspace. -/
theorem C127_listed_partial (ws : List Str) (hws : ∀ n ∈ ws, ValidName n) (D : LinkDisk) (hs : Sound D)
    (base : List Str) (hb : Reaches D (placeComps ws) base ∧ ∃ u, Has D.tree base u) (loc l : List Str) (text : Str)
    (hne : loc ≠ []) (hr : Reaches D (placeComps (ws ++ loc)) l) (hh : Has D.tree l (.file (some text))) :
    D.readSource ws (joinWith ['/'] loc) = some text ↔ base <+: l ∧ ∃ dirs n, l = dirs ++ [n] ∧ FirmName n := by
  have hv := reaches_valid hs hws (u := .file (some text)) (by simp) (fun es h => by cases h) hr hh
  have hj := joinComps_names (ws := ws) hne hv
  constructor
  · intro h
    obtain ⟨b, l', h1, h2, h3, _, h5⟩ := C126_read D hs ws _ text h
    rw [hj] at h2
    have e1 : l' = l := by
      have := (find_iff hs).2 h2
      rw [(find_iff hs).2 hr] at this
      cases this; rfl
    have e2 : b = base := by
      have := (find_iff hs).2 h1
      rw [(find_iff hs).2 hb.1] at this
      cases this; rfl
    subst e1 e2
    exact ⟨h3, h5⟩
  · rintro ⟨h1, dirs, n, rfl, h2⟩
    obtain ⟨u, hu⟩ := hb.2
    have hl := (has_iff_lookup hs.tree).1 hh
    have hf := find_place hl (linkAt_of_lookup (by rw [hl]; simp))
    have habs : D.toAbsolute ws (joinWith ['/'] loc) = some (placeComps (dirs ++ [n])) := by
      unfold LinkDisk.toAbsolute
      rw [hj, real_iff.2 ⟨(find_iff hs).2 hr, _, hl⟩]
      dsimp only
      rw [real_iff.2 ⟨(find_iff hs).2 hb.1, u, (has_iff_lookup hs.tree).1 hu⟩, Option.bind_some,
        if_pos (List.isPrefixOf_iff_prefix.2 h1)]
    unfold LinkDisk.readSource
    rw [habs, Option.bind_some, real_iff.2 ⟨hf, _, hl⟩, Option.bind_some, if_pos]
    · unfold LinkDisk.readText
      rw [hf, Option.bind_some]
      unfold FsTree.readText
      rw [hl]
    · unfold firmComps
      rw [placeComps_snoc, List.getLast?_concat]
      exact isFirmFile_iff.2 h2

/-- `/w/l.firm` is a link to the file `/etc/b.firm`. -/
def awayDisk : LinkDisk where
  tree := .dir (some [("w".toList, .dir (some [("a.firm".toList, .file (some "S".toList)), ("l.firm".toList, .other)])),
    ("etc".toList, .dir (some [("b.firm".toList, .file (some "B".toList))]))])
  links := [(["w".toList, "l.firm".toList], "../etc/b.firm".toList)]
  limit := 40

/-- C127 is false of files outside the workspace: they are loaded and listed, but refused when they are to be
read. -/
theorem C127_refused : ∃ (D : LinkDisk) (w : Workspace), Sound D ∧ D.loadDirectory exGrammar ["w".toList] = (w, .ok ()) ∧
    w.map (·.2.rel) = ["a.firm".toList, "l.firm".toList] ∧
    D.readSource ["w".toList] "a.firm".toList = some "S".toList ∧
    D.readSource ["w".toList] "l.firm".toList = none :=
  ⟨awayDisk, (awayDisk.loadDirectory exGrammar ["w".toList]).1, soundB_sound (by decide +kernel), rfl, by decide +kernel,
    by decide +kernel, by decide +kernel⟩

/-! ## C128: files reached twice -/

/-- C128: when two paths of names lead to files with the same text and that contains an entity, the workspace
cannot be built, in whatever order its files are enumerated. -/
theorem C128_twice (H : Host) (hws : ∀ n ∈ H.ws, ValidName n) (order : Workspace → Workspace)
    (horder : ∀ w, (order w).Perm w) (D : LinkDisk) (hs : Sound D) (loc loc' : List Str) (text : Str)
    (h1 : LinkedFile D H.ws loc text) (h2 : LinkedFile D H.ws loc' text) (hne : loc ≠ loc')
    (hent : ∃ c ∈ (H.grammar text).children, c.kind = "entity_block".toList) :
    ∃ e, D.rebuild H order = .error e := by
  unfold LinkDisk.rebuild
  obtain ⟨w, r, hl, _, hload⟩ := C127_load H.grammar H.ws hws D hs
  rw [hl]
  cases r with
  | error e => exact ⟨e, rfl⟩
  | ok u =>
    obtain ⟨_, hmem⟩ := hload rfl
    dsimp only
    cases hb : (order w).build H.lang with
    | error e => exact ⟨e, rfl⟩
    | ok b =>
      dsimp only
      have hnot : b.toGraph.2 ≠ .ok () := by
        intro hok
        have hnd := (C44_duplicates H.lang (order w) b hb).1 hok
        have hin : ∀ loc, LinkedFile D H.ws loc text →
            ('/' :: joinWith ['/'] (H.ws ++ loc), (⟨H.grammar text, joinWith ['/'] loc⟩ : SourceFile)) ∈ order w :=
          fun loc h => (horder w).mem_iff.2 ((hmem _ _).2 ⟨loc, text, h, rfl, rfl⟩)
        have hinj : joinWith ['/'] loc ≠ joinWith ['/'] loc' := by
          intro he
          have key : ∀ loc, LinkedFile D H.ws loc text → pathComponents (joinWith ['/'] loc) = loc.map .normal := by
            rintro loc ⟨⟨dirs, n, rfl, _⟩, l, h3, h4⟩
            exact pathComponents_relative (by simp)
              (reaches_valid hs hws (u := .file (some text)) (by simp) (fun es h => by cases h) h3 h4)
          have := (key loc h1).symm.trans ((congrArg pathComponents he).trans (key loc' h2))
          exact hne (List.map_injective_iff.2 (fun a b h => by cases h; rfl) this)
        unfold writtenIds blocksOf at hnd
        rw [List.map_flatMap, List.nodup_flatMap] at hnd
        have pick : ∀ {α β : Type} (f : α → List β) (xs : List α), xs.Pairwise (fun a b => (f a).Disjoint (f b)) →
            ∀ a ∈ xs, ∀ b ∈ xs, a ≠ b → (f a).Disjoint (f b) := by
          intro α β f xs hp a ha b hb hab
          have : Std.Symm (fun a b => (f a).Disjoint (f b)) := ⟨fun _ _ h => h.symm⟩
          exact hp.forall ha hb hab
        have hdis := pick _ _ hnd.2 _ (hin loc h1) _ (hin loc' h2)
          (fun h => hinj (congrArg (fun p : Str × SourceFile => p.2.rel) h))
        obtain ⟨c, hc, hk⟩ := hent
        refine hdis (a := H.lang.cases.composeEntityId ((entityTypeOf c).getD []) ((entityIdOf c).getD [])) ?_ ?_ <;>
        · refine List.mem_map.2 ⟨(_, c), List.mem_map.2 ⟨c, List.mem_filter.2 ⟨hc, ?_⟩, rfl⟩, rfl⟩
          exact decide_eq_true hk
      cases hg : b.toGraph with
      | mk g r =>
        cases r with
        | error e => exact ⟨_, rfl⟩
        | ok u => rw [hg] at hnot; exact absurd rfl hnot

/-! ## The hypotheses are met -/

/-- `/w` is a link to `/data`, where there are two source files, one of them also reached through the link
`c.firm`, and a directory `sub` that can be reached again through the link `again`. -/
def viaDisk (again : Str) : LinkDisk where
  tree := .dir (some [("w".toList, .other), ("data".toList, .dir (some [("a.firm".toList, .file (some "S".toList)),
    ("b.firm".toList, .file (some "B".toList)), ("c.firm".toList, .other),
    ("sub".toList, .dir (some [("again".toList, .other)]))]))])
  links := [(["w".toList], "data".toList), (["data".toList, "c.firm".toList], "../data/b.firm".toList),
    (["data".toList, "sub".toList, "again".toList], again)]
  limit := 8

/-- `/w` is a link to `/data`, in which there are no links. -/
def plainDisk : LinkDisk where
  tree := .dir (some [("w".toList, .other), ("data".toList, .dir (some [("a.firm".toList, .file (some "S".toList)),
    ("b.firm".toList, .file (some "B".toList))]))])
  links := [(["w".toList], "data".toList)]
  limit := 8

theorem viaDisk_sound : Sound (viaDisk ".".toList) := soundB_sound (by decide +kernel)

theorem plainDisk_sound : Sound plainDisk := soundB_sound (by decide +kernel)

-- C126: the workspace itself is a link, and the file read is one too
example : Reaches (viaDisk ".".toList) (placeComps exHost.ws) ["data".toList] ∧
    (viaDisk ".".toList).readSource exHost.ws "c.firm".toList = some "B".toList :=
  ⟨ex_reaches (by decide +kernel) (by decide +kernel), by decide +kernel⟩

-- deleting and replacing are accepted, and refused
example : Sound plainDisk ∧ Reaches plainDisk (placeComps exHost.ws) ["data".toList] ∧
    ((linkServer plainDisk).delete exHost id "b.firm".toList false).2 = .success ∧
    ((linkServer plainDisk).delete exHost id "a.firm".toList false).2 = .error ∧
    ((linkServer plainDisk).replace exHost id "b.firm".toList "B".toList "S".toList false false).2 = .error ∧
    ((linkServer plainDisk).replace exHost id "b.firm".toList "B".toList "x".toList false true).2 = .warning :=
  ⟨plainDisk_sound, ex_reaches (by decide +kernel) (by decide +kernel), by decide +kernel, by decide +kernel,
    by decide +kernel, by decide +kernel⟩

-- a new file in a new directory, and one that is refused
example : NoLinks plainDisk ["data".toList] ∧ (∃ e, Has plainDisk.tree ["data".toList] (.dir e)) ∧
    ((linkServer plainDisk).write exHost id "sub/c.firm".toList "B".toList true).2 = .warning ∧
    ((linkServer plainDisk).write exHost id "sub/c.firm".toList "x".toList false).2 = .error := by
  refine ⟨?_, ⟨_, (has_iff_lookup plainDisk_sound.tree).2 (by rfl)⟩, by decide +kernel, by decide +kernel⟩
  rintro loc text ⟨t, rfl⟩ ⟨_, h⟩
  have := (Prod.mk.inj (List.mem_singleton.1 h)).1
  revert this
  exact fun h => absurd (List.cons.inj h).1 (by decide)

-- C127: three files below a linked workspace, one of them reached through a link; the link that leads
-- nowhere is skipped
example : ((viaDisk "nowhere".toList).loadDirectory exGrammar exHost.ws).2 = .ok () ∧
    ((viaDisk "nowhere".toList).loadDirectory exGrammar exHost.ws).1.map (·.2.rel) =
      ["a.firm".toList, "b.firm".toList, "c.firm".toList] := ⟨by decide +kernel, by decide +kernel⟩

-- a link to the directory it is in is followed again and again, up to the number of links the kernel follows
example : ((viaDisk "..".toList).loadDirectory exGrammar exHost.ws).2 = .ok () ∧
    ((viaDisk "..".toList).loadDirectory exGrammar exHost.ws).1.length = 23 := ⟨by decide +kernel, by decide +kernel⟩

-- the listed file `c.firm` leads to a firm file in the real workspace
example : Reaches (viaDisk ".".toList) (placeComps (exHost.ws ++ ["c.firm".toList])) ["data".toList, "b.firm".toList] ∧
    Has (viaDisk ".".toList).tree ["data".toList, "b.firm".toList] (.file (some "B".toList)) :=
  ⟨ex_reaches (by decide +kernel) (by decide +kernel), has_text (by decide +kernel) (by decide +kernel)⟩

-- C128: two paths to the file with the entity `bob`
example : LinkedFile (viaDisk ".".toList) exHost.ws ["b.firm".toList] "B".toList ∧
    LinkedFile (viaDisk ".".toList) exHost.ws ["c.firm".toList] "B".toList ∧
    ∃ c ∈ (exHost.grammar "B".toList).children, c.kind = "entity_block".toList :=
  ⟨⟨⟨[], _, rfl, isFirmFile_iff.1 (by decide)⟩, ["data".toList, "b.firm".toList],
      ex_reaches (by decide +kernel) (by decide +kernel), has_text (by decide +kernel) (by decide +kernel)⟩,
    ⟨⟨[], _, rfl, isFirmFile_iff.1 (by decide)⟩, ["data".toList, "b.firm".toList],
      ex_reaches (by decide +kernel) (by decide +kernel), has_text (by decide +kernel) (by decide +kernel)⟩, _, List.mem_cons_self .., by decide⟩

end Firm
