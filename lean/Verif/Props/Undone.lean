import Verif.Props.Changed
import Verif.Props.Served

/-!
# C162: a change of a file can be undone
-/

namespace Firm
open Spec

/-! ## The specification -/

/-- A path that starts in the workspace and has no two dots in a row. -/
def Spec.DotlessPath (path : Str) : Prop := path.head? ≠ some '/' ∧ ¬ Occurs "..".toList path

/-- The second server has the files of the first one and serves them: the same entities and the same schemas. -/
def Spec.Restored (H : Host) (s t : Server) : Prop :=
  SameFiles s.disk t.disk ∧ Serves H t ∧ s.state.build.entities.Perm t.state.build.entities ∧
    s.state.build.schemas.Perm t.state.build.schemas

/-- The text stands at one position only. -/
def Spec.OnceIn (b r : Str) : Prop := ∀ x y x' y', r = x ++ b ++ y → r = x' ++ b ++ y' → x = x'

/-! ## Paths -/

theorem plain_place {path : Str} (h : DotlessPath path) : ∃ ns, ∀ ws, placeFor ws path = ws ++ ns := by
  obtain ⟨pre, ns, h1, h2⟩ := plain_components (path := path) (by
    cases hc : strContains path "..".toList with
    | false => rfl
    | true => exact absurd ((strContains_iff _ _).1 hc) h.2)
  refine ⟨ns, fun ws => ?_⟩
  show lexicalPlace ws (pathComponents path) = _
  rw [h1, lexicalPlace_append]
  rcases h2 with rfl | rfl | ⟨_, h2⟩
  · exact lexicalPlace_normal ws ns
  · exact lexicalPlace_normal ws ns
  · exact absurd h2 h.1

theorem plain_absolute {path : Str} (h : DotlessPath path) (d : FsTree) (ws : List Str) :
    toAbsolutePath d ws path = some (placeFor ws path) := by
  have hn : newPath ws path = some (placeFor ws path) := by
    unfold newPath
    exact if_neg fun hc => h.2 ((strContains_iff _ _).1 hc)
  obtain ⟨ns, hns⟩ := plain_place h
  unfold toAbsolutePath
  cases hr : d.resolve ws (pathComponents path) with
  | none => exact hn
  | some l =>
    have hl : l = placeFor ws path := resolve_lexical hr
    dsimp only
    cases d.lookup l with
    | none => exact hn
    | some u =>
      dsimp only
      rw [hl, if_pos (List.isPrefixOf_iff_prefix.2 ⟨ns, (hns ws).symm⟩)]

theorem plain_firm {path : Str} (h : DotlessPath path) (he : endsWith path ".firm".toList = true) :
    ∃ dirs n, ∀ ws, placeFor ws path = ws ++ (dirs ++ [n]) := by
  obtain ⟨ns, hns⟩ := plain_place h
  obtain ⟨p, n, hp, _⟩ := firm_place (ws := []) he
  have : ns = p ++ [n] := by rw [← hp]; exact (hns []).symm
  subst this
  exact ⟨p, n, hns⟩

/-! ## Writing -/

theorem write_onto {d : FsTree} {ws : List Str} {path : Str} (content : Str) (hp : DotlessPath path)
    (he : endsWith path ".firm".toList = true) {t : Option Str} (h : d.lookup (placeFor ws path) = some (.file t)) :
    writeSourceFile d ws path content = (d.place (placeFor ws path) (.file (some content)), true) := by
  obtain ⟨p, n, hpn, _⟩ := firm_place (ws := ws) he
  obtain ⟨es, hes, _⟩ := lookup_snoc_some (show d.lookup (p ++ [n]) = _ by rw [← hpn]; exact h)
  unfold writeSourceFile
  rw [if_pos he, plain_absolute hp]
  dsimp only
  rw [show (placeFor ws path).dropLast = p by rw [placeFor, hpn, List.dropLast_concat], createDirAll_existing hes]
  dsimp only
  unfold FsTree.writeFile
  rw [h]

theorem write_fresh {d : FsTree} {ws : List Str} {path : Str} (content : Str) (hp : DotlessPath path)
    (he : endsWith path ".firm".toList = true) {es : List (Str × FsTree)}
    (h : d.lookup (placeFor ws path) = none) (hd : d.lookup (placeFor ws path).dropLast = some (.dir (some es))) :
    writeSourceFile d ws path content = (d.place (placeFor ws path) (.file (some content)), true) := by
  unfold writeSourceFile
  rw [if_pos he, plain_absolute hp]
  dsimp only
  rw [createDirAll_existing hd]
  dsimp only
  unfold FsTree.writeFile
  rw [h]
  dsimp only
  rw [hd]

theorem read_lookup {d : FsTree} {ws : List Str} {path old : Str} (h : readSourceFile d ws path = some old) :
    d.lookup (placeFor ws path) = some (.file (some old)) ∧ hasFirmExtension (placeFor ws path) = true := by
  unfold readSourceFile at h
  cases ha : toAbsolutePath d ws path with
  | none => rw [ha] at h; cases h
  | some loc =>
    have hl : loc = placeFor ws path := toAbsolutePath_eq ha
    rw [ha] at h
    dsimp only at h
    cases hu : d.lookup loc with
    | none => rw [hu] at h; cases h
    | some u =>
      rw [hu] at h
      dsimp only at h
      by_cases hf : hasFirmExtension loc = true
      · rw [if_pos hf] at h
        unfold FsTree.readText at h
        rw [hu] at h
        subst hl
        refine ⟨?_, hf⟩
        cases u with
        | file t => dsimp only at h; rw [h] at hu; exact hu
        | _ => cases h
      · rw [if_neg hf] at h; cases h

theorem lookup_read {d : FsTree} {ws : List Str} {path r : Str} (hp : DotlessPath path)
    (h : d.lookup (placeFor ws path) = some (.file (some r))) (hf : hasFirmExtension (placeFor ws path) = true) :
    readSourceFile d ws path = some r := by
  unfold readSourceFile
  rw [plain_absolute hp]
  dsimp only
  rw [h]
  dsimp only
  rw [if_pos hf]
  unfold FsTree.readText
  rw [h]

/-- The disk after a file has been written. -/
theorem write_disk {H : Host} (hws : ∀ n ∈ H.ws, ValidName n) {order : Workspace → Workspace} {s : Server}
    (hd : WellFormed s.disk) {path content : Str} {force : Bool}
    (h : (writeSource H order s path content force).2 ≠ .error) :
    WellFormed (writeSource H order s path content force).1.disk ∧
    LeafSet s.disk (writeSource H order s path content force).1.disk (placeFor H.ws path) (some (.file (some content))) ∧
    endsWith path ".firm".toList = true := by
  unfold writeSource at h ⊢
  cases hv : validateAndWrite H s.disk path content with
  | mk d o =>
    obtain ⟨h1, _, h3⟩ := validateAndWrite_spec hd hws hv
    rw [hv] at h
    cases o with
    | none => exact absurd rfl h
    | some original =>
      obtain ⟨k1, _, _, _, k5⟩ := h3 _ rfl
      dsimp only at h ⊢
      cases hr : rebuild H order d with
      | ok st => exact ⟨h1, k1, k5⟩
      | error e =>
        rw [hr] at h
        dsimp only at h ⊢
        cases force with
        | true => exact ⟨h1, k1, k5⟩
        | false => exact absurd rfl h

theorem delete_disk {H : Host} {order : Workspace → Workspace} {s : Server} (hd : WellFormed s.disk) {path : Str}
    {force : Bool} (h : (deleteSource H order s path force).2 ≠ .error) :
    WellFormed (deleteSource H order s path force).1.disk ∧
    LeafSet s.disk (deleteSource H order s path force).1.disk (placeFor H.ws path) none ∧
    endsWith path ".firm".toList = true ∧
    (deleteSource H order s path force).1.disk = s.disk.remove (placeFor H.ws path) ∧
    ∃ text, s.disk.lookup (placeFor H.ws path) = some (.file (some text)) := by
  unfold deleteSource at h ⊢
  cases hv : deleteExecute s.disk H.ws path with
  | none => rw [hv] at h; exact absurd rfl h
  | some r =>
    obtain ⟨d, original⟩ := r
    obtain ⟨h1, h2, h3, h4, h5, h6⟩ := deleteExecute_spec hd hv
    rw [hv] at h
    dsimp only at h ⊢
    cases hr : rebuild H order d with
    | ok st => exact ⟨h1, h2, h5, h6, _, h3⟩
    | error e =>
      rw [hr] at h
      dsimp only at h ⊢
      cases force with
      | true => exact ⟨h1, h2, h5, h6, _, h3⟩
      | false => exact absurd rfl h

/-! ## Building again -/

/-- The files of a server that serves them build again. -/
theorem rebuild_again {H : Host} (hws : ∀ n ∈ H.ws, ValidName n) {order : Workspace → Workspace}
    (ho : ∀ w, (order w).Perm w) {s : Server} (hd : WellFormed s.disk) (hs : Serves H s) (hr : Readable H.ws s.disk)
    {d : FsTree} (hd' : WellFormed d) (hl : ∀ l, leafAt d l = leafAt s.disk l)
    (hdir : ∃ es, Has d H.ws (.dir (some es))) : ∃ st, rebuild H order d = .ok st ∧ Restored H s ⟨d, st⟩ := by
  have hsame : SameFiles s.disk d := (sameFiles_iff hd hd').2 hl
  obtain ⟨st, hst⟩ : ∃ st, rebuild H order d = .ok st := by
    refine rebuild_ok hd' hws ho ⟨hdir, fun loc h => hr.2.1 loc ((hsame _ _ fun es h => by cases h).2 h),
      fun dirs n hn h => hr.2.2 dirs n hn ((hsame _ _ fun es h => by cases h).2 h)⟩ fun w hw => ?_
    have hw' : LoadsAs H.grammar H.ws s.disk w := loadsAs_of_leaves hd' hd (fun l text => by rw [hl]) hw
    have hp : s.state.workspace.Perm w := by
      refine (List.perm_ext_iff_of_nodup (.of_map _ hs.1.1) (.of_map _ hw'.1)).2 ?_
      rintro ⟨path, f⟩
      rw [hs.1.2, hw'.2]
    obtain ⟨b, h1, h2, _⟩ := C43_order _ _ _ hp _ hs.2.1
    exact ⟨b, h1, (h2.map _).nodup_iff.1 (toGraph_run hs.2.2).2.2.2⟩
  have hs' := rebuild_serves hd' hws ho hst
  exact ⟨st, hst, hsame, hs', C159_same H s ⟨d, st⟩ hs hs' fun l text =>
    and_congr_right fun _ => hsame _ _ fun es h => by cases h⟩

/-- Writing the old text of a file, when this file is the only difference. -/
theorem write_restores {H : Host} (hws : ∀ n ∈ H.ws, ValidName n) {order : Workspace → Workspace}
    (ho : ∀ w, (order w).Perm w) {s : Server} (hd : WellFormed s.disk) (hs : Serves H s) (hr : Readable H.ws s.disk)
    {path old : Str} (hp : DotlessPath path) (he : endsWith path ".firm".toList = true) (ha : H.accepts old = true)
    (hold : s.disk.lookup (placeFor H.ws path) = some (.file (some old)))
    {t : Server} (ht : WellFormed t.disk) {u : Option FsTree} (hl : LeafSet s.disk t.disk (placeFor H.ws path) u)
    (hwr : ∃ d, writeSourceFile t.disk H.ws path old = (d, true)) (force : Bool) :
    (writeSource H order t path old force).2 = .success ∧ Restored H s (writeSource H order t path old force).1 := by
  obtain ⟨d, hwr⟩ := hwr
  obtain ⟨hd', _, h3⟩ := writeSourceFile_spec ht hws hwr
  obtain ⟨k1, _⟩ := h3 rfl
  have hleaf : leafAt s.disk (placeFor H.ws path) = some (.file (some old)) :=
    leafAt_eq_some.2 ⟨hold, fun es h => by cases h⟩
  have hall : ∀ l, leafAt d l = leafAt s.disk l := by
    intro l
    rw [k1 l, hl l]
    by_cases hx : l = placeFor H.ws path
    · rw [if_pos hx, hx, hleaf]
    · rw [if_neg hx, if_neg hx]
  obtain ⟨dirs, n, hns⟩ := plain_firm hp he
  have hdir : ∃ es, Has d H.ws (.dir (some es)) := by
    have h := k1 (placeFor H.ws path)
    rw [if_pos rfl] at h
    have := (has_iff_lookup hd').2 (leafAt_eq_some.1 h).1
    rw [hns] at this
    exact has_parent this (by simp)
  obtain ⟨st, hst, hrest⟩ := rebuild_again hws ho hd hs hr hd' hall hdir
  have hv : validateAndWrite H t.disk path old = (d, some (t.disk.readText (t.disk.placeOf H.ws path))) := by
    unfold validateAndWrite
    rw [if_pos ha, hwr]
  unfold writeSource
  rw [hv]
  dsimp only
  rw [hst]
  exact ⟨rfl, hrest⟩

/-! ## C162 -/

/-- C162: a written file can be given its old text again; then everything is as it was. Missing for the full claim:
old texts that the syntax check refuses (`C162_refused`) and paths that are absolute or have two dots in a row. -/
theorem C162_write_partial (H : Host) (hws : ∀ n ∈ H.ws, ValidName n) (order order' : Workspace → Workspace)
    (ho : ∀ w, (order' w).Perm w) (s : Server) (hd : WellFormed s.disk) (hs : Serves H s) (hr : Readable H.ws s.disk)
    {path old new : Str} (hp : DotlessPath path) (ha : H.accepts old = true)
    (hold : readSourceFile s.disk H.ws path = some old) (force force' : Bool)
    (h : (writeSource H order s path new force).2 ≠ .error) :
    let t := (writeSource H order s path new force).1
    (writeSource H order' t path old force').2 = .success ∧ Restored H s (writeSource H order' t path old force').1 := by
  obtain ⟨h1, h2, h3⟩ := write_disk hws hd h
  have hnew := h2 (placeFor H.ws path)
  rw [if_pos rfl] at hnew
  exact write_restores hws ho hd hs hr hp h3 ha (read_lookup hold).1 h1 h2
    ⟨_, write_onto _ hp h3 (leafAt_eq_some.1 hnew).1⟩ force'

/-- C162: a deleted file can be written again; then everything is as it was. Missing for the full claim: old texts that
the syntax check refuses, and names with two dots in a row (`C162_dots`). -/
theorem C162_delete_partial (H : Host) (hws : ∀ n ∈ H.ws, ValidName n) (order order' : Workspace → Workspace)
    (ho : ∀ w, (order' w).Perm w) (s : Server) (hd : WellFormed s.disk) (hs : Serves H s) (hr : Readable H.ws s.disk)
    {path old : Str} (hp : DotlessPath path) (ha : H.accepts old = true)
    (hold : readSourceFile s.disk H.ws path = some old) (force force' : Bool)
    (h : (deleteSource H order s path force).2 ≠ .error) :
    let t := (deleteSource H order s path force).1
    (writeSource H order' t path old force').2 = .success ∧ Restored H s (writeSource H order' t path old force').1 := by
  intro t
  obtain ⟨h1, h2, h3, h4, _⟩ := delete_disk hd h
  obtain ⟨hl, _⟩ := read_lookup hold
  obtain ⟨p, n, hpn, _⟩ := firm_place (ws := H.ws) h3
  obtain ⟨es, hes, _⟩ := lookup_snoc_some (show s.disk.lookup (p ++ [n]) = _ by rw [← hpn]; exact hl)
  obtain ⟨es', k1, k2⟩ := lookup_remove_parent (n := n) hes
  have hgone : t.disk.lookup (placeFor H.ws path) = none ∧
      ∃ es, t.disk.lookup (placeFor H.ws path).dropLast = some (.dir (some es)) := by
    show FsTree.lookup _ (lexicalPlace _ _) = none ∧ ∃ es, FsTree.lookup _ (lexicalPlace _ _).dropLast = _
    rw [h4, placeFor, hpn, List.dropLast_concat]
    refine ⟨?_, es', k1⟩
    rw [lookup_append, k1]
    show FsTree.lookup (.dir (some es')) [n] = none
    rw [lookup_dir, k2]
    rfl
  obtain ⟨g1, _, g2⟩ := hgone
  exact write_restores hws ho hd hs hr hp h3 ha hl h1 h2 ⟨_, write_fresh _ hp h3 g1 g2⟩ force'

/-- Deleting a file, when this file is the only difference. -/
theorem delete_restores {H : Host} (hws : ∀ n ∈ H.ws, ValidName n) {order' : Workspace → Workspace}
    (ho : ∀ w, (order' w).Perm w) {s : Server} (hd : WellFormed s.disk) (hs : Serves H s) (hr : Readable H.ws s.disk)
    {path new : Str} (hp : DotlessPath path) (h3 : endsWith path ".firm".toList = true)
    (hno : ∀ u, NotDir u → ¬ Has s.disk (placeFor H.ws path) u) {t : Server} (h1 : WellFormed t.disk)
    (h2 : LeafSet s.disk t.disk (placeFor H.ws path) (some (.file (some new)))) (force' : Bool) :
    (deleteSource H order' t path force').2 = .success ∧ Restored H s (deleteSource H order' t path force').1 := by
  have hnew := h2 (placeFor H.ws path)
  rw [if_pos rfl] at hnew
  have hlook := (leafAt_eq_some.1 hnew).1
  have hdel : deleteExecute t.disk H.ws path = some (t.disk.remove (placeFor H.ws path), new) := by
    unfold deleteExecute
    rw [if_pos h3, plain_absolute hp]
    dsimp only
    unfold FsTree.readText FsTree.removeFile
    rw [hlook]
    rfl
  obtain ⟨k1, k2, _⟩ := deleteExecute_spec h1 hdel
  have hall : ∀ l, leafAt (t.disk.remove (placeFor H.ws path)) l = leafAt s.disk l := by
    intro l
    rw [k2 l]
    by_cases hx : l = placeFor H.ws path
    · rw [if_pos hx, hx]
      cases hy : leafAt s.disk (placeFor H.ws path) with
      | none => rfl
      | some u => exact absurd ((has_iff_lookup hd).2 (leafAt_eq_some.1 hy).1) (hno u (leafAt_eq_some.1 hy).2)
    · rw [if_neg hx, h2 l, if_neg hx]
  obtain ⟨dirs, n, hns⟩ := plain_firm hp h3
  have hdir : ∃ es, Has (t.disk.remove (placeFor H.ws path)) H.ws (.dir (some es)) := by
    rw [hns, ← List.append_assoc] at hlook ⊢
    obtain ⟨es, hes, _⟩ := lookup_snoc_some hlook
    obtain ⟨es', m1, _⟩ := lookup_remove_parent (n := n) hes
    have hwf : WellFormed (t.disk.remove (H.ws ++ dirs ++ [n])) := by
      rw [List.append_assoc, ← hns]; exact k1
    have key : ∀ {d : FsTree} {dirs : List Str} {es : List (Str × FsTree)}, Has d (H.ws ++ dirs) (.dir (some es)) →
        ∃ es, Has d H.ws (.dir (some es)) := by
      intro d dirs es hh
      cases dirs with
      | nil => rw [List.append_nil] at hh; exact ⟨_, hh⟩
      | cons x xs => exact has_parent hh (by simp)
    exact key ((has_iff_lookup hwf).2 m1)
  obtain ⟨st, hst, hrest⟩ := rebuild_again hws ho hd hs hr k1 hall hdir
  unfold deleteSource
  rw [hdel]
  dsimp only
  rw [hst]
  exact ⟨rfl, hrest⟩

/-- C162: a new file can be deleted; then everything is as it was. Missing for the full claim: files outside the
workspace, which can be created but not deleted (`C162_outside`). -/
theorem C162_new_partial (H : Host) (hws : ∀ n ∈ H.ws, ValidName n) (order order' : Workspace → Workspace)
    (ho : ∀ w, (order' w).Perm w) (s : Server) (hd : WellFormed s.disk) (hs : Serves H s) (hr : Readable H.ws s.disk)
    {path new : Str} (hp : DotlessPath path) (hno : ∀ u, ¬ Has s.disk (placeFor H.ws path) u) (force force' : Bool)
    (h : (writeSource H order s path new force).2 ≠ .error) :
    let t := (writeSource H order s path new force).1
    (deleteSource H order' t path force').2 = .success ∧ Restored H s (deleteSource H order' t path force').1 := by
  obtain ⟨h1, h2, h3⟩ := write_disk hws hd h
  exact delete_restores hws ho hd hs hr hp h3 (fun u _ => hno u) h1 h2 force'

/-- C162: an added entity can be taken away: by writing the old text of its file, or by deleting the file if it is new.
Missing for the full claim: as for `C162_write_partial` and `C162_new_partial`, and files that are not source files
(`C162_notes`). -/
theorem C162_add_partial (H : Host) (hws : ∀ n ∈ H.ws, ValidName n) (order order' : Workspace → Workspace)
    (ho : ∀ w, (order' w).Perm w) (s : Server) (hd : WellFormed s.disk) (hs : Serves H s) (hr : Readable H.ws s.disk)
    {p : AddParams} {path : Str} (hpath : p.toFile.getD (defaultTarget p.type) = path) (hp : DotlessPath path)
    (he : endsWith path ".firm".toList = true) (force : Bool) (h : (addEntityTool H order s p).2 ≠ .error) :
    let t := (addEntityTool H order s p).1
    (∀ old, readSourceFile s.disk H.ws path = some old → H.accepts old = true →
      (writeSource H order' t path old force).2 = .success ∧ Restored H s (writeSource H order' t path old force).1) ∧
    ((∀ u, ¬ Has s.disk (placeFor H.ws path) u) →
      (deleteSource H order' t path force).2 = .success ∧ Restored H s (deleteSource H order' t path force).1) := by
  intro t
  obtain ⟨new, h1, h2⟩ : ∃ new, WellFormed t.disk ∧
      LeafSet s.disk t.disk (placeFor H.ws path) (some (.file (some new))) := by
    have hdisk : t.disk = (addExecute H s p).1 := by
      show (addEntityTool H order s p).1.disk = _
      unfold addEntityTool
      split
      · next heq => rw [heq]
      · next heq => rw [heq]; dsimp only; split <;> rfl
    have hok : (addExecute H s p).2 = true := by
      unfold addEntityTool at h
      split at h
      · exact absurd rfl h
      · next heq => rw [heq]
    cases hx : addExecute H s p with
    | mk d ok =>
      rw [hx] at hdisk hok
      dsimp only at hdisk hok
      subst hok
      unfold addExecute at hx
      cases he : entityToAdd H s.state p with
      | none => rw [he] at hx; cases hx
      | some e =>
        rw [he] at hx
        obtain ⟨a1, _, a3⟩ := appendDsl_spec hd (placeOf_valid hws _) hx
        obtain ⟨old, b1, _⟩ := a3 rfl
        rw [placeOf_eq, hpath] at b1
        rw [hdisk]
        exact ⟨_, a1, b1⟩
  have hnew := h2 (placeFor H.ws path)
  rw [if_pos rfl] at hnew
  exact ⟨fun old hold ha => write_restores hws ho hd hs hr hp he ha (read_lookup hold).1 h1 h2
      ⟨_, write_onto _ hp he (leafAt_eq_some.1 hnew).1⟩ force,
    fun hno => delete_restores hws ho hd hs hr hp he (fun u _ => hno u) h1 h2 force⟩

/-- C162: a replacement can be undone by the opposite replacement, if the new text stands at one position only. Missing
for the full claim: other texts, where the opposite replacement is refused (`C162_twice`) or made at another position
(`C162_overlap`). -/
theorem C162_replace_partial (H : Host) (hws : ∀ n ∈ H.ws, ValidName n) (order order' : Workspace → Workspace)
    (ho : ∀ w, (order' w).Perm w) (s : Server) (hd : WellFormed s.disk) (hs : Serves H s) (hr : Readable H.ws s.disk)
    {path old a b : Str} (hp : DotlessPath path) (ha : H.accepts old = true)
    (hold : readSourceFile s.disk H.ws path = some old) (force force' : Bool) (hb : b ≠ [])
    (h : (replaceSource H order s path a b false force).2 ≠ .error)
    (hone : ∀ r, readSourceFile (replaceSource H order s path a b false force).1.disk H.ws path = some r → OnceIn b r) :
    let t := (replaceSource H order s path a b false force).1
    (replaceSource H order' t path b a false force').2 = .success ∧
      Restored H s (replaceSource H order' t path b a false force').1 := by
  have hne : a ≠ [] := by
    rintro rfl
    unfold replaceSource replaceExecute at h
    rw [if_pos rfl] at h
    exact h rfl
  have hx : replaceExecute s.disk H.ws path a b false = replaceText old a b false := by
    unfold replaceExecute
    rw [if_neg hne, hold]
  cases hrt : replaceText old a b false with
  | none =>
    unfold replaceSource at h
    rw [hx, hrt] at h
    exact absurd rfl h
  | some rk =>
    obtain ⟨r, k⟩ := rk
    obtain ⟨rfl, x, y, hxo, hxr⟩ := C60_one _ _ _ _ _ hrt
    have heq : replaceSource H order s path a b false force = writeSource H order s path r force := by
      unfold replaceSource writeSource
      rw [hx, hrt]
    rw [heq] at h hone ⊢
    intro t
    obtain ⟨h1, h2, h3⟩ := write_disk hws hd h
    have hnew := h2 (placeFor H.ws path)
    rw [if_pos rfl] at hnew
    have hlook := (leafAt_eq_some.1 hnew).1
    obtain ⟨hl, hf⟩ := read_lookup hold
    have hread : readSourceFile t.disk H.ws path = some r := lookup_read hp hlook hf
    have hon := hone r hread
    have hback : replaceText r b a false = some (old, 1) := by
      have hacc : replaceText r b a false ≠ none := by
        refine (C60_accepts r b a false).2 ⟨hb, ⟨x, y, hxr⟩, .inr ?_⟩
        rintro ⟨p, q, w, hpq⟩
        have := hon p (q ++ b ++ w) (p ++ b ++ q) w (by rw [hpq]; simp) hpq
        have hlen := congrArg List.length this
        have : 0 < b.length := List.length_pos_of_ne_nil hb
        simp only [List.length_append] at hlen
        omega
      obtain ⟨⟨r', k'⟩, hr'⟩ := Option.ne_none_iff_exists'.1 hacc
      obtain ⟨rfl, x', y', e1, e2⟩ := C60_one _ _ _ _ _ hr'
      have hxx := hon _ _ _ _ hxr e1
      subst hxx
      have hyy : y = y' := by
        rw [hxr, List.append_assoc, List.append_assoc] at e1
        exact List.append_cancel_left (List.append_cancel_left e1)
      subst hyy
      rw [hr', e2, ← hxo]
    have heq2 : replaceSource H order' t path b a false force' = writeSource H order' t path old force' := by
      unfold replaceSource writeSource replaceExecute
      rw [if_neg hb, hread]
      dsimp only
      rw [hback]
    rw [heq2]
    exact write_restores hws ho hd hs hr hp h3 ha hl h1 h2 ⟨_, write_onto _ hp h3 hlook⟩ force'

/-! ## What cannot be undone -/

/-- A grammar without blocks; the syntax check refuses one text. -/
def exUndoHost : Host where
  lang := exLang
  grammar text := .mk "source_file".toList text []
  accepts text := decide (text ≠ "bad".toList)
  parseRfc3339 _ := none
  ws := ["w".toList]

/-- A workspace with one file. -/
def exUndoDisk (name text : String) : FsTree :=
  .dir (some [("w".toList, .dir (some [(name.toList, .file (some text.toList))]))])

def exUndoServer (name text : String) : Server :=
  ⟨exUndoDisk name text, ⟨[("/w/".toList ++ name.toList, ⟨.mk "source_file".toList text.toList [], name.toList⟩)],
    ⟨[], []⟩, (WorkspaceBuild.mk [] []).toGraph.1⟩⟩

theorem exUndo_ok (name text : String) (hn : ValidName name.toList) (hf : FirmName name.toList) :
    WellFormed (exUndoDisk name text) ∧ Readable ["w".toList] (exUndoDisk name text) ∧
      Serves exUndoHost (exUndoServer name text) := by
  have hw : ValidName "w".toList := ⟨by decide, by decide, by decide, by decide⟩
  have hwf : WellFormed (exUndoDisk name text) := by
    refine .dir (by simp) (fun p hp => ?_) fun p hp => ?_
    · rw [List.mem_singleton.1 hp]; exact hw
    · rw [List.mem_singleton.1 hp]
      refine .dir (by simp) (fun q hq => ?_) fun q hq => ?_
      · rw [List.mem_singleton.1 hq]; exact hn
      · rw [List.mem_singleton.1 hq]; exact .file _
  have hhas : ∀ loc u, Has (exUndoDisk name text) ("w".toList :: loc) u ↔
      (loc = [] ∧ u = .dir (some [(name.toList, .file (some text.toList))])) ∨
        loc = [name.toList] ∧ u = .file (some text.toList) := by
    intro loc u
    constructor
    · intro h
      cases h with
      | inside h1 h2 =>
        cases List.mem_singleton.1 h1
        cases h2 with
        | here => exact .inl ⟨rfl, rfl⟩
        | inside h3 h4 =>
          cases List.mem_singleton.1 h3
          cases h4
          exact .inr ⟨rfl, rfl⟩
    · rintro (⟨rfl, rfl⟩ | ⟨rfl, rfl⟩)
      · exact .inside (List.mem_singleton.2 rfl) (.here _)
      · exact .inside (List.mem_singleton.2 rfl) (.inside (List.mem_singleton.2 rfl) (.here _))
  refine ⟨hwf, ⟨⟨_, (hhas [] _).2 (.inl ⟨rfl, rfl⟩)⟩, fun loc h => ?_, fun dirs n _ h => ?_⟩, ⟨by simp [exUndoServer], ?_⟩, rfl, rfl⟩
  · rcases (hhas loc _).1 h with ⟨_, h⟩ | ⟨_, h⟩ <;> cases h
  · rcases (hhas _ _).1 h with ⟨_, h⟩ | ⟨_, h⟩ <;> cases h
  · intro path f
    constructor
    · intro h
      cases List.mem_singleton.1 h
      exact ⟨[name.toList], text.toList, ⟨⟨[], name.toList, rfl, hf⟩, (hhas _ _).2 (.inr ⟨rfl, rfl⟩)⟩, rfl, rfl⟩
    · rintro ⟨loc, t, ⟨_, h⟩, rfl, rfl⟩
      rcases (hhas _ _).1 h with ⟨_, h⟩ | ⟨rfl, h'⟩
      · cases h
      · have ht : t = text.toList := by injection h' with h1; injection h1
        subst ht
        exact List.mem_singleton.2 rfl

theorem exUndo_a : ValidName "a.firm".toList ∧ FirmName "a.firm".toList :=
  ⟨⟨by decide, by decide, by decide, by decide⟩, "a".toList, by decide, rfl⟩

/-- C162 is false for texts that the syntax check refuses: the server serves such a file, and takes another text for it,
but not the old one again, not even with `force`. -/
theorem C162_refused : let s := exUndoServer "a.firm" "bad"
    Serves exUndoHost s ∧ (writeSource exUndoHost id s "a.firm".toList "good".toList false).2 = .success ∧
    ∀ force, (writeSource exUndoHost id (writeSource exUndoHost id s "a.firm".toList "good".toList false).1
      "a.firm".toList "bad".toList force).2 = .error := by
  refine ⟨(exUndo_ok _ _ exUndo_a.1 exUndo_a.2).2.2, by decide +kernel, by decide +kernel⟩

/-- C162 is false for names with two dots in a row: such a file can be deleted, but no text can be written to it
afterwards. -/
theorem C162_dots : let s := exUndoServer "a..b.firm" "old"
    Serves exUndoHost s ∧ (deleteSource exUndoHost id s "a..b.firm".toList false).2 = .success ∧
    ∀ text force, (writeSource exUndoHost id (deleteSource exUndoHost id s "a..b.firm".toList false).1
      "a..b.firm".toList text force).2 = .error := by
  refine ⟨(exUndo_ok _ _ ⟨by decide, by decide, by decide, by decide⟩ ⟨"a..b".toList, by decide, rfl⟩).2.2,
    by decide +kernel, fun text force => ?_⟩
  have h : toAbsolutePath (deleteSource exUndoHost id (exUndoServer "a..b.firm" "old") "a..b.firm".toList false).1.disk
      exUndoHost.ws "a..b.firm".toList = none := by decide +kernel
  have hw : ∀ d, toAbsolutePath d exUndoHost.ws "a..b.firm".toList = none →
      writeSourceFile d exUndoHost.ws "a..b.firm".toList text = (d, false) := by
    intro d hd
    unfold writeSourceFile
    rw [if_pos (by decide +kernel), hd]
  unfold writeSource validateAndWrite
  rw [hw _ h]
  cases exUndoHost.accepts text <;> rfl

/-- C162 is false outside the workspace: a file can be created there by its absolute path, but not deleted. -/
theorem C162_outside : let s := exUndoServer "a.firm" "old"
    Serves exUndoHost s ∧ (∀ u, ¬ Has s.disk (placeFor exUndoHost.ws "/x.firm".toList) u) ∧
    (writeSource exUndoHost id s "/x.firm".toList "new".toList false).2 = .success ∧
    ∀ force, (deleteSource exUndoHost id (writeSource exUndoHost id s "/x.firm".toList "new".toList false).1
      "/x.firm".toList force).2 = .error := by
  refine ⟨(exUndo_ok _ _ exUndo_a.1 exUndo_a.2).2.2, fun u h => ?_, by decide +kernel, by decide +kernel⟩
  rw [show placeFor exUndoHost.ws "/x.firm".toList = ["x.firm".toList] from by decide +kernel] at h
  cases h with
  | inside h1 _ =>
    have h2 : "x.firm".toList = "w".toList := congrArg Prod.fst (List.mem_singleton.1 h1)
    exact absurd h2 (by decide)

/-- C162 is false for replacements whose new text was there already: the opposite replacement is refused. -/
theorem C162_twice : let s := exUndoServer "a.firm" "x y"
    Serves exUndoHost s ∧ (replaceSource exUndoHost id s "a.firm".toList "x".toList "y".toList false false).2 = .success ∧
    ∀ force, (replaceSource exUndoHost id
      (replaceSource exUndoHost id s "a.firm".toList "x".toList "y".toList false false).1
      "a.firm".toList "y".toList "x".toList false force).2 = .error := by
  refine ⟨(exUndo_ok _ _ exUndo_a.1 exUndo_a.2).2.2, by decide +kernel, by decide +kernel⟩

/-- C162 is false for replacements whose new text overlaps with the text before it: the opposite replacement succeeds
and leaves another text. -/
theorem C162_overlap : let s := exUndoServer "a.firm" "ax"
    let t := (replaceSource exUndoHost id s "a.firm".toList "x".toList "aa".toList false false)
    let r := (replaceSource exUndoHost id t.1 "a.firm".toList "aa".toList "x".toList false false)
    Serves exUndoHost s ∧ t.2 = .success ∧ r.2 = .success ∧
    readSourceFile r.1.disk exUndoHost.ws "a.firm".toList = some "xa".toList := by
  refine ⟨(exUndo_ok _ _ exUndo_a.1 exUndo_a.2).2.2, by decide +kernel, by decide +kernel, by decide +kernel⟩

/-- C162 is false for entities added to a file that is not a source file: this file can neither be written nor
deleted. -/
theorem C162_notes : let p : AddParams :=
      ⟨"person".toList, "carol".toList, [("name".toList, .string "Carol".toList)], some "notes.txt".toList, []⟩
    let t := addEntityTool exHost id exServer p
    Serves exHost exServer ∧ (∀ u, ¬ Has exServer.disk (placeFor exHost.ws "notes.txt".toList) u) ∧ t.2 = .success ∧
    t.1.disk.readText ["w".toList, "notes.txt".toList] = some "person carol {\n    name = \"Carol\"\n}\n".toList ∧
    ∀ force, (deleteSource exHost id t.1 "notes.txt".toList force).2 = .error ∧
      ∀ text, (writeSource exHost id t.1 "notes.txt".toList text force).2 = .error := by
  refine ⟨exServer_serves, fun u h => ?_, by decide +kernel, by decide +kernel, fun force => ⟨?_, fun text => ?_⟩⟩
  · have : exServer.disk.lookup _ = some u := (has_iff_lookup exDisk_wf).1 h
    rw [show exServer.disk.lookup (placeFor exHost.ws "notes.txt".toList) = none from ?_] at this
    · cases this
    · have h0 : (exServer.disk.lookup (placeFor exHost.ws "notes.txt".toList)).isNone = true := by decide +kernel
      exact Option.isNone_iff_eq_none.1 h0
  · unfold deleteSource deleteExecute
    rw [if_neg (show ¬ endsWith "notes.txt".toList ".firm".toList = true by decide +kernel)]
  · unfold writeSource validateAndWrite writeSourceFile
    rw [if_neg (show ¬ endsWith "notes.txt".toList ".firm".toList = true by decide +kernel)]
    cases exHost.accepts text <;> rfl

/-- Not vacuous: an entity is added to a file that is there and to a new one. -/
example : let p (file : String) : AddParams :=
      ⟨"person".toList, "carol".toList, [("name".toList, .string "Carol".toList)], some file.toList, []⟩
    (addEntityTool exHost id exServer (p "b.firm")).2 ≠ .error ∧ (addEntityTool exHost id exServer (p "c.firm")).2 ≠ .error ∧
    (readSourceFile exServer.disk exHost.ws "b.firm".toList).isSome = true ∧
    exServer.disk.readText (placeFor exHost.ws "c.firm".toList) = none := by decide +kernel

/-- Not vacuous: a file is written, deleted, created and has a text replaced that then stands there once. -/
example : let s := exUndoServer "a.firm" "x z"
    Serves exUndoHost s ∧ Readable exUndoHost.ws s.disk ∧ WellFormed s.disk ∧ DotlessPath "a.firm".toList ∧
    DotlessPath "b/c.firm".toList ∧ readSourceFile s.disk exUndoHost.ws "a.firm".toList = some "x z".toList ∧
    exUndoHost.accepts "x z".toList = true ∧
    (writeSource exUndoHost id s "a.firm".toList "new".toList false).2 ≠ .error ∧
    (deleteSource exUndoHost id s "a.firm".toList false).2 ≠ .error ∧
    (writeSource exUndoHost id s "b/c.firm".toList "new".toList false).2 ≠ .error ∧
    (replaceSource exUndoHost id s "a.firm".toList "x".toList "y".toList false false).2 ≠ .error ∧
    OnceIn "y".toList "y z".toList := by
  obtain ⟨h1, h2, h3⟩ := exUndo_ok "a.firm" "x z" exUndo_a.1 exUndo_a.2
  refine ⟨h3, h2, h1, ⟨by decide, fun h => ?_⟩, ⟨by decide, fun h => ?_⟩, by decide +kernel, by decide +kernel, by decide +kernel,
    by decide +kernel, by decide +kernel, by decide +kernel, fun x y x' y' e1 e2 => ?_⟩
  · exact absurd ((strContains_iff _ _).2 h) (by decide)
  · exact absurd ((strContains_iff _ _).2 h) (by decide)
  · have key : ∀ x y : Str, "y z".toList = x ++ "y".toList ++ y → x = [] := by
      intro x y h
      cases x with
      | nil => rfl
      | cons c x =>
        have h0 : ['y', ' ', 'z'] = c :: x ++ ['y'] ++ y := h
        rw [List.append_assoc, List.cons_append] at h0
        have h' := (List.cons.inj h0).2
        have hm : 'y' ∈ [' ', 'z'] := by rw [h']; simp
        exact absurd hm (by decide)
    rw [key _ _ e1, key _ _ e2]

end Firm
