import Verif.Props.Evolved
import Verif.Props.Serial
import Verif.Props.Undone

/-!
# Which changes of files are accepted (C167)

`write_source`, `delete_source` and `replace_source` succeed exactly when the text has no syntax errors, the place can be
written and the source files afterwards make a valid workspace. This is said without the steps of the server: which files
there are afterwards, and what a valid workspace is.
-/

namespace Firm
open Spec

/-! ## Specification -/

/-- A place with the name of a source file. -/
def Spec.SourceName (loc : List Str) : Prop := ∃ dirs n, loc = dirs ++ [n] ∧ FirmName n

/-- The source files `F` after one was written: `F loc text` says that the one at `loc` has this text. -/
def Spec.withFile (F : List Str → Str → Prop) (loc : List Str) (content : Str) : List Str → Str → Prop :=
  fun l t => (l ≠ loc ∧ F l t) ∨ (l = loc ∧ t = content ∧ SourceName loc)

/-- The source files after one was deleted. -/
def Spec.withoutFile (F : List Str → Str → Prop) (loc : List Str) : List Str → Str → Prop :=
  fun l t => l ≠ loc ∧ F l t

/-- The source files make a valid workspace: every block is converted, no type has two schemas, every entity conforms to
the schema of its type, and no two entities have the same id. -/
def Spec.ValidSources (H : Host) (F : List Str → Str → Prop) : Prop :=
  ∃ (w : Workspace) (ss : List EntitySchema) (es : List Entity), (w.map (·.1)).Nodup ∧
    (∀ path f, (path, f) ∈ w ↔ ∃ loc text, F loc text ∧
      path = '/' :: joinWith ['/'] (H.ws ++ loc) ∧ f = ⟨H.grammar text, joinWith ['/'] loc⟩) ∧
    ValidWorkspace H.lang w ss es ∧ (es.map (·.id)).Nodup

/-- A file can be written there: only directories are on the way, and the place is free or a file. -/
def Spec.CanWrite (d : FsTree) (place : List Str) : Prop :=
  (∀ l u, l <+: place → l ≠ place → Has d l u → ∃ es, u = .dir (some es)) ∧ ∀ u, Has d place u → ∃ t, u = .file t

/-- Nothing but what is at `loc` stops the workspace from being read. -/
def Spec.RestReadable (ws : List Str) (d : FsTree) (loc : List Str) : Prop :=
  (∀ l, ¬ Has d (ws ++ l) (.dir none)) ∧
  ∀ dirs n, FirmName n → dirs ++ [n] ≠ loc → ¬ Has d (ws ++ (dirs ++ [n])) (.file none)

/-! ## Building -/

theorem validSources_disk {H : Host} {d : FsTree} :
    ValidSources H (FirmFile d H.ws) ↔
      ∃ w b, LoadsAs H.grammar H.ws d w ∧ w.build H.lang = .ok b ∧ (b.entities.map (·.id)).Nodup := by
  constructor
  · rintro ⟨w, ss, es, h1, h2, h3, h4⟩
    exact ⟨w, ⟨es, ss⟩, ⟨h1, h2⟩, (C41_build _ _ _ _).2 h3, h4⟩
  · rintro ⟨w, b, h1, h2, h3⟩
    exact ⟨w, b.schemas, b.entities, h1.1, h1.2, (C41_build _ _ _ _).1 h2, h3⟩

/-- When the files of a disk build. -/
theorem rebuild_iff {H : Host} (hws : ∀ n ∈ H.ws, ValidName n) {order : Workspace → Workspace}
    (ho : ∀ w, (order w).Perm w) {d : FsTree} (hd : WellFormed d) :
    (∃ st, rebuild H order d = .ok st) ↔ Readable H.ws d ∧ ValidSources H (FirmFile d H.ws) := by
  constructor
  · rintro ⟨st, h⟩
    have hs := rebuild_serves hd hws ho h
    refine ⟨?_, validSources_disk.2 ⟨_, _, hs.1, hs.2.1, (toGraph_run hs.2.2).2.2.2⟩⟩
    unfold rebuild at h
    cases ht : d.lookup H.ws with
    | none => rw [ht] at h; cases h
    | some t =>
      obtain ⟨w, r, h1, h2, -⟩ := loadDirectory_spec (grammar := H.grammar) hd hws ht
      rw [ht] at h
      dsimp only at h
      rw [h1] at h
      cases r with
      | ok u => exact h2.1 rfl
      | error e => cases h
  · rintro ⟨hr, hv⟩
    obtain ⟨w, b, h1, h2, h3⟩ := validSources_disk.1 hv
    refine rebuild_ok hd hws ho hr fun w' hw' => ?_
    have hp : w.Perm w' := by
      refine (List.perm_ext_iff_of_nodup (.of_map _ h1.1) (.of_map _ hw'.1)).2 ?_
      rintro ⟨path, f⟩
      rw [h1.2, hw'.2]
    obtain ⟨b', k1, k2, -⟩ := C43_order _ _ _ hp _ h2
    exact ⟨b', k1, (k2.map _).nodup_iff.1 h3⟩

/-- C167: `build` succeeds exactly when the files can be read and make a valid workspace. -/
theorem C167_build (H : Host) (hws : ∀ n ∈ H.ws, ValidName n) (order : Workspace → Workspace)
    (ho : ∀ w, (order w).Perm w) (s : Server) (hd : WellFormed s.disk) :
    (buildTool H order s).2 = .success ↔ Readable H.ws s.disk ∧ ValidSources H (FirmFile s.disk H.ws) := by
  rw [← rebuild_iff hws ho hd]
  unfold buildTool
  cases rebuild H order s.disk with
  | ok st => simp
  | error e => simp

/-! ## Writing -/

theorem hasLeaf_iff {d : FsTree} (hd : WellFormed d) {l : List Str} {u : FsTree} (hu : NotDir u) :
    Has d l u ↔ leafAt d l = some u := by
  rw [has_iff_lookup hd, leafAt_eq_some]
  exact (and_iff_left hu).symm

theorem canWrite_iff {d : FsTree} (hd : WellFormed d) {p : List Str} {n content : Str} :
    (∃ d1 d2, d.createDirAll p = some d1 ∧ d1.writeFile (p ++ [n]) content = some d2) ↔ CanWrite d (p ++ [n]) := by
  have hnp : ¬ (p ++ [n]) <+: p := fun hp => by
    have := hp.length_le
    rw [List.length_append] at this
    simp at this
  have hpre : ∀ l, l <+: p ++ [n] → l ≠ p ++ [n] → l <+: p := fun l hl hne =>
    (List.prefix_concat_iff.1 hl).resolve_left hne
  have hleaf : ∀ {l u}, d.lookup l = some u → (leafAt d l = none ↔ ∃ es, u = .dir (some es)) := by
    intro l u hl
    unfold leafAt
    rw [hl]
    show leafOf u = none ↔ _
    cases u with
    | dir e => cases e <;> simp [leafOf]
    | _ => simp [leafOf]
  constructor
  · rintro ⟨d1, d2, h1, h2⟩
    obtain ⟨⟨es, k1⟩, k2, k3⟩ := writeFile_isSome.1 ⟨d2, h2⟩
    have hopen := createDirAll_open.1 ⟨d1, es, h1, k1⟩
    refine ⟨fun l u hl hne hu => ?_, fun u hu => ?_⟩
    · exact (hleaf ((has_iff_lookup hd).1 hu)).1 (hopen l (hpre l hl hne))
    · have hu' := (has_iff_lookup hd).1 hu
      rw [leafAt_createDirAll h1] at k3
      rcases k3 with k3 | ⟨t, k3⟩
      · obtain ⟨gs, rfl⟩ := (hleaf hu').1 k3
        exact absurd ((createDirAll_steady h1).2 _ gs hu') k2
      · rw [(leafAt_eq_some.1 k3).1] at hu'
        cases hu'
        exact ⟨t, rfl⟩
  · rintro ⟨h1, h2⟩
    obtain ⟨d1, es, k1, k2⟩ := (createDirAll_open (d := d) (p := p)).2 fun l hl => by
      cases hlk : d.lookup l with
      | none => unfold leafAt; rw [hlk]; rfl
      | some u =>
        refine (hleaf hlk).2 (h1 l u (hl.trans (List.prefix_append _ _)) (fun he => hnp (he ▸ hl)) ((has_iff_lookup hd).2 hlk))
    have hx : (leafAt d (p ++ [n]) = none ∨ ∃ t, leafAt d (p ++ [n]) = some (.file t)) ∧ ¬ DirAt d1 (p ++ [n]) := by
      cases hlk : d.lookup (p ++ [n]) with
      | none =>
        refine ⟨.inl (by unfold leafAt; rw [hlk]; rfl), fun ⟨gs, hgs⟩ => ?_⟩
        rw [(createDirAll_steady k1).1 _ hnp hlk] at hgs
        cases hgs
      | some u =>
        obtain ⟨t, rfl⟩ := h2 u ((has_iff_lookup hd).2 hlk)
        have hl : leafAt d (p ++ [n]) = some (.file t) := leafAt_eq_some.2 ⟨hlk, fun es h => by cases h⟩
        refine ⟨.inr ⟨t, hl⟩, fun ⟨gs, hgs⟩ => ?_⟩
        rw [← leafAt_createDirAll k1] at hl
        rw [(leafAt_eq_some.1 hl).1] at hgs
        cases hgs
    obtain ⟨d2, k3⟩ := (writeFile_isSome (text := content)).2 ⟨⟨es, k2⟩, hx.2, by rw [leafAt_createDirAll k1]; exact hx.1⟩
    exact ⟨d1, d2, k1, k3⟩

theorem writes_iff {H : Host} {d : FsTree} (hd : WellFormed d) {path content : Str} (hp : PlainPath H path) :
    (∃ d', writeSourceFile d H.ws path content = (d', true)) ↔
      endsWith path ".firm".toList = true ∧ CanWrite d (placeFor H.ws path) := by
  unfold writeSourceFile
  by_cases he : endsWith path ".firm".toList = true
  · obtain ⟨p, n, hpn, _⟩ := firm_place (ws := H.ws) he
    have hpn : placeFor H.ws path = p ++ [n] := hpn
    rw [if_pos he, abs_plain hp, hpn, ← canWrite_iff hd (content := content)]
    dsimp only
    rw [List.dropLast_concat]
    simp only [he, true_and]
    cases h1 : d.createDirAll p with
    | none => simp
    | some d1 =>
      dsimp only
      cases h2 : d1.writeFile (p ++ [n]) content with
      | none => simp [h2]
      | some d2 => simp [h2]
  · rw [if_neg he]
    exact ⟨(fun ⟨d', h⟩ => by cases h), fun h => absurd h.1 he⟩

/-- The source files after a change at one place. -/
theorem firmFile_set {ws : List Str} {d d' : FsTree} (hd : WellFormed d) (hd' : WellFormed d') {loc : List Str}
    {content : Str} (h : LeafSet d d' (ws ++ loc) (some (.file (some content)))) :
    FirmFile d' ws = withFile (FirmFile d ws) loc content := by
  have hnd : ∀ t, NotDir (.file (some t)) := fun t es h => by cases h
  funext l t
  refine propext ?_
  unfold withFile
  by_cases hl : l = loc
  · subst hl
    unfold FirmFile
    rw [hasLeaf_iff hd' (hnd t), h, if_pos rfl]
    constructor
    · rintro ⟨h1, h2⟩
      cases h2
      exact .inr ⟨rfl, rfl, h1⟩
    · rintro (⟨h1, -⟩ | ⟨-, rfl, h1⟩)
      · exact absurd rfl h1
      · exact ⟨h1, rfl⟩
  · rw [← leafSet_files hd hd' h l t (by simpa using hl)]
    exact ⟨fun h => .inl ⟨hl, h⟩, fun h => h.elim (·.2) fun h => absurd h.1 hl⟩

theorem firmFile_removed {ws : List Str} {d d' : FsTree} (hd : WellFormed d) (hd' : WellFormed d') {loc : List Str}
    (h : LeafSet d d' (ws ++ loc) none) : FirmFile d' ws = withoutFile (FirmFile d ws) loc := by
  have hnd : ∀ t, NotDir (.file (some t)) := fun t es h => by cases h
  funext l t
  refine propext ?_
  unfold withoutFile
  by_cases hl : l = loc
  · subst hl
    unfold FirmFile
    rw [hasLeaf_iff hd' (hnd t), h, if_pos rfl]
    exact ⟨fun h => absurd h.2 (by simp), fun h => absurd rfl h.1⟩
  · rw [← leafSet_files hd hd' h l t (by simpa using hl)]
    exact ⟨fun h => ⟨hl, h⟩, fun h => h.2⟩

/-- What is readable after a change at one place. -/
theorem readable_set {ws : List Str} {d d' : FsTree} (hd : WellFormed d) (hd' : WellFormed d') {loc : List Str}
    {u : Option FsTree} (hu : u = none ∨ ∃ t, u = some (.file (some t))) (h : LeafSet d d' (ws ++ loc) u)
    (hnd : ¬ Has d (ws ++ loc) (.dir none)) (hdir : ∃ es, Has d' ws (.dir (some es))) :
    Readable ws d' ↔ RestReadable ws d loc := by
  have n1 : NotDir (.dir none) := fun es h => by cases h
  have n2 : NotDir (.file none) := fun es h => by cases h
  unfold Readable RestReadable
  simp only [hasLeaf_iff hd n1, hasLeaf_iff hd n2, hasLeaf_iff hd' n1, hasLeaf_iff hd' n2] at hnd ⊢
  simp only [h _, hdir, true_and]
  constructor
  · rintro ⟨h1, h2⟩
    refine ⟨fun l hl => ?_, fun dirs n hn hne hl => ?_⟩
    · by_cases he : l = loc
      · exact hnd (he ▸ hl)
      · exact h1 l (by rw [if_neg (by simpa using he)]; exact hl)
    · exact h2 dirs n hn (by rw [if_neg (by simpa using hne)]; exact hl)
  · rintro ⟨h1, h2⟩
    refine ⟨fun l hl => ?_, fun dirs n hn hl => ?_⟩
    · split at hl
      · rcases hu with rfl | ⟨t, rfl⟩ <;> cases hl
      · exact h1 l hl
    · split at hl
      · rcases hu with rfl | ⟨t, rfl⟩ <;> cases hl
      · next hne => exact h2 dirs n hn (by simpa using hne) hl

/-- C167: `write_source` succeeds exactly when the path ends in `.firm`, the text has no syntax errors, the place can be
written, all other source files are readable texts, and the source files with the new text make a valid workspace. -/
theorem C167_write (H : Host) (hws : ∀ n ∈ H.ws, ValidName n) (order : Workspace → Workspace)
    (ho : ∀ w, (order w).Perm w) (s : Server) (hd : WellFormed s.disk) {path : Str} (hp : PlainPath H path)
    {loc : List Str} (hl : lexicalPlace H.ws (pathComponents path) = H.ws ++ loc) (hne : loc ≠ []) (content : Str)
    (force : Bool) :
    (writeSource H order s path content force).2 = .success ↔
      endsWith path ".firm".toList = true ∧ H.accepts content = true ∧ CanWrite s.disk (H.ws ++ loc) ∧
      RestReadable H.ws s.disk loc ∧ ValidSources H (withFile (FirmFile s.disk H.ws) loc content) := by
  have hl' : placeFor H.ws path = H.ws ++ loc := hl
  by_cases ha : H.accepts content = true
  swap
  · have hv : validateAndWrite H s.disk path content = (s.disk, none) := by unfold validateAndWrite; rw [if_neg ha]
    unfold writeSource
    rw [hv]
    simp [ha]
  by_cases hw : ∃ d', writeSourceFile s.disk H.ws path content = (d', true)
  swap
  · have hno := hw
    rw [writes_iff hd hp, hl'] at hno
    have : ∃ d', validateAndWrite H s.disk path content = (d', none) := by
      unfold validateAndWrite
      rw [if_pos ha]
      cases hx : writeSourceFile s.disk H.ws path content with
      | mk d' b =>
        cases b with
        | true => exact absurd ⟨d', hx⟩ hw
        | false => exact ⟨d', rfl⟩
    obtain ⟨d', hv⟩ := this
    unfold writeSource
    rw [hv]
    exact ⟨(fun h => by cases h), fun h => absurd ⟨h.1, h.2.2.1⟩ hno⟩
  obtain ⟨hfirm, hcan⟩ := (writes_iff hd hp).1 hw
  obtain ⟨d', hw⟩ := hw
  obtain ⟨hd', _, h3⟩ := writeSourceFile_spec hd hws hw
  obtain ⟨k1, _⟩ := h3 rfl
  rw [hl'] at k1 hcan
  have hv : validateAndWrite H s.disk path content = (d', some (s.disk.readText (s.disk.placeOf H.ws path))) := by
    unfold validateAndWrite
    rw [if_pos ha, hw]
  have hhas : Has d' (H.ws ++ loc) (.file (some content)) :=
    (hasLeaf_iff hd' fun es h => by cases h).2 (by rw [k1, if_pos rfl])
  have key : (writeSource H order s path content force).2 = .success ↔ ∃ st, rebuild H order d' = .ok st := by
    unfold writeSource
    rw [hv]
    dsimp only
    cases rebuild H order d' with
    | ok st => simp
    | error e => cases force <;> simp
  rw [key, rebuild_iff hws ho hd', firmFile_set hd hd' k1,
    readable_set hd hd' (.inr ⟨_, rfl⟩) k1 (fun h => by obtain ⟨t, ht⟩ := hcan.2 _ h; cases ht) (has_parent hhas hne)]
  exact ⟨fun h => ⟨hfirm, ha, hcan, h⟩, fun h => h.2.2.2⟩

/-- C167: `delete_source` succeeds exactly when the path ends in `.firm`, a text is there, all other source files are
readable texts, and the source files without this one make a valid workspace. -/
theorem C167_delete (H : Host) (hws : ∀ n ∈ H.ws, ValidName n) (order : Workspace → Workspace)
    (ho : ∀ w, (order w).Perm w) (s : Server) (hd : WellFormed s.disk) {path : Str} (hp : PlainPath H path)
    {loc : List Str} (hl : lexicalPlace H.ws (pathComponents path) = H.ws ++ loc) (hne : loc ≠ []) (force : Bool) :
    (deleteSource H order s path force).2 = .success ↔
      endsWith path ".firm".toList = true ∧ (∃ old, Has s.disk (H.ws ++ loc) (.file (some old))) ∧
      RestReadable H.ws s.disk loc ∧ ValidSources H (withoutFile (FirmFile s.disk H.ws) loc) := by
  have hl' : placeFor H.ws path = H.ws ++ loc := hl
  cases hx : deleteExecute s.disk H.ws path with
  | none =>
    have hno : ¬ (endsWith path ".firm".toList = true ∧ ∃ old, Has s.disk (H.ws ++ loc) (.file (some old))) := by
      rintro ⟨he, old, hold⟩
      unfold deleteExecute at hx
      rw [if_pos he, abs_plain hp, hl'] at hx
      dsimp only at hx
      have := (has_iff_lookup hd).1 hold
      unfold FsTree.readText FsTree.removeFile at hx
      rw [this] at hx
      cases hx
    unfold deleteSource
    rw [hx]
    exact ⟨(fun h => by cases h), fun h => absurd ⟨h.1, h.2.1⟩ hno⟩
  | some r =>
    obtain ⟨d', old⟩ := r
    obtain ⟨hd', h2, h3, _, h5, h6⟩ := deleteExecute_spec hd hx
    rw [hl'] at h2 h3
    have key : (deleteSource H order s path force).2 = .success ↔ ∃ st, rebuild H order d' = .ok st := by
      unfold deleteSource
      rw [hx]
      dsimp only
      cases rebuild H order d' with
      | ok st => simp
      | error e => cases force <;> simp
    have hold : Has s.disk (H.ws ++ loc) (.file (some old)) := (has_iff_lookup hd).2 h3
    have hdir : ∃ es, Has d' H.ws (.dir (some es)) := by
      obtain ⟨es, hes⟩ := has_parent hold hne
      obtain ⟨p, n, hpn⟩ : ∃ p n, H.ws ++ loc = p ++ [n] :=
        ⟨_, _, (List.dropLast_append_getLast (l := H.ws ++ loc) (by simp [hne])).symm⟩
      have hrm : s.disk.removeFile (p ++ [n]) = some d' := by
        unfold FsTree.removeFile
        rw [← hpn, h3, h6, ← hl']
      obtain ⟨es', h⟩ := (removeFile_steady hrm).2 _ _ ((has_iff_lookup hd).1 hes)
      exact ⟨es', (has_iff_lookup hd').2 h⟩
    rw [key, rebuild_iff hws ho hd', firmFile_removed hd hd' h2, readable_set hd hd' (.inl rfl) h2
      (fun h => by rw [(has_iff_lookup hd).1 h] at h3; cases h3) hdir]
    exact ⟨fun h => ⟨h5, ⟨old, hold⟩, h⟩, fun h => h.2.2⟩

/-- All places where the old text stands, from left to right, are given the new text; there is one, or more if this is
asked for. -/
def Spec.ReplacedTo (old new : Str) (all : Bool) (text r : Str) : Prop :=
  old ≠ [] ∧ ∃ ps, Cut old text ps ∧ 2 ≤ ps.length ∧ (ps.length = 2 ∨ all = true) ∧ r = joinWith new ps

/-- C167: `replace_source` succeeds exactly when there is such a source file, its text can be replaced, and writing the
new text succeeds. -/
theorem C167_replace (H : Host) (hws : ∀ n ∈ H.ws, ValidName n) (order : Workspace → Workspace)
    (ho : ∀ w, (order w).Perm w) (s : Server) (hd : WellFormed s.disk) {path : Str} (hp : PlainPath H path)
    {loc : List Str} (hl : lexicalPlace H.ws (pathComponents path) = H.ws ++ loc) (hne : loc ≠ []) (old new : Str)
    (all force : Bool) :
    (replaceSource H order s path old new all force).2 = .success ↔
      ∃ text r, FirmFile s.disk H.ws loc text ∧ ReplacedTo old new all text r ∧
        endsWith path ".firm".toList = true ∧ H.accepts r = true ∧ CanWrite s.disk (H.ws ++ loc) ∧
        RestReadable H.ws s.disk loc ∧ ValidSources H (withFile (FirmFile s.disk H.ws) loc r) := by
  have hl' : placeFor H.ws path = H.ws ++ loc := hl
  have hex : ∀ r, (∃ k, replaceExecute s.disk H.ws path old new all = some (r, k)) ↔
      ∃ text, FirmFile s.disk H.ws loc text ∧ ReplacedTo old new all text r := by
    intro r
    have hread : ∀ text, readSourceFile s.disk H.ws path = some text ↔ FirmFile s.disk H.ws loc text := by
      intro text
      have hname : hasFirmExtension (H.ws ++ loc) = true ↔ SourceName loc := by
        obtain ⟨dirs, n, rfl⟩ : ∃ p n, loc = p ++ [n] := ⟨_, _, (List.dropLast_append_getLast hne).symm⟩
        unfold hasFirmExtension
        rw [← List.append_assoc, List.getLast?_concat]
        dsimp only
        rw [isFirmFile_iff]
        constructor
        · exact fun h => ⟨dirs, n, rfl, h⟩
        · rintro ⟨dirs', n', h1, h2⟩
          obtain ⟨-, h3⟩ := List.append_inj' h1 rfl
          cases h3
          exact h2
      unfold FirmFile
      rw [has_iff_lookup hd]
      change _ ↔ SourceName loc ∧ _
      rw [← hname]
      unfold readSourceFile FsTree.readText
      rw [abs_plain hp, hl']
      dsimp only
      cases hlk : s.disk.lookup (H.ws ++ loc) with
      | none => simp
      | some u =>
        dsimp only
        by_cases hf : hasFirmExtension (H.ws ++ loc) = true
        · rw [if_pos hf]
          cases u <;> simp [hf]
        · rw [if_neg hf]
          simp [hf]
    simp only [← hread]
    unfold replaceExecute ReplacedTo
    by_cases ho : old = []
    · rw [if_pos ho]
      simp [ho]
    · rw [if_neg ho]
      cases readSourceFile s.disk H.ws path with
      | none => simp
      | some text =>
        simp only [C60_replaces, Option.some.injEq, exists_eq_left']
        constructor
        · rintro ⟨k, h1, ps, h2, h3, h4, h5, h6⟩
          exact ⟨h1, ps, h2, by omega, h5.imp (fun h => by omega) id, h6⟩
        · rintro ⟨h1, ps, h2, h3, h4, h5⟩
          exact ⟨ps.length - 1, h1, ps, h2, by omega, by omega, h4.imp (fun h => by omega) id, h5⟩
  cases hx : replaceExecute s.disk H.ws path old new all with
  | none =>
    unfold replaceSource
    rw [hx]
    refine ⟨(fun h => by cases h), fun ⟨text, r, h1, h2, _⟩ => ?_⟩
    obtain ⟨k, hk⟩ := (hex r).2 ⟨text, h1, h2⟩
    rw [hx] at hk
    cases hk
  | some x =>
    obtain ⟨content, k⟩ := x
    have hsame : (replaceSource H order s path old new all force).2 = (writeSource H order s path content force).2 := by
      unfold replaceSource writeSource
      rw [hx]
    rw [hsame, C167_write H hws order ho s hd hp hl hne]
    obtain ⟨text, h1, h2⟩ := (hex content).1 ⟨k, hx⟩
    constructor
    · exact fun h => ⟨text, content, h1, h2, h⟩
    · rintro ⟨text', r, h3, h4, h⟩
      obtain ⟨k', hk⟩ := (hex r).2 ⟨text', h3, h4⟩
      rw [hx] at hk
      cases hk
      exact h

/-! ## New files and changed files -/

theorem validSources_loaded {H : Host} {F : List Str → Str → Prop} {w : Workspace} (h1 : (w.map (·.1)).Nodup)
    (h2 : ∀ path f, (path, f) ∈ w ↔ ∃ loc text, F loc text ∧
      path = '/' :: joinWith ['/'] (H.ws ++ loc) ∧ f = ⟨H.grammar text, joinWith ['/'] loc⟩) :
    ValidSources H F ↔ ∃ ss es, ValidWorkspace H.lang w ss es ∧ (es.map (·.id)).Nodup := by
  constructor
  · rintro ⟨w', ss, es, k1, k2, k3, k4⟩
    have hp : w'.Perm w := by
      refine (List.perm_ext_iff_of_nodup (.of_map _ k1) (.of_map _ h1)).2 ?_
      rintro ⟨path, f⟩
      rw [h2, k2]
    obtain ⟨b', e1, e2, -⟩ := C43_order _ _ _ hp ⟨es, ss⟩ ((C41_build _ _ _ _).2 k3)
    exact ⟨b'.schemas, b'.entities, (C41_build _ _ _ _).1 e1, (e2.map _).nodup_iff.1 k4⟩
  · rintro ⟨ss, es, h3, h4⟩
    exact ⟨w, ss, es, h1, h2, h3, h4⟩

/-- The blocks of a kind of a file, with the path that its values are relative to. -/
def Spec.blocksIn (kind : String) (source : Str) (root : Node) : List (Str × Node) :=
  (root.children.filter fun c => c.kind = kind.toList).map fun c => (source, c)

theorem blocksOf_snoc (kind : String) (w : Workspace) (p : Str) (f : SourceFile) :
    blocksOf kind (w ++ [(p, f)]) = blocksOf kind w ++ blocksIn kind f.rel f.root := by
  unfold blocksOf blocksIn
  rw [List.flatMap_append, List.flatMap_cons, List.flatMap_nil, List.append_nil]

/-- C167: a new file is accepted exactly when it has no syntax errors, its blocks are converted, its schemas are of types
that have none yet, its entities have new ids, and each conforms to a schema, an old or a new one. -/
theorem C167_new (H : Host) (hws : ∀ n ∈ H.ws, ValidName n) (order : Workspace → Workspace)
    (ho : ∀ w, (order w).Perm w) (s : Server) (hd : WellFormed s.disk) (hs : Serves H s) (hr : Readable H.ws s.disk)
    {path : Str} (hp : PlainPath H path) {loc : List Str}
    (hl : lexicalPlace H.ws (pathComponents path) = H.ws ++ loc) (hn : SourceName loc)
    (he : endsWith path ".firm".toList = true) (hc : CanWrite s.disk (H.ws ++ loc))
    (hnew : ∀ u, ¬ Has s.disk (H.ws ++ loc) u) (content : Str) (force : Bool) :
    (writeSource H order s path content force).2 = .success ↔ H.accepts content = true ∧
      ∃ ss es,
        List.Forall₂ (fun b x => toSchema H.lang b.1 b.2 = .ok x)
          (blocksIn "schema_block" (joinWith ['/'] loc) (H.grammar content)) ss ∧
        List.Forall₂ (fun b e => toEntity H.lang b.1 b.2 = .ok e)
          (blocksIn "entity_block" (joinWith ['/'] loc) (H.grammar content)) es ∧
        (ss.map (·.entityType)).Nodup ∧ (∀ x ∈ ss, ∀ y ∈ s.state.build.schemas, x.entityType ≠ y.entityType) ∧
        (es.map (·.id)).Nodup ∧ (∀ e ∈ es, s.state.graph.getEntity e.id = none) ∧
        ∀ e ∈ es, ∃ x ∈ s.state.build.schemas ++ ss, x.entityType = e.entityType ∧ Conforms H.lang.env x e := by
  have hne : loc ≠ [] := by
    obtain ⟨dirs, n, rfl, -⟩ := hn
    simp
  have hrest : RestReadable H.ws s.disk loc := ⟨hr.2.1, fun dirs n h _ => hr.2.2 dirs n h⟩
  have hval : ∀ n ∈ H.ws ++ loc, ValidName n := by
    rw [← hl]
    exact place_valid hws path
  have hnof : ∀ t, ¬ FirmFile s.disk H.ws loc t := fun t h => hnew _ h.2
  have hkeys : ∀ f, ('/' :: joinWith ['/'] (H.ws ++ loc), f) ∉ s.state.workspace := by
    intro f hf
    obtain ⟨l, t, h1, h2, -⟩ := (hs.1.2 _ _).1 hf
    have := placeText_inj hval (lookup_valid hd ((has_iff_lookup hd).1 h1.2)).2 h2
    rw [List.append_cancel_left this] at hnof
    exact hnof t h1
  rw [C167_write H hws order ho s hd hp hl hne, validSources_loaded
    (w := s.state.workspace ++ [('/' :: joinWith ['/'] (H.ws ++ loc), ⟨H.grammar content, joinWith ['/'] loc⟩)])]
  rotate_left
  · rw [List.map_append, List.nodup_append]
    refine ⟨hs.1.1, by simp, ?_⟩
    rintro a ha b hb rfl
    obtain ⟨⟨p, f⟩, hm, rfl⟩ := List.mem_map.1 ha
    simp only [List.map_cons, List.map_nil, List.mem_singleton] at hb
    subst hb
    exact hkeys f hm
  · intro p f
    rw [List.mem_append, hs.1.2, List.mem_singleton, Prod.mk.injEq]
    unfold withFile
    constructor
    · rintro (⟨l, t, h1, h2⟩ | ⟨rfl, rfl⟩)
      · exact ⟨l, t, .inl ⟨fun h => hnof t (h ▸ h1), h1⟩, h2⟩
      · exact ⟨loc, content, .inr ⟨rfl, rfl, hn⟩, rfl, rfl⟩
    · rintro ⟨l, t, ⟨-, h1⟩ | ⟨rfl, rfl, -⟩, h2, h3⟩
      · exact .inl ⟨l, t, h1, h2, h3⟩
      · exact .inr ⟨h2, h3⟩
  have hv := (C41_build _ _ _ _).1 hs.2.1
  obtain ⟨hg, hacc, -, hids⟩ := toGraph_run hs.2.2
  have hget : ∀ id, s.state.graph.getEntity id = none ↔ ∀ e ∈ s.state.build.entities, e.id ≠ id := by
    intro id
    rw [hg]
    constructor
    · intro h e hm he'
      have := (C01_lookup (s.state.build.entities.map .add ++ [.build]) id e).2 ⟨by rw [hacc]; exact hm, he'⟩
      rw [h] at this
      cases this
    · intro h
      cases hx : (Graph.run (s.state.build.entities.map .add ++ [.build])).getEntity id with
      | none => rfl
      | some e =>
        obtain ⟨h1, h2⟩ := (C01_lookup _ _ _).1 hx
        rw [hacc] at h1
        exact absurd h2 (h e h1)
  constructor
  · rintro ⟨-, ha, -, -, ss, es, h1, h2⟩
    have hsch := h1.schemas
    have hent := h1.entities
    have hone := h1.oneSchema
    have hch := h1.checked
    rw [blocksOf_snoc] at hsch hent
    obtain ⟨ss1, ss2, a1, a2, rfl⟩ := forall₂_cut hsch
    obtain ⟨es1, es2, b1, b2, rfl⟩ := forall₂_cut hent
    have e1 := forall2_fun a1 hv.schemas
    have e2 := forall2_fun b1 hv.entities
    subst e1 e2
    rw [List.map_append, List.nodup_append] at hone h2
    refine ⟨ha, ss2, es2, a2, b2, hone.2.1, fun x hx y hy hxy => ?_, h2.2.1, fun e hee => (hget _).2 fun e' he' hid => ?_,
      fun e hee => hch e (by simp [hee])⟩
    · exact hone.2.2 _ (List.mem_map_of_mem hy) _ (List.mem_map_of_mem hx) hxy.symm
    · exact h2.2.2 _ (List.mem_map_of_mem he') _ (List.mem_map_of_mem hee) hid
  · rintro ⟨ha, ss, es, h1, h2, h3, h4, h5, h6, h7⟩
    refine ⟨he, ha, hc, hrest, s.state.build.schemas ++ ss, s.state.build.entities ++ es, ⟨?_, ?_, ?_, ?_⟩, ?_⟩
    · rw [blocksOf_snoc]
      exact List.rel_append hv.schemas h1
    · rw [blocksOf_snoc]
      exact List.rel_append hv.entities h2
    · rw [List.map_append, List.nodup_append]
      refine ⟨hv.oneSchema, h3, ?_⟩
      rintro a ha' b hb rfl
      obtain ⟨y, hy, rfl⟩ := List.mem_map.1 ha'
      obtain ⟨x, hx, hxy⟩ := List.mem_map.1 hb
      exact h4 x hx y hy hxy
    · intro e hee
      rcases List.mem_append.1 hee with hee | hee
      · obtain ⟨x, hx, h⟩ := hv.checked e hee
        exact ⟨x, by simp [hx], h⟩
      · exact h7 e hee
    · rw [List.map_append, List.nodup_append]
      refine ⟨hids, h5, ?_⟩
      rintro a ha' b hb rfl
      obtain ⟨y, hy, rfl⟩ := List.mem_map.1 ha'
      obtain ⟨x, hx, hxy⟩ := List.mem_map.1 hb
      exact (hget _).1 (h6 x hx) y hy hxy.symm

/-- The source file at `loc` is given another text, in which one block is another one of the same kind. -/
structure Spec.BlockEdit (H : Host) (d : FsTree) (loc : List Str) (content : Str) (kind : String) (n n' : Node) : Prop where
  before : ∃ text, FirmFile d H.ws loc text ∧
    ∃ xs ys, (H.grammar text).children = xs ++ n :: ys ∧ (H.grammar content).children = xs ++ n' :: ys
  old : n.kind = kind.toList
  new : n'.kind = kind.toList

theorem map_nodup_split {w : Workspace} (h : (w.map (·.1)).Nodup) {tp : Str} {f : SourceFile} (hm : (tp, f) ∈ w) :
    ∃ pre post, w = pre ++ (tp, f) :: post ∧ ∀ p ∈ pre ++ post, p.1 ≠ tp := by
  obtain ⟨pre, post, rfl⟩ := List.append_of_mem hm
  refine ⟨pre, post, rfl, fun p hp he => ?_⟩
  rw [List.map_append, List.map_cons] at h
  have h2 := (List.nodup_middle.1 h)
  exact (List.nodup_cons.1 h2).1 (by rw [← List.map_append]; exact List.mem_map.2 ⟨p, hp, he⟩)

/-- The workspace after such a change. -/
theorem edited {H : Host} {s : Server} (hd : WellFormed s.disk) (hs : Serves H s) {loc : List Str} {content : Str}
    {kind : String} {n n' : Node} (h : BlockEdit H s.disk loc content kind n n') :
    ∃ w' : Workspace, ((w'.map (·.1)).Nodup ∧
      (∀ path f, (path, f) ∈ w' ↔ ∃ l text, withFile (FirmFile s.disk H.ws) loc content l text ∧
        path = '/' :: joinWith ['/'] (H.ws ++ l) ∧ f = ⟨H.grammar text, joinWith ['/'] l⟩)) ∧
      (∃ pre post, blocksOf kind s.state.workspace = pre ++ (joinWith ['/'] loc, n) :: post ∧
        blocksOf kind w' = pre ++ (joinWith ['/'] loc, n') :: post) ∧
      ∀ k : String, k.toList ≠ kind.toList → blocksOf k w' = blocksOf k s.state.workspace := by
  obtain ⟨text, hf, xs, ys, hx, hy⟩ := h.before
  obtain ⟨pre, post, hw, hother⟩ := map_nodup_split hs.1.1 ((hs.1.2 _ _).2 ⟨loc, text, hf, rfl, rfl⟩)
  have hval : ∀ l t, FirmFile s.disk H.ws l t → ∀ n ∈ H.ws ++ l, ValidName n := fun l t h =>
    (lookup_valid hd ((has_iff_lookup hd).1 h.2)).2
  refine ⟨pre ++ ('/' :: joinWith ['/'] (H.ws ++ loc), ⟨H.grammar content, joinWith ['/'] loc⟩) :: post, ⟨?_, ?_⟩, ?_, ?_⟩
  · have := hs.1.1
    rw [hw] at this
    simpa using this
  · intro p f
    have hmem : ∀ p f, (p, f) ∈ pre ++ post ↔ ∃ l t, (l ≠ loc ∧ FirmFile s.disk H.ws l t) ∧
        p = '/' :: joinWith ['/'] (H.ws ++ l) ∧ f = ⟨H.grammar t, joinWith ['/'] l⟩ := by
      intro p f
      constructor
      · intro hm
        obtain ⟨l, t, h1, h2, h3⟩ := (hs.1.2 p f).1 (by
          rw [hw]
          simp only [List.mem_append, List.mem_cons] at hm ⊢
          exact hm.imp id .inr)
        exact ⟨l, t, ⟨fun he => hother _ hm (by rw [h2, he]), h1⟩, h2, h3⟩
      · rintro ⟨l, t, ⟨hne, h1⟩, h2, h3⟩
        have hm := (hs.1.2 p f).2 ⟨l, t, h1, h2, h3⟩
        rw [hw] at hm
        simp only [List.mem_append, List.mem_cons] at hm ⊢
        rcases hm with hm | hm | hm
        · exact .inl hm
        · have : placeText (H.ws ++ l) = placeText (H.ws ++ loc) := by
            rw [show placeText (H.ws ++ l) = p from h2.symm]
            exact congrArg Prod.fst hm
          exact absurd (List.append_cancel_left (placeText_inj (hval l t h1) (hval loc text hf) this)) hne
        · exact .inr hm
    have hm2 : (p, f) ∈ pre ++ ('/' :: joinWith ['/'] (H.ws ++ loc), (⟨H.grammar content, joinWith ['/'] loc⟩ : SourceFile)) :: post ↔
        (p, f) ∈ pre ++ post ∨ (p = '/' :: joinWith ['/'] (H.ws ++ loc) ∧ f = ⟨H.grammar content, joinWith ['/'] loc⟩) := by
      simp only [List.mem_append, List.mem_cons, Prod.mk.injEq]
      constructor
      · rintro (h | h | h)
        exacts [.inl (.inl h), .inr h, .inl (.inr h)]
      · rintro ((h | h) | h)
        exacts [.inl h, .inr (.inr h), .inr (.inl h)]
    rw [hm2, hmem]
    unfold withFile
    constructor
    · rintro (⟨l, t, h1, h2⟩ | ⟨h1, h2⟩)
      · exact ⟨l, t, .inl h1, h2⟩
      · exact ⟨loc, content, .inr ⟨rfl, rfl, hf.1⟩, h1, h2⟩
    · rintro ⟨l, t, h1 | ⟨rfl, rfl, -⟩, h2⟩
      · exact .inl ⟨l, t, h1, h2⟩
      · exact .inr h2
  · rw [hw]
    unfold blocksOf
    simp only [List.flatMap_append, List.flatMap_cons, hx, hy, List.filter_append, List.filter_cons, h.old, h.new,
      decide_true, if_true, List.map_append, List.map_cons, List.append_assoc, List.cons_append]
    exact ⟨_, _, by rw [← List.append_assoc], by rw [← List.append_assoc]⟩
  · intro k hk
    rw [hw]
    unfold blocksOf
    have h1 : ¬ (n.kind = k.toList) := fun he => hk (by rw [← he, h.old])
    have h2 : ¬ (n'.kind = k.toList) := fun he => hk (by rw [← he, h.new])
    simp only [List.flatMap_append, List.flatMap_cons, hx, hy, List.filter_append, List.filter_cons, h1, h2,
      decide_false, Bool.false_eq_true, if_false]

/-- What a change of a block needs beside its meaning. -/
theorem accepted_edit {H : Host} (hws : ∀ n ∈ H.ws, ValidName n) {order : Workspace → Workspace}
    (ho : ∀ w, (order w).Perm w) {s : Server} (hd : WellFormed s.disk) (hr : Readable H.ws s.disk)
    {path : Str} (hp : PlainPath H path) {loc : List Str}
    (hl : lexicalPlace H.ws (pathComponents path) = H.ws ++ loc) (he : endsWith path ".firm".toList = true)
    {content : Str} {kind : String} {n n' : Node} (h : BlockEdit H s.disk loc content kind n n') (force : Bool) :
    (writeSource H order s path content force).2 = .success ↔
      H.accepts content = true ∧ ValidSources H (withFile (FirmFile s.disk H.ws) loc content) := by
  obtain ⟨text, hf, -⟩ := h.before
  have hne : loc ≠ [] := by
    obtain ⟨⟨dirs, n, rfl, -⟩, -⟩ := hf
    simp
  rw [C167_write H hws order ho s hd hp hl hne]
  refine ⟨fun h => ⟨h.2.1, h.2.2.2.2⟩, fun h => ⟨he, h.1, ⟨fun l u hl' hne' hu => ?_, fun u hu => ?_⟩,
    ⟨hr.2.1, fun dirs n h _ => hr.2.2 dirs n h⟩, h.2⟩⟩
  · obtain ⟨r, hr'⟩ := hl'
    have hrne : r ≠ [] := by
      rintro rfl
      exact hne' (by simpa using hr')
    have hh := hf.2
    rw [← hr'] at hh
    obtain ⟨es, hes⟩ := has_parent hh hrne
    have := (has_iff_lookup hd).1 hes
    rw [(has_iff_lookup hd).1 hu] at this
    cases this
    exact ⟨es, rfl⟩
  · have := (has_iff_lookup hd).1 hf.2
    rw [(has_iff_lookup hd).1 hu] at this
    cases this
    exact ⟨_, rfl⟩

/-- C167: the text of a file in which one schema block is changed is accepted exactly when it has no syntax errors, the
field blocks declare fields and all entities of the type meet what they ask now. -/
theorem C167_schema (H : Host) (hws : ∀ n ∈ H.ws, ValidName n) (order : Workspace → Workspace)
    (ho : ∀ w, (order w).Perm w) (s : Server) (hd : WellFormed s.disk) (hs : Serves H s) (hr : Readable H.ws s.disk)
    {path : Str} (hp : PlainPath H path) {loc : List Str}
    (hl : lexicalPlace H.ws (pathComponents path) = H.ws ++ loc) (he : endsWith path ".firm".toList = true)
    {content name : Str} {n n' : Node} (h : BlockEdit H s.disk loc content "schema_block" n n')
    (hn : schemaName n = some name) (hn' : schemaName n' = some name) (force : Bool) :
    (writeSource H order s path content force).2 = .success ↔ H.accepts content = true ∧
      (∀ m ∈ schemaFields n', ∃ f d, DeclaresField H.lang (joinWith ['/'] loc) m f d) ∧
      ∀ e ∈ s.state.build.entities, e.entityType = H.lang.cases.snake name →
        ∀ f d, LastAsked H.lang (joinWith ['/'] loc) (schemaFields n') f d → Meets H.lang.env e f d := by
  obtain ⟨w', ⟨h1, h2⟩, h3, h4⟩ := edited hd hs h
  rw [accepted_edit hws ho hd hr hp hl he h, validSources_loaded h1 h2]
  have hedit : SchemaEdit s.state.workspace w' (joinWith ['/'] loc) n n' name :=
    ⟨h4 "entity_block" (by decide), h3, hn, hn'⟩
  obtain ⟨k1, k2⟩ := C163_edit H.lang hedit hs.2.1
  rw [← k1]
  refine and_congr_right fun _ => ⟨fun ⟨ss, es, a, _⟩ => ⟨⟨es, ss⟩, (C41_build _ _ _ _).2 a⟩, fun ⟨b, hb⟩ => ?_⟩
  refine ⟨b.schemas, b.entities, (C41_build _ _ _ _).1 hb, ?_⟩
  rw [k2 b hb]
  exact (toGraph_run hs.2.2).2.2.2

/-- C167: the text of a file in which one entity block is changed is accepted exactly when it has no syntax errors, the
block is converted to an entity that conforms to the schema of its type, and no other entity has its id. -/
theorem C167_entity (H : Host) (hws : ∀ n ∈ H.ws, ValidName n) (order : Workspace → Workspace)
    (ho : ∀ w, (order w).Perm w) (s : Server) (hd : WellFormed s.disk) (hs : Serves H s) (hr : Readable H.ws s.disk)
    {path : Str} (hp : PlainPath H path) {loc : List Str}
    (hl : lexicalPlace H.ws (pathComponents path) = H.ws ++ loc) (he : endsWith path ".firm".toList = true)
    {content : Str} {n n' : Node} (h : BlockEdit H s.disk loc content "entity_block" n n') (force : Bool) :
    ∃ e, toEntity H.lang (joinWith ['/'] loc) n = .ok e ∧ s.state.graph.getEntity e.id = some e ∧
    ((writeSource H order s path content force).2 = .success ↔ H.accepts content = true ∧
      ∃ e', toEntity H.lang (joinWith ['/'] loc) n' = .ok e' ∧
        (∃ x ∈ s.state.build.schemas, x.entityType = e'.entityType ∧ Conforms H.lang.env x e') ∧
        (e'.id = e.id ∨ s.state.graph.getEntity e'.id = none)) := by
  obtain ⟨w', ⟨h1, h2⟩, ⟨pre, post, h3, h3'⟩, h4⟩ := edited hd hs h
  have hv := (C41_build _ _ _ _).1 hs.2.1
  obtain ⟨hg, hacc, -, hids⟩ := toGraph_run hs.2.2
  have hent := hv.entities
  rw [h3] at hent
  obtain ⟨es1, rest, a1, a2, hes⟩ := forall₂_cut hent
  obtain ⟨e, es2, hne, a3, rfl⟩ := List.forall₂_cons_left_iff.1 a2
  have hget : ∀ id y, s.state.graph.getEntity id = some y ↔ y ∈ s.state.build.entities ∧ y.id = id := by
    intro id y
    rw [hg, C01_lookup, hacc]
  refine ⟨e, hne, (hget _ _).2 ⟨by rw [hes]; simp, rfl⟩, ?_⟩
  rw [accepted_edit hws ho hd hr hp hl he h, validSources_loaded h1 h2]
  refine and_congr_right fun _ => ?_
  have hsb : blocksOf "schema_block" w' = blocksOf "schema_block" s.state.workspace := h4 _ (by decide)
  have hids' := hids
  rw [hes, List.map_append, List.map_cons, List.nodup_middle, ← List.map_append] at hids'
  have hfresh : ∀ e' : Entity, (e'.id = e.id ∨ s.state.graph.getEntity e'.id = none) ↔
      e'.id ∉ (es1 ++ es2).map (·.id) := by
    intro e'
    constructor
    · rintro (hid | hid) hm
      · exact (List.nodup_cons.1 hids').1 (hid ▸ hm)
      · obtain ⟨y, hy, hyi⟩ := List.mem_map.1 hm
        have := (hget e'.id y).2 ⟨by rw [hes]; simp only [List.mem_append, List.mem_cons] at hy ⊢; exact hy.imp id .inr, hyi⟩
        rw [hid] at this
        cases this
    · intro hm
      cases hx : s.state.graph.getEntity e'.id with
      | none => exact .inr rfl
      | some y =>
        obtain ⟨hy, hyi⟩ := (hget _ _).1 hx
        rw [hes] at hy
        simp only [List.mem_append, List.mem_cons] at hy
        rcases hy with hy | rfl | hy
        · exact absurd (List.mem_map.2 ⟨y, by simp [hy], hyi⟩) hm
        · exact .inl hyi.symm
        · exact absurd (List.mem_map.2 ⟨y, by simp [hy], hyi⟩) hm
  have hnd : ∀ e' : Entity, ((es1 ++ e' :: es2).map (·.id)).Nodup ↔ e'.id ∉ (es1 ++ es2).map (·.id) := by
    intro e'
    rw [List.map_append, List.map_cons, List.nodup_middle, ← List.map_append, List.nodup_cons]
    exact ⟨fun h => h.1, fun h => ⟨h, (List.nodup_cons.1 hids').2⟩⟩
  constructor
  · rintro ⟨ss, es, k1, k2⟩
    have hsch := k1.schemas
    rw [hsb] at hsch
    have hss := forall2_fun hsch hv.schemas
    subst hss
    have hen := k1.entities
    rw [h3'] at hen
    obtain ⟨fs1, rest, b1, b2, hfs⟩ := forall₂_cut hen
    obtain ⟨e', fs2, hne', b3, rfl⟩ := List.forall₂_cons_left_iff.1 b2
    have c1 := forall2_fun b1 a1
    have c2 := forall2_fun b3 a3
    subst c1 c2 hfs
    exact ⟨e', hne', k1.checked e' (by simp), (hfresh e').2 ((hnd e').1 k2)⟩
  · rintro ⟨e', k1, k2, k3⟩
    refine ⟨s.state.build.schemas, es1 ++ e' :: es2, ⟨by rw [hsb]; exact hv.schemas, ?_, hv.oneSchema, ?_⟩,
      (hnd e').2 ((hfresh e').1 k3)⟩
    · rw [h3']
      exact List.rel_append a1 (.cons k1 a3)
    · intro y hy
      simp only [List.mem_append, List.mem_cons] at hy
      rcases hy with hy | rfl | hy
      · exact hv.checked y (by rw [hes]; simp [hy])
      · exact k2
      · exact hv.checked y (by rw [hes]; simp [hy])

/-! ## The hypotheses can be met -/

theorem exHost_plain (path : Str) (h1 : strContains path "..".toList = false)
    (h2 : exHost.ws.isPrefixOf (lexicalPlace exHost.ws (pathComponents path)) = true) : PlainPath exHost path :=
  ⟨(fun h => by rw [(strContains_iff _ _).2 h] at h1; cases h1), List.isPrefixOf_iff_prefix.1 h2⟩

theorem exNames : ∀ n ∈ exHost.ws, ValidName n := by
  intro n hn
  cases List.mem_singleton.1 hn
  exact ⟨by decide, by decide, by decide, by decide⟩

/-- The files of the example are read and valid. -/
example : Readable exHost.ws exServer.disk ∧ ValidSources exHost (FirmFile exServer.disk exHost.ws) :=
  (C167_build exHost exNames id (fun w => .refl _) exServer exDisk_wf).1 (by decide +kernel)

/-- The example without its second file. -/
def exHalf : Server := (deleteSource exHost id exServer "b.firm".toList false).1

theorem exHalf_wf : WellFormed exHalf.disk := (delete_disk exDisk_wf (by decide +kernel)).1

/-- A new file can be written and what is required of it is so. -/
example : CanWrite exHalf.disk (exHost.ws ++ ["sub".toList, "c.firm".toList]) ∧
    ValidSources exHost (withFile (FirmFile exHalf.disk exHost.ws) ["sub".toList, "c.firm".toList] "B".toList) := by
  have h := (C167_write exHost exNames id (fun w => .refl _) exHalf exHalf_wf (path := "sub/c.firm".toList)
    (exHost_plain _ (by decide) (by decide)) (loc := ["sub".toList, "c.firm".toList]) (by decide +kernel) (by simp)
    "B".toList false).1 (by decide +kernel)
  exact ⟨h.2.2.1, h.2.2.2.2⟩

/-- A file is changed in one block. -/
example : BlockEdit exHost exServer.disk ["b.firm".toList] "x".toList "entity_block"
    (exEntityNode "person" "bob" [exFieldNode "name" "string" "\"Bob\""]) (exEntityNode "ghost" "x" []) where
  before := ⟨"B".toList, ⟨⟨[], "b.firm".toList, rfl, "b".toList, by decide, rfl⟩,
    (has_iff_lookup exDisk_wf).2 rfl⟩, [], [], rfl, rfl⟩
  old := rfl
  new := rfl

end Firm
