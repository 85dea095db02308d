import Verif.Props.Undone
import Verif.Props.Serial
import Verif.Model.Interrupted

/-!
# C162: any number of changes can be undone
-/

namespace Firm
open Spec

/-! ## The specification -/

/-- The server after the requests, one after the other. -/
def Spec.serveAll (H : Host) (order : Workspace → Workspace) : Server → List Request → Server
  | s, [] => s
  | s, r :: rs => serveAll H order (s.handle H order r).1 rs

/-- None of the requests is refused. -/
def Spec.NoRefusal (H : Host) (order : Workspace → Workspace) : Server → List Request → Prop
  | _, [] => True
  | s, r :: rs => (s.handle H order r).2 ≠ .error ∧ NoRefusal H order (s.handle H order r).1 rs

/-- The request that undoes a change of the file with this path: write what `read_source` tells, or delete the file if
there was none. -/
def Spec.undoOf (H : Host) (s : Server) (path : Str) : Request :=
  match readSourceFile s.disk H.ws path with
  | some old => .write path old true
  | none => .delete path true

/-- The requests that undo the requests, the last change first. -/
def Spec.undoing (H : Host) (order : Workspace → Workspace) : Server → List Request → List Request
  | _, [] => []
  | s, r :: rs => undoing H order (s.handle H order r).1 rs ++ [undoOf H s r.path]

/-- Requests that are not refused and change source files whose old texts the syntax check accepts. -/
def Spec.Undoable (H : Host) (order : Workspace → Workspace) : Server → List Request → Prop
  | _, [] => True
  | s, r :: rs => (s.handle H order r).2 ≠ .error ∧ DotlessPath r.path ∧ endsWith r.path ".firm".toList = true ∧
      ((∃ old, readSourceFile s.disk H.ws r.path = some old ∧ H.accepts old = true) ∨
        ∀ u, ¬ Has s.disk (placeFor H.ws r.path) u) ∧ Undoable H order (s.handle H order r).1 rs

/-- No file of the one request is a directory on the way to the file of another. -/
def Spec.NotNested (H : Host) (rs : List Request) : Prop :=
  ∀ r ∈ rs, ∀ q ∈ rs, placeFor H.ws r.path <+: placeFor H.ws q.path → placeFor H.ws r.path = placeFor H.ws q.path

/-! ## One change -/

/-- What a change at a place does: a file with a text is there, or a file is gone. -/
structure Stepped (d d' : FsTree) (loc : List Str) : Prop where
  wf : WellFormed d'
  leaves : ∃ u, LeafSet d d' loc u ∧ ((∃ text, u = some (.file (some text))) ∨ (u = none ∧ leafAt d loc ≠ none))
  steady : Steady d d' loc
  noDir : ¬ DirAt d' loc

theorem noDir_file {d : FsTree} {loc : List Str} {t : Option Str} (h : leafAt d loc = some (.file t)) : ¬ DirAt d loc := by
  rintro ⟨es, he⟩
  rw [(leafAt_eq_some.1 h).1] at he
  cases he

theorem stepped_text {d d' : FsTree} {loc : List Str} {text : Str} (h1 : WellFormed d')
    (h2 : LeafSet d d' loc (some (.file (some text)))) (h3 : Steady d d' loc) : Stepped d d' loc :=
  ⟨h1, ⟨_, h2, .inl ⟨text, rfl⟩⟩, h3, noDir_file (t := some text) (by rw [h2 loc, if_pos rfl])⟩

theorem write_stepped {H : Host} (hws : ∀ n ∈ H.ws, ValidName n) {order : Workspace → Workspace} {s : Server}
    (hd : WellFormed s.disk) {path content : Str} {force : Bool}
    (h : (writeSource H order s path content force).2 ≠ .error) :
    Stepped s.disk (writeSource H order s path content force).1.disk (placeFor H.ws path) := by
  obtain ⟨h1, h2, _⟩ := write_disk hws hd h
  refine stepped_text h1 h2 ?_
  clear h1 h2
  unfold writeSource at h ⊢
  cases hv : validateAndWrite H s.disk path content with
  | mk d o =>
    rw [hv] at h
    cases o with
    | none => exact absurd rfl h
    | some original =>
      have hst : Steady s.disk d (placeFor H.ws path) := by
        unfold validateAndWrite at hv
        by_cases ha : H.accepts content = true
        · rw [if_pos ha] at hv
          cases hw : writeSourceFile s.disk H.ws path content with
          | mk d' ok =>
            rw [hw] at hv
            cases ok with
            | false => cases hv
            | true => cases hv; exact writeSourceFile_steady hw
        · rw [if_neg ha] at hv; cases hv
      dsimp only at h ⊢
      cases hr : rebuild H order d with
      | ok st => exact hst
      | error e =>
        rw [hr] at h
        dsimp only at h ⊢
        cases force with
        | true => exact hst
        | false => exact absurd rfl h

theorem delete_stepped {H : Host} {order : Workspace → Workspace} {s : Server} (hd : WellFormed s.disk) {path : Str}
    {force : Bool} (h : (deleteSource H order s path force).2 ≠ .error) :
    Stepped s.disk (deleteSource H order s path force).1.disk (placeFor H.ws path) := by
  obtain ⟨h1, h2, h3, h4, text, h5⟩ := delete_disk hd h
  have h0 : leafAt s.disk (placeFor H.ws path) = some (.file (some text)) :=
    leafAt_eq_some.2 ⟨h5, fun es h => by cases h⟩
  obtain ⟨p, n, hpn, _⟩ := firm_place (ws := H.ws) h3
  have hpl : placeFor H.ws path = p ++ [n] := hpn
  rw [hpl] at h0 h2 h4 h5 ⊢
  obtain ⟨es, hes, _⟩ := lookup_snoc_some h5
  obtain ⟨es', k1, k2⟩ := lookup_remove_parent (n := n) hes
  refine ⟨h1, ⟨none, h2, .inr ⟨rfl, by rw [h0]; exact fun h => by cases h⟩⟩, ?_, ?_⟩
  · rw [h4]; exact remove_steady h5 fun es h => by cases h
  · rintro ⟨fs, hfs⟩
    rw [h4, lookup_append, k1] at hfs
    have hfs : FsTree.lookup (.dir (some es')) [n] = some (.dir (some fs)) := hfs
    rw [lookup_dir, k2] at hfs
    cases hfs

theorem add_stepped {H : Host} (hws : ∀ n ∈ H.ws, ValidName n) {order : Workspace → Workspace} {s : Server}
    (hd : WellFormed s.disk) {p : AddParams}
    (h : (addEntityTool H order s p).2 ≠ .error) :
    Stepped s.disk (addEntityTool H order s p).1.disk (placeFor H.ws (Request.add p).path) := by
  have hdisk : (addEntityTool H order s p).1.disk = (addExecute H s p).1 := by
    unfold addEntityTool
    split
    · next heq => rw [heq]
    · next heq => rw [heq]; dsimp only; split <;> rfl
  have hok : (addExecute H s p).2 = true := by
    unfold addEntityTool at h
    split at h
    · exact absurd rfl h
    · next heq => rw [heq]
  cases hx : addExecute H s p with
  | mk d ok =>
    rw [hx] at hdisk hok
    dsimp only at hdisk hok
    subst hok
    unfold addExecute at hx
    cases hent : entityToAdd H s.state p with
    | none => rw [hent] at hx; cases hx
    | some e =>
      rw [hent] at hx
      obtain ⟨a1, _, a3⟩ := appendDsl_spec hd (placeOf_valid hws _) hx
      obtain ⟨old, b1, _⟩ := a3 rfl
      have hst := appendDsl_steady hx
      rw [placeOf_eq] at b1 hst
      rw [hdisk]
      exact stepped_text a1 b1 hst

theorem handle_stepped {H : Host} (hws : ∀ n ∈ H.ws, ValidName n) {order : Workspace → Workspace} {s : Server}
    (hd : WellFormed s.disk) {r : Request} (he : endsWith r.path ".firm".toList = true)
    (h : (s.handle H order r).2 ≠ .error) :
    Stepped s.disk (s.handle H order r).1.disk (placeFor H.ws r.path) := by
  cases r with
  | write path content force => exact write_stepped hws hd h
  | delete path force => exact delete_stepped hd h
  | replace path old new all force =>
    have h : (replaceSource H order s path old new all force).2 ≠ .error := h
    show Stepped s.disk (replaceSource H order s path old new all force).1.disk (placeFor H.ws path)
    cases hx : replaceExecute s.disk H.ws path old new all with
    | none =>
      unfold replaceSource at h
      rw [hx] at h
      exact absurd rfl h
    | some rk =>
      have heq : replaceSource H order s path old new all force = writeSource H order s path rk.1 force := by
        unfold replaceSource writeSource
        rw [hx]
      rw [heq] at h ⊢
      exact write_stepped hws hd h
  | add p => exact add_stepped hws hd h
  | build => exact absurd he (by decide)

/-! ## Undoing one change -/

/-- A file can be written when directories lead to its place and no directory is there. -/
theorem writable {d : FsTree} {ws : List Str} {path : Str} (content : Str) (hp : DotlessPath path)
    (he : endsWith path ".firm".toList = true) {p : List Str} {n : Str} (hpn : placeFor ws path = p ++ [n])
    (h1 : ∀ l, l <+: p → leafAt d l = none) (h2 : ¬ DirAt d (p ++ [n]))
    (h3 : leafAt d (p ++ [n]) = none ∨ ∃ t, leafAt d (p ++ [n]) = some (.file t)) :
    ∃ d', writeSourceFile d ws path content = (d', true) := by
  obtain ⟨e1, fs, g1, g2⟩ := createDirAll_open.2 h1
  have hnp : ¬ (p ++ [n]) <+: p := fun hp => by
    have := hp.length_le
    rw [List.length_append] at this
    simp at this
  have hdir : ¬ DirAt e1 (p ++ [n]) := fun hx =>
    h2 ((dirAt_steady (leafAt_createDirAll g1 _) (createDirAll_steady g1) hnp).1 hx)
  obtain ⟨e2, g3⟩ := (writeFile_isSome (text := content)).2 ⟨⟨fs, g2⟩, hdir, by
    rw [leafAt_createDirAll g1]; exact h3⟩
  refine ⟨e2, ?_⟩
  unfold writeSourceFile
  rw [if_pos he, plain_absolute hp]
  dsimp only
  rw [hpn, List.dropLast_concat, g1]
  dsimp only
  rw [g3]

/-- What is in the way of a file. -/
theorem way_open {d : FsTree} {p : List Str} {n : Str} {t : Option Str} (h : d.lookup (p ++ [n]) = some (.file t)) :
    ∀ l, l <+: p → leafAt d l = none := by
  obtain ⟨es, hes, _⟩ := lookup_snoc_some h
  exact createDirAll_open.1 ⟨d, es, createDirAll_existing hes, hes⟩

/-- Undoing a change, when the disk has the files from after it. -/
theorem undo_goes {H : Host} {s s1 t : Server} {path : Str}
    (hp : DotlessPath path) (he : endsWith path ".firm".toList = true)
    (hst : Stepped s.disk s1.disk (placeFor H.ws path)) {old : Str}
    (hold : readSourceFile s.disk H.ws path = some old) (hl : ∀ l, leafAt t.disk l = leafAt s1.disk l)
    (hnd : ¬ DirAt t.disk (placeFor H.ws path)) : ∃ d, writeSourceFile t.disk H.ws path old = (d, true) := by
  obtain ⟨p, n, hpn, _⟩ := firm_place (ws := H.ws) he
  have hpl : placeFor H.ws path = p ++ [n] := hpn
  obtain ⟨u, h1, h2⟩ := hst.leaves
  obtain ⟨hlk, _⟩ := read_lookup hold
  rw [hpl] at h1 h2 hnd hlk
  refine writable old hp he hpl (fun l hlp => ?_) hnd ?_
  · rw [hl, h1 l, if_neg (fun hx => by
      have := hlp.length_le
      rw [hx, List.length_append] at this
      simp at this)]
    exact way_open hlk l hlp
  · rw [hl, h1, if_pos rfl]
    rcases h2 with ⟨text, rfl⟩ | ⟨rfl, _⟩
    · exact .inr ⟨_, rfl⟩
    · exact .inl rfl

/-- A file with a text can be deleted. -/
theorem delete_goes {t : Server} {ws : List Str} {path text : Str} (hp : DotlessPath path)
    (he : endsWith path ".firm".toList = true) (h : leafAt t.disk (placeFor ws path) = some (.file (some text))) :
    deleteExecute t.disk ws path = some (t.disk.remove (placeFor ws path), text) := by
  unfold deleteExecute
  rw [if_pos he, plain_absolute hp]
  dsimp only
  unfold FsTree.readText FsTree.removeFile
  rw [(leafAt_eq_some.1 h).1]
  rfl

theorem undo_written {H : Host} {order : Workspace → Workspace} {t : Server} {path old : Str} (ha : H.accepts old = true)
    (h : ∃ d, writeSourceFile t.disk H.ws path old = (d, true)) : (writeSource H order t path old true).2 ≠ .error := by
  obtain ⟨d, hd⟩ := h
  unfold writeSource validateAndWrite
  rw [if_pos ha, hd]
  dsimp only
  cases rebuild H order d with
  | ok st => exact fun h => by cases h
  | error e => exact fun h => by cases h

theorem undo_deleted {H : Host} {order : Workspace → Workspace} {t : Server} {path : Str} {r : FsTree × Str}
    (h : deleteExecute t.disk H.ws path = some r) : (deleteSource H order t path true).2 ≠ .error := by
  unfold deleteSource
  rw [h]
  dsimp only
  cases rebuild H order r.1 with
  | ok st => exact fun h => by cases h
  | error e => exact fun h => by cases h

/-- Nothing is at a place without a leaf and without a directory. -/
theorem absent_read {d : FsTree} (hd : WellFormed d) {ws : List Str} {path : Str}
    (h : ∀ u, ¬ Has d (placeFor ws path) u) : leafAt d (placeFor ws path) = none ∧ readSourceFile d ws path = none := by
  constructor
  · cases hl : leafAt d (placeFor ws path) with
    | none => rfl
    | some u => exact absurd ((has_iff_lookup hd).2 (leafAt_eq_some.1 hl).1) (h u)
  · cases hr : readSourceFile d ws path with
    | none => rfl
    | some old => exact absurd ((has_iff_lookup hd).2 (read_lookup hr).1) (h _)

/-- One change undone. -/
theorem undo_one {H : Host} (hws : ∀ n ∈ H.ws, ValidName n) {order' : Workspace → Workspace} {s s1 t : Server}
    (hd : WellFormed s.disk) {path : Str} (hp : DotlessPath path) (he : endsWith path ".firm".toList = true)
    (hst : Stepped s.disk s1.disk (placeFor H.ws path))
    (hold : (∃ old, readSourceFile s.disk H.ws path = some old ∧ H.accepts old = true) ∨
      ∀ u, ¬ Has s.disk (placeFor H.ws path) u)
    (ht : WellFormed t.disk) (hl : ∀ l, leafAt t.disk l = leafAt s1.disk l)
    (hnd : ¬ DirAt t.disk (placeFor H.ws path)) :
    (t.handle H order' (undoOf H s path)).2 ≠ .error ∧
    Stepped t.disk (t.handle H order' (undoOf H s path)).1.disk (placeFor H.ws path) ∧
    ∀ l, leafAt (t.handle H order' (undoOf H s path)).1.disk l = leafAt s.disk l := by
  obtain ⟨u, h1, h2⟩ := hst.leaves
  have hother : ∀ l, l ≠ placeFor H.ws path → leafAt t.disk l = leafAt s.disk l := fun l hx => by
    rw [hl, h1 l, if_neg hx]
  rcases hold with ⟨old, h3, h4⟩ | h3
  · have hun : undoOf H s path = .write path old true := by unfold undoOf; rw [h3]
    rw [hun]
    have hne := undo_written (order := order') h4 (undo_goes hp he hst h3 hl hnd)
    refine ⟨hne, write_stepped hws ht hne, fun l => ?_⟩
    have hset := (write_disk hws ht hne).2.1
    show leafAt (writeSource H order' t path old true).1.disk l = _
    rw [hset l]
    by_cases hx : l = placeFor H.ws path
    · rw [if_pos hx, hx]
      exact (leafAt_eq_some.2 ⟨(read_lookup h3).1, fun es h => by cases h⟩).symm
    · rw [if_neg hx, hother l hx]
  · obtain ⟨a1, a2⟩ := absent_read hd h3
    have hun : undoOf H s path = .delete path true := by unfold undoOf; rw [a2]
    rw [hun]
    rcases h2 with ⟨text, rfl⟩ | ⟨_, h2⟩
    · have hne := undo_deleted (order := order')
        (delete_goes hp he (show leafAt t.disk (placeFor H.ws path) = some (.file (some text)) by
          rw [hl, h1, if_pos rfl]))
      refine ⟨hne, delete_stepped ht hne, fun l => ?_⟩
      have hset := (delete_disk ht hne).2.1
      show leafAt (deleteSource H order' t path true).1.disk l = _
      rw [hset l]
      by_cases hx : l = placeFor H.ws path
      · rw [if_pos hx, hx, a1]
      · rw [if_neg hx, hother l hx]
    · exact absurd a1 h2

/-! ## Any number of changes -/

theorem serveAll_append (H : Host) (order : Workspace → Workspace) (s : Server) (xs ys : List Request) :
    serveAll H order s (xs ++ ys) = serveAll H order (serveAll H order s xs) ys := by
  induction xs generalizing s with
  | nil => rfl
  | cons x xs ih => exact ih _

theorem noRefusal_append {H : Host} {order : Workspace → Workspace} {s : Server} {xs ys : List Request} :
    NoRefusal H order s (xs ++ ys) ↔ NoRefusal H order s xs ∧ NoRefusal H order (serveAll H order s xs) ys := by
  induction xs generalizing s with
  | nil => exact ⟨fun h => ⟨trivial, h⟩, fun h => h.2⟩
  | cons x xs ih =>
    show _ ∧ NoRefusal H order _ (xs ++ ys) ↔ (_ ∧ _) ∧ _
    rw [ih, and_assoc]
    rfl

/-- A change makes no directory at the places of the others. -/
theorem stepped_noDir {d d' : FsTree} {loc a : List Str} (h : Stepped d d' loc) (ha : a <+: loc → a = loc)
    (hn : ¬ DirAt d a) : ¬ DirAt d' a := by
  by_cases hx : a = loc
  · rw [hx]; exact h.noDir
  · obtain ⟨u, h1, _⟩ := h.leaves
    exact fun hd => hn ((dirAt_steady (by rw [h1 a, if_neg hx]) h.steady fun hp => hx (ha hp)).1 hd)

theorem undo_all {H : Host} (hws : ∀ n ∈ H.ws, ValidName n) {order order' : Workspace → Workspace}
    {L : List (List Str)} (hL : ∀ a ∈ L, ∀ b ∈ L, a <+: b → a = b) (rs : List Request) :
    ∀ {s : Server}, WellFormed s.disk → Undoable H order s rs → (∀ r ∈ rs, placeFor H.ws r.path ∈ L) →
    ∀ {t : Server}, WellFormed t.disk → (∀ l, leafAt t.disk l = leafAt (serveAll H order s rs).disk l) →
    (∀ a ∈ L, ¬ DirAt t.disk a) →
    let u := serveAll H order' t (undoing H order s rs)
    NoRefusal H order' t (undoing H order s rs) ∧ WellFormed u.disk ∧ (∀ l, leafAt u.disk l = leafAt s.disk l) ∧
      ∀ a ∈ L, ¬ DirAt u.disk a := by
  induction rs with
  | nil => exact fun _ _ _ _ ht hl hn => ⟨trivial, ht, hl, hn⟩
  | cons r rs ih =>
    intro s hd h hin t ht hl hn
    obtain ⟨h1, h2, h3, h4, h5⟩ := h
    have hst := handle_stepped hws hd h3 h1
    obtain ⟨i1, i2, i3, i4⟩ := ih hst.wf h5 (fun q hq => hin q (List.mem_cons_of_mem _ hq)) ht hl hn
    have hr := hin r (by simp)
    obtain ⟨o1, o2, o3⟩ := undo_one hws (order' := order') hd h2 h3 hst h4 i2 i3 (i4 _ hr)
    rw [show undoing H order s (r :: rs) = undoing H order (s.handle H order r).1 rs ++ [undoOf H s r.path] from rfl,
      serveAll_append, noRefusal_append]
    exact ⟨⟨i1, o1, trivial⟩, o2.wf, o3, fun a ha => stepped_noDir o2 (fun hx => hL a ha _ hr hx) (i4 a ha)⟩

/-- The places of the requests are no directories before and after them. -/
theorem undoable_noDir {H : Host} (hws : ∀ n ∈ H.ws, ValidName n) {order : Workspace → Workspace}
    (rs : List Request) : ∀ {s : Server}, WellFormed s.disk → Undoable H order s rs →
    ∀ r ∈ rs, ¬ DirAt s.disk (placeFor H.ws r.path) := by
  induction rs with
  | nil => exact fun _ _ r hr => by cases hr
  | cons r rs ih =>
    intro s hd h q hq
    obtain ⟨h1, h2, h3, h4, h5⟩ := h
    have hst := handle_stepped hws hd h3 h1
    rcases List.mem_cons.1 hq with rfl | hq
    · rintro ⟨es, he⟩
      rcases h4 with ⟨old, h4, _⟩ | h4
      · rw [(read_lookup h4).1] at he; cases he
      · exact h4 _ ((has_iff_lookup hd).2 he)
    · exact fun ⟨es, he⟩ => ih hst.wf h5 q hq (hst.steady.2 _ es he)

theorem serveAll_noDir {H : Host} (hws : ∀ n ∈ H.ws, ValidName n) {order : Workspace → Workspace}
    {L : List (List Str)} (hL : ∀ a ∈ L, ∀ b ∈ L, a <+: b → a = b) (rs : List Request) :
    ∀ {s : Server}, WellFormed s.disk → Undoable H order s rs → (∀ r ∈ rs, placeFor H.ws r.path ∈ L) →
    (∀ a ∈ L, ¬ DirAt s.disk a) →
    WellFormed (serveAll H order s rs).disk ∧ ∀ a ∈ L, ¬ DirAt (serveAll H order s rs).disk a := by
  induction rs with
  | nil => exact fun hd _ _ hn => ⟨hd, hn⟩
  | cons r rs ih =>
    intro s hd h hin hn
    obtain ⟨h1, h2, h3, h4, h5⟩ := h
    have hst := handle_stepped hws hd h3 h1
    exact ih hst.wf h5 (fun q hq => hin q (List.mem_cons_of_mem _ hq))
      fun a ha => stepped_noDir hst (fun hx => hL a ha _ (hin r (by simp)) hx) (hn a ha)

/-- C162: any number of changes can be undone, the last one first and with `force`, since the states in between may have
errors; then everything is as it was. Missing for the full claim: as for the single changes, and changes whose files are
nested in each other (`C162_nested`). -/
theorem C162_all_partial (H : Host) (hws : ∀ n ∈ H.ws, ValidName n) (order order' : Workspace → Workspace)
    (ho : ∀ w, (order' w).Perm w) (s : Server) (hd : WellFormed s.disk) (hs : Serves H s) (hr : Readable H.ws s.disk)
    (rs : List Request) (hne : rs ≠ []) (h : Undoable H order s rs) (hn : NotNested H rs) :
    let t := serveAll H order s rs
    NoRefusal H order' t (undoing H order s rs) ∧ Restored H s (serveAll H order' t (undoing H order s rs)) := by
  have hL : ∀ a ∈ rs.map fun r => placeFor H.ws r.path, ∀ b ∈ rs.map fun r => placeFor H.ws r.path, a <+: b → a = b := by
    intro a ha b hb
    obtain ⟨r, hr, rfl⟩ := List.mem_map.1 ha
    obtain ⟨q, hq, rfl⟩ := List.mem_map.1 hb
    exact hn r hr q hq
  have hin : ∀ r ∈ rs, placeFor H.ws r.path ∈ rs.map fun r => placeFor H.ws r.path :=
    fun r hr => List.mem_map.2 ⟨r, hr, rfl⟩
  have hnd : ∀ a ∈ rs.map fun r => placeFor H.ws r.path, ¬ DirAt s.disk a := by
    intro a ha
    obtain ⟨r, hr, rfl⟩ := List.mem_map.1 ha
    exact undoable_noDir hws rs hd h r hr
  obtain ⟨t1, t2⟩ := serveAll_noDir hws hL rs hd h hin hnd
  intro t
  refine ⟨(undo_all hws hL rs hd h hin t1 (fun _ => rfl) t2).1, ?_⟩
  clear hnd
  cases rs with
  | nil => exact absurd rfl hne
  | cons r rs =>
    obtain ⟨h1, h2, h3, h4, h5⟩ := h
    have hst := handle_stepped hws hd h3 h1
    obtain ⟨i1, i2, i3, i4⟩ := undo_all hws (order' := order') hL rs hst.wf h5
      (fun q hq => hin q (List.mem_cons_of_mem _ hq)) t1 (fun _ => rfl) t2
    have hrin := hin r (by simp)
    obtain ⟨u, k1, k2⟩ := hst.leaves
    rw [show undoing H order s (r :: rs) = undoing H order (s.handle H order r).1 rs ++ [undoOf H s r.path] from rfl,
      serveAll_append]
    have hset : LeafSet s.disk (serveAll H order' t (undoing H order (s.handle H order r).1 rs)).disk
        (placeFor H.ws r.path) u := fun l => by rw [← k1 l]; exact i3 l
    rcases h4 with ⟨old, h6, h7⟩ | h6
    · have hun : undoOf H s r.path = .write r.path old true := by unfold undoOf; rw [h6]
      rw [hun]
      exact (write_restores hws ho hd hs hr h2 h3 h7 (read_lookup h6).1 i2 hset
        (undo_goes h2 h3 hst h6 i3 (i4 _ hrin)) true).2
    · obtain ⟨a1, a2⟩ := absent_read hd h6
      have hun : undoOf H s r.path = .delete r.path true := by unfold undoOf; rw [a2]
      rw [hun]
      rcases k2 with ⟨text, rfl⟩ | ⟨_, k2⟩
      · exact (delete_restores hws ho hd hs hr h2 h3 (fun u _ => h6 u) i2 hset true).2
      · exact absurd a1 k2

/-! ## What cannot be undone -/

/-- Three changes of the sample workspace: a text, a new file in a new directory, and the old file deleted. -/
def exUndoRequests : List Request :=
  [.write "a.firm".toList "new".toList false, .write "b/c.firm".toList "more".toList false,
    .replace "a.firm".toList "n".toList "m".toList false false, .delete "a.firm".toList false]

/-- C162 is false for changes whose files are nested: a file is deleted and its name is used for a directory, which stays
when the file in it is deleted, so that the first file cannot be written again. -/
theorem C162_nested : let s := exUndoServer "a.firm" "x"
    let rs := [Request.delete "a.firm".toList false, .write "a.firm/b.firm".toList "y".toList false]
    Serves exUndoHost s ∧ NoRefusal exUndoHost id s rs ∧
    undoing exUndoHost id s rs = [.delete "a.firm/b.firm".toList true, .write "a.firm".toList "x".toList true] ∧
    ((serveAll exUndoHost id s (rs ++ [.delete "a.firm/b.firm".toList true])).handle exUndoHost id
      (.write "a.firm".toList "x".toList true)).2 = .error := by
  refine ⟨(exUndo_ok _ _ exUndo_a.1 exUndo_a.2).2.2, ⟨by decide +kernel, by decide +kernel, trivial⟩, ?_, by decide +kernel⟩
  have h1 : readSourceFile (exUndoServer "a.firm" "x").disk exUndoHost.ws "a.firm".toList = some "x".toList := by
    decide +kernel
  have h2 : readSourceFile ((exUndoServer "a.firm" "x").handle exUndoHost id (.delete "a.firm".toList false)).1.disk
      exUndoHost.ws "a.firm/b.firm".toList = none := by decide +kernel
  show [undoOf _ _ _] ++ [undoOf _ _ _] = _
  unfold undoOf
  dsimp only [Request.path]
  rw [h1, h2]
  rfl

/-- Not vacuous: the four changes can be undone. -/
example : Undoable exUndoHost id (exUndoServer "a.firm" "x") exUndoRequests ∧ NotNested exUndoHost exUndoRequests := by
  have hp : ∀ p : Str, p.head? ≠ some '/' → strContains p "..".toList = false → DotlessPath p := fun p h1 h2 =>
    ⟨h1, fun h => by rw [(strContains_iff _ _).2 h] at h2; cases h2⟩
  have ha : DotlessPath "a.firm".toList := hp _ (by decide) (by decide)
  have hb : DotlessPath "b/c.firm".toList := hp _ (by decide) (by decide)
  constructor
  · refine ⟨by decide +kernel, ha, by decide +kernel, .inl ⟨"x".toList, by decide +kernel, by decide +kernel⟩,
      by decide +kernel, hb, by decide +kernel, .inr ?_,
      by decide +kernel, ha, by decide +kernel, .inl ⟨"new".toList, by decide +kernel, by decide +kernel⟩,
      by decide +kernel, ha, by decide +kernel, .inl ⟨"mew".toList, by decide +kernel, by decide +kernel⟩, trivial⟩
    intro u h
    have hd : WellFormed ((exUndoServer "a.firm" "x").handle exUndoHost id (.write "a.firm".toList "new".toList false)).1.disk :=
      (handle_stepped (H := exUndoHost) (r := .write "a.firm".toList "new".toList false)
        (fun n hn => by rw [List.mem_singleton.1 hn]; exact ⟨by decide, by decide, by decide, by decide⟩)
        (exUndo_ok _ _ exUndo_a.1 exUndo_a.2).1 (by decide +kernel) (by decide +kernel)).wf
    have h0 : (((exUndoServer "a.firm" "x").handle exUndoHost id (.write "a.firm".toList "new".toList false)).1.disk.lookup
        (placeFor exUndoHost.ws "b/c.firm".toList)).isNone = true := by decide +kernel
    dsimp only [Request.path] at h
    have := (has_iff_lookup hd).1 h
    rw [Option.isNone_iff_eq_none.1 h0] at this
    cases this
  · show ∀ r ∈ exUndoRequests, ∀ q ∈ exUndoRequests, _
    have e1 : placeFor exUndoHost.ws "a.firm".toList = ["w".toList, "a.firm".toList] := by decide +kernel
    have e2 : placeFor exUndoHost.ws "b/c.firm".toList = ["w".toList, "b".toList, "c.firm".toList] := by decide +kernel
    have key : ∀ r ∈ exUndoRequests, placeFor exUndoHost.ws r.path = ["w".toList, "a.firm".toList] ∨
        placeFor exUndoHost.ws r.path = ["w".toList, "b".toList, "c.firm".toList] := by
      intro r hr
      simp only [exUndoRequests, List.mem_cons, List.not_mem_nil, or_false] at hr
      rcases hr with rfl | rfl | rfl | rfl
      · exact .inl e1
      · exact .inr e2
      · exact .inl e1
      · exact .inl e1
    intro r hr q hq h
    rcases key r hr with h1 | h1 <;> rcases key q hq with h2 | h2 <;> rw [h1, h2] at h ⊢
    · exact absurd h (by decide)
    · exact absurd h (by decide)

end Firm
