import Verif.Lemmas.Load
import Verif.Model.Main

/-!
# The graph files on the disk
-/

namespace Firm

open Spec

theorem place_nil (t new : FsTree) : t.place [] new = new := by cases t <;> simp [FsTree.place]

/-- What is at the parent after placing. -/
theorem lookup_place_parent {d new : FsTree} {p : List Str} {n : Str} {es : List (Str × FsTree)}
    (h : d.lookup p = some (.dir (some es))) :
    (d.place (p ++ [n]) new).lookup p = some (.dir (some (mapInsert es n new))) := by
  induction p generalizing d with
  | nil =>
    rw [lookup_nil] at h; cases h
    rw [List.nil_append, FsTree.place, lookup_nil, place_nil]
  | cons m p ih =>
    obtain ⟨fs, c, rfl, hg, hc⟩ := lookup_cons_some h
    rw [List.cons_append, FsTree.place, lookup_dir, mapGet_mapInsert, if_pos rfl, hg]
    exact ih hc

theorem remove_cons {fs : List (Str × FsTree)} {c : FsTree} {m n : Str} {p : List Str} (hg : mapGet fs m = some c) :
    (FsTree.dir (some fs)).remove (m :: p ++ [n]) = .dir (some (mapInsert fs m (c.remove (p ++ [n])))) := by
  cases p with
  | nil => show FsTree.remove _ [m, n] = _; rw [FsTree.remove, hg]; rfl
  | cons q p => show FsTree.remove _ (m :: q :: (p ++ [n])) = _; rw [FsTree.remove, hg]; rfl

/-- What is at the parent after removing. -/
theorem lookup_remove_dir {d : FsTree} {p : List Str} {n : Str} {es : List (Str × FsTree)}
    (h : d.lookup p = some (.dir (some es))) :
    (d.remove (p ++ [n])).lookup p = some (.dir (some (es.filter fun q => decide (q.1 ≠ n)))) := by
  induction p generalizing d with
  | nil =>
    rw [lookup_nil] at h; cases h
    rw [List.nil_append, FsTree.remove, lookup_nil]
  | cons m p ih =>
    obtain ⟨fs, c, rfl, hg, hc⟩ := lookup_cons_some h
    rw [remove_cons hg, lookup_dir, mapGet_mapInsert, if_pos rfl]
    exact ih hc

/-- Placing changes nothing elsewhere. -/
theorem leafAt_place_away {d new : FsTree} {p : List Str} {n : Str} {es : List (Str × FsTree)}
    (h : d.lookup p = some (.dir (some es))) {l : List Str} (hl : ¬ p ++ [n] <+: l) :
    leafAt (d.place (p ++ [n]) new) l = leafAt d l := by
  induction p generalizing d l with
  | nil =>
    rw [lookup_nil] at h; cases h
    rw [List.nil_append, FsTree.place, place_nil]
    cases l with
    | nil => rw [leafAt_dir_nil, leafAt_dir_nil]
    | cons m l =>
      rw [leafAt_cons, leafAt_cons, mapGet_mapInsert, if_neg]
      rintro rfl
      exact hl ⟨l, rfl⟩
  | cons m p ih =>
    obtain ⟨fs, c, rfl, hg, hc⟩ := lookup_cons_some h
    rw [List.cons_append, FsTree.place, hg, Option.getD_some]
    cases l with
    | nil => rw [leafAt_dir_nil, leafAt_dir_nil]
    | cons k l =>
      rw [leafAt_cons, leafAt_cons, mapGet_mapInsert]
      by_cases hk : m = k
      · subst hk
        rw [if_pos rfl, hg]
        show leafAt (c.place (p ++ [n]) new) l = leafAt c l
        refine ih hc fun ⟨r, hr⟩ => hl ⟨r, ?_⟩
        rw [List.cons_append, List.cons_append, hr]
      · rw [if_neg hk]

/-- Removing changes nothing elsewhere. -/
theorem leafAt_remove_away {d : FsTree} {p : List Str} {n : Str} {es : List (Str × FsTree)}
    (h : d.lookup p = some (.dir (some es))) {l : List Str} (hl : ¬ p ++ [n] <+: l) :
    leafAt (d.remove (p ++ [n])) l = leafAt d l := by
  induction p generalizing d l with
  | nil =>
    rw [lookup_nil] at h; cases h
    rw [List.nil_append, FsTree.remove]
    cases l with
    | nil => rw [leafAt_dir_nil, leafAt_dir_nil]
    | cons m l =>
      rw [leafAt_cons, leafAt_cons, mapGet_filter, if_neg]
      rintro rfl
      exact hl ⟨l, rfl⟩
  | cons m p ih =>
    obtain ⟨fs, c, rfl, hg, hc⟩ := lookup_cons_some h
    rw [remove_cons hg]
    cases l with
    | nil => rw [leafAt_dir_nil, leafAt_dir_nil]
    | cons k l =>
      rw [leafAt_cons, leafAt_cons, mapGet_mapInsert]
      by_cases hk : m = k
      · subst hk
        rw [if_pos rfl, hg]
        show leafAt (c.remove (p ++ [n])) l = leafAt c l
        refine ih hc fun ⟨r, hr⟩ => hl ⟨r, ?_⟩
        rw [List.cons_append, List.cons_append, hr]
      · rw [if_neg hk]

/-- The two graph files have different names. -/
theorem graph_names : currentName ≠ backupName := by decide

theorem not_firm_current : isFirmFile currentName = false := by decide

theorem not_firm_backup : isFirmFile backupName = false := by decide

/-- The result of a rename. -/
theorem rename_eq {d d' : FsTree} {src dst : List Str} (h : d.rename src dst = some d') :
    ∃ t, d.lookup src = some t ∧ d' = (d.remove src).place dst t := by
  unfold FsTree.rename at h
  split at h
  · cases h
  · next e he =>
    split at h
    · cases h; exact ⟨_, he, rfl⟩
    · cases h; exact ⟨_, he, rfl⟩
    · cases h
  · next t _ he =>
    split at h
    · cases h
    · cases h; exact ⟨_, he, rfl⟩

/-- The backup step in terms of the entries of the workspace directory. -/
theorem setGraphAside_eq {ws : List Str} {d d1 : FsTree} {es : List (Str × FsTree)}
    (hes : d.lookup ws = some (.dir (some es))) (h : setGraphAside ws d = some d1) :
    (d1 = d ∧ d.lookup (ws ++ [currentName]) = none) ∨
    ∃ t, d.lookup (ws ++ [currentName]) = some t ∧
      d1 = (d.remove (ws ++ [currentName])).place (ws ++ [backupName]) t ∧
      d1.lookup ws = some (.dir (some (mapInsert (es.filter fun q => decide (q.1 ≠ currentName)) backupName t))) := by
  unfold setGraphAside at h
  split at h
  · next he => cases h; exact .inl ⟨rfl, he⟩
  · next t he =>
    obtain ⟨u, hu, rfl⟩ := rename_eq h
    exact .inr ⟨u, hu, rfl, lookup_place_parent (lookup_remove_dir hes)⟩

theorem lookup_child {d : FsTree} {p : List Str} {n : Str} {es : List (Str × FsTree)}
    (h : d.lookup p = some (.dir (some es))) : d.lookup (p ++ [n]) = mapGet es n := by
  rw [lookup_append, h]
  show (FsTree.dir (some es)).lookup [n] = _
  rw [lookup_dir]
  cases mapGet es n with
  | none => rfl
  | some t => exact lookup_nil t

/-- Saving succeeds once the old graph is out of the way. -/
theorem writeGraph_ok {ws : List Str} {d d1 : FsTree} {es : List (Str × FsTree)} (text : Str)
    (hes : d.lookup ws = some (.dir (some es))) (h : setGraphAside ws d = some d1) :
    ∃ d2 es1, d1.writeFile (ws ++ [currentName]) text = some d2 ∧ d1.lookup ws = some (.dir (some es1)) ∧
      d2 = d1.place (ws ++ [currentName]) (.file (some text)) := by
  have key : ∀ es1, d1.lookup ws = some (.dir (some es1)) → d1.lookup (ws ++ [currentName]) = none →
      d1.writeFile (ws ++ [currentName]) text = some (d1.place (ws ++ [currentName]) (.file (some text))) := by
    intro es1 h1 h2
    unfold FsTree.writeFile
    rw [h2]
    dsimp only
    rw [List.dropLast_concat, h1]
  rcases setGraphAside_eq hes h with ⟨rfl, hn⟩ | ⟨t, ht, _, hl⟩
  · exact ⟨_, es, key es hes hn, hes, rfl⟩
  · refine ⟨_, _, key _ hl ?_, hl, rfl⟩
    rw [lookup_child hl, mapGet_mapInsert, if_neg graph_names.symm, mapGet_filter, if_pos rfl]

/-- What saving does, whatever was there before. -/
theorem saveGraphFile_cases (C : Codec) (o : MapOrder) {ws : List Str} {d : FsTree} {es : List (Str × FsTree)} (g : Graph)
    (hes : d.lookup ws = some (.dir (some es))) :
    (saveGraphFile C o ws d g = (d, false) ∧ setGraphAside ws d = none) ∨
    ∃ d1 d2 es1, saveGraphFile C o ws d g = (d2, true) ∧ setGraphAside ws d = some d1 ∧
      d1.lookup ws = some (.dir (some es1)) ∧ d2 = d1.place (ws ++ [currentName]) (.file (some (graphText C o g))) ∧
      d2.lookup (ws ++ [currentName]) = some (.file (some (graphText C o g))) := by
  unfold saveGraphFile
  cases hs : setGraphAside ws d with
  | none => exact .inl ⟨rfl, rfl⟩
  | some d1 =>
    obtain ⟨d2, es1, h1, h2, h3⟩ := writeGraph_ok (graphText C o g) hes hs
    refine .inr ⟨d1, d2, es1, ?_, rfl, h2, h3, ?_⟩
    · dsimp only
      rw [h1]
    · rw [h3]
      exact lookup_place h2

/-- Saving changes nothing but the two graph files. -/
theorem saveGraphFile_frame (C : Codec) (o : MapOrder) {ws : List Str} {d : FsTree} {es : List (Str × FsTree)} (g : Graph)
    (hes : d.lookup ws = some (.dir (some es))) {l : List Str} (h1 : ¬ ws ++ [currentName] <+: l)
    (h2 : ¬ ws ++ [backupName] <+: l) : leafAt (saveGraphFile C o ws d g).1 l = leafAt d l := by
  rcases saveGraphFile_cases C o g hes with ⟨h, _⟩ | ⟨d1, d2, es1, h, hs, hl1, h3, _⟩
  · rw [h]
  · rw [h]
    subst h3
    show leafAt (d1.place _ _) l = _
    rw [leafAt_place_away hl1 h1]
    rcases setGraphAside_eq hes hs with ⟨rfl, _⟩ | ⟨t, _, rfl, _⟩
    · rfl
    · rw [leafAt_place_away (lookup_remove_dir hes) h2, leafAt_remove_away hes h1]

/-! ## Loading does not see the graph files -/

theorem mapInsert_filter {β : Type} (m : List (Str × β)) (k : Str) (v : β) (f : Str → Bool) (hk : f k = false) :
    (mapInsert m k v).filter (fun q => f q.1) = m.filter (fun q => f q.1) := by
  induction m with
  | nil => simp [mapInsert, hk]
  | cons p m ih =>
    obtain ⟨k', v'⟩ := p
    rw [mapInsert]
    by_cases h : k' = k
    · subst h
      rw [if_pos rfl, List.filter_cons_of_neg (by simp [hk]), List.filter_cons_of_neg (by simp [hk])]
    · rw [if_neg h, List.filter_cons, List.filter_cons, ih]

/-- The names of the graph files. -/
def isGraphName (n : Str) : Bool := n == currentName || n == backupName

theorem isGraphName_iff {n : Str} : isGraphName n = true ↔ n = currentName ∨ n = backupName := by
  simp [isGraphName]

theorem loadEntries_skip (grammar : Str → Node) (base path : Str) : ∀ (w : Workspace) (es : List (Str × FsTree)),
    (∀ q ∈ es, isGraphName q.1 = true → ∀ e, q.2 ≠ .dir e) →
    loadEntries grammar base w path es = loadEntries grammar base w path (es.filter fun q => !isGraphName q.1) := by
  intro w es
  induction es generalizing w with
  | nil => intro _; rfl
  | cons q es ih =>
    intro h
    obtain ⟨n, t⟩ := q
    have h' : ∀ q ∈ es, isGraphName q.1 = true → ∀ e, q.2 ≠ .dir e := fun q hq => h q (List.mem_cons_of_mem _ hq)
    cases hn : isGraphName n with
    | true =>
      rw [List.filter_cons_of_neg (by simp [hn])]
      have hf : isFirmFile n = false := by
        rcases isGraphName_iff.1 hn with rfl | rfl
        · exact not_firm_current
        · exact not_firm_backup
      cases t with
      | dir e => exact absurd rfl (h (n, .dir e) List.mem_cons_self hn e)
      | file text => rw [loadEntries, if_neg (by simp [hf])]; exact ih w h'
      | other => rw [loadEntries]; exact ih w h'
    | false =>
      rw [List.filter_cons_of_pos (by simp [hn])]
      cases t with
      | dir e =>
        rw [loadEntries, loadEntries]
        split
        · exact ih _ h'
        · rfl
      | file text =>
        rw [loadEntries, loadEntries]
        split
        · split
          · exact ih _ h'
          · rfl
        · exact ih _ h'
      | other => rw [loadEntries, loadEntries]; exact ih _ h'

/-- Two directories with the same entries but for the graph files load in the same way. -/
theorem loadTree_skip (grammar : Str → Node) (base path : Str) (w : Workspace) {es es' : List (Str × FsTree)}
    (h : ∀ q ∈ es, isGraphName q.1 = true → ∀ e, q.2 ≠ .dir e) (h' : ∀ q ∈ es', isGraphName q.1 = true → ∀ e, q.2 ≠ .dir e)
    (hf : es.filter (fun q => !isGraphName q.1) = es'.filter (fun q => !isGraphName q.1)) :
    loadTree grammar base w path (.dir (some es)) = loadTree grammar base w path (.dir (some es')) := by
  rw [loadTree, loadTree, loadEntries_skip grammar base path w es h, hf, ← loadEntries_skip grammar base path w es' h']

theorem mapGet_found {β : Type} {m : List (Str × β)} {k : Str} {v : β} (h : mapGet m k = some v) : (k, v) ∈ m := by
  induction m with
  | nil => cases h
  | cons p m ih =>
    obtain ⟨k', v'⟩ := p
    rw [mapGet] at h
    split at h
    · next hk => cases h; rw [hk]; exact List.mem_cons_self
    · exact List.mem_cons_of_mem _ (ih h)

/-- Saving the graph does not change what is loaded. -/
theorem loadFiles_save (H : Host) (C : Codec) (o : MapOrder) {d : FsTree} {es : List (Str × FsTree)} (g : Graph)
    (hes : d.lookup H.ws = some (.dir (some es))) (hg : ∀ q ∈ es, isGraphName q.1 = true → ∀ e, q.2 ≠ .dir e) :
    loadFiles H (saveGraphFile C o H.ws d g).1 = loadFiles H d := by
  rcases saveGraphFile_cases C o g hes with ⟨h, _⟩ | ⟨d1, d2, es1, h, hs, hl1, h3, _⟩
  · rw [h]
  · rw [h]
    subst h3
    have hl2 := lookup_place_parent (n := currentName) (new := .file (some (graphText C o g))) hl1
    have h1 : (∀ q ∈ es1, isGraphName q.1 = true → ∀ e, q.2 ≠ .dir e) ∧
        es1.filter (fun q => !isGraphName q.1) = es.filter (fun q => !isGraphName q.1) := by
      rcases setGraphAside_eq hes hs with ⟨rfl, _⟩ | ⟨t, ht, _, hl⟩
      · rw [hes] at hl1
        cases hl1
        exact ⟨hg, rfl⟩
      · rw [hl] at hl1
        cases hl1
        rw [lookup_child hes] at ht
        have hmem : (currentName, t) ∈ es := mapGet_found ht
        constructor
        · intro q hq hn
          rcases (mem_mapInsert hq).symm with rfl | hq
          · exact hg (currentName, t) hmem (isGraphName_iff.2 (.inl rfl))
          · exact hg q (List.mem_filter.1 hq).1 hn
        · rw [mapInsert_filter _ _ _ (fun n => !isGraphName n) (by decide), List.filter_filter]
          congr 1
          funext q
          by_cases hq : q.1 = currentName
          · have : isGraphName q.1 = true := isGraphName_iff.2 (.inl hq)
            simp [this]
          · simp [hq]
    have h2 : ∀ q ∈ mapInsert es1 currentName (.file (some (graphText C o g))), isGraphName q.1 = true → ∀ e, q.2 ≠ .dir e := by
      intro q hq hn
      rcases (mem_mapInsert hq).symm with rfl | hq
      · intro e he; cases he
      · exact h1.1 q hq hn
    unfold loadFiles
    rw [hl2, hes]
    dsimp only
    unfold Workspace.loadDirectory
    rw [loadTree_skip H.grammar (placeText H.ws) (placeText H.ws) [] h2 hg
      ((mapInsert_filter _ _ _ (fun n => !isGraphName n) (by decide)).trans h1.2)]

end Firm
