import Verif.Model.Listing
import Verif.Props.Forged
import Verif.Props.Printed
import Verif.Props.Shown
import Verif.Props.Tools

/-!
# C178: the texts of `source_tree` and `search_source` tell what they list

What the tools list is C61 and C63. Here: the listing can be read off the text of the reply, as long as no
line breaks occur in the names of files and in the query.
-/

namespace Firm

open Spec

/-! ## Texts of lines -/

theorem unlines_tail : ∀ {a b : List Str} {x y : Str}, (∀ l ∈ a, '\n' ∉ l) → (∀ l ∈ b, '\n' ∉ l) → '\n' ∉ x → '\n' ∉ y →
    unlines a ++ x = unlines b ++ y → a = b ∧ x = y
  | [], [], _, _, _, _, _, _, h => ⟨rfl, h⟩
  | [], l :: b, x, y, _, _, hx, _, h => by
    refine absurd ?_ hx
    rw [show x = unlines (l :: b) ++ y from h]
    simp [unlines]
  | l :: a, [], x, y, _, _, _, hy, h => by
    refine absurd ?_ hy
    rw [show y = unlines (l :: a) ++ x from h.symm]
    simp [unlines]
  | l :: a, l' :: b, x, y, ha, hb, hx, hy, h => by
    have h' : l ++ '\n' :: (unlines a ++ x) = l' ++ '\n' :: (unlines b ++ y) := by
      simpa [unlines] using h
    obtain ⟨e1, e2⟩ := cut_inj (ha l List.mem_cons_self) (hb l' List.mem_cons_self) h'
    obtain ⟨e3, e4⟩ := unlines_tail (fun m hm => ha m (List.mem_cons_of_mem _ hm))
      (fun m hm => hb m (List.mem_cons_of_mem _ hm)) hx hy e2
    exact ⟨by rw [e1, e3], e4⟩

theorem trimEnd_body {a b : Str} (h : trimEnd b ≠ []) : trimEnd (a ++ b) = a ++ trimEnd b := by
  have hd : b.reverse.dropWhile isWs ≠ [] := fun hc => h (by unfold trimEnd; rw [hc]; rfl)
  unfold trimEnd
  rw [List.reverse_append, List.dropWhile_append, if_neg (by rwa [List.isEmpty_iff]), List.reverse_append,
    List.reverse_reverse]

theorem trimEnd_end {a : Str} {c : Char} (h : isWs c = false) : trimEnd (a ++ [c]) = a ++ [c] := by
  unfold trimEnd
  rw [List.reverse_append, List.reverse_singleton, List.singleton_append, List.dropWhile_cons, if_neg (by simp [h]),
    List.reverse_cons, List.reverse_reverse]

/-- A text of lines, the last of which ends in something else than white space, without its last line break. -/
theorem trimEnd_unlines {ls : List Str} {l : Str} {c : Char} (h : isWs c = false) :
    trimEnd (unlines (ls ++ [l ++ [c]])) = unlines ls ++ (l ++ [c]) := by
  have e : unlines (ls ++ [l ++ [c]]) = (unlines ls ++ l ++ [c]) ++ ['\n'] := by simp [unlines]
  rw [e, trimEnd_ws (by intro x hx; rw [List.mem_singleton.1 hx]; decide), trimEnd_end h, List.append_assoc]

/-! ## C178: the tree -/

/-- The lines of the tree. -/
def treeLines (t : List (Str × List Str)) : List Str :=
  t.flatMap fun g => if g.1 = [] then g.2 else (g.1 ++ ['/']) :: g.2.map ("  ".toList ++ ·)

theorem treeLines_text (t : List (Str × List Str)) : t.flatMap showDirectory = unlines (treeLines t) := by
  induction t with
  | nil => rfl
  | cons g t ih =>
    have e : treeLines (g :: t) =
        (if g.1 = [] then g.2 else (g.1 ++ ['/']) :: g.2.map ("  ".toList ++ ·)) ++ treeLines t := by
      rw [treeLines, List.flatMap_cons, ← treeLines]
    rw [List.flatMap_cons, ih, e, unlines_append]
    congr 1
    unfold showDirectory
    split
    · rfl
    · simp [unlines, List.flatMap_map]

/-- Reading the lines: those that end in a slash name the directory of the following ones. -/
def readTree : Str → List Str → List (Str × Str)
  | _, [] => []
  | cur, l :: ls =>
    if l.getLast? = some '/' then readTree l.dropLast ls
    else (cur, if cur = [] then l else l.drop 2) :: readTree cur ls

theorem readTree_files {cur : Str} {fs : List Str} (hf : ∀ f ∈ fs, f.getLast? = some 'm') (rest : List Str) :
    readTree cur ((if cur = [] then fs else fs.map ("  ".toList ++ ·)) ++ rest) =
      fs.map (fun f => (cur, f)) ++ readTree cur rest := by
  induction fs with
  | nil => split <;> rfl
  | cons f fs ih =>
    have ih := ih fun g hg => hf g (List.mem_cons_of_mem _ hg)
    have hl := hf f List.mem_cons_self
    by_cases hc : cur = []
    · rw [if_pos hc] at ih ⊢
      rw [List.cons_append, readTree, if_neg (by rw [hl]; decide), if_pos hc, ih]
      rfl
    · rw [if_neg hc] at ih ⊢
      have hl' : ("  ".toList ++ f).getLast? = some 'm' := by
        rw [List.getLast?_append, hl]; rfl
      rw [List.map_cons, List.cons_append, readTree, if_neg (by rw [hl']; decide), if_neg hc, ih]
      rfl

theorem readTree_dirs {cur : Str} {t : List (Str × List Str)} (ht : ∀ g ∈ t, g.1 ≠ [])
    (hf : ∀ p ∈ flatTree t, p.2.getLast? = some 'm') : readTree cur (treeLines t) = flatTree t := by
  induction t generalizing cur with
  | nil => rfl
  | cons g t ih =>
    have hg := ht g List.mem_cons_self
    have hf1 : ∀ f ∈ g.2, f.getLast? = some 'm' := fun f hfm => hf (g.1, f) (by
      rw [flatTree, List.flatMap_cons]
      exact List.mem_append_left _ (List.mem_map.2 ⟨f, hfm, rfl⟩))
    have hf2 : ∀ p ∈ flatTree t, p.2.getLast? = some 'm' := fun p hp => hf p (by
      rw [flatTree, List.flatMap_cons]
      exact List.mem_append_right _ hp)
    have key := readTree_files (cur := g.1) hf1 (treeLines t)
    rw [if_neg hg] at key
    rw [treeLines, List.flatMap_cons, if_neg hg, List.cons_append, readTree, if_pos (by simp), List.dropLast_concat,
      ← treeLines, key, ih (fun x hx => ht x (List.mem_cons_of_mem _ hx)) hf2, flatTree, flatTree, List.flatMap_cons]

theorem strCmp_not_nil {a b : Str} (h : strCmp a b = .lt) : b ≠ [] := by
  rintro rfl
  cases a with
  | nil => exact strCmp_lt_irrefl [] h
  | cons c a => cases h

theorem readTree_tree {t : List (Str × List Str)} (ht : (t.map (·.1)).Pairwise fun a b => strCmp a b = .lt)
    (hf : ∀ p ∈ flatTree t, p.2.getLast? = some 'm') : readTree [] (treeLines t) = flatTree t := by
  cases t with
  | nil => rfl
  | cons g t =>
    rw [List.map_cons, List.pairwise_cons] at ht
    have hne : ∀ x ∈ t, x.1 ≠ [] := fun x hx => strCmp_not_nil (ht.1 x.1 (List.mem_map.2 ⟨x, hx, rfl⟩))
    by_cases hg : g.1 = []
    · have hf1 : ∀ f ∈ g.2, f.getLast? = some 'm' := fun f hfm => hf (g.1, f) (by
        rw [flatTree, List.flatMap_cons]
        exact List.mem_append_left _ (List.mem_map.2 ⟨f, hfm, rfl⟩))
      have hf2 : ∀ p ∈ flatTree t, p.2.getLast? = some 'm' := fun p hp => hf p (by
        rw [flatTree, List.flatMap_cons]
        exact List.mem_append_right _ hp)
      have key := readTree_files (cur := []) hf1 (treeLines t)
      rw [if_pos rfl] at key
      rw [treeLines, List.flatMap_cons, if_pos hg, ← treeLines, key, readTree_dirs hne hf2, flatTree, flatTree,
        List.flatMap_cons, hg]
    · refine readTree_dirs (fun x hx => ?_) hf
      rcases List.mem_cons.1 hx with rfl | hx
      · exact hg
      · exact hne x hx

/-- No line breaks in the paths of the source files. -/
def Spec.PlainPaths (d : FsTree) (ws : List Str) : Prop :=
  ∀ loc text, FirmFile d ws loc text → ∀ n ∈ loc, '\n' ∉ n

theorem joined_no_newline {ns : List Str} (h : ∀ n ∈ ns, '\n' ∉ n) : '\n' ∉ joinWith ['/'] ns := fun hc => by
  rcases mem_joinWith hc with hc | ⟨p, hp, hc⟩
  · exact absurd hc (by decide)
  · exact h p hp hc

theorem joined_mem {c : Char} {n : Str} : ∀ {ns : List Str}, n ∈ ns → c ∈ n → c ∈ joinWith ['/'] ns
  | [], h, _ => by cases h
  | [m], h, hc => by rw [List.mem_singleton.1 h] at hc; exact hc
  | m :: m' :: ns, h, hc => by
    rw [joinWith]
    rcases List.mem_cons.1 h with rfl | h
    · exact List.mem_append_left _ (List.mem_append_left _ hc)
    · exact List.mem_append_right _ (joined_mem h hc)

theorem joinedNames_inj {da db : List Str} (va : ∀ n ∈ da, ValidName n) (vb : ∀ n ∈ db, ValidName n)
    (e : joinWith ['/'] da = joinWith ['/'] db) : da = db := by
  by_cases hda : da = []
  · subst hda
    rcases joinWith_eq_nil (c := '/') (ps := db) e.symm with h | h
    · exact h.symm
    · rw [h] at vb; exact absurd rfl (vb [] (by simp)).nonempty
  · by_cases hdb : db = []
    · subst hdb
      rcases joinWith_eq_nil (c := '/') (ps := da) e with h | h
      · exact h
      · rw [h] at va; exact absurd rfl (va [] (by simp)).nonempty
    · have x1 := splitChar_join hda fun n hn => (va n hn).noSlash
      have x2 := splitChar_join hdb fun n hn => (vb n hn).noSlash
      rw [e, x2] at x1
      exact x1.symm

theorem firmName_end {n : Str} (h : FirmName n) : n.getLast? = some 'm' := by
  obtain ⟨stem, _, rfl⟩ := h
  rw [List.getLast?_append]; rfl

theorem pushFile_some (dir file : Str) {t : List (Str × List Str)} (h : ∀ g ∈ t, g.2 ≠ []) :
    ∀ g ∈ pushFile dir file t, g.2 ≠ [] := by
  induction t with
  | nil =>
    intro g hg
    rw [pushFile] at hg
    rw [List.mem_singleton.1 hg]
    exact List.cons_ne_nil _ _
  | cons x t ih =>
    obtain ⟨d, fs⟩ := x
    intro g hg
    rw [pushFile] at hg
    split at hg
    · rcases List.mem_cons.1 hg with rfl | hg
      · exact List.cons_ne_nil _ _
      · exact h g hg
    · rcases List.mem_cons.1 hg with rfl | hg
      · simp
      · exact h g (List.mem_cons_of_mem _ hg)
    · rcases List.mem_cons.1 hg with rfl | hg
      · exact h _ List.mem_cons_self
      · exact ih (fun x hx => h x (List.mem_cons_of_mem _ hx)) g hg

theorem sourceTree_some (ws : Str) (w : Workspace) : ∀ g ∈ sourceTree ws w, g.2 ≠ [] := by
  have key : ∀ (ps : List Str) (t : List (Str × List Str)), (∀ g ∈ t, g.2 ≠ []) →
      ∀ g ∈ ps.foldl (fun t p => pushFile (splitDir p).1 (splitDir p).2 t) t, g.2 ≠ [] := by
    intro ps
    induction ps with
    | nil => exact fun t h => h
    | cons p ps ih => exact fun t h => ih _ (pushFile_some _ _ h)
  exact key _ [] (by simp)

/-- What the lines of a tree look like. -/
theorem tree_shape {H : Host} {d : FsTree} (hd : WellFormed d) {w : Workspace} (hw : LoadsAs H.grammar H.ws d w)
    (hp : PlainPaths d H.ws) :
    (∀ p ∈ flatTree (sourceTree (placeText H.ws) w), p.2.getLast? = some 'm') ∧
    (∀ l ∈ treeLines (sourceTree (placeText H.ws) w), '\n' ∉ l) ∧
    ∀ l ∈ treeLines (sourceTree (placeText H.ws) w), ∃ s c, l = s ++ [c] ∧ (c = '/' ∨ c = 'm') := by
  obtain ⟨_, _, h3⟩ := C63_tree H d hd w hw
  have hend : ∀ p ∈ flatTree (sourceTree (placeText H.ws) w), p.2.getLast? = some 'm' := by
    rintro ⟨dir, file⟩ hm
    obtain ⟨dirs, text, ⟨⟨ds, n, he, hn⟩, _⟩, _⟩ := (h3 dir file).1 hm
    rw [(List.append_inj_right' he rfl |> List.cons.inj).1]
    exact firmName_end hn
  have hfile : ∀ g ∈ sourceTree (placeText H.ws) w, ∀ f ∈ g.2, (g.1, f) ∈ flatTree (sourceTree (placeText H.ws) w) :=
    fun g hg f hf => List.mem_flatMap.2 ⟨g, hg, List.mem_map.2 ⟨f, hf, rfl⟩⟩
  have hnl : ∀ g ∈ sourceTree (placeText H.ws) w, ∀ f ∈ g.2, '\n' ∉ g.1 ∧ '\n' ∉ f := fun g hg f hf => by
    obtain ⟨dirs, text, hff, hdir⟩ := (h3 g.1 f).1 (hfile g hg f hf)
    have := hp _ _ hff
    exact ⟨hdir ▸ joined_no_newline fun n hn => this n (List.mem_append_left _ hn), this f (by simp)⟩
  have hsome : ∀ g ∈ sourceTree (placeText H.ws) w, g.2 ≠ [] := sourceTree_some (placeText H.ws) w
  have hlast : ∀ {l : Str}, l.getLast? = some 'm' → ∃ s c, l = s ++ [c] ∧ (c = '/' ∨ c = 'm') := fun h => by
    obtain ⟨s, hs⟩ := List.getLast?_eq_some_iff.1 h
    exact ⟨s, 'm', hs, .inr rfl⟩
  refine ⟨hend, fun l hl => ?_, fun l hl => ?_⟩ <;> obtain ⟨g, hg, hl⟩ := List.mem_flatMap.1 hl <;>
    split at hl
  · exact (hnl g hg l hl).2
  · rcases List.mem_cons.1 hl with rfl | hl
    · obtain ⟨f, fs, hfs⟩ := List.exists_cons_of_ne_nil (hsome g hg)
      have := (hnl g hg f (by rw [hfs]; simp)).1
      simpa using this
    · obtain ⟨f, hf, rfl⟩ := List.mem_map.1 hl
      have := (hnl g hg f hf).2
      simpa using this
  · exact hlast (hend _ (hfile g hg l hl))
  · rcases List.mem_cons.1 hl with rfl | hl
    · exact ⟨_, _, rfl, .inl rfl⟩
    · obtain ⟨f, hf, rfl⟩ := List.mem_map.1 hl
      have he : f.getLast? = some 'm' := hend _ (hfile g hg f hf)
      exact hlast (by rw [List.getLast?_append, he]; rfl)

/-- The text of a tree that lists something. -/
theorem tree_text {H : Host} {d : FsTree} (hd : WellFormed d) {w : Workspace} (hw : LoadsAs H.grammar H.ws d w)
    (hp : PlainPaths d H.ws) (hne : relativePaths (placeText H.ws) w ≠ []) :
    ∃ ls l c, treeLines (sourceTree (placeText H.ws) w) = ls ++ [l ++ [c]] ∧ (c = '/' ∨ c = 'm') ∧
      sourceTreeText (placeText H.ws) w = unlines ls ++ (l ++ [c]) := by
  obtain ⟨hend, _, hc⟩ := tree_shape hd hw hp
  obtain ⟨_, hk, h3⟩ := C63_tree H d hd w hw
  have hl : treeLines (sourceTree (placeText H.ws) w) ≠ [] := fun h0 => by
    have hr := readTree_tree hk hend
    rw [h0, readTree] at hr
    obtain ⟨rel, hrel⟩ := List.exists_mem_of_ne_nil _ hne
    obtain ⟨loc, text, hf, _⟩ := ((C63_paths H d hd w hw).2.2 rel).1 hrel
    obtain ⟨⟨dirs, n, rfl, _⟩, _⟩ := id hf
    have := (h3 _ n).2 ⟨dirs, text, hf, rfl⟩
    rw [← hr] at this
    cases this
  obtain ⟨ls, e, he⟩ := List.eq_nil_or_concat (treeLines (sourceTree (placeText H.ws) w)) |>.resolve_left hl
  rw [List.concat_eq_append] at he
  obtain ⟨l, c, rfl, hcc⟩ := hc e (by rw [he]; simp)
  refine ⟨ls, l, c, he, hcc, ?_⟩
  unfold sourceTreeText
  rw [if_neg hne, treeLines_text, he, trimEnd_unlines]
  rcases hcc with rfl | rfl <;> decide

theorem none_text_plain : '\n' ∉ "No .firm source files found.".toList := by decide

/-- The reply for a workspace without files is not that of a tree. -/
theorem tree_none {H : Host} {d : FsTree} (hd : WellFormed d) {w : Workspace} (hw : LoadsAs H.grammar H.ws d w)
    (hp : PlainPaths d H.ws) (hne : relativePaths (placeText H.ws) w ≠ []) :
    sourceTreeText (placeText H.ws) w ≠ "No .firm source files found.".toList := fun h => by
  obtain ⟨ls, l, c, _, hc, ht⟩ := tree_text hd hw hp hne
  have := congrArg List.getLast? (ht.symm.trans h)
  rw [← List.append_assoc, List.getLast?_concat] at this
  have e : "No .firm source files found.".toList.getLast? = some '.' := by decide
  rw [e] at this
  rcases hc with rfl | rfl <;> exact absurd this (by decide)

/-- C178: `source_tree` tells which source files there are. Two workspaces without line breaks in the names of
their source files get the same reply only if they have source files at the same places. -/
theorem C178_tree_partial (H H' : Host) (d d' : FsTree) (hd : WellFormed d) (hd' : WellFormed d') (w w' : Workspace)
    (hw : LoadsAs H.grammar H.ws d w) (hw' : LoadsAs H'.grammar H'.ws d' w') (hp : PlainPaths d H.ws)
    (hp' : PlainPaths d' H'.ws)
    (h : sourceTreeText (placeText H.ws) w = sourceTreeText (placeText H'.ws) w') (loc : List Str) :
    (∃ text, FirmFile d H.ws loc text) ↔ ∃ text, FirmFile d' H'.ws loc text := by
  have hflat : ∀ {H H' : Host} {d d' : FsTree}, WellFormed d → WellFormed d' → ∀ {w w' : Workspace},
      LoadsAs H.grammar H.ws d w → LoadsAs H'.grammar H'.ws d' w' → 
      flatTree (sourceTree (placeText H.ws) w) = flatTree (sourceTree (placeText H'.ws) w') →
      (∃ text, FirmFile d H.ws loc text) → ∃ text, FirmFile d' H'.ws loc text := by
    intro H H' d d' hd hd' w w' hw hw' he ⟨text, hf⟩
    obtain ⟨⟨dirs, n, rfl, _⟩, _⟩ := id hf
    have := ((C63_tree H d hd w hw).2.2 _ n).2 ⟨dirs, text, hf, rfl⟩
    rw [he] at this
    obtain ⟨dirs', text', hf', hj⟩ := ((C63_tree H' d' hd' w' hw').2.2 _ n).1 this
    have v := (valid_of_firmFile hd hf).2.1
    have v' := (valid_of_firmFile hd' hf').2.1
    rw [joinedNames_inj (fun m hm => v m (List.mem_append_left _ hm)) (fun m hm => v' m (List.mem_append_left _ hm)) hj]
    exact ⟨text', hf'⟩
  have main : flatTree (sourceTree (placeText H.ws) w) = flatTree (sourceTree (placeText H'.ws) w') := by
    by_cases h0 : relativePaths (placeText H.ws) w = []
    · by_cases h0' : relativePaths (placeText H'.ws) w' = []
      · unfold sourceTree
        rw [h0, h0']
      · refine absurd ?_ (tree_none hd' hw' hp' h0')
        rw [← h, sourceTreeText, if_pos h0]
    · by_cases h0' : relativePaths (placeText H'.ws) w' = []
      · refine absurd ?_ (tree_none hd hw hp h0)
        rw [h, sourceTreeText, if_pos h0']
      · obtain ⟨ls, l, c, e1, _, e3⟩ := tree_text hd hw hp h0
        obtain ⟨ls', l', c', e1', _, e3'⟩ := tree_text hd' hw' hp' h0'
        obtain ⟨s1, s2, _⟩ := tree_shape hd hw hp
        obtain ⟨s1', s2', _⟩ := tree_shape hd' hw' hp'
        rw [e1] at s2
        rw [e1'] at s2'
        rw [e3, e3'] at h
        obtain ⟨k1, k2⟩ := unlines_tail (fun x hx => s2 x (List.mem_append_left _ hx))
          (fun x hx => s2' x (List.mem_append_left _ hx)) (s2 _ (by simp)) (s2' _ (by simp)) h
        rw [← readTree_tree (C63_tree H d hd w hw).2.1 s1, ← readTree_tree (C63_tree H' d' hd' w' hw').2.1 s1', e1, e1',
          k1, k2]
  exact ⟨hflat hd hd' hw hw' main, hflat hd' hd hw' hw main.symm⟩

/-! ## C178: the search -/

/-- The lines of one group. -/
def groupLines (g : Str × List (Nat × Str)) : List Str := (g.1 ++ [':']) :: (g.2.map showMatch ++ [[]])

theorem groupLines_text (gs : List (Str × List (Nat × Str))) : gs.flatMap showMatches = unlines (gs.flatMap groupLines) := by
  induction gs with
  | nil => rfl
  | cons g gs ih =>
    rw [List.flatMap_cons, ih, List.flatMap_cons, unlines_append]
    congr 1
    unfold showMatches groupLines
    simp [unlines, List.flatMap_map]

/-- What is shown of a matching line: its number and the line without white space at both ends. -/
def Spec.shownMatch (m : Nat × Str) : Nat × Str := (m.1, trim m.2)

theorem number_no_colon (n : Nat) : ':' ∉ "  ".toList ++ showNat n := fun h => by
  rcases List.mem_append.1 h with h | h
  · exact absurd h (by decide)
  · exact not_digit_mem (by decide) (showNat_digits n) h

theorem showMatch_eq (m : Nat × Str) : showMatch m = ("  ".toList ++ showNat m.1) ++ ':' :: ("  ".toList ++ trim m.2) := by
  unfold showMatch
  rw [show ":  ".toList = ':' :: "  ".toList from rfl]
  simp only [List.append_assoc, List.cons_append]

theorem showMatch_inj {m m' : Nat × Str} (h : showMatch m = showMatch m') : shownMatch m = shownMatch m' := by
  rw [showMatch_eq, showMatch_eq] at h
  obtain ⟨h1, h2⟩ := cut_inj (number_no_colon _) (number_no_colon _) h
  unfold shownMatch
  rw [showNat_inj (List.append_cancel_left h1), List.append_cancel_left h2]

theorem showMatch_congr {m m' : Nat × Str} (h : shownMatch m = shownMatch m') : showMatch m = showMatch m' := by
  unfold shownMatch at h
  injection h with h1 h2
  unfold showMatch
  rw [h1, h2]

/-- A matching line at the end of the text. -/
theorem showMatch_end (m : Nat × Str) : trimEnd (showMatch m) =
    ("  ".toList ++ showNat m.1) ++ ':' :: (if trim m.2 = [] then [] else "  ".toList ++ trim m.2) := by
  rw [showMatch_eq]
  split
  · next h =>
    rw [h, List.append_nil, show ("  ".toList ++ showNat m.1) ++ ':' :: "  ".toList =
      (("  ".toList ++ showNat m.1) ++ [':']) ++ "  ".toList by simp, trimEnd_ws (by decide), trimEnd_end (by decide)]
  · next h =>
    rcases List.eq_nil_or_concat (trim m.2) with h0 | ⟨s, c, hc⟩
    · exact absurd h0 h
    · rw [List.concat_eq_append] at hc
      have hw : isWs c = false := trim_last (trim_idem m.2) (by rw [hc, List.getLast?_concat])
      rw [hc, show ("  ".toList ++ showNat m.1) ++ ':' :: ("  ".toList ++ (s ++ [c])) =
        (("  ".toList ++ showNat m.1) ++ ':' :: ("  ".toList ++ s)) ++ [c] by simp, trimEnd_end hw]

theorem showMatch_end_inj {m m' : Nat × Str} (h : trimEnd (showMatch m) = trimEnd (showMatch m')) :
    shownMatch m = shownMatch m' := by
  rw [showMatch_end, showMatch_end] at h
  obtain ⟨h1, h2⟩ := cut_inj (number_no_colon _) (number_no_colon _) h
  have h1 := showNat_inj (List.append_cancel_left h1)
  unfold shownMatch
  rw [h1]
  split at h2 <;> split at h2
  · next a b => rw [a, b]
  · cases h2
  · cases h2
  · rw [List.append_cancel_left h2]

theorem cut_blank : ∀ {a b x y : List Str}, [] ∉ a → [] ∉ b → a ++ [] :: x = b ++ [] :: y → a = b ∧ x = y
  | [], [], _, _, _, _, h => ⟨rfl, (List.cons.inj h).2⟩
  | [], d :: b, _, _, _, hb, h => by
    rw [List.nil_append, List.cons_append, List.cons.injEq] at h
    exact absurd (h.1 ▸ List.mem_cons_self) hb
  | d :: a, [], _, _, ha, _, h => by
    rw [List.nil_append, List.cons_append, List.cons.injEq] at h
    exact absurd (h.1 ▸ List.mem_cons_self) ha
  | d :: a, d' :: b, x, y, ha, hb, h => by
    rw [List.cons_append, List.cons_append, List.cons.injEq] at h
    obtain ⟨h1, h2⟩ := cut_blank (fun hc => ha (by simp [hc])) (fun hc => hb (by simp [hc])) h.2
    exact ⟨by rw [h.1, h1], h2⟩

theorem showMatch_ne_nil (m : Nat × Str) : showMatch m ≠ [] := by
  rw [showMatch_eq]; simp

/-- What can be seen of the groups. -/
def Spec.shownGroups (gs : List (Str × List (Nat × Str))) : List (Str × List (Nat × Str)) :=
  gs.map fun g => (g.1, g.2.map shownMatch)

theorem map_showMatch_inj : ∀ {a b : List (Nat × Str)}, a.map showMatch = b.map showMatch → a.map shownMatch = b.map shownMatch
  | [], [], _ => rfl
  | [], _ :: _, h => by cases h
  | _ :: _, [], h => by cases h
  | m :: a, m' :: b, h => by
    rw [List.map_cons, List.map_cons, List.cons.injEq] at h
    rw [List.map_cons, List.map_cons, showMatch_inj h.1, map_showMatch_inj h.2]

theorem groupLines_inj : ∀ {gs gs' : List (Str × List (Nat × Str))},
    gs.flatMap groupLines = gs'.flatMap groupLines → shownGroups gs = shownGroups gs'
  | [], [], _ => rfl
  | [], g :: _, h => by rw [List.flatMap_cons, groupLines] at h; cases h
  | g :: _, [], h => by rw [List.flatMap_cons, groupLines] at h; cases h
  | g :: gs, g' :: gs', h => by
    have hb : ∀ ms : List (Nat × Str), ([] : Str) ∉ ms.map showMatch := fun ms hm => by
      obtain ⟨m, _, hm⟩ := List.mem_map.1 hm
      exact showMatch_ne_nil m hm
    rw [List.flatMap_cons, List.flatMap_cons, groupLines, groupLines, List.cons_append, List.cons_append, List.cons.injEq,
      List.append_assoc, List.append_assoc, List.singleton_append, List.singleton_append] at h
    obtain ⟨h1, h2⟩ := cut_blank (hb _) (hb _) h.2
    have h3 := groupLines_inj h2
    unfold shownGroups at h3 ⊢
    rw [List.map_cons, List.map_cons, h3, map_showMatch_inj h1, List.append_cancel_right h.1]

/-- How the lines of the groups end. -/
theorem groups_end {gs : List (Str × List (Nat × Str))} (h0 : gs ≠ []) (hne : ∀ g ∈ gs, g.2 ≠ []) :
    ∃ ls m, gs.flatMap groupLines = ls ++ [showMatch m, []] ∧ ls ≠ [] ∧ trimEnd (gs.flatMap showMatches) = unlines ls ++ trimEnd (showMatch m) := by
  obtain ⟨init, g, hg⟩ := (List.eq_nil_or_concat gs).resolve_left h0
  rw [List.concat_eq_append] at hg
  obtain ⟨ms, m, hm⟩ := (List.eq_nil_or_concat g.2).resolve_left (hne g (by rw [hg]; simp))
  rw [List.concat_eq_append] at hm
  have e : gs.flatMap groupLines = (init.flatMap groupLines ++ (g.1 ++ [':']) :: ms.map showMatch) ++ [showMatch m, []] := by
    rw [hg, List.flatMap_append, List.flatMap_singleton, groupLines, hm]
    simp
  refine ⟨_, m, e, by simp, ?_⟩
  have hn : trimEnd (showMatch m) ≠ [] := by rw [showMatch_end]; simp
  have ew : trimEnd (showMatch m ++ "\n\n".toList) = trimEnd (showMatch m) := trimEnd_ws (by decide)
  rw [groupLines_text, e, unlines_append,
    show unlines [showMatch m, []] = showMatch m ++ "\n\n".toList by simp [unlines], trimEnd_body (by rw [ew]; exact hn), ew]

theorem showMatch_no_newline {m : Nat × Str} (h : '\n' ∉ m.2) : '\n' ∉ showMatch m := fun hc => by
  rw [showMatch_eq] at hc
  rcases List.mem_append.1 hc with hc | hc
  · rcases List.mem_append.1 hc with hc | hc
    · exact absurd hc (by decide)
    · exact not_digit_mem (by decide) (showNat_digits _) hc
  · rcases List.mem_cons.1 hc with hc | hc
    · exact absurd hc (by decide)
    · rcases List.mem_append.1 hc with hc | hc
      · exact absurd hc (by decide)
      · exact h (mem_trim hc)

theorem trimEnd_mem {s : Str} {c : Char} (h : c ∈ trimEnd s) : c ∈ s := by
  obtain ⟨v, hv, -⟩ := trimEnd_append s
  rw [hv]; simp [h]

theorem groups_no_newline {gs : List (Str × List (Nat × Str))} (hp : ∀ g ∈ gs, '\n' ∉ g.1)
    (hl : ∀ g ∈ gs, ∀ m ∈ g.2, '\n' ∉ m.2) : ∀ l ∈ gs.flatMap groupLines, '\n' ∉ l := fun l hm => by
  obtain ⟨g, hg, hm⟩ := List.mem_flatMap.1 hm
  rw [groupLines] at hm
  rcases List.mem_cons.1 hm with rfl | hm
  · have := hp g hg
    simpa using this
  · rcases List.mem_append.1 hm with hm | hm
    · obtain ⟨m, hmm, rfl⟩ := List.mem_map.1 hm
      exact showMatch_no_newline (hl g hg m hmm)
    · rw [List.mem_singleton.1 hm]; simp

/-- The last line of a reply that is cut off. -/
def lastLine : Str := "... results truncated at 50 matches.".toList ++ " Narrow your search for more specific results.".toList

theorem cutText_eq : cutText = '\n' :: '\n' :: lastLine := rfl

theorem lastLine_plain : '\n' ∉ lastLine := by decide

theorem flat_shown (gs : List (Str × List (Nat × Str))) :
    flatGroups (shownGroups gs) = (flatGroups gs).map fun x => (x.1, x.2.1, trim x.2.2) := by
  induction gs with
  | nil => rfl
  | cons g gs ih =>
    rw [shownGroups, List.map_cons, ← shownGroups]
    unfold flatGroups at ih ⊢
    rw [List.flatMap_cons, List.flatMap_cons, ih, List.map_append, List.map_map, List.map_map]
    rfl

/-- The reply as lines and a last line; `none` for the reply without matches. -/
theorem search_reply {gs : List (Str × List (Nat × Str))} (h0 : gs ≠ []) (hne : ∀ g ∈ gs, g.2 ≠ []) (cut : Bool) :
    ∃ ls m, gs.flatMap groupLines = ls ++ [showMatch m, []] ∧ ls ≠ [] ∧
      trimEnd (gs.flatMap showMatches) ++ (if cut = true then cutText else []) =
        if cut = true then unlines (ls ++ [trimEnd (showMatch m), []]) ++ lastLine
        else unlines ls ++ trimEnd (showMatch m) := by
  obtain ⟨ls, m, h1, h2, h3⟩ := groups_end h0 hne
  refine ⟨ls, m, h1, h2, ?_⟩
  rw [h3]
  split
  · rw [unlines_append, cutText_eq]
    simp [unlines]
  · rw [List.append_nil]

/-- What can be seen of the matching lines of a workspace: the first fifty. -/
def Spec.shownMatches (H : Host) (s : Server) (query : Str) (cs : Bool) : List (Str × Nat × Str) :=
  ((allMatches (fun rel => s.disk.readText (s.disk.placeOf H.ws rel)) (lineMatches H.lang.env query cs)
    (relativePaths (placeText H.ws) s.state.workspace)).take 50).map fun x => (x.1, x.2.1, trim x.2.2)

/-- Whether there are more matching lines than are shown. -/
def Spec.MoreMatches (H : Host) (s : Server) (query : Str) (cs : Bool) : Prop :=
  50 < (allMatches (fun rel => s.disk.readText (s.disk.placeOf H.ws rel)) (lineMatches H.lang.env query cs)
    (relativePaths (placeText H.ws) s.state.workspace)).length

/-- The groups of a search: no line breaks, and the matching lines. -/
theorem search_groups {H : Host} {s : Server} (hd : WellFormed s.disk) (hw : LoadsAs H.grammar H.ws s.disk s.state.workspace)
    (hp : PlainPaths s.disk H.ws) {query : Str} {cs : Bool} {gs : List (Str × List (Nat × Str))} {cut : Bool}
    (h : searchSource H s query cs = some (gs, cut)) :
    (∀ l ∈ gs.flatMap groupLines, '\n' ∉ l) ∧ (∀ g ∈ gs, g.2 ≠ []) ∧
    flatGroups (shownGroups gs) = shownMatches H s query cs ∧ (cut = true ↔ MoreMatches H s query cs) := by
  obtain ⟨h1, h2, h3⟩ := C61_first_fifty H s query cs gs cut h
  have h4 : (gs.map (·.1)).Sublist (relativePaths (placeText H.ws) s.state.workspace) := by
    have := (searchFiles_spec (fun rel => s.disk.readText (s.disk.placeOf H.ws rel))
      (lineMatches H.lang.env query cs) 50 0 (relativePaths (placeText H.ws) s.state.workspace) (by omega)).2.2.2
    unfold searchSource at h
    split at h
    · cases h
    · injection h with h
      rwa [h] at this
  refine ⟨groups_no_newline (fun g hg => ?_) fun g hg m hm => ?_, h3, ?_, h2⟩
  · obtain ⟨loc, text, hf, he⟩ := ((C63_paths H s.disk hd _ hw).2.2 g.1).1 (h4.subset (List.mem_map.2 ⟨g, hg, rfl⟩))
    rw [he]
    exact joined_no_newline (hp loc text hf)
  · have hx : (g.1, m.1, m.2) ∈ flatGroups gs := List.mem_flatMap.2 ⟨g, hg, List.mem_map.2 ⟨m, hm, rfl⟩⟩
    rw [h1] at hx
    obtain ⟨p, _, hx⟩ := List.mem_flatMap.1 (List.mem_of_mem_take hx)
    split at hx
    · cases hx
    · obtain ⟨l, hl, he⟩ := List.mem_map.1 hx
      have hl := List.mem_filter.1 hl
      obtain ⟨_, _, hz⟩ := List.mem_zipIdx hl.1
      injection he with _ he
      injection he with _ he
      rw [← he, hz]
      exact strLines_no_newline _ (List.getElem_mem _)
  · rw [flat_shown, h1]
    rfl

theorem nomatch_plain {query : Str} (h : '\n' ∉ query) : '\n' ∉ "No matches found for '".toList ++ query ++ "'.".toList :=
  fun hc => by
    rcases List.mem_append.1 hc with hc | hc
    · rcases List.mem_append.1 hc with hc | hc
      · exact absurd hc (by decide)
      · exact h hc
    · exact absurd hc (by decide)

/-- A reply with matches is not one without. -/
theorem reply_matches {ls : List Str} {m : Nat × Str} {cut : Bool} {query : Str} (hq : '\n' ∉ query) (h0 : ls ≠ [])
    (h : (if cut = true then unlines (ls ++ [trimEnd (showMatch m), []]) ++ lastLine else unlines ls ++ trimEnd (showMatch m)) =
      "No matches found for '".toList ++ query ++ "'.".toList) : False := by
  refine nomatch_plain hq ?_
  rw [← h]
  obtain ⟨l, ls', rfl⟩ := List.exists_cons_of_ne_nil h0
  split <;> simp [unlines]

/-- C178: `search_source` tells what it found. Two replies to queries without line breaks, in workspaces without
line breaks in the names of their source files, are the same only if the first fifty matching lines have the
same paths, the same numbers and, without the white space at both ends, the same texts, and either both or none
have more matches. -/
theorem C178_search_partial (H H' : Host) (s s' : Server) (hd : WellFormed s.disk) (hd' : WellFormed s'.disk)
    (hw : LoadsAs H.grammar H.ws s.disk s.state.workspace) (hw' : LoadsAs H'.grammar H'.ws s'.disk s'.state.workspace)
    (hp : PlainPaths s.disk H.ws) (hp' : PlainPaths s'.disk H'.ws) (query query' : Str) (cs cs' : Bool)
    (hq : '\n' ∉ query) (hq' : '\n' ∉ query') (text : Str) (h : searchText H s query cs = some text)
    (h' : searchText H' s' query' cs' = some text) :
    shownMatches H s query cs = shownMatches H' s' query' cs' ∧
    (MoreMatches H s query cs ↔ MoreMatches H' s' query' cs') := by
  unfold searchText at h h'
  obtain ⟨⟨gs, cut⟩, hs, h⟩ := Option.map_eq_some_iff.1 h
  obtain ⟨⟨gs', cut'⟩, hs', h'⟩ := Option.map_eq_some_iff.1 h'
  obtain ⟨n, e, f, c⟩ := search_groups hd hw hp hs
  obtain ⟨n', e', f', c'⟩ := search_groups hd' hw' hp' hs'
  suffices shownGroups gs = shownGroups gs' ∧ cut = cut' by
    rw [← f, ← f', this.1]
    exact ⟨rfl, c.symm.trans ((by rw [this.2] : cut = true ↔ cut' = true).trans c')⟩
  have quiet : ∀ {H : Host} {s : Server} {query : Str} {cs : Bool} {cut : Bool}, flatGroups (shownGroups []) = shownMatches H s query cs →
      (cut = true ↔ MoreMatches H s query cs) → cut = false := by
    intro H s query cs cut f c
    cases hc : cut with
    | false => rfl
    | true =>
      have hm := c.1 hc
      have hl := congrArg List.length f
      unfold MoreMatches at hm
      unfold shownMatches at hl
      rw [List.length_map, List.length_take] at hl
      have : (flatGroups (shownGroups [])).length = 0 := rfl
      omega
  dsimp only at h h'
  by_cases h0 : gs = []
  · rw [if_pos h0] at h
    by_cases h0' : gs' = []
    · subst h0 h0'
      exact ⟨rfl, (quiet f c).trans (quiet f' c').symm⟩
    · rw [if_neg h0'] at h'
      obtain ⟨ls, m, _, k2, k3⟩ := search_reply h0' e' cut'
      exact (reply_matches hq k2 (k3.symm.trans (h'.trans h.symm))).elim
  · rw [if_neg h0] at h
    obtain ⟨ls, m, k1, k2, k3⟩ := search_reply h0 e cut
    by_cases h0' : gs' = []
    · rw [if_pos h0'] at h'
      exact (reply_matches hq' k2 (k3.symm.trans (h.trans h'.symm))).elim
    · rw [if_neg h0'] at h'
      obtain ⟨ls', m', k1', k2', k3'⟩ := search_reply h0' e' cut'
      have ht := k3.symm.trans (h.trans (h'.symm.trans k3'))
      rw [k1] at n
      rw [k1'] at n'
      have a1 : ∀ l ∈ ls, '\n' ∉ l := fun l hl => n l (List.mem_append_left _ hl)
      have a2 : '\n' ∉ trimEnd (showMatch m) := fun hc => n (showMatch m) (by simp) (trimEnd_mem hc)
      have a3 : ∀ l ∈ ls ++ [trimEnd (showMatch m), []], '\n' ∉ l := fun l hl => by
        rcases List.mem_append.1 hl with hl | hl
        · exact a1 l hl
        · rcases List.mem_cons.1 hl with hl | hl
          · rw [hl]; exact a2
          · rw [List.mem_singleton.1 hl]; simp
      have b1 : ∀ l ∈ ls', '\n' ∉ l := fun l hl => n' l (List.mem_append_left _ hl)
      have b2 : '\n' ∉ trimEnd (showMatch m') := fun hc => n' (showMatch m') (by simp) (trimEnd_mem hc)
      have b3 : ∀ l ∈ ls' ++ [trimEnd (showMatch m'), []], '\n' ∉ l := fun l hl => by
        rcases List.mem_append.1 hl with hl | hl
        · exact b1 l hl
        · rcases List.mem_cons.1 hl with hl | hl
          · rw [hl]; exact b2
          · rw [List.mem_singleton.1 hl]; simp
      have last : ∀ m : Nat × Str, trimEnd (showMatch m) ≠ lastLine := fun m hc => by
        rw [showMatch_end] at hc
        cases hc
      have done : ls = ls' → trimEnd (showMatch m) = trimEnd (showMatch m') → shownGroups gs = shownGroups gs' :=
        fun e1 e2 => groupLines_inj (by rw [k1, k1', e1, showMatch_congr (showMatch_end_inj e2)])
      cases cut <;> cases cut'
      · rw [if_neg Bool.noConfusion, if_neg Bool.noConfusion] at ht
        obtain ⟨e1, e2⟩ := unlines_tail a1 b1 a2 b2 ht
        exact ⟨done e1 e2, rfl⟩
      · rw [if_neg Bool.noConfusion, if_pos rfl] at ht
        exact absurd (unlines_tail a1 b3 a2 lastLine_plain ht).2 (last m)
      · rw [if_pos rfl, if_neg Bool.noConfusion] at ht
        exact absurd (unlines_tail a3 b1 lastLine_plain b2 ht).2.symm (last m')
      · rw [if_pos rfl, if_pos rfl] at ht
        have e1 := (unlines_tail a3 b3 lastLine_plain lastLine_plain ht).1
        have e2 := List.append_inj' e1 rfl
        exact ⟨done e2.1 (List.cons.inj e2.2).1, rfl⟩

/-! ## Line breaks in names and queries -/

/-- A workspace `/w` with one source file, called `a.firm`, line break, `b.firm`. -/
def exBrokenDisk : FsTree :=
  .dir (some [("w".toList, .dir (some [("a.firm\nb.firm".toList, .file (some "S".toList))]))])

theorem exBrokenDisk_wf : WellFormed exBrokenDisk := by
  have one : ∀ {n : Str} {t : FsTree}, ValidName n → WellFormed t → WellFormed (.dir (some [(n, t)])) := fun hn ht =>
    .dir (by simp) (fun p hp => by rw [List.mem_singleton.1 hp]; exact hn)
      fun p hp => by rw [List.mem_singleton.1 hp]; exact ht
  exact one ⟨by decide, by decide, by decide, by decide⟩ (one ⟨by decide, by decide, by decide, by decide⟩ (.file _))

theorem exBroken_serves : Serves exHost ⟨exBrokenDisk, exState exBrokenDisk⟩ := by
  have h : rebuild exHost id exBrokenDisk = .ok (exState exBrokenDisk) := by
    unfold exState
    cases hr : rebuild exHost id exBrokenDisk with
    | ok st => rfl
    | error e =>
      have : (match rebuild exHost id exBrokenDisk with | .ok _ => true | .error _ => false) = true := by decide +kernel
      rw [hr] at this
      cases this
  exact rebuild_serves exBrokenDisk_wf exHost_ws (fun w => List.Perm.refl w) h

/-- C178: with a line break in a name, one file is shown like two. -/
theorem C178_breaks : ∃ (H : Host) (s s' : Server), Serves H s ∧ Serves H s' ∧
    sourceTreeText (placeText H.ws) s.state.workspace = sourceTreeText (placeText H.ws) s'.state.workspace ∧
    (∃ text, FirmFile s.disk H.ws ["a.firm".toList] text) ∧ ¬ ∃ text, FirmFile s'.disk H.ws ["a.firm".toList] text := by
  refine ⟨exHost, exServer, ⟨exBrokenDisk, exState exBrokenDisk⟩, exServer_serves, exBroken_serves, by decide +kernel,
    ⟨"S".toList, ⟨[], "a.firm".toList, rfl, "a".toList, by decide, rfl⟩, (has_iff_lookup exDisk_wf).2 rfl⟩, ?_⟩
  rintro ⟨text, _, h⟩
  have : exBrokenDisk.lookup (exHost.ws ++ ["a.firm".toList]) = _ := (has_iff_lookup exBrokenDisk_wf).1 h
  rw [show exBrokenDisk.lookup (exHost.ws ++ ["a.firm".toList]) = none from ?_] at this
  · cases this
  · have h0 : (exBrokenDisk.lookup (exHost.ws ++ ["a.firm".toList])).isNone = true := by decide +kernel
    exact Option.isNone_iff_eq_none.1 h0

/-- A host whose grammar reads every text as an empty file. -/
def exQuietHost : Host := { exHost with grammar := fun text => .mk "source_file".toList text [] }

/-- One source file with a name like the beginning of a reply. -/
def exTrickDisk : FsTree :=
  .dir (some [("w".toList, .dir (some [("No matches found for 'x.firm".toList, .file (some "y'.".toList))]))])

theorem exTrickDisk_wf : WellFormed exTrickDisk := by
  have one : ∀ {n : Str} {t : FsTree}, ValidName n → WellFormed t → WellFormed (.dir (some [(n, t)])) := fun hn ht =>
    .dir (by simp) (fun p hp => by rw [List.mem_singleton.1 hp]; exact hn)
      fun p hp => by rw [List.mem_singleton.1 hp]; exact ht
  exact one ⟨by decide, by decide, by decide, by decide⟩ (one ⟨by decide, by decide, by decide, by decide⟩ (.file _))

def exTrickState : ServerState :=
  match rebuild exQuietHost id exTrickDisk with
  | .ok st => st
  | .error _ => ⟨[], ⟨[], []⟩, Graph.empty⟩

theorem exTrick_serves : Serves exQuietHost ⟨exTrickDisk, exTrickState⟩ := by
  have h : rebuild exQuietHost id exTrickDisk = .ok exTrickState := by
    unfold exTrickState
    cases hr : rebuild exQuietHost id exTrickDisk with
    | ok st => rfl
    | error e =>
      have : (match rebuild exQuietHost id exTrickDisk with | .ok _ => true | .error _ => false) = true := by decide +kernel
      rw [hr] at this
      cases this
  exact rebuild_serves exTrickDisk_wf exHost_ws (fun w => List.Perm.refl w) h

/-- C178: with a line break in a query, nothing found is shown like something found. -/
theorem C178_query_breaks : ∃ (H : Host) (s : Server) (query query' : Str), Serves H s ∧
    searchText H s query true = searchText H s query' true ∧ (searchText H s query true).isSome = true ∧
    shownMatches H s query true ≠ [] ∧ shownMatches H s query' true = [] :=
  ⟨exQuietHost, ⟨exTrickDisk, exTrickState⟩, "y".toList, "x.firm:\n  1:  y".toList, exTrick_serves, by decide +kernel,
    by decide +kernel, by decide +kernel, by decide +kernel⟩

/-- The sample workspace has no line breaks in names. -/
theorem exServer_plain : PlainPaths exServer.disk exHost.ws := by
  intro loc text hf n hn hc
  have hrel : joinWith ['/'] loc ∈ relativePaths (placeText exHost.ws) exServer.state.workspace :=
    ((C63_paths exHost exServer.disk exDisk_wf _ exServer_serves.1).2.2 _).2 ⟨loc, text, hf, rfl⟩
  have e : relativePaths (placeText exHost.ws) exServer.state.workspace = ["a.firm".toList, "b.firm".toList] := by
    decide +kernel
  have hj : '\n' ∈ joinWith ['/'] loc := joined_mem hn hc
  rw [e] at hrel
  rcases List.mem_cons.1 hrel with h | h
  · rw [h] at hj
    exact absurd hj (by decide)
  · rw [List.mem_singleton.1 h] at hj
    exact absurd hj (by decide)

example : sourceTreeText (placeText exHost.ws) exServer.state.workspace = "a.firm\nb.firm".toList := by decide +kernel

example : searchText exHost exServer "B".toList true = some "b.firm:\n  1:  B".toList := by decide +kernel

example : searchText exHost exServer "C".toList true = some "No matches found for 'C'.".toList := by decide +kernel

example : showDirectory ("crm/old".toList, ["a.firm".toList, "b.firm".toList]) =
    "crm/old/\n  a.firm\n  b.firm\n".toList := by decide +kernel

/-- Not vacuous: the reply of the sample workspace says that `a.firm` is there. -/
example (w : Workspace) (d : FsTree) (hd : WellFormed d) (hw : LoadsAs exGrammar ["w".toList] d w) (hp : PlainPaths d ["w".toList])
    (h : sourceTreeText (placeText ["w".toList]) w = "a.firm\nb.firm".toList) :
    ∃ text, FirmFile d ["w".toList] ["a.firm".toList] text :=
  (C178_tree_partial exHost exHost exDisk d exDisk_wf hd exServer.state.workspace w exServer_serves.1 hw exServer_plain hp
    ((show sourceTreeText (placeText exHost.ws) exServer.state.workspace = _ by decide +kernel).trans h.symm) _).1
    ⟨"S".toList, ⟨[], "a.firm".toList, rfl, "a".toList, by decide, rfl⟩, (has_iff_lookup exDisk_wf).2 rfl⟩

example : ∃ text, searchText exHost exServer "B".toList true = some text ∧
    shownMatches exHost exServer "B".toList true = [("b.firm".toList, 1, "B".toList)] :=
  ⟨_, (by decide +kernel : _ = some "b.firm:\n  1:  B".toList), by decide +kernel⟩

end Firm
