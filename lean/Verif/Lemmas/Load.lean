import Verif.Lemmas.Disk
import Verif.Props.Strings

/-!
# Loading a directory
-/

namespace Firm

open Firm.Spec

theorem joinWith_eq_nil {c : Char} {ps : List Str} (h : joinWith [c] ps = []) : ps = [] ∨ ps = [[]] := by
  match ps with
  | [] => exact .inl rfl
  | [p] => rw [joinWith] at h; exact .inr (by rw [h])
  | p :: q :: ps => rw [joinWith] at h; simp at h

theorem isFirmFile_iff {n : Str} : isFirmFile n = true ↔ FirmName n := by
  unfold isFirmFile
  rw [beq_iff_eq]
  constructor
  · intro h
    unfold extensionOf at h
    have hj := joinWith_splitChar '.' n
    split at h
    · cases h
    · cases h
    · next p e heq =>
      split at h
      · cases h
      · next hp =>
        cases h
        rw [heq] at hj
        exact ⟨p, hp, by rw [← hj]; simp [joinWith]⟩
    · next h1 h2 h3 =>
      obtain ⟨ini, hini⟩ : ∃ ini, splitChar '.' n = ini ++ ["firm".toList] := by
        obtain ⟨l, hl⟩ := List.getLast?_eq_some_iff.1 h
        exact ⟨l, hl⟩
      have hne : ini ≠ [] := by rintro rfl; exact h2 _ hini
      refine ⟨joinWith ['.'] ini, ?_, ?_⟩
      · intro hnil
        rcases joinWith_eq_nil hnil with h | h
        · exact hne h
        · rw [h] at hini; exact h3 _ _ hini
      · rw [← hj, hini, joinWith_snoc hne]; simp
  · rintro ⟨stem, hs, rfl⟩
    have hsplit : splitChar '.' (stem ++ ".firm".toList) = splitChar '.' stem ++ ["firm".toList] := by
      rw [show ".firm".toList = '.' :: "firm".toList from rfl, splitChar_two,
        splitChar_none (s := "firm".toList) (by decide)]
    unfold extensionOf
    rw [hsplit]
    have hj := joinWith_splitChar '.' stem
    match hc : splitChar '.' stem with
    | [] => exact absurd hc (splitChar_ne_nil _ _)
    | [p] =>
      rw [hc] at hj
      simp only [joinWith] at hj
      simp [hj, hs]
    | p :: q :: ps =>
      cases ps with
      | nil => rfl
      | cons x xs =>
        show (p :: q :: x :: xs ++ ["firm".toList]).getLast? = _
        rw [List.getLast?_concat]

/-! ## Texts of paths -/

theorem splitChar_join {c : Char} {ns : List Str} (hne : ns ≠ []) (h : ∀ n ∈ ns, c ∉ n) :
    splitChar c (joinWith [c] ns) = ns := by
  induction ns with
  | nil => exact absurd rfl hne
  | cons n ns ih =>
    cases ns with
    | nil => rw [joinWith]; exact splitChar_none (h n (by simp))
    | cons m ns =>
      rw [joinWith, List.append_assoc, List.singleton_append, splitChar_two, splitChar_none (h n (by simp)),
        ih (by simp) fun k hk => h k (List.mem_cons_of_mem _ hk)]
      rfl

theorem pieceComp_valid {n : Str} (h : ValidName n) : pieceComp n = some (.normal n) := by
  unfold pieceComp
  rw [if_neg h.nonempty, if_neg h.notDot, if_neg h.notDots]

theorem filterMap_pieces {ns : List Str} (h : ∀ n ∈ ns, ValidName n) :
    ns.filterMap pieceComp = ns.map PathComp.normal := by
  induction ns with
  | nil => rfl
  | cons n ns ih =>
    rw [List.filterMap_cons, pieceComp_valid (h n (by simp)), List.map_cons,
      ih fun m hm => h m (List.mem_cons_of_mem _ hm)]

theorem pathComponents_placeText {ns : List Str} (h : ∀ n ∈ ns, ValidName n) :
    pathComponents (placeText ns) = .rootDir :: ns.map .normal := by
  unfold placeText pathComponents
  show PathComp.rootDir :: (splitChar '/' ('/' :: joinWith ['/'] ns)).filterMap pieceComp = _
  rw [show '/' :: joinWith ['/'] ns = [] ++ '/' :: joinWith ['/'] ns from rfl, splitChar_two]
  cases ns with
  | nil => simp [joinWith, splitChar, pieceComp]
  | cons n ns =>
    rw [splitChar_join (by simp) fun m hm => (h m hm).noSlash]
    rw [List.filterMap_append, filterMap_pieces h]
    simp [splitChar, pieceComp]

theorem pathComponents_relative {ns : List Str} (hne : ns ≠ []) (h : ∀ n ∈ ns, ValidName n) :
    pathComponents (joinWith ['/'] ns) = ns.map .normal := by
  have hs := splitChar_join hne fun m hm => (h m hm).noSlash
  cases ns with
  | nil => exact absurd rfl hne
  | cons n ns =>
    have hn := h n (by simp)
    obtain ⟨c, n', rfl⟩ := List.exists_cons_of_ne_nil hn.nonempty
    have hc : c ≠ '/' := fun hc => hn.noSlash (by simp [hc])
    have hj : ∃ t, joinWith ['/'] ((c :: n') :: ns) = c :: t := by
      cases ns with
      | nil => exact ⟨n', by rw [joinWith]⟩
      | cons m ns => exact ⟨_, by rw [joinWith]; rfl⟩
    obtain ⟨t, ht⟩ := hj
    unfold pathComponents
    rw [ht] at hs ⊢
    split
    · next heq => cases heq
    · next heq => cases heq; exact absurd rfl hc
    · rw [hs]
      dsimp only
      rw [if_neg hn.notDot, pieceComp_valid hn, filterMap_pieces fun m hm => h m (List.mem_cons_of_mem _ hm)]
      rfl

theorem placeText_inj {a b : List Str} (ha : ∀ n ∈ a, ValidName n) (hb : ∀ n ∈ b, ValidName n)
    (h : placeText a = placeText b) : a = b := by
  have := pathComponents_placeText ha
  rw [h, pathComponents_placeText hb] at this
  simp only [List.cons.injEq, true_and] at this
  exact (List.map_injective_iff.2 (fun x y h => by cases h; rfl)) this.symm

theorem joinPath_placeText {ns : List Str} (h : ∀ n ∈ ns, ValidName n) (n : Str) :
    joinPath (placeText ns) n = placeText (ns ++ [n]) := by
  unfold joinPath placeText
  rcases List.eq_nil_or_concat ns with rfl | ⟨ms, m, rfl⟩
  · simp [joinWith]
  · rw [List.concat_eq_append] at h ⊢
    have hm := h m (by simp)
    obtain ⟨m', c, rfl⟩ := (List.eq_nil_or_concat m).resolve_left hm.nonempty
    rw [List.concat_eq_append] at hm ⊢
    have hc : c ≠ '/' := fun hc => hm.noSlash (by simp [hc])
    have hl : ∃ t, '/' :: joinWith ['/'] (ms ++ [m' ++ [c]]) = t ++ [c] := by
      cases ms with
      | nil => exact ⟨'/' :: m', by simp [joinWith]⟩
      | cons k ms =>
        rw [joinWith_snoc (by simp)]
        exact ⟨'/' :: (joinWith ['/'] (k :: ms) ++ '/' :: m'), by simp⟩
    obtain ⟨t, ht⟩ := hl
    rw [if_neg, joinWith_snoc (sep := ['/']) (ps := ms ++ [m' ++ [c]]) (by simp)]
    · simp
    · rw [ht]; simp [hc]

theorem stripComps_append (a b : List PathComp) : stripComps (a ++ b) a = some b := by
  induction a with
  | nil => cases b <;> rfl
  | cons c a ih => rw [List.cons_append, stripComps, if_pos rfl, ih]

theorem showComps_normal {ns : List Str} : showComps (ns.map .normal) = joinWith ['/'] ns := by
  cases ns with
  | nil => rfl
  | cons n ns =>
    show joinWith ['/'] ((PathComp.normal n :: ns.map .normal).map compText) = _
    simp [compText, Function.comp_def]

/-! ## What is loaded -/

/-- Every directory can be listed and every firm file is readable text. -/
def AllReadable (t : FsTree) : Prop :=
  (∀ loc, t.lookup loc ≠ some (.dir none)) ∧
  ∀ dirs n, FirmName n → t.lookup (dirs ++ [n]) ≠ some (.file none)

/-- `w'` is `w` after loading the files of `t`, which is at `ws ++ rel`. -/
structure Loaded (grammar : Str → Node) (ws rel : List Str) (t : FsTree) (w w' : Workspace) : Prop where
  keys : (w.map (·.1)).Nodup → (w'.map (·.1)).Nodup
  files : ∀ dirs n text, FirmName n → t.lookup (dirs ++ [n]) = some (.file (some text)) →
    mapGet w' (placeText (ws ++ (rel ++ (dirs ++ [n])))) =
      some ⟨grammar text, joinWith ['/'] (rel ++ (dirs ++ [n]))⟩
  others : ∀ p, (∀ dirs n text, FirmName n → t.lookup (dirs ++ [n]) = some (.file (some text)) →
    p ≠ placeText (ws ++ (rel ++ (dirs ++ [n])))) → mapGet w' p = mapGet w p

variable {grammar : Str → Node} {ws : List Str}

theorem loadFile_place {w : Workspace} {rel : List Str} {text : Str} (hv : ∀ n ∈ ws ++ rel, ValidName n) :
    w.loadFile grammar (placeText (ws ++ rel)) (placeText ws) (some text) =
      (mapInsert w (placeText (ws ++ rel)) ⟨grammar text, joinWith ['/'] rel⟩, .ok ()) := by
  unfold Workspace.loadFile
  dsimp only
  rw [pathComponents_placeText hv, pathComponents_placeText fun n hn => hv n (by simp [hn]), List.map_append,
    ← List.cons_append, stripComps_append]
  dsimp only
  rw [showComps_normal]

theorem lookup_valid {t u : FsTree} {loc : List Str} (ht : WellFormed t) (h : t.lookup loc = some u) :
    WellFormed u ∧ ∀ n ∈ loc, ValidName n := by
  induction loc generalizing t with
  | nil => rw [lookup_nil] at h; cases h; exact ⟨ht, by simp⟩
  | cons m loc ih =>
    obtain ⟨es, c, rfl, hg, hc⟩ := lookup_cons_some h
    obtain ⟨h1, h2⟩ := wf_child ht hg
    obtain ⟨h3, h4⟩ := ih h1 hc
    refine ⟨h3, fun n hn => ?_⟩
    rcases List.mem_cons.1 hn with rfl | hn
    · exact h2
    · exact h4 n hn

theorem mapGet_cons {β : Type} (n k : Str) (v : β) (m : List (Str × β)) :
    mapGet ((n, v) :: m) k = if n = k then some v else mapGet m k := rfl

theorem mapGet_not_mem {β : Type} {m : List (Str × β)} {k : Str} (h : k ∉ m.map (·.1)) : mapGet m k = none := by
  cases hg : mapGet m k with
  | none => rfl
  | some v =>
    have := mapGet_isSome (m := m) (k := k)
    rw [hg] at this
    exact absurd (this.1 rfl) h

/-- The outcome of loading a directory. -/
def LoadSpec (grammar : Str → Node) (ws : List Str) (t : FsTree) : Prop :=
  WellFormed t → (∀ n ∈ ws, ValidName n) → ∀ (rel : List Str) (w : Workspace), (∀ n ∈ rel, ValidName n) →
    ∃ w' r, loadTree grammar (placeText ws) w (placeText (ws ++ rel)) t = (w', r) ∧
      (r = .ok () ↔ (∃ es, t = .dir (some es)) ∧ AllReadable t) ∧
      (r = .ok () → Loaded grammar ws rel t w w')

theorem load_entries (es : List (Str × FsTree)) (ih : ∀ p ∈ es, LoadSpec grammar ws p.2) :
    WellFormed (.dir (some es)) → (∀ n ∈ ws, ValidName n) → ∀ (rel : List Str) (w : Workspace),
      (∀ n ∈ rel, ValidName n) →
    ∃ w' r, loadEntries grammar (placeText ws) w (placeText (ws ++ rel)) es = (w', r) ∧
      (r = .ok () ↔ AllReadable (.dir (some es))) ∧
      (r = .ok () → Loaded grammar ws rel (.dir (some es)) w w') := by
  induction es with
  | nil =>
    intro _ hws rel w hrel
    have hl : ∀ dirs n, (FsTree.dir (some [])).lookup (dirs ++ [n]) = none := by
      intro dirs n; cases dirs <;> rfl
    refine ⟨w, .ok (), by rw [loadEntries], ⟨fun _ => ⟨?_, ?_⟩, fun _ => rfl⟩, fun _ => ⟨id, ?_, ?_⟩⟩
    · intro loc
      cases loc with
      | nil => simp
      | cons n loc => rw [lookup_dir]; simp [mapGet]
    · intro dirs n _; rw [hl]; simp
    · intro dirs n text _ h; rw [hl] at h; cases h
    · intro p _; rfl
  | cons e es ihs =>
    obtain ⟨name, t⟩ := e
    intro hwf hws rel w hrel
    have hwf' : WellFormed (.dir (some es)) := by
      cases hwf with
      | dir h1 h2 h3 =>
        exact .dir (List.nodup_cons.1 h1).2 (fun p hp => h2 p (List.mem_cons_of_mem _ hp))
          fun p hp => h3 p (List.mem_cons_of_mem _ hp)
    have hfresh : name ∉ es.map (·.1) := by
      cases hwf with
      | dir h1 h2 h3 => exact (List.nodup_cons.1 h1).1
    obtain ⟨hvt, hvn⟩ := wf_child hwf (n := name) (c := t) (by rw [mapGet_cons, if_pos rfl])
    have hrest := ihs (fun p hp => ih p (List.mem_cons_of_mem _ hp)) hwf' hws rel
    have hplace : joinPath (placeText (ws ++ rel)) name = placeText (ws ++ (rel ++ [name])) := by
      rw [joinPath_placeText (by
        intro n hn
        rcases List.mem_append.1 hn with hn | hn
        · exact hws n hn
        · exact hrel n hn), List.append_assoc]
    have hrel' : ∀ n ∈ rel ++ [name], ValidName n := by
      intro n hn
      rcases List.mem_append.1 hn with hn | hn
      · exact hrel n hn
      · rw [List.mem_singleton.1 hn]; exact hvn
    have hlk : ∀ n ns, (FsTree.dir (some ((name, t) :: es))).lookup (n :: ns) =
        if name = n then t.lookup ns else (FsTree.dir (some es)).lookup (n :: ns) := by
      intro n ns
      rw [lookup_dir, lookup_dir, mapGet_cons]
      split <;> rfl
    have hother : ∀ ns, (FsTree.dir (some es)).lookup (name :: ns) = none := by
      intro ns; rw [lookup_dir, mapGet_not_mem hfresh]; rfl
    -- readability splits
    have hread : AllReadable (.dir (some ((name, t) :: es))) ↔
        (((∀ loc, t.lookup loc ≠ some (.dir none)) ∧
          (∀ dirs n, FirmName n → t.lookup (dirs ++ [n]) ≠ some (.file none)) ∧
          (FirmName name → t ≠ .file none)) ∧ AllReadable (.dir (some es))) := by
      constructor
      · rintro ⟨h1, h2⟩
        refine ⟨⟨fun loc h => ?_, fun dirs n hn h => ?_, fun hn h => ?_⟩, fun loc h => ?_, fun dirs n hn h => ?_⟩
        · exact h1 (name :: loc) (by rw [hlk, if_pos rfl]; exact h)
        · exact h2 (name :: dirs) n hn (by rw [List.cons_append, hlk, if_pos rfl]; exact h)
        · exact h2 [] name hn (by rw [List.nil_append, hlk, if_pos rfl, lookup_nil, h])
        · cases loc with
          | nil => rw [lookup_nil] at h; cases h
          | cons k loc =>
            refine h1 (k :: loc) ?_
            rw [hlk]
            by_cases hk : name = k
            · subst hk; rw [hother] at h; cases h
            · rw [if_neg hk]; exact h
        · cases dirs with
          | nil =>
            refine h2 [] n hn ?_
            rw [List.nil_append] at h ⊢
            rw [hlk]
            by_cases hk : name = n
            · subst hk; rw [hother] at h; cases h
            · rw [if_neg hk]; exact h
          | cons k dirs =>
            refine h2 (k :: dirs) n hn ?_
            rw [List.cons_append] at h ⊢
            rw [hlk]
            by_cases hk : name = k
            · subst hk; rw [hother] at h; cases h
            · rw [if_neg hk]; exact h
      · rintro ⟨⟨h1, h2, h3⟩, h4, h5⟩
        refine ⟨fun loc h => ?_, fun dirs n hn h => ?_⟩
        · cases loc with
          | nil => rw [lookup_nil] at h; cases h
          | cons k loc =>
            rw [hlk] at h
            by_cases hk : name = k
            · rw [if_pos hk] at h; exact h1 _ h
            · rw [if_neg hk] at h; exact h4 _ h
        · cases dirs with
          | nil =>
            rw [List.nil_append, hlk] at h
            by_cases hk : name = n
            · rw [if_pos hk, lookup_nil] at h; cases h; exact h3 (hk ▸ hn) rfl
            · rw [if_neg hk] at h; exact h5 [] n hn h
          | cons k dirs =>
            rw [List.cons_append, hlk] at h
            by_cases hk : name = k
            · rw [if_pos hk] at h; exact h2 _ _ hn h
            · rw [if_neg hk] at h; exact h5 (k :: dirs) n hn h
    -- putting the effects of the first entry and of the rest together
    have hcombine : ∀ {w1 w2 : Workspace},
        ((w.map (·.1)).Nodup → (w1.map (·.1)).Nodup) →
        (∀ dirs n text, FirmName n → (name :: dirs).getLast? ≠ none →
          t.lookup dirs = some (.file (some text)) → (name :: dirs).getLast? = some n →
          mapGet w1 (placeText (ws ++ (rel ++ (name :: dirs)))) =
            some ⟨grammar text, joinWith ['/'] (rel ++ (name :: dirs))⟩) →
        (∀ p, (∀ dirs n text, FirmName n → t.lookup dirs = some (.file (some text)) →
          (name :: dirs).getLast? = some n → p ≠ placeText (ws ++ (rel ++ (name :: dirs)))) →
          mapGet w1 p = mapGet w p) →
        Loaded grammar ws rel (.dir (some es)) w1 w2 →
        Loaded grammar ws rel (.dir (some ((name, t) :: es))) w w2 := by
      intro w1 w2 hk1 hf1 ho1 hl
      have hval : ∀ {loc : List Str}, (∀ n ∈ loc, ValidName n) → ∀ n ∈ ws ++ (rel ++ loc), ValidName n := by
        intro loc hloc n hn
        rcases List.mem_append.1 hn with hn | hn
        · exact hws n hn
        · rcases List.mem_append.1 hn with hn | hn
          · exact hrel n hn
          · exact hloc n hn
      have hsnoc : ∀ (dirs : List Str) (n : Str), ∃ k loc, dirs ++ [n] = k :: loc ∧ (k :: loc).getLast? = some n := by
        intro dirs n
        cases dirs with
        | nil => exact ⟨n, [], rfl, rfl⟩
        | cons k dirs => exact ⟨k, dirs ++ [n], rfl, by rw [← List.cons_append, List.getLast?_concat]⟩
      refine ⟨fun h => hl.keys (hk1 h), ?_, ?_⟩
      · intro dirs n text hn h
        obtain ⟨k, loc, hkl, hlast⟩ := hsnoc dirs n
        rw [hkl, hlk] at h
        rw [hkl]
        by_cases hk : name = k
        · subst hk
          rw [if_pos rfl] at h
          rw [hl.others, hf1 loc n text hn (by simp) h hlast]
          intro dirs' n' text' hn' h' heq
          have hv1 := lookup_valid hwf' h'
          have hv2 := lookup_valid hvt h
          have := placeText_inj (hval (by
            intro m hm
            rcases List.mem_cons.1 hm with rfl | hm
            · exact hvn
            · exact hv2.2 m hm)) (hval hv1.2) heq
          have := List.append_cancel_left (List.append_cancel_left this)
          rw [← this, hother] at h'
          cases h'
        · rw [if_neg hk] at h
          rw [← hkl] at h ⊢
          exact hl.files dirs n text hn h
      · intro p hp
        rw [hl.others, ho1]
        · intro dirs n text hn h hlast
          obtain ⟨ds, hds⟩ := List.getLast?_eq_some_iff.1 hlast
          rw [hds]
          refine hp ds n text hn ?_
          rw [← hds, hlk, if_pos rfl]
          exact h
        · intro dirs n text hn h
          refine hp dirs n text hn ?_
          obtain ⟨k, loc, hkl, _⟩ := hsnoc dirs n
          rw [hkl] at h ⊢
          rw [hlk]
          by_cases hk : name = k
          · subst hk; rw [hother] at h; cases h
          · rw [if_neg hk]; exact h
    cases t with
    | other =>
      rw [loadEntries]
      obtain ⟨w', r, h1, h2, h3⟩ := hrest w hrel
      refine ⟨w', r, h1, ?_, ?_⟩
      · rw [h2, hread]
        constructor
        · intro h
          refine ⟨⟨fun loc h => ?_, fun dirs n _ h => ?_, fun _ h => by cases h⟩, h⟩
          · cases loc <;> simp [FsTree.lookup] at h
          · cases dirs <;> simp [FsTree.lookup] at h
        · exact fun h => h.2
      · intro hr
        refine hcombine id ?_ ?_ (h3 hr)
        · intro dirs n text _ _ h
          cases dirs <;> simp [FsTree.lookup] at h
        · intro p _; rfl
    | file text =>
      rw [loadEntries]
      by_cases hfirm : isFirmFile name = true
      · rw [if_pos hfirm, hplace]
        have hfn := isFirmFile_iff.1 hfirm
        cases text with
        | none =>
          refine ⟨w, .error .io, by simp [Workspace.loadFile], ⟨fun h => (by cases h), fun h => ?_⟩,
            fun h => by cases h⟩
          exact absurd rfl ((hread.1 h).1.2.2 hfn)
        | some text =>
          rw [loadFile_place (by
            intro n hn
            rcases List.mem_append.1 hn with hn | hn
            · exact hws n hn
            · exact hrel' n hn)]
          dsimp only
          obtain ⟨w', r, h1, h2, h3⟩ := hrest
            (mapInsert w (placeText (ws ++ (rel ++ [name]))) ⟨grammar text, joinWith ['/'] (rel ++ [name])⟩) hrel
          refine ⟨w', r, h1, ?_, ?_⟩
          · rw [h2, hread]
            constructor
            · intro h
              refine ⟨⟨fun loc h => ?_, fun dirs n _ h => ?_, fun _ h => by cases h⟩, h⟩
              · cases loc <;> simp [FsTree.lookup] at h
              · cases dirs <;> simp [FsTree.lookup] at h
            · exact fun h => h.2
          · intro hr
            refine hcombine (fun h => mapInsert_nodup h) ?_ ?_ (h3 hr)
            · intro dirs n text' _ _ h _
              cases dirs with
              | nil =>
                rw [lookup_nil] at h; cases h
                rw [mapGet_mapInsert, if_pos rfl]
              | cons k dirs => simp [FsTree.lookup] at h
            · intro p hp
              rw [mapGet_mapInsert, if_neg]
              exact fun h => hp [] name text hfn (lookup_nil _) rfl h.symm
      · rw [if_neg hfirm]
        have hfn : ¬ FirmName name := fun h => hfirm (isFirmFile_iff.2 h)
        obtain ⟨w', r, h1, h2, h3⟩ := hrest w hrel
        refine ⟨w', r, h1, ?_, ?_⟩
        · rw [h2, hread]
          constructor
          · intro h
            refine ⟨⟨fun loc h => ?_, fun dirs n _ h => ?_, fun hn _ => hfn hn⟩, h⟩
            · cases loc <;> simp [FsTree.lookup] at h
            · cases dirs <;> simp [FsTree.lookup] at h
          · exact fun h => h.2
        · intro hr
          refine hcombine id ?_ ?_ (h3 hr)
          · intro dirs n text' hn _ h hlast
            cases dirs with
            | nil => simp at hlast; subst hlast; exact absurd hn hfn
            | cons k dirs => simp [FsTree.lookup] at h
          · intro p _; rfl
    | dir e =>
      rw [loadEntries, hplace]
      obtain ⟨w1, r1, k1, k2, k3⟩ := ih _ List.mem_cons_self hvt hws (rel ++ [name]) w hrel'
      dsimp only at k1 k2 k3
      rw [k1]
      cases r1 with
      | error err =>
        refine ⟨w1, .error err, rfl, ⟨fun h => (by cases h), fun h => ?_⟩, fun h => by cases h⟩
        obtain ⟨⟨a, b, _⟩, _⟩ := hread.1 h
        cases e with
        | none => exact absurd (lookup_nil _) (a [])
        | some fs => cases k2.2 ⟨⟨fs, rfl⟩, a, b⟩
      | ok u =>
        obtain ⟨⟨fs, hfs⟩, hall⟩ := k2.1 rfl
        have hl1 := k3 rfl
        obtain ⟨w', r, h1, h2, h3⟩ := hrest w1 hrel
        refine ⟨w', r, h1, ?_, ?_⟩
        · rw [h2, hread]
          exact ⟨fun h => ⟨⟨hall.1, hall.2, fun _ h => by cases h⟩, h⟩, fun h => h.2⟩
        · intro hr
          refine hcombine hl1.keys ?_ ?_ (h3 hr)
          · intro dirs n text hn _ h hlast
            obtain ⟨ds, m, rfl⟩ : ∃ ds m, dirs = ds ++ [m] := by
              rcases List.eq_nil_or_concat dirs with rfl | ⟨ds, m, rfl⟩
              · rw [lookup_nil] at h; cases h
              · exact ⟨ds, m, by simp⟩
            rw [← List.cons_append, List.getLast?_concat] at hlast
            cases hlast
            have := hl1.files ds _ text hn h
            simpa [List.append_assoc] using this
          · intro p hp
            refine hl1.others p fun ds m text hm h => ?_
            have := hp (ds ++ [m]) m text hm h (by rw [← List.cons_append, List.getLast?_concat])
            simpa [List.append_assoc] using this

theorem load_tree (t : FsTree) : LoadSpec grammar ws t := by
  induction h : sizeOf t using Nat.strongRecOn generalizing t with
  | ind n ih =>
    intro hwf hws rel w hrel
    cases t with
    | file x =>
      exact ⟨w, .error .io, by rw [loadTree] <;> simp, ⟨fun h => (by cases h), fun h => (by obtain ⟨⟨_, h⟩, _⟩ := h; cases h)⟩,
        fun h => by cases h⟩
    | other =>
      exact ⟨w, .error .io, by rw [loadTree] <;> simp, ⟨fun h => (by cases h), fun h => (by obtain ⟨⟨_, h⟩, _⟩ := h; cases h)⟩,
        fun h => by cases h⟩
    | dir e =>
      cases e with
      | none =>
        exact ⟨w, .error .io, by rw [loadTree], ⟨fun h => (by cases h), fun h => (by obtain ⟨⟨_, h⟩, _⟩ := h; cases h)⟩,
          fun h => by cases h⟩
      | some es =>
        obtain ⟨w', r, h1, h2, h3⟩ := load_entries (grammar := grammar) (ws := ws) es (fun p hp => by
          refine ih (sizeOf p.2) ?_ p.2 rfl
          have h1 := List.sizeOf_lt_of_mem hp
          have h2 : sizeOf p.2 < sizeOf p := by
            cases p; simp only [Prod.mk.sizeOf_spec]; omega
          rw [← h]
          simp only [FsTree.dir.sizeOf_spec, Option.some.sizeOf_spec]
          omega) hwf hws rel w hrel
        refine ⟨w', r, by rw [loadTree]; exact h1, ?_, h3⟩
        rw [h2]
        exact ⟨fun h => ⟨⟨es, rfl⟩, h⟩, fun h => h.2⟩

end Firm
