import Verif.Lemmas.Load
import Verif.Lemmas.Filter

/-!
# Steps of the server
-/

namespace Firm

open Firm.Spec

/-! ## Shapes of paths -/

theorem splitChar_right {c : Char} (x : Str) {s : Str} (h : c ∉ s) :
    ∃ ps q, splitChar c (x ++ s) = ps ++ [q ++ s] := by
  induction x with
  | nil => exact ⟨[], [], by rw [List.nil_append, splitChar_none h]; rfl⟩
  | cons d x ih =>
    obtain ⟨ps, q, hq⟩ := ih
    by_cases hd : d = c
    · subst hd
      exact ⟨[] :: ps, q, by rw [List.cons_append, show d :: (x ++ s) = [] ++ d :: (x ++ s) from rfl,
        splitChar_two, hq, show splitChar d [] = [[]] from rfl, List.cons_append, List.cons_append, List.nil_append]⟩
    · rw [List.cons_append, splitChar, if_neg hd, hq]
      cases ps with
      | nil => exact ⟨[], d :: q, rfl⟩
      | cons p ps => exact ⟨(d :: p) :: ps, q, rfl⟩

theorem pathComponents_shape (s : Str) :
    ∃ pre, pathComponents s = pre ++ (splitChar '/' s).filterMap pieceComp ∧
      (pre = [] ∨ pre = [.curDir] ∨ (pre = [.rootDir] ∧ s.head? = some '/')) := by
  match s with
  | [] => exact ⟨[], by decide, .inl rfl⟩
  | c :: s =>
    by_cases hc : c = '/'
    · subst hc; exact ⟨[.rootDir], rfl, .inr (.inr ⟨rfl, rfl⟩)⟩
    · unfold pathComponents
      split
      · next heq => cases heq
      · next heq => cases heq; exact absurd rfl hc
      · split
        · next first rest heq =>
          rw [heq]
          by_cases hf : first = ['.']
          · rw [if_pos hf]
            refine ⟨[.curDir], ?_, .inr (.inl rfl)⟩
            rw [List.filterMap_cons, hf, show pieceComp ['.'] = none from by decide]
          · rw [if_neg hf]
            refine ⟨[], ?_, .inl rfl⟩
            rw [List.filterMap_cons]
            cases pieceComp first <;> rfl
        · next heq => exact absurd heq (splitChar_ne_nil _ _)

theorem lexicalPlace_normal (loc ns : List Str) : lexicalPlace loc (ns.map .normal) = loc ++ ns := by
  induction ns generalizing loc with
  | nil => simp [lexicalPlace]
  | cons n ns ih =>
    show lexicalPlace (loc ++ [n]) (ns.map .normal) = _
    rw [ih]; simp

theorem resolve_normal {d u : FsTree} {loc ns : List Str} (h : d.lookup (loc ++ ns) = some u) :
    d.resolve loc (ns.map .normal) = some (loc ++ ns) := by
  induction ns generalizing loc with
  | nil => simp [FsTree.resolve]
  | cons n ns ih =>
    have hdir : ∃ es, d.lookup loc = some (.dir (some es)) := by
      rw [lookup_append] at h
      cases hl : d.lookup loc with
      | none => rw [hl] at h; simp at h
      | some v =>
        rw [hl] at h
        obtain ⟨es, _, rfl, _⟩ := lookup_cons_some h
        exact ⟨es, rfl⟩
    obtain ⟨es, hes⟩ := hdir
    show (match d.lookup loc with
      | some (.dir _) => d.resolve (loc ++ [n]) (ns.map .normal)
      | _ => none) = _
    rw [hes]
    dsimp only
    rw [ih (by simpa using h)]; simp

theorem mem_infix_join {sep : Str} {ps : List Str} {p : Str} (h : p ∈ ps) :
    ∃ a b, joinWith sep ps = a ++ p ++ b := by
  induction ps with
  | nil => cases h
  | cons q ps ih =>
    cases ps with
    | nil => rw [List.mem_singleton.1 h, joinWith]; exact ⟨[], [], by simp⟩
    | cons r ps =>
      rw [joinWith]
      rcases List.mem_cons.1 h with rfl | h
      · exact ⟨[], sep ++ joinWith sep (r :: ps), by simp⟩
      · obtain ⟨a, b, hab⟩ := ih h
        exact ⟨q ++ sep ++ a, b, by rw [hab]; simp⟩

/-- A path without two dots in a row consists of plain names after its start. -/
theorem plain_components {path : Str} (h : strContains path "..".toList = false) :
    ∃ pre, ∃ ns : List Str, pathComponents path = pre ++ ns.map .normal ∧
      (pre = [] ∨ pre = [.curDir] ∨ (pre = [.rootDir] ∧ path.head? = some '/')) := by
  obtain ⟨pre, h1, h2⟩ := pathComponents_shape path
  have key : ∀ ps : List Str, (∀ p ∈ ps, p ≠ ['.', '.']) → ∃ ns : List Str,
      ps.filterMap pieceComp = ns.map .normal := by
    intro ps hps
    induction ps with
    | nil => exact ⟨[], rfl⟩
    | cons p ps ih =>
      obtain ⟨ns, hns⟩ := ih fun q hq => hps q (List.mem_cons_of_mem _ hq)
      rw [List.filterMap_cons, hns]
      have hp := hps p (by simp)
      unfold pieceComp
      by_cases h1 : p = []
      · rw [if_pos h1]; exact ⟨ns, rfl⟩
      · rw [if_neg h1]
        by_cases h2 : p = ['.']
        · rw [if_pos h2]; exact ⟨ns, rfl⟩
        · rw [if_neg h2, if_neg hp]; exact ⟨p :: ns, rfl⟩
  obtain ⟨ns, hns⟩ := key (splitChar '/' path) (by
    rintro p hp rfl
    obtain ⟨a, b, hab⟩ := mem_infix_join (sep := ['/']) hp
    rw [joinWith_splitChar] at hab
    have := strContains_append a "..".toList b
    rw [hab] at h
    rw [show (['.', '.'] : Str) = "..".toList from rfl] at h
    rw [this] at h
    cases h)
  exact ⟨pre, ns, by rw [h1, hns], h2⟩

/-- A path accepted by `to_absolute_path` leads into the workspace if there is something at its place,
or if it does not start at the root. -/
theorem absolute_inside {d : FsTree} {ws loc : List Str} {path : Str}
    (h : toAbsolutePath d ws path = some loc) (hx : d.lookup loc ≠ none ∨ path.head? ≠ some '/') :
    ws <+: loc := by
  have hloc := toAbsolutePath_eq h
  have hnew : newPath ws path = some loc →
      (∀ ns : List Str, pathComponents path = .rootDir :: ns.map .normal → ¬ d.lookup loc ≠ none) → ws <+: loc := by
    intro hn hroot
    unfold newPath at hn
    by_cases hc : strContains path "..".toList = true
    · rw [if_pos hc] at hn; cases hn
    · rw [if_neg hc] at hn
      obtain ⟨pre, ns, h1, h2⟩ := plain_components (path := path) (by simpa using hc)
      rw [hloc, h1, lexicalPlace_append]
      rcases h2 with rfl | rfl | ⟨rfl, h2⟩
      · rw [lexicalPlace_normal]; exact List.prefix_append _ _
      · rw [lexicalPlace_normal]; exact List.prefix_append _ _
      · rcases hx with hx | hx
        · exact absurd hx (hroot ns h1)
        · exact absurd h2 hx
  unfold toAbsolutePath at h
  cases hr : d.resolve ws (pathComponents path) with
  | none =>
    rw [hr] at h
    refine hnew h fun ns hns hl => ?_
    rw [hns] at hr hloc
    have hloc' : loc = ns := by
      rw [hloc]
      show lexicalPlace [] _ = _
      rw [lexicalPlace_normal]; rfl
    rw [hloc'] at hl
    cases hu : d.lookup ns with
    | none => exact hl hu
    | some u =>
      have : d.resolve [] (ns.map .normal) = some ([] ++ ns) := resolve_normal (by simpa using hu)
      rw [show d.resolve ws (.rootDir :: ns.map .normal) = d.resolve [] (ns.map .normal) from by
        rw [FsTree.resolve], this] at hr
      cases hr
  | some l =>
    have hl := resolve_lexical hr
    rw [← hloc] at hl
    subst hl
    rw [hr] at h
    dsimp only at h
    cases hu : d.lookup l with
    | none => rw [hu] at h; exact hnew h fun _ _ hl => hl hu
    | some u =>
      rw [hu] at h
      dsimp only at h
      by_cases hw : ws.isPrefixOf l = true
      · exact List.isPrefixOf_iff_prefix.1 hw
      · rw [if_neg hw] at h; cases h

/-- The place of a path ending in `.firm` has a name ending in `.firm`. -/
theorem firm_place {ws : List Str} {path : Str} (h : endsWith path ".firm".toList = true) :
    ∃ p n, lexicalPlace ws (pathComponents path) = p ++ [n] ∧ ∃ stem, n = stem ++ ".firm".toList := by
  obtain ⟨x, hx⟩ := List.isSuffixOf_iff_suffix.1 h
  subst hx
  obtain ⟨pre, hpre, _⟩ := pathComponents_shape (x ++ ".firm".toList)
  obtain ⟨ps, q, hq⟩ := splitChar_right (c := '/') x (s := ".firm".toList) (by decide)
  have hne : pieceComp (q ++ ".firm".toList) = some (.normal (q ++ ".firm".toList)) := by
    unfold pieceComp
    rw [if_neg (by simp), if_neg, if_neg]
    · intro h
      have := congrArg List.length h
      simp at this
    · intro h
      have := congrArg List.length h
      simp at this
  rw [hpre, hq, List.filterMap_append, List.filterMap_cons, hne, List.filterMap_nil, ← List.append_assoc,
    lexicalPlace_append]
  exact ⟨_, _, rfl, q, rfl⟩

theorem place_valid {ws : List Str} (hws : ∀ n ∈ ws, ValidName n) (path : Str) :
    ∀ n ∈ lexicalPlace ws (pathComponents path), ValidName n :=
  lexicalPlace_valid hws fun _ hn => pathComponents_valid hn

/-- Place of a path of a request. -/
abbrev placeFor (ws : List Str) (path : Str) : List Str := lexicalPlace ws (pathComponents path)

/-! ## Writing -/

/-- The leaves of `d'` are those of `d` except at one place. -/
def LeafSet (d d' : FsTree) (loc : List Str) (u : Option FsTree) : Prop :=
  ∀ l, leafAt d' l = if l = loc then u else leafAt d l

theorem leafSet_congr {d d1 d' : FsTree} {loc : List Str} {u : Option FsTree} (h : ∀ l, leafAt d1 l = leafAt d l)
    (h' : LeafSet d1 d' loc u) : LeafSet d d' loc u := by
  intro l; rw [h' l, h l]

theorem writeSourceFile_spec {d d' : FsTree} {ws : List Str} {path content : Str} {ok : Bool}
    (hd : WellFormed d) (hws : ∀ n ∈ ws, ValidName n)
    (h : writeSourceFile d ws path content = (d', ok)) :
    WellFormed d' ∧ (ok = false → ∀ l, leafAt d' l = leafAt d l) ∧
    (ok = true → LeafSet d d' (placeFor ws path) (some (.file (some content))) ∧
      (leafAt d (placeFor ws path) = none ∨ ∃ t, d.lookup (placeFor ws path) = some (.file t)) ∧
      toAbsolutePath d ws path = some (placeFor ws path) ∧
      endsWith path ".firm".toList = true) := by
  unfold writeSourceFile at h
  by_cases he : endsWith path ".firm".toList = true
  · rw [if_pos he] at h
    cases ha : toAbsolutePath d ws path with
    | none => rw [ha] at h; cases h; exact ⟨hd, fun _ _ => rfl, fun h => by cases h⟩
    | some loc =>
      have hloc := toAbsolutePath_eq ha
      obtain ⟨p, n, hpn, _⟩ := firm_place (ws := ws) he
      rw [ha] at h
      dsimp only at h
      have hval := place_valid hws path
      cases hc : d.createDirAll loc.dropLast with
      | none => rw [hc] at h; cases h; exact ⟨hd, fun _ _ => rfl, fun h => by cases h⟩
      | some d1 =>
        rw [hc] at h
        dsimp only at h
        have hd1 := wf_createDirAll hd (fun m hm => hval m (by
          rw [hloc] at hm; exact List.mem_of_mem_dropLast hm)) hc
        have hl1 := leafAt_createDirAll hc
        cases hw : d1.writeFile loc content with
        | none => rw [hw] at h; cases h; exact ⟨hd1, fun _ => hl1, fun h => by cases h⟩
        | some d2 =>
          rw [hw] at h
          cases h
          rw [hloc, hpn] at hw
          obtain ⟨h1, h2, h3, h4⟩ := writeFile_spec hw
          refine ⟨?_, fun h => (by cases h), fun _ => ⟨?_, ?_, by rw [hloc], he⟩⟩
          · rw [h1]; exact wf_place hd1 (.file _) (by rw [← hpn]; exact hval)
          · show LeafSet _ _ (lexicalPlace _ _) _
            rw [hpn]; exact leafSet_congr hl1 h3
          · show leafAt _ (lexicalPlace _ _) = _ ∨ _
            rcases h4 with h4 | ⟨t, h4⟩
            · left
              rw [hpn, ← hl1]
              unfold leafAt
              rw [h4]; rfl
            · right
              refine ⟨t, ?_⟩
              have : leafAt d1 (p ++ [n]) = some (.file t) :=
                leafAt_eq_some.2 ⟨h4, fun es h => by cases h⟩
              rw [hl1] at this
              show d.lookup (lexicalPlace _ _) = _
              rw [hpn]
              exact (leafAt_eq_some.1 this).1
  · rw [if_neg he] at h; cases h; exact ⟨hd, fun _ _ => rfl, fun h => by cases h⟩

theorem validateAndWrite_spec {H : Host} {d d' : FsTree} {path content : Str} {o : Option (Option Str)}
    (hd : WellFormed d) (hws : ∀ n ∈ H.ws, ValidName n)
    (h : validateAndWrite H d path content = (d', o)) :
    WellFormed d' ∧ (o = none → ∀ l, leafAt d' l = leafAt d l) ∧
    (∀ original, o = some original →
      LeafSet d d' (placeFor H.ws path) (some (.file (some content))) ∧
      original = d.readText (placeFor H.ws path) ∧
      (leafAt d (placeFor H.ws path) = none ∨ ∃ t, d.lookup (placeFor H.ws path) = some (.file t)) ∧
      toAbsolutePath d H.ws path = some (placeFor H.ws path) ∧
      endsWith path ".firm".toList = true) := by
  unfold validateAndWrite at h
  by_cases ha : H.accepts content = true
  · rw [if_pos ha] at h
    cases hw : writeSourceFile d H.ws path content with
    | mk d1 ok =>
      rw [hw] at h
      obtain ⟨h1, h2, h3⟩ := writeSourceFile_spec hd hws hw
      cases ok with
      | true =>
        cases h
        refine ⟨h1, fun h => (by cases h), fun original ho => ?_⟩
        cases ho
        obtain ⟨a, b, c, e⟩ := h3 rfl
        exact ⟨a, by rw [placeOf_eq], b, c, e⟩
      | false => cases h; exact ⟨h1, fun _ => h2 rfl, fun _ h => by cases h⟩
  · rw [if_neg ha] at h; cases h; exact ⟨hd, fun _ _ => rfl, fun _ h => by cases h⟩

theorem rollbackWrite_spec {d : FsTree} {ws : List Str} {path content : Str} {original : Option Str}
    (hd : WellFormed d) (hws : ∀ n ∈ ws, ValidName n) (he : endsWith path ".firm".toList = true)
    (hl : leafAt d (placeFor ws path) = some (.file (some content))) :
    WellFormed (rollbackWrite d ws path original) ∧
    LeafSet d (rollbackWrite d ws path original) (placeFor ws path) (original.map fun o => .file (some o)) := by
  obtain ⟨p, n, hpn, _⟩ := firm_place (ws := ws) he
  have hval := place_valid hws path
  have hlk := (leafAt_eq_some.1 hl).1
  rw [placeFor, hpn] at hlk ⊢
  cases original with
  | some o =>
    have hw : d.writeFile (p ++ [n]) o = some (d.place (p ++ [n]) (.file (some o))) := by
      unfold FsTree.writeFile; rw [hlk]
    obtain ⟨h1, h2, h3, h4⟩ := writeFile_spec hw
    rw [rollbackWrite, placeOf_eq, hpn, hw, Option.getD_some]
    exact ⟨wf_place hd (.file _) (by rw [← hpn]; exact hval), h3⟩
  | none =>
    have hw : d.removeFile (p ++ [n]) = some (d.remove (p ++ [n])) := by
      unfold FsTree.removeFile; rw [hlk]
    obtain ⟨h1, h2⟩ := removeFile_spec hw
    rw [rollbackWrite, placeOf_eq, hpn, hw, Option.getD_some]
    exact ⟨wf_remove hd, h2⟩

/-! ## Deleting -/

theorem deleteExecute_spec {d d' : FsTree} {ws : List Str} {path original : Str}
    (hd : WellFormed d) (h : deleteExecute d ws path = some (d', original)) :
    WellFormed d' ∧ LeafSet d d' (placeFor ws path) none ∧
    d.lookup (placeFor ws path) = some (.file (some original)) ∧
    toAbsolutePath d ws path = some (placeFor ws path) ∧ endsWith path ".firm".toList = true ∧
    d' = d.remove (placeFor ws path) := by
  unfold deleteExecute at h
  by_cases he : endsWith path ".firm".toList = true
  · rw [if_pos he] at h
    cases ha : toAbsolutePath d ws path with
    | none => rw [ha] at h; cases h
    | some loc =>
      have hloc := toAbsolutePath_eq ha
      obtain ⟨p, n, hpn, _⟩ := firm_place (ws := ws) he
      rw [ha] at h
      dsimp only at h
      cases hr : d.readText loc with
      | none => rw [hr] at h; cases h
      | some o =>
        rw [hr] at h
        simp only [Option.map_eq_some_iff, Prod.mk.injEq] at h
        obtain ⟨d1, h1, rfl, rfl⟩ := h
        have hlk : d.lookup loc = some (.file (some o)) := by
          unfold FsTree.readText at hr
          split at hr
          · next heq => rw [heq, hr]
          · cases hr
        rw [hloc] at hlk h1
        rw [hpn] at h1
        obtain ⟨h2, h3⟩ := removeFile_spec h1
        refine ⟨by rw [h2]; exact wf_remove hd, ?_, hlk, by rw [hloc], he, by rw [h2, placeFor, hpn]⟩
        show LeafSet _ _ (lexicalPlace _ _) _
        rw [hpn]; exact h3
  · rw [if_neg he] at h; cases h

theorem rollbackDelete_spec {d : FsTree} {ws : List Str} {path original : Str}
    (hd : WellFormed d) (hws : ∀ n ∈ ws, ValidName n) (he : endsWith path ".firm".toList = true)
    (hl : d.lookup (placeFor ws path) = some (.file (some original))) :
    WellFormed (rollbackDelete (d.remove (placeFor ws path)) ws path original) ∧
    ∀ l, leafAt (rollbackDelete (d.remove (placeFor ws path)) ws path original) l = leafAt d l := by
  obtain ⟨p, n, hpn, _⟩ := firm_place (ws := ws) he
  have hval := place_valid hws path
  rw [placeFor, hpn] at hl ⊢
  obtain ⟨es, hp, hg⟩ := lookup_snoc_some hl
  obtain ⟨es', hp', hg'⟩ := lookup_remove_parent (n := n) hp
  have hwf : WellFormed (d.remove (p ++ [n])) := wf_remove hd
  have hc := createDirAll_existing hp'
  have hnone : (d.remove (p ++ [n])).lookup (p ++ [n]) = none := by
    rw [lookup_append, hp']
    show FsTree.lookup _ [n] = none
    rw [lookup_dir, hg']; rfl
  have hw : (d.remove (p ++ [n])).writeFile (p ++ [n]) original =
      some ((d.remove (p ++ [n])).place (p ++ [n]) (.file (some original))) := by
    unfold FsTree.writeFile
    rw [hnone]
    dsimp only
    rw [List.dropLast_concat, hp']
  obtain ⟨_, _, h3, _⟩ := writeFile_spec hw
  unfold rollbackDelete
  rw [placeOf_eq, hpn, List.dropLast_concat, hc]
  dsimp only
  rw [hw, Option.getD_some]
  refine ⟨wf_place hwf (.file _) (by rw [← hpn]; exact hval), fun l => ?_⟩
  have hrem := leafAt_remove hl (fun es h => by cases h) l
  rw [h3 l, hrem]
  split
  · next hh => rw [hh]; exact (leafAt_eq_some.2 ⟨hl, fun es h => by cases h⟩).symm
  · rfl

/-! ## Rebuilding -/

theorem firmFile_iff {d : FsTree} {ws loc : List Str} {text : Str} (hd : WellFormed d) :
    FirmFile d ws loc text ↔ ∃ dirs n, loc = dirs ++ [n] ∧ FirmName n ∧
      leafAt d (ws ++ (dirs ++ [n])) = some (.file (some text)) := by
  unfold FirmFile
  rw [has_iff_lookup hd]
  constructor
  · rintro ⟨⟨dirs, n, rfl, hn⟩, h⟩
    exact ⟨dirs, n, rfl, hn, leafAt_eq_some.2 ⟨h, fun es h => by cases h⟩⟩
  · rintro ⟨dirs, n, rfl, hn, h⟩
    exact ⟨⟨dirs, n, rfl, hn⟩, (leafAt_eq_some.1 h).1⟩

theorem loadsAs_of_leaves {grammar : Str → Node} {d d' : FsTree} {ws : List Str} {w : Workspace} (hd : WellFormed d)
    (hd' : WellFormed d')
    (h : ∀ l text, leafAt d' l = some (.file (some text)) ↔ leafAt d l = some (.file (some text)))
    (hw : LoadsAs grammar ws d w) : LoadsAs grammar ws d' w := by
  refine ⟨hw.1, fun path f => ?_⟩
  rw [hw.2]
  constructor
  · rintro ⟨loc, text, h1, h2⟩
    refine ⟨loc, text, ?_, h2⟩
    rw [firmFile_iff hd] at h1
    rw [firmFile_iff hd']
    obtain ⟨dirs, n, a, b, c⟩ := h1
    exact ⟨dirs, n, a, b, (h _ _).2 c⟩
  · rintro ⟨loc, text, h1, h2⟩
    refine ⟨loc, text, ?_, h2⟩
    rw [firmFile_iff hd'] at h1
    rw [firmFile_iff hd]
    obtain ⟨dirs, n, a, b, c⟩ := h1
    exact ⟨dirs, n, a, b, (h _ _).1 c⟩

theorem mapGet_mem {w : Workspace} (hn : (w.map (·.1)).Nodup) {p : Str} {f : SourceFile} :
    (p, f) ∈ w ↔ mapGet w p = some f := (mapGet_some hn).symm

theorem loadDirectory_spec {grammar : Str → Node} {ws : List Str} {d t : FsTree} (hd : WellFormed d)
    (hws : ∀ n ∈ ws, ValidName n) (ht : d.lookup ws = some t) :
    ∃ w r, Workspace.loadDirectory grammar [] (placeText ws) t = (w, r) ∧
      (r = .ok () ↔ Readable ws d) ∧ (r = .ok () → LoadsAs grammar ws d w) := by
  obtain ⟨hwt, _⟩ := lookup_valid hd ht
  obtain ⟨w, r, h1, h2, h3⟩ := load_tree (grammar := grammar) t hwt hws [] [] (by simp)
  rw [List.append_nil] at h1
  have hsub : ∀ loc, d.lookup (ws ++ loc) = t.lookup loc := by
    intro loc; rw [lookup_append, ht]; rfl
  refine ⟨w, r, h1, ?_, ?_⟩
  · rw [h2]
    unfold AllReadable Readable
    simp only [has_iff_lookup hd]
    constructor
    · rintro ⟨⟨es, rfl⟩, a, b⟩
      exact ⟨⟨es, ht⟩, fun loc => by rw [hsub]; exact a loc, fun dirs n hn => by rw [hsub]; exact b dirs n hn⟩
    · rintro ⟨⟨es, h⟩, a, b⟩
      rw [ht] at h
      cases h
      exact ⟨⟨es, rfl⟩, fun loc => by rw [← hsub]; exact a loc, fun dirs n hn => by rw [← hsub]; exact b dirs n hn⟩
  · intro hr
    obtain ⟨hk, hf, ho⟩ := h3 hr
    have hnod := hk (by simp)
    refine ⟨hnod, fun path f => ?_⟩
    rw [mapGet_mem hnod]
    simp only [List.nil_append] at hf ho
    constructor
    · intro h
      by_contra hno
      have : mapGet w path = mapGet [] path := by
        refine ho path fun dirs n text hn hl heq => hno ?_
        refine ⟨dirs ++ [n], text, ⟨⟨dirs, n, rfl, hn⟩, ?_⟩, heq, ?_⟩
        · rw [has_iff_lookup hd, hsub]; exact hl
        · have := hf dirs n text hn hl
          rw [← heq, h] at this
          cases this; rfl
      rw [this] at h
      cases h
    · rintro ⟨loc, text, ⟨⟨dirs, n, rfl, hn⟩, hl⟩, rfl, rfl⟩
      rw [has_iff_lookup hd, hsub] at hl
      exact hf dirs n text hn hl

theorem rebuild_serves {H : Host} {order : Workspace → Workspace} {d : FsTree} {st : ServerState}
    (hd : WellFormed d) (hws : ∀ n ∈ H.ws, ValidName n) (ho : ∀ w, (order w).Perm w)
    (h : rebuild H order d = .ok st) : Serves H ⟨d, st⟩ := by
  unfold rebuild at h
  cases ht : d.lookup H.ws with
  | none => rw [ht] at h; cases h
  | some t =>
    obtain ⟨w, r, h1, h2, h3⟩ := loadDirectory_spec (grammar := H.grammar) hd hws ht
    rw [ht] at h
    dsimp only at h
    rw [h1] at h
    cases r with
    | error e => cases h
    | ok u =>
      dsimp only at h
      cases hb : (order w).build H.lang with
      | error e => rw [hb] at h; cases h
      | ok b =>
        rw [hb] at h
        dsimp only at h
        cases hg : b.toGraph with
        | mk g r =>
          rw [hg] at h
          cases r with
          | error e => cases h
          | ok u =>
            cases h
            have hl := h3 rfl
            refine ⟨⟨?_, fun path f => ?_⟩, hb, hg⟩
            · exact ((ho w).map _).nodup_iff.2 hl.1
            · rw [(ho w).mem_iff]; exact hl.2 path f

end Firm
