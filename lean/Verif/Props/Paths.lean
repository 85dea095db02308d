import Verif.Lemmas.Paths

/-!
# Path fields

C88: the path read from a literal leads to the file that the literal names from the directory of its own
source file, in a normal form. C89: a path given to `add_entity` leads, when it is read back, to the file
that it names from the workspace.

A place is a list of names from the root of the disk; `lexicalPlace` follows a path step by step
(Model/Disk.lean). Symbolic links are left out.
-/

namespace Firm
open Spec

/-! ## C88: path literals -/

/-- A path in normal form: absolute, inside the workspace (`./…`), or `..` several times and then names. -/
inductive Spec.NormalPath : Str → Prop
  | absolute {ns : List Str} : (∀ n ∈ ns, ValidName n) → NormalPath (placeText ns)
  | inside {ns : List Str} : ns ≠ [] → (∀ n ∈ ns, ValidName n) → NormalPath ("./".toList ++ joinWith ['/'] ns)
  | here : NormalPath "./.".toList
  | outside {k : Nat} {ns : List Str} : (∀ n ∈ ns, ValidName n) →
      NormalPath (joinWith ['/'] (List.replicate (k + 1) "..".toList ++ ns))

theorem parsePath_literal {t source : Str} (hq : '"' ∉ t) (he : ∀ x, t ≠ x ++ "path".toList) :
    pathLiteralText ("path\"".toList ++ t ++ ['"']) = t :=
  (literal_text (q := "path".toList) (by decide) (by decide) hq).2 he

theorem parentComps_source {dirs : List Str} {name : Str} (hv : ∀ n ∈ dirs ++ [name], ValidName n) :
    parentComps (joinWith ['/'] (dirs ++ [name])) = some (dirs.map .normal) := by
  unfold parentComps
  rw [pathComponents_relative (by simp) hv]
  simp

theorem normal_plain {ns : List Str} (hv : ∀ n ∈ ns, ValidName n) : ∀ c ∈ ns.map PathComp.normal, Plain c := by
  intro c hc
  obtain ⟨n, hn, rfl⟩ := List.mem_map.1 hc
  exact .inr ⟨n, rfl, hv n hn⟩

theorem compText_normals (ns : List Str) : (ns.map PathComp.normal).map compText = ns := by
  rw [List.map_map]
  exact List.map_id ns

/-- What a cleaned path looks like when it is written. -/
theorem resolve_form {dirs : List Str} {name : Str} (hv : ∀ n ∈ dirs ++ [name], ValidName n) (t : Str) :
    let cs := resolvePath t (joinWith ['/'] (dirs ++ [name]))
    (∃ ns : List Str, (∀ n ∈ ns, ValidName n) ∧ cs = .rootDir :: ns.map .normal) ∨
    (∃ (k : Nat) (ns : List Str), (∀ n ∈ ns, ValidName n) ∧ cs = List.replicate k .parentDir ++ ns.map .normal) := by
  intro cs
  obtain ⟨pre, r, h1, h2, h3⟩ := components_shape t
  by_cases hs : startsWith t ['/'] = true
  · have hcs : cs = cleanComps (pathComponents t) := by
      show resolvePath _ _ = _
      unfold resolvePath
      simp only [if_pos hs]
    obtain ⟨u, rfl⟩ := (startsWith_iff _ _).1 hs
    left
    have hc : pathComponents (['/'] ++ u) = .rootDir :: (splitChar '/' ('/' :: u)).filterMap pieceComp := rfl
    obtain ⟨ns, hn, hf⟩ := clean_form_root (cs := (splitChar '/' ('/' :: u)).filterMap pieceComp)
      (fun c hc => .inl (plain_or_dot hc)) [] (by simp)
    refine ⟨ns.reverse, by simpa using hn, ?_⟩
    rw [hcs, hc]
    unfold cleanComps
    rw [List.foldl_cons, show cleanStep [] PathComp.rootDir = ([] : List Str).map PathComp.normal ++ [.rootDir] from rfl, hf]
    simp
  · have hcs : cs = cleanComps (dirs.map .normal ++ pathComponents t) := by
      show resolvePath _ _ = _
      unfold resolvePath
      simp only [if_neg hs, parentComps_source hv, Option.getD_some]
    right
    have hall : ∀ c ∈ dirs.map PathComp.normal ++ pathComponents t, Plain c ∨ c = .curDir := by
      intro c hc
      rcases List.mem_append.1 hc with hc | hc
      · exact .inl (normal_plain (fun n hn => hv n (by simp [hn])) c hc)
      · rw [h1] at hc
        rcases List.mem_append.1 hc with hc | hc
        · rcases h3 with rfl | rfl | ⟨rfl, hh⟩
          · cases hc
          · exact .inr (List.mem_singleton.1 hc)
          · exfalso
            apply hs
            cases t with
            | nil => cases hh
            | cons x t =>
              cases hh
              exact (startsWith_iff _ _).2 ⟨t, rfl⟩
        · exact .inl (h2 c hc)
    obtain ⟨ns, k, hn, hf⟩ := clean_form hall [] 0 (by simp)
    refine ⟨k, ns.reverse, by simpa using hn, ?_⟩
    rw [hcs]
    unfold cleanComps
    rw [show ([] : List PathComp) = ([] : List Str).map PathComp.normal ++ List.replicate 0 .parentDir from rfl, hf]
    simp

theorem read_components {dirs : List Str} {name : Str} (hv : ∀ n ∈ dirs ++ [name], ValidName n) {t : Str}
    (hq : '"' ∉ t) (he : ∀ x, t ≠ x ++ "path".toList) :
    ∃ p, parsePath ("path\"".toList ++ t ++ ['"']) (joinWith ['/'] (dirs ++ [name])) = .ok (.path p) ∧
      NormalPath p ∧ ∀ ws, lexicalPlace ws (pathComponents p) =
        lexicalPlace ws (resolvePath t (joinWith ['/'] (dirs ++ [name]))) := by
  unfold parsePath
  rw [parsePath_literal (source := []) hq he]
  dsimp only
  rcases resolve_form hv t with ⟨ns, hn, hcs⟩ | ⟨k, ns, hn, hcs⟩
  · rw [hcs]
    refine ⟨placeText ns, ?_, .absolute hn, fun ws => ?_⟩
    · show Except.ok (ParsedValue.path ('/' :: joinWith ['/'] ((ns.map PathComp.normal).map compText))) = _
      rw [compText_normals]
      rfl
    · rw [pathComponents_placeText hn]
  · rw [hcs]
    cases k with
    | zero =>
      cases ns with
      | nil => exact ⟨"./.".toList, rfl, .here, fun ws => rfl⟩
      | cons n ns =>
        refine ⟨"./".toList ++ joinWith ['/'] (n :: ns), ?_, .inside (by simp) hn, fun ws => ?_⟩
        · show Except.ok (ParsedValue.path ('.' :: '/' :: joinWith ['/'] (((n :: ns).map PathComp.normal).map compText))) = _
          rw [compText_normals]
          rfl
        · have := components_dot (normal_plain hn)
          rw [compText_normals] at this
          rw [show "./".toList ++ joinWith ['/'] (n :: ns) = '.' :: '/' :: joinWith ['/'] (n :: ns) from rfl, this]
          rfl
    | succ k =>
      refine ⟨joinWith ['/'] (List.replicate (k + 1) "..".toList ++ ns), ?_, .outside hn, fun ws => ?_⟩
      · have : (List.replicate (k + 1) PathComp.parentDir ++ ns.map PathComp.normal).map compText =
            List.replicate (k + 1) "..".toList ++ ns := by
          rw [List.map_append, compText_normals, List.map_replicate]
          rfl
        show Except.ok (ParsedValue.path (joinWith ['/'] ((List.replicate (k + 1) PathComp.parentDir ++
          ns.map PathComp.normal).map compText))) = _
        rw [this]
      · have hp : ∀ c ∈ List.replicate (k + 1) PathComp.parentDir ++ ns.map PathComp.normal, Plain c := by
          intro c hc
          rcases List.mem_append.1 hc with hc | hc
          · exact .inl (List.eq_of_mem_replicate hc)
          · exact normal_plain hn c hc
        have := components_plain hp
        rw [List.map_append, compText_normals, List.map_replicate] at this
        rw [show "..".toList = compText .parentDir from rfl, this]

theorem resolve_place {dirs : List Str} {name : Str} (hv : ∀ n ∈ dirs ++ [name], ValidName n) (t : Str) (ws : List Str) :
    lexicalPlace ws (resolvePath t (joinWith ['/'] (dirs ++ [name]))) = lexicalPlace (ws ++ dirs) (pathComponents t) := by
  unfold resolvePath
  by_cases hs : startsWith t ['/'] = true
  · simp only [if_pos hs, lexicalPlace_clean]
    obtain ⟨u, rfl⟩ := (startsWith_iff _ _).1 hs
    rfl
  · simp only [if_neg hs, parentComps_source hv, Option.getD_some]
    rw [lexicalPlace_clean, lexicalPlace_append, lexicalPlace_normal]

/-- C88: the path read from a literal is in normal form and leads, from the workspace, to the place to which
the literal leads from the directory of its source file. Missing: the literal must not end with `path`
(`C88_ending`). -/
theorem C88_place_partial {dirs : List Str} {name : Str} (hv : ∀ n ∈ dirs ++ [name], ValidName n) {t : Str}
    (hq : '"' ∉ t) (he : ∀ x, t ≠ x ++ "path".toList) :
    ∃ p, parsePath ("path\"".toList ++ t ++ ['"']) (joinWith ['/'] (dirs ++ [name])) = .ok (.path p) ∧
      NormalPath p ∧ ∀ ws, lexicalPlace ws (pathComponents p) = lexicalPlace (ws ++ dirs) (pathComponents t) := by
  obtain ⟨p, h1, h2, h3⟩ := read_components hv hq he
  exact ⟨p, h1, h2, fun ws => by rw [h3, resolve_place hv]⟩

/-- C88: two paths inside the workspace that lead to the same place are equal. -/
theorem C88_unique {p q : Str} (hp : NormalPath p) (hq : NormalPath q) (h1 : startsWith p "./".toList = true)
    (h2 : startsWith q "./".toList = true) {ws : List Str}
    (h : lexicalPlace ws (pathComponents p) = lexicalPlace ws (pathComponents q)) : p = q := by
  have key : ∀ p, NormalPath p → startsWith p "./".toList = true →
      (p = "./.".toList ∧ lexicalPlace ws (pathComponents p) = ws) ∨
      ∃ ns, ns ≠ [] ∧ p = "./".toList ++ joinWith ['/'] ns ∧ lexicalPlace ws (pathComponents p) = ws ++ ns := by
    intro p hp hs
    cases hp with
    | absolute hn => simp [placeText, startsWith, List.isPrefixOf] at hs
    | here => exact .inl ⟨rfl, rfl⟩
    | @inside ns hne hn =>
      refine .inr ⟨ns, hne, rfl, ?_⟩
      have := components_dot (normal_plain hn)
      rw [compText_normals] at this
      rw [show "./".toList ++ joinWith ['/'] ns = '.' :: '/' :: joinWith ['/'] ns from rfl, this]
      exact lexicalPlace_normal ws ns
    | @outside k ns hn =>
      exfalso
      have : ∃ x, joinWith ['/'] (List.replicate (k + 1) "..".toList ++ ns) = '.' :: '.' :: x := by
        rw [List.replicate_succ, List.cons_append]
        cases List.replicate k "..".toList ++ ns with
        | nil => exact ⟨[], rfl⟩
        | cons a as => exact ⟨'/' :: joinWith ['/'] (a :: as), rfl⟩
      obtain ⟨x, hx⟩ := this
      rw [hx] at hs
      simp [startsWith, List.isPrefixOf] at hs
  rcases key p hp h1 with ⟨rfl, e1⟩ | ⟨ns, hne, rfl, e1⟩ <;> rcases key q hq h2 with ⟨rfl, e2⟩ | ⟨ms, hme, rfl, e2⟩
  · rfl
  · rw [e1, e2] at h
    exact absurd (List.self_eq_append_right.1 h) hme
  · rw [e1, e2] at h
    exact absurd (List.self_eq_append_right.1 h.symm) hne
  · rw [e1, e2, List.append_cancel_left_eq] at h
    rw [h]

/-- C88: a literal that ends with `path` loses that ending. -/
theorem C88_ending : parsePath "path\"docs/mypath\"".toList "a.firm".toList = .ok (.path "./docs/my".toList) := by
  rfl

example : parsePath "path\"../img/./logo.png\"".toList "people/core/a.firm".toList =
    .ok (.path "./people/img/logo.png".toList) := by rfl
example : parsePath "path\"../../x\"".toList "people/a.firm".toList = .ok (.path "../x".toList) := by rfl

/-! ## C89: paths given to `add_entity` -/

theorem diff_common (ns : List Str) (a b : List PathComp) :
    diffComps (ns.map .normal ++ a) (ns.map .normal ++ b) = diffComps a b := by
  induction ns with
  | nil => rfl
  | cons n ns ih =>
    rw [List.map_cons, List.cons_append, List.cons_append, diffComps, if_pos rfl]
    exact ih

/-- The way from one place to another. -/
theorem diff_names (as : List PathComp) (ns : List Str) : ∃ rel, diffComps as (ns.map .normal) = some rel ∧
    (∀ loc, lexicalPlace (loc ++ ns) rel = lexicalPlace loc as) ∧ ∀ c ∈ rel, c = .parentDir ∨ c ∈ as := by
  have hup : ∀ (ns : List Str) (loc : List Str), lexicalPlace (loc ++ ns) (ns.map fun _ => PathComp.parentDir) = loc := by
    intro ns
    induction ns using List.reverseRecOn with
    | nil => intro loc; simp [lexicalPlace]
    | append_singleton ns n ih =>
      intro loc
      have : (ns ++ [n]).map (fun _ => PathComp.parentDir) = .parentDir :: ns.map fun _ => PathComp.parentDir := by
        rw [List.map_const', List.map_const', List.length_append, List.length_singleton, List.replicate_succ]
      rw [this]
      show lexicalPlace ((loc ++ (ns ++ [n])).dropLast) _ = _
      rw [← List.append_assoc, List.dropLast_concat]
      exact ih loc
  induction ns generalizing as with
  | nil =>
    refine ⟨as, by cases as <;> rfl, fun loc => by rw [List.append_nil], fun c hc => .inr hc⟩
  | cons n ns ih =>
    cases as with
    | nil =>
      refine ⟨_, rfl, fun loc => ?_, fun c hc => .inl ?_⟩
      · rw [List.map_map]
        exact hup (n :: ns) loc
      · rw [List.map_map] at hc
        obtain ⟨_, _, rfl⟩ := List.mem_map.1 hc
        rfl
    | cons a as =>
      by_cases ha : a = .normal n
      · subst ha
        obtain ⟨rel, h1, h2, h3⟩ := ih as
        refine ⟨rel, by rw [List.map_cons, diffComps, if_pos rfl, h1], fun loc => ?_, fun c hc => ?_⟩
        · have := h2 (loc ++ [n])
          rw [List.append_assoc] at this
          exact this
        · exact (h3 c hc).imp id (List.mem_cons_of_mem _)
      · refine ⟨_, by rw [List.map_cons, diffComps, if_neg ha, if_neg (by simp)], fun loc => ?_, fun c hc => ?_⟩
        · rw [lexicalPlace_append, show (PathComp.normal n :: ns.map PathComp.normal).map (fun _ => PathComp.parentDir) =
            (n :: ns).map fun _ => PathComp.parentDir by simp [Function.comp_def], hup]
        · rcases List.mem_append.1 hc with hc | hc
          · obtain ⟨_, _, rfl⟩ := List.mem_map.1 hc
            exact .inl rfl
          · exact .inr hc

/-- Dropping `.` does not change the place. -/
theorem lexicalPlace_dots (loc : List Str) (cs : List PathComp) :
    lexicalPlace loc (cs.filter fun c => decide (c ≠ .curDir)) = lexicalPlace loc cs := by
  induction cs generalizing loc with
  | nil => rfl
  | cons c cs ih =>
    by_cases hc : c = .curDir
    · subst hc
      rw [List.filter_cons_of_neg (by simp), ih]
      rfl
    · rw [List.filter_cons_of_pos (by simpa using hc)]
      exact ih _

/-- The text written for a path: the components lead from the directory of the target to the place of the
path, and the names in them are names of the path. -/
theorem diffComps_spec {ws dirs : List Str} {name : Str} (s : Str) :
    ∃ rel, diffComps (joinComps ws s) (parentOf (.rootDir :: (ws ++ dirs ++ [name]).map .normal)) = some rel ∧
      (∀ c ∈ rel, Plain c) ∧ (∀ n, PathComp.normal n ∈ rel → PathComp.normal n ∈ pathComponents s) ∧
      lexicalPlace (ws ++ dirs) rel = lexicalPlace ws (pathComponents s) := by
  have hpar : parentOf (.rootDir :: (ws ++ dirs ++ [name]).map .normal) = .rootDir :: (ws ++ dirs).map .normal := by
    unfold parentOf
    rw [List.map_append, ← List.cons_append, List.map_cons, List.map_nil, List.getLast?_concat]
    dsimp only
    rw [List.dropLast_concat]
  obtain ⟨pre, r, h1, h2, h3⟩ := components_shape s
  rw [hpar]
  by_cases hs : s.head? = some '/'
  · cases s with
    | nil => cases hs
    | cons x s =>
      cases hs
      have hj : joinComps ws ('/' :: s) = .rootDir :: (splitChar '/' ('/' :: s)).filterMap pieceComp := rfl
      have hp : pathComponents ('/' :: s) = .rootDir :: (splitChar '/' ('/' :: s)).filterMap pieceComp := rfl
      obtain ⟨rel, k1, k2, k3⟩ := diff_names ((splitChar '/' ('/' :: s)).filterMap pieceComp) (ws ++ dirs)
      refine ⟨rel, ?_, fun c hc => ?_, fun n hn => ?_, ?_⟩
      · rw [hj, diffComps, if_pos rfl, k1]
      · rcases k3 c hc with rfl | hc
        · exact .inl rfl
        · exact plain_or_dot hc
      · rcases k3 _ hn with hc | hc
        · cases hc
        · rw [hp]; exact List.mem_cons_of_mem _ hc
      · rw [hp]
        exact k2 []
  · have hpre : pre = [] ∨ pre = [.curDir] := by
      rcases h3 with h | h | ⟨_, h⟩
      · exact .inl h
      · exact .inr h
      · exact absurd h hs
    have hfil : (pathComponents s).filter (fun c => decide (c ≠ PathComp.curDir)) = r := by
      have hr : r.filter (fun c => decide (c ≠ PathComp.curDir)) = r := by
        refine List.filter_eq_self.2 fun c hc => ?_
        rcases h2 c hc with rfl | ⟨n, rfl, _⟩ <;> rfl
      rw [h1, List.filter_append, hr]
      rcases hpre with rfl | rfl <;> rfl
    have hj : joinComps ws s = .rootDir :: (ws.map .normal ++ r) := by
      have : joinComps ws s = .rootDir :: (ws.map .normal ++ (pathComponents s).filter fun c => decide (c ≠ .curDir)) := by
        unfold joinComps
        split
        · exact absurd rfl hs
        · rfl
      rw [this, hfil]
    obtain ⟨rel, k1, k2, k3⟩ := diff_names r dirs
    refine ⟨rel, ?_, fun c hc => ?_, fun n hn => ?_, ?_⟩
    · rw [hj, diffComps, if_pos rfl, List.map_append, diff_common, k1]
    · rcases k3 c hc with rfl | hc
      · exact .inl rfl
      · exact h2 c hc
    · rcases k3 _ hn with hc | hc
      · cases hc
      · rw [h1]; exact List.mem_append_right _ hc
    · rw [k2, ← hfil, lexicalPlace_dots]

theorem jsonPath_spec {ws dirs : List Str} {name : Str} (s : Str) :
    ∃ rel, jsonPath ws (.rootDir :: (ws ++ dirs ++ [name]).map .normal) s = showComps rel ∧
      (∀ c ∈ rel, Plain c) ∧ (∀ n, PathComp.normal n ∈ rel → PathComp.normal n ∈ pathComponents s) ∧
      lexicalPlace (ws ++ dirs) rel = lexicalPlace ws (pathComponents s) := by
  obtain ⟨rel, h1, h2⟩ := diffComps_spec (ws := ws) (dirs := dirs) (name := name) s
  exact ⟨rel, by rw [jsonPath, h1], h2⟩

theorem splitChar_mem {c d : Char} {s p : Str} (hp : p ∈ splitChar c s) (hd : d ∈ p) : d ∈ s := by
  induction s generalizing p with
  | nil => simp [splitChar] at hp; subst hp; cases hd
  | cons x s ih =>
    unfold splitChar at hp
    split at hp
    · rcases List.mem_cons.1 hp with rfl | hp
      · cases hd
      · exact List.mem_cons_of_mem _ (ih hp hd)
    · split at hp
      · next heq => exact absurd heq (splitChar_ne_nil _ _)
      · next q qs heq =>
        rcases List.mem_cons.1 hp with rfl | hp
        · rcases List.mem_cons.1 hd with rfl | hd
          · simp
          · exact List.mem_cons_of_mem _ (ih (by rw [heq]; simp) hd)
        · exact List.mem_cons_of_mem _ (ih (by rw [heq]; simp [hp]) hd)

theorem mem_component {s n : Str} {c : Char} (h : PathComp.normal n ∈ pathComponents s) (hc : c ∈ n) : c ∈ s := by
  obtain ⟨pre, h1, h2⟩ := pathComponents_shape s
  have hm : PathComp.normal n ∈ (splitChar '/' s).filterMap pieceComp := by
    rw [h1] at h
    rcases List.mem_append.1 h with h | h
    · rcases h2 with rfl | rfl | ⟨rfl, _⟩
      · cases h
      · cases List.mem_singleton.1 h
      · cases List.mem_singleton.1 h
    · exact h
  obtain ⟨p, hp, hpc⟩ := List.mem_filterMap.1 hm
  obtain ⟨rfl, _⟩ := pieceComp_normal hpc
  exact splitChar_mem hp hc

theorem showComps_plain {cs : List PathComp} (h : ∀ c ∈ cs, Plain c) : showComps cs = joinWith ['/'] (cs.map compText) := by
  cases cs with
  | nil => rfl
  | cons c cs => rcases h c (by simp) with rfl | ⟨n, rfl, _⟩ <;> rfl

/-- Components written as a path literal read back. -/
theorem written_reads {dirs : List Str} {name : Str} (hv : ∀ n ∈ dirs ++ [name], ValidName n) {rel : List PathComp}
    (h2 : ∀ c ∈ rel, Plain c) (hq : ∀ n, PathComp.normal n ∈ rel → '"' ∉ n)
    (he : ∀ n x, PathComp.normal n ∈ rel → n ≠ x ++ "path".toList) :
    ∃ p, parsePath ("path\"".toList ++ showComps rel ++ ['"']) (joinWith ['/'] (dirs ++ [name])) = .ok (.path p) ∧
      NormalPath p ∧ ∀ ws, lexicalPlace ws (pathComponents p) = lexicalPlace (ws ++ dirs) rel := by
  rw [showComps_plain h2]
  have hq' : '"' ∉ joinWith ['/'] (rel.map compText) := by
    intro h
    rcases mem_joinWith h with h | ⟨t, ht, h⟩
    · revert h; decide
    · obtain ⟨c, hc, rfl⟩ := List.mem_map.1 ht
      rcases h2 c hc with rfl | ⟨n, rfl, _⟩
      · revert h; decide
      · exact hq n hc h
  have he' : ∀ x, joinWith ['/'] (rel.map compText) ≠ x ++ "path".toList := by
    intro x hx
    rcases List.eq_nil_or_concat rel with rfl | ⟨r, c, rfl⟩
    · have := congrArg List.length hx
      simp [joinWith] at this
    · have hl : ∃ y, joinWith ['/'] ((r.concat c).map compText) = y ++ compText c ∧ (y = [] ∨ y.getLast? = some '/') := by
        rw [List.concat_eq_append, List.map_append]
        by_cases hr : r = []
        · subst hr
          exact ⟨[], rfl, .inl rfl⟩
        · refine ⟨joinWith ['/'] (r.map compText) ++ ['/'], ?_, .inr (by simp)⟩
          rw [List.map_singleton, joinWith_snoc (by simpa using hr)]
      obtain ⟨y, hy, hy2⟩ := hl
      rw [hy] at hx
      rcases h2 c (by simp) with rfl | ⟨n, rfl, hn⟩
      · have := congrArg List.getLast? hx
        simp [compText] at this
      · have hnb : n ≠ [] := hn.nonempty
        have hx : y ++ n = x ++ "path".toList := hx
        rcases List.append_eq_append_iff.1 hx with ⟨a, ha, hb⟩ | ⟨a, ha, hb⟩
        · exact he n a (by simp) hb
        · rcases hy2 with rfl | hy2
          · have : a = [] := (List.append_eq_nil_iff.1 ha.symm).2
            subst this
            exact he n [] (by simp) hb.symm
          · rcases List.eq_nil_or_concat a with rfl | ⟨a', d, rfl⟩
            · exact he n [] (by simp) hb.symm
            · rw [List.concat_eq_append] at ha hb
              rw [ha, ← List.append_assoc, List.getLast?_concat] at hy2
              cases hy2
              have : '/' ∈ "path".toList := by rw [hb]; simp
              revert this; decide
  obtain ⟨p, k1, k2, k3⟩ := C88_place_partial hv hq' he'
  refine ⟨p, k1, k2, fun ws => ?_⟩
  rw [k3, components_plain h2]

/-- C89: a path given to `add_entity` leads, after it has been written and read back, to the place to which
it leads from the workspace. Missing: a target file given with `..` (`C89_dots`) and names that end with
`path` (`C88_ending`). -/
theorem C89_path_partial {ws dirs : List Str} {name : Str} (hv : ∀ n ∈ dirs ++ [name], ValidName n) {s : Str}
    (hq : '"' ∉ s) (he : ∀ n x, PathComp.normal n ∈ pathComponents s → n ≠ x ++ "path".toList) :
    ∃ p, parsePath ("path\"".toList ++ jsonPath ws (.rootDir :: (ws ++ dirs ++ [name]).map .normal) s ++ ['"'])
        (joinWith ['/'] (dirs ++ [name])) = .ok (.path p) ∧
      NormalPath p ∧ lexicalPlace ws (pathComponents p) = lexicalPlace ws (pathComponents s) := by
  obtain ⟨rel, h1, h2, h3, h4⟩ := jsonPath_spec (ws := ws) s
  rw [h1]
  obtain ⟨p, k1, k2, k3⟩ := written_reads hv h2 (fun n hn h => hq (mem_component (h3 n hn) h))
    fun n x hn => he n x (h3 n hn)
  exact ⟨p, k1, k2, by rw [k3, h4]⟩

/-- C89 is false for a target file given with `..`: the file is `/w/x.firm`, and the path that was to lead to
`/w/docs/a.txt` leads to `/docs/a.txt`. -/
theorem C89_dots :
    lexicalPlace [] (joinComps ["w".toList] "gen/../x.firm".toList) = ["w".toList, "x.firm".toList] ∧
    jsonPath ["w".toList] (joinComps ["w".toList] "gen/../x.firm".toList) "docs/a.txt".toList = "../../docs/a.txt".toList ∧
    lexicalPlace ["w".toList] (pathComponents "../../docs/a.txt".toList) = ["docs".toList, "a.txt".toList] := by
  decide

example : joinComps ["w".toList] "generated/person.firm".toList =
      .rootDir :: (["w".toList] ++ ["generated".toList] ++ ["person.firm".toList]).map .normal ∧
    jsonPath ["w".toList] (.rootDir :: (["w".toList] ++ ["generated".toList] ++ ["person.firm".toList]).map .normal)
      "docs/a.txt".toList = "../docs/a.txt".toList ∧
    parsePath "path\"../docs/a.txt\"".toList "generated/person.firm".toList = .ok (.path "./docs/a.txt".toList) := by
  refine ⟨by decide, by decide, rfl⟩

end Firm
