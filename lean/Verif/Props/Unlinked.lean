import Verif.Props.Links
import Verif.Props.Interrupted
import Verif.Props.Command
import Verif.Lemmas.Steady

/-!
# Without symbolic links

On a disk without links the server of Model/Links.lean does what the one of Model/Mcp.lean does (C171), so
that what is proved about the latter is about the former too.
-/

namespace Firm
open Spec

/-- A disk on which nothing is a link. -/
def FsTree.unlinked (d : FsTree) (limit : Nat) : LinkDisk := ⟨d, [], limit⟩

/-- A server on such a disk. -/
def Server.unlinked (s : Server) (limit : Nat) : LinkServer := ⟨s.disk.unlinked limit, s.state⟩

theorem unlinked_link (d : FsTree) (k : Nat) (l : List Str) : (d.unlinked k).linkAt l = none := by
  unfold LinkDisk.linkAt
  split <;> rfl

theorem unlinked_find (d : FsTree) (k : Nat) (cs : List PathComp) : (d.unlinked k).find cs = d.resolve [] cs := by
  unfold LinkDisk.find
  rw [walk_plain (unlinked_link d k), Option.map_map]
  exact Option.map_id'

theorem resolve_root (d : FsTree) (loc : List Str) (cs : List PathComp) :
    d.resolve loc (.rootDir :: cs) = d.resolve [] cs := by
  cases loc <;> rfl

theorem resolve_append (d : FsTree) (loc : List Str) (a b : List PathComp) :
    d.resolve loc (a ++ b) = (d.resolve loc a).bind fun l => d.resolve l b := by
  induction a generalizing loc with
  | nil => rfl
  | cons c a ih =>
    by_cases hc : c = .rootDir
    · subst hc; rw [List.cons_append, resolve_root, resolve_root, ih]
    · have hr : ∀ cs, d.resolve loc (c :: cs) = match d.lookup loc with
          | some (.dir _) => d.resolve (stepFrom loc c) cs
          | _ => none := by
        intro cs
        cases c with
        | rootDir => exact absurd rfl hc
        | _ => rfl
      rw [List.cons_append, hr, hr]
      cases d.lookup loc with
      | none => rfl
      | some u =>
        cases u with
        | dir e => exact ih _
        | _ => rfl

/-- The components lead to the place, or name it. -/
def PathNames (d : FsTree) (cs : List PathComp) (l : List Str) : Prop := d.resolve [] cs = some l ∨ cs = placeComps l

theorem resolve_place_some {d u : FsTree} {l : List Str} (h : d.lookup l = some u) :
    d.resolve [] (placeComps l) = some l := by
  unfold placeComps
  rw [resolve_root]
  exact resolve_normal (loc := []) h

theorem resolve_place_eq {d : FsTree} {l l' : List Str} (h : d.resolve [] (placeComps l) = some l') : l' = l := by
  have := resolve_lexical h
  unfold placeComps at this
  rw [this]
  show lexicalPlace [] (l.map .normal) = l
  rw [lexicalPlace_normal, List.nil_append]

/-- What exists is found. -/
theorem PathNames.found {d u : FsTree} {cs : List PathComp} {l : List Str} (h : PathNames d cs l) (hl : d.lookup l = some u) :
    d.resolve [] cs = some l := by
  rcases h with h | rfl
  · exact h
  · exact resolve_place_some hl

/-- Where else the components lead, there is nothing to be found. -/
theorem PathNames.cases {d : FsTree} {cs : List PathComp} {l : List Str} (h : PathNames d cs l) :
    d.resolve [] cs = some l ∨ d.resolve [] cs = none ∧ cs = placeComps l ∧ d.lookup l = none := by
  rcases h with h | rfl
  · exact .inl h
  · cases hr : d.resolve [] (placeComps l) with
    | some l' => rw [resolve_place_eq hr]; exact .inl rfl
    | none =>
      refine .inr ⟨rfl, rfl, ?_⟩
      cases hl : d.lookup l with
      | none => rfl
      | some u => rw [resolve_place_some hl] at hr; cases hr

theorem unlinked_real (d : FsTree) (k : Nat) {cs : List PathComp} {l : List Str} (h : PathNames d cs l) :
    (d.unlinked k).real cs = if (d.lookup l).isSome then some l else none := by
  unfold LinkDisk.real
  rw [unlinked_find]
  rcases h.cases with h | ⟨h, _, hl⟩
  · rw [h]; rfl
  · rw [h, hl]; rfl

theorem unlinked_read (d : FsTree) (k : Nat) {cs : List PathComp} {l : List Str} (h : PathNames d cs l) :
    (d.unlinked k).readText cs = d.readText l := by
  unfold LinkDisk.readText
  rw [unlinked_find]
  rcases h.cases with h | ⟨h, _, hl⟩
  · rw [h]; rfl
  · rw [h]; unfold FsTree.readText; rw [hl]; rfl

theorem unlinked_write (d : FsTree) (k : Nat) {cs : List PathComp} {l : List Str} (h : PathNames d cs l) (text : Str) :
    (d.unlinked k).writeFile cs text = (d.writeFile l text).map (·.unlinked k) := by
  unfold LinkDisk.writeFile
  rw [unlinked_find]
  rcases h.cases with hr | ⟨hr, hc, hl⟩
  · rw [hr]; rfl
  · rw [hr]
    unfold FsTree.writeFile
    rw [hl]
    dsimp only
    cases hp : d.lookup l.dropLast with
    | none => rfl
    | some u =>
      cases u with
      | dir e =>
        exfalso
        rcases List.eq_nil_or_concat l with rfl | ⟨p, n, rfl⟩
        · rw [hc] at hr; cases hr
        · rw [List.concat_eq_append] at hp hc
          rw [List.dropLast_concat] at hp
          rw [hc, placeComps_snoc, resolve_append, resolve_place_some hp, Option.bind_some] at hr
          change (match d.lookup p with | some (.dir _) => some (p ++ [n]) | _ => none) = none at hr
          rw [hp] at hr
          cases hr
      | _ => rfl

theorem unlinked_remove (d : FsTree) (k : Nat) {xs : List PathComp} {n : Str} {l : List Str}
    (h : PathNames d (xs ++ [.normal n]) l) :
    (d.unlinked k).removeFile (xs ++ [.normal n]) = (d.removeFile l).map (·.unlinked k) := by
  unfold LinkDisk.removeFile
  rw [List.getLast?_concat, List.dropLast_concat]
  dsimp only
  obtain ⟨q, hq, hl⟩ : ∃ q, PathNames d xs q ∧ l = q ++ [n] := by
    rcases h with h | h
    · rw [resolve_append, Option.bind_eq_some_iff] at h
      obtain ⟨q, hq, h⟩ := h
      refine ⟨q, .inl hq, ?_⟩
      have := resolve_lexical h
      exact this
    · rcases List.eq_nil_or_concat l with rfl | ⟨p, m, rfl⟩
      · have := congrArg List.getLast? h
        rw [List.getLast?_concat] at this
        cases this
      · rw [List.concat_eq_append, placeComps_snoc] at h
        obtain ⟨h1, h2⟩ := List.append_inj' h rfl
        injection h2 with h2
        injection h2 with h2
        exact ⟨p, .inr h1, by rw [List.concat_eq_append, h2]⟩
  subst hl
  rw [unlinked_real d k hq]
  cases hp : d.lookup q with
  | none =>
    rw [if_neg (by exact Bool.noConfusion), Option.bind_none]
    unfold FsTree.removeFile
    rw [lookup_append, hp]
    rfl
  | some u =>
    rw [if_pos (by rfl), Option.bind_some]
    rfl

/-! ## Directories -/

theorem createDirAll_dir {d d' : FsTree} {p : List Str} (h : d.createDirAll p = some d') :
    ∃ e, d'.lookup p = some (.dir e) := by
  induction p generalizing d d' with
  | nil =>
    cases d with
    | dir e => simp only [FsTree.createDirAll, Option.some.injEq] at h; subst h; exact ⟨e, lookup_nil _⟩
    | _ => simp [FsTree.createDirAll] at h
  | cons m p ih =>
    cases d with
    | dir e =>
      cases e with
      | none => simp [FsTree.createDirAll] at h
      | some es =>
        rw [FsTree.createDirAll, Option.map_eq_some_iff] at h
        obtain ⟨t, ht, rfl⟩ := h
        obtain ⟨e, he⟩ := ih ht
        exact ⟨e, by rw [lookup_dir, mapGet_mapInsert, if_pos rfl]; exact he⟩
    | _ => simp [FsTree.createDirAll] at h

theorem createDirAll_none {d u : FsTree} {p r : List Str} (h : d.lookup p = some u) (hu : u.createDirAll r = none) :
    d.createDirAll (p ++ r) = none := by
  induction p generalizing d with
  | nil => rw [lookup_nil] at h; cases h; exact hu
  | cons m p ih =>
    obtain ⟨es, c, rfl, hg, hc⟩ := lookup_cons_some h
    rw [List.cons_append, FsTree.createDirAll, hg, Option.getD_some, ih hc]
    rfl

/-- One more directory. -/
theorem createDirAll_snoc {d : FsTree} {p : List Str} {n : Str} (h : d.lookup (p ++ [n]) = none) :
    d.createDirAll (p ++ [n]) = (d.createDirAll p).bind fun d1 =>
      match d1.lookup p, d1.lookup (p ++ [n]) with
      | some (.dir (some _)), none => some (d1.place (p ++ [n]) (.dir (some [])))
      | _, _ => none := by
  cases hc : d.createDirAll p with
  | none =>
    rw [Option.bind_none]
    cases h2 : d.createDirAll (p ++ [n]) with
    | none => rfl
    | some d2 =>
      exfalso
      induction p generalizing d d2 with
      | nil =>
        cases d with
        | dir e => simp [FsTree.createDirAll] at hc
        | _ => simp [FsTree.createDirAll] at h2
      | cons m p ih =>
        cases d with
        | dir e =>
          cases e with
          | none => simp [FsTree.createDirAll] at h2
          | some es =>
            rw [List.cons_append, FsTree.createDirAll, Option.map_eq_some_iff] at h2
            obtain ⟨t, ht, _⟩ := h2
            rw [FsTree.createDirAll, Option.map_eq_none_iff] at hc
            refine ih ?_ hc t ht
            rw [List.cons_append, lookup_dir] at h
            cases hg : mapGet es m with
            | none =>
              rw [Option.getD_none]
              cases hp : p ++ [n] with
              | nil => simp at hp
              | cons a b => exact lookup_empty a b
            | some c => rw [hg] at h; exact h
        | _ => simp [FsTree.createDirAll] at h2
  | some d1 =>
    rw [Option.bind_some]
    have hst := createDirAll_steady hc
    have hn1 : d1.lookup (p ++ [n]) = none := hst.1 _ (fun hx => by
      have := hx.length_le
      rw [List.length_append, List.length_singleton] at this
      omega) h
    rw [hn1]
    rw [← createDirAll_prefix (List.prefix_append p [n]) hc]
    obtain ⟨e, he⟩ := createDirAll_dir hc
    rw [he]
    cases e with
    | none => exact createDirAll_none he (by simp [FsTree.createDirAll])
    | some es => exact createDirAll_mkdir he hn1

theorem unlinked_create (d : FsTree) (k : Nat) (p : List Str) :
    (d.unlinked k).createAll (placeComps p).reverse = (d.createDirAll p).map (·.unlinked k) := by
  induction p using List.reverseRecOn with
  | nil =>
    change (match (d.unlinked k).real [.rootDir] with
      | some loc => match (d.unlinked k).tree.lookup loc with
        | some (.dir _) => some (d.unlinked k)
        | _ => none
      | none => ((d.unlinked k).createAll []).bind fun D1 => D1.mkdir [].reverse .rootDir) = _
    rw [unlinked_real d k (cs := [.rootDir]) (l := []) (.inr rfl), lookup_nil, if_pos (by rfl)]
    dsimp only
    change (match d.lookup [] with | some (.dir _) => some (d.unlinked k) | _ => none) = _
    rw [lookup_nil]
    cases d <;> simp [FsTree.createDirAll]
  | append_singleton p n ih =>
    have hrev : (placeComps (p ++ [n])).reverse = .normal n :: (placeComps p).reverse := by
      rw [placeComps_snoc, List.reverse_append]; rfl
    rw [hrev, LinkDisk.createAll, ← hrev, List.reverse_reverse, unlinked_real d k (l := p ++ [n]) (.inr rfl)]
    cases hl : d.lookup (p ++ [n]) with
    | some u =>
      rw [if_pos (by rfl)]
      dsimp only
      change (match d.lookup (p ++ [n]) with | some (.dir _) => some (d.unlinked k) | _ => none) = _
      rw [hl]
      cases u with
      | dir e => rw [createDirAll_existing hl]; rfl
      | file t => rw [← List.append_nil (p ++ [n]), createDirAll_none hl (by simp [FsTree.createDirAll])]; rfl
      | other => rw [← List.append_nil (p ++ [n]), createDirAll_none hl (by simp [FsTree.createDirAll])]; rfl
    | none =>
      rw [if_neg (by exact Bool.noConfusion)]
      dsimp only
      rw [ih, createDirAll_snoc hl, List.reverse_reverse]
      cases hc : d.createDirAll p with
      | none => rfl
      | some d1 =>
        rw [Option.map_some, Option.bind_some, Option.bind_some]
        obtain ⟨e, he⟩ := createDirAll_dir hc
        unfold LinkDisk.mkdir
        rw [unlinked_real d1 k (l := p) (.inr rfl), he, if_pos (by rfl)]
        change (match d1.lookup p, d1.lookup (p ++ [n]) with
          | some (.dir (some _)), none => some _
          | _, _ => none) = _
        rw [he]
        cases e with
        | none => rfl
        | some es => cases d1.lookup (p ++ [n]) <;> rfl

/-! ## Paths of requests -/

theorem resolve_join {d : FsTree} {ws : List Str} {e : Option (List (Str × FsTree))} (hw : d.lookup ws = some (.dir e))
    (path : Str) : d.resolve [] (joinComps ws path) = d.resolve ws (pathComponents path) := by
  unfold joinComps
  split
  · show d.resolve [] (.rootDir :: _) = d.resolve ws (.rootDir :: _)
    rw [resolve_root, resolve_root]
  · next hr =>
    rw [resolve_root, resolve_append, resolve_normal (loc := []) hw, Option.bind_some, List.nil_append]
    obtain ⟨pre, r, h1, h2, h3⟩ := components_shape path
    have hf : r.filter (fun c => decide (c ≠ PathComp.curDir)) = r := List.filter_eq_self.2 fun c hc => by
      rcases h2 c hc with rfl | ⟨n, rfl, _⟩ <;> rfl
    rw [h1, List.filter_append, hf]
    rcases h3 with rfl | rfl | ⟨rfl, h⟩
    · rfl
    · change d.resolve ws r = match d.lookup ws with | some (.dir _) => d.resolve ws r | _ => none
      rw [hw]
    · cases path with
      | nil => cases h
      | cons c s => cases h; exact absurd rfl (hr s)

theorem all_normal {r : List PathComp} (h : ∀ c ∈ r, ∃ n, c = .normal n) : ∃ ns : List Str, r = ns.map .normal := by
  induction r with
  | nil => exact ⟨[], rfl⟩
  | cons c r ih =>
    obtain ⟨n, rfl⟩ := h c (by simp)
    obtain ⟨ns, rfl⟩ := ih fun c hc => h c (List.mem_cons_of_mem _ hc)
    exact ⟨n :: ns, rfl⟩

theorem join_names (ws : List Str) {path : Str} (h : strContains path "..".toList = false) :
    joinComps ws path = placeComps (placeFor ws path) := by
  obtain ⟨r, h1, h2, h3⟩ := joinComps_plain ws path
  obtain ⟨pre, ns, h4, h5⟩ := plain_components h
  obtain ⟨ms, rfl⟩ : ∃ ms : List Str, r = ms.map .normal := by
    refine all_normal fun c hc => ?_
    rcases h2 c hc with ⟨n, _, rfl⟩ | ⟨hp, hm⟩
    · exact ⟨n, rfl⟩
    · rcases hp with rfl | ⟨n, rfl, _⟩
      · rw [h4] at hm
        rcases List.mem_append.1 hm with hm | hm
        · rcases h5 with rfl | rfl | ⟨rfl, _⟩ <;> simp at hm
        · obtain ⟨n, _, hn⟩ := List.mem_map.1 hm; cases hn
      · exact ⟨n, rfl⟩
  rw [lexicalPlace_normal, List.nil_append] at h3
  rw [h1, h3]
  rfl

/-- The components of an accepted path. -/
theorem join_accepted {d : FsTree} {ws : List Str} {e : Option (List (Str × FsTree))} (hw : d.lookup ws = some (.dir e))
    {path : Str} {loc : List Str} (h : toAbsolutePath d ws path = some loc) : PathNames d (joinComps ws path) loc := by
  have hl := toAbsolutePath_eq h
  by_cases hp : strContains path "..".toList = true
  · left
    rw [resolve_join hw]
    unfold toAbsolutePath newPath at h
    cases hr : d.resolve ws (pathComponents path) with
    | none => rw [hr] at h; dsimp only at h; rw [if_pos hp] at h; cases h
    | some l =>  rw [hl, ← resolve_lexical hr]
  · right
    rw [hl]
    exact join_names ws (by simpa using hp)

theorem unlinked_absolute {d : FsTree} (k : Nat) {ws : List Str} {e : Option (List (Str × FsTree))}
    (hw : d.lookup ws = some (.dir e)) (path : Str) :
    (d.unlinked k).toAbsolute ws path = (toAbsolutePath d ws path).map placeComps := by
  have hnew : (if strContains path "..".toList then none else some (joinComps ws path)) =
      (newPath ws path).map placeComps := by
    unfold newPath
    by_cases hp : strContains path "..".toList = true
    · rw [if_pos hp, if_pos hp]; rfl
    · rw [if_neg hp, if_neg hp, join_names ws (by simpa using hp)]; rfl
  have hbase : (d.unlinked k).real (placeComps ws) = some ws := by
    rw [unlinked_real d k (l := ws) (.inr rfl), hw]; rfl
  unfold LinkDisk.toAbsolute toAbsolutePath
  cases hr : d.resolve ws (pathComponents path) with
  | none =>
    have : (d.unlinked k).real (joinComps ws path) = none := by
      unfold LinkDisk.real
      rw [unlinked_find, resolve_join hw, hr]
      rfl
    rw [this]
    exact hnew
  | some l =>
    rw [unlinked_real d k (l := l) (.inl ((resolve_join hw path).trans hr))]
    dsimp only
    cases hl : d.lookup l with
    | none => exact hnew
    | some u =>
      rw [if_pos (by rfl), hbase]
      dsimp only
      rw [Option.bind_some]
      split <;> rfl

/-! ## The tools -/

theorem unlinked_readSource {d : FsTree} (k : Nat) {ws : List Str} {e : Option (List (Str × FsTree))}
    (hw : d.lookup ws = some (.dir e)) (path : Str) :
    (d.unlinked k).readSource ws path = readSourceFile d ws path := by
  unfold LinkDisk.readSource readSourceFile
  rw [unlinked_absolute k hw]
  cases toAbsolutePath d ws path with
  | none => rfl
  | some loc =>
    rw [Option.map_some, Option.bind_some, unlinked_real d k (l := loc) (.inr rfl),
      unlinked_read d k (l := loc) (.inr rfl)]
    have hf : firmComps (placeComps loc) = hasFirmExtension loc := by
      unfold firmComps hasFirmExtension
      rcases List.eq_nil_or_concat loc with rfl | ⟨p, n, rfl⟩
      · rfl
      · rw [List.concat_eq_append, placeComps_snoc, List.getLast?_concat, List.getLast?_concat]
    dsimp only
    cases d.lookup loc with
    | none => rfl
    | some u => rw [if_pos (by rfl), Option.bind_some, hf]

theorem placeComps_dropLast {ws : List Str} {path : Str} (he : endsWith path ".firm".toList = true) :
    (placeComps (placeFor ws path)).dropLast = placeComps (placeFor ws path).dropLast := by
  obtain ⟨p, n, hpn, _⟩ := firm_place (ws := ws) he
  show (placeComps (lexicalPlace ws (pathComponents path))).dropLast = placeComps (lexicalPlace ws (pathComponents path)).dropLast
  rw [hpn, placeComps_snoc, List.dropLast_concat, List.dropLast_concat]

theorem unlinked_writeSource {d : FsTree} (k : Nat) {ws : List Str} {e : Option (List (Str × FsTree))}
    (hw : d.lookup ws = some (.dir e)) (path content : Str) :
    (d.unlinked k).writeSource ws path content =
      ((writeSourceFile d ws path content).1.unlinked k, (writeSourceFile d ws path content).2) := by
  unfold LinkDisk.writeSource writeSourceFile
  by_cases he : endsWith path ".firm".toList = true
  · rw [if_pos he, if_pos he, unlinked_absolute k hw]
    cases ha : toAbsolutePath d ws path with
    | none => rfl
    | some loc =>
      have hl := toAbsolutePath_eq ha
      subst hl
      rw [Option.map_some]
      dsimp only
      rw [placeComps_dropLast he, unlinked_create]
      cases d.createDirAll (lexicalPlace ws (pathComponents path)).dropLast with
      | none => rfl
      | some d1 =>
        rw [Option.map_some]
        dsimp only
        rw [unlinked_write d1 k (l := placeFor ws path) (.inr rfl)]
        cases d1.writeFile (placeFor ws path) content <;> rfl
  · rw [if_neg he, if_neg he]

theorem unlinked_validate {H : Host} {d : FsTree} (k : Nat) {e : Option (List (Str × FsTree))}
    (hw : d.lookup H.ws = some (.dir e)) (path content : Str) :
    (d.unlinked k).validateAndWrite H path content =
      ((validateAndWrite H d path content).1.unlinked k, (validateAndWrite H d path content).2) := by
  unfold LinkDisk.validateAndWrite validateAndWrite
  split
  · rw [unlinked_writeSource k hw]
    cases hx : writeSourceFile d H.ws path content with
    | mk d' b =>
      cases b with
      | false => rfl
      | true =>
        dsimp only
        have ha : toAbsolutePath d H.ws path = some (placeFor H.ws path) := by
          unfold writeSourceFile at hx
          split at hx
          · cases ha : toAbsolutePath d H.ws path with
            | none => rw [ha] at hx; cases hx
            | some loc => rw [toAbsolutePath_eq ha]
          · cases hx
        rw [unlinked_read d k (join_accepted hw ha), placeOf_eq]
  · rfl

theorem unlinked_replace {d : FsTree} (k : Nat) {ws : List Str} {e : Option (List (Str × FsTree))}
    (hw : d.lookup ws = some (.dir e)) (path old new : Str) (all : Bool) :
    (d.unlinked k).replaceExecute ws path old new all = replaceExecute d ws path old new all := by
  unfold LinkDisk.replaceExecute replaceExecute
  rw [unlinked_readSource k hw]
  split
  · rfl
  · cases readSourceFile d ws path <;> rfl

theorem root_folder {d : FsTree} {ws : List Str} {es : List (Str × FsTree)} (hw : d.lookup ws = some (.dir (some es))) :
    FolderAt d [] := by
  cases ws with
  | nil => exact ⟨es, hw⟩
  | cons n ws =>
    obtain ⟨fs, c, rfl, _⟩ := lookup_cons_some hw
    exact ⟨fs, lookup_nil _⟩

theorem unlinked_wrote {d d' : FsTree} {cs : List PathComp} {l loc : List Str} {text : Str} (hr : FolderAt d [])
    (h : d.writeFile loc text = some d') (hn : PathNames d cs l) : PathNames d' cs l := by
  rcases hn with hn | hn
  · left
    have := (write_differ (D := d.unlinked 0) hr h).1.find cs
    change (d'.unlinked 0).find cs = _ at this
    rw [unlinked_find, unlinked_find] at this
    rw [this, hn]
  · exact .inr hn

theorem unlinked_removed {d d' : FsTree} {cs : List PathComp} {l p : List Str} {n : Str} {x : Option Str}
    (hf : d.lookup (p ++ [n]) = some (.file x)) (h : d.removeFile (p ++ [n]) = some d') (hn : d.resolve [] cs = some l) :
    d'.resolve [] cs = some l := by
  have := (remove_differ (D := d.unlinked 0) hf h).1.find cs
  change (d'.unlinked 0).find cs = _ at this
  rw [unlinked_find, unlinked_find] at this
  rw [this, hn]

theorem resolve_snoc {d : FsTree} {xs : List PathComp} {n : Str} {l : List Str}
    (h : d.resolve [] (xs ++ [.normal n]) = some l) :
    ∃ q e, d.resolve [] xs = some q ∧ d.lookup q = some (.dir e) ∧ l = q ++ [n] := by
  rw [resolve_append, Option.bind_eq_some_iff] at h
  obtain ⟨q, hq, h⟩ := h
  have hl := resolve_lexical h
  change (match d.lookup q with | some (.dir _) => some (q ++ [n]) | _ => none) = some l at h
  cases hp : d.lookup q with
  | none => rw [hp] at h; cases h
  | some u =>
    cases u with
    | dir e => exact ⟨q, e, hq, hp, hl⟩
    | _ => rw [hp] at h; cases h

theorem unlinked_rollback {H : Host} {d d' : FsTree} (k : Nat) {es : List (Str × FsTree)}
    (hw : d.lookup H.ws = some (.dir (some es))) {path content : Str} {original : Option Str}
    (h : validateAndWrite H d path content = (d', some original)) :
    (d'.unlinked k).rollbackWrite H.ws path original = (rollbackWrite d' H.ws path original).unlinked k := by
  obtain ⟨he, hn⟩ : endsWith path ".firm".toList = true ∧ PathNames d' (joinComps H.ws path) (placeFor H.ws path) := by
    unfold validateAndWrite at h
    split at h
    · unfold writeSourceFile at h
      by_cases he : endsWith path ".firm".toList = true
      · refine ⟨he, ?_⟩
        rw [if_pos he] at h
        cases ha : toAbsolutePath d H.ws path with
        | none => rw [ha] at h; cases h
        | some loc =>
          have hn := join_accepted hw ha
          have hl := toAbsolutePath_eq ha
          rw [ha] at h
          rcases hn with hn | hn
          · obtain ⟨xs, n, hx, _⟩ := joinComps_last (ws := H.ws) he
            rw [hx] at hn
            obtain ⟨q, e, hq, hqe, hql⟩ := resolve_snoc hn
            dsimp only at h
            rw [hql, List.dropLast_concat, createDirAll_existing hqe] at h
            dsimp only at h
            cases hwr : d.writeFile (q ++ [n]) content with
            | none => rw [hwr] at h; cases h
            | some d2 =>
              rw [hwr] at h
              cases h
              rw [hx]
              refine unlinked_wrote (root_folder hw) hwr (.inl ?_)
              rw [hn, hl]
          · rw [hl] at hn; exact .inr hn
      · rw [if_neg he] at h; cases h
    · cases h
  cases original with
  | some text =>
    unfold LinkDisk.rollbackWrite rollbackWrite
    dsimp only
    rw [unlinked_write d' k hn, placeOf_eq]
    show _ = ((d'.writeFile (placeFor H.ws path) text).getD d').unlinked k
    cases d'.writeFile (placeFor H.ws path) text <;> rfl
  | none =>
    unfold LinkDisk.rollbackWrite rollbackWrite
    dsimp only
    obtain ⟨xs, n, hx, _⟩ := joinComps_last (ws := H.ws) he
    rw [hx] at hn ⊢
    rw [unlinked_remove d' k hn, placeOf_eq]
    show _ = ((d'.removeFile (placeFor H.ws path)).getD d').unlinked k
    cases d'.removeFile (placeFor H.ws path) <;> rfl

theorem unlinked_delete {d : FsTree} (k : Nat) {ws : List Str} {es : List (Str × FsTree)}
    (hw : d.lookup ws = some (.dir (some es))) (path : Str) :
    (d.unlinked k).deleteExecute ws path = (deleteExecute d ws path).map (fun r => (r.1.unlinked k, r.2)) ∧
    ∀ d' original, deleteExecute d ws path = some (d', original) →
      (d'.unlinked k).rollbackDelete ws path original = (rollbackDelete d' ws path original).unlinked k := by
  unfold LinkDisk.deleteExecute deleteExecute
  by_cases he : endsWith path ".firm".toList = true
  · rw [if_pos he, if_pos he, unlinked_absolute k hw]
    cases ha : toAbsolutePath d ws path with
    | none => exact ⟨rfl, fun d' original h => by cases h⟩
    | some loc =>
      have hn := join_accepted hw ha
      have hl := toAbsolutePath_eq ha
      rw [Option.map_some, Option.bind_some, unlinked_read d k (l := loc) (.inr rfl)]
      dsimp only
      cases hr : d.readText loc with
      | none => exact ⟨rfl, fun d' original h => by cases h⟩
      | some text =>
        have hf := readText_some hr
        obtain ⟨p, n, hpn, _⟩ := firm_place (ws := ws) he
        rw [hpn] at hl
        subst hl
        dsimp only
        rw [Option.bind_some, placeComps_snoc, unlinked_remove d k (l := p ++ [n]) (.inr (placeComps_snoc p n).symm)]
        refine ⟨?_, fun d' original h => ?_⟩
        · cases d.removeFile (p ++ [n]) <;> rfl
        · rw [Option.map_eq_some_iff] at h
          obtain ⟨d2, h2, h⟩ := h
          cases h
          obtain ⟨xs, m, hx, _⟩ := joinComps_last (ws := ws) he
          have hres := unlinked_removed hf h2 (hn.found hf)
          unfold LinkDisk.rollbackDelete rollbackDelete
          rw [placeOf_eq, hpn]
          rw [hx] at hres ⊢
          obtain ⟨q, e, hq, hqe, hql⟩ := resolve_snoc hres
          obtain ⟨rfl, hnm⟩ := List.append_inj' hql rfl
          rw [List.dropLast_concat, List.dropLast_concat, createDirAll_existing hqe,
            createAll_existing (D := d'.unlinked k) (by rw [unlinked_find]; exact hq) hqe]
          dsimp only
          rw [unlinked_write d' k (.inl hres)]
          cases d'.writeFile (p ++ [n]) text <;> rfl
  · rw [if_neg he, if_neg he]
    exact ⟨rfl, fun d' original h => by cases h⟩

/-! ## Loading -/

mutual
theorem unlinked_tree {d : FsTree} {k : Nat} (follow : Nat → List Str → FsTree → FsTree) (left : Nat) :
    ∀ (t : FsTree) (loc : List Str), d.lookup loc = some t → WellFormed t →
      (d.unlinked k).unfoldTree follow left loc t = t
  | .dir none, _, _, _ => by rw [LinkDisk.unfoldTree]
  | .file _, _, _, _ => by rw [LinkDisk.unfoldTree]
  | .other, _, _, _ => by rw [LinkDisk.unfoldTree]
  | .dir (some es), loc, h, hwf => by
    cases hwf with
    | dir h1 h2 h3 =>
      rw [LinkDisk.unfoldTree, unlinked_entries follow left es loc (fun p hp => ?_) h3]
      rw [lookup_append, h, Option.bind_some, lookup_dir, (mapGet_some h1).2 hp, Option.bind_some, lookup_nil]
theorem unlinked_entries {d : FsTree} {k : Nat} (follow : Nat → List Str → FsTree → FsTree) (left : Nat) :
    ∀ (es : List (Str × FsTree)) (loc : List Str), (∀ p ∈ es, d.lookup (loc ++ [p.1]) = some p.2) →
      (∀ p ∈ es, WellFormed p.2) → (d.unlinked k).unfoldEntries follow left loc es = es
  | [], _, _, _ => by rw [LinkDisk.unfoldEntries]
  | (name, .dir e) :: es, loc, h, hwf => by
    have h1 := unlinked_tree (k := k) follow left (.dir e) (loc ++ [name]) (h _ (List.mem_cons_self ..)) (hwf _ (List.mem_cons_self ..))
    rw [LinkDisk.unfoldEntries, h1,
      unlinked_entries follow left es loc (fun p hp => h p (List.mem_cons_of_mem _ hp)) fun p hp => hwf p (List.mem_cons_of_mem _ hp)]
  | (name, .file text) :: es, loc, h, hwf => by
    rw [LinkDisk.unfoldEntries,
      unlinked_entries follow left es loc (fun p hp => h p (List.mem_cons_of_mem _ hp)) fun p hp => hwf p (List.mem_cons_of_mem _ hp)]
  | (name, .other) :: es, loc, h, hwf => by
    have h1 : (d.unlinked k).target follow left loc name = .other := by
      unfold LinkDisk.target
      rw [walk_plain (unlinked_link d k)]
      change (match (match d.lookup loc with | some (.dir _) => some (loc ++ [name]) | _ => none).map fun l => (l, left) with
        | none => _ | some (l, k') => _) = _
      cases d.lookup loc with
      | none => rfl
      | some u =>
        cases u with
        | dir e =>
          change (match d.lookup (loc ++ [name]) with
            | some (.dir e) => _
            | some (.file text) => _
            | _ => _) = _
          rw [h _ (List.mem_cons_self ..)]
        | _ => rfl
    rw [LinkDisk.unfoldEntries, h1,
      unlinked_entries follow left es loc (fun p hp => h p (List.mem_cons_of_mem _ hp)) fun p hp => hwf p (List.mem_cons_of_mem _ hp)]
end

theorem wf_lookup {d t : FsTree} {loc : List Str} (hd : WellFormed d) (h : d.lookup loc = some t) : WellFormed t := by
  induction loc generalizing d with
  | nil => rw [lookup_nil] at h; cases h; exact hd
  | cons n loc ih =>
    obtain ⟨es, c, rfl, hg, hc⟩ := lookup_cons_some h
    exact ih (wf_child hd hg).1 hc

theorem unlinked_rebuild {d : FsTree} (k : Nat) (hd : WellFormed d) (H : Host) (order : Workspace → Workspace) :
    (d.unlinked k).rebuild H order = rebuild H order d := by
  have hload : (d.unlinked k).loadDirectory H.grammar H.ws = match d.lookup H.ws with
      | none => ([], .error .io)
      | some t => Workspace.loadDirectory H.grammar [] (placeText H.ws) t := by
    unfold LinkDisk.loadDirectory
    rw [walk_plain (unlinked_link d k)]
    change (match (d.resolve [] (placeComps H.ws)).map fun l => (l, k) with
      | none => _ | some (loc, left) => _) = _
    rcases PathNames.cases (d := d) (l := H.ws) (.inr rfl) with hr | ⟨hr, _, hl⟩
    · rw [hr]
      change (match d.lookup H.ws with | none => _ | some t => _) = _
      cases hl : d.lookup H.ws with
      | none => rfl
      | some t =>
        dsimp only
        rw [loadAt_unfold]
        have : (d.unlinked k).unfoldAt (d.unlinked k).limit k H.ws t = t := by
          cases (d.unlinked k).limit <;> exact unlinked_tree _ k t H.ws hl (wf_lookup hd hl)
        rw [this]
        rfl
    · rw [hr, hl]; rfl
  unfold LinkDisk.rebuild rebuild
  rw [hload]
  cases d.lookup H.ws with
  | none => rfl
  | some t => rfl

/-! ## C171 -/

theorem wf_validated {H : Host} (hws : ∀ n ∈ H.ws, ValidName n) {d d' : FsTree} (hd : WellFormed d) {path content : Str}
    {r : Option (Option Str)} (h : validateAndWrite H d path content = (d', r)) : WellFormed d' := by
  unfold validateAndWrite at h
  split at h
  · cases hx : writeSourceFile d H.ws path content with
    | mk d2 b =>
      rw [hx] at h
      have := (writeSourceFile_spec hd hws hx).1
      cases b <;> (cases h; exact this)
  · cases h; exact hd

/-- C171: on a disk without links, reading does the same in both models of the disk. -/
theorem C171_read {H : Host} {d : FsTree} (k : Nat) (hd : WellFormed d) {es : List (Str × FsTree)}
    (hw : Has d H.ws (.dir (some es))) (path : Str) :
    (d.unlinked k).readSource H.ws path = readSourceFile d H.ws path :=
  unlinked_readSource k ((has_iff_lookup hd).1 hw) path

/-- C171 for `write_source`: the same answer, the same state and the same disk. -/
theorem C171_write {H : Host} (hws : ∀ n ∈ H.ws, ValidName n) (order : Workspace → Workspace) (s : Server) (k : Nat)
    (hd : WellFormed s.disk) {es : List (Str × FsTree)} (hw : Has s.disk H.ws (.dir (some es))) (path content : Str)
    (force : Bool) :
    (s.unlinked k).write H order path content force =
      ((writeSource H order s path content force).1.unlinked k, (writeSource H order s path content force).2) := by
  have hw' := (has_iff_lookup hd).1 hw
  unfold LinkServer.write writeSource
  change (match (s.disk.unlinked k).validateAndWrite H path content with | (D, none) => _ | (D, some original) => _) = _
  rw [unlinked_validate k hw']
  cases hv : validateAndWrite H s.disk path content with
  | mk d' r =>
    cases r with
    | none => rfl
    | some original =>
      dsimp only
      rw [unlinked_rebuild k (wf_validated hws hd hv)]
      cases rebuild H order d' with
      | ok st => rfl
      | error e =>
        dsimp only
        rw [unlinked_rollback k hw' hv]
        cases force <;> rfl

/-- C171 for `delete_source`. -/
theorem C171_delete {H : Host} (order : Workspace → Workspace) (s : Server) (k : Nat)
    (hd : WellFormed s.disk) {es : List (Str × FsTree)} (hw : Has s.disk H.ws (.dir (some es))) (path : Str)
    (force : Bool) :
    (s.unlinked k).delete H order path force =
      ((deleteSource H order s path force).1.unlinked k, (deleteSource H order s path force).2) := by
  obtain ⟨h1, h2⟩ := unlinked_delete k ((has_iff_lookup hd).1 hw) path
  unfold LinkServer.delete deleteSource
  change (match (s.disk.unlinked k).deleteExecute H.ws path with | none => _ | some (D, original) => _) = _
  rw [h1]
  cases hv : deleteExecute s.disk H.ws path with
  | none => rfl
  | some r =>
    obtain ⟨d', original⟩ := r
    have hwf : WellFormed d' := by
      unfold deleteExecute at hv
      split at hv
      · cases ha : toAbsolutePath s.disk H.ws path with
        | none => rw [ha] at hv; cases hv
        | some loc =>
          rw [ha] at hv
          dsimp only at hv
          cases hr : s.disk.readText loc with
          | none => rw [hr] at hv; cases hv
          | some text =>
            rw [hr] at hv
            dsimp only at hv
            rw [Option.map_eq_some_iff] at hv
            obtain ⟨d2, h2, h⟩ := hv
            cases h
            unfold FsTree.removeFile at h2
            rw [readText_some hr] at h2
            cases h2
            exact wf_remove hd
      · cases hv
    rw [Option.map_some]
    dsimp only
    rw [unlinked_rebuild k hwf]
    cases rebuild H order d' with
    | ok st => rfl
    | error e =>
      dsimp only
      rw [h2 d' original hv]
      cases force <;> rfl

/-- C171 for `replace_source`. -/
theorem C171_replace {H : Host} (hws : ∀ n ∈ H.ws, ValidName n) (order : Workspace → Workspace) (s : Server) (k : Nat)
    (hd : WellFormed s.disk) {es : List (Str × FsTree)} (hw : Has s.disk H.ws (.dir (some es))) (path old new : Str)
    (all force : Bool) :
    (s.unlinked k).replace H order path old new all force =
      ((replaceSource H order s path old new all force).1.unlinked k,
        (replaceSource H order s path old new all force).2) := by
  have hw' := (has_iff_lookup hd).1 hw
  unfold LinkServer.replace
  change (match (s.disk.unlinked k).replaceExecute H.ws path old new all with | none => _ | some (content, n) => _) = _
  rw [unlinked_replace k hw']
  have hr : replaceSource H order s path old new all force =
      match replaceExecute s.disk H.ws path old new all with
      | none => (s, .error)
      | some (content, _) => writeSource H order s path content force := by
    unfold replaceSource writeSource; rfl
  rw [hr]
  cases replaceExecute s.disk H.ws path old new all with
  | none => rfl
  | some r => exact C171_write hws order s k hd hw path r.1 force

/-- C171: loading gives the same state. -/
theorem C171_rebuild {H : Host} (order : Workspace → Workspace) {d : FsTree} (k : Nat) (hd : WellFormed d) :
    (d.unlinked k).rebuild H order = rebuild H order d := unlinked_rebuild k hd H order

/-! ## Several requests -/

/-- The request of Model/Mcp.lean. -/
def Edit.request : Edit → Request
  | .write path content force => .write path content force
  | .delete path force => .delete path force
  | .replace path old new all force => .replace path old new all force
  | .build => .build

/-- The requests processed by the server on a disk without links. -/
def Server.edits (H : Host) (s : Server) : List ((Workspace → Workspace) × Edit) → Server × List Reply
  | [] => (s, [])
  | (order, e) :: es =>
    (((s.handle H order e.request).1.edits H es).1, (s.handle H order e.request).2 :: ((s.handle H order e.request).1.edits H es).2)

theorem rollback_kept {H : Host} (hws : ∀ n ∈ H.ws, ValidName n) {d d' : FsTree} (hd : WellFormed d) {path content : Str}
    {original : Option Str} (h : validateAndWrite H d path content = (d', some original)) :
    WellFormed (rollbackWrite d' H.ws path original) ∧ Steady d (rollbackWrite d' H.ws path original) (placeFor H.ws path) := by
  have hwf := wf_validated hws hd h
  have he : endsWith path ".firm".toList = true := by
    unfold validateAndWrite at h
    split at h
    · unfold writeSourceFile at h
      by_cases he : endsWith path ".firm".toList = true
      · exact he
      · rw [if_neg he] at h; cases h
    · cases h
  refine ⟨?_, (validateAndWrite_steady h).trans (rollbackWrite_steady he)⟩
  obtain ⟨p, n, hpn, _⟩ := firm_place (ws := H.ws) he
  have hval := place_valid hws path
  rw [hpn] at hval
  cases original with
  | some text =>
    rw [rollbackWrite, placeOf_eq, hpn]
    cases hx : d'.writeFile (p ++ [n]) text with
    | none => exact hwf
    | some d2 => rw [(writeFile_spec hx).1]; exact wf_place hwf (.file _) hval
  | none =>
    rw [rollbackWrite, placeOf_eq, hpn]
    cases hx : d'.removeFile (p ++ [n]) with
    | none => exact hwf
    | some d2 => rw [(removeFile_spec hx).1]; exact wf_remove hwf

theorem write_kept {H : Host} (hws : ∀ n ∈ H.ws, ValidName n) {order : Workspace → Workspace} {s : Server}
    (hd : WellFormed s.disk) (path content : Str) (force : Bool) :
    WellFormed (writeSource H order s path content force).1.disk ∧
      Steady s.disk (writeSource H order s path content force).1.disk (placeFor H.ws path) := by
  unfold writeSource
  cases hv : validateAndWrite H s.disk path content with
  | mk d' r =>
    have h1 := wf_validated hws hd hv
    have h2 := validateAndWrite_steady hv
    cases r with
    | none => exact ⟨h1, h2⟩
    | some original =>
      dsimp only
      split
      · exact ⟨h1, h2⟩
      · split
        · exact ⟨h1, h2⟩
        · exact rollback_kept hws hd hv

/-- The workspace stays a directory. -/
theorem edit_kept {H : Host} (hws : ∀ n ∈ H.ws, ValidName n) {order : Workspace → Workspace} {s : Server}
    (hd : WellFormed s.disk) (e : Edit) : WellFormed (s.handle H order e.request).1.disk ∧
      ∃ loc, Steady s.disk (s.handle H order e.request).1.disk loc := by
  cases e with
  | write path content force => exact ⟨(write_kept hws hd path content force).1, _, (write_kept hws hd path content force).2⟩
  | delete path force =>
    show WellFormed (deleteSource H order s path force).1.disk ∧ ∃ loc, Steady s.disk (deleteSource H order s path force).1.disk loc
    unfold deleteSource
    cases hv : deleteExecute s.disk H.ws path with
    | none => exact ⟨hd, [], .refl _ _⟩
    | some r =>
      obtain ⟨d', original⟩ := r
      obtain ⟨h1, h2, es, h3⟩ := deleteExecute_steady hd hv
      obtain ⟨hwf, _, _, _, he, _⟩ := deleteExecute_spec hd hv
      dsimp only
      split
      · exact ⟨hwf, _, h1⟩
      · split
        · exact ⟨hwf, _, h1⟩
        · obtain ⟨k1, _, k3⟩ := rollbackDelete_free (original := original) hwf hws he h2 h3
          exact ⟨k1, _, h1.trans k3⟩
  | replace path old new all force =>
    show WellFormed (replaceSource H order s path old new all force).1.disk ∧
      ∃ loc, Steady s.disk (replaceSource H order s path old new all force).1.disk loc
    have hr : replaceSource H order s path old new all force =
        match replaceExecute s.disk H.ws path old new all with
        | none => (s, .error)
        | some (content, _) => writeSource H order s path content force := by
      unfold replaceSource writeSource; rfl
    rw [hr]
    cases replaceExecute s.disk H.ws path old new all with
    | none => exact ⟨hd, [], .refl _ _⟩
    | some r => exact ⟨(write_kept hws hd path r.1 force).1, _, (write_kept hws hd path r.1 force).2⟩
  | build =>
    show WellFormed (buildTool H order s).1.disk ∧ ∃ loc, Steady s.disk (buildTool H order s).1.disk loc
    unfold buildTool
    cases rebuild H order s.disk <;> exact ⟨hd, [], .refl _ _⟩

/-- C171: any number of requests are answered in the same way, and leave the same state and the same disk. -/
theorem C171_run {H : Host} (hws : ∀ n ∈ H.ws, ValidName n) (s : Server) (k : Nat) (hd : WellFormed s.disk)
    {es : List (Str × FsTree)} (hw : Has s.disk H.ws (.dir (some es))) (reqs : List ((Workspace → Workspace) × Edit)) :
    (s.unlinked k).edits H reqs = ((s.edits H reqs).1.unlinked k, (s.edits H reqs).2) := by
  induction reqs generalizing s es with
  | nil => rfl
  | cons r reqs ih =>
    obtain ⟨order, e⟩ := r
    have h1 : (s.unlinked k).edit H order e =
        ((s.handle H order e.request).1.unlinked k, (s.handle H order e.request).2) := by
      cases e with
      | write path content force => exact C171_write hws order s k hd hw path content force
      | delete path force => exact C171_delete order s k hd hw path force
      | replace path old new all force => exact C171_replace hws order s k hd hw path old new all force
      | build =>
        show (match (s.disk.unlinked k).rebuild H order with | .ok st => _ | .error _ => _) =
          ((buildTool H order s).1.unlinked k, (buildTool H order s).2)
        unfold buildTool
        rw [unlinked_rebuild k hd]
        cases rebuild H order s.disk <;> rfl
    obtain ⟨hd', loc, hst⟩ := edit_kept (order := order) hws hd e
    obtain ⟨es', he'⟩ := hst.2 _ _ ((has_iff_lookup hd).1 hw)
    have h2 := ih (s.handle H order e.request).1 hd' ((has_iff_lookup hd').2 he')
    rw [LinkServer.edits, Server.edits, h1]
    dsimp only
    rw [h2]

-- a server on a disk without links, with requests that are forced, refused and accepted
example : (∃ es, Has exDisk exHost.ws (.dir (some es))) ∧
    ((⟨exDisk, exState exDisk⟩ : Server).edits exHost [(id, .write "sub/c.firm".toList "B".toList true),
      (id, .write "sub/d.firm".toList "B".toList false), (id, .replace "sub/c.firm".toList "B".toList "x".toList false false),
      (id, .delete "sub/c.firm".toList false), (id, .delete "../w/a.firm".toList false), (id, .build)]).2 =
      [.warning, .error, .error, .success, .error, .success] :=
  ⟨⟨_, (has_iff_lookup exDisk_wf).2 (by rfl)⟩, by decide +kernel⟩

end Firm
