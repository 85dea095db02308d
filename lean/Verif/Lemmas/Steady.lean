import Verif.Props.Tools

/-!
# What steps at one place leave as it is elsewhere
-/

namespace Firm

open Firm.Spec

/-- From `d` to `d'` nothing appeared but on the way to `loc`, and directories stayed directories. -/
def Steady (d d' : FsTree) (loc : List Str) : Prop :=
  (∀ l, ¬ l <+: loc → d.lookup l = none → d'.lookup l = none) ∧
  ∀ l es, d.lookup l = some (.dir (some es)) → ∃ es', d'.lookup l = some (.dir (some es'))

theorem Steady.refl (d : FsTree) (loc : List Str) : Steady d d loc :=
  ⟨fun _ _ h => h, fun _ es h => ⟨es, h⟩⟩

theorem Steady.trans {a b c : FsTree} {loc : List Str} (h : Steady a b loc) (h' : Steady b c loc) :
    Steady a c loc :=
  ⟨fun l hl hn => h'.1 l hl (h.1 l hl hn), fun l es hl => by
    obtain ⟨es', he⟩ := h.2 l es hl
    exact h'.2 l es' he⟩

theorem lookup_empty (k : Str) (l : List Str) : (FsTree.dir (some [])).lookup (k :: l) = none := by
  rw [lookup_dir]; rfl

theorem createDirAll_steady {d d' : FsTree} {loc : List Str} (h : d.createDirAll loc = some d') :
    Steady d d' loc := by
  induction loc generalizing d d' with
  | nil =>
    cases d with
    | dir e => simp only [FsTree.createDirAll, Option.some.injEq] at h; rw [h]; exact .refl _ _
    | _ => simp [FsTree.createDirAll] at h
  | cons n ns ih =>
    cases d with
    | dir e =>
      cases e with
      | none => simp [FsTree.createDirAll] at h
      | some es =>
        simp only [FsTree.createDirAll, Option.map_eq_some_iff] at h
        obtain ⟨t, ht, rfl⟩ := h
        have hst := ih ht
        constructor
        · intro l hl hn
          cases l with
          | nil => exact absurd (List.nil_prefix) hl
          | cons m l =>
            rw [lookup_dir] at hn ⊢
            rw [mapGet_mapInsert]
            by_cases hm : m = n
            · subst hm
              rw [if_pos rfl]
              have hl' : ¬ l <+: ns := fun h => hl ((List.prefix_cons_inj m).2 h)
              refine hst.1 l hl' ?_
              cases hg : mapGet es m with
              | none =>
                cases l with
                | nil => exact absurd List.nil_prefix hl'
                | cons k l => exact lookup_empty k l
              | some c => rw [hg] at hn; exact hn
            · rw [if_neg (Ne.symm hm)]; exact hn
        · intro l fs hl
          cases l with
          | nil => exact ⟨_, lookup_nil _⟩
          | cons m l =>
            rw [lookup_dir] at hl ⊢
            rw [mapGet_mapInsert]
            by_cases hm : m = n
            · subst hm
              rw [if_pos rfl]
              cases hg : mapGet es m with
              | none => rw [hg] at hl; cases hl
              | some c =>
                rw [hg] at hl
                rw [hg] at hst
                exact hst.2 l fs hl
            · rw [if_neg (Ne.symm hm)]; exact ⟨fs, hl⟩
    | _ => simp [FsTree.createDirAll] at h

theorem lookup_file_cons (t : Option Str) (k : Str) (l : List Str) : (FsTree.file t).lookup (k :: l) = none := by
  simp [FsTree.lookup]

theorem place_steady {d : FsTree} {text : Option Str} {p : List Str} {n : Str} {es : List (Str × FsTree)}
    (h : d.lookup p = some (.dir (some es))) (hd : ∀ fs, d.lookup (p ++ [n]) ≠ some (.dir (some fs))) :
    Steady d (d.place (p ++ [n]) (.file text)) (p ++ [n]) := by
  induction p generalizing d with
  | nil =>
    rw [lookup_nil] at h; cases h
    rw [List.nil_append, FsTree.place, show ∀ t : FsTree, t.place [] (.file text) = .file text from
      fun t => by cases t <;> simp [FsTree.place]]
    constructor
    · intro l hl hn
      cases l with
      | nil => exact absurd List.nil_prefix hl
      | cons m l =>
        rw [lookup_dir] at hn ⊢
        rw [mapGet_mapInsert]
        by_cases hm : m = n
        · subst hm
          rw [if_pos rfl]
          cases l with
          | nil => exact absurd (List.prefix_refl _) hl
          | cons k l => exact lookup_file_cons text k l
        · rw [if_neg (Ne.symm hm)]; exact hn
    · intro l fs hl
      cases l with
      | nil => exact ⟨_, lookup_nil _⟩
      | cons m l =>
        have hl' := hl
        rw [lookup_dir] at hl ⊢
        rw [mapGet_mapInsert]
        by_cases hm : m = n
        · subst hm
          exfalso
          cases hg : mapGet es m with
          | none => rw [hg] at hl; cases hl
          | some c =>
            rw [hg] at hl
            have hc : ∀ gs, c ≠ .dir (some gs) := by
              intro gs hcg
              refine hd gs ?_
              rw [List.nil_append, lookup_dir, hg, hcg]
              exact lookup_nil _
            cases l with
            | nil =>
              rw [show (some c).bind (fun x => x.lookup []) = c.lookup [] from rfl, lookup_nil] at hl
              cases hl
              exact hc _ rfl
            | cons k l =>
              obtain ⟨gs, _, hcg, _⟩ := lookup_cons_some (show c.lookup (k :: l) = _ from hl)
              exact hc gs hcg
        · rw [if_neg (Ne.symm hm)]; exact ⟨fs, hl⟩
  | cons m p ih =>
    obtain ⟨fs, c, rfl, hg, hc⟩ := lookup_cons_some h
    rw [List.cons_append, FsTree.place, hg, Option.getD_some]
    have hd' : ∀ fs, c.lookup (p ++ [n]) ≠ some (.dir (some fs)) := by
      intro gs hgs
      refine hd gs ?_
      rw [List.cons_append, lookup_dir, hg]
      exact hgs
    have hst := ih hc hd'
    constructor
    · intro l hl hn
      cases l with
      | nil => exact absurd List.nil_prefix hl
      | cons k l =>
        rw [lookup_dir] at hn ⊢
        rw [mapGet_mapInsert]
        by_cases hk : k = m
        · subst hk
          rw [if_pos rfl]
          rw [hg] at hn
          exact hst.1 l (fun h => hl ((List.prefix_cons_inj k).2 h)) hn
        · rw [if_neg (Ne.symm hk)]; exact hn
    · intro l gs hl
      cases l with
      | nil => exact ⟨_, lookup_nil _⟩
      | cons k l =>
        rw [lookup_dir] at hl ⊢
        rw [mapGet_mapInsert]
        by_cases hk : k = m
        · subst hk
          rw [if_pos rfl]
          rw [hg] at hl
          exact hst.2 l gs hl
        · rw [if_neg (Ne.symm hk)]; exact ⟨gs, hl⟩

theorem remove_steady {d u : FsTree} {p : List Str} {n : Str} (h : d.lookup (p ++ [n]) = some u)
    (hu : NotDir u) : Steady d (d.remove (p ++ [n])) (p ++ [n]) := by
  induction p generalizing d with
  | nil =>
    obtain ⟨es, c, rfl, hg, hc⟩ := lookup_cons_some h
    rw [lookup_nil] at hc; cases hc
    rw [List.nil_append, FsTree.remove]
    constructor
    · intro l hl hn
      cases l with
      | nil => exact absurd List.nil_prefix hl
      | cons k l =>
        rw [lookup_dir] at hn ⊢
        rw [mapGet_filter]
        split
        · rfl
        · exact hn
    · intro l fs hl
      cases l with
      | nil => exact ⟨_, lookup_nil _⟩
      | cons k l =>
        rw [lookup_dir] at hl ⊢
        rw [mapGet_filter]
        by_cases hk : k = n
        · exfalso
          subst hk
          rw [hg] at hl
          cases l with
          | nil =>
            rw [show (some u).bind (fun x => x.lookup []) = u.lookup [] from rfl, lookup_nil] at hl
            cases hl
            exact hu _ rfl
          | cons j l =>
            obtain ⟨gs, _, hcg, _⟩ := lookup_cons_some (show u.lookup (j :: l) = _ from hl)
            exact hu gs hcg
        · rw [if_neg hk]; exact ⟨fs, hl⟩
  | cons m p ih =>
    obtain ⟨fs, c, rfl, hg, hc⟩ := lookup_cons_some h
    have hrem : (FsTree.dir (some fs)).remove (m :: p ++ [n]) =
        .dir (some (mapInsert fs m (c.remove (p ++ [n])))) := by
      cases p with
      | nil => show FsTree.remove _ [m, n] = _; rw [FsTree.remove, hg]; rfl
      | cons q p => show FsTree.remove _ (m :: q :: (p ++ [n])) = _; rw [FsTree.remove, hg]; rfl
    rw [hrem]
    have hst := ih hc
    constructor
    · intro l hl hn
      cases l with
      | nil => exact absurd List.nil_prefix hl
      | cons k l =>
        rw [lookup_dir] at hn ⊢
        rw [mapGet_mapInsert]
        by_cases hk : k = m
        · subst hk
          rw [if_pos rfl]
          rw [hg] at hn
          exact hst.1 l (fun h => hl ((List.prefix_cons_inj k).2 h)) hn
        · rw [if_neg (Ne.symm hk)]; exact hn
    · intro l gs hl
      cases l with
      | nil => exact ⟨_, lookup_nil _⟩
      | cons k l =>
        rw [lookup_dir] at hl ⊢
        rw [mapGet_mapInsert]
        by_cases hk : k = m
        · subst hk
          rw [if_pos rfl]
          rw [hg] at hl
          exact hst.2 l gs hl
        · rw [if_neg (Ne.symm hk)]; exact ⟨gs, hl⟩

theorem not_prefix_dropLast {l loc : List Str} (h : ¬ l <+: loc) : ¬ l <+: loc.dropLast :=
  fun h' => h (h'.trans (List.dropLast_prefix loc))

theorem Steady.deeper {d d' : FsTree} {loc : List Str} (h : Steady d d' loc.dropLast) : Steady d d' loc :=
  ⟨fun l hl hn => h.1 l (not_prefix_dropLast hl) hn, h.2⟩

theorem writeFile_steady {d d' : FsTree} {p : List Str} {n text : Str} (h : d.writeFile (p ++ [n]) text = some d') :
    Steady d d' (p ++ [n]) := by
  obtain ⟨rfl, h2, _, h4⟩ := writeFile_spec h
  rcases h4 with h4 | ⟨t, h4⟩
  · unfold FsTree.writeFile at h
    rw [h4] at h
    dsimp only at h
    rw [List.dropLast_concat] at h
    cases hp : d.lookup p with
    | none => rw [hp] at h; cases h
    | some u =>
      rw [hp] at h
      cases u with
      | dir e =>
        cases e with
        | none => cases h
        | some es => exact place_steady hp (by rw [h4]; simp)
      | file t => cases h
      | other => cases h
  · obtain ⟨es, hp, _⟩ := lookup_snoc_some h4
    exact place_steady hp (by rw [h4]; intro fs h; cases h)

theorem removeFile_steady {d d' : FsTree} {p : List Str} {n : Str} (h : d.removeFile (p ++ [n]) = some d') :
    Steady d d' (p ++ [n]) := by
  obtain ⟨rfl, _⟩ := removeFile_spec h
  unfold FsTree.removeFile at h
  cases hl : d.lookup (p ++ [n]) with
  | none => rw [hl] at h; cases h
  | some u =>
    rw [hl] at h
    refine remove_steady hl ?_
    cases u with
    | dir e => cases h
    | file t => intro es h; cases h
    | other => intro es h; cases h

theorem writeSourceFile_steady {d d' : FsTree} {ws : List Str} {path content : Str} {ok : Bool}
    (h : writeSourceFile d ws path content = (d', ok)) : Steady d d' (placeFor ws path) := by
  unfold writeSourceFile at h
  by_cases he : endsWith path ".firm".toList = true
  · rw [if_pos he] at h
    cases ha : toAbsolutePath d ws path with
    | none => rw [ha] at h; cases h; exact .refl _ _
    | some loc =>
      have hloc := toAbsolutePath_eq ha
      obtain ⟨p, n, hpn, _⟩ := firm_place (ws := ws) he
      rw [ha] at h
      dsimp only at h
      rw [placeFor, ← hloc]
      cases hc : d.createDirAll loc.dropLast with
      | none => rw [hc] at h; cases h; exact .refl _ _
      | some d1 =>
        rw [hc] at h
        dsimp only at h
        have h1 := (createDirAll_steady hc).deeper
        cases hw : d1.writeFile loc content with
        | none => rw [hw] at h; cases h; exact h1
        | some d2 =>
          rw [hw] at h
          cases h
          refine h1.trans ?_
          rw [hloc, hpn] at hw ⊢
          exact writeFile_steady hw
  · rw [if_neg he] at h; cases h; exact .refl _ _

theorem validateAndWrite_steady {H : Host} {d d' : FsTree} {path content : Str} {o : Option (Option Str)}
    (h : validateAndWrite H d path content = (d', o)) : Steady d d' (placeFor H.ws path) := by
  unfold validateAndWrite at h
  by_cases ha : H.accepts content = true
  · rw [if_pos ha] at h
    cases hw : writeSourceFile d H.ws path content with
    | mk d1 ok =>
      rw [hw] at h
      cases ok <;> cases h <;> exact writeSourceFile_steady hw
  · rw [if_neg ha] at h; cases h; exact .refl _ _

theorem rollbackWrite_steady {d : FsTree} {ws : List Str} {path : Str} {original : Option Str}
    (he : endsWith path ".firm".toList = true) :
    Steady d (rollbackWrite d ws path original) (placeFor ws path) := by
  obtain ⟨p, n, hpn, _⟩ := firm_place (ws := ws) he
  rw [placeFor, hpn]
  cases original with
  | some o =>
    rw [rollbackWrite, placeOf_eq, hpn]
    cases hw : d.writeFile (p ++ [n]) o with
    | none => exact .refl _ _
    | some d' => exact writeFile_steady hw
  | none =>
    rw [rollbackWrite, placeOf_eq, hpn]
    cases hw : d.removeFile (p ++ [n]) with
    | none => exact .refl _ _
    | some d' => exact removeFile_steady hw

theorem deleteExecute_steady {d d' : FsTree} {ws : List Str} {path original : Str} (hd : WellFormed d)
    (h : deleteExecute d ws path = some (d', original)) :
    Steady d d' (placeFor ws path) ∧ d'.lookup (placeFor ws path) = none ∧
      ∃ es, d'.lookup (placeFor ws path).dropLast = some (.dir (some es)) := by
  obtain ⟨_, _, h3, _, h5, rfl⟩ := deleteExecute_spec hd h
  obtain ⟨p, n, hpn, _⟩ := firm_place (ws := ws) h5
  rw [placeFor, hpn] at h3 ⊢
  obtain ⟨es, hp, _⟩ := lookup_snoc_some h3
  obtain ⟨es', hp', hg'⟩ := lookup_remove_parent (n := n) hp
  refine ⟨remove_steady h3 (fun es h => by cases h), ?_, es', by rw [List.dropLast_concat]; exact hp'⟩
  rw [lookup_append, hp']
  show FsTree.lookup _ [n] = none
  rw [lookup_dir, hg']; rfl

/-- Restoring a deleted file on any disk where its place is free and its directory is there. -/
theorem rollbackDelete_free {d : FsTree} {ws : List Str} {path original : Str} {es : List (Str × FsTree)}
    (hd : WellFormed d) (hws : ∀ n ∈ ws, ValidName n) (he : endsWith path ".firm".toList = true)
    (hl : d.lookup (placeFor ws path) = none) (hp : d.lookup (placeFor ws path).dropLast = some (.dir (some es))) :
    WellFormed (rollbackDelete d ws path original) ∧
    LeafSet d (rollbackDelete d ws path original) (placeFor ws path) (some (.file (some original))) ∧
    Steady d (rollbackDelete d ws path original) (placeFor ws path) := by
  obtain ⟨p, n, hpn, _⟩ := firm_place (ws := ws) he
  have hval := place_valid hws path
  rw [placeFor, hpn] at hl hp ⊢
  rw [List.dropLast_concat] at hp
  have hc := createDirAll_existing hp
  have hw : d.writeFile (p ++ [n]) original = some (d.place (p ++ [n]) (.file (some original))) := by
    unfold FsTree.writeFile
    rw [hl]
    dsimp only
    rw [List.dropLast_concat, hp]
  obtain ⟨_, _, h3, _⟩ := writeFile_spec hw
  unfold rollbackDelete
  rw [placeOf_eq, hpn, List.dropLast_concat, hc]
  dsimp only
  rw [hw, Option.getD_some]
  exact ⟨wf_place hd (.file _) (by rw [← hpn]; exact hval), h3, writeFile_steady hw⟩

theorem appendDsl_steady {d d' : FsTree} {loc : List Str} {dsl : Str} {ok : Bool}
    (h : appendDsl d loc dsl = (d', ok)) : Steady d d' loc := by
  unfold appendDsl at h
  cases hc : d.createDirAll loc.dropLast with
  | none => rw [hc] at h; cases h; exact .refl _ _
  | some d1 =>
    have h1 := (createDirAll_steady hc).deeper
    rw [hc] at h
    dsimp only at h
    rcases List.eq_nil_or_concat loc with rfl | ⟨p, n, rfl⟩
    · have : ∃ x, d1 = .dir x := by
        cases d with
        | dir e => rw [List.dropLast_nil] at hc; rw [FsTree.createDirAll] at hc; cases hc; exact ⟨_, rfl⟩
        | file t => cases hc
        | other => cases hc
      obtain ⟨x, rfl⟩ := this
      have : (FsTree.dir x).lookup [] = some (.dir x) := lookup_nil _
      unfold FsTree.readText at h
      rw [this] at h
      cases h
      exact h1
    · rw [List.concat_eq_append] at *
      have key : ∀ text, ∀ d2, d1.writeFile (p ++ [n]) text = some d2 → Steady d d2 (p ++ [n]) :=
        fun text d2 hw => h1.trans (writeFile_steady hw)
      repeat' split at h
      all_goals cases h
      all_goals first
        | exact h1
        | exact key _ _ (by assumption)

theorem addExecute_leaf {H : Host} {s : Server} {p : AddParams} {d : FsTree} {ok : Bool}
    (hd : WellFormed s.disk) (hws : ∀ n ∈ H.ws, ValidName n) (h : addExecute H s p = (d, ok)) :
    Steady s.disk d (placeFor H.ws (p.toFile.getD (defaultTarget p.type))) ∧
    (ok = true → ∃ old more,
      LeafSet s.disk d (placeFor H.ws (p.toFile.getD (defaultTarget p.type))) (some (.file (some (old ++ more)))) ∧
      ((old = [] ∧ leafAt s.disk (placeFor H.ws (p.toFile.getD (defaultTarget p.type))) = none) ∨
        leafAt s.disk (placeFor H.ws (p.toFile.getD (defaultTarget p.type))) = some (.file (some old)))) := by
  unfold addExecute at h
  cases he : entityToAdd H s.state p with
  | none => rw [he] at h; cases h; exact ⟨.refl _ _, fun h => by cases h⟩
  | some e =>
    rw [he] at h
    obtain ⟨_, _, h3⟩ := appendDsl_spec hd (placeOf_valid hws _) h
    have h4 := appendDsl_steady h
    simp only [placeOf_eq] at h3 h4
    refine ⟨h4, fun hok => ?_⟩
    obtain ⟨old, h5, h6⟩ := h3 hok
    exact ⟨old, _, h5, h6⟩

end Firm
