import Verif.Model.Interrupted
import Verif.Lemmas.Steady

/-!
# C132: requests that are interrupted
-/

namespace Firm.Spec

/-- `t` is what is left of `text` when writing it stopped: a beginning of it or, when it has characters of several bytes,
something that is no text. -/
def Begun (text : Str) (t : Option Str) : Prop :=
  (∃ p, p <+: text ∧ t = some p) ∨ (t = none ∧ ∃ c ∈ text, 1 < c.utf8Size)

/-- The disk `d'` has at `loc` what `d` has there, as far as it is no directory. -/
def SameAt (d d' : FsTree) (loc : List Str) : Prop := ∀ u, NotDir u → (Has d loc u ↔ Has d' loc u)

/-- Everything but what is at `loc` is the same on both disks (directories may differ). -/
def SameBut (d d' : FsTree) (loc : List Str) : Prop := ∀ l, l ≠ loc → SameAt d d' l

end Firm.Spec

namespace Firm

open Firm.Spec

theorem firstBytes_begun (k : Nat) (text : Str) : Begun text (firstBytes k text) := by
  induction text generalizing k with
  | nil => cases k <;> exact .inl ⟨[], List.nil_prefix, rfl⟩
  | cons c s ih =>
    cases k with
    | zero => exact .inl ⟨[], List.nil_prefix, rfl⟩
    | succ k =>
      unfold firstBytes
      by_cases hk : c.utf8Size ≤ k + 1
      · rw [if_pos hk]
        rcases ih (k + 1 - c.utf8Size) with ⟨p, hp, e⟩ | ⟨e, x, hx, h1⟩
        · exact .inl ⟨c :: p, (List.prefix_cons_inj c).2 hp, by rw [e]; rfl⟩
        · exact .inr ⟨by rw [e]; rfl, x, List.mem_cons_of_mem _ hx, h1⟩
      · rw [if_neg hk]
        exact .inr ⟨rfl, c, List.mem_cons_self, by omega⟩

theorem begun_all (text : Str) : Begun text (some text) := .inl ⟨text, List.prefix_refl _, rfl⟩

theorem begun_nil {t : Option Str} (h : Begun [] t) : t = some [] := by
  rcases h with ⟨p, hp, e⟩ | ⟨_, c, hc, _⟩
  · rw [e, List.prefix_nil.1 hp]
  · cases hc

/-! ## What a call changes -/

/-- Between the disks `d` and `d'` only what is at `loc` may have changed, to `u`. -/
def LeafTo (d d' : FsTree) (loc : List Str) (u : Option FsTree) : Prop :=
  WellFormed d' ∧ LeafSet d d' loc u

theorem LeafTo.same {d : FsTree} (hd : WellFormed d) (loc : List Str) : LeafTo d d loc (leafAt d loc) :=
  ⟨hd, fun l => by split <;> simp_all⟩

theorem leafTo_of_same {d d' : FsTree} (hd' : WellFormed d') (loc : List Str) (h : ∀ l, leafAt d' l = leafAt d l) :
    LeafTo d d' loc (leafAt d loc) :=
  ⟨hd', fun l => by rw [h l]; split <;> simp_all⟩

theorem writeFile_parent {d d' : FsTree} {p : List Str} {n text : Str} (h : d.writeFile (p ++ [n]) text = some d') :
    ∃ es, d.lookup p = some (.dir (some es)) ∧ ∀ fs, d.lookup (p ++ [n]) ≠ some (.dir (some fs)) := by
  unfold FsTree.writeFile at h
  cases hl : d.lookup (p ++ [n]) with
  | some u =>
    obtain ⟨es, hp, _⟩ := lookup_snoc_some hl
    rw [hl] at h
    cases u with
    | dir e => cases h
    | file t => exact ⟨es, hp, fun fs h => by cases h⟩
    | other => cases h
  | none =>
    rw [hl] at h
    simp only [List.dropLast_concat] at h
    cases hp : d.lookup p with
    | none => rw [hp] at h; cases h
    | some v =>
      rw [hp] at h
      cases v with
      | dir e =>
        cases e with
        | none => cases h
        | some es => exact ⟨es, rfl, fun fs h => by cases h⟩
      | _ => cases h

theorem place_leafTo {d d' : FsTree} {p : List Str} {n text : Str} (hd : WellFormed d)
    (hv : ∀ m ∈ p ++ [n], ValidName m) (h : d.writeFile (p ++ [n]) text = some d') (t : Option Str) :
    LeafTo d (d.place (p ++ [n]) (.file t)) (p ++ [n]) (some (.file t)) := by
  obtain ⟨es, h1, h2⟩ := writeFile_parent h
  exact ⟨wf_place hd (.file _) hv, leafAt_place h1 h2⟩

theorem createDirAll_leafTo {d d' : FsTree} {q : List Str} (hd : WellFormed d) (hq : ∀ m ∈ q, ValidName m)
    (h : d.createDirAll q = some d') (loc : List Str) : LeafTo d d' loc (leafAt d loc) :=
  leafTo_of_same (wf_createDirAll hd hq h) loc (leafAt_createDirAll h)

theorem LeafTo.trans {a b c : FsTree} {loc : List Str} {u v : Option FsTree} (h : LeafTo a b loc u)
    (h' : LeafTo b c loc v) : LeafTo a c loc v :=
  ⟨h'.1, fun l => by
    rw [h'.2 l]
    split
    · rfl
    · next hl => rw [h.2 l, if_neg hl]⟩

theorem LeafTo.at {d d' : FsTree} {loc : List Str} {u : Option FsTree} (h : LeafTo d d' loc u) : leafAt d' loc = u := by
  rw [h.2 loc, if_pos rfl]

/-- The calls of a list work at one place, and what they put there satisfies `P`. -/
def OpAt (loc : List Str) (P : Option FsTree → Prop) : FsOp → Prop
  | .mkdirs q => ∀ m ∈ q, ValidName m
  | .write l text => l = loc ∧ ∀ t, Begun text t → P (some (.file t))
  | .append _ _ => False
  | .remove l => l = loc ∧ P none

theorem run_at {loc p : List Str} {n : Str} (hloc : loc = p ++ [n]) (hv : ∀ m ∈ loc, ValidName m)
    {P : Option FsTree → Prop} {op : FsOp} (ho : OpAt loc P op) {d : FsTree} (hd : WellFormed d)
    (hP : P (leafAt d loc)) : ∃ u, P u ∧ LeafTo d ((op.run d).getD d) loc u := by
  subst hloc
  cases op with
  | mkdirs q =>
    cases h : d.createDirAll q with
    | none => rw [FsOp.run, h]; exact ⟨_, hP, .same hd _⟩
    | some d' => rw [FsOp.run, h]; exact ⟨_, hP, createDirAll_leafTo hd ho h _⟩
  | write l text =>
    obtain ⟨rfl, ht⟩ := ho
    cases h : d.writeFile (p ++ [n]) text with
    | none => rw [FsOp.run, h]; exact ⟨_, hP, .same hd _⟩
    | some d' =>
      rw [FsOp.run, h, Option.getD_some, (writeFile_spec h).1]
      exact ⟨_, ht _ (begun_all text), place_leafTo hd hv h _⟩
  | append l text => exact absurd ho id
  | remove l =>
    obtain ⟨rfl, ht⟩ := ho
    cases h : d.removeFile (p ++ [n]) with
    | none => rw [FsOp.run, h]; exact ⟨_, hP, .same hd _⟩
    | some d' =>
      rw [FsOp.run, h, Option.getD_some]
      obtain ⟨e, hl⟩ := removeFile_spec h
      exact ⟨none, ht, by rw [e]; exact wf_remove hd, hl⟩

theorem cut_at {loc p : List Str} {n : Str} (hloc : loc = p ++ [n]) (hv : ∀ m ∈ loc, ValidName m)
    {P : Option FsTree → Prop} {op : FsOp} (ho : OpAt loc P op) {d : FsTree} (hd : WellFormed d)
    (hP : P (leafAt d loc)) (k : Nat) : ∃ u, P u ∧ LeafTo d (op.cut d k) loc u := by
  subst hloc
  cases op with
  | mkdirs q =>
    rw [FsOp.cut]
    cases h : d.createDirAll q with
    | none => exact ⟨_, hP, .same hd _⟩
    | some d' =>
      dsimp only
      cases h' : d.createDirAll (q.take k) with
      | none => exact ⟨_, hP, .same hd _⟩
      | some d2 => exact ⟨_, hP, createDirAll_leafTo hd (fun m hm => ho m (List.mem_of_mem_take hm)) h' _⟩
  | write l text =>
    obtain ⟨rfl, ht⟩ := ho
    rw [FsOp.cut]
    cases h : d.writeFile (p ++ [n]) text with
    | none => exact ⟨_, hP, .same hd _⟩
    | some d' => exact ⟨_, ht _ (firstBytes_begun k text), place_leafTo hd hv h _⟩
  | append l text => exact absurd ho id
  | remove l => exact ⟨_, hP, .same hd _⟩

theorem stops_at {loc p : List Str} {n : Str} (hloc : loc = p ++ [n]) (hv : ∀ m ∈ loc, ValidName m)
    {P : Option FsTree → Prop} {d d' : FsTree} {ops : List FsOp} (h : StopsAt d ops d')
    (ho : ∀ op ∈ ops, OpAt loc P op) (hd : WellFormed d) (hP : P (leafAt d loc)) :
    ∃ u, P u ∧ LeafTo d d' loc u := by
  induction h with
  | here d ops => exact ⟨_, hP, .same hd _⟩
  | inside d op ops k => exact cut_at hloc hv (ho op List.mem_cons_self) hd hP k
  | later h ih =>
    obtain ⟨u, h1, h2⟩ := run_at hloc hv (ho _ List.mem_cons_self) hd hP
    obtain ⟨v, h3, h4⟩ := ih (fun op hop => ho op (List.mem_cons_of_mem _ hop)) h2.1 (by rw [h2.at]; exact h1)
    exact ⟨v, h3, h2.trans h4⟩

theorem stopsAt_nil {d d' : FsTree} (h : StopsAt d [] d') : d' = d := by cases h; rfl

/-! ## The calls of the requests -/

/-- What `write_source` may leave at its target. -/
def WriteLeaves (d : FsTree) (loc : List Str) (content : Str) (u : Option FsTree) : Prop :=
  u = leafAt d loc ∨ (∃ t, Begun content t ∧ u = some (.file t)) ∨
  (∃ old t, leafAt d loc = some (.file (some old)) ∧ Begun old t ∧ u = some (.file t)) ∨
  (u = none ∧ ∀ old, leafAt d loc ≠ some (.file (some old)))

theorem readText_leaf {d : FsTree} {loc : List Str} {text : Str} :
    d.readText loc = some text ↔ leafAt d loc = some (.file (some text)) := by
  unfold FsTree.readText
  rw [leafAt_eq_some]
  constructor
  · intro h
    split at h
    · next hl => rw [hl, h]; exact ⟨rfl, fun es h => by cases h⟩
    · cases h
  · rintro ⟨h, _⟩; rw [h]

theorem writeOps_at (H : Host) (hws : ∀ n ∈ H.ws, ValidName n) (order : Workspace → Workspace) (d : FsTree)
    (path content : Str) (force : Bool) :
    writeOps H order d path content force = [] ∨
    (∃ p n, placeFor H.ws path = p ++ [n]) ∧
    ∀ op ∈ writeOps H order d path content force,
      OpAt (placeFor H.ws path) (WriteLeaves d (placeFor H.ws path) content) op := by
  unfold writeOps
  by_cases ha : H.accepts content = true
  · rw [if_pos ha]
    by_cases he : endsWith path ".firm".toList = true
    · rw [if_pos he]
      cases hp : toAbsolutePath d H.ws path with
      | none => exact .inl rfl
      | some loc =>
        have hloc := toAbsolutePath_eq hp
        subst hloc
        right
        obtain ⟨p, n, hpn, _⟩ := firm_place (ws := H.ws) he
        refine ⟨⟨p, n, hpn⟩, ?_⟩
        have hval := place_valid hws path
        have hm : OpAt (placeFor H.ws path) (WriteLeaves d (placeFor H.ws path) content)
            (.mkdirs (placeFor H.ws path).dropLast) := fun m hm => hval m (List.mem_of_mem_dropLast hm)
        have hw : OpAt (placeFor H.ws path) (WriteLeaves d (placeFor H.ws path) content)
            (.write (placeFor H.ws path) content) := ⟨rfl, fun t ht => .inr (.inl ⟨t, ht, rfl⟩)⟩
        dsimp only
        cases hc : d.createDirAll (lexicalPlace H.ws (pathComponents path)).dropLast with
        | none => intro op hop; rw [List.mem_singleton.1 hop]; exact hm
        | some d1 =>
          dsimp only
          cases hwf : d1.writeFile (lexicalPlace H.ws (pathComponents path)) content with
          | none =>
            intro op hop
            rcases List.mem_pair.1 hop with rfl | rfl
            · exact hm
            · exact hw
          | some d2 =>
            intro op hop
            rcases List.mem_append.1 hop with hop | hop
            · rcases List.mem_pair.1 hop with rfl | rfl
              · exact hm
              · exact hw
            · cases hr : rebuild H order d2 with
              | ok st => rw [hr] at hop; cases hop
              | error err =>
                rw [hr] at hop
                cases force with
                | true => cases hop
                | false =>
                  rw [placeOf_eq, placeOf_eq] at hop
                  dsimp only at hop
                  rw [if_neg (by decide)] at hop
                  cases ho : d.readText (lexicalPlace H.ws (pathComponents path)) with
                  | some original =>
                    rw [ho] at hop
                    rw [List.mem_singleton.1 hop]
                    exact ⟨rfl, fun t ht => .inr (.inr (.inl ⟨original, t, readText_leaf.1 ho, ht, rfl⟩))⟩
                  | none =>
                    rw [ho] at hop
                    rw [List.mem_singleton.1 hop]
                    exact ⟨rfl, .inr (.inr (.inr ⟨rfl, fun old h => by
                      rw [readText_leaf.2 h] at ho; cases ho⟩))⟩
    · rw [if_neg he]; exact .inl rfl
  · rw [if_neg ha]; exact .inl rfl

/-- What `delete_source` may leave at its target. -/
def DeleteLeaves (d : FsTree) (loc : List Str) (u : Option FsTree) : Prop :=
  u = leafAt d loc ∨ u = none ∨ ∃ old t, leafAt d loc = some (.file (some old)) ∧ Begun old t ∧ u = some (.file t)

theorem deleteOps_at (H : Host) (hws : ∀ n ∈ H.ws, ValidName n) (order : Workspace → Workspace) (d : FsTree)
    (path : Str) (force : Bool) :
    deleteOps H order d path force = [] ∨
    (∃ p n, placeFor H.ws path = p ++ [n]) ∧
    ∀ op ∈ deleteOps H order d path force,
      OpAt (placeFor H.ws path) (DeleteLeaves d (placeFor H.ws path)) op := by
  unfold deleteOps
  by_cases he : endsWith path ".firm".toList = true
  · rw [if_pos he]
    cases hp : toAbsolutePath d H.ws path with
    | none => exact .inl rfl
    | some loc =>
      have hloc := toAbsolutePath_eq hp
      subst hloc
      dsimp only
      cases hr : d.readText (lexicalPlace H.ws (pathComponents path)) with
      | none => exact .inl rfl
      | some original =>
        right
        obtain ⟨p, n, hpn, _⟩ := firm_place (ws := H.ws) he
        refine ⟨⟨p, n, hpn⟩, ?_⟩
        have hval := place_valid hws path
        have hm : OpAt (placeFor H.ws path) (DeleteLeaves d (placeFor H.ws path))
            (.mkdirs (placeFor H.ws path).dropLast) := fun m hm => hval m (List.mem_of_mem_dropLast hm)
        have hw : OpAt (placeFor H.ws path) (DeleteLeaves d (placeFor H.ws path))
            (.write (placeFor H.ws path) original) :=
          ⟨rfl, fun t ht => .inr (.inr ⟨original, t, readText_leaf.1 hr, ht, rfl⟩)⟩
        have hx : OpAt (placeFor H.ws path) (DeleteLeaves d (placeFor H.ws path))
            (.remove (placeFor H.ws path)) := ⟨rfl, .inr (.inl rfl)⟩
        dsimp only
        cases hc : d.removeFile (lexicalPlace H.ws (pathComponents path)) with
        | none => intro op hop; rw [List.mem_singleton.1 hop]; exact hx
        | some d1 =>
          intro op hop
          rcases List.mem_append.1 hop with hop | hop
          · rw [List.mem_singleton.1 hop]; exact hx
          · rw [placeOf_eq] at hop
            cases hb : rebuild H order d1 with
            | ok st => rw [hb] at hop; cases hop
            | error err =>
              rw [hb] at hop
              cases force with
              | true => cases hop
              | false =>
                dsimp only at hop
                rw [if_neg (by decide)] at hop
                cases hcd : d1.createDirAll (lexicalPlace H.ws (pathComponents path)).dropLast with
                | none => rw [hcd] at hop; rw [List.mem_singleton.1 hop]; exact hm
                | some d2 =>
                  rw [hcd] at hop
                  rcases List.mem_pair.1 hop with rfl | rfl
                  · exact hm
                  · exact hw
  · rw [if_neg he]; exact .inl rfl

/-- What `add_entity` may leave at its target. -/
def AddLeaves (d : FsTree) (loc : List Str) (dsl : Str) (u : Option FsTree) : Prop :=
  u = leafAt d loc ∨
  (leafAt d loc = none ∧ ∃ t, Begun dsl t ∧ u = some (.file t)) ∨
  ∃ old t, leafAt d loc = some (.file (some old)) ∧ Begun (appendPrefix old ++ dsl) t ∧
    u = some (.file (t.map (old ++ ·)))

theorem appendOps_stop {d d' : FsTree} {loc : List Str} {dsl : Str} (hd : WellFormed d)
    (hv : ∀ m ∈ loc, ValidName m) (h : StopsAt d (appendOps d loc dsl) d') :
    ∃ u, AddLeaves d loc dsl u ∧ LeafTo d d' loc u := by
  have hcut : ∀ k, ∃ u, AddLeaves d loc dsl u ∧ LeafTo d (FsOp.cut d k (.mkdirs loc.dropLast)) loc u := by
    intro k
    rw [FsOp.cut]
    cases h : d.createDirAll loc.dropLast with
    | none => exact ⟨_, .inl rfl, .same hd _⟩
    | some d1 =>
      dsimp only
      cases h' : d.createDirAll (loc.dropLast.take k) with
      | none => exact ⟨_, .inl rfl, .same hd _⟩
      | some d2 =>
        exact ⟨_, .inl rfl, createDirAll_leafTo hd
          (fun m hm => hv m (List.mem_of_mem_dropLast (List.mem_of_mem_take hm))) h' _⟩
  unfold appendOps at h
  cases hc : d.createDirAll loc.dropLast with
  | none =>
    rw [hc] at h
    cases h with
    | here => exact ⟨_, .inl rfl, .same hd _⟩
    | inside k => exact hcut _
    | later h =>
      rw [stopsAt_nil h]
      rw [FsOp.run, hc]
      exact ⟨_, .inl rfl, .same hd _⟩
  | some d1 =>
    have hd1 := wf_createDirAll hd (fun m hm => hv m (List.mem_of_mem_dropLast hm)) hc
    have hl1 := leafAt_createDirAll hc
    have h0 := createDirAll_leafTo hd (fun m hm => hv m (List.mem_of_mem_dropLast hm)) hc loc
    rw [hc] at h
    dsimp only at h
    -- appending at a place that is not the root
    have happ : ∀ (text : Str), (∃ p n, loc = p ++ [n]) →
        (∀ t, Begun text t → AddLeaves d loc dsl (some (.file (t.map ((d1.readText loc).getD [] ++ ·))))) →
        StopsAt d [.mkdirs loc.dropLast, .append loc text] d' →
        ∃ u, AddLeaves d loc dsl u ∧ LeafTo d d' loc u := by
      rintro text ⟨p, n, rfl⟩ ht h
      cases h with
      | here => exact ⟨_, .inl rfl, .same hd _⟩
      | inside k => exact hcut _
      | later h =>
        rw [FsOp.run, hc, Option.getD_some] at h
        cases h with
        | here => exact ⟨_, .inl rfl, h0⟩
        | inside k =>
          rw [FsOp.cut]
          cases hw : d1.writeFile (p ++ [n]) ((d1.readText (p ++ [n])).getD [] ++ text) with
          | none => exact ⟨_, .inl rfl, h0⟩
          | some d2 =>
            exact ⟨_, ht _ (firstBytes_begun _ text), h0.trans (place_leafTo hd1 hv hw _)⟩
        | later h =>
          rw [stopsAt_nil h, FsOp.run]
          cases hw : d1.writeFile (p ++ [n]) ((d1.readText (p ++ [n])).getD [] ++ text) with
          | none => exact ⟨_, .inl rfl, h0⟩
          | some d2 =>
            rw [Option.getD_some, (writeFile_spec hw).1]
            exact ⟨_, ht _ (begun_all text), h0.trans (place_leafTo hd1 hv hw _)⟩
    have hne : d1.lookup loc = none ∨ (∃ t, d1.lookup loc = some (.file t)) → ∃ p n, loc = p ++ [n] := by
      intro hlk
      rcases List.eq_nil_or_concat loc with hnil | ⟨q, m, hq⟩
      · exfalso
        rw [hnil, lookup_nil] at hlk
        rw [hnil] at hc
        cases d with
        | dir e =>
          simp only [List.dropLast_nil, FsTree.createDirAll, Option.some.injEq] at hc
          rw [← hc] at hlk
          rcases hlk with hlk | ⟨t, hlk⟩ <;> cases hlk
        | _ => simp [FsTree.createDirAll] at hc
      · exact ⟨q, m, by rw [hq, List.concat_eq_append]⟩
    cases hl : d1.lookup loc with
    | none =>
      rw [hl] at h
      have hr : d1.readText loc = none := by unfold FsTree.readText; rw [hl]
      refine happ dsl (hne (.inl hl)) (fun t ht => ?_) h
      rw [hr]
      refine .inr (.inl ⟨?_, t, ht, ?_⟩)
      · rw [← hl1]; unfold leafAt; rw [hl]; rfl
      · cases t <;> rfl
    | some v =>
      rw [hl] at h
      dsimp only at h
      cases hr : d1.readText loc with
      | none =>
        rw [hr] at h
        cases h with
        | here => exact ⟨_, .inl rfl, .same hd _⟩
        | inside k => exact hcut _
        | later h =>
          rw [stopsAt_nil h]
          rw [FsOp.run, hc]
          exact ⟨_, .inl rfl, h0⟩
      | some content =>
        rw [hr] at h
        have hlf := readText_leaf.1 hr
        refine happ _ (hne (.inr ⟨_, (leafAt_eq_some.1 hlf).1⟩)) (fun t ht => ?_) h
        rw [hr]
        exact .inr (.inr ⟨content, t, by rw [← hl1]; exact hlf, ht, rfl⟩)

/-! ## C132 -/

theorem leaf_sameAt {d d' : FsTree} (hd : WellFormed d) (hd' : WellFormed d') {l : List Str}
    (h : leafAt d' l = leafAt d l) : SameAt d d' l := by
  intro u hu
  rw [has_iff_lookup hd, has_iff_lookup hd']
  have h1 := leafAt_eq_some (d := d) (u := u) (loc := l)
  have h2 := leafAt_eq_some (d := d') (u := u) (loc := l)
  rw [h] at h2
  exact ⟨fun hh => (h2.1 (h1.2 ⟨hh, hu⟩)).1, fun hh => (h1.1 (h2.2 ⟨hh, hu⟩)).1⟩

theorem leaf_has {d u : FsTree} (hd : WellFormed d) {l : List Str} (h : leafAt d l = some u) : Has d l u :=
  (has_iff_lookup hd).2 (leafAt_eq_some.1 h).1

theorem has_leaf {d u : FsTree} (hd : WellFormed d) {l : List Str} (hu : NotDir u) (h : Has d l u) : leafAt d l = some u :=
  leafAt_eq_some.2 ⟨(has_iff_lookup hd).1 h, hu⟩

theorem file_notDir (t : Option Str) : NotDir (.file t) := fun es h => by cases h

theorem write_stop {H : Host} (hws : ∀ n ∈ H.ws, ValidName n) {order : Workspace → Workspace} {d d' : FsTree}
    (hd : WellFormed d) {path content : Str} {force : Bool}
    (h : StopsAt d (writeOps H order d path content force) d') :
    ∃ u, WriteLeaves d (placeFor H.ws path) content u ∧ LeafTo d d' (placeFor H.ws path) u := by
  rcases writeOps_at H hws order d path content force with h0 | ⟨⟨p, n, hpn⟩, h0⟩
  · rw [h0] at h
    rw [stopsAt_nil h]
    exact ⟨_, .inl rfl, .same hd _⟩
  · exact stops_at hpn (place_valid hws path) h h0 hd (.inl rfl)

theorem delete_stop {H : Host} (hws : ∀ n ∈ H.ws, ValidName n) {order : Workspace → Workspace} {d d' : FsTree}
    (hd : WellFormed d) {path : Str} {force : Bool} (h : StopsAt d (deleteOps H order d path force) d') :
    ∃ u, DeleteLeaves d (placeFor H.ws path) u ∧ LeafTo d d' (placeFor H.ws path) u := by
  rcases deleteOps_at H hws order d path force with h0 | ⟨⟨p, n, hpn⟩, h0⟩
  · rw [h0] at h
    rw [stopsAt_nil h]
    exact ⟨_, .inl rfl, .same hd _⟩
  · exact stops_at hpn (place_valid hws path) h h0 hd (.inl rfl)

/-- C132: when a request is stopped at any moment, every file but its target is as it was. -/
theorem C132_others (H : Host) (hws : ∀ n ∈ H.ws, ValidName n) (order : Workspace → Workspace) (s : Server)
    (hd : WellFormed s.disk) (r : Request) (d : FsTree) (h : StopsAt s.disk (requestOps H order s r) d) :
    SameBut s.disk d (lexicalPlace H.ws (pathComponents r.path)) := by
  have key : ∀ u, LeafTo s.disk d (placeFor H.ws r.path) u → SameBut s.disk d (placeFor H.ws r.path) :=
    fun u hu l hl => leaf_sameAt hd hu.1 (by rw [hu.2 l, if_neg hl])
  have same : d = s.disk → SameBut s.disk d (placeFor H.ws r.path) := by
    rintro rfl; exact fun _ _ _ _ => Iff.rfl
  cases r with
  | write path content force =>
    obtain ⟨u, _, hu⟩ := write_stop hws hd h
    exact key u hu
  | delete path force =>
    obtain ⟨u, _, hu⟩ := delete_stop hws hd h
    exact key u hu
  | replace path old new all force =>
    rw [requestOps] at h
    cases hx : replaceExecute s.disk H.ws path old new all with
    | none => rw [hx] at h; exact same (stopsAt_nil h)
    | some c =>
      rw [hx] at h
      obtain ⟨u, _, hu⟩ := write_stop hws hd h
      exact key u hu
  | add p =>
    rw [requestOps] at h
    cases hx : entityToAdd H s.state p with
    | none => rw [hx] at h; exact same (stopsAt_nil h)
    | some e =>
      rw [hx] at h
      dsimp only at h
      rw [placeOf_eq] at h
      obtain ⟨u, _, hu⟩ := appendOps_stop hd (place_valid hws _) h
      exact key u hu
  | build => exact same (stopsAt_nil h)

/-- C132 for `write_source`: the target is as it was, or holds a beginning of the new or of the old content; it is gone only
when it was no text before. What is missing: `C132_lost` shows that the beginning may be empty. -/
theorem C132_write_partial (H : Host) (hws : ∀ n ∈ H.ws, ValidName n) (order : Workspace → Workspace) (s : Server)
    (hd : WellFormed s.disk) (path content : Str) (force : Bool) (d : FsTree)
    (h : StopsAt s.disk (requestOps H order s (.write path content force)) d) :
    SameAt s.disk d (lexicalPlace H.ws (pathComponents path)) ∨
    (∃ t, Begun content t ∧ Has d (lexicalPlace H.ws (pathComponents path)) (.file t)) ∨
    (∃ old t, Has s.disk (lexicalPlace H.ws (pathComponents path)) (.file (some old)) ∧ Begun old t ∧
      Has d (lexicalPlace H.ws (pathComponents path)) (.file t)) ∨
    ((∀ u, NotDir u → ¬ Has d (lexicalPlace H.ws (pathComponents path)) u) ∧
      ∀ old, ¬ Has s.disk (lexicalPlace H.ws (pathComponents path)) (.file (some old))) := by
  obtain ⟨u, hu, hw⟩ := write_stop hws hd h
  rcases hu with rfl | ⟨t, ht, rfl⟩ | ⟨old, t, ho, ht, rfl⟩ | ⟨rfl, hn⟩
  · exact .inl (leaf_sameAt hd hw.1 hw.at)
  · exact .inr (.inl ⟨t, ht, leaf_has hw.1 hw.at⟩)
  · exact .inr (.inr (.inl ⟨old, t, leaf_has hd ho, ht, leaf_has hw.1 hw.at⟩))
  · refine .inr (.inr (.inr ⟨fun u hu h => ?_, fun old h => hn old (has_leaf hd (file_notDir _) h)⟩))
    have := has_leaf hw.1 hu h
    rw [hw.at] at this
    cases this

/-- C132 for `replace_source`: as for `write_source`, with the text after the replacement; and the target is there. -/
theorem C132_replace_partial (H : Host) (hws : ∀ n ∈ H.ws, ValidName n) (order : Workspace → Workspace) (s : Server)
    (hd : WellFormed s.disk) (path old new : Str) (all force : Bool) (d : FsTree)
    (h : StopsAt s.disk (requestOps H order s (.replace path old new all force)) d) :
    SameAt s.disk d (lexicalPlace H.ws (pathComponents path)) ∨
    ∃ text t, Has s.disk (lexicalPlace H.ws (pathComponents path)) (.file (some text)) ∧
      Has d (lexicalPlace H.ws (pathComponents path)) (.file t) ∧
      (Begun text t ∨ ∃ text' k, replaceText text old new all = some (text', k) ∧ Begun text' t) := by
  rw [requestOps] at h
  cases hx : replaceExecute s.disk H.ws path old new all with
  | none => rw [hx] at h; rw [stopsAt_nil h]; exact .inl fun _ _ => Iff.rfl
  | some c =>
    obtain ⟨content, k⟩ := c
    rw [hx] at h
    obtain ⟨text, hr, ht⟩ : ∃ text, readSourceFile s.disk H.ws path = some text ∧
        replaceText text old new all = some (content, k) := by
      unfold replaceExecute at hx
      split at hx
      · cases hx
      · split at hx
        · cases hx
        · next heq => exact ⟨_, heq, hx⟩
    have hl := (readSourceFile_spec hr).1
    have hhas : Has s.disk (lexicalPlace H.ws (pathComponents path)) (.file (some text)) := (has_iff_lookup hd).2 hl
    obtain ⟨u, hu, hw⟩ := write_stop hws hd h
    rcases hu with rfl | ⟨t, hb, rfl⟩ | ⟨text', t, ho, hb, rfl⟩ | ⟨rfl, hn⟩
    · exact .inl (leaf_sameAt hd hw.1 hw.at)
    · exact .inr ⟨text, t, hhas, leaf_has hw.1 hw.at, .inr ⟨content, k, ht, hb⟩⟩
    · rw [has_leaf hd (file_notDir _) hhas] at ho
      cases ho
      exact .inr ⟨text, t, hhas, leaf_has hw.1 hw.at, .inl hb⟩
    · exact absurd (has_leaf hd (file_notDir _) hhas) (hn _)

/-- C132 for `delete_source`: the target is as it was, or gone, or holds a beginning of its old content. -/
theorem C132_delete_partial (H : Host) (hws : ∀ n ∈ H.ws, ValidName n) (order : Workspace → Workspace) (s : Server)
    (hd : WellFormed s.disk) (path : Str) (force : Bool) (d : FsTree)
    (h : StopsAt s.disk (requestOps H order s (.delete path force)) d) :
    SameAt s.disk d (lexicalPlace H.ws (pathComponents path)) ∨
    (∀ u, NotDir u → ¬ Has d (lexicalPlace H.ws (pathComponents path)) u) ∨
    ∃ old t, Has s.disk (lexicalPlace H.ws (pathComponents path)) (.file (some old)) ∧ Begun old t ∧
      Has d (lexicalPlace H.ws (pathComponents path)) (.file t) := by
  obtain ⟨u, hu, hw⟩ := delete_stop hws hd h
  rcases hu with rfl | rfl | ⟨old, t, ho, ht, rfl⟩
  · exact .inl (leaf_sameAt hd hw.1 hw.at)
  · refine .inr (.inl fun u hu h => ?_)
    have := has_leaf hw.1 hu h
    rw [hw.at] at this
    cases this
  · exact .inr (.inr ⟨old, t, leaf_has hd ho, ht, leaf_has hw.1 hw.at⟩)

/-- C132 for `add_entity`: what the target held stays, followed by a beginning of the text of the entity; where nothing was
there is nothing or a beginning of that text. -/
theorem C132_add (H : Host) (hws : ∀ n ∈ H.ws, ValidName n) (order : Workspace → Workspace) (s : Server)
    (hd : WellFormed s.disk) (p : AddParams) (d : FsTree)
    (h : StopsAt s.disk (requestOps H order s (.add p)) d) :
    SameAt s.disk d (lexicalPlace H.ws (pathComponents (p.toFile.getD (defaultTarget p.type)))) ∨
    ∃ e, entityToAdd H s.state p = some e ∧
      (((∀ u, NotDir u →
            ¬ Has s.disk (lexicalPlace H.ws (pathComponents (p.toFile.getD (defaultTarget p.type)))) u) ∧
          ∃ t, Begun (generateDsl H.lang .default [e]) t ∧
            Has d (lexicalPlace H.ws (pathComponents (p.toFile.getD (defaultTarget p.type)))) (.file t)) ∨
        ∃ old t gap,
          Has s.disk (lexicalPlace H.ws (pathComponents (p.toFile.getD (defaultTarget p.type)))) (.file (some old)) ∧
          (gap = [] ∨ gap = ['\n']) ∧ Begun (gap ++ generateDsl H.lang .default [e]) t ∧
          Has d (lexicalPlace H.ws (pathComponents (p.toFile.getD (defaultTarget p.type)))) (.file (t.map (old ++ ·)))) := by
  rw [requestOps] at h
  cases hx : entityToAdd H s.state p with
  | none => rw [hx] at h; rw [stopsAt_nil h]; exact .inl fun _ _ => Iff.rfl
  | some e =>
    rw [hx] at h
    dsimp only at h
    rw [placeOf_eq] at h
    obtain ⟨u, hu, hw⟩ := appendOps_stop hd (place_valid hws _) h
    rcases hu with rfl | ⟨ho, t, ht, rfl⟩ | ⟨old, t, ho, ht, rfl⟩
    · exact .inl (leaf_sameAt hd hw.1 hw.at)
    · refine .inr ⟨e, rfl, .inl ⟨fun u hu h => ?_, t, ht, leaf_has hw.1 hw.at⟩⟩
      have := has_leaf hd hu h
      rw [ho] at this
      cases this
    · refine .inr ⟨e, rfl, .inr ⟨old, t, appendPrefix old, leaf_has hd ho, ?_, ht, leaf_has hw.1 hw.at⟩⟩
      unfold appendPrefix
      split
      · exact .inl rfl
      · exact .inr rfl

/-! The calls are those of the requests as they are modelled elsewhere. -/

theorem run_writeOps (H : Host) (order : Workspace → Workspace) (s : Server) (path content : Str) (force : Bool) :
    runOps s.disk (writeOps H order s.disk path content force) = (writeSource H order s path content force).1.disk := by
  unfold writeOps writeSource validateAndWrite writeSourceFile rollbackWrite
  by_cases ha : H.accepts content = true
  · rw [if_pos ha, if_pos ha]
    by_cases he : endsWith path ".firm".toList = true
    · rw [if_pos he, if_pos he]
      cases hp : toAbsolutePath s.disk H.ws path with
      | none => rfl
      | some loc =>
        dsimp only
        cases hc : s.disk.createDirAll loc.dropLast with
        | none => simp [runOps, FsOp.run, hc]
        | some d1 =>
          dsimp only
          cases hw : d1.writeFile loc content with
          | none => simp [runOps, FsOp.run, hc, hw]
          | some d2 =>
            dsimp only
            cases hr : rebuild H order d2 with
            | ok st => simp [runOps, FsOp.run, hc, hw]
            | error err =>
              cases force with
              | true => simp [runOps, FsOp.run, hc, hw]
              | false =>
                cases ho : s.disk.readText (s.disk.placeOf H.ws path) with
                | none => simp [runOps, FsOp.run, hc, hw]
                | some o => simp [runOps, FsOp.run, hc, hw]
    · rw [if_neg he, if_neg he]; rfl
  · rw [if_neg ha, if_neg ha]; rfl

theorem run_deleteOps (H : Host) (order : Workspace → Workspace) (s : Server) (path : Str) (force : Bool) :
    runOps s.disk (deleteOps H order s.disk path force) = (deleteSource H order s path force).1.disk := by
  unfold deleteOps deleteSource deleteExecute rollbackDelete
  by_cases he : endsWith path ".firm".toList = true
  · rw [if_pos he, if_pos he]
    cases hp : toAbsolutePath s.disk H.ws path with
    | none => rfl
    | some loc =>
      dsimp only
      cases hr : s.disk.readText loc with
      | none => rfl
      | some original =>
        dsimp only
        cases hm : s.disk.removeFile loc with
        | none => simp [runOps, FsOp.run, hm]
        | some d1 =>
          dsimp only [Option.map_some]
          cases hb : rebuild H order d1 with
          | ok st => simp [runOps, FsOp.run, hm]
          | error err =>
            cases force with
            | true => simp [runOps, FsOp.run, hm]
            | false =>
              cases hc : d1.createDirAll (d1.placeOf H.ws path).dropLast with
              | none => simp [runOps, FsOp.run, hm, hc]
              | some d2 => simp [runOps, FsOp.run, hm, hc]
  · rw [if_neg he, if_neg he]; rfl

theorem run_appendOps (d : FsTree) (loc : List Str) (dsl : Str) :
    runOps d (appendOps d loc dsl) = (appendDsl d loc dsl).1 := by
  unfold appendOps appendDsl
  cases hc : d.createDirAll loc.dropLast with
  | none => simp [runOps, FsOp.run, hc]
  | some d1 =>
    dsimp only
    cases hl : d1.lookup loc with
    | none =>
      have hr : d1.readText loc = none := by unfold FsTree.readText; rw [hl]
      cases hw : d1.writeFile loc dsl with
      | none => simp [runOps, FsOp.run, hc, hr, hw]
      | some d2 => simp [runOps, FsOp.run, hc, hr, hw]
    | some v =>
      dsimp only
      cases hr : d1.readText loc with
      | none => simp [runOps, FsOp.run, hc]
      | some content =>
        cases hw : d1.writeFile loc (content ++ (appendPrefix content ++ dsl)) with
        | none => simp [runOps, FsOp.run, hc, hr, hw]
        | some d2 => simp [runOps, FsOp.run, hc, hr, hw]

/-- C132: the calls, done one after the other, give the disk of the uninterrupted request. -/
theorem C132_calls (H : Host) (order : Workspace → Workspace) (s : Server) (r : Request) :
    runOps s.disk (requestOps H order s r) = (s.handle H order r).1.disk := by
  cases r with
  | write path content force => exact run_writeOps H order s path content force
  | delete path force => exact run_deleteOps H order s path force
  | replace path old new all force =>
    rw [requestOps, Server.handle]
    unfold replaceSource
    cases hx : replaceExecute s.disk H.ws path old new all with
    | none => rfl
    | some c => exact run_writeOps H order s path c.1 force
  | add p =>
    rw [requestOps, Server.handle]
    unfold addEntityTool addExecute
    cases hx : entityToAdd H s.state p with
    | none => rfl
    | some e =>
      dsimp only
      rw [run_appendOps]
      cases ha : appendDsl s.disk (s.disk.placeOf H.ws (p.toFile.getD (defaultTarget p.type)))
        (generateDsl H.lang .default [e]) with
      | mk d ok =>
        cases ok with
        | false => rfl
        | true =>
          dsimp only
          cases rebuild H order d <;> rfl
  | build =>
    rw [requestOps, Server.handle]
    unfold buildTool
    cases rebuild H order s.disk <;> rfl

/-! ## Repeating the request -/

theorem mapInsert_twice {β : Type} (m : List (Str × β)) (k : Str) (a b : β) :
    mapInsert (mapInsert m k a) k b = mapInsert m k b := by
  induction m with
  | nil => simp [mapInsert]
  | cons p m ih =>
    obtain ⟨k', v'⟩ := p
    by_cases h : k' = k
    · simp [mapInsert, h]
    · simp [mapInsert, h, ih]

/-- Creating some of the directories first makes no difference. -/
theorem createDirAll_prefix {d d' : FsTree} {q p : List Str} (hq : q <+: p) (h : d.createDirAll q = some d') :
    d'.createDirAll p = d.createDirAll p := by
  induction q generalizing d d' p with
  | nil =>
    cases d with
    | dir e => simp only [FsTree.createDirAll, Option.some.injEq] at h; rw [h]
    | _ => simp [FsTree.createDirAll] at h
  | cons m q ih =>
    obtain ⟨r, rfl⟩ := hq
    cases d with
    | dir e =>
      cases e with
      | none => simp [FsTree.createDirAll] at h
      | some es =>
        simp only [FsTree.createDirAll, Option.map_eq_some_iff] at h
        obtain ⟨t, ht, rfl⟩ := h
        rw [List.cons_append]
        simp only [FsTree.createDirAll, mapGet_mapInsert, if_true, Option.getD_some, mapInsert_twice]
        rw [ih (List.prefix_append q r) ht]
    | _ => simp [FsTree.createDirAll] at h

/-- The directories of `loc` can be made and a file can be written there. -/
def Writable (d : FsTree) (p : List Str) (n : Str) : Prop :=
  ∃ d1, d.createDirAll p = some d1 ∧ ∀ text, ∃ d2, d1.writeFile (p ++ [n]) text = some d2

theorem writeFile_any {d d' : FsTree} {loc : List Str} {text : Str} (h : d.writeFile loc text = some d') (text' : Str) :
    ∃ d2, d.writeFile loc text' = some d2 := by
  unfold FsTree.writeFile at h ⊢
  split at h
  · exact ⟨_, rfl⟩
  · cases h
  · split at h
    · exact ⟨_, rfl⟩
    · cases h

theorem writable_of_parent {d : FsTree} {p : List Str} {n : Str} {es : List (Str × FsTree)}
    (h : d.lookup p = some (.dir (some es)))
    (h' : d.lookup (p ++ [n]) = none ∨ ∃ t, d.lookup (p ++ [n]) = some (.file t)) : Writable d p n := by
  refine ⟨d, createDirAll_existing h, fun text => ?_⟩
  unfold FsTree.writeFile
  rcases h' with h' | ⟨t, h'⟩
  · rw [h']
    simp only [List.dropLast_concat, h]
    exact ⟨_, rfl⟩
  · rw [h']; exact ⟨_, rfl⟩

/-- A call that makes directories on the way to `p ++ [n]`, or writes or removes what is there. -/
def OpToward (p : List Str) (n : Str) : FsOp → Prop
  | .mkdirs q => q <+: p
  | .write l _ => l = p ++ [n]
  | .append l _ => l = p ++ [n]
  | .remove l => l = p ++ [n]

theorem writable_place {d d' : FsTree} {p : List Str} {n text : Str} (h : d.writeFile (p ++ [n]) text = some d')
    (t : Option Str) : Writable (d.place (p ++ [n]) (.file t)) p n := by
  obtain ⟨es, h1, h2⟩ := writeFile_parent h
  obtain ⟨es', h3⟩ := (place_steady (text := t) h1 h2).2 p es h1
  exact writable_of_parent h3 (.inr ⟨t, lookup_place h1⟩)

theorem writable_run {p : List Str} {n : Str} {op : FsOp} (ho : OpToward p n op) {d : FsTree} (h : Writable d p n) :
    Writable ((op.run d).getD d) p n := by
  cases op with
  | mkdirs q =>
    cases hc : d.createDirAll q with
    | none => rw [FsOp.run, hc]; exact h
    | some d' =>
      rw [FsOp.run, hc]
      obtain ⟨d1, h1, h2⟩ := h
      exact ⟨d1, by rw [Option.getD_some, createDirAll_prefix ho hc]; exact h1, h2⟩
  | write l text =>
    have ho : l = p ++ [n] := ho
    subst ho
    cases hw : d.writeFile (p ++ [n]) text with
    | none => rw [FsOp.run, hw]; exact h
    | some d' => rw [FsOp.run, hw, Option.getD_some, (writeFile_spec hw).1]; exact writable_place hw _
  | append l text =>
    have ho : l = p ++ [n] := ho
    subst ho
    cases hw : d.writeFile (p ++ [n]) ((d.readText (p ++ [n])).getD [] ++ text) with
    | none => rw [FsOp.run, hw]; exact h
    | some d' => rw [FsOp.run, hw, Option.getD_some, (writeFile_spec hw).1]; exact writable_place hw _
  | remove l =>
    have ho : l = p ++ [n] := ho
    subst ho
    cases hw : d.removeFile (p ++ [n]) with
    | none => rw [FsOp.run, hw]; exact h
    | some d' =>
      rw [FsOp.run, hw, Option.getD_some, (removeFile_spec hw).1]
      have : ∃ u, d.lookup (p ++ [n]) = some u := by
        unfold FsTree.removeFile at hw
        cases hl : d.lookup (p ++ [n]) with
        | none => rw [hl] at hw; cases hw
        | some u => exact ⟨u, rfl⟩
      obtain ⟨u, hu⟩ := this
      obtain ⟨es, hp, _⟩ := lookup_snoc_some hu
      obtain ⟨es', h3, h4⟩ := lookup_remove_parent (n := n) hp
      exact writable_of_parent h3 (.inl (by rw [lookup_append, h3]; show FsTree.lookup _ [n] = _; rw [lookup_dir, h4]; rfl))

theorem writable_cut {p : List Str} {n : Str} {op : FsOp} (ho : OpToward p n op) {d : FsTree} (h : Writable d p n)
    (k : Nat) : Writable (op.cut d k) p n := by
  cases op with
  | mkdirs q =>
    rw [FsOp.cut]
    cases hc : d.createDirAll q with
    | none => exact h
    | some d' =>
      dsimp only
      cases hc' : d.createDirAll (q.take k) with
      | none => exact h
      | some d2 =>
        obtain ⟨d1, h1, h2⟩ := h
        exact ⟨d1, by
          rw [Option.getD_some, createDirAll_prefix ((List.take_prefix k q).trans ho) hc']; exact h1, h2⟩
  | write l text =>
    have ho : l = p ++ [n] := ho
    subst ho
    rw [FsOp.cut]
    cases hw : d.writeFile (p ++ [n]) text with
    | none => exact h
    | some d' => exact writable_place hw _
  | append l text =>
    have ho : l = p ++ [n] := ho
    subst ho
    rw [FsOp.cut]
    cases hw : d.writeFile (p ++ [n]) ((d.readText (p ++ [n])).getD [] ++ text) with
    | none => exact h
    | some d' => exact writable_place hw _
  | remove l => exact h

theorem writable_stops {p : List Str} {n : Str} {d d' : FsTree} {ops : List FsOp} (h : StopsAt d ops d')
    (ho : ∀ op ∈ ops, OpToward p n op) (hw : Writable d p n) : Writable d' p n := by
  induction h with
  | here d ops => exact hw
  | inside d op ops k => exact writable_cut (ho op List.mem_cons_self) hw k
  | later h ih =>
    exact ih (fun op hop => ho op (List.mem_cons_of_mem _ hop)) (writable_run (ho _ List.mem_cons_self) hw)

theorem writeOps_toward {H : Host} {order : Workspace → Workspace} {d : FsTree} {path content : Str} {force : Bool}
    {p : List Str} {n : Str} (hpn : placeFor H.ws path = p ++ [n]) :
    ∀ op ∈ writeOps H order d path content force, OpToward p n op := by
  unfold writeOps
  by_cases ha : H.accepts content = true
  · rw [if_pos ha]
    by_cases he : endsWith path ".firm".toList = true
    · rw [if_pos he]
      cases hp : toAbsolutePath d H.ws path with
      | none => intro op hop; cases hop
      | some loc =>
        have hloc := toAbsolutePath_eq hp
        rw [show lexicalPlace H.ws (pathComponents path) = p ++ [n] from hpn] at hloc
        subst hloc
        have hm : OpToward p n (.mkdirs (p ++ [n]).dropLast) := by
          rw [List.dropLast_concat]; exact List.prefix_refl p
        have hw : OpToward p n (.write (p ++ [n]) content) := rfl
        dsimp only
        cases hc : d.createDirAll (p ++ [n]).dropLast with
        | none => intro op hop; rw [List.mem_singleton.1 hop]; exact hm
        | some d1 =>
          dsimp only
          cases hwf : d1.writeFile (p ++ [n]) content with
          | none =>
            intro op hop
            rcases List.mem_pair.1 hop with rfl | rfl
            · exact hm
            · exact hw
          | some d2 =>
            intro op hop
            rcases List.mem_append.1 hop with hop | hop
            · rcases List.mem_pair.1 hop with rfl | rfl
              · exact hm
              · exact hw
            · cases hr : rebuild H order d2 with
              | ok st => rw [hr] at hop; cases hop
              | error err =>
                rw [hr] at hop
                cases force with
                | true => cases hop
                | false =>
                  rw [placeOf_eq, placeOf_eq] at hop
                  dsimp only at hop
                  rw [if_neg (by decide)] at hop
                  cases ho : d.readText (lexicalPlace H.ws (pathComponents path)) with
                  | some original => rw [ho] at hop; rw [List.mem_singleton.1 hop]; exact hpn
                  | none => rw [ho] at hop; rw [List.mem_singleton.1 hop]; exact hpn
    · rw [if_neg he]; intro op hop; cases hop
  · rw [if_neg ha]; intro op hop; cases hop

/-- A forced write that went through. -/
theorem forced_write {H : Host} {order : Workspace → Workspace} {s : Server} {path content : Str} :
    (writeSource H order s path content true).2 ≠ .error ↔
      ∃ d o, validateAndWrite H s.disk path content = (d, some o) := by
  unfold writeSource
  cases hv : validateAndWrite H s.disk path content with
  | mk d o =>
    cases o with
    | none => exact ⟨fun h => absurd rfl h, fun ⟨_, _, h⟩ => by cases h⟩
    | some o =>
      refine ⟨fun _ => ⟨d, o, rfl⟩, fun _ => ?_⟩
      dsimp only
      cases rebuild H order d with
      | ok st => exact Reply.noConfusion
      | error e => exact Reply.noConfusion

theorem forced_disk {H : Host} {order : Workspace → Workspace} {s : Server} {path content : Str} {d : FsTree}
    {o : Option Str} (h : validateAndWrite H s.disk path content = (d, some o)) :
    (writeSource H order s path content true).1.disk = d := by
  unfold writeSource
  rw [h]
  dsimp only
  cases rebuild H order d <;> rfl

/-- C132: a `write_source` that was stopped at any moment can be repeated: with `force` it is carried out and the files are
those of the request that is not stopped. For paths without two dots in a row that lead into the workspace. -/
theorem C132_retry (H : Host) (hws : ∀ n ∈ H.ws, ValidName n) (order : Workspace → Workspace) (s : Server)
    (hd : WellFormed s.disk) (path content : Str) (force : Bool) (d : FsTree) (st : ServerState)
    (h : StopsAt s.disk (requestOps H order s (.write path content force)) d)
    (hin : H.ws <+: lexicalPlace H.ws (pathComponents path)) (hdots : ¬ Occurs "..".toList path)
    (hok : (writeSource H order s path content true).2 ≠ .error) :
    (writeSource H order ⟨d, st⟩ path content true).2 ≠ .error ∧
    SameFiles (writeSource H order s path content true).1.disk
      (writeSource H order ⟨d, st⟩ path content true).1.disk := by
  obtain ⟨d', o, hv⟩ := forced_write.1 hok
  obtain ⟨u, _, hu⟩ := write_stop hws hd h
  obtain ⟨w1, _, w3⟩ := validateAndWrite_spec hd hws hv
  obtain ⟨a, _, _, a0, he⟩ := w3 _ rfl
  obtain ⟨p, n, hpn, _⟩ := firm_place (ws := H.ws) he
  have hacc : H.accepts content = true := by
    unfold validateAndWrite at hv
    by_cases ha : H.accepts content = true
    · exact ha
    · rw [if_neg ha] at hv; cases hv
  have hwr : Writable s.disk p n := by
    unfold validateAndWrite writeSourceFile at hv
    rw [if_pos hacc, if_pos he, a0] at hv
    dsimp only at hv
    rw [show placeFor H.ws path = p ++ [n] from hpn, List.dropLast_concat] at hv
    cases hc : s.disk.createDirAll p with
    | none => rw [hc] at hv; cases hv
    | some d1 =>
      rw [hc] at hv
      dsimp only at hv
      cases hw : d1.writeFile (p ++ [n]) content with
      | none => rw [hw] at hv; cases hv
      | some d2 => exact ⟨d1, hc, writeFile_any hw⟩
  obtain ⟨d1, h1, h2⟩ := writable_stops h (writeOps_toward hpn) hwr
  obtain ⟨d2, h2⟩ := h2 content
  have habs : toAbsolutePath d H.ws path = some (placeFor H.ws path) := by
    have hnew : newPath H.ws path = some (placeFor H.ws path) := by
      unfold newPath
      rw [if_neg (fun hc => hdots ((strContains_iff _ _).1 hc))]
    unfold toAbsolutePath
    cases hr : d.resolve H.ws (pathComponents path) with
    | none => exact hnew
    | some l =>
      have hl := resolve_lexical hr
      dsimp only
      cases hlk : d.lookup l with
      | none => exact hnew
      | some v =>
        dsimp only
        rw [hl, if_pos (List.isPrefixOf_iff_prefix.2 hin)]
  have hv' : ∃ o', validateAndWrite H d path content = (d2, some o') := by
    unfold validateAndWrite writeSourceFile
    rw [if_pos hacc, if_pos he, habs]
    dsimp only
    rw [show placeFor H.ws path = p ++ [n] from hpn, List.dropLast_concat, h1]
    dsimp only
    rw [h2]
    exact ⟨_, rfl⟩
  obtain ⟨o', hv'⟩ := hv'
  refine ⟨forced_write.2 ⟨d2, o', hv'⟩, ?_⟩
  rw [forced_disk hv, forced_disk (s := ⟨d, st⟩) hv']
  obtain ⟨x1, _, x3⟩ := validateAndWrite_spec hu.1 hws hv'
  obtain ⟨b, _⟩ := x3 _ rfl
  refine (sameFiles_iff w1 x1).2 fun l => ?_
  rw [b l, a l]
  split
  · rfl
  · next hl => rw [hu.2 l, if_neg hl]

/-! ## What can be lost -/

/-- The host of the examples with a grammar for which the empty text is an empty file. -/
def exEmptyHost : Host :=
  { exHost with grammar := fun text => if text = [] then .mk "source_file".toList [] [] else exGrammar text }

/-- The disk of the examples with `b.firm` emptied. -/
def exEmptied : FsTree := FsOp.cut exDisk 0 (.write ["w".toList, "b.firm".toList] "B".toList)

/-- C132 is false of `write_source`: a file that is written again with the very same content can be left empty, and the
workspace then still builds, without the entities of that file. -/
theorem C132_lost : ∃ d,
    StopsAt exServer.disk (requestOps exEmptyHost id exServer (.write "b.firm".toList "B".toList false)) d ∧
    d.readText ["w".toList, "b.firm".toList] = some [] ∧
    exServer.disk.readText ["w".toList, "b.firm".toList] = some "B".toList ∧
    (writeSource exEmptyHost id exServer "b.firm".toList "B".toList false).2 = .success ∧
    (match rebuild exEmptyHost id exServer.disk with
      | .ok st => some (st.build.entities.map (·.id))
      | .error _ => none) = some ["person.alice".toList, "person.bob".toList] ∧
    (match rebuild exEmptyHost id d with
      | .ok st => some (st.build.entities.map (·.id))
      | .error _ => none) = some ["person.alice".toList] := by
  refine ⟨exEmptied, ?_, by decide +kernel, by decide +kernel, by decide +kernel, by decide +kernel, by decide +kernel⟩
  exact .later (.inside _ _ _ 0)

/-- C132: even a request that is refused and undone loses the file when it is stopped while it is undone. -/
theorem C132_refused : ∃ d,
    StopsAt exServer.disk (requestOps exHost id exServer (.write "b.firm".toList "bad".toList false)) d ∧
    d.readText ["w".toList, "b.firm".toList] = some [] ∧
    (writeSource exHost id exServer "b.firm".toList "bad".toList false).2 = .error ∧
    (writeSource exHost id exServer "b.firm".toList "bad".toList false).1.disk.readText ["w".toList, "b.firm".toList] =
      some "B".toList := by
  refine ⟨FsOp.cut (runOps exDisk [.mkdirs ["w".toList], .write ["w".toList, "b.firm".toList] "bad".toList]) 0
    (.write ["w".toList, "b.firm".toList] "B".toList), ?_, by decide +kernel, by decide +kernel, by decide +kernel⟩
  exact .later (.later (.inside _ _ _ 0))

/-! Examples: the hypotheses are met. -/

example : requestOps exHost id exServer (.write "new/c.firm".toList "B".toList true) =
    [.mkdirs ["w".toList, "new".toList], .write ["w".toList, "new".toList, "c.firm".toList] "B".toList] := by decide +kernel

example : requestOps exHost id exServer (.delete "a.firm".toList false) =
    [.remove ["w".toList, "a.firm".toList], .mkdirs ["w".toList],
      .write ["w".toList, "a.firm".toList] "S".toList] := by decide +kernel

example : (match requestOps exHost id exServer (.add ⟨"person".toList, "carol".toList,
      [("name".toList, .string "Carol".toList)], some "b.firm".toList, []⟩) with
    | [.mkdirs a, .append b ('\n' :: text)] =>
      decide (a = ["w".toList] ∧ b = ["w".toList, "b.firm".toList] ∧ startsWith text "person carol {".toList = true)
    | _ => false) = true := by decide +kernel

example : (∀ n ∈ exHost.ws, ValidName n) ∧ WellFormed exServer.disk := ⟨exHost_ws, exDisk_wf⟩

/-- An entity cut off in the middle. -/
example : firstBytes 3 "ab€".toList = none ∧ firstBytes 5 "ab€d".toList = some "ab€".toList ∧
    firstBytes 9 "ab".toList = some "ab".toList := by decide

/-- The hypotheses of `C132_retry`. -/
example : exHost.ws <+: lexicalPlace exHost.ws (pathComponents "b.firm".toList) ∧ ¬ Occurs "..".toList "b.firm".toList ∧
    (writeSource exHost id exServer "b.firm".toList "B".toList true).2 ≠ .error := by
  refine ⟨by decide, ?_, by decide +kernel⟩
  rw [← strContains_iff]; decide

end Firm
