import Verif.Lemmas.Mcp
import Verif.Spec.Links

/-!
# Lemmas about paths on disks with symbolic links
-/

namespace Firm
open Spec

/-! ## Following paths -/

/-- What follows behind a link. -/
def LinkDisk.behind (D : LinkDisk) : Nat → List Str → List PathComp → Option (List Str × Nat)
  | 0 => fun _ _ => none
  | left + 1 => D.walk left

theorem walk_eq (D : LinkDisk) (k : Nat) : D.walk k = D.walkWith (D.behind k) k := by cases k <;> rfl

theorem walk_nil (D : LinkDisk) (k : Nat) (loc : List Str) : D.walk k loc [] = some (loc, k) := by
  rw [walk_eq]; rfl

theorem walk_root (D : LinkDisk) (k : Nat) (loc : List Str) (cs : List PathComp) :
    D.walk k loc (.rootDir :: cs) = D.walk k [] cs := by
  rw [walk_eq]; rfl

/-- One step of a path. -/
theorem walk_step (D : LinkDisk) (k : Nat) (loc : List Str) {c : PathComp} (hc : c ≠ .rootDir) (cs : List PathComp) :
    D.walk k loc (c :: cs) =
      match D.tree.lookup loc with
      | some (.dir _) =>
        match D.linkAt (stepFrom loc c) with
        | some text => D.behind k loc (pathComponents text ++ cs)
        | none => D.walk k (stepFrom loc c) cs
      | _ => none := by
  rw [walk_eq]
  cases c with
  | rootDir => exact absurd rfl hc
  | _ => rfl

/-- A step from a directory. -/
theorem walk_dir {D : LinkDisk} {k : Nat} {loc : List Str} {c : PathComp} (hc : c ≠ .rootDir) {cs : List PathComp}
    {e : Option (List (Str × FsTree))} (h : D.tree.lookup loc = some (.dir e)) :
    D.walk k loc (c :: cs) =
      match D.linkAt (stepFrom loc c) with
      | some text => D.behind k loc (pathComponents text ++ cs)
      | none => D.walk k (stepFrom loc c) cs := by
  rw [walk_step D k loc hc, h]

theorem walk_not_dir {D : LinkDisk} {k : Nat} {loc : List Str} {c : PathComp} (hc : c ≠ .rootDir) {cs : List PathComp}
    (h : ∀ e, D.tree.lookup loc ≠ some (.dir e)) : D.walk k loc (c :: cs) = none := by
  rw [walk_step D k loc hc]
  split
  · rename_i e he; exact absurd he (h e)
  · rfl

/-- Paths are followed one after the other. -/
theorem walk_append (D : LinkDisk) (k : Nat) (loc : List Str) (cs cs' : List PathComp) :
    D.walk k loc (cs ++ cs') = (D.walk k loc cs).bind fun r => D.walk r.2 r.1 cs' := by
  induction k generalizing loc cs with
  | zero =>
    induction cs generalizing loc with
    | nil => rw [List.nil_append, walk_nil]; rfl
    | cons c cs ih =>
      by_cases hc : c = .rootDir
      · subst hc; rw [List.cons_append, walk_root, walk_root, ih]
      · by_cases hd : ∃ e, D.tree.lookup loc = some (.dir e)
        · obtain ⟨e, he⟩ := hd
          rw [List.cons_append, walk_dir hc he, walk_dir hc he]
          cases D.linkAt (stepFrom loc c) with
          | none => exact ih _
          | some t => rfl
        · have hd' : ∀ e, D.tree.lookup loc ≠ some (.dir e) := fun e he => hd ⟨e, he⟩
          rw [List.cons_append, walk_not_dir hc hd', walk_not_dir hc hd']; rfl
  | succ k ihk =>
    induction cs generalizing loc with
    | nil => rw [List.nil_append, walk_nil]; rfl
    | cons c cs ih =>
      by_cases hc : c = .rootDir
      · subst hc; rw [List.cons_append, walk_root, walk_root, ih]
      · by_cases hd : ∃ e, D.tree.lookup loc = some (.dir e)
        · obtain ⟨e, he⟩ := hd
          rw [List.cons_append, walk_dir hc he, walk_dir hc he]
          cases D.linkAt (stepFrom loc c) with
          | none => exact ih _
          | some t =>
            change D.walk k loc (pathComponents t ++ (cs ++ cs')) = _
            rw [← List.append_assoc, ihk]
            rfl
        · have hd' : ∀ e, D.tree.lookup loc ≠ some (.dir e) := fun e he => hd ⟨e, he⟩
          rw [List.cons_append, walk_not_dir hc hd', walk_not_dir hc hd']; rfl

/-- Induction along a followed path. -/
theorem walk_induct {D : LinkDisk} {P : Nat → List Str → List PathComp → List Str → Nat → Prop}
    (nil : ∀ k loc, P k loc [] loc k)
    (root : ∀ k loc cs l k', P k [] cs l k' → P k loc (.rootDir :: cs) l k')
    (step : ∀ k loc c cs l k' e, c ≠ .rootDir → D.tree.lookup loc = some (.dir e) → D.linkAt (stepFrom loc c) = none →
      P k (stepFrom loc c) cs l k' → P k loc (c :: cs) l k')
    (link : ∀ k loc c cs l k' e t, c ≠ .rootDir → D.tree.lookup loc = some (.dir e) → D.linkAt (stepFrom loc c) = some t →
      P k loc (pathComponents t ++ cs) l k' → P (k + 1) loc (c :: cs) l k')
    {k : Nat} {loc : List Str} {cs : List PathComp} {l : List Str} {k' : Nat} (h : D.walk k loc cs = some (l, k')) :
    P k loc cs l k' := by
  induction k generalizing loc cs with
  | zero =>
    induction cs generalizing loc with
    | nil => rw [walk_nil] at h; cases h; exact nil _ _
    | cons c cs ih =>
      by_cases hc : c = .rootDir
      · subst hc; rw [walk_root] at h; exact root _ _ _ _ _ (ih h)
      · by_cases hd : ∃ e, D.tree.lookup loc = some (.dir e)
        · obtain ⟨e, he⟩ := hd
          rw [walk_dir hc he] at h
          cases ht : D.linkAt (stepFrom loc c) with
          | none => rw [ht] at h; exact step _ _ _ _ _ _ e hc he ht (ih h)
          | some t => rw [ht] at h; cases h
        · rw [walk_not_dir hc fun e he => hd ⟨e, he⟩] at h; cases h
  | succ k ihk =>
    induction cs generalizing loc with
    | nil => rw [walk_nil] at h; cases h; exact nil _ _
    | cons c cs ih =>
      by_cases hc : c = .rootDir
      · subst hc; rw [walk_root] at h; exact root _ _ _ _ _ (ih h)
      · by_cases hd : ∃ e, D.tree.lookup loc = some (.dir e)
        · obtain ⟨e, he⟩ := hd
          rw [walk_dir hc he] at h
          cases ht : D.linkAt (stepFrom loc c) with
          | none => rw [ht] at h; exact step _ _ _ _ _ _ e hc he ht (ih h)
          | some t => rw [ht] at h; exact link _ _ _ _ _ _ e t hc he ht (ihk h)
        · rw [walk_not_dir hc fun e he => hd ⟨e, he⟩] at h; cases h

theorem linkAt_of_lookup {D : LinkDisk} {loc : List Str} (h : D.tree.lookup loc ≠ some .other) : D.linkAt loc = none := by
  unfold LinkDisk.linkAt
  split
  · rename_i ho; exact absurd ho h
  · rfl

/-- No path ends at a link. -/
theorem walk_end {D : LinkDisk} {k : Nat} {loc : List Str} {cs : List PathComp} {l : List Str} {k' : Nat}
    (h : D.walk k loc cs = some (l, k')) (hr : D.linkAt [] = none) (h0 : D.linkAt loc = none) : D.linkAt l = none :=
  walk_induct (P := fun _ loc _ l _ => D.linkAt loc = none → D.linkAt l = none)
    (fun _ _ h => h) (fun _ _ _ _ _ ih _ => ih hr) (fun _ _ _ _ _ _ _ _ _ hn ih _ => ih hn)
    (fun _ _ _ _ _ _ _ _ _ _ _ ih h => ih h) h h0

theorem walk_left {D : LinkDisk} {k : Nat} {loc : List Str} {cs : List PathComp} {l : List Str} {k' : Nat}
    (h : D.walk k loc cs = some (l, k')) : k' ≤ k :=
  walk_induct (P := fun k _ _ _ k' => k' ≤ k) (fun _ _ => Nat.le_refl _) (fun _ _ _ _ _ ih => ih)
    (fun _ _ _ _ _ _ _ _ _ _ ih => ih) (fun _ _ _ _ _ _ _ _ _ _ _ ih => by omega) h

/-- Paths lead to valid names. -/
theorem walk_valid {D : LinkDisk} {k : Nat} {loc : List Str} {cs : List PathComp} {l : List Str} {k' : Nat}
    (h : D.walk k loc cs = some (l, k')) (hl : ∀ n ∈ loc, ValidName n)
    (hc : ∀ n, PathComp.normal n ∈ cs → ValidName n) : ∀ n ∈ l, ValidName n := by
  refine walk_induct (P := fun _ loc cs l _ => (∀ n ∈ loc, ValidName n) → (∀ n, PathComp.normal n ∈ cs → ValidName n) →
    ∀ n ∈ l, ValidName n) (fun _ _ h _ => h) ?_ ?_ ?_ h hl hc
  · exact fun _ _ _ _ _ ih _ hc => ih (by simp) fun n hn => hc n (List.mem_cons_of_mem _ hn)
  · intro _ loc c cs _ _ _ _ _ _ ih hl hc
    refine ih ?_ fun n hn => hc n (List.mem_cons_of_mem _ hn)
    intro n hn
    cases c with
    | rootDir => cases hn
    | curDir => exact hl n hn
    | parentDir => exact hl n (List.dropLast_subset _ hn)
    | normal m =>
      rcases List.mem_append.1 hn with hn | hn
      · exact hl n hn
      · rw [List.mem_singleton.1 hn]; exact hc m List.mem_cons_self
  · intro _ loc c cs _ _ _ t _ _ _ ih hl hc
    refine ih hl fun n hn => ?_
    rcases List.mem_append.1 hn with hn | hn
    · exact pathComponents_valid hn
    · exact hc n (List.mem_cons_of_mem _ hn)

/-- The path of a place leads there, when nothing on the way is a link. -/
theorem walk_normals {D : LinkDisk} {u : FsTree} {loc ns : List Str} (h : D.tree.lookup (loc ++ ns) = some u)
    (hn : D.linkAt (loc ++ ns) = none) (k : Nat) : D.walk k loc (ns.map .normal) = some (loc ++ ns, k) := by
  induction ns generalizing loc with
  | nil => rw [List.map_nil, walk_nil, List.append_nil]
  | cons n ns ih =>
    obtain ⟨v, hv⟩ : ∃ v, D.tree.lookup (loc ++ [n]) = some v := by
      rw [show loc ++ n :: ns = (loc ++ [n]) ++ ns by simp, lookup_append] at h
      cases hl : D.tree.lookup (loc ++ [n]) with
      | none => rw [hl] at h; cases h
      | some v => exact ⟨v, rfl⟩
    obtain ⟨es, hd⟩ : ∃ es, D.tree.lookup loc = some (.dir (some es)) := by
      rw [lookup_append] at h
      cases hl : D.tree.lookup loc with
      | none => rw [hl] at h; cases h
      | some v =>
        rw [hl] at h
        obtain ⟨es, _, rfl, _⟩ := lookup_cons_some h
        exact ⟨es, rfl⟩
    have hlink : D.linkAt (loc ++ [n]) = none := by
      cases ns with
      | nil => exact hn
      | cons m ns =>
        refine linkAt_of_lookup fun ho => ?_
        rw [show loc ++ n :: m :: ns = (loc ++ [n]) ++ m :: ns by simp, lookup_append, ho] at h
        cases h
    rw [List.map_cons, walk_dir (by simp) hd]
    change (match D.linkAt (loc ++ [n]) with | some t => _ | none => D.walk k (loc ++ [n]) (ns.map .normal)) = _
    rw [hlink]
    dsimp only
    rw [ih (by simpa using h) (by simpa using hn)]
    simp

/-- On a disk without links. -/
theorem walk_plain {D : LinkDisk} (h : ∀ l, D.linkAt l = none) (k : Nat) (loc : List Str) (cs : List PathComp) :
    D.walk k loc cs = (D.tree.resolve loc cs).map fun l => (l, k) := by
  induction cs generalizing loc with
  | nil => rw [walk_nil]; rfl
  | cons c cs ih =>
    by_cases hc : c = .rootDir
    · subst hc; rw [walk_root, ih]; rfl
    · have hr : D.tree.resolve loc (c :: cs) = match D.tree.lookup loc with
          | some (.dir _) => D.tree.resolve (stepFrom loc c) cs
          | _ => none := by
        cases c with
        | rootDir => exact absurd rfl hc
        | _ => rfl
      rw [hr, walk_step D k loc hc]
      cases hl : D.tree.lookup loc with
      | none => rfl
      | some u =>
        cases u with
        | dir e => dsimp only; rw [h, ih]
        | _ => rfl

/-- Only directories and links matter for where paths lead. -/
theorem walk_congr {D D' : LinkDisk} (hd : ∀ l, (∃ e, D.tree.lookup l = some (.dir e)) ↔ ∃ e, D'.tree.lookup l = some (.dir e))
    (hl : ∀ l, D.linkAt l = D'.linkAt l) (k : Nat) (loc : List Str) (cs : List PathComp) :
    D.walk k loc cs = D'.walk k loc cs := by
  induction k generalizing loc cs with
  | zero =>
    induction cs generalizing loc with
    | nil => rw [walk_nil, walk_nil]
    | cons c cs ih =>
      by_cases hc : c = .rootDir
      · subst hc; rw [walk_root, walk_root, ih]
      · by_cases h : ∃ e, D.tree.lookup loc = some (.dir e)
        · obtain ⟨e, he⟩ := h
          obtain ⟨e', he'⟩ := (hd loc).1 ⟨e, he⟩
          rw [walk_dir hc he, walk_dir hc he', hl]
          cases D'.linkAt (stepFrom loc c) with
          | none => exact ih _
          | some t => rfl
        · have h' : ¬ ∃ e, D'.tree.lookup loc = some (.dir e) := fun hh => h ((hd loc).2 hh)
          rw [walk_not_dir hc fun e he => h ⟨e, he⟩, walk_not_dir hc fun e he => h' ⟨e, he⟩]
  | succ k ihk =>
    induction cs generalizing loc with
    | nil => rw [walk_nil, walk_nil]
    | cons c cs ih =>
      by_cases hc : c = .rootDir
      · subst hc; rw [walk_root, walk_root, ih]
      · by_cases h : ∃ e, D.tree.lookup loc = some (.dir e)
        · obtain ⟨e, he⟩ := h
          obtain ⟨e', he'⟩ := (hd loc).1 ⟨e, he⟩
          rw [walk_dir hc he, walk_dir hc he', hl]
          cases D'.linkAt (stepFrom loc c) with
          | none => exact ih _
          | some t => exact ihk _ _
        · have h' : ¬ ∃ e, D'.tree.lookup loc = some (.dir e) := fun hh => h ((hd loc).2 hh)
          rw [walk_not_dir hc fun e he => h ⟨e, he⟩, walk_not_dir hc fun e he => h' ⟨e, he⟩]

/-! ## Directories after files were written and removed -/

/-- There is a readable directory at a place. -/
def FolderAt (d : FsTree) (l : List Str) : Prop := ∃ es, d.lookup l = some (.dir (some es))

theorem folder_nil (es : List (Str × FsTree)) : FolderAt (.dir (some es)) [] := ⟨es, lookup_nil _⟩

theorem folder_cons (es : List (Str × FsTree)) (n : Str) (l : List Str) :
    FolderAt (.dir (some es)) (n :: l) ↔ ∃ c, mapGet es n = some c ∧ FolderAt c l := by
  unfold FolderAt
  rw [lookup_dir]
  cases mapGet es n with
  | none => simp
  | some c => simp

theorem folder_leaf {u : FsTree} (h : NotDir u) (l : List Str) : ¬ FolderAt u l := by
  rintro ⟨es, he⟩
  cases l with
  | nil => rw [lookup_nil] at he; cases he; exact h es rfl
  | cons n l => obtain ⟨fs, _, rfl, _⟩ := lookup_cons_some he; exact h fs rfl

theorem folder_place {d : FsTree} {text : Option Str} {p : List Str} {n : Str} {es : List (Str × FsTree)}
    (h : d.lookup p = some (.dir (some es))) (hd : ∀ fs, d.lookup (p ++ [n]) ≠ some (.dir (some fs)))
    (l : List Str) : FolderAt (d.place (p ++ [n]) (.file text)) l ↔ FolderAt d l := by
  induction p generalizing d l with
  | nil =>
    rw [lookup_nil] at h; cases h
    rw [List.nil_append, FsTree.place, show ∀ t : FsTree, t.place [] (.file text) = .file text from
      fun t => by cases t <;> simp [FsTree.place]]
    cases l with
    | nil => exact ⟨fun _ => folder_nil _, fun _ => folder_nil _⟩
    | cons m l =>
      rw [folder_cons, folder_cons, mapGet_mapInsert]
      by_cases hm : m = n
      · subst hm
        rw [if_pos rfl]
        constructor
        · rintro ⟨c, hc, hf⟩
          cases hc
          exact absurd hf (folder_leaf (fun es h => by cases h) l)
        · rintro ⟨c, hc, hf⟩
          refine absurd hf (folder_leaf (fun fs h => hd fs ?_) l)
          rw [List.nil_append, lookup_dir, hc, h]
          exact lookup_nil _
      · rw [if_neg (Ne.symm hm)]
  | cons m p ih =>
    obtain ⟨fs, c, rfl, hg, hc⟩ := lookup_cons_some h
    rw [List.cons_append, FsTree.place, hg, Option.getD_some]
    have hd' : ∀ fs, c.lookup (p ++ [n]) ≠ some (.dir (some fs)) := by
      intro gs hgs
      refine hd gs ?_
      rw [List.cons_append, lookup_dir, hg]
      exact hgs
    cases l with
    | nil => exact ⟨fun _ => folder_nil _, fun _ => folder_nil _⟩
    | cons k l =>
      rw [folder_cons, folder_cons, mapGet_mapInsert]
      by_cases hk : k = m
      · subst hk
        rw [if_pos rfl, hg]
        simp only [Option.some.injEq, exists_eq_left']
        exact ih hc hd' l
      · rw [if_neg (Ne.symm hk)]

theorem folder_remove {d u : FsTree} {p : List Str} {n : Str} (h : d.lookup (p ++ [n]) = some u)
    (hu : NotDir u) (l : List Str) : FolderAt (d.remove (p ++ [n])) l ↔ FolderAt d l := by
  induction p generalizing d l with
  | nil =>
    obtain ⟨es, c, rfl, hg, hc⟩ := lookup_cons_some h
    rw [lookup_nil] at hc; cases hc
    rw [List.nil_append, FsTree.remove]
    cases l with
    | nil => exact ⟨fun _ => folder_nil _, fun _ => folder_nil _⟩
    | cons k l =>
      rw [folder_cons, folder_cons, mapGet_filter]
      by_cases hk : k = n
      · subst hk
        rw [if_pos rfl, hg]
        constructor
        · rintro ⟨c, hc, -⟩; cases hc
        · rintro ⟨c, hc, hf⟩; cases hc; exact absurd hf (folder_leaf hu l)
      · rw [if_neg hk]
  | cons m p ih =>
    obtain ⟨fs, c, rfl, hg, hc⟩ := lookup_cons_some h
    have hrem : (FsTree.dir (some fs)).remove (m :: p ++ [n]) =
        .dir (some (mapInsert fs m (c.remove (p ++ [n])))) := by
      cases p with
      | nil => show FsTree.remove _ [m, n] = _; rw [FsTree.remove, hg]; rfl
      | cons q p => show FsTree.remove _ (m :: q :: (p ++ [n])) = _; rw [FsTree.remove, hg]; rfl
    rw [hrem]
    cases l with
    | nil => exact ⟨fun _ => folder_nil _, fun _ => folder_nil _⟩
    | cons k l =>
      rw [folder_cons, folder_cons, mapGet_mapInsert]
      by_cases hk : k = m
      · subst hk
        rw [if_pos rfl, hg]
        simp only [Option.some.injEq, exists_eq_left']
        exact ih hc l
      · rw [if_neg (Ne.symm hk)]

theorem dir_iff {d : FsTree} {l : List Str} : (∃ e, d.lookup l = some (.dir e)) ↔
    FolderAt d l ∨ leafAt d l = some (.dir none) := by
  constructor
  · rintro ⟨e, he⟩
    cases e with
    | none => exact .inr (leafAt_eq_some.2 ⟨he, fun es h => by cases h⟩)
    | some es => exact .inl ⟨es, he⟩
  · rintro (⟨es, he⟩ | he)
    · exact ⟨_, he⟩
    · exact ⟨_, (leafAt_eq_some.1 he).1⟩

theorem other_iff {d : FsTree} {l : List Str} : d.lookup l = some .other ↔ leafAt d l = some .other :=
  ⟨fun h => leafAt_eq_some.2 ⟨h, fun es h => by cases h⟩, fun h => (leafAt_eq_some.1 h).1⟩

/-- The disk `D'` differs from `D` only in what is at one place, which is neither a directory nor a link in
either of them. -/
structure Differ (D D' : LinkDisk) (loc : List Str) (u : Option FsTree) : Prop where
  leaves : LeafSet D.tree D'.tree loc u
  folders : ∀ l, FolderAt D'.tree l ↔ FolderAt D.tree l
  links : ∀ l, D'.linkAt l = D.linkAt l
  limit : D'.limit = D.limit
  new : ∀ e, u ≠ some (.dir e)
  old : ∀ e, leafAt D.tree loc ≠ some (.dir e)

theorem Differ.dirs {D D' : LinkDisk} {loc : List Str} {u : Option FsTree} (h : Differ D D' loc u) (l : List Str) :
    (∃ e, D.tree.lookup l = some (.dir e)) ↔ ∃ e, D'.tree.lookup l = some (.dir e) := by
  rw [dir_iff, dir_iff, h.folders, h.leaves]
  by_cases hl : l = loc
  · subst hl
    rw [if_pos rfl]
    have h1 := h.new none
    have h2 := h.old none
    simp [h1, h2]
  · rw [if_neg hl]

theorem Differ.walk {D D' : LinkDisk} {loc : List Str} {u : Option FsTree} (h : Differ D D' loc u) (k : Nat)
    (l : List Str) (cs : List PathComp) : D'.walk k l cs = D.walk k l cs :=
  (walk_congr h.dirs (fun l => (h.links l).symm) k l cs).symm

theorem Differ.find {D D' : LinkDisk} {loc : List Str} {u : Option FsTree} (h : Differ D D' loc u)
    (cs : List PathComp) : D'.find cs = D.find cs := by
  unfold LinkDisk.find
  rw [h.limit, h.walk]

theorem Differ.again {D D' D'' : LinkDisk} {loc : List Str} {u v : Option FsTree} (h : Differ D D' loc u)
    (h' : Differ D' D'' loc v) : Differ D D'' loc v where
  leaves l := by
    rw [h'.leaves, h.leaves]
    by_cases hl : l = loc
    · rw [if_pos hl, if_pos hl]
    · rw [if_neg hl, if_neg hl, if_neg hl]
  folders l := (h'.folders l).trans (h.folders l)
  links l := (h'.links l).trans (h.links l)
  limit := h'.limit.trans h.limit
  new := h'.new
  old := h.old

theorem Differ.restored {D D' : LinkDisk} {loc : List Str} {u : Option FsTree} (h : Differ D D' loc u)
    (hu : leafAt D.tree loc = u) (l : List Str) : leafAt D'.tree l = leafAt D.tree l := by
  rw [h.leaves]
  by_cases hl : l = loc
  · subst hl; rw [if_pos rfl, hu]
  · rw [if_neg hl]

open Classical in
theorem linkAt_eq (D : LinkDisk) (l : List Str) : D.linkAt l =
    if leafAt D.tree l = some .other then (D.links.find? fun p => decide (p.1 = l)).map (·.2) else none := by
  unfold LinkDisk.linkAt
  by_cases h : D.tree.lookup l = some .other
  · rw [if_pos (other_iff.1 h), h]
  · rw [if_neg fun hh => h (other_iff.2 hh)]
    split
    · rename_i ho; exact absurd ho h
    · rfl

open Classical in
/-- A file was written. -/
theorem write_differ {D : LinkDisk} {t : FsTree} {loc : List Str} {text : Str} (hr : FolderAt D.tree [])
    (h : D.tree.writeFile loc text = some t) :
    Differ D { D with tree := t } loc (some (.file (some text))) ∧
    ((∀ n ∈ loc, ValidName n) → WellFormed D.tree → WellFormed t) := by
  rcases List.eq_nil_or_concat loc with rfl | ⟨p, n, rfl⟩
  · exfalso
    unfold FsTree.writeFile at h
    obtain ⟨es, he⟩ := hr
    rw [he] at h
    cases h
  · rw [List.concat_eq_append] at *
    obtain ⟨h1, h2, h3, h4⟩ := writeFile_spec h
    have hfold : ∀ l, FolderAt t l ↔ FolderAt D.tree l := by
      intro l
      subst h1
      have hpar : ∃ es, D.tree.lookup p = some (.dir (some es)) := by
        rcases h4 with h4 | ⟨x, h4⟩
        · unfold FsTree.writeFile at h
          rw [h4, List.dropLast_concat] at h
          dsimp only at h
          split at h
          · next es he => exact ⟨es, he⟩
          · cases h
        · obtain ⟨es, he, _⟩ := lookup_snoc_some h4
          exact ⟨es, he⟩
      obtain ⟨es, hes⟩ := hpar
      refine folder_place hes (fun fs hf => ?_) l
      rcases h4 with h4 | ⟨x, h4⟩ <;> · rw [h4] at hf; cases hf
    have hold : ∀ u, leafAt D.tree (p ++ [n]) = some u → ∃ x, u = .file x := by
      intro u hu
      have := (leafAt_eq_some.1 hu).1
      rcases h4 with h4 | ⟨x, h4⟩
      · rw [h4] at this; cases this
      · rw [h4] at this; cases this; exact ⟨x, rfl⟩
    refine ⟨⟨h3, hfold, fun l => ?_, rfl, (fun e h => by cases h), fun e h => ?_⟩, fun hv hd => ?_⟩
    · rw [linkAt_eq, linkAt_eq]
      change (if leafAt t l = _ then _ else _) = _
      rw [h3 l]
      by_cases hll : l = p ++ [n]
      · subst hll
        rw [if_pos rfl, if_neg (by simp), if_neg fun h => by obtain ⟨x, hx⟩ := hold _ h; cases hx]
      · rw [if_neg hll]
    · obtain ⟨x, hx⟩ := hold _ h; cases hx
    · rw [h1]; exact wf_place hd (.file _) hv

open Classical in
/-- A file was removed. -/
theorem remove_differ {D : LinkDisk} {t : FsTree} {p : List Str} {n : Str} {x : Option Str}
    (hf : D.tree.lookup (p ++ [n]) = some (.file x)) (h : D.tree.removeFile (p ++ [n]) = some t) :
    Differ D { D with tree := t, links := D.links.filter fun q => decide (q.1 ≠ p ++ [n]) } (p ++ [n]) none ∧
    (WellFormed D.tree → WellFormed t) := by
  obtain ⟨h1, h2⟩ := removeFile_spec h
  have hnd : NotDir (.file x) := fun es h => by cases h
  have hleaf : leafAt D.tree (p ++ [n]) = some (.file x) := leafAt_eq_some.2 ⟨hf, hnd⟩
  refine ⟨⟨h2, fun l => ?_, fun l => ?_, rfl, (fun e h => by cases h), fun e h => ?_⟩, fun hd => ?_⟩
  · change FolderAt t l ↔ _
    rw [h1]; exact folder_remove hf hnd l
  · rw [linkAt_eq, linkAt_eq]
    change (if leafAt t l = _ then _ else _) = _
    rw [h2 l]
    by_cases hll : l = p ++ [n]
    · subst hll
      rw [if_pos rfl, if_neg (by simp), if_neg (by rw [hleaf]; simp)]
    · rw [if_neg hll]
      congr 2
      change List.find? _ (D.links.filter _) = _
      rw [List.find?_filter]
      congr 1
      funext q
      by_cases hq : q.1 = l
      · simp [hq, hll]
      · simp [hq]
  · rw [hleaf] at h; cases h
  · rw [h1]; exact wf_remove hd

/-! ## Links and where paths lead, as specified -/

theorem Spec.Sound.folder {D : LinkDisk} (h : Sound D) : FolderAt D.tree [] := by
  obtain ⟨es, he⟩ := h.root
  rw [he]; exact folder_nil es

theorem Spec.Sound.rootLink {D : LinkDisk} (h : Sound D) : D.linkAt [] = none := by
  obtain ⟨es, he⟩ := h.folder
  exact linkAt_of_lookup (by rw [he]; simp)

theorem find_pair {m : List (List Str × Str)} (hn : (m.map (·.1)).Nodup) {loc : List Str} {text : Str} :
    (m.find? fun p => decide (p.1 = loc)).map (·.2) = some text ↔ (loc, text) ∈ m := by
  induction m with
  | nil => simp
  | cons p m ih =>
    rw [List.map_cons, List.nodup_cons] at hn
    rw [List.find?_cons]
    by_cases hp : p.1 = loc
    · subst hp
      rw [decide_eq_true rfl]
      simp only [Option.map_some, Option.some.injEq, List.mem_cons]
      constructor
      · rintro rfl; exact .inl rfl
      · rintro (h | h)
        · rw [← h]
        · exact absurd (List.mem_map.2 ⟨_, h, rfl⟩) hn.1
    · rw [decide_eq_false hp]
      simp only [List.mem_cons]
      rw [ih hn.2]
      constructor
      · exact .inr
      · rintro (rfl | h)
        · exact absurd rfl hp
        · exact h

theorem linkAt_iff {D : LinkDisk} (h : Sound D) {loc : List Str} {text : Str} :
    D.linkAt loc = some text ↔ IsLink D loc text := by
  unfold IsLink
  rw [has_iff_lookup h.tree, ← find_pair h.links]
  unfold LinkDisk.linkAt
  split
  · next ho => simp [ho]
  · next hn => simpa using fun ho _ _ => absurd ho hn

theorem linkAt_none {D : LinkDisk} (h : Sound D) {loc : List Str} :
    D.linkAt loc = none ↔ ∀ text, ¬ IsLink D loc text := by
  constructor
  · intro hn t ht
    rw [← linkAt_iff h, hn] at ht
    cases ht
  · intro hn
    cases hl : D.linkAt loc with
    | none => rfl
    | some t => exact absurd ((linkAt_iff h).1 hl) (hn t)

/-- Nothing but names of entries are links. -/
theorem linkAt_dirs {D : LinkDisk} {loc : List Str} {e : Option (List (Str × FsTree))} (hr : FolderAt D.tree [])
    (h : D.tree.lookup loc = some (.dir e)) : D.linkAt loc = none ∧ D.linkAt loc.dropLast = none := by
  refine ⟨linkAt_of_lookup (by rw [h]; simp), linkAt_of_lookup ?_⟩
  rcases List.eq_nil_or_concat loc with rfl | ⟨p, n, rfl⟩
  · obtain ⟨es, he⟩ := hr
    rw [List.dropLast_nil, he]; simp
  · rw [List.concat_eq_append] at h ⊢
    rw [List.dropLast_concat]
    obtain ⟨es, he, _⟩ := lookup_snoc_some h
    rw [he]; simp

theorem walk_leads {D : LinkDisk} (hs : Sound D) {k : Nat} {loc : List Str} {cs : List PathComp} {l : List Str} {k' : Nat}
    (h : D.walk k loc cs = some (l, k')) : ∃ n, k = k' + n ∧ Leads D loc cs l n := by
  refine walk_induct (P := fun k loc cs l k' => ∃ n, k = k' + n ∧ Leads D loc cs l n) ?_ ?_ ?_ ?_ h
  · exact fun k loc => ⟨0, rfl, .done _⟩
  · rintro k loc cs l k' ⟨n, h1, h2⟩
    exact ⟨n, h1, .root h2⟩
  · rintro k loc c cs l k' e hc he hl ⟨n, h1, h2⟩
    have he' := (has_iff_lookup hs.tree).2 he
    refine ⟨n, h1, ?_⟩
    cases c with
    | rootDir => exact absurd rfl hc
    | curDir => exact .here he' h2
    | parentDir => exact .up he' h2
    | normal m => exact .down he' ((linkAt_none hs).1 hl) h2
  · rintro k loc c cs l k' e t hc he hl ⟨n, h1, h2⟩
    have he' := (has_iff_lookup hs.tree).2 he
    obtain ⟨h3, h4⟩ := linkAt_dirs hs.folder he
    refine ⟨n + 1, by omega, ?_⟩
    cases c with
    | rootDir => exact absurd rfl hc
    | curDir => rw [show stepFrom loc .curDir = loc from rfl, h3] at hl; cases hl
    | parentDir => rw [show stepFrom loc .parentDir = loc.dropLast from rfl, h4] at hl; cases hl
    | normal m => exact .link he' ((linkAt_iff hs).1 hl) h2

theorem leads_walk {D : LinkDisk} (hs : Sound D) {loc : List Str} {cs : List PathComp} {l : List Str} {n : Nat}
    (h : Leads D loc cs l n) (k' : Nat) : D.walk (k' + n) loc cs = some (l, k') := by
  induction h with
  | done loc => exact walk_nil _ _ _
  | root _ ih => rw [walk_root]; exact ih
  | here he _ ih =>
    have he' := (has_iff_lookup hs.tree).1 he
    rw [walk_dir (by simp) he']
    change (match D.linkAt _ with | some text => _ | none => _) = _
    rw [show D.linkAt (stepFrom _ PathComp.curDir) = none from (linkAt_dirs hs.folder he').1]
    exact ih
  | up he _ ih =>
    have he' := (has_iff_lookup hs.tree).1 he
    rw [walk_dir (by simp) he', show stepFrom _ PathComp.parentDir = List.dropLast _ from rfl,
      (linkAt_dirs hs.folder he').2]
    exact ih
  | down he hn _ ih =>
    have he' := (has_iff_lookup hs.tree).1 he
    rw [walk_dir (by simp) he', show stepFrom _ (PathComp.normal _) = _ ++ [_] from rfl, (linkAt_none hs).2 hn]
    exact ih
  | link he hn _ ih =>
    have he' := (has_iff_lookup hs.tree).1 he
    rw [walk_dir (by simp) he', show stepFrom _ (PathComp.normal _) = _ ++ [_] from rfl, (linkAt_iff hs).2 hn]
    exact ih

/-- Where paths lead. -/
theorem find_iff {D : LinkDisk} (hs : Sound D) {cs : List PathComp} {l : List Str} :
    D.find cs = some l ↔ Reaches D cs l := by
  unfold LinkDisk.find Reaches
  rw [Option.map_eq_some_iff]
  constructor
  · rintro ⟨⟨l', k⟩, h, rfl⟩
    obtain ⟨n, h1, h2⟩ := walk_leads hs h
    exact ⟨n, by omega, h2⟩
  · rintro ⟨n, h1, h2⟩
    refine ⟨(l, D.limit - n), ?_, rfl⟩
    have := leads_walk hs h2 (D.limit - n)
    rwa [show D.limit - n + n = D.limit by omega] at this

theorem real_iff {D : LinkDisk} {cs : List PathComp} {l : List Str} :
    D.real cs = some l ↔ D.find cs = some l ∧ ∃ u, D.tree.lookup l = some u := by
  unfold LinkDisk.real
  rw [Option.bind_eq_some_iff]
  constructor
  · rintro ⟨l', h1, h2⟩
    split at h2
    · next h => cases h2; exact ⟨h1, Option.isSome_iff_exists.1 h⟩
    · cases h2
  · rintro ⟨h1, u, h2⟩
    exact ⟨l, h1, by rw [h2]; rfl⟩

theorem find_link {D : LinkDisk} (hs : Sound D) {cs : List PathComp} {l : List Str} (h : D.find cs = some l) :
    D.linkAt l = none := by
  unfold LinkDisk.find at h
  rw [Option.map_eq_some_iff] at h
  obtain ⟨⟨l', k⟩, h, rfl⟩ := h
  exact walk_end h hs.rootLink hs.rootLink

theorem find_place {D : LinkDisk} {loc : List Str} {u : FsTree} (h : D.tree.lookup loc = some u)
    (hl : D.linkAt loc = none) : D.find (placeComps loc) = some loc := by
  unfold LinkDisk.find placeComps
  have := walk_normals (D := D) (loc := []) (ns := loc) h hl D.limit
  rw [walk_root, this]
  rfl

theorem real_place {D : LinkDisk} {loc : List Str} {u : FsTree} (h : D.tree.lookup loc = some u)
    (hl : D.linkAt loc = none) : D.real (placeComps loc) = some loc :=
  real_iff.2 ⟨find_place h hl, u, h⟩

/-- Where a path leads that goes on. -/
theorem find_snoc {D : LinkDisk} {cs : List PathComp} {c : PathComp} {l : List Str} (hc : c ≠ .rootDir)
    (h : D.find (cs ++ [c]) = some l) : ∃ q e, D.find cs = some q ∧ D.tree.lookup q = some (.dir e) := by
  unfold LinkDisk.find at h
  rw [Option.map_eq_some_iff] at h
  obtain ⟨⟨l', k⟩, h, rfl⟩ := h
  rw [walk_append, Option.bind_eq_some_iff] at h
  obtain ⟨⟨q, k'⟩, h1, h2⟩ := h
  by_cases hd : ∃ e, D.tree.lookup q = some (.dir e)
  · obtain ⟨e, he⟩ := hd
    exact ⟨q, e, by unfold LinkDisk.find; rw [h1]; rfl, he⟩
  · rw [walk_not_dir hc fun e he => hd ⟨e, he⟩] at h2; cases h2

/-- What exists need not be created. -/
theorem createAll_existing {D : LinkDisk} {cs : List PathComp} {q : List Str} {e : Option (List (Str × FsTree))}
    (h : D.find cs = some q) (he : D.tree.lookup q = some (.dir e)) : D.createAll cs.reverse = some D := by
  have hr := real_iff.2 ⟨h, _, he⟩
  cases hc : cs.reverse with
  | nil => rfl
  | cons c cs' =>
    unfold LinkDisk.createAll
    rw [show (c :: cs').reverse = cs by rw [← hc, List.reverse_reverse], hr]
    dsimp only
    rw [he]

/-! ## resources.rs -/

theorem toAbsolute_some {D : LinkDisk} {ws : List Str} {rel : Str} {cs : List PathComp}
    (h : D.toAbsolute ws rel = some cs) :
    (∃ loc base, D.real (joinComps ws rel) = some loc ∧ D.real (placeComps ws) = some base ∧ base <+: loc ∧
      cs = placeComps loc) ∨
    (D.real (joinComps ws rel) = none ∧ strContains rel "..".toList = false ∧ cs = joinComps ws rel) := by
  unfold LinkDisk.toAbsolute at h
  cases hr : D.real (joinComps ws rel) with
  | some loc =>
    rw [hr] at h
    dsimp only at h
    rw [Option.bind_eq_some_iff] at h
    obtain ⟨base, hb, h⟩ := h
    by_cases hp : base.isPrefixOf loc = true
    · rw [if_pos hp] at h
      cases h
      exact .inl ⟨loc, base, rfl, hb, List.isPrefixOf_iff_prefix.1 hp, rfl⟩
    · rw [if_neg hp] at h; cases h
  | none =>
    rw [hr] at h
    dsimp only at h
    by_cases hp : strContains rel "..".toList = true
    · rw [if_pos hp] at h; cases h
    · rw [if_neg hp] at h
      cases h
      exact .inr ⟨rfl, by simpa using hp, rfl⟩

theorem real_none_text {D : LinkDisk} {cs : List PathComp} (h : D.real cs = none) : D.readText cs = none := by
  unfold LinkDisk.readText
  cases hf : D.find cs with
  | none => rfl
  | some l =>
    show D.tree.readText l = none
    unfold FsTree.readText
    cases hl : D.tree.lookup l with
    | none => rfl
    | some u => rw [real_iff.2 ⟨hf, u, hl⟩] at h; cases h

theorem readText_some {d : FsTree} {l : List Str} {text : Str} (h : d.readText l = some text) :
    d.lookup l = some (.file (some text)) := by
  unfold FsTree.readText at h
  split at h
  · next t heq => rw [heq, h]
  · cases h

/-- The path of a request ends with a name. -/
theorem joinComps_last {ws : List Str} {path : Str} (h : endsWith path ".firm".toList = true) :
    ∃ xs n, joinComps ws path = xs ++ [.normal n] ∧ ∃ stem, n = stem ++ ".firm".toList := by
  obtain ⟨xs, n, hpc, hn⟩ : ∃ xs n, pathComponents path = xs ++ [.normal n] ∧ ∃ stem, n = stem ++ ".firm".toList := by
    obtain ⟨x, hx⟩ := List.isSuffixOf_iff_suffix.1 h
    subst hx
    obtain ⟨pre, hpre, _⟩ := pathComponents_shape (x ++ ".firm".toList)
    obtain ⟨ps, q, hq⟩ := splitChar_right (c := '/') x (s := ".firm".toList) (by decide)
    have hne : pieceComp (q ++ ".firm".toList) = some (.normal (q ++ ".firm".toList)) := by
      unfold pieceComp
      rw [if_neg (by simp), if_neg, if_neg]
      · intro h
        have := congrArg List.length h
        simp at this
      · intro h
        have := congrArg List.length h
        simp at this
    exact ⟨pre ++ ps.filterMap pieceComp, q ++ ".firm".toList, by
      rw [hpre, hq, List.filterMap_append, List.filterMap_cons, hne, List.filterMap_nil, ← List.append_assoc], q, rfl⟩
  unfold joinComps
  split
  · exact ⟨xs, n, hpc, hn⟩
  · refine ⟨.rootDir :: (ws.map .normal ++ xs.filter fun c => decide (c ≠ PathComp.curDir)), n, ?_, hn⟩
    rw [hpc, List.filter_append]
    simp

end Firm
