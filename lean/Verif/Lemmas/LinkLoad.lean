import Verif.Lemmas.LinkTools

/-!
# Lemmas about loading a workspace with symbolic links

A disk with links is loaded like the tree in which every link is replaced by what it leads to.
-/

namespace Firm
open Spec

/-- What a link leads to. -/
def LinkDisk.target (D : LinkDisk) (follow : Nat → List Str → FsTree → FsTree) (left : Nat) (loc : List Str)
    (name : Str) : FsTree :=
  match D.walk left loc [.normal name] with
  | none => .other
  | some (l, k) =>
    match D.tree.lookup l with
    | some (.dir d) => follow k l (.dir d)
    | some (.file text) => .file text
    | _ => .other

mutual
/-- The tree at a place with the links replaced by what they lead to. -/
def LinkDisk.unfoldTree (D : LinkDisk) (follow : Nat → List Str → FsTree → FsTree) (left : Nat) (loc : List Str) :
    FsTree → FsTree
  | .dir (some es) => .dir (some (LinkDisk.unfoldEntries D follow left loc es))
  | .dir none => .dir none
  | .file text => .file text
  | .other => .other
def LinkDisk.unfoldEntries (D : LinkDisk) (follow : Nat → List Str → FsTree → FsTree) (left : Nat) (loc : List Str) :
    List (Str × FsTree) → List (Str × FsTree)
  | [] => []
  | (name, .dir d) :: es =>
    (name, LinkDisk.unfoldTree D follow left (loc ++ [name]) (.dir d)) :: LinkDisk.unfoldEntries D follow left loc es
  | (name, .file text) :: es => (name, .file text) :: LinkDisk.unfoldEntries D follow left loc es
  | (name, .other) :: es => (name, D.target follow left loc name) :: LinkDisk.unfoldEntries D follow left loc es
end

/-- The same for at most `n` links after one another. -/
def LinkDisk.unfoldAt (D : LinkDisk) : Nat → Nat → List Str → FsTree → FsTree
  | 0 => D.unfoldTree fun _ _ _ => .dir none
  | n + 1 => D.unfoldTree (D.unfoldAt n)

/-- What an entry becomes. -/
def LinkDisk.unfoldEntry (D : LinkDisk) (follow : Nat → List Str → FsTree → FsTree) (left : Nat) (loc : List Str)
    (name : Str) : FsTree → FsTree
  | .dir d => D.unfoldTree follow left (loc ++ [name]) (.dir d)
  | .file text => .file text
  | .other => D.target follow left loc name

theorem unfoldEntries_eq (D : LinkDisk) (follow : Nat → List Str → FsTree → FsTree) (left : Nat) (loc : List Str)
    (es : List (Str × FsTree)) :
    D.unfoldEntries follow left loc es = es.map fun p => (p.1, D.unfoldEntry follow left loc p.1 p.2) := by
  induction es with
  | nil => rw [LinkDisk.unfoldEntries]; rfl
  | cons p es ih =>
    obtain ⟨n, t⟩ := p
    cases t <;> rw [LinkDisk.unfoldEntries, ih] <;> rfl

theorem mapGet_unfold (D : LinkDisk) (follow : Nat → List Str → FsTree → FsTree) (left : Nat) (loc : List Str)
    (es : List (Str × FsTree)) (n : Str) :
    mapGet (D.unfoldEntries follow left loc es) n = (mapGet es n).map (D.unfoldEntry follow left loc n) := by
  rw [unfoldEntries_eq]
  induction es with
  | nil => rfl
  | cons p es ih =>
    rw [List.map_cons, mapGet_cons, mapGet_cons]
    by_cases hp : p.1 = n
    · subst hp; rw [if_pos rfl, if_pos rfl]; rfl
    · rw [if_neg hp, if_neg hp, ih]

/-! ## Loading -/

mutual
theorem loadTree_unfold (D : LinkDisk) (grammar : Str → Node) (base : Str)
    (follow : Nat → Workspace → List Str → Str → FsTree → Workspace × Except WorkspaceError Unit)
    (unf : Nat → List Str → FsTree → FsTree)
    (hfol : ∀ k w l path d, follow k w l path (.dir d) = loadTree grammar base w path (unf k l (.dir d)) ∧
      ∃ d', unf k l (.dir d) = .dir d') (left : Nat) :
    ∀ (t : FsTree) (w : Workspace) (loc : List Str) (path : Str),
      D.loadTree grammar base follow left w loc path t = loadTree grammar base w path (D.unfoldTree unf left loc t)
  | .dir none, w, loc, path => by rw [LinkDisk.loadTree, LinkDisk.unfoldTree, loadTree]
  | .dir (some es), w, loc, path => by
    rw [LinkDisk.loadTree, LinkDisk.unfoldTree, loadTree]
    exact loadEntries_unfold D grammar base follow unf hfol left es w loc path
  | .file _, w, loc, path => by simp [LinkDisk.loadTree, LinkDisk.unfoldTree, loadTree]
  | .other, w, loc, path => by simp [LinkDisk.loadTree, LinkDisk.unfoldTree, loadTree]
theorem loadEntries_unfold (D : LinkDisk) (grammar : Str → Node) (base : Str)
    (follow : Nat → Workspace → List Str → Str → FsTree → Workspace × Except WorkspaceError Unit)
    (unf : Nat → List Str → FsTree → FsTree)
    (hfol : ∀ k w l path d, follow k w l path (.dir d) = loadTree grammar base w path (unf k l (.dir d)) ∧
      ∃ d', unf k l (.dir d) = .dir d') (left : Nat) :
    ∀ (es : List (Str × FsTree)) (w : Workspace) (loc : List Str) (path : Str),
      D.loadEntries grammar base follow left w loc path es =
        loadEntries grammar base w path (D.unfoldEntries unf left loc es)
  | [], w, loc, path => by rw [LinkDisk.loadEntries, LinkDisk.unfoldEntries, loadEntries]
  | (name, .dir d) :: es, w, loc, path => by
    have h1 := loadTree_unfold D grammar base follow unf hfol left (.dir d) w (loc ++ [name]) (joinPath path name)
    have h2 := fun w => loadEntries_unfold D grammar base follow unf hfol left es w loc path
    obtain ⟨d', hd'⟩ : ∃ d', D.unfoldTree unf left (loc ++ [name]) (.dir d) = .dir d' := by
      cases d <;> rw [LinkDisk.unfoldTree] <;> exact ⟨_, rfl⟩
    rw [LinkDisk.loadEntries, LinkDisk.unfoldEntries, h1, hd', loadEntries]
    simp only [h2]
    generalize loadTree grammar base w (joinPath path name) (.dir d') = x
    obtain ⟨w', r⟩ := x
    cases r <;> rfl
  | (name, .file text) :: es, w, loc, path => by
    have h2 := fun w => loadEntries_unfold D grammar base follow unf hfol left es w loc path
    rw [LinkDisk.loadEntries, LinkDisk.unfoldEntries, loadEntries]
    simp only [h2]
    generalize Workspace.loadFile grammar w (joinPath path name) base text = x
    obtain ⟨w', r⟩ := x
    cases r <;> rfl
  | (name, .other) :: es, w, loc, path => by
    have h2 := fun w => loadEntries_unfold D grammar base follow unf hfol left es w loc path
    rw [LinkDisk.loadEntries, LinkDisk.unfoldEntries]
    simp only [h2]
    unfold LinkDisk.loadLink LinkDisk.target
    cases hw : D.walk left loc [.normal name] with
    | none => dsimp only; rw [loadEntries]
    | some r =>
      obtain ⟨l, k⟩ := r
      dsimp only
      cases hl : D.tree.lookup l with
      | none => dsimp only; rw [loadEntries]
      | some u =>
        cases u with
        | other => dsimp only; rw [loadEntries]
        | file text =>
          dsimp only
          rw [loadEntries]
          generalize Workspace.loadFile grammar w (joinPath path name) base text = x
          obtain ⟨w', r⟩ := x
          cases isFirmFile name
          · rfl
          · cases r <;> rfl
        | dir d =>
          dsimp only
          obtain ⟨h3, d', h4⟩ := hfol k w l (joinPath path name) d
          rw [h3, h4, loadEntries]
          generalize loadTree grammar base w (joinPath path name) (.dir d') = x
          obtain ⟨w', r⟩ := x
          cases r <;> rfl
end

theorem loadAt_unfold (D : LinkDisk) (grammar : Str → Node) (base : Str) (n left : Nat) (t : FsTree) (w : Workspace)
    (loc : List Str) (path : Str) :
    D.loadAt grammar base n left w loc path t = loadTree grammar base w path (D.unfoldAt n left loc t) := by
  induction n generalizing left t w loc path with
  | zero =>
    refine loadTree_unfold D grammar base _ _ (fun k w l path d => ⟨?_, _, rfl⟩) left t w loc path
    rw [loadTree]
  | succ n ih =>
    refine loadTree_unfold D grammar base _ _ (fun k w l path d => ⟨ih k _ w l path, ?_⟩) left t w loc path
    cases n <;> cases d <;> exact ⟨_, rfl⟩

/-! ## What is in the tree -/

theorem walk_missing {D : LinkDisk} {u : FsTree} {loc ns : List Str} {k : Nat} (h : D.tree.lookup loc = none) :
    ¬ ∃ l k', D.walk k loc (ns.map .normal) = some (l, k') ∧ D.tree.lookup l = some u := by
  rintro ⟨l, k', h1, h2⟩
  cases ns with
  | nil => rw [List.map_nil, walk_nil] at h1; cases h1; rw [h] at h2; cases h2
  | cons n ns => rw [List.map_cons, walk_not_dir (by simp) (by rw [h]; simp)] at h1; cases h1

theorem walk_leaf {D : LinkDisk} {t u : FsTree} {loc : List Str} {k : Nat} (h : D.tree.lookup loc = some t)
    (ht : ∀ e, t ≠ .dir e) (ns : List Str) : t.lookup ns = some u ↔
      ∃ l k', D.walk k loc (ns.map .normal) = some (l, k') ∧ D.tree.lookup l = some u := by
  cases ns with
  | nil =>
    rw [lookup_nil, List.map_nil, walk_nil]
    constructor
    · intro hh; exact ⟨loc, k, rfl, h.trans hh⟩
    · rintro ⟨l, k', h1, h2⟩; cases h1; exact h.symm.trans h2
  | cons n ns =>
    rw [List.map_cons, walk_not_dir (by simp) (by rw [h]; simpa using ht)]
    constructor
    · intro hh; obtain ⟨es, _, rfl, _⟩ := lookup_cons_some hh; exact absurd rfl (ht _)
    · rintro ⟨l, k', h1, _⟩; cases h1

theorem lookup_other {u : FsTree} (hu : u ≠ .other) (ns : List Str) : FsTree.other.lookup ns ≠ some u := by
  cases ns with
  | nil => rw [lookup_nil]; intro h; cases h; exact hu rfl
  | cons n ns => intro h; obtain ⟨_, _, h, _⟩ := lookup_cons_some h; cases h

theorem unfoldTree_lookup {D : LinkDisk} {u : FsTree} (hu : u ≠ .other) (hu' : NotDir u)
    {follow : Nat → List Str → FsTree → FsTree} {left : Nat}
    (hfol : ∀ k l d ns, k < left → D.tree.lookup l = some (.dir d) → ((follow k l (.dir d)).lookup ns = some u ↔
      ∃ l' k', D.walk k l (ns.map .normal) = some (l', k') ∧ D.tree.lookup l' = some u))
    (ns : List Str) (loc : List Str) (t : FsTree) (ht : D.tree.lookup loc = some t) :
    (D.unfoldTree follow left loc t).lookup ns = some u ↔
      ∃ l k, D.walk left loc (ns.map .normal) = some (l, k) ∧ D.tree.lookup l = some u := by
  induction ns generalizing loc t with
  | nil =>
    rw [lookup_nil, List.map_nil, walk_nil]
    have : D.unfoldTree follow left loc t = u ↔ t = u := by
      cases t with
      | file x => rw [LinkDisk.unfoldTree]
      | other => rw [LinkDisk.unfoldTree]
      | dir e =>
        cases e with
        | none => rw [LinkDisk.unfoldTree]
        | some es =>
          rw [LinkDisk.unfoldTree]
          exact ⟨fun h => absurd h.symm (hu' _), fun h => absurd h.symm (hu' _)⟩
    rw [Option.some.injEq, this]
    constructor
    · rintro rfl; exact ⟨loc, left, rfl, ht⟩
    · rintro ⟨l, k, h1, h2⟩; cases h1; rw [ht] at h2; cases h2; rfl
  | cons m ns ih =>
    have hleaf : ∀ t : FsTree, (∀ e, t ≠ .dir e) → D.unfoldTree follow left loc t = t := by
      intro t h
      cases t with
      | dir e => exact absurd rfl (h e)
      | _ => rw [LinkDisk.unfoldTree]
    cases t with
    | file x => rw [hleaf _ (by simp)]; exact walk_leaf ht (by simp) _
    | other => rw [hleaf _ (by simp)]; exact walk_leaf ht (by simp) _
    | dir e =>
      have hstep : D.linkAt (loc ++ [m]) = none → D.walk left loc ((m :: ns).map .normal) =
          D.walk left (loc ++ [m]) (ns.map .normal) := by
        intro hl
        rw [List.map_cons, walk_dir (by simp) ht]
        change (match D.linkAt (loc ++ [m]) with
          | some text => _ | none => D.walk left (loc ++ [m]) (ns.map .normal)) = _
        rw [hl]
      cases e with
      | none =>
        have hnone : D.tree.lookup (loc ++ [m]) = none := by rw [lookup_append, ht]; rfl
        rw [LinkDisk.unfoldTree, hstep (linkAt_of_lookup (by rw [hnone]; simp))]
        constructor
        · intro h; obtain ⟨_, _, h, _⟩ := lookup_cons_some h; cases h
        · intro h; exact absurd h (walk_missing hnone)
      | some es =>
        have hget : D.tree.lookup (loc ++ [m]) = mapGet es m := by
          rw [lookup_append, ht]
          show FsTree.lookup (.dir (some es)) [m] = _
          rw [lookup_dir]
          cases mapGet es m with
          | none => rfl
          | some c => exact lookup_nil c
        rw [LinkDisk.unfoldTree, lookup_dir, mapGet_unfold]
        cases hg : mapGet es m with
        | none =>
          rw [hg] at hget
          rw [hstep (linkAt_of_lookup (by rw [hget]; simp))]
          constructor
          · intro h; cases h
          · intro h; exact absurd h (walk_missing hget)
        | some c =>
          rw [hg] at hget
          show FsTree.lookup (D.unfoldEntry follow left loc m c) ns = some u ↔ _
          cases c with
          | dir d =>
            rw [hstep (linkAt_of_lookup (by rw [hget]; simp))]
            exact ih _ _ hget
          | file x =>
            rw [hstep (linkAt_of_lookup (by rw [hget]; simp))]
            exact walk_leaf hget (by simp) _
          | other =>
            show FsTree.lookup (D.target follow left loc m) ns = some u ↔ _
            rw [List.map_cons, show (PathComp.normal m :: ns.map .normal) = [.normal m] ++ ns.map .normal from rfl,
              walk_append]
            unfold LinkDisk.target
            cases hw : D.walk left loc [.normal m] with
            | none =>
              constructor
              · intro h; exact absurd h (lookup_other hu ns)
              · rintro ⟨l, k, h, _⟩; cases h
            | some r =>
              obtain ⟨l, k⟩ := r
              dsimp only [Option.bind_some]
              cases hl : D.tree.lookup l with
              | none =>
                constructor
                · intro h; exact absurd h (lookup_other hu ns)
                · intro h; exact absurd h (walk_missing hl)
              | some v =>
                cases v with
                | other => exact walk_leaf hl (by simp) _
                | file x => exact walk_leaf hl (by simp) _
                | dir d =>
                  refine hfol k l d ns ?_ hl
                  rw [walk_dir (by simp) ht] at hw
                  change (match D.linkAt (loc ++ [m]) with
                    | some text => D.behind left loc (pathComponents text ++ [])
                    | none => D.walk left (loc ++ [m]) []) = _ at hw
                  cases hlk : D.linkAt (loc ++ [m]) with
                  | none =>
                    rw [hlk] at hw
                    dsimp only at hw
                    rw [walk_nil] at hw
                    cases hw
                    rw [hget] at hl
                    cases hl
                  | some text =>
                    rw [hlk] at hw
                    cases left with
                    | zero => cases hw
                    | succ j => have := walk_left hw; omega

/-- A file or unreadable directory is in the unfolded tree where a path of names leads to one. -/
theorem unfoldAt_lookup {D : LinkDisk} {u : FsTree} (hu : u ≠ .other) (hu' : NotDir u) (n : Nat)
    (ns : List Str) (left : Nat) (loc : List Str) (t : FsTree) (hn : left ≤ n) (ht : D.tree.lookup loc = some t) :
    (D.unfoldAt n left loc t).lookup ns = some u ↔
      ∃ l k, D.walk left loc (ns.map .normal) = some (l, k) ∧ D.tree.lookup l = some u := by
  induction n generalizing ns left loc t with
  | zero => exact unfoldTree_lookup hu hu' (fun k _ _ _ hk => by omega) ns loc t ht
  | succ n ih =>
    exact unfoldTree_lookup hu hu' (fun k l d ns hk hl => ih ns k l (.dir d) (by omega) hl) ns loc t ht

mutual
theorem wf_unfoldTree {D : LinkDisk} {follow : Nat → List Str → FsTree → FsTree} (left : Nat)
    (hfol : ∀ k l d, D.tree.lookup l = some (.dir d) → WellFormed (follow k l (.dir d))) :
    ∀ (t : FsTree) (loc : List Str), WellFormed t → WellFormed (D.unfoldTree follow left loc t)
  | .file x, _, _ => by rw [LinkDisk.unfoldTree]; exact .file _
  | .other, _, _ => by rw [LinkDisk.unfoldTree]; exact .other
  | .dir none, _, _ => by rw [LinkDisk.unfoldTree]; exact .unreadable
  | .dir (some es), loc, h => by
    rw [LinkDisk.unfoldTree]
    cases h with
    | dir h1 h2 h3 =>
      refine .dir ?_ ?_ (wf_unfoldEntries left hfol es loc h3)
      · rw [unfoldEntries_eq, List.map_map]; exact h1
      · intro p hp
        rw [unfoldEntries_eq, List.mem_map] at hp
        obtain ⟨q, hq, rfl⟩ := hp
        exact h2 q hq
theorem wf_unfoldEntries {D : LinkDisk} {follow : Nat → List Str → FsTree → FsTree} (left : Nat)
    (hfol : ∀ k l d, D.tree.lookup l = some (.dir d) → WellFormed (follow k l (.dir d))) :
    ∀ (es : List (Str × FsTree)) (loc : List Str), (∀ p ∈ es, WellFormed p.2) →
      ∀ p ∈ D.unfoldEntries follow left loc es, WellFormed p.2
  | [], _, _, p, hp => by rw [LinkDisk.unfoldEntries] at hp; cases hp
  | (name, .dir d) :: es, loc, h, p, hp => by
    rw [LinkDisk.unfoldEntries] at hp
    rcases List.mem_cons.1 hp with rfl | hp
    · exact wf_unfoldTree left hfol (.dir d) _ (h (name, .dir d) List.mem_cons_self)
    · exact wf_unfoldEntries left hfol es loc (fun q hq => h q (List.mem_cons_of_mem _ hq)) p hp
  | (name, .file x) :: es, loc, h, p, hp => by
    rw [LinkDisk.unfoldEntries] at hp
    rcases List.mem_cons.1 hp with rfl | hp
    · exact .file _
    · exact wf_unfoldEntries left hfol es loc (fun q hq => h q (List.mem_cons_of_mem _ hq)) p hp
  | (name, .other) :: es, loc, h, p, hp => by
    rw [LinkDisk.unfoldEntries] at hp
    rcases List.mem_cons.1 hp with rfl | hp
    · show WellFormed (D.target follow left loc name)
      unfold LinkDisk.target
      split
      · exact .other
      · split
        · next d hd => exact hfol _ _ _ hd
        · exact .file _
        · exact .other
    · exact wf_unfoldEntries left hfol es loc (fun q hq => h q (List.mem_cons_of_mem _ hq)) p hp
end

theorem wf_unfoldAt {D : LinkDisk} (hs : WellFormed D.tree) (n left : Nat) (loc : List Str) (t : FsTree)
    (ht : D.tree.lookup loc = some t) : WellFormed (D.unfoldAt n left loc t) := by
  induction n generalizing left loc t with
  | zero => exact wf_unfoldTree left (fun _ _ _ _ => .unreadable) t loc (lookup_valid hs ht).1
  | succ n ih =>
    exact wf_unfoldTree left (fun k l d hl => ih k l (.dir d) hl) t loc (lookup_valid hs ht).1

/-! ## The directory of a workspace -/

/-- A disk with nothing but a tree at a place. -/
def chainTree : List Str → FsTree → FsTree
  | [], t => t
  | n :: ns, t => .dir (some [(n, chainTree ns t)])

theorem lookup_chain (ws loc : List Str) (t : FsTree) : (chainTree ws t).lookup (ws ++ loc) = t.lookup loc := by
  induction ws with
  | nil => rfl
  | cons n ws ih =>
    rw [chainTree, List.cons_append, lookup_dir, mapGet_cons, if_pos rfl]
    exact ih

theorem wf_chain {ws : List Str} (hws : ∀ n ∈ ws, ValidName n) {t : FsTree} (ht : WellFormed t) :
    WellFormed (chainTree ws t) := by
  induction ws with
  | nil => exact ht
  | cons n ws ih =>
    rw [chainTree]
    refine .dir (by simp) ?_ ?_
    · intro p hp; rw [List.mem_singleton.1 hp]; exact hws n List.mem_cons_self
    · intro p hp; rw [List.mem_singleton.1 hp]; exact ih fun m hm => hws m (List.mem_cons_of_mem _ hm)

theorem placeComps_append (ws loc : List Str) : placeComps (ws ++ loc) = placeComps ws ++ loc.map .normal := by
  simp [placeComps]

theorem unfold_reaches {D : LinkDisk} (hs : Sound D) {ws : List Str} (hws : ∀ n ∈ ws, ValidName n) {base : List Str} {left : Nat} {t u : FsTree}
    (hw : D.walk D.limit [] (placeComps ws) = some (base, left)) (ht : D.tree.lookup base = some t)
    (hu : u ≠ .other) (hu' : NotDir u) (loc : List Str) :
    Has (chainTree ws (D.unfoldAt D.limit left base t)) (ws ++ loc) u ↔
      ∃ l, Reaches D (placeComps (ws ++ loc)) l ∧ Has D.tree l u := by
  rw [has_iff_lookup (wf_chain hws (wf_unfoldAt hs.tree _ _ _ _ ht)), lookup_chain,
    unfoldAt_lookup hu hu' _ _ _ _ _ (walk_left hw) ht]
  have : ∀ l, (∃ k, D.walk left base (loc.map .normal) = some (l, k)) ↔ Reaches D (placeComps (ws ++ loc)) l := by
    intro l
    rw [← find_iff hs, placeComps_append]
    unfold LinkDisk.find
    rw [walk_append, hw, Option.map_eq_some_iff]
    constructor
    · rintro ⟨k, h⟩; exact ⟨(l, k), h, rfl⟩
    · rintro ⟨⟨l', k⟩, h, rfl⟩; exact ⟨k, h⟩
  constructor
  · rintro ⟨l, k, h1, h2⟩; exact ⟨l, (this l).1 ⟨k, h1⟩, (has_iff_lookup hs.tree).2 h2⟩
  · rintro ⟨l, h1, h2⟩
    obtain ⟨k, hk⟩ := (this l).2 h1
    exact ⟨l, k, hk, (has_iff_lookup hs.tree).1 h2⟩

theorem unfoldAt_dir {D : LinkDisk} (n left : Nat) (loc : List Str) (t : FsTree) :
    (∃ es, D.unfoldAt n left loc t = .dir (some es)) ↔ ∃ es, t = .dir (some es) := by
  have : ∀ follow, (∃ es, D.unfoldTree follow left loc t = .dir (some es)) ↔ ∃ es, t = .dir (some es) := by
    intro follow
    cases t with
    | file x => rw [LinkDisk.unfoldTree]
    | other => rw [LinkDisk.unfoldTree]
    | dir e =>
      cases e with
      | none => rw [LinkDisk.unfoldTree]
      | some es => rw [LinkDisk.unfoldTree]; exact ⟨fun _ => ⟨_, rfl⟩, fun _ => ⟨_, rfl⟩⟩
  cases n <;> exact this _

theorem loadDirectory_links {grammar : Str → Node} {ws : List Str} {D : LinkDisk} (hs : Sound D)
    (hws : ∀ n ∈ ws, ValidName n) : ∃ w r, D.loadDirectory grammar ws = (w, r) ∧
      (r = .ok () ↔ ReadableLinked ws D) ∧ (r = .ok () → LoadsLinked grammar ws D w) := by
  unfold LinkDisk.loadDirectory
  have hfail : (∀ l u, Reaches D (placeComps ws) l → D.tree.lookup l = some u → False) → ¬ ReadableLinked ws D := by
    rintro h ⟨⟨l, es, h1, h2⟩, _⟩
    exact h l _ h1 ((has_iff_lookup hs.tree).1 h2)
  cases hw : D.walk D.limit [] (placeComps ws) with
  | none =>
    refine ⟨_, _, rfl, ⟨(fun h => by cases h), fun h => absurd h (hfail fun l u h1 _ => ?_)⟩, fun h => by cases h⟩
    have := (find_iff hs).2 h1
    unfold LinkDisk.find at this
    rw [hw] at this
    cases this
  | some r =>
    obtain ⟨base, left⟩ := r
    have hb : ∀ l, Reaches D (placeComps ws) l ↔ l = base := by
      intro l
      rw [← find_iff hs]
      unfold LinkDisk.find
      rw [hw]
      simp [eq_comm]
    dsimp only
    cases ht : D.tree.lookup base with
    | none =>
      refine ⟨_, _, rfl, ⟨(fun h => by cases h), fun h => absurd h (hfail fun l u h1 h2 => ?_)⟩, fun h => by cases h⟩
      rw [(hb l).1 h1, ht] at h2
      cases h2
    | some t =>
      dsimp only
      rw [loadAt_unfold]
      have hwf := wf_chain hws (wf_unfoldAt hs.tree D.limit left base t ht)
      have hlk := lookup_chain ws [] (D.unfoldAt D.limit left base t)
      rw [List.append_nil, lookup_nil] at hlk
      obtain ⟨w, r, h1, h2, h3⟩ := loadDirectory_spec (grammar := grammar) hwf hws hlk
      have key := fun u hu hu' loc => unfold_reaches hs hws hw ht (u := u) hu hu' loc
      refine ⟨w, r, h1, h2.trans ?_, fun hr => ?_⟩
      · unfold Readable ReadableLinked
        refine and_congr ?_ (and_congr ?_ ?_)
        · simp only [has_iff_lookup hwf, has_iff_lookup hs.tree, hlk, Option.some.injEq]
          rw [unfoldAt_dir]
          constructor
          · rintro ⟨es, rfl⟩; exact ⟨base, es, (hb _).2 rfl, ht⟩
          · rintro ⟨l, es, h4, h5⟩
            rw [(hb l).1 h4, ht] at h5
            exact ⟨es, by simpa using h5⟩
        · refine forall_congr' fun loc => ?_
          rw [key (.dir none) (by simp) (fun es h => by cases h) loc]
          simp
        · refine forall_congr' fun dirs => forall_congr' fun n => ?_
          rw [key (.file none) (by simp) (fun es h => by cases h) (dirs ++ [n])]
          constructor
          · intro h l hn h4 h5; exact h hn ⟨l, h4, h5⟩
          · rintro h hn ⟨l, h4, h5⟩; exact h l hn h4 h5
      · obtain ⟨h4, h5⟩ := h3 hr
        refine ⟨h4, fun path f => (h5 path f).trans ?_⟩
        refine exists_congr fun loc => exists_congr fun text => and_congr_left fun _ => ?_
        unfold FirmFile LinkedFile
        rw [key (.file (some text)) (by simp) (fun es h => by cases h) loc]

/-- The names of a path that leads to something are valid. -/
theorem reaches_valid {D : LinkDisk} (hs : Sound D) {ws : List Str} (hws : ∀ n ∈ ws, ValidName n) {loc l : List Str}
    {u : FsTree} (hu : u ≠ .other) (hu' : NotDir u) (hr : Reaches D (placeComps (ws ++ loc)) l) (hh : Has D.tree l u) :
    ∀ n ∈ loc, ValidName n := by
  have hf := (find_iff hs).2 hr
  rw [placeComps_append] at hf
  unfold LinkDisk.find at hf
  rw [Option.map_eq_some_iff] at hf
  obtain ⟨⟨l', k⟩, hf, rfl⟩ := hf
  rw [walk_append, Option.bind_eq_some_iff] at hf
  obtain ⟨⟨base, left⟩, hw, hf⟩ := hf
  by_cases ht : ∃ t, D.tree.lookup base = some t
  · obtain ⟨t, ht⟩ := ht
    have := (unfold_reaches hs hws hw ht hu hu' loc).2 ⟨l', hr, hh⟩
    have hwf := wf_chain hws (wf_unfoldAt hs.tree D.limit left base t ht)
    exact fun n hn => (lookup_valid hwf ((has_iff_lookup hwf).1 this)).2 n (List.mem_append_right _ hn)
  · have hnone : D.tree.lookup base = none := by
      cases h : D.tree.lookup base with
      | none => rfl
      | some t => exact absurd ⟨t, h⟩ ht
    exact absurd ⟨l', k, hf, (has_iff_lookup hs.tree).1 hh⟩ (walk_missing hnone)

/-- The path of names below the workspace. -/
theorem joinComps_names {ws loc : List Str} (hne : loc ≠ []) (hv : ∀ n ∈ loc, ValidName n) :
    joinComps ws (joinWith ['/'] loc) = placeComps (ws ++ loc) := by
  have hpc := pathComponents_relative hne hv
  have hslash : ∀ s : Str, joinWith ['/'] loc ≠ '/' :: s := by
    intro s h
    cases loc with
    | nil => exact hne rfl
    | cons n ns =>
      have hn := hv n List.mem_cons_self
      cases n with
      | nil => exact hn.nonempty rfl
      | cons c n =>
        have : joinWith ['/'] ((c :: n) :: ns) = c :: (joinWith ['/'] ((c :: n) :: ns)).tail := by
          cases ns <;> rfl
        rw [this] at h
        cases h
        exact hn.noSlash List.mem_cons_self
  unfold joinComps
  split
  · next h => exact absurd h (hslash _)
  · rw [hpc, placeComps_append, List.filter_eq_self.2]
    · rfl
    · intro c hc
      obtain ⟨m, _, rfl⟩ := List.mem_map.1 hc
      rfl

end Firm
