import Verif.Spec.Disk
import Verif.Lemmas.Text
import Verif.Props.Workspace

/-!
# Operations on the disk
-/

namespace Firm

open Firm.Spec

theorem mapInsert_self {β : Type} {m : List (Str × β)} {k : Str} {v : β} (h : mapGet m k = some v) :
    mapInsert m k v = m := by
  induction m with
  | nil => simp [mapGet] at h
  | cons p m ih =>
    obtain ⟨k', v'⟩ := p
    rw [mapGet] at h
    rw [mapInsert]
    by_cases hk : k' = k
    · rw [if_pos hk] at h ⊢; cases h; rw [hk]
    · rw [if_neg hk] at h ⊢; rw [ih h]

theorem mapGet_filter {β : Type} (m : List (Str × β)) (n k : Str) :
    mapGet (m.filter fun p => decide (p.1 ≠ n)) k = if k = n then none else mapGet m k := by
  induction m with
  | nil => simp [mapGet]
  | cons p m ih =>
    obtain ⟨k', v'⟩ := p
    by_cases hn : k' = n
    · rw [List.filter_cons_of_neg (by simp [hn]), ih, mapGet]
      by_cases hk : k = n
      · simp [hk]
      · have : ¬ k' = k := fun h => hk (h ▸ hn)
        simp [hk, this]
    · rw [List.filter_cons_of_pos (by simp [hn]), mapGet, ih, mapGet]
      by_cases hk : k' = k
      · subst hk; simp [hn]
      · simp [hk]

@[simp] theorem lookup_nil (t : FsTree) : t.lookup [] = some t := by
  cases t with
  | dir d => cases d <;> rfl
  | _ => rfl

theorem lookup_dir (es : List (Str × FsTree)) (n : Str) (ns : List Str) :
    (FsTree.dir (some es)).lookup (n :: ns) = (mapGet es n).bind (·.lookup ns) := by
  rw [FsTree.lookup]; cases mapGet es n <;> rfl

theorem lookup_cons_some {t u : FsTree} {n : Str} {ns : List Str} (h : t.lookup (n :: ns) = some u) :
    ∃ es c, t = .dir (some es) ∧ mapGet es n = some c ∧ c.lookup ns = some u := by
  cases t with
  | dir d =>
    cases d with
    | none => simp [FsTree.lookup] at h
    | some es =>
      rw [lookup_dir] at h
      cases hg : mapGet es n with
      | none => rw [hg] at h; simp at h
      | some c => rw [hg] at h; exact ⟨es, c, rfl, hg, h⟩
  | _ => simp [FsTree.lookup] at h

theorem lookup_append (t : FsTree) (a b : List Str) :
    t.lookup (a ++ b) = (t.lookup a).bind (·.lookup b) := by
  induction a generalizing t with
  | nil => simp
  | cons n a ih =>
    cases t with
    | dir d =>
      cases d with
      | none => simp [FsTree.lookup]
      | some es =>
        rw [List.cons_append, lookup_dir, lookup_dir]
        cases mapGet es n with
        | none => rfl
        | some c => exact ih c
    | _ => simp [FsTree.lookup]

theorem lookup_snoc_some {t u : FsTree} {p : List Str} {n : Str} (h : t.lookup (p ++ [n]) = some u) :
    ∃ es, t.lookup p = some (.dir (some es)) ∧ mapGet es n = some u := by
  rw [lookup_append] at h
  cases hp : t.lookup p with
  | none => rw [hp] at h; simp at h
  | some v =>
    rw [hp] at h
    obtain ⟨es, c, rfl, hg, hc⟩ := lookup_cons_some h
    rw [lookup_nil] at hc
    exact ⟨es, rfl, by rw [hg, hc]⟩

/-- What is at a place unless it is a readable directory. -/
def leafOf : FsTree → Option FsTree
  | .dir (some _) => none
  | t => some t

def leafAt (d : FsTree) (loc : List Str) : Option FsTree := (d.lookup loc).bind leafOf

theorem leafOf_eq_some {t u : FsTree} : leafOf t = some u ↔ t = u ∧ NotDir u := by
  cases t with
  | dir d =>
    cases d with
    | none =>
      constructor
      · intro h; cases h; exact ⟨rfl, fun es h => by cases h⟩
      · rintro ⟨rfl, _⟩; rfl
    | some es =>
      constructor
      · intro h; cases h
      · rintro ⟨rfl, h⟩; exact absurd rfl (h es)
  | file t =>
    constructor
    · intro h; cases h; exact ⟨rfl, fun es h => by cases h⟩
    · rintro ⟨rfl, _⟩; rfl
  | other =>
    constructor
    · intro h; cases h; exact ⟨rfl, fun es h => by cases h⟩
    · rintro ⟨rfl, _⟩; rfl

theorem leafAt_eq_some {d u : FsTree} {loc : List Str} :
    leafAt d loc = some u ↔ d.lookup loc = some u ∧ NotDir u := by
  unfold leafAt
  cases d.lookup loc with
  | none => simp
  | some v =>
    show leafOf v = some u ↔ _
    rw [leafOf_eq_some]; simp

theorem leafAt_cons (es : List (Str × FsTree)) (n : Str) (ns : List Str) :
    leafAt (.dir (some es)) (n :: ns) = (mapGet es n).bind fun c => leafAt c ns := by
  unfold leafAt
  rw [lookup_dir]
  cases mapGet es n <;> rfl

theorem leafAt_dir_nil (es : List (Str × FsTree)) : leafAt (.dir (some es)) [] = none := by
  simp [leafAt, leafOf]

theorem leafAt_empty (l : List Str) : leafAt (.dir (some [])) l = none := by
  cases l with
  | nil => exact leafAt_dir_nil _
  | cons n ns => rw [leafAt_cons]; rfl

theorem leafAt_createDirAll {d d' : FsTree} {loc : List Str} (h : d.createDirAll loc = some d')
    (l : List Str) : leafAt d' l = leafAt d l := by
  induction loc generalizing d d' l with
  | nil =>
    cases d with
    | dir e => simp only [FsTree.createDirAll, Option.some.injEq] at h; rw [h]
    | _ => simp [FsTree.createDirAll] at h
  | cons n ns ih =>
    cases d with
    | dir e =>
      cases e with
      | none => simp [FsTree.createDirAll] at h
      | some es =>
        simp only [FsTree.createDirAll, Option.map_eq_some_iff] at h
        obtain ⟨t, ht, rfl⟩ := h
        cases l with
        | nil => rw [leafAt_dir_nil, leafAt_dir_nil]
        | cons m l =>
          rw [leafAt_cons, leafAt_cons, mapGet_mapInsert]
          by_cases hm : m = n
          · subst hm
            rw [if_pos rfl]
            show leafAt t l = _
            rw [ih ht]
            cases mapGet es m with
            | none => exact leafAt_empty l
            | some c => rfl
          · rw [if_neg (Ne.symm hm)]
    | _ => simp [FsTree.createDirAll] at h

theorem createDirAll_existing {d : FsTree} {loc : List Str} {e : Option (List (Str × FsTree))}
    (h : d.lookup loc = some (.dir e)) : d.createDirAll loc = some d := by
  induction loc generalizing d with
  | nil => rw [lookup_nil] at h; cases h; simp [FsTree.createDirAll]
  | cons n ns ih =>
    obtain ⟨es, c, rfl, hg, hc⟩ := lookup_cons_some h
    simp only [FsTree.createDirAll]
    rw [hg, Option.getD_some, ih hc, Option.map_some, mapInsert_self hg]

theorem lookup_place {d new : FsTree} {p : List Str} {n : Str} {es : List (Str × FsTree)}
    (h : d.lookup p = some (.dir (some es))) : (d.place (p ++ [n]) new).lookup (p ++ [n]) = some new := by
  induction p generalizing d with
  | nil =>
    rw [lookup_nil] at h; cases h
    rw [List.nil_append, FsTree.place, lookup_dir, mapGet_mapInsert, if_pos rfl]
    show FsTree.lookup (FsTree.place _ [] new) [] = _
    rw [lookup_nil, FsTree.place]
  | cons m p ih =>
    obtain ⟨fs, c, rfl, hg, hc⟩ := lookup_cons_some h
    rw [List.cons_append, FsTree.place, lookup_dir, mapGet_mapInsert, if_pos rfl, hg]
    exact ih hc

theorem leafAt_place {d : FsTree} {text : Option Str} {p : List Str} {n : Str} {es : List (Str × FsTree)}
    (h : d.lookup p = some (.dir (some es))) (hd : ∀ fs, d.lookup (p ++ [n]) ≠ some (.dir (some fs)))
    (l : List Str) :
    leafAt (d.place (p ++ [n]) (.file text)) l =
      if l = p ++ [n] then some (.file text) else leafAt d l := by
  induction p generalizing d l with
  | nil =>
    rw [lookup_nil] at h; cases h
    rw [List.nil_append, FsTree.place, show ∀ t : FsTree, t.place [] (.file text) = .file text from
      fun t => by cases t <;> simp [FsTree.place]]
    cases l with
    | nil => rw [leafAt_dir_nil, leafAt_dir_nil, if_neg (by simp)]
    | cons m l =>
      rw [leafAt_cons, leafAt_cons, mapGet_mapInsert]
      by_cases hm : m = n
      · subst hm
        rw [if_pos rfl]
        show leafAt (.file text) l = _
        cases l with
        | nil => simp [leafAt, leafOf]
        | cons k l =>
          rw [if_neg (by simp)]
          show leafAt (.file text) (k :: l) = _
          have : leafAt (.file text) (k :: l) = none := by simp [leafAt, FsTree.lookup]
          rw [this]
          cases hg : mapGet es m with
          | none => rfl
          | some c =>
            have hc : ∀ fs, c ≠ .dir (some fs) := by
              intro fs hcf
              refine hd fs ?_
              rw [List.nil_append, lookup_dir, hg, hcf]
              exact lookup_nil _
            show none = leafAt c (k :: l)
            cases c with
            | dir e =>
              cases e with
              | none => simp [leafAt, FsTree.lookup]
              | some fs => exact absurd rfl (hc fs)
            | _ => simp [leafAt, FsTree.lookup]
      · rw [if_neg (Ne.symm hm), if_neg (by simp [hm])]
  | cons m p ih =>
    obtain ⟨fs, c, rfl, hg, hc⟩ := lookup_cons_some h
    rw [List.cons_append, FsTree.place, hg, Option.getD_some]
    have hd' : ∀ fs, c.lookup (p ++ [n]) ≠ some (.dir (some fs)) := by
      intro gs hgs
      refine hd gs ?_
      rw [List.cons_append, lookup_dir, hg]
      exact hgs
    cases l with
    | nil => rw [leafAt_dir_nil, leafAt_dir_nil, if_neg (by simp)]
    | cons k l =>
      rw [leafAt_cons, leafAt_cons, mapGet_mapInsert]
      by_cases hk : k = m
      · subst hk
        rw [if_pos rfl, hg]
        show leafAt (c.place (p ++ [n]) (.file text)) l = if _ then _ else leafAt c l
        rw [ih hc hd']
        simp
      · rw [if_neg (Ne.symm hk), if_neg (by simp [hk])]

theorem leafAt_remove {d u : FsTree} {p : List Str} {n : Str} (h : d.lookup (p ++ [n]) = some u)
    (hu : NotDir u) (l : List Str) :
    leafAt (d.remove (p ++ [n])) l = if l = p ++ [n] then none else leafAt d l := by
  induction p generalizing d l with
  | nil =>
    obtain ⟨es, c, rfl, hg, hc⟩ := lookup_cons_some h
    rw [lookup_nil] at hc; cases hc
    rw [List.nil_append, FsTree.remove]
    cases l with
    | nil => rw [leafAt_dir_nil, leafAt_dir_nil, if_neg (by simp)]
    | cons k l =>
      rw [leafAt_cons, leafAt_cons, mapGet_filter]
      by_cases hk : k = n
      · subst hk
        rw [if_pos rfl, hg]
        show none = if _ then none else leafAt u l
        cases l with
        | nil => simp
        | cons j l =>
          rw [if_neg (by simp)]
          cases u with
          | dir e =>
            cases e with
            | none => simp [leafAt, FsTree.lookup]
            | some fs => exact absurd rfl (hu fs)
          | _ => simp [leafAt, FsTree.lookup]
      · rw [if_neg hk, if_neg (by simp [hk])]
  | cons m p ih =>
    obtain ⟨fs, c, rfl, hg, hc⟩ := lookup_cons_some h
    have hrem : (FsTree.dir (some fs)).remove (m :: p ++ [n]) =
        .dir (some (mapInsert fs m (c.remove (p ++ [n])))) := by
      cases p with
      | nil => show FsTree.remove _ [m, n] = _; rw [FsTree.remove, hg]; rfl
      | cons q p => show FsTree.remove _ (m :: q :: (p ++ [n])) = _; rw [FsTree.remove, hg]; rfl
    rw [hrem]
    cases l with
    | nil => rw [leafAt_dir_nil, leafAt_dir_nil, if_neg (by simp)]
    | cons k l =>
      rw [leafAt_cons, leafAt_cons, mapGet_mapInsert]
      by_cases hk : k = m
      · subst hk
        rw [if_pos rfl, hg]
        show leafAt (c.remove (p ++ [n])) l = if _ then _ else leafAt c l
        rw [ih hc]
        simp
      · rw [if_neg (Ne.symm hk), if_neg (by simp [hk])]

theorem lookup_remove_parent {d : FsTree} {p : List Str} {n : Str} {es : List (Str × FsTree)}
    (h : d.lookup p = some (.dir (some es))) :
    ∃ es', (d.remove (p ++ [n])).lookup p = some (.dir (some es')) ∧ mapGet es' n = none := by
  induction p generalizing d with
  | nil =>
    rw [lookup_nil] at h; cases h
    rw [List.nil_append, FsTree.remove, lookup_nil]
    exact ⟨_, rfl, by rw [mapGet_filter, if_pos rfl]⟩
  | cons m p ih =>
    obtain ⟨fs, c, rfl, hg, hc⟩ := lookup_cons_some h
    have hrem : (FsTree.dir (some fs)).remove (m :: p ++ [n]) =
        .dir (some (mapInsert fs m (c.remove (p ++ [n])))) := by
      cases p with
      | nil => show FsTree.remove _ [m, n] = _; rw [FsTree.remove, hg]; rfl
      | cons q p => show FsTree.remove _ (m :: q :: (p ++ [n])) = _; rw [FsTree.remove, hg]; rfl
    rw [hrem, lookup_dir, mapGet_mapInsert, if_pos rfl]
    exact ih hc

/-! ## Well-formed disks -/

theorem has_iff_lookup {d u : FsTree} {loc : List Str} (hd : WellFormed d) :
    Has d loc u ↔ d.lookup loc = some u := by
  induction loc generalizing d with
  | nil =>
    rw [lookup_nil]
    constructor
    · rintro ⟨⟩; rfl
    · intro h; cases h; exact .here _
  | cons n ns ih =>
    constructor
    · intro h
      cases h with
      | inside hm ht =>
        cases hd with
        | dir hn hv hw =>
          rw [lookup_dir, (mapGet_some hn).2 hm]
          exact (ih (hw _ hm)).1 ht
    · intro h
      obtain ⟨es, c, rfl, hg, hc⟩ := lookup_cons_some h
      cases hd with
      | dir hn hv hw =>
        have hm := (mapGet_some hn).1 hg
        exact .inside hm ((ih (hw _ hm)).2 hc)

theorem sameFiles_iff {d d' : FsTree} (hd : WellFormed d) (hd' : WellFormed d') :
    SameFiles d d' ↔ ∀ l, leafAt d' l = leafAt d l := by
  constructor
  · intro h l
    apply Option.ext
    intro u
    rw [leafAt_eq_some, leafAt_eq_some, ← has_iff_lookup hd, ← has_iff_lookup hd']
    constructor
    · rintro ⟨h1, h2⟩; exact ⟨(h l u h2).2 h1, h2⟩
    · rintro ⟨h1, h2⟩; exact ⟨(h l u h2).1 h1, h2⟩
  · intro h loc u hu
    rw [has_iff_lookup hd, has_iff_lookup hd']
    have h1 := leafAt_eq_some (d := d) (u := u) (loc := loc)
    have h2 := leafAt_eq_some (d := d') (u := u) (loc := loc)
    rw [h loc] at h2
    constructor
    · intro hh; exact (h2.1 (h1.2 ⟨hh, hu⟩)).1
    · intro hh; exact (h1.1 (h2.2 ⟨hh, hu⟩)).1

theorem mem_mapInsert {β : Type} {m : List (Str × β)} {k : Str} {v : β} {p : Str × β}
    (h : p ∈ mapInsert m k v) : p ∈ m ∨ p = (k, v) := by
  induction m with
  | nil => simp [mapInsert] at h; exact .inr h
  | cons q m ih =>
    obtain ⟨k', v'⟩ := q
    rw [mapInsert] at h
    by_cases hk : k' = k
    · rw [if_pos hk] at h
      rcases List.mem_cons.1 h with h | h
      · exact .inr h
      · exact .inl (List.mem_cons_of_mem _ h)
    · rw [if_neg hk] at h
      rcases List.mem_cons.1 h with h | h
      · exact .inl (h ▸ List.mem_cons_self)
      · rcases ih h with h | h
        · exact .inl (List.mem_cons_of_mem _ h)
        · exact .inr h

theorem wf_insert {es : List (Str × FsTree)} {n : Str} {t : FsTree} (h : WellFormed (.dir (some es)))
    (hn : ValidName n) (ht : WellFormed t) : WellFormed (.dir (some (mapInsert es n t))) := by
  cases h with
  | dir h1 h2 h3 =>
    refine .dir (mapInsert_nodup h1) ?_ ?_
    · intro p hp
      rcases mem_mapInsert hp with hp | rfl
      · exact h2 p hp
      · exact hn
    · intro p hp
      rcases mem_mapInsert hp with hp | rfl
      · exact h3 p hp
      · exact ht

theorem wf_child {es : List (Str × FsTree)} {n : Str} {c : FsTree} (h : WellFormed (.dir (some es)))
    (hg : mapGet es n = some c) : WellFormed c ∧ ValidName n := by
  cases h with
  | dir h1 h2 h3 =>
    have hm := (mapGet_some h1).1 hg
    exact ⟨h3 _ hm, h2 _ hm⟩

theorem wf_empty : WellFormed (.dir (some [])) := .dir (by simp) (by simp) (by simp)

theorem wf_getD {es : List (Str × FsTree)} (n : Str) (h : WellFormed (.dir (some es))) :
    WellFormed ((mapGet es n).getD (.dir (some []))) := by
  cases hg : mapGet es n with
  | none => exact wf_empty
  | some c => exact (wf_child h hg).1

theorem wf_place {d new : FsTree} {loc : List Str} (hd : WellFormed d) (hn : WellFormed new)
    (hl : ∀ n ∈ loc, ValidName n) : WellFormed (d.place loc new) := by
  induction loc generalizing d with
  | nil => rw [FsTree.place]; exact hn
  | cons n ns ih =>
    cases d with
    | dir e =>
      cases e with
      | none => simpa [FsTree.place] using hd
      | some es =>
        rw [FsTree.place]
        exact wf_insert hd (hl n (by simp)) (ih (wf_getD n hd) fun m hm => hl m (List.mem_cons_of_mem _ hm))
    | _ => simpa [FsTree.place] using hd

theorem wf_createDirAll {d d' : FsTree} {loc : List Str} (hd : WellFormed d)
    (hl : ∀ n ∈ loc, ValidName n) (h : d.createDirAll loc = some d') : WellFormed d' := by
  induction loc generalizing d d' with
  | nil =>
    cases d with
    | dir e => simp only [FsTree.createDirAll, Option.some.injEq] at h; rw [← h]; exact hd
    | _ => simp [FsTree.createDirAll] at h
  | cons n ns ih =>
    cases d with
    | dir e =>
      cases e with
      | none => simp [FsTree.createDirAll] at h
      | some es =>
        simp only [FsTree.createDirAll, Option.map_eq_some_iff] at h
        obtain ⟨t, ht, rfl⟩ := h
        exact wf_insert hd (hl n (by simp))
          (ih (wf_getD n hd) (fun m hm => hl m (List.mem_cons_of_mem _ hm)) ht)
    | _ => simp [FsTree.createDirAll] at h

theorem wf_remove {d : FsTree} {loc : List Str} (hd : WellFormed d) : WellFormed (d.remove loc) := by
  induction loc generalizing d with
  | nil =>
    cases d with
    | dir e => cases e <;> simpa [FsTree.remove] using hd
    | _ => simpa [FsTree.remove] using hd
  | cons n ns ih =>
    cases d with
    | dir e =>
      cases e with
      | none => simpa [FsTree.remove] using hd
      | some es =>
        cases ns with
        | nil =>
          rw [FsTree.remove]
          cases hd with
          | dir h1 h2 h3 =>
            refine .dir ?_ (fun p hp => h2 p (List.mem_of_mem_filter hp))
              (fun p hp => h3 p (List.mem_of_mem_filter hp))
            exact h1.sublist ((List.filter_sublist).map _)
        | cons m ns =>
          rw [FsTree.remove]
          cases hg : mapGet es n with
          | none => exact hd
          | some c =>
            obtain ⟨hc, hv⟩ := wf_child hd hg
            exact wf_insert hd hv (ih hc)
    | _ => simpa [FsTree.remove] using hd

/-! ## Writing and removing files -/

theorem writeFile_spec {d d' : FsTree} {p : List Str} {n text : Str}
    (h : d.writeFile (p ++ [n]) text = some d') :
    d' = d.place (p ++ [n]) (.file (some text)) ∧ d'.lookup (p ++ [n]) = some (.file (some text)) ∧
    (∀ l, leafAt d' l = if l = p ++ [n] then some (.file (some text)) else leafAt d l) ∧
    ((d.lookup (p ++ [n]) = none) ∨ ∃ t, d.lookup (p ++ [n]) = some (.file t)) := by
  unfold FsTree.writeFile at h
  cases hl : d.lookup (p ++ [n]) with
  | some u =>
    rw [hl] at h
    cases u with
    | file t =>
      simp only [Option.some.injEq] at h
      subst h
      obtain ⟨es, hp, _⟩ := lookup_snoc_some hl
      exact ⟨rfl, lookup_place hp, leafAt_place hp (by rw [hl]; intro fs h; cases h), .inr ⟨t, rfl⟩⟩
    | other => simp at h
    | dir e => simp at h
  | none =>
    rw [hl] at h
    simp only [List.dropLast_concat] at h
    cases hp : d.lookup p with
    | none => rw [hp] at h; simp at h
    | some v =>
      rw [hp] at h
      cases v with
      | dir e =>
        cases e with
        | none => simp at h
        | some es =>
          simp only [Option.some.injEq] at h
          subst h
          exact ⟨rfl, lookup_place hp, leafAt_place hp (by rw [hl]; simp), .inl rfl⟩
      | _ => simp at h

theorem removeFile_spec {d d' : FsTree} {p : List Str} {n : Str} (h : d.removeFile (p ++ [n]) = some d') :
    d' = d.remove (p ++ [n]) ∧
    (∀ l, leafAt d' l = if l = p ++ [n] then none else leafAt d l) := by
  unfold FsTree.removeFile at h
  cases hl : d.lookup (p ++ [n]) with
  | none => rw [hl] at h; simp at h
  | some u =>
    rw [hl] at h
    cases u with
    | file t =>
      simp only [Option.some.injEq] at h
      subst h
      exact ⟨rfl, leafAt_remove hl fun es h => by cases h⟩
    | other =>
      simp only [Option.some.injEq] at h
      subst h
      exact ⟨rfl, leafAt_remove hl fun es h => by cases h⟩
    | dir e => simp at h

/-! ## Places of paths -/

theorem resolve_lexical {d : FsTree} {loc l : List Str} {cs : List PathComp}
    (h : d.resolve loc cs = some l) : l = lexicalPlace loc cs := by
  induction cs generalizing loc with
  | nil => simp [FsTree.resolve] at h; simp [lexicalPlace, h]
  | cons c cs ih =>
    have key : (match d.lookup loc with
        | some (.dir _) => d.resolve (stepFrom loc c) cs
        | _ => none) = some l → l = lexicalPlace loc (c :: cs) := by
      intro h
      cases hl : d.lookup loc with
      | none => rw [hl] at h; simp at h
      | some u =>
        rw [hl] at h
        cases u with
        | dir e => exact ih h
        | _ => simp at h
    cases c with
    | rootDir => exact ih h
    | _ => exact key h

theorem placeOf_eq (d : FsTree) (base : List Str) (path : Str) :
    d.placeOf base path = lexicalPlace base (pathComponents path) := by
  unfold FsTree.placeOf
  cases h : d.resolve base (pathComponents path) with
  | none => rfl
  | some l => exact resolve_lexical h

theorem toAbsolutePath_eq {d : FsTree} {ws loc : List Str} {rel : Str}
    (h : toAbsolutePath d ws rel = some loc) : loc = lexicalPlace ws (pathComponents rel) := by
  unfold toAbsolutePath newPath at h
  cases hr : d.resolve ws (pathComponents rel) with
  | none =>
    rw [hr] at h
    dsimp only at h
    by_cases hc : strContains rel "..".toList = true
    · rw [if_pos hc] at h; cases h
    · rw [if_neg hc] at h; cases h; rfl
  | some l =>
    rw [hr] at h
    dsimp only at h
    cases hl : d.lookup l with
    | none =>
      rw [hl] at h
      dsimp only at h
      by_cases hc : strContains rel "..".toList = true
      · rw [if_pos hc] at h; cases h
      · rw [if_neg hc] at h; cases h; rfl
    | some u =>
      rw [hl] at h
      dsimp only at h
      by_cases hw : ws.isPrefixOf l = true
      · rw [if_pos hw] at h; cases h; exact resolve_lexical hr
      · rw [if_neg hw] at h; cases h

theorem lexicalPlace_append (base : List Str) (a b : List PathComp) :
    lexicalPlace base (a ++ b) = lexicalPlace (lexicalPlace base a) b := List.foldl_append

theorem pieceComp_normal {p n : Str} (h : pieceComp p = some (.normal n)) : p = n ∧ n ≠ [] ∧ n ≠ ['.'] ∧
    n ≠ ['.', '.'] := by
  unfold pieceComp at h
  split at h
  · cases h
  · split at h
    · cases h
    · split at h
      · cases h
      · cases h; exact ⟨rfl, by assumption, by assumption, by assumption⟩

theorem pathComponents_valid {path n : Str} (h : PathComp.normal n ∈ pathComponents path) : ValidName n := by
  have key : ∀ p ∈ splitChar '/' path, pieceComp p = some (.normal n) → ValidName n := by
    intro p hp hpc
    obtain ⟨rfl, h1, h2, h3⟩ := pieceComp_normal hpc
    exact ⟨h1, splitChar_no p hp, h2, h3⟩
  unfold pathComponents at h
  split at h
  · simp at h
  · simp only [List.mem_cons, List.mem_filterMap, reduceCtorEq, false_or] at h
    obtain ⟨p, hp, hpc⟩ := h
    exact key p hp hpc
  · split at h
    · next first rest heq =>
      rcases List.mem_append.1 h with h | h
      · split at h
        · simp at h
        · exact key first (heq ▸ List.mem_cons_self) (by simpa using h)
      · simp only [List.mem_filterMap] at h
        obtain ⟨p, hp, hpc⟩ := h
        exact key p (heq ▸ List.mem_cons_of_mem _ hp) hpc
    · simp at h

theorem lexicalPlace_valid {base : List Str} {cs : List PathComp} (hb : ∀ n ∈ base, ValidName n)
    (hc : ∀ n, PathComp.normal n ∈ cs → ValidName n) : ∀ n ∈ lexicalPlace base cs, ValidName n := by
  induction cs generalizing base with
  | nil => exact hb
  | cons c cs ih =>
    have hc' := fun n hn => hc n (List.mem_cons_of_mem _ hn)
    cases c with
    | rootDir => exact ih (base := []) (by intro n hn; cases hn) hc'
    | curDir => exact ih hb hc'
    | parentDir => exact ih (fun n hn => hb n (List.mem_of_mem_dropLast hn)) hc'
    | normal m =>
      refine ih (fun n hn => ?_) hc'
      rcases List.mem_append.1 hn with hn | hn
      · exact hb n hn
      · rw [List.mem_singleton.1 hn]; exact hc m List.mem_cons_self

end Firm
