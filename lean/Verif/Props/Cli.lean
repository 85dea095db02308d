import Verif.Model.Cli
import Verif.Props.Tools

/-!
# C64, C65, C72: the command line program
-/

namespace Firm
open Spec

/-! ## C64: saving the graph -/

/-- A complete graph is on disk, as current or as backup. -/
def Spec.GraphSaved (complete : Str → Prop) (f : GraphFiles) : Prop :=
  ∃ text, complete text ∧ (f.current = some text ∨ f.backup = some text)

/-- A run that was interrupted. -/
def Spec.Interrupted : BuildRun → Prop
  | .done _ => False
  | .cut _ _ => True

/-- The text a run writes. -/
def Spec.BuildRun.text : BuildRun → Str
  | .done json => json
  | .cut json _ => json

theorem setAside_backup {f : GraphFiles} {t : Str} (h : f.current = some t) : f.setAside = ⟨none, some t⟩ := by
  unfold GraphFiles.setAside; rw [h]

/-- Every state during a save that starts with a complete current graph. -/
theorem trace_saved {complete : Str → Prop} {f : GraphFiles} {t json : Str} (h : f.current = some t) (hc : complete t) :
    ∀ f' ∈ f.saveTrace json, GraphSaved complete f' := by
  intro f' hf
  unfold GraphFiles.saveTrace at hf
  rw [setAside_backup h] at hf
  simp only [List.mem_cons, List.mem_map] at hf
  rcases hf with rfl | rfl | ⟨n, _, rfl⟩
  · exact ⟨t, hc, .inl h⟩
  · exact ⟨t, hc, .inr rfl⟩
  · exact ⟨t, hc, .inr rfl⟩

/-- C64: after any sequence of builds in which no two successive ones are interrupted, a complete graph
is on disk. Missing for the full claim: two interrupted builds in a row, where it is false
(`C64_two_crashes`). -/
theorem C64_saved_partial (complete : Str → Prop) (f : GraphFiles) (t : Str) (ht : f.current = some t) (hc : complete t)
    (runs : List BuildRun) (hr : ∀ r ∈ runs, complete (BuildRun.text r))
    (hi : runs.IsChain fun a b => ¬ (Interrupted a ∧ Interrupted b)) :
    GraphSaved complete (runs.foldl GraphFiles.after f) := by
  have key : ∀ (runs : List BuildRun) (f : GraphFiles),
      (∀ r ∈ runs, complete (BuildRun.text r)) → (runs.IsChain fun a b => ¬ (Interrupted a ∧ Interrupted b)) →
      ((∃ t, f.current = some t ∧ complete t) ∨
        (GraphSaved complete f ∧ ∀ r ∈ runs.head?, ¬ Interrupted r)) →
      GraphSaved complete (runs.foldl GraphFiles.after f) := by
    intro runs
    induction runs with
    | nil =>
      rintro f _ _ (⟨t, h1, h2⟩ | ⟨h, _⟩)
      · exact ⟨t, h2, .inl h1⟩
      · exact h
    | cons r runs ih =>
      intro f hr hi h
      rw [List.foldl_cons]
      refine ih _ (fun x hx => hr x (List.mem_cons_of_mem _ hx)) hi.tail ?_
      cases r with
      | done json => exact .inl ⟨json, rfl, hr (.done json) (by simp)⟩
      | cut json k =>
        rcases h with ⟨t, h1, h2⟩ | ⟨_, h⟩
        · right
          refine ⟨?_, ?_⟩
          · unfold GraphFiles.after
            dsimp only
            cases hk : (f.saveTrace json)[k]? with
            | none => exact ⟨json, hr (.cut json k) (by simp), .inl rfl⟩
            | some f' => exact trace_saved h1 h2 f' (List.mem_of_getElem? hk)
          · intro r hr' hint
            cases runs with
            | nil => cases hr'
            | cons r' runs =>
              cases hr'
              rw [List.isChain_cons_cons] at hi
              exact hi.1 ⟨trivial, hint⟩
        · exact absurd trivial (h (.cut json k) (by simp))
  exact key runs f hr hi (.inl ⟨t, ht, hc⟩)

/-- C64: during a build that starts with a complete current graph, a complete graph is on disk at every
moment, and a completed build leaves the new one as current and the previous one as backup. -/
theorem C64_one_build (complete : Str → Prop) (f : GraphFiles) (t json : Str) (ht : f.current = some t) (hc : complete t) :
    (∀ f' ∈ f.saveTrace json, GraphSaved complete f') ∧ (f.saveTrace json).getLast? = some (f.save json) ∧
    f.save json = ⟨some json, some t⟩ := by
  refine ⟨trace_saved ht hc, ?_, ?_⟩
  · unfold GraphFiles.saveTrace GraphFiles.save
    rw [List.range_succ, List.map_append, ← List.cons_append, ← List.cons_append]
    simp only [List.map_cons, List.map_nil, List.take_length]
    rw [List.getLast?_concat]
  · unfold GraphFiles.save; rw [setAside_backup ht]

/-- C64 fails after two interrupted builds: the first leaves half a graph as current, the second moves
it over the complete backup. -/
theorem C64_two_crashes : ∃ (complete : Str → Prop) (f : GraphFiles) (t : Str) (runs : List BuildRun),
    f.current = some t ∧ complete t ∧ (∀ r ∈ runs, complete (BuildRun.text r)) ∧
    ¬ GraphSaved complete (runs.foldl GraphFiles.after f) :=
  ⟨(· = "{}".toList), ⟨some "{}".toList, none⟩, "{}".toList, [.cut "{}".toList 3, .cut "{}".toList 1], rfl, rfl,
    by simp [BuildRun.text], by
    rintro ⟨text, rfl, h⟩
    revert h
    decide⟩

/-- C64: the backup is never read: after one interrupted build loading fails although it is complete. -/
theorem C64_backup_unused : ∃ (read : Str → Option Unit) (f : GraphFiles) (run : BuildRun),
    f.load read ≠ none ∧ (f.after run).load read = none ∧ ((f.after run).backup.bind read) ≠ none :=
  ⟨fun t => if t = "{}".toList then some () else none, ⟨some "{}".toList, none⟩, .cut "{}".toList 3, by decide⟩

/-- C64: after a build that was interrupted before its graph was written completely, loading fails as long as no
beginning of the text can be read (C97), although the previous graph is the backup. -/
theorem C64_cut_refused {α : Type} (read : Str → Option α) (f : GraphFiles) (t json : Str) (k : Nat) (ht : f.current = some t)
    (hp : ∀ n < json.length, read (json.take n) = none) (h1 : 1 ≤ k) (h2 : k ≤ json.length + 1) :
    (f.after (.cut json k)).load read = none ∧ (f.after (.cut json k)).backup = some t := by
  unfold GraphFiles.after GraphFiles.saveTrace
  rw [setAside_backup ht]
  obtain ⟨k, rfl⟩ : ∃ m, k = m + 1 := ⟨k - 1, by omega⟩
  cases k with
  | zero => exact ⟨rfl, rfl⟩
  | succ n =>
    have hn : n < json.length := by omega
    have : (List.range (json.length + 1))[n]? = some n :=
      List.getElem?_range (by omega)
    simp only [List.getElem?_cons_succ, List.getElem?_map, this, Option.map_some, Option.getD_some]
    exact ⟨hp n hn, by simp⟩

example : (fun t => if t = "{}".toList then some () else none) ("{}".toList.take 1) = none ∧
    (⟨some "{1}".toList, none⟩ : GraphFiles).after (.cut "{}".toList 1) = ⟨none, some "{1}".toList⟩ := by decide

example : (⟨some "{1}".toList, none⟩ : GraphFiles).saveTrace "{}".toList =
    [⟨some "{1}".toList, none⟩, ⟨none, some "{1}".toList⟩, ⟨some [], some "{1}".toList⟩,
     ⟨some "{".toList, some "{1}".toList⟩, ⟨some "{}".toList, some "{1}".toList⟩] := by decide

example : List.IsChain (fun a b => ¬ (Interrupted a ∧ Interrupted b)) [.cut "a".toList 1, .done "b".toList, .cut "c".toList 2] := by
  simp [Interrupted]

/-! ## C65: the id of interactive add -/

/-- The candidates in the order in which they are tried. -/
def Spec.candidate (base : Str) (k : Nat) : Str := if k = 0 then base else base ++ '_' :: showNat k

theorem uniqueLoop_spec (S : Shell) (g : Graph) (type base : Str) (n k : Nat) :
    ∃ j, k ≤ j ∧ j ≤ k + n ∧ S.uniqueLoop g type base n (k + 1) (candidate base k) = candidate base j ∧
      (∀ i, k ≤ i → i < j → (g.getEntity (S.lang.cases.composeEntityId type (candidate base i))).isSome) ∧
      (j < k + n → (g.getEntity (S.lang.cases.composeEntityId type (candidate base j))).isSome = false) := by
  induction n generalizing k with
  | zero => exact ⟨k, Nat.le_refl _, Nat.le_refl _, rfl, fun i h1 h2 => by omega, fun h => by omega⟩
  | succ n ih =>
    rw [Shell.uniqueLoop]
    split
    · next hs =>
      obtain ⟨j, h1, h2, h3, h4, h5⟩ := ih (k + 1)
      have : candidate base (k + 1) = base ++ '_' :: showNat (k + 1) := if_neg (by omega)
      rw [this] at h3
      refine ⟨j, by omega, by omega, h3, fun i hi1 hi2 => ?_, fun h => h5 (by omega)⟩
      rcases Nat.lt_or_ge k i with h | h
      · exact h4 i h hi2
      · have : i = k := by omega
        subst this; exact hs
    · next hs => exact ⟨k, Nat.le_refl _, by omega, rfl, fun i h1 h2 => by omega, fun _ => by simpa using hs⟩

/-- C65: the id is the first of the thousand candidates that does not belong to an entity of the graph,
or the last one. -/
theorem C65_first (S : Shell) (g : Graph) (type chosen : Str) :
    ∃ j ≤ 999, S.uniqueEntityId g type chosen = candidate (S.sanitize chosen) j ∧
      (∀ i < j, (g.getEntity (S.lang.cases.composeEntityId type (candidate (S.sanitize chosen) i))).isSome) ∧
      (j < 999 → (g.getEntity (S.lang.cases.composeEntityId type (candidate (S.sanitize chosen) j))).isSome = false) := by
  obtain ⟨j, h1, h2, h3, h4, h5⟩ := uniqueLoop_spec S g type (S.sanitize chosen) 999 0
  exact ⟨j, by omega, h3, fun i hi => h4 i (by omega) hi, fun h => h5 (by omega)⟩

/-- C65: of the text of an id the letters, digits, blanks, hyphens and underscores are normalised, the rest does not
matter. -/
theorem C65_text (S : Shell) (kept dropped : Str) (s : Str)
    (hk : ∀ c ∈ kept, c ∈ [' ', '_', '-'] ∨ S.alnum c = true) (hd : ∀ c ∈ dropped, c ∉ [' ', '_', '-'] ∧ S.alnum c = false) :
    S.sanitize kept = S.lang.cases.snake kept ∧ S.sanitize (kept ++ (dropped ++ s)) = S.sanitize (kept ++ s) := by
  unfold Shell.sanitize
  have h1 : kept.filter (fun c => c == ' ' || c == '_' || c == '-' || S.alnum c) = kept := by
    refine List.filter_eq_self.2 fun c hc => ?_
    have := hk c hc
    simp only [List.mem_cons, List.not_mem_nil, or_false] at this
    rcases this with (rfl | rfl | rfl) | h <;> simp_all
  have h2 : dropped.filter (fun c => c == ' ' || c == '_' || c == '-' || S.alnum c) = [] := by
    refine List.filter_eq_nil_iff.2 fun c hc => ?_
    obtain ⟨h1, h2⟩ := hd c hc
    simp only [List.mem_cons, List.not_mem_nil, or_false, not_or] at h1
    simp [h1, h2]
  constructor
  · rw [h1]
  · rw [List.filter_append, List.filter_append, h2, List.filter_append, List.nil_append]

/-- C65: the id is unused exactly when one of the thousand candidates is. -/
theorem C65_iff (S : Shell) (g : Graph) (type chosen : Str) :
    g.getEntity (S.lang.cases.composeEntityId type (S.uniqueEntityId g type chosen)) = none ↔
    ∃ k < 1000, g.getEntity (S.lang.cases.composeEntityId type (candidate (S.sanitize chosen) k)) = none := by
  obtain ⟨j, h1, h2, h3, h4⟩ := C65_first S g type chosen
  rw [h2]
  constructor
  · intro h; exact ⟨j, by omega, h⟩
  · rintro ⟨k, hk, h⟩
    rcases Nat.lt_or_ge j 999 with hj | hj
    · simpa using h4 hj
    · rcases Nat.lt_or_ge k j with hkj | hkj
      · have := h3 k hkj
        rw [h] at this
        cases this
      · have : k = j := by omega
        subst this; exact h

theorem noNeighbours_append {R : Char → Char → Prop} {a b : Str} (h : NoNeighbours R (a ++ b)) : NoNeighbours R a := by
  rw [noNeighbours_iff] at h ⊢
  exact h.left_of_append

/-- The candidates are in normal form. -/
theorem candidate_snake {t : CaseTable} (ht : RegularCase t) {base : Str} (h : IsSnake t base) (hne : base ≠ []) (k : Nat) :
    IsSnake t (candidate base k) := by
  unfold candidate
  split
  · exact h
  · have hd := showNat_digits k
    have hn := showNat_ne_nil k
    have hdig : ∀ c, isDigit c = true → c ≠ '_' ∧ c ≠ ' ' ∧ c ≠ '-' := by
      intro c hc
      refine ⟨?_, ?_, ?_⟩ <;> (rintro rfl; revert hc; decide)
    refine ⟨?_, ?_, ?_, ?_, ?_⟩
    · intro c hc
      rcases List.mem_append.1 hc with hc | hc
      · exact h.chars c hc
      · rcases List.mem_cons.1 hc with rfl | hc
        · exact ⟨(ht.delim '_' (.inl (by decide))).1, by decide, by decide⟩
        · exact ⟨(ht.digit c (hd c hc)).1, (hdig c (hd c hc)).2⟩
    · have := h.first
      cases base with
      | nil => exact absurd rfl hne
      | cons c s => exact this
    · have : (base ++ '_' :: showNat k).getLast? = (showNat k).getLast? := by
        rw [List.getLast?_append, List.getLast?_cons]
        cases hs : showNat k with
        | nil => exact absurd hs hn
        | cons c s => simp [List.getLast?_cons]
      rw [this]
      intro hc
      exact (hdig _ (hd '_' (List.mem_of_getLast? hc))).1 rfl
    · rw [noNeighbours_iff, List.isChain_append]
      refine ⟨noNeighbours_iff.1 h.doubled, ?_, ?_⟩
      · cases hs : showNat k with
        | nil => exact absurd hs hn
        | cons c s =>
          rw [hs] at hd
          rw [List.isChain_cons_cons]
          refine ⟨fun hh => (hdig c (hd c (by simp))).1 hh.2, ?_⟩
          refine List.Pairwise.isChain (List.pairwise_of_forall_mem_list ?_)
          intro a ha b _ hh
          exact (hdig a (hd a ha)).1 hh.1
      · intro x hx y hy hh
        have : base.getLast? = some x := hx
        rw [hh.1] at this
        exact h.last this
    · rw [noNeighbours_iff, List.isChain_append]
      refine ⟨noNeighbours_iff.1 h.contact, ?_, ?_⟩
      · cases hs : showNat k with
        | nil => exact absurd hs hn
        | cons c s =>
          rw [hs] at hd
          rw [List.isChain_cons_cons]
          refine ⟨?_, ?_⟩
          · have h1 := (ht.delim '_' (.inl (by decide))).2
            rintro (⟨h2, _⟩ | ⟨h2, _⟩)
            · rw [h1] at h2; cases h2
            · revert h2; decide
          · refine List.Pairwise.isChain (List.pairwise_of_forall_mem_list ?_)
            intro a ha b hb hh
            rcases hh with ⟨h2, _⟩ | ⟨_, h2⟩
            · rw [(ht.digit a (hd a ha)).2] at h2; cases h2
            · rw [(ht.digit b (hd b hb)).2] at h2; cases h2
      · intro x hx y hy hh
        cases hy
        have h1 := (ht.delim '_' (.inl (by decide))).2
        rcases hh with ⟨_, h2⟩ | ⟨_, h2⟩
        · revert h2; decide
        · rw [h1] at h2; cases h2

theorem candidate_inj {base : Str} {i j : Nat} (h : candidate base i = candidate base j) : i = j := by
  unfold candidate at h
  split at h <;> split at h
  · omega
  · have := congrArg List.length h; simp at this
  · have := congrArg List.length h; simp at this
  · have := List.append_cancel_left h
    injection this with _ h
    have := congrArg digitsVal h
    rwa [digitsVal_showNat, digitsVal_showNat] at this

/-- The composite ids of the candidates differ. -/
theorem candidate_id_inj {t : CaseTable} (ht : RegularCase t) {type base : Str}
    (hty : ∀ c, type.getLast? = some c → isDelim c = false) (h : IsSnake t base) (hne : base ≠ []) {i j : Nat}
    (he : t.composeEntityId type (candidate base i) = t.composeEntityId type (candidate base j)) : i = j := by
  have hh : ∀ k, ∀ c, (candidate base k).head? = some c → isDelim c = false := by
    intro k c hc
    have h1 := (candidate_snake ht h hne k).first
    have h2 := (candidate_snake ht h hne k).chars c (List.mem_of_head? hc)
    have : c ≠ '_' := by rintro rfl; exact h1 hc
    unfold isDelim
    simp [this, h2.2.1, h2.2.2]
  rw [compose_eq ht hty (hh i), compose_eq ht hty (hh j), snake_fixed ht (candidate_snake ht h hne i),
    snake_fixed ht (candidate_snake ht h hne j)] at he
  have := List.append_cancel_left he
  injection this with _ he
  exact candidate_inj he

/-- C65: with fewer than a thousand entities in the graph, the id is unused there. Missing for the full
claim: larger graphs (`C65_exhausted`), and entities that are in the files but not in the saved graph
(`C65_stale`). -/
theorem C65_unused_partial (S : Shell) (ht : RegularCase S.lang.cases) (b : WorkspaceBuild) (hb : b.toGraph.2 = .ok ())
    (hn : b.entities.length < 1000) (type chosen : Str) (hty : ∀ c, type.getLast? = some c → isDelim c = false)
    (hc : S.sanitize chosen ≠ []) :
    ∀ e ∈ b.entities, e.id ≠ S.lang.cases.composeEntityId type (S.uniqueEntityId b.toGraph.1 type chosen) := by
  have hs : IsSnake S.lang.cases (S.sanitize chosen) := C47_normal_partial ht _
  have hfree : ∃ k < 1000, b.toGraph.1.getEntity (S.lang.cases.composeEntityId type (candidate (S.sanitize chosen) k)) = none := by
    by_contra hcon
    have hall : ∀ k ∈ List.range 1000, S.lang.cases.composeEntityId type (candidate (S.sanitize chosen) k) ∈ b.entities.map (·.id) := by
      intro k hk
      rw [List.mem_range] at hk
      cases hg : b.toGraph.1.getEntity (S.lang.cases.composeEntityId type (candidate (S.sanitize chosen) k)) with
      | none => exact absurd ⟨k, hk, hg⟩ hcon
      | some e =>
        obtain ⟨h1, h2⟩ := (C44_lookup b hb _ e).1 hg
        exact List.mem_map.2 ⟨e, h1, h2⟩
    have hnd : ((List.range 1000).map fun k => S.lang.cases.composeEntityId type (candidate (S.sanitize chosen) k)).Nodup :=
      List.Nodup.map_on (fun i _ j _ h => candidate_id_inj ht hty hs hc h) List.nodup_range
    have hsub : ((List.range 1000).map fun k => S.lang.cases.composeEntityId type (candidate (S.sanitize chosen) k)) ⊆
        b.entities.map (·.id) := by
      intro x hx
      obtain ⟨k, hk, rfl⟩ := List.mem_map.1 hx
      exact hall k hk
    have := (List.subperm_of_subset hnd hsub).length_le
    rw [List.length_map, List.length_map, List.length_range] at this
    omega
  have := (C65_iff S b.toGraph.1 type chosen).2 hfree
  intro e he hid
  have h2 := (C44_lookup b hb _ e).2 ⟨he, hid⟩
  rw [h2] at this
  cases this

/-- A shell for the examples. -/
def exShell : Shell where
  lang := exLang
  alnum c := c.isAlphanum
  pathArg _ s := s
  order m := m
  ws := ["w".toList]

theorem exLang_regular : RegularCase exLang.cases := asciiTable_regular

theorem toGraph_ok {b : WorkspaceBuild} (h : (b.entities.map (·.id)).Nodup) : b.toGraph.2 = .ok () := by
  have h2 := (C02_bulk_ok [] b.entities).1
  have hrun : Graph.run [] = Graph.empty := rfl
  rw [hrun] at h2
  have hclash : NoClash (accepted []) b.entities := by simpa [NoClash, accepted] using h
  have := h2.2 hclash
  unfold WorkspaceBuild.toGraph
  cases hg : Graph.empty.addEntities b.entities with
  | mk g r =>
    rw [hg] at this
    cases r with
    | ok _ => rfl
    | error _ => cases this

theorem exhausted (n : Nat) (hn : 999 < n) : ∃ b : WorkspaceBuild, b.toGraph.2 = .ok () ∧
    ∃ e ∈ b.entities, e.id = exShell.lang.cases.composeEntityId "t".toList
      (exShell.uniqueEntityId b.toGraph.1 "t".toList "x".toList) := by
  have hs : IsSnake exShell.lang.cases "x".toList :=
    (C47_unchanged asciiTable_regular _).1 (by decide)
  have hty : ∀ c, "t".toList.getLast? = some c → isDelim c = false := by decide
  have hok : (⟨(List.range n).map fun k => Entity.new (exShell.lang.cases.composeEntityId "t".toList
      (candidate "x".toList k)) "t".toList, []⟩ : WorkspaceBuild).toGraph.2 = .ok () := by
    apply toGraph_ok
    dsimp only
    rw [List.map_map]
    exact List.Nodup.map_on (fun i _ j _ h => candidate_id_inj exLang_regular hty hs (by decide) h) List.nodup_range
  refine ⟨_, hok, ?_⟩
  obtain ⟨j, h1, h2, _⟩ := C65_first exShell (⟨(List.range n).map fun k => Entity.new
    (exShell.lang.cases.composeEntityId "t".toList (candidate "x".toList k)) "t".toList, []⟩ : WorkspaceBuild).toGraph.1
    "t".toList "x".toList
  have hx : exShell.sanitize "x".toList = "x".toList := by decide
  rw [hx] at h2
  rw [h2]
  exact ⟨_, List.mem_map.2 ⟨j, List.mem_range.2 (by omega), rfl⟩, rfl⟩

/-- C65 fails when all the candidates are taken: the chosen id belongs to an entity. -/
theorem C65_exhausted : ∃ (S : Shell) (b : WorkspaceBuild) (type chosen : Str), b.toGraph.2 = .ok () ∧
    ∃ e ∈ b.entities, e.id = S.lang.cases.composeEntityId type (S.uniqueEntityId b.toGraph.1 type chosen) := by
  obtain ⟨b, h⟩ := exhausted 1000 (by decide)
  exact ⟨exShell, b, "t".toList, "x".toList, h⟩

/-- C65 fails when the saved graph is older than the files: the id is compared with the saved graph
only. -/
theorem C65_stale : ∃ (S : Shell) (saved now : WorkspaceBuild) (type chosen : Str), saved.toGraph.2 = .ok () ∧
    now.toGraph.2 = .ok () ∧
    ∃ e ∈ now.entities, e.id = S.lang.cases.composeEntityId type (S.uniqueEntityId saved.toGraph.1 type chosen) :=
  ⟨exShell, ⟨[], []⟩, ⟨[Entity.new "t.x".toList "t".toList], []⟩, "t".toList, "x".toList, by decide +kernel,
    by decide +kernel, Entity.new "t.x".toList "t".toList, by simp, by decide +kernel⟩

example : exShell.uniqueEntityId
    (⟨[Entity.new "t.x_y".toList "t".toList, Entity.new "t.x_y_1".toList "t".toList], []⟩ : WorkspaceBuild).toGraph.1
    "t".toList "X, y!".toList = "x_y_2".toList := by decide +kernel

example : (∀ c ∈ "my-Task".toList, c ∈ [' ', '_', '-'] ∨ exShell.alnum c = true) ∧
    (∀ c ∈ "?!".toList, c ∉ [' ', '_', '-'] ∧ exShell.alnum c = false) ∧
    exShell.sanitize "my-Task?!".toList = "my_task".toList := by decide

/-! ## C72: non-interactive add -/

theorem stemOf_spec {name : Str} (h : name ≠ []) : stemOf name ≠ [] ∧ ∃ rest, name = stemOf name ++ rest := by
  refine ⟨?_, ?_⟩
  · unfold stemOf
    have hj := joinWith_splitChar '.' name
    cases he : extensionOf name with
    | none => exact h
    | some ext =>
      dsimp only
      have key : ∃ p, p ≠ [] ∧ name = p ++ '.' :: ext := by
        unfold extensionOf at he
        split at he
        · cases he
        · cases he
        · next p e heq =>
          split at he
          · cases he
          · next hp =>
            cases he
            rw [heq] at hj
            exact ⟨p, hp, by rw [← hj]; simp [joinWith]⟩
        · next h1 h2 h3 =>
          obtain ⟨ini, hini⟩ := List.getLast?_eq_some_iff.1 he
          have hne : ini ≠ [] := by rintro rfl; exact h2 _ hini
          refine ⟨joinWith ['.'] ini, ?_, ?_⟩
          · intro hnil
            rcases joinWith_eq_nil hnil with h | h
            · exact hne h
            · rw [h] at hini; exact h3 _ _ hini
          · rw [← hj, hini, joinWith_snoc hne]; simp
      obtain ⟨p, hp, rfl⟩ := key
      have : (p ++ '.' :: ext).length - ext.length - 1 = p.length := by simp; omega
      rw [this, List.take_left]
      exact hp
  · unfold stemOf
    split
    · exact ⟨[], by simp⟩
    · exact ⟨_, (List.take_append_drop _ _).symm⟩

theorem withFirm_valid {cs : List PathComp} (h : ∀ n, PathComp.normal n ∈ cs → ValidName n) :
    ∀ n, PathComp.normal n ∈ withFirmExtension cs → ValidName n := by
  intro n hn
  unfold withFirmExtension at hn
  split at hn
  · next name heq =>
    rcases List.mem_append.1 hn with hn | hn
    · exact h n (List.mem_of_mem_dropLast hn)
    · rw [List.mem_singleton] at hn
      cases hn
      have hv := h name (List.mem_of_getLast? heq)
      obtain ⟨h1, rest, h2⟩ := stemOf_spec hv.nonempty
      have hlen : 5 ≤ (stemOf name ++ ".firm".toList).length := by simp
      refine ⟨by simp, ?_, ?_, ?_⟩
      · intro hm
        rcases List.mem_append.1 hm with hm | hm
        · exact hv.noSlash (by rw [h2]; exact List.mem_append_left _ hm)
        · revert hm; decide
      · intro hc; rw [hc] at hlen; simp at hlen
      · intro hc; rw [hc] at hlen; simp at hlen
  · exact h n hn

theorem joinComps_valid {ws : List Str} (hws : ∀ n ∈ ws, ValidName n) (path : Str) :
    ∀ n, PathComp.normal n ∈ joinComps ws path → ValidName n := by
  intro n hn
  unfold joinComps at hn
  split at hn
  · exact pathComponents_valid hn
  · rcases List.mem_cons.1 hn with hn | hn
    · cases hn
    · rcases List.mem_append.1 hn with hn | hn
      · obtain ⟨m, hm, he⟩ := List.mem_map.1 hn
        cases he
        exact hws n hm
      · exact pathComponents_valid (List.mem_filter.1 hn).1

theorem dslPath_valid {S : Shell} (hws : ∀ n ∈ S.ws, ValidName n) (f : Option Str) (type : Str) :
    ∀ n ∈ lexicalPlace [] (S.dslPath f type), ValidName n := by
  refine lexicalPlace_valid (by simp) (withFirm_valid ?_)
  unfold Shell.basePath
  split
  · exact joinComps_valid hws _
  · split
    · exact fun n hn => pathComponents_valid hn
    · exact joinComps_valid hws _

/-- What appending does: the text is behind the old one, nothing else changes. -/
theorem cliAppend_spec {d d' : FsTree} {loc : List Str} {dsl : Str} {ok : Bool} (hd : WellFormed d)
    (hl : ∀ n ∈ loc, ValidName n) (h : cliAppend d loc dsl = (d', ok)) :
    WellFormed d' ∧ (ok = false → ∀ l, leafAt d' l = leafAt d l) ∧
    (ok = true → (leafAt d loc = some (.file none) ∧ ∀ l, leafAt d' l = leafAt d l) ∨
      ∃ old, LeafSet d d' loc (some (.file (some (old ++ dsl)))) ∧
      ((old = [] ∧ leafAt d loc = none) ∨ leafAt d loc = some (.file (some old)))) := by
  unfold cliAppend at h
  cases hc : d.createDirAll loc.dropLast with
  | none => rw [hc] at h; cases h; exact ⟨hd, fun _ _ => rfl, fun h => (by cases h)⟩
  | some d1 =>
    have hd1 := wf_createDirAll hd (fun n hn => hl n (List.mem_of_mem_dropLast hn)) hc
    have hl1 := leafAt_createDirAll hc
    rw [hc] at h
    dsimp only at h
    rcases List.eq_nil_or_concat loc with rfl | ⟨p, n, rfl⟩
    · have : ∃ x, d1 = .dir x := by
        cases d with
        | dir e => rw [List.dropLast_nil] at hc; rw [FsTree.createDirAll] at hc; cases hc; exact ⟨_, rfl⟩
        | file t => cases hc
        | other => cases hc
      obtain ⟨x, rfl⟩ := this
      have : (FsTree.dir x).lookup [] = some (.dir x) := lookup_nil _
      rw [this] at h
      cases h
      exact ⟨hd1, fun _ => hl1, fun h => (by cases h)⟩
    · rw [List.concat_eq_append] at *
      split at h
      · next hlk =>
        cases hw : d1.writeFile (p ++ [n]) dsl with
        | none => rw [hw] at h; cases h; exact ⟨hd1, fun _ => hl1, fun h => (by cases h)⟩
        | some d2 =>
          rw [hw] at h
          cases h
          obtain ⟨e1, e2, e3, e4⟩ := writeFile_spec hw
          refine ⟨by rw [e1]; exact wf_place hd1 (.file _) hl, fun h => (by cases h), fun _ => .inr ⟨[], ?_, ?_⟩⟩
          · exact leafSet_congr hl1 e3
          · left
            refine ⟨rfl, ?_⟩
            rw [← hl1]; unfold leafAt; rw [hlk]; rfl
      · next old hlk =>
        cases hw : d1.writeFile (p ++ [n]) (old ++ dsl) with
        | none => rw [hw] at h; cases h; exact ⟨hd1, fun _ => hl1, fun h => (by cases h)⟩
        | some d2 =>
          rw [hw] at h
          cases h
          obtain ⟨e1, e2, e3, e4⟩ := writeFile_spec hw
          refine ⟨by rw [e1]; exact wf_place hd1 (.file _) hl, fun h => (by cases h), fun _ => .inr ⟨old, ?_, ?_⟩⟩
          · exact leafSet_congr hl1 e3
          · right
            rw [← hl1]
            exact leafAt_eq_some.2 ⟨hlk, fun es h => by cases h⟩
      · next hlk =>
        cases h
        refine ⟨hd1, fun h => (by cases h), fun _ => .inl ⟨?_, hl1⟩⟩
        rw [← hl1]
        exact leafAt_eq_some.2 ⟨hlk, fun es h => by cases h⟩
      · cases h
        exact ⟨hd1, fun _ => hl1, fun h => (by cases h)⟩

theorem cli_addFields_id {S : Shell} {target : List PathComp} {sc : EntitySchema} {fs : List (Str × Str)} {e e' : Entity}
    (h : S.addFields target sc e fs = some e') : e'.id = e.id := by
  induction fs generalizing e with
  | nil => rw [Shell.addFields] at h; cases h; rfl
  | cons p fs ih =>
    obtain ⟨name, v⟩ := p
    rw [Shell.addFields] at h
    split at h
    · cases h
    · split at h
      · cases h
      · rw [ih h]; rfl

theorem cli_addLists_id {S : Shell} {target : List PathComp} {sc : EntitySchema} {vs : List (Str × Str)}
    {ls : List (Str × Str)} {e e' : Entity} (h : S.addLists target sc vs e ls = some e') : e'.id = e.id := by
  induction ls generalizing e with
  | nil => rw [Shell.addLists] at h; cases h; rfl
  | cons p ls ih =>
    obtain ⟨name, ty⟩ := p
    rw [Shell.addLists] at h
    split at h
    · cases h
    · split at h
      · split at h
        · cases h
        · split at h
          · cases h
          · split at h
            · cases h
            · split at h
              · cases h
              · rw [ih h]; rfl
      · cases h

theorem cli_entityToAdd_spec {S : Shell} {g : Graph} {schemas : List EntitySchema} {a : AddArgs} {e : Entity}
    (h : S.entityToAdd g schemas a = some e) :
    ∃ sc ∈ schemas, sc.entityType = a.type ∧ Conforms S.lang.env sc e ∧
      e.id = S.lang.cases.composeEntityId a.type (S.sanitize a.id) ∧ g.getEntity e.id = none := by
  unfold Shell.entityToAdd at h
  split at h
  · cases h
  · next sc hsc =>
    dsimp only at h
    split at h
    · cases h
    · next hg =>
      split at h
      · cases h
      · next e1 he1 =>
        split at h
        · cases h
        · next e2 he2 =>
          split at h
          · cases h
          · next hv =>
            cases h
            have hid : e.id = S.lang.cases.composeEntityId a.type (S.sanitize a.id) := by
              rw [cli_addLists_id he2, cli_addFields_id he1]; rfl
            exact ⟨sc, List.mem_of_find?_eq_some hsc, by simpa using List.find?_some hsc,
              (C15_verdict _ _ _).1 hv, hid, by rw [hid]; exact hg⟩

/-- What a successful `firm add` does. -/
theorem cli_add (S : Shell) (hws : ∀ n ∈ S.ws, ValidName n) (g : Graph) (schemas : List EntitySchema) (d d' : FsTree)
    (hd : WellFormed d) (a : AddArgs) (h : S.add g schemas d a = (d', true)) :
    ∃ (sc : EntitySchema) (e : Entity) (loc : List Str), S.entityToAdd g schemas a = some e ∧ sc ∈ schemas ∧ sc.entityType = a.type ∧ Conforms S.lang.env sc e ∧
      e.id = S.lang.cases.composeEntityId a.type (S.sanitize a.id) ∧ g.getEntity e.id = none ∧
      loc = lexicalPlace [] (S.dslPath a.toFile a.type) ∧
      ((Has d loc (.file none) ∧ Has d' loc (.file none)) ∨
        ∃ old, (Has d loc (.file (some old)) ∨ (old = [] ∧ ∀ u, NotDir u → ¬ Has d loc u)) ∧
          Has d' loc (.file (some (old ++ generateDsl S.lang .default [e])))) ∧
      ∀ l u, l ≠ loc → NotDir u → (Has d l u ↔ Has d' l u) := by
  unfold Shell.add at h
  split at h
  · cases h
  · next e he =>
    obtain ⟨sc, h1, h2, h3, h4, h5⟩ := cli_entityToAdd_spec he
    obtain ⟨a1, _, a3⟩ := cliAppend_spec hd (dslPath_valid hws _ _) h
    refine ⟨sc, e, _, he, h1, h2, h3, h4, h5, rfl, ?_⟩
    rcases a3 rfl with ⟨b1, b2⟩ | ⟨old, b1, b2⟩
    · refine ⟨.inl ⟨(has_iff_lookup hd).2 (leafAt_eq_some.1 b1).1, ?_⟩, ?_⟩
      · have := b2 (lexicalPlace [] (S.dslPath a.toFile a.type))
        rw [b1] at this
        exact (has_iff_lookup a1).2 (leafAt_eq_some.1 this).1
      · intro l u _ hu
        exact (sameFiles_iff hd a1).2 b2 l u hu
    · refine ⟨.inr ⟨old, ?_, ?_⟩, ?_⟩
      · rcases b2 with ⟨e1, e2⟩ | e2
        · right
          refine ⟨e1, fun u hu hh => ?_⟩
          rw [leafAt_eq_some.2 ⟨(has_iff_lookup hd).1 hh, hu⟩] at e2
          cases e2
        · left; exact (has_iff_lookup hd).2 (leafAt_eq_some.1 e2).1
      · have := b1 (lexicalPlace [] (S.dslPath a.toFile a.type))
        rw [if_pos rfl] at this
        exact (has_iff_lookup a1).2 (leafAt_eq_some.1 this).1
      · intro l u hl hu
        have := b1 l
        rw [if_neg hl] at this
        rw [has_iff_lookup hd, has_iff_lookup a1]
        have k1 := leafAt_eq_some (d := d) (u := u) (loc := l)
        have k2 := leafAt_eq_some (d := d') (u := u) (loc := l)
        rw [this] at k2
        exact ⟨fun hh => (k2.1 (k1.2 ⟨hh, hu⟩)).1, fun hh => (k1.1 (k2.2 ⟨hh, hu⟩)).1⟩

/-- C72: a successful `firm add` puts one entity, valid for its schema and with an id that the saved graph
does not have, at the end of the target file and changes nothing else.  Missing: the text is appended
without a line break, so behind a comment it is no entity (`C72_glued`); a file that is not text stays
one (its bytes are not modelled). -/
theorem C72_add_partial (S : Shell) (hws : ∀ n ∈ S.ws, ValidName n) (g : Graph) (schemas : List EntitySchema) (d d' : FsTree)
    (hd : WellFormed d) (a : AddArgs) (h : S.add g schemas d a = (d', true)) :
    ∃ (sc : EntitySchema) (e : Entity) (loc : List Str), sc ∈ schemas ∧ sc.entityType = a.type ∧ Conforms S.lang.env sc e ∧
      e.id = S.lang.cases.composeEntityId a.type (S.sanitize a.id) ∧ g.getEntity e.id = none ∧
      loc = lexicalPlace [] (S.dslPath a.toFile a.type) ∧
      ((Has d loc (.file none) ∧ Has d' loc (.file none)) ∨
        ∃ old, (Has d loc (.file (some old)) ∨ (old = [] ∧ ∀ u, NotDir u → ¬ Has d loc u)) ∧
          Has d' loc (.file (some (old ++ generateDsl S.lang .default [e])))) ∧
      ∀ l u, l ≠ loc → NotDir u → (Has d l u ↔ Has d' l u) := by
  obtain ⟨sc, e, loc, _, h⟩ := cli_add S hws g schemas d d' hd a h
  exact ⟨sc, e, loc, h⟩

/-- C72: a `firm add` that fails changes no file. -/
theorem C72_failed (S : Shell) (hws : ∀ n ∈ S.ws, ValidName n) (g : Graph) (schemas : List EntitySchema) (d d' : FsTree)
    (hd : WellFormed d) (a : AddArgs) (h : S.add g schemas d a = (d', false)) : SameFiles d d' := by
  unfold Shell.add at h
  split at h
  · cases h; exact fun _ _ _ => Iff.rfl
  · obtain ⟨a1, a2, _⟩ := cliAppend_spec hd (dslPath_valid hws _ _) h
    exact (sameFiles_iff hd a1).2 (a2 rfl)

/-- C72: unless the path ends in `..`, the target is a firm file. -/
theorem C72_firm_file (S : Shell) (f : Option Str) (type n : Str)
    (h : (S.basePath f type).getLast? = some (.normal n)) (hn : n ≠ []) :
    ∃ dirs name, lexicalPlace [] (S.dslPath f type) = dirs ++ [name] ∧ FirmName name := by
  unfold Shell.dslPath withFirmExtension
  rw [h]
  dsimp only
  rw [lexicalPlace_append]
  exact ⟨_, _, rfl, _, (stemOf_spec hn).1, rfl⟩

/-- C72: no line break is written before the new entity, so that it can end up behind a comment. -/
theorem C72_glued : ∃ (g : Graph) (schemas : List EntitySchema) (d : FsTree) (a : AddArgs),
    d.readText ["w".toList, "b.firm".toList] = some "// people".toList ∧ (exShell.add g schemas d a).2 = true ∧
    (exShell.add g schemas d a).1.readText ["w".toList, "b.firm".toList] =
      some "// peopleperson bob {\n    name = \"Bob\"\n}\n".toList :=
  ⟨.empty, [⟨"person".toList, [("name".toList, .new .string .required 0)]⟩],
    .dir (some [("w".toList, .dir (some [("b.firm".toList, .file (some "// people".toList))]))]),
    ⟨some "b".toList, "person".toList, "Bob".toList, ["name".toList, "Bob".toList], [], []⟩, by decide +kernel⟩

example : exShell.dslPath none "person".toList =
    [.rootDir, .normal "w".toList, .normal "generated".toList, .normal "person.firm".toList] ∧
    exShell.dslPath (some "x/notes.v2".toList) "person".toList =
      [.rootDir, .normal "w".toList, .normal "x".toList, .normal "notes.firm".toList] := by decide

end Firm
