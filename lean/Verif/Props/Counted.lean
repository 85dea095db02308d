/-
C157: what a build says of the workspace.

The reply of the `build` tool names two numbers; the progress of a build names the files that were processed.
-/
import Verif.Model.Counted
import Verif.Props.Served
import Verif.Props.Grow
import Verif.Props.Main

namespace Firm
open Firm.Spec

/-! ## Specification -/

/-- The path that an error of a build names. -/
def Spec.errorPath : WorkspaceError → Option Str
  | .parse p => some p
  | .validation p => some p
  | .missingSchema p _ => some p
  | _ => none

/-! ## The progress -/

theorem entityPassP_result (L : Lang) (m : List (EntityType × EntitySchema)) (total : Nat) (w : Workspace) :
    ∀ done, (entityPassP L m total done w).2 = entityPass L m w := by
  induction w with
  | nil => intro done; rfl
  | cons p w ih =>
    intro done
    obtain ⟨path, f⟩ := p
    simp only [entityPassP, entityPass]
    cases collectResults (checkEntity L m path f.rel) f.entities with
    | error e => rfl
    | ok es =>
      dsimp only
      have h := ih (done + 1)
      generalize entityPassP L m total (done + 1) w = x at h ⊢
      obtain ⟨calls, r⟩ := x
      dsimp only at h
      rw [← h]
      cases r <;> rfl

/-- C157: the callback changes nothing about the result. -/
theorem C157_result (L : Lang) (w : Workspace) : (w.buildP L).2 = w.build L := by
  unfold Workspace.buildP Workspace.build
  cases schemaPass L [] w with
  | error e => rfl
  | ok m =>
    dsimp only
    have h := entityPassP_result L m w.length w 0
    generalize entityPassP L m w.length 0 w = x at h ⊢
    obtain ⟨calls, r⟩ := x
    dsimp only at h
    rw [← h]
    cases r <;> rfl

theorem checkEntity_path {L : Lang} {m : List (EntityType × EntitySchema)} {path rel : Str} {n : Node} {e : WorkspaceError}
    (h : checkEntity L m path rel n = .error e) : e = .panic ∨ errorPath e = some path := by
  unfold checkEntity at h
  split at h
  · cases h; exact .inl rfl
  · cases h; exact .inr rfl
  · split at h
    · cases h; exact .inr rfl
    · split at h
      · cases h; exact .inr rfl
      · cases h

theorem collect_path {L : Lang} {m : List (EntityType × EntitySchema)} {path rel : Str} {ns : List Node} {e : WorkspaceError}
    (h : collectResults (checkEntity L m path rel) ns = .error e) : e = .panic ∨ errorPath e = some path := by
  induction ns with
  | nil => cases h
  | cons n ns ih =>
    simp only [collectResults] at h
    split at h
    · next he => cases h; exact checkEntity_path he
    · split at h
      · next he => cases h; exact ih he
      · cases h

theorem entityPassP_calls (L : Lang) (m : List (EntityType × EntitySchema)) (total : Nat) (w : Workspace) :
    ∀ done, ∃ k ≤ w.length,
      (entityPassP L m total done w).1 =
        (List.range k).map (fun i => ⟨total, done + i, "Building entities".toList⟩) ∧
      (∀ es, (entityPassP L m total done w).2 = .ok es → k = w.length) ∧
      ∀ e, (entityPassP L m total done w).2 = .error e → 0 < k ∧
        (e = .panic ∨ ∃ p, w[k - 1]? = some p ∧ errorPath e = some p.1) := by
  induction w with
  | nil =>
    intro done
    exact ⟨0, Nat.le_refl 0, rfl, fun _ _ => rfl, fun e h => by cases h⟩
  | cons p w ih =>
    intro done
    obtain ⟨path, f⟩ := p
    simp only [entityPassP]
    cases hc : collectResults (checkEntity L m path f.rel) f.entities with
    | error e =>
      refine ⟨1, by simp, by simp, fun _ h => (by cases h), fun e' h => ⟨Nat.one_pos, ?_⟩⟩
      cases h
      rcases collect_path hc with h | h
      · exact .inl h
      · exact .inr ⟨(path, f), rfl, h⟩
    | ok es =>
      obtain ⟨k, hk, h1, h2, h3⟩ := ih (done + 1)
      dsimp only
      generalize entityPassP L m total (done + 1) w = x at h1 h2 h3 ⊢
      obtain ⟨calls, r⟩ := x
      dsimp only at h1 h2 h3
      have hcalls : (⟨total, done, "Building entities".toList⟩ : Progress) :: calls =
          (List.range (k + 1)).map (fun i => ⟨total, done + i, "Building entities".toList⟩) := by
        rw [List.range_succ_eq_map, List.map_cons, List.map_map, h1]
        congr 1
        apply List.map_congr_left
        intro i _
        simp only [Function.comp, Progress.mk.injEq, true_and, and_true]
        omega
      cases r with
      | error e =>
        refine ⟨k + 1, by simpa using hk, hcalls, fun _ h => (by cases h), fun e' h => ⟨Nat.succ_pos k, ?_⟩⟩
        cases h
        obtain ⟨hpos, h⟩ := h3 e rfl
        refine h.imp id fun ⟨q, hq, he⟩ => ⟨q, ?_, he⟩
        obtain ⟨j, rfl⟩ : ∃ j, k = j + 1 := ⟨k - 1, by omega⟩
        simpa using hq
      | ok rest =>
        refine ⟨k + 1, by simpa using hk, hcalls, fun _ _ => ?_, fun e' h => by cases h⟩
        rw [h2 rest rfl, List.length_cons]

/-- C157: the progress of a build. It starts with the number of the files; then every file is announced by the number
of the files before it, in order. A build that succeeds announces all files. If an entity makes it fail, the last file
announced is the one that the error names. -/
theorem C157_progress (L : Lang) (w : Workspace) : ∃ k ≤ w.length,
    (w.buildP L).1 = ⟨w.length, 0, "Building schemas".toList⟩ ::
      (List.range k).map (fun i => ⟨w.length, i, "Building entities".toList⟩) ∧
    (∀ b, w.build L = .ok b → k = w.length) ∧
    ∀ e, w.build L = .error e → 0 < k →
      e = .panic ∨ ∃ p, w[k - 1]? = some p ∧ errorPath e = some p.1 := by
  rw [← C157_result]
  unfold Workspace.buildP
  cases schemaPass L [] w with
  | error e => exact ⟨0, Nat.zero_le _, rfl, fun b h => (by cases h), fun e _ h => (by cases h)⟩
  | ok m =>
    dsimp only
    obtain ⟨k, hk, h1, h2, h3⟩ := entityPassP_calls L m w.length w 0
    generalize entityPassP L m w.length 0 w = x at h1 h2 h3 ⊢
    obtain ⟨calls, r⟩ := x
    dsimp only at h1 h2 h3
    simp only [Nat.zero_add] at h1
    cases r with
    | error e =>
      refine ⟨k, hk, by rw [← h1], fun b h => (by cases h), fun e' h hpos => ?_⟩
      cases h
      exact (h3 e rfl).2
    | ok es => exact ⟨k, hk, by rw [← h1], fun _ _ => h2 es rfl, fun e' h => (by cases h)⟩

/-- C157: no build of files says that it is complete, not even one that succeeds: the last file is announced, but
not counted. -/
theorem C157_unfinished (L : Lang) (w : Workspace) (hw : w ≠ []) : ∀ p ∈ (w.buildP L).1, p.total = w.length ∧ p.done < p.total := by
  obtain ⟨k, hk, h1, _⟩ := C157_progress L w
  have hpos : 0 < w.length := List.length_pos_iff.2 hw
  rw [h1]
  intro p hp
  rw [List.mem_cons, List.mem_map] at hp
  rcases hp with rfl | ⟨i, hi, rfl⟩
  · exact ⟨rfl, hpos⟩
  · exact ⟨rfl, Nat.lt_of_lt_of_le (List.mem_range.1 hi) hk⟩

/-- C157: the log has the two numbers the other way round. A build of five files begins with `5/0`, which as
`current/total` is five files of none. -/
theorem C157_log (L : Lang) (w : Workspace) : ∃ rest, (w.buildP L).1.map progressLine =
    ("Building schemas: ".toList ++ showNat w.length ++ "/0".toList) :: rest := by
  obtain ⟨k, _, h1, _⟩ := C157_progress L w
  rw [h1, List.map_cons]
  refine ⟨_, congrArg (· :: _) ?_⟩
  simp only [progressLine, List.append_assoc]
  rfl

/-! ## The numbers -/

theorem digits_split {a a' b b' : Str} (ha : ∀ c ∈ a, isDigit c = true) (ha' : ∀ c ∈ a', isDigit c = true)
    (hb : ∀ c, b.head? = some c → isDigit c = false) (hb' : ∀ c, b'.head? = some c → isDigit c = false)
    (h : a ++ b = a' ++ b') : a = a' ∧ b = b' := by
  have h1 := congrArg (List.takeWhile isDigit) h
  rw [takeWhile_digits ha hb, takeWhile_digits ha' hb'] at h1
  subst h1
  exact ⟨rfl, List.append_cancel_left h⟩

/-- C157: the text tells the two numbers. -/
theorem C157_text {n m n' m' : Nat} (h : buildReport n m = buildReport n' m') : n = n' ∧ m = m' := by
  unfold buildReport at h
  simp only [List.append_assoc, List.append_cancel_left_eq] at h
  obtain ⟨h1, h2⟩ := digits_split (showNat_digits n) (showNat_digits n') (by rintro c ⟨⟩; rfl) (by rintro c ⟨⟩; rfl) h
  rw [List.append_cancel_left_eq] at h2
  obtain ⟨h3, _⟩ := digits_split (showNat_digits m) (showNat_digits m') (by rintro c ⟨⟩; rfl) (by rintro c ⟨⟩; rfl) h2
  exact ⟨showNat_inj h1, showNat_inj h3⟩

/-- C157: the kind of the reply is the one of `buildTool`. -/
theorem buildToolText_kind (H : Host) (order : Workspace → Workspace) (s : Server) :
    (buildToolText H order s).1 = (buildTool H order s).1 ∧
      ((buildTool H order s).2 = .success ↔ ∃ text, (buildToolText H order s).2 = .ok text) := by
  unfold buildToolText buildTool
  cases rebuild H order s.disk with
  | ok st => exact ⟨rfl, fun _ => ⟨_, rfl⟩, fun _ => rfl⟩
  | error e => exact ⟨rfl, fun h => (by cases h), fun ⟨_, h⟩ => (by cases h)⟩

theorem blocks_perm {w w' : Workspace} (h : w.Perm w') (kind : String) :
    (blocksOf kind w).length = (blocksOf kind w').length := (h.flatMap_right _).length_eq

/-- C157: if the `build` tool says that the workspace is valid, the numbers it names are the numbers of entity blocks
and of schema blocks in the source files on the disk, which is left as it is. No two entities have the same id, and
the query `from * | count` gives the first number. -/
theorem C157_numbers (H : Host) (hws : ∀ n ∈ H.ws, ValidName n) (order : Workspace → Workspace)
    (ho : ∀ w, (order w).Perm w) (s : Server) (hd : WellFormed s.disk) {text : Str}
    (h : (buildToolText H order s).2 = .ok text) :
    let s' := (buildToolText H order s).1
    s'.disk = s.disk ∧ Serves H s' ∧ ∃ n m, text = buildReport n m ∧
      (∀ w, LoadsAs H.grammar H.ws s.disk w →
        n = (blocksOf "entity_block" w).length ∧ m = (blocksOf "schema_block" w).length) ∧
      n = (s'.state.build.entities.map (·.id)).length ∧ (s'.state.build.entities.map (·.id)).Nodup ∧
      ∀ rt, runQuery H.lang rt s'.state.graph "from * | count".toList = .ok (.aggregation (.count n)) := by
  obtain ⟨hk1, hk2⟩ := buildToolText_kind H order s
  have hserves : Serves H (buildToolText H order s).1 := by
    rw [hk1]
    exact (C87_success H hws order ho s hd .build (hk2.2 ⟨text, h⟩)).2
  have hdisk : (buildToolText H order s).1.disk = s.disk ∧
      text = buildReport (buildToolText H order s).1.state.build.entities.length
        (buildToolText H order s).1.state.build.schemas.length := by
    unfold buildToolText at h ⊢
    cases hr : rebuild H order s.disk with
    | ok st => rw [hr] at h; cases h; exact ⟨rfl, rfl⟩
    | error e => rw [hr] at h; cases h
  dsimp only
  generalize (buildToolText H order s).1 = s' at hserves hdisk ⊢
  obtain ⟨hdisk, rfl⟩ := hdisk
  obtain ⟨hg, hacc, _, hn⟩ := toGraph_run hserves.2.2
  refine ⟨hdisk, hserves, _, _, rfl, fun w hw => ?_, by simp, hn, fun rt => ?_⟩
  · have hp := loadsAs_perm (hdisk ▸ hserves.1) hw
    have hv := (C41_build H.lang s'.state.workspace s'.state.build.entities s'.state.build.schemas).1 hserves.2.1
    exact ⟨hv.entities.length_eq.symm.trans (blocks_perm hp _), hv.schemas.length_eq.symm.trans (blocks_perm hp _)⟩
  · have hq : qQuery "from * | count".toList = some ⟨.wildcard, [], some (.count none)⟩ := by rfl
    obtain ⟨es, h1, h2, _⟩ := C34_from_all (s'.state.build.entities.map .add ++ [.build]) H.lang.env rt
    have h3 := C36_query H.lang.env rt _ _ _ _ h1
    have hr : runQuery H.lang rt s'.state.graph "from * | count".toList =
        match Query.execute H.lang.env rt s'.state.graph ⟨.all, [], some (.count none)⟩ with
        | .error e => .error (.execution e)
        | .ok r => .ok r := by
      unfold runQuery parseQuery
      rw [hq]
      rfl
    rw [hr]
    rw [hg, h3, h2.length_eq, hacc]

/-- C157: `build`, then a successful `add_entity`, then `build` again: the second number of entities is one more than
the first, and the number of schemas is the same. Missing: as in `C93_served_partial`. -/
theorem C157_added_partial (H : Host) (hT : RegularCase H.lang.cases) (hws : ∀ n ∈ H.ws, ValidName n)
    (order order' order'' : Workspace → Workspace) (ho : ∀ w, (order w).Perm w) (ho' : ∀ w, (order' w).Perm w)
    (ho'' : ∀ w, (order'' w).Perm w) (s₀ s : Server) (hd : WellFormed s₀.disk)
    (p : AddParams) (hdot : '.' ∉ p.type) {dirs : List Str} {name : Str} (hv : ∀ n ∈ dirs ++ [name], ValidName n)
    (hname : FirmName name)
    (htarget : joinComps H.ws (p.toFile.getD (defaultTarget p.type)) = .rootDir :: (H.ws ++ dirs ++ [name]).map .normal)
    {n m n' m' : Nat} (h₁ : buildToolText H order s₀ = (s, .ok (buildReport n m)))
    (hr : ∀ sc ∈ s.state.build.schemas, ∀ q ∈ p.fields, ∀ fd, (H.lang.cases.snake q.1, fd) ∈ sc.fields →
      ReferencesOkAny H.lang.cases ((mapGet p.listItemTypes q.1).bind (parseListItemType H.lang.env)) fd.fieldType q.2)
    (h₂ : (addEntityTool H order' s p).2 = .success)
    (h₃ : (buildToolText H order'' (addEntityTool H order' s p).1).2 = .ok (buildReport n' m')) :
    ∃ (e : Entity) (old sep : Str), e.id = H.lang.cases.composeEntityId p.type (H.lang.cases.snake p.id) ∧
      Has (addEntityTool H order' s p).1.disk (H.ws ++ (dirs ++ [name]))
        (.file (some (old ++ (sep ++ generateDsl H.lang .default [e])))) ∧
      (ReadsAppended H.grammar old (old ++ (sep ++ generateDsl H.lang .default [e])) (entityNode H.lang .default e) →
        n' = n + 1 ∧ m' = m) := by
  have e1 := C157_numbers H hws order ho s₀ hd (by rw [h₁])
  rw [h₁] at e1
  dsimp only at e1
  obtain ⟨hdisk, hs, a, b, hab, hcount, _, _, _⟩ := e1
  obtain ⟨rfl, rfl⟩ := C157_text hab
  have hd' : WellFormed s.disk := hdisk ▸ hd
  obtain ⟨e, sc, old, sep, hid, _, _, _, hnew, hS⟩ :=
    C93_served_partial H hT hws order' ho' s hd' hs p hdot hv hname htarget hr h₂
  refine ⟨e, old, sep, hid, hnew, fun hgram => ?_⟩
  obtain ⟨e', _, hp1, hp2, _⟩ := hS hgram
  obtain ⟨hd'', hs''⟩ := C87_success H hws order' ho' s hd' (.add p) h₂
  rw [show s.handle H order' (.add p) = addEntityTool H order' s p from rfl] at hd'' hs''
  obtain ⟨_, _, a', b', hab', hcount', _, _, _⟩ := C157_numbers H hws order'' ho'' _ hd'' h₃
  obtain ⟨rfl, rfl⟩ := C157_text hab'
  obtain ⟨q1, q2⟩ := hcount _ (hdisk ▸ hs.1)
  obtain ⟨q3, q4⟩ := hcount' _ hs''.1
  have hv1 := (C41_build H.lang _ s.state.build.entities s.state.build.schemas).1 hs.2.1
  have hv2 := (C41_build H.lang _ (addEntityTool H order' s p).1.state.build.entities
    (addEntityTool H order' s p).1.state.build.schemas).1 hs''.2.1
  rw [q1, q2, q3, q4, hv1.entities.length_eq, hv1.schemas.length_eq, hv2.entities.length_eq, hv2.schemas.length_eq,
    hp1.length_eq, hp2.length_eq]
  simp

/-! ## Cases -/

/-- Two files; the build says so, and the query agrees. -/
example : (buildToolText exHost id exServer).2 =
    .ok "Workspace is valid. 2 entities, 1 schemas.".toList := by decide +kernel

/-- What `C157_added_partial` says of the request of C93 (the other premises hold as shown there): three after two. -/
example : (buildToolText exLongHost id exLongServer).2 = .ok (buildReport 2 1) ∧
    (addEntityTool exLongHost id (buildToolText exLongHost id exLongServer).1 (exAdd "carol")).2 = .success ∧
    (buildToolText exLongHost id
      (addEntityTool exLongHost id (buildToolText exLongHost id exLongServer).1 (exAdd "carol")).1).2 =
      .ok (buildReport 3 1) := by decide +kernel

/-- The two files are announced, none is counted; the log has the numbers the other way round. -/
example : (exWorkspace.buildP exLang).1.map progressLine =
    ["Building schemas: 2/0".toList, "Building entities: 2/0".toList, "Building entities: 2/1".toList] := by decide +kernel

/-- A build that fails at the second file. -/
example : let w : Workspace := [exFile "a.firm" [exSchemaNode "person" [("name", "string", "true")]],
      exFile "b.firm" [exEntityNode "person" "bob" []], exFile "c.firm" []]
    w.build exLang = .error (.validation "/w/b.firm".toList) ∧
    (w.buildP exLang).1.map (·.done) = [0, 0, 1] := by decide +kernel

end Firm
