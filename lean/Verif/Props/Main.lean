import Verif.Lemmas.Main
import Verif.Props.Reading
import Verif.Props.Meaning
import Verif.Props.Saved
import Verif.Props.Served
import Verif.Props.Printed

/-!
# What the command line does with the disk (C112–C113)
-/

namespace Firm

namespace Spec

/-- `b` is a build of the files that are on the disk now: everything can be read, the files build, and no two entities
have the same id. -/
structure Current (H : Host) (d : FsTree) (b : WorkspaceBuild) : Prop where
  readable : Spec.Readable H.ws d
  built : ∃ w, LoadsAs H.grammar H.ws d w ∧ w.build H.lang = .ok b
  ids : (b.entities.map (·.id)).Nodup

/-- Entities that the saved graph gives back (C96). -/
structure Storable (C : Codec) (es : List Entity) : Prop where
  few : es.length < 2 ^ 32
  kept : AllKept C es
  tame : Tame es

/-- Every enumeration is one of what is enumerated. -/
structure Chance.Lawful (x : Chance) : Prop where
  files : ∀ w, (x.files w).Perm w
  again : ∀ w, (x.again w).Perm w
  maps : MapOrder.Lawful x.maps

/-- The relation that `related` asks for. -/
def LinkedBy : Option CliDirection → Entity → Entity → Prop
  | some .to, a, b => RefersTo b a.id
  | some .from, a, b => RefersTo a b.id
  | none, a, b => RefersTo a b.id ∨ RefersTo b a.id

/-- The commands that ask for something in the graph. -/
def OnGraph : Command → Prop
  | .get type _ => type ≠ "schema".toList
  | .list type => type ≠ "schema".toList
  | .related _ _ _ => True
  | .query _ => True
  | _ => False

/-- The commands that ask for something. -/
def Question : Command → Prop
  | .get _ _ => True
  | .list _ => True
  | .related _ _ _ => True
  | .query _ => True
  | _ => False

/-- `out` is an answer to the question for a workspace that consists of these entities and schemas. -/
def Says (M : Machine) (f : OutputFormat) (b : WorkspaceBuild) (out : Option Str) : Command → Prop
  | .get type id =>
    (type = "schema".toList → ∀ s, out = some s ↔ ∃ x ∈ b.schemas, x.entityType = id ∧ s = outputSchema M.screen x f) ∧
    (type ≠ "schema".toList → ∀ s, out = some s ↔
      ∃ e ∈ b.entities, e.id = M.host.lang.cases.composeEntityId type id ∧ s = outputEntity M.screen e f)
  | .list type =>
    (type = "schema".toList → out = some (listOutput M.screen.codec (b.schemas.map (·.entityType)) f)) ∧
    (type ≠ "schema".toList →
      out = some (listOutput M.screen.codec ((b.entities.filter fun e => e.entityType = type).map (·.id)) f))
  | .related type id dir =>
    (out = none ↔ ¬ ∃ a ∈ b.entities, a.id = M.host.lang.cases.composeEntityId type id) ∧
    ∀ a ∈ b.entities, a.id = M.host.lang.cases.composeEntityId type id →
      ∃ es, out = some (outputEntities M.screen es f) ∧ es.Pairwise (fun x y => strCmp x.id y.id = .lt) ∧
        ∀ e, e ∈ es ↔ e ∈ b.entities ∧ LinkedBy dir a e
  | .query text =>
    ∃ rt, out = match runQuery M.host.lang rt (Graph.run (b.entities.map .add ++ [.build])) text with
      | .ok r => some (outputResult M.screen r f)
      | .error _ => none
  | _ => False

/-- The disks have the same files but for the two graph files. -/
def SameButGraph (ws : List Str) (d d' : FsTree) : Prop :=
  ∀ loc u, NotDir u → ¬ ws ++ ["current.firm.graph".toList] <+: loc → ¬ ws ++ ["backup.firm.graph".toList] <+: loc →
    (Has d loc u ↔ Has d' loc u)

/-- Neither of the names of the graph files is the name of a directory. -/
def NoGraphDirs (ws : List Str) (d : FsTree) : Prop :=
  ∀ n, n = "current.firm.graph".toList ∨ n = "backup.firm.graph".toList → ∀ es, ¬ Has d (ws ++ [n]) (.dir es)

end Spec

open Spec

/-! ## Loading and building -/

theorem loadsAs_perm {grammar : Str → Node} {ws : List Str} {d : FsTree} {w w' : Workspace}
    (h : LoadsAs grammar ws d w) (h' : LoadsAs grammar ws d w') : w.Perm w' := by
  refine (List.perm_ext_iff_of_nodup (List.Nodup.of_map _ h.1) (List.Nodup.of_map _ h'.1)).2 fun p => ?_
  rw [show p = (p.1, p.2) from rfl, h.2, h'.2]

theorem loadsAs_order {grammar : Str → Node} {ws : List Str} {d : FsTree} {w w' : Workspace} (hp : w'.Perm w)
    (h : LoadsAs grammar ws d w) : LoadsAs grammar ws d w' :=
  ⟨(hp.map _).nodup_iff.2 h.1, fun path f => by rw [hp.mem_iff]; exact h.2 path f⟩

theorem loadFiles_spec {H : Host} {d : FsTree} (hd : WellFormed d) (hws : ∀ n ∈ H.ws, ValidName n) :
    (∀ w, loadFiles H d = some w → Spec.Readable H.ws d ∧ LoadsAs H.grammar H.ws d w) ∧
    (Spec.Readable H.ws d → ∃ w, loadFiles H d = some w) := by
  unfold loadFiles
  constructor
  · intro w h
    split at h
    · cases h
    · next t ht =>
      obtain ⟨w', r, h1, h2, h3⟩ := loadDirectory_spec (grammar := H.grammar) hd hws ht
      rw [h1] at h
      cases r with
      | error e => cases h
      | ok u => cases h; exact ⟨h2.1 rfl, h3 rfl⟩
  · intro hr
    obtain ⟨es, hes⟩ := hr.1
    have ht := (has_iff_lookup hd).1 hes
    obtain ⟨w, r, h1, h2, _⟩ := loadDirectory_spec (grammar := H.grammar) hd hws ht
    have := h2.2 hr
    subst this
    rw [ht]
    dsimp only
    rw [h1]
    exact ⟨w, rfl⟩

theorem loadBuild_sound {H : Host} {order : Workspace → Workspace} {d : FsTree} (hd : WellFormed d)
    (hws : ∀ n ∈ H.ws, ValidName n) (ho : ∀ w, (order w).Perm w) {b : WorkspaceBuild} (h : loadBuild H order d = some b) :
    Spec.Readable H.ws d ∧ ∃ w, LoadsAs H.grammar H.ws d w ∧ w.build H.lang = .ok b := by
  unfold loadBuild at h
  split at h
  · cases h
  · next w hw =>
    obtain ⟨h1, h2⟩ := (loadFiles_spec hd hws).1 w hw
    split at h
    · next b' hb => cases h; exact ⟨h1, _, loadsAs_order (ho w) h2, hb⟩
    · cases h

theorem loadBuild_complete {H : Host} {order : Workspace → Workspace} {d : FsTree} (hd : WellFormed d)
    (hws : ∀ n ∈ H.ws, ValidName n) (ho : ∀ w, (order w).Perm w) {b : WorkspaceBuild} (h : Current H d b) :
    ∃ b', loadBuild H order d = some b' ∧ Current H d b' ∧ b.entities.Perm b'.entities ∧ b.schemas.Perm b'.schemas := by
  obtain ⟨hr, ⟨w, hw, hb⟩, hn⟩ := h
  obtain ⟨w', hw'⟩ := (loadFiles_spec hd hws).2 hr
  have hl := ((loadFiles_spec hd hws).1 w' hw').2
  obtain ⟨b', h1, h2, h3⟩ := C43_order H.lang w (order w') ((loadsAs_perm hw hl).trans (ho w').symm) b hb
  refine ⟨b', ?_, ⟨hr, ⟨_, loadsAs_order (ho w') hl, h1⟩, (h2.map _).nodup_iff.1 hn⟩, h2, h3⟩
  unfold loadBuild
  rw [hw']
  dsimp only
  rw [h1]

theorem storable_perm {C : Codec} {es es' : List Entity} (hp : es.Perm es') (h : Storable C es) : Storable C es' :=
  ⟨hp.length_eq ▸ h.few, fun e he => h.kept e (hp.mem_iff.2 he), fun e he => h.tame e (hp.mem_iff.2 he)⟩

theorem toGraph_current {b : WorkspaceBuild} (h : (b.entities.map (·.id)).Nodup) :
    b.toGraph = (Graph.run (b.entities.map .add ++ [.build]), .ok ()) := by
  have h2 := toGraph_ok h
  cases hg : b.toGraph with
  | mk g r =>
    rw [hg] at h2
    cases h2
    rw [(toGraph_run hg).1]

/-! ## Saving -/

theorem noGraphDirs_entries {ws : List Str} {d : FsTree} (hd : WellFormed d) (h : NoGraphDirs ws d)
    {es : List (Str × FsTree)} (hes : d.lookup ws = some (.dir (some es))) :
    ∀ q ∈ es, isGraphName q.1 = true → ∀ e, q.2 ≠ .dir e := by
  intro q hq hn e he
  have hwf := (lookup_valid hd hes).1
  cases hwf with
  | dir hnod hv hc =>
    have : mapGet es q.1 = some q.2 := (mapGet_some hnod).2 hq
    refine h q.1 (isGraphName_iff.1 hn) e ((has_iff_lookup hd).2 ?_)
    rw [lookup_child hes, this, he]

/-- Saving works unless a directory is in the way. -/
theorem save_ok (C : Codec) (o : MapOrder) {ws : List Str} {d : FsTree} (hd : WellFormed d) (h : NoGraphDirs ws d)
    {es : List (Str × FsTree)} (hes : d.lookup ws = some (.dir (some es))) (g : Graph) :
    ∃ d', saveGraphFile C o ws d g = (d', true) ∧ d'.lookup (ws ++ [currentName]) = some (.file (some (graphText C o g))) := by
  rcases saveGraphFile_cases C o g hes with ⟨_, hno⟩ | ⟨_, d2, _, h1, _, _, _, h2⟩
  · exfalso
    unfold setGraphAside at hno
    split at hno
    · cases hno
    · next t ht =>
      unfold FsTree.rename at hno
      have hcur : ∀ e, d.lookup (ws ++ [currentName]) ≠ some (.dir e) := fun e he =>
        h currentName (.inl rfl) e ((has_iff_lookup hd).2 he)
      have hback : ∀ e, d.lookup (ws ++ [backupName]) ≠ some (.dir e) := fun e he =>
        h backupName (.inr rfl) e ((has_iff_lookup hd).2 he)
      split at hno
      · next he => rw [ht] at he; cases he
      · next e he => exact hcur e he
      · split at hno
        · next e he => exact hback e he
        · cases hno
  · exact ⟨d2, h1, h2⟩

theorem validName_current : ValidName currentName := ⟨by decide, by decide, by decide, by decide⟩

theorem validName_backup : ValidName backupName := ⟨by decide, by decide, by decide, by decide⟩

theorem wf_save {C : Codec} {o : MapOrder} {ws : List Str} {d : FsTree} (hd : WellFormed d) (hws : ∀ n ∈ ws, ValidName n)
    {es : List (Str × FsTree)} (hes : d.lookup ws = some (.dir (some es))) (g : Graph) :
    WellFormed (saveGraphFile C o ws d g).1 := by
  have hv : ∀ k, ValidName k → ∀ n ∈ ws ++ [k], ValidName n := by
    intro k hk n hn
    rcases List.mem_append.1 hn with hn | hn
    · exact hws n hn
    · rw [List.mem_singleton.1 hn]; exact hk
  rcases saveGraphFile_cases C o g hes with ⟨h, _⟩ | ⟨d1, d2, es1, h, hs, _, h3, _⟩
  · rw [h]; exact hd
  · rw [h]
    subst h3
    have h1 : WellFormed d1 := by
      rcases setGraphAside_eq hes hs with ⟨rfl, _⟩ | ⟨t, ht, rfl, _⟩
      · exact hd
      · exact wf_place (wf_remove hd) (lookup_valid hd ht).1 (hv _ validName_backup)
    exact wf_place h1 (.file _) (hv _ validName_current)

theorem save_same {C : Codec} {o : MapOrder} {ws : List Str} {d : FsTree} (hd : WellFormed d) (hws : ∀ n ∈ ws, ValidName n)
    {es : List (Str × FsTree)} (hes : d.lookup ws = some (.dir (some es))) (g : Graph) :
    SameButGraph ws d (saveGraphFile C o ws d g).1 := by
  intro loc u hu h1 h2
  rw [has_iff_lookup hd, has_iff_lookup (wf_save hd hws hes g)]
  have := saveGraphFile_frame C o g hes h1 h2
  have key : ∀ t : FsTree, t.lookup loc = some u ↔ leafAt t loc = some u := fun t => by
    rw [leafAt_eq_some]; exact ⟨fun h => ⟨h, hu⟩, fun h => h.1⟩
  rw [key, key, this]

/-! ## Answers -/

theorem linked_build {es : List Entity} (hn : (es.map (·.id)).Nodup) {a : Entity} (ha : a ∈ es) (dir : Option CliDirection) :
    ∃ l, (Graph.run (es.map .add ++ [.build])).getRelated a.id (dir.map CliDirection.direction) = some l ∧
      l.Pairwise (fun x y => strCmp x.id y.id = .lt) ∧ ∀ e, e ∈ l ↔ e ∈ es ∧ LinkedBy dir a e := by
  have hacc : accepted (es.map .add) = es := (toGraph_run (toGraph_current (b := ⟨es, []⟩) hn)).2.2.1
  have h := Inv.run (es.map .add)
  have hnodes : (Graph.run (es.map .add)).nodes = es := by rw [nodes_run, hacc]
  rw [run_snoc]
  have ha' : a ∈ (Graph.run (es.map .add)).nodes := by rw [hnodes]; exact ha
  obtain ⟨l, h1, h2, h3⟩ := h.build.getRelated_some (a := a) ha' (dir.map CliDirection.direction)
  refine ⟨l, h1, h2, fun b => ?_⟩
  rw [h3]
  cases dir with
  | none =>
    simp only [Option.map_none, LinkedDir, h.linked_build, hnodes, ha, true_and, LinkedBy]
    tauto
  | some k =>
    cases k <;> simp only [Option.map_some, CliDirection.direction, LinkedDir, h.linked_build, hnodes, ha, true_and, LinkedBy]

/-- What is asked of the graph is answered for its entities. -/
theorem says_graph {M : Machine} {x : Chance} {f : OutputFormat} {d : FsTree} {b : WorkspaceBuild} {g : Graph}
    (hn : (b.entities.map (·.id)).Nodup) (hl : loadGraphFile M.screen.codec M.host.ws d = some g)
    (hs : SameAnswers (Graph.run (b.entities.map .add ++ [.build])) g) {c : Command} (hc : OnGraph c) :
    Says M f b (c.run M x f d).2 c := by
  have hacc := (toGraph_run (toGraph_current hn)).2.1
  have hget : ∀ id e, g.getEntity id = some e ↔ e ∈ b.entities ∧ e.id = id := by
    intro id e
    rw [hs.getEntity, C01_lookup, hacc]
  cases c with
  | get type id =>
    refine ⟨fun h => absurd h hc, fun _ s => ?_⟩
    show getCommand M x f d type id = some s ↔ _
    unfold getCommand
    rw [if_neg hc, hl]
    dsimp only [cliGetEntity]
    rw [Option.map_eq_some_iff]
    constructor
    · rintro ⟨e, h1, rfl⟩
      obtain ⟨h2, h3⟩ := (hget _ _).1 h1
      exact ⟨e, h2, h3, rfl⟩
    · rintro ⟨e, h1, h2, rfl⟩
      exact ⟨e, (hget _ _).2 ⟨h1, h2⟩, rfl⟩
  | list type =>
    refine ⟨fun h => absurd h hc, fun _ => ?_⟩
    show listCommand M x f d type = _
    unfold listCommand
    rw [if_neg hc, hl]
    dsimp only [cliListEntities]
    rw [hs.listByType, C03_list_by_type, hacc]
  | related type id dir =>
    show (relatedCommand M f d type id dir = none ↔ _) ∧ ∀ a ∈ b.entities, _ → ∃ es, relatedCommand M f d type id dir = _ ∧ _
    unfold relatedCommand
    rw [hl]
    dsimp only [cliRelated]
    rw [hs.getRelated]
    constructor
    · rw [Option.map_eq_none_iff, (C07_related_set _ _ _).1, Option.eq_none_iff_forall_ne_some]
      constructor
      · rintro h ⟨a, h1, h2⟩
        exact h a (by rw [C01_lookup, hacc]; exact ⟨h1, h2⟩)
      · intro h a ha
        rw [C01_lookup, hacc] at ha
        exact h ⟨a, ha⟩
    · intro a ha hid
      obtain ⟨l, h1, h2, h3⟩ := linked_build hn ha dir
      rw [hid] at h1
      rw [h1]
      exact ⟨l, rfl, h2, h3⟩
  | query text =>
    have hb : SameAnswers g (Graph.run (b.entities.map .add ++ [.build])) :=
      ⟨hs.nodes.symm, hs.edges.symm, fun id => (hs.getEntity id).symm, hs.types.symm, fun t => (hs.listByType t).symm,
        fun id d => (hs.getRelated id d).symm, fun v => (hs.entityReference v).symm, fun v => (hs.fieldReference v).symm,
        fun e => (hs.add e).symm⟩
    refine ⟨x.rt.seenFrom _ _ hb.types, ?_⟩
    show queryCommand M x f d text = _
    unfold queryCommand
    rw [hl]
    dsimp only
    unfold runQuery
    cases hp : parseQuery M.host.lang text with
    | error e => rfl
    | ok p =>
      dsimp only
      rw [execute_same hb]
      generalize Query.execute M.host.lang.env x.rt g (convertQuery M.host.lang.cases p) = r
      cases r <;> rfl
  | build => exact hc.elim
  | source => exact hc.elim
  | add => exact hc.elim

/-- What is asked of the schemas is answered from the files. -/
theorem says_schemas {M : Machine} {x : Chance} {f : OutputFormat} {d : FsTree} {b : WorkspaceBuild}
    (hu : (b.schemas.map (·.entityType)).Nodup) (hl : loadBuild M.host x.again d = some b) {c : Command} (hq : Question c)
    (hc : ¬ OnGraph c) : Says M f b (c.run M x f d).2 c := by
  cases c with
  | get type id =>
    have ht : type = "schema".toList := Classical.not_not.1 hc
    refine ⟨fun _ s => ?_, fun h => absurd ht h⟩
    show getCommand M x f d type id = some s ↔ _
    unfold getCommand
    rw [if_pos ht, hl]
    dsimp only
    rw [Option.map_eq_some_iff]
    constructor
    · rintro ⟨y, h1, rfl⟩
      exact ⟨y, List.mem_of_find?_eq_some h1, by simpa using List.find?_some h1, rfl⟩
    · rintro ⟨y, h1, h2, rfl⟩
      cases hf : b.schemas.find? fun s => decide (s.entityType = id) with
      | none => exact absurd (decide_eq_true h2) (by simpa using List.find?_eq_none.1 hf y h1)
      | some z =>
        refine ⟨z, rfl, ?_⟩
        have h3 : z.entityType = id := by simpa using List.find?_some hf
        rw [List.inj_on_of_nodup_map hu (List.mem_of_find?_eq_some hf) h1 (h3.trans h2.symm)]
  | list type =>
    have ht : type = "schema".toList := Classical.not_not.1 hc
    refine ⟨fun _ => ?_, fun h => absurd ht h⟩
    show listCommand M x f d type = _
    unfold listCommand
    rw [if_pos ht, hl]
  | related => exact absurd trivial hc
  | query => exact absurd trivial hc
  | build => exact hq.elim
  | source => exact hq.elim
  | add => exact hq.elim

/-! ## C112 -/

/-- The first part of a run: the files are built and the graph is saved. -/
theorem built_saved {M : Machine} {x : Chance} {d : FsTree} (hd : WellFormed d) (hws : ∀ n ∈ M.host.ws, ValidName n)
    (hx : Chance.Lawful x) (hg : NoGraphDirs M.host.ws d) {b : WorkspaceBuild} (hb : Current M.host d b)
    (hst : Storable M.screen.codec b.entities) :
    ∃ d' b1 g, buildAndSave M x d = (d', true) ∧ Current M.host d b1 ∧ WellFormed d' ∧
      loadGraphFile M.screen.codec M.host.ws d' = some g ∧
      SameAnswers (Graph.run (b1.entities.map .add ++ [.build])) g ∧ loadFiles M.host d' = loadFiles M.host d ∧
      SameButGraph M.host.ws d d' := by
  obtain ⟨b1, h1, h2, h3, _⟩ := loadBuild_complete hd hws hx.files hb
  obtain ⟨es, hes⟩ := hb.readable.1
  have hlook := (has_iff_lookup hd).1 hes
  have hgr := toGraph_current h2.ids
  have hst1 := storable_perm h3 hst
  have hacc := (toGraph_run hgr).2.1
  obtain ⟨d', h4, h5⟩ := save_ok M.screen.codec x.maps hd hg hlook (Graph.run (b1.entities.map .add ++ [.build]))
  obtain ⟨g, h6, h7⟩ := C96_loads_partial M.screen.codec x.maps hx.maps (b1.entities.map .add ++ [.build])
    (by rw [hacc]; exact hst1.few) (by rw [hacc]; exact hst1.kept) (by rw [hacc]; exact hst1.tame)
  have hd' : d' = (saveGraphFile M.screen.codec x.maps M.host.ws d (Graph.run (b1.entities.map .add ++ [.build]))).1 := by
    rw [h4]
  refine ⟨d', b1, g, ?_, h2, ?_, ?_, h7, ?_, ?_⟩
  · unfold buildAndSave
    rw [h1]
    dsimp only
    rw [hgr]
    exact h4
  · rw [hd']; exact wf_save hd hws hlook _
  · unfold loadGraphFile
    rw [h5]
    dsimp only
    unfold FsTree.readText
    rw [h5]
    exact h6
  · rw [hd']; exact loadFiles_save M.host _ _ _ hlook (noGraphDirs_entries hd hg hlook)
  · rw [hd']; exact save_same hd hws hlook _

theorem loadBuild_files {H : Host} {order : Workspace → Workspace} {d d' : FsTree} (h : loadFiles H d' = loadFiles H d) :
    loadBuild H order d' = loadBuild H order d := by
  unfold loadBuild
  rw [h]

theorem firm_question {M : Machine} {x : Chance} {f : OutputFormat} {d d' : FsTree} {c : Command} (hq : Question c)
    (h : buildAndSave M x d = (d', true)) : firm M x false f d c = c.run M x f d' := by
  unfold firm
  cases c with
  | get => rw [if_neg (by exact Bool.noConfusion), h]
  | list => rw [if_neg (by exact Bool.noConfusion), h]
  | related => rw [if_neg (by exact Bool.noConfusion), h]
  | query => rw [if_neg (by exact Bool.noConfusion), h]
  | build => exact hq.elim
  | source => exact hq.elim
  | add => exact hq.elim

theorem question_keeps {M : Machine} {x : Chance} {f : OutputFormat} {d : FsTree} {c : Command} (hq : Question c) :
    (c.run M x f d).1 = d := by
  cases c with
  | get | list | related | query => rfl
  | build => exact hq.elim
  | source => exact hq.elim
  | add => exact hq.elim

/-- C112: without `--cached` a question is answered for the files that are on the disk, whatever is in the graph files, and
no other file changes. Missing for the full claim: entities that the saved graph does not give back (`C112_infinite`), and
directories with the names of the graph files (`C112_blocked`). -/
theorem C112_answer_partial (M : Machine) (x : Chance) (hx : Chance.Lawful x) (f : OutputFormat) (d : FsTree)
    (hd : WellFormed d) (hws : ∀ n ∈ M.host.ws, ValidName n) (hg : NoGraphDirs M.host.ws d) (b0 : WorkspaceBuild)
    (hb : Current M.host d b0) (hst : Storable M.screen.codec b0.entities) (c : Command) (hq : Question c) :
    (∃ b, Current M.host d b ∧ Says M f b (firm M x false f d c).2 c) ∧
      SameButGraph M.host.ws d (firm M x false f d c).1 := by
  obtain ⟨d', b1, g, h1, h2, _, h4, h5, h6, h7⟩ := built_saved hd hws hx hg hb hst
  rw [firm_question hq h1]
  refine ⟨?_, by rw [question_keeps hq]; exact h7⟩
  by_cases hc : OnGraph c
  · exact ⟨b1, h2, says_graph h2.ids h4 h5 hc⟩
  · obtain ⟨b2, k1, k2, _, _⟩ := loadBuild_complete hd hws hx.again hb
    obtain ⟨_, _, hbw⟩ := k2.built
    exact ⟨b2, k2, says_schemas ((C41_build _ _ b2.entities b2.schemas).1 hbw).oneSchema ((loadBuild_files h6).trans k1) hq hc⟩

/-- C112: what a query prints is a result that it asks for of the entities of the files. -/
theorem C112_query_partial (M : Machine) (x : Chance) (hx : Chance.Lawful x) (f : OutputFormat) (d : FsTree)
    (hd : WellFormed d) (hws : ∀ n ∈ M.host.ws, ValidName n) (hg : NoGraphDirs M.host.ws d) (b0 : WorkspaceBuild)
    (hb : Current M.host d b0) (hst : Storable M.screen.codec b0.entities) {q : QTree} (hq : ValidTree q) {s : Str}
    (h : (firm M x false f d (.query (showQuery q))).2 = some s) :
    ∃ b r, Current M.host d b ∧ Asks M.host.lang b.entities q r ∧ s = outputResult M.screen r f := by
  obtain ⟨⟨b, h1, rt, h2⟩, _⟩ := C112_answer_partial M x hx f d hd hws hg b0 hb hst (.query (showQuery q)) trivial
  rw [h] at h2
  split at h2
  · next r hr =>
    have := C94_written _ _ _ hq hr
    rw [(toGraph_run (toGraph_current h1.ids)).2.2.1] at this
    cases h2
    exact ⟨b, r, h1, this, rfl⟩
  · cases h2

/-- C112: if the files do not build, nothing is printed and nothing changes, whatever graph was saved before. -/
theorem C112_unbuilt (M : Machine) (x : Chance) (hx : Chance.Lawful x) (f : OutputFormat) (d : FsTree) (hd : WellFormed d)
    (hws : ∀ n ∈ M.host.ws, ValidName n) (hno : ∀ b, ¬ Current M.host d b) (c : Command) (hc : ∀ t i, c ≠ .source t i) :
    firm M x false f d c = (d, none) := by
  have key : buildAndSave M x d = (d, false) := by
    unfold buildAndSave
    split
    · rfl
    · next b hb =>
      obtain ⟨h1, h2⟩ := loadBuild_sound hd hws hx.files hb
      split
      · rfl
      · next g hgr => exact absurd ⟨h1, h2, (toGraph_run hgr).2.2.2⟩ (hno b)
  unfold firm
  cases c with
  | source t i => exact absurd rfl (hc t i)
  | build =>
    rw [if_pos (by rfl)]
    unfold Command.run
    rw [key]
  | get => rw [if_neg (by exact Bool.noConfusion), key]
  | list => rw [if_neg (by exact Bool.noConfusion), key]
  | related => rw [if_neg (by exact Bool.noConfusion), key]
  | query => rw [if_neg (by exact Bool.noConfusion), key]
  | add => rw [if_neg (by exact Bool.noConfusion), key]

theorem buildAndSave_same {M : Machine} {x : Chance} {d : FsTree} (hd : WellFormed d) (hws : ∀ n ∈ M.host.ws, ValidName n) :
    WellFormed (buildAndSave M x d).1 ∧ SameButGraph M.host.ws d (buildAndSave M x d).1 := by
  unfold buildAndSave
  split
  · exact ⟨hd, fun _ _ _ _ _ => Iff.rfl⟩
  · next b hb =>
    have hlook : ∃ es, d.lookup M.host.ws = some (.dir (some es)) := by
      unfold loadBuild at hb
      split at hb
      · cases hb
      · next w hw =>
        obtain ⟨⟨es, hes⟩, _⟩ := ((loadFiles_spec hd hws).1 w hw).1
        exact ⟨es, (has_iff_lookup hd).1 hes⟩
    obtain ⟨es, hes⟩ := hlook
    split
    · exact ⟨hd, fun _ _ _ _ _ => Iff.rfl⟩
    · exact ⟨wf_save hd hws hes _, save_same hd hws hes _⟩

/-- C112: no command but `add` changes a file other than the two graph files, whether it succeeds or not. -/
theorem C112_frame (M : Machine) (x : Chance) (cached : Bool) (f : OutputFormat) (d : FsTree) (hd : WellFormed d)
    (hws : ∀ n ∈ M.host.ws, ValidName n) (c : Command) (hc : ∀ a, c ≠ .add a) :
    SameButGraph M.host.ws d (firm M x cached f d c).1 := by
  have h := (buildAndSave_same (M := M) (x := x) hd hws).2
  have hbuild : ((Command.build).run M x f d).1 = (buildAndSave M x d).1 := by
    unfold Command.run
    generalize buildAndSave M x d = r
    obtain ⟨d', ok⟩ := r
    cases ok <;> rfl
  unfold firm
  split
  · cases c with
    | build => rw [hbuild]; exact h
    | get | list | related | query | source => exact fun _ _ _ _ _ => Iff.rfl
    | add a => exact absurd rfl (hc a)
  · next hcs =>
    generalize hr : buildAndSave M x d = r at h
    obtain ⟨d', ok⟩ := r
    cases ok with
    | false => exact h
    | true =>
      cases c with
      | build => exact absurd (Bool.or_true _) hcs
      | source => exact absurd (Bool.or_true _) hcs
      | get | list | related | query => exact h
      | add a => exact absurd rfl (hc a)

theorem loadGraph_same {C : Codec} {ws : List Str} {d d' : FsTree} (hd : WellFormed d) (hd' : WellFormed d')
    (h : ∀ u, Has d (ws ++ ["current.firm.graph".toList]) u ↔ Has d' (ws ++ ["current.firm.graph".toList]) u) :
    loadGraphFile C ws d = loadGraphFile C ws d' := by
  have hl : d.lookup (ws ++ [currentName]) = d'.lookup (ws ++ [currentName]) := by
    refine Option.ext fun u => ?_
    rw [← has_iff_lookup hd, ← has_iff_lookup hd']
    exact h u
  unfold loadGraphFile FsTree.readText
  rw [hl]

/-- C112: with `--cached` the answer depends on nothing but the saved graph, and nothing changes. -/
theorem C112_cached (M : Machine) (x : Chance) (f : OutputFormat) (d d' : FsTree) (hd : WellFormed d) (hd' : WellFormed d')
    (h : ∀ u, Has d (M.host.ws ++ ["current.firm.graph".toList]) u ↔ Has d' (M.host.ws ++ ["current.firm.graph".toList]) u)
    (c : Command) (hc : OnGraph c) :
    (firm M x true f d c).2 = (firm M x true f d' c).2 ∧ (firm M x true f d c).1 = d := by
  have hl := loadGraph_same (C := M.screen.codec) hd hd' h
  unfold firm
  rw [if_pos (by rfl), if_pos (by rfl)]
  cases c with
  | get type id =>
    refine ⟨?_, rfl⟩
    show getCommand M x f d type id = getCommand M x f d' type id
    unfold getCommand
    rw [if_neg hc, if_neg hc, hl]
  | list type =>
    refine ⟨?_, rfl⟩
    show listCommand M x f d type = listCommand M x f d' type
    unfold listCommand
    rw [if_neg hc, if_neg hc, hl]
  | related type id dir =>
    refine ⟨?_, rfl⟩
    show relatedCommand M f d type id dir = relatedCommand M f d' type id dir
    unfold relatedCommand
    rw [hl]
  | query text =>
    refine ⟨?_, rfl⟩
    show queryCommand M x f d text = queryCommand M x f d' text
    unfold queryCommand
    rw [hl]
  | build => exact hc.elim
  | source => exact hc.elim
  | add => exact hc.elim

/-- C112: after a run without `--cached`, or after `build`, the answers with `--cached` stay those for the files as they were
then, whatever happens to the other files. Missing: as in `C112_answer_partial`. -/
theorem C112_last_partial (M : Machine) (x : Chance) (hx : Chance.Lawful x) (f : OutputFormat) (d : FsTree)
    (hd : WellFormed d) (hws : ∀ n ∈ M.host.ws, ValidName n) (hg : NoGraphDirs M.host.ws d) (b0 : WorkspaceBuild)
    (hb : Current M.host d b0) (hst : Storable M.screen.codec b0.entities) (first : Command)
    (hfirst : Question first ∨ first = .build) (later : FsTree) (hl : WellFormed later)
    (h : ∀ u, Has later (M.host.ws ++ ["current.firm.graph".toList]) u ↔
      Has (firm M x false f d first).1 (M.host.ws ++ ["current.firm.graph".toList]) u)
    (x' : Chance) (f' : OutputFormat) (c : Command) (hc : OnGraph c) :
    ∃ b, Current M.host d b ∧ Says M f' b (firm M x' true f' later c).2 c := by
  obtain ⟨d', b1, g, h1, h2, h3, h4, h5, _, _⟩ := built_saved hd hws hx hg hb hst
  have hdisk : (firm M x false f d first).1 = d' := by
    rcases hfirst with hq | rfl
    · rw [firm_question hq h1, question_keeps hq]
    · unfold firm
      rw [if_pos (by rfl)]
      unfold Command.run
      rw [h1]
  rw [hdisk] at h
  refine ⟨b1, h2, ?_⟩
  have : firm M x' true f' later c = c.run M x' f' later := by
    unfold firm
    rw [if_pos (by rfl)]
  rw [this]
  exact says_graph h2.ids ((loadGraph_same hl h3 h).trans h4) h5 hc

/-- C112: the graph that was saved before is kept as the backup. -/
theorem C112_backup (M : Machine) (x : Chance) (f : OutputFormat) (d : FsTree) (hd : WellFormed d)
    (hws : ∀ n ∈ M.host.ws, ValidName n) (c : Command) (hc : Question c ∨ c = .build) (s : Str)
    (h : (firm M x false f d c).2 = some s) (u : FsTree) :
    (Has d (M.host.ws ++ ["current.firm.graph".toList]) u →
      Has (firm M x false f d c).1 (M.host.ws ++ ["backup.firm.graph".toList]) u) ∧
    ((∀ t, ¬ Has d (M.host.ws ++ ["current.firm.graph".toList]) t) →
      (Has (firm M x false f d c).1 (M.host.ws ++ ["backup.firm.graph".toList]) u ↔
        Has d (M.host.ws ++ ["backup.firm.graph".toList]) u)) := by
  have hrun : ∃ d', buildAndSave M x d = (d', true) ∧ (firm M x false f d c).1 = d' := by
    cases hbs : buildAndSave M x d with
    | mk d' ok =>
      cases ok with
      | true =>
        refine ⟨d', rfl, ?_⟩
        rcases hc with hq | rfl
        · rw [firm_question hq hbs, question_keeps hq]
        · unfold firm
          rw [if_pos (by rfl)]
          unfold Command.run
          rw [hbs]
      | false =>
        exfalso
        revert h
        unfold firm
        rcases hc with hq | rfl
        · cases c with
          | get | list | related | query => rw [if_neg (by exact Bool.noConfusion), hbs]; intro h; cases h
          | build => exact hq.elim
          | source => exact hq.elim
          | add => exact hq.elim
        · rw [if_pos (by rfl)]
          unfold Command.run
          rw [hbs]
          intro h; cases h
  obtain ⟨d', h1, h2⟩ := hrun
  have hwf := (buildAndSave_same (M := M) (x := x) hd hws).1
  rw [h1] at hwf
  rw [h2]
  rw [has_iff_lookup hd, has_iff_lookup hd, has_iff_lookup hwf]
  unfold buildAndSave at h1
  split at h1
  · cases h1
  · next b hb =>
    have hlook : ∃ es, d.lookup M.host.ws = some (.dir (some es)) := by
      unfold loadBuild at hb
      split at hb
      · cases hb
      · next w hw =>
        obtain ⟨⟨es, hes⟩, _⟩ := ((loadFiles_spec hd hws).1 w hw).1
        exact ⟨es, (has_iff_lookup hd).1 hes⟩
    obtain ⟨es, hes⟩ := hlook
    split at h1
    · cases h1
    · next g _ _ =>
      rcases saveGraphFile_cases M.screen.codec x.maps g hes with ⟨k, _⟩ | ⟨d1, d2, es1, k, ks, kl, k3, _⟩
      · rw [k] at h1; cases h1
      · rw [k] at h1
        cases h1
        have hback : d'.lookup (M.host.ws ++ [backupName]) = d1.lookup (M.host.ws ++ [backupName]) := by
          rw [k3, lookup_child (lookup_place_parent kl), lookup_child kl, mapGet_mapInsert, if_neg graph_names]
        show (d.lookup (_ ++ [currentName]) = _ → d'.lookup (_ ++ [backupName]) = _) ∧
          (_ → (d'.lookup (_ ++ [backupName]) = _ ↔ d.lookup (_ ++ [backupName]) = _))
        rw [hback]
        rcases setGraphAside_eq hes ks with ⟨rfl, hn⟩ | ⟨t, ht, _, hl⟩
        · exact ⟨fun hc => absurd (hn.symm.trans hc) (by simp), fun _ => Iff.rfl⟩
        · refine ⟨fun hc => ?_, fun hno => absurd ((has_iff_lookup hd).2 ht) (hno t)⟩
          rw [ht] at hc
          cases hc
          rw [lookup_child hl, mapGet_mapInsert, if_pos rfl]

/-- C112: a question finds nothing if the files hold an infinite float or a value that is nested too deeply: the graph is
saved, but cannot be loaded. -/
theorem C112_infinite (M : Machine) (x : Chance) (hx : Chance.Lawful x) (f : OutputFormat) (d : FsTree)
    (hd : WellFormed d) (hws : ∀ n ∈ M.host.ws, ValidName n) (hg : NoGraphDirs M.host.ws d) (b : WorkspaceBuild)
    (hb : Current M.host d b) (hfew : b.entities.length < 2 ^ 32) (hkept : AllKept M.screen.codec b.entities)
    (hp : ¬ Tame b.entities) (c : Command) (hc : OnGraph c) : (firm M x false f d c).2 = none := by
  obtain ⟨b1, h1, h2, h3, _⟩ := loadBuild_complete hd hws hx.files hb
  obtain ⟨es, hes⟩ := hb.readable.1
  have hlook := (has_iff_lookup hd).1 hes
  have hgr := toGraph_current h2.ids
  have hacc := (toGraph_run hgr).2.1
  obtain ⟨d', h4, h5⟩ := save_ok M.screen.codec x.maps hd hg hlook (Graph.run (b1.entities.map .add ++ [.build]))
  have h6 := C96_refused M.screen.codec x.maps hx.maps (b1.entities.map .add ++ [.build])
    (by rw [hacc]; exact h3.length_eq ▸ hfew) (by rw [hacc]; exact fun e he => hkept e (h3.mem_iff.2 he))
    (by rw [hacc]; exact fun h => hp fun e he => h e (h3.mem_iff.1 he))
  have hl : loadGraphFile M.screen.codec M.host.ws d' = none := by
    unfold loadGraphFile
    rw [h5]
    dsimp only
    unfold FsTree.readText
    rw [h5]
    exact h6
  have hsave : buildAndSave M x d = (d', true) := by
    unfold buildAndSave
    rw [h1]
    dsimp only
    rw [hgr]
    exact h4
  cases c with
  | get type id =>
    rw [firm_question (c := .get type id) trivial hsave]
    show getCommand M x f d' type id = none
    unfold getCommand
    rw [if_neg hc, hl]
  | list type =>
    rw [firm_question (c := .list type) trivial hsave]
    show listCommand M x f d' type = none
    unfold listCommand
    rw [if_neg hc, hl]
  | related type id dir =>
    rw [firm_question (c := .related type id dir) trivial hsave]
    show relatedCommand M f d' type id dir = none
    unfold relatedCommand
    rw [hl]
  | query text =>
    rw [firm_question (c := .query text) trivial hsave]
    show queryCommand M x f d' text = none
    unfold queryCommand
    rw [hl]
  | build => exact hc.elim
  | source => exact hc.elim
  | add => exact hc.elim

/-- C112: a directory with the name of the backup stops every command but `source` once there is a saved graph. -/
theorem C112_blocked (M : Machine) (x : Chance) (f : OutputFormat) (d : FsTree) (hd : WellFormed d)
    {text : Option Str} {e : Option (List (Str × FsTree))}
    (hcur : Has d (M.host.ws ++ ["current.firm.graph".toList]) (.file text))
    (hback : Has d (M.host.ws ++ ["backup.firm.graph".toList]) (.dir e)) (c : Command) (hc : ∀ t i, c ≠ .source t i) :
    firm M x false f d c = (d, none) := by
  have h1 : d.lookup (M.host.ws ++ [currentName]) = some (.file text) := (has_iff_lookup hd).1 hcur
  have h2 : d.lookup (M.host.ws ++ [backupName]) = some (.dir e) := (has_iff_lookup hd).1 hback
  have h3 : setGraphAside M.host.ws d = none := by
    unfold setGraphAside
    rw [h1]
    dsimp only
    unfold FsTree.rename
    rw [h1]
    dsimp only
    rw [h2]
  have key : buildAndSave M x d = (d, false) := by
    unfold buildAndSave
    split
    · rfl
    · split
      · rfl
      · unfold saveGraphFile
        rw [h3]
  unfold firm
  cases c with
  | source t i => exact absurd rfl (hc t i)
  | build =>
    rw [if_pos (by rfl)]
    unfold Command.run
    rw [key]
  | get => rw [if_neg (by exact Bool.noConfusion), key]
  | list => rw [if_neg (by exact Bool.noConfusion), key]
  | related => rw [if_neg (by exact Bool.noConfusion), key]
  | query => rw [if_neg (by exact Bool.noConfusion), key]
  | add => rw [if_neg (by exact Bool.noConfusion), key]

/-- C112: `firm add` adds to the current files: it checks against the schemas and the ids that are on the disk at that
moment. Missing: as in `C112_answer_partial`, and a target that is not text (C72). -/
theorem C112_add_partial (M : Machine) (hsh : ∀ n ∈ M.shell.ws, ValidName n) (x : Chance) (hx : Chance.Lawful x)
    (f : OutputFormat) (d : FsTree) (hd : WellFormed d) (hws : ∀ n ∈ M.host.ws, ValidName n)
    (hg : NoGraphDirs M.host.ws d) (b0 : WorkspaceBuild) (hb : Current M.host d b0)
    (hst : Storable M.screen.codec b0.entities) (a : AddArgs) (s : Str) (h : (firm M x false f d (.add a)).2 = some s) :
    ∃ (sc : EntitySchema) (e : Entity) (loc : List Str) (d1 : FsTree), sc ∈ b0.schemas ∧ sc.entityType = a.type ∧
      Conforms M.shell.lang.env sc e ∧ e.id = M.shell.lang.cases.composeEntityId a.type (M.shell.sanitize a.id) ∧
      (∀ e' ∈ b0.entities, e'.id ≠ e.id) ∧ loc = lexicalPlace [] (M.shell.dslPath a.toFile a.type) ∧
      SameButGraph M.host.ws d d1 ∧
      ((Has d1 loc (.file none) ∧ Has (firm M x false f d (.add a)).1 loc (.file none)) ∨
        ∃ old, (Has d1 loc (.file (some old)) ∨ (old = [] ∧ ∀ u, NotDir u → ¬ Has d1 loc u)) ∧
          Has (firm M x false f d (.add a)).1 loc (.file (some (old ++ generateDsl M.shell.lang .default [e])))) ∧
      ∀ l u, l ≠ loc → NotDir u → (Has d1 l u ↔ Has (firm M x false f d (.add a)).1 l u) := by
  obtain ⟨d', b1, g, h1, h2, h3, h4, h5, h6, h7⟩ := built_saved hd hws hx hg hb hst
  obtain ⟨b2, k1, k2, k3, k4⟩ := loadBuild_complete hd hws hx.again hb
  have hperm : b0.entities.Perm b1.entities := by
    obtain ⟨w, hw, hbw⟩ := hb.built
    obtain ⟨w1, hw1, hbw1⟩ := h2.built
    obtain ⟨b', p1, p2, _⟩ := C43_order M.host.lang w w1 (loadsAs_perm hw hw1) b0 hbw
    rw [hbw1] at p1
    exact Except.ok.inj p1 ▸ p2
  have hrun : firm M x false f d (.add a) = addCommand M x d' a := by
    unfold firm
    rw [if_neg (by exact Bool.noConfusion), h1]
    rfl
  have hadd : addCommand M x d' a = match M.shell.add g b2.schemas d' a with
      | (d'', true) => (d'', some [])
      | (d'', false) => (d'', none) := by
    unfold addCommand
    rw [h4]
    dsimp only
    rw [loadBuild_files h6, k1]
    rfl
  rw [hrun, hadd] at h ⊢
  cases hsa : M.shell.add g b2.schemas d' a with
  | mk d'' ok =>
    rw [hsa] at h
    cases ok with
    | false => cases h
    | true =>
      obtain ⟨sc, e, loc, p1, p2, p3, p4, p5, p6, p7, p8⟩ := C72_add_partial M.shell hsh g b2.schemas d' d'' h3 a hsa
      refine ⟨sc, e, loc, d', k4.mem_iff.2 p1, p2, p3, p4, ?_, p6, h7, p7, p8⟩
      intro e' he' hid
      rw [h5.getEntity, Option.eq_none_iff_forall_ne_some] at p5
      refine p5 e' ?_
      rw [C01_lookup, (toGraph_run (toGraph_current h2.ids)).2.1]
      exact ⟨hperm.mem_iff.1 he', hid⟩

/-! ## C113 -/

namespace Spec

/-- The file contains a definition of this name: a schema if the type is `schema`, otherwise an entity of the type. -/
def Defines (root : Node) (type id : Str) : Prop :=
  ∃ n ∈ root.children,
    (type = "schema".toList ∧ n.kind = "schema_block".toList ∧ schemaName n = some id) ∨
    (type ≠ "schema".toList ∧ n.kind = "entity_block".toList ∧ entityTypeOf n = some type ∧ entityIdOf n = some id)

/-- What is printed for a path: the path in a line, or JSON that names the target and the path. -/
def ShowsPath (C : Codec) (type id path : Str) (s : Str) : OutputFormat → Prop
  | .pretty => s = path ++ ['\n']
  | .json => jsonParse C s = some (.object [("target_type".toList, .string type), ("target_id".toList, .string id),
      ("source_path".toList, .string path)])

end Spec

/-- The file that is looked for. -/
def findSource (w : Workspace) (type id : Str) : Option Str :=
  if type = "schema".toList then w.findSchemaSource id else w.findEntitySource type id

theorem findSource_spec (w : Workspace) (type id : Str) :
    (∀ path, findSource w type id = some path → ∃ f, (path, f) ∈ w ∧ Defines f.root type id) ∧
    (findSource w type id = none → ∀ p ∈ w, ¬ Defines p.2.root type id) := by
  unfold findSource
  by_cases ht : type = "schema".toList
  · rw [if_pos ht]
    unfold Workspace.findSchemaSource SourceFile.schemas
    constructor
    · intro path h
      obtain ⟨p, hp, rfl⟩ := Option.map_eq_some_iff.1 h
      have hany := List.find?_some hp
      obtain ⟨n, hn, hc⟩ := List.any_eq_true.1 hany
      rw [List.mem_filter] at hn
      exact ⟨p.2, List.mem_of_find?_eq_some hp, n, hn.1, .inl ⟨ht, of_decide_eq_true hn.2, of_decide_eq_true hc⟩⟩
    · rintro h p hp ⟨n, hn, ⟨_, h2, h3⟩ | ⟨h1, _⟩⟩
      · refine List.find?_eq_none.1 (Option.map_eq_none_iff.1 h) p hp (List.any_eq_true.2 ⟨n, ?_, decide_eq_true h3⟩)
        rw [List.mem_filter]
        exact ⟨hn, decide_eq_true h2⟩
      · exact h1 ht
  · rw [if_neg ht]
    unfold Workspace.findEntitySource SourceFile.entities
    constructor
    · intro path h
      obtain ⟨p, hp, rfl⟩ := Option.map_eq_some_iff.1 h
      have hany := List.find?_some hp
      obtain ⟨n, hn, hc⟩ := List.any_eq_true.1 hany
      rw [List.mem_filter] at hn
      simp only [Bool.and_eq_true, decide_eq_true_eq] at hc
      exact ⟨p.2, List.mem_of_find?_eq_some hp, n, hn.1, .inr ⟨ht, of_decide_eq_true hn.2, hc⟩⟩
    · rintro h p hp ⟨n, hn, ⟨h1, _⟩ | ⟨_, h2, h3⟩⟩
      · exact ht h1
      · refine List.find?_eq_none.1 (Option.map_eq_none_iff.1 h) p hp (List.any_eq_true.2 ⟨n, ?_, ?_⟩)
        · rw [List.mem_filter]
          exact ⟨hn, decide_eq_true h2⟩
        · simp only [Bool.and_eq_true, decide_eq_true_eq]
          exact h3

theorem saveSource_shows (C : Codec) (type id path : Str) :
    ShowsPath C type id path (jsonOutput C (saveSource type id path)) .json := by
  refine jsonOutput_read (.object ?_)
  intro e he
  simp only [List.mem_cons, List.not_mem_nil, or_false] at he
  rcases he with rfl | rfl | rfl <;> exact .string _ _

/-- The source command, with the files that were loaded. -/
theorem source_eq {M : Machine} {x : Chance} {cached : Bool} {f : OutputFormat} {d : FsTree} {type id : Str} :
    firm M x cached f d (.source type id) =
      (d, match loadFiles M.host d with
        | none => none
        | some w => (findSource (x.again w) type id).map fun path =>
            match f with
            | .pretty => printLine path
            | .json => jsonOutput M.screen.codec (saveSource type id path)) := by
  unfold firm
  rw [if_pos (by cases cached <;> rfl)]
  rfl

/-- C113: `firm source` changes nothing; when everything can be read, it prints the path of a file that contains a
definition of the name exactly when there is one, also when the workspace does not build. -/
theorem C113_source (M : Machine) (x : Chance) (hx : Chance.Lawful x) (cached : Bool) (f : OutputFormat) (d : FsTree)
    (hd : WellFormed d) (hws : ∀ n ∈ M.host.ws, ValidName n) (hr : Spec.Readable M.host.ws d) (type id : Str) :
    (firm M x cached f d (.source type id)).1 = d ∧
    ((firm M x cached f d (.source type id)).2 = none ↔
      ¬ ∃ loc text, FirmFile d M.host.ws loc text ∧ Defines (M.host.grammar text) type id) ∧
    ∀ s, (firm M x cached f d (.source type id)).2 = some s →
      ∃ loc text, FirmFile d M.host.ws loc text ∧ Defines (M.host.grammar text) type id ∧
        ShowsPath M.screen.codec type id ('/' :: joinWith ['/'] (M.host.ws ++ loc)) s f := by
  obtain ⟨w, hw⟩ := (loadFiles_spec hd hws).2 hr
  have hl := loadsAs_order (hx.again w) ((loadFiles_spec hd hws).1 w hw).2
  obtain ⟨k1, k2⟩ := findSource_spec (x.again w) type id
  rw [source_eq, hw]
  dsimp only
  have hsome : ∀ path, findSource (x.again w) type id = some path → ∃ loc text, FirmFile d M.host.ws loc text ∧
      Defines (M.host.grammar text) type id ∧ path = '/' :: joinWith ['/'] (M.host.ws ++ loc) := by
    intro path h
    obtain ⟨sf, h1, h2⟩ := k1 path h
    obtain ⟨loc, text, h3, h4, rfl⟩ := (hl.2 path sf).1 h1
    exact ⟨loc, text, h3, h2, h4⟩
  refine ⟨rfl, ?_, ?_⟩
  · rw [Option.map_eq_none_iff]
    constructor
    · rintro h ⟨loc, text, h1, h2⟩
      exact k2 h _ ((hl.2 _ ⟨M.host.grammar text, _⟩).2 ⟨loc, text, h1, rfl, rfl⟩) h2
    · intro h
      cases hs : findSource (x.again w) type id with
      | none => rfl
      | some path =>
        obtain ⟨loc, text, h1, h2, _⟩ := hsome path hs
        exact absurd ⟨loc, text, h1, h2⟩ h
  · intro s h
    obtain ⟨path, h1, rfl⟩ := Option.map_eq_some_iff.1 h
    obtain ⟨loc, text, h2, h3, rfl⟩ := hsome path h1
    refine ⟨loc, text, h2, h3, ?_⟩
    cases f with
    | pretty => rfl
    | json => exact saveSource_shows _ _ _ _

/-- C113: it says the same in both formats. -/
theorem C113_formats (M : Machine) (x : Chance) (cached : Bool) (d : FsTree) (type id : Str) :
    ((firm M x cached .pretty d (.source type id)).2 = none ∧ (firm M x cached .json d (.source type id)).2 = none) ∨
    ∃ path s, (firm M x cached .pretty d (.source type id)).2 = some (path ++ ['\n']) ∧
      (firm M x cached .json d (.source type id)).2 = some s ∧ ShowsPath M.screen.codec type id path s .json := by
  rw [source_eq, source_eq]
  cases loadFiles M.host d with
  | none => exact .inl ⟨rfl, rfl⟩
  | some w =>
    dsimp only
    cases findSource (x.again w) type id with
    | none => exact .inl ⟨rfl, rfl⟩
    | some path => exact .inr ⟨path, _, rfl, rfl, saveSource_shows _ _ _ _⟩

/-- C113: if something cannot be read, it prints nothing and changes nothing. -/
theorem C113_unreadable (M : Machine) (x : Chance) (cached : Bool) (f : OutputFormat) (d : FsTree)
    (hd : WellFormed d) (hws : ∀ n ∈ M.host.ws, ValidName n) (hr : ¬ Spec.Readable M.host.ws d) (type id : Str) :
    firm M x cached f d (.source type id) = (d, none) := by
  rw [source_eq]
  cases hw : loadFiles M.host d with
  | none => rfl
  | some w => exact absurd ((loadFiles_spec hd hws).1 w hw).1 hr

/-- C113: where a server runs on the same disk, `find_source` finds something exactly when `firm source` does, and the same
file if only one file contains a definition of the name. -/
theorem C113_tool (M : Machine) (x : Chance) (hx : Chance.Lawful x) (cached : Bool) (s : Server) (hd : WellFormed s.disk)
    (hws : ∀ n ∈ M.host.ws, ValidName n) (hr : Spec.Readable M.host.ws s.disk) (hs : Serves M.host s) (type id : Str) :
    ((firm M x cached .pretty s.disk (.source type id)).2 = none ↔
      findSourceTool (placeText M.host.ws) s.state.workspace type id = none) ∧
    ∀ rel, findSourceTool (placeText M.host.ws) s.state.workspace type id = some rel →
      (∀ loc loc' text text', FirmFile s.disk M.host.ws loc text → Defines (M.host.grammar text) type id →
        FirmFile s.disk M.host.ws loc' text' → Defines (M.host.grammar text') type id → loc = loc') →
      ∃ loc text, FirmFile s.disk M.host.ws loc text ∧ rel = joinWith ['/'] loc ∧
        (firm M x cached .pretty s.disk (.source type id)).2 =
          some ('/' :: joinWith ['/'] (M.host.ws ++ loc) ++ ['\n']) := by
  obtain ⟨_, h2, h3⟩ := C113_source M x hx cached .pretty s.disk hd hws hr type id
  obtain ⟨k1, k2⟩ := findSource_spec s.state.workspace type id
  have htool : findSourceTool (placeText M.host.ws) s.state.workspace type id =
      (findSource s.state.workspace type id).map fun path => (toRelativePath (placeText M.host.ws) path).getD path := rfl
  have hfound : ∀ path, findSource s.state.workspace type id = some path → ∃ loc text, FirmFile s.disk M.host.ws loc text ∧
      Defines (M.host.grammar text) type id ∧ toRelativePath (placeText M.host.ws) path = some (joinWith ['/'] loc) := by
    intro path h
    obtain ⟨sf, m1, m2⟩ := k1 path h
    obtain ⟨loc, text, n1, n2, n3, _⟩ := findSource_path hd hs.1 m1
    rw [show sf = _ from n2] at m2
    exact ⟨loc, text, n1, m2, n3⟩
  rw [htool, Option.map_eq_none_iff]
  refine ⟨?_, ?_⟩
  · rw [h2]
    constructor
    · intro h
      cases hf : findSource s.state.workspace type id with
      | none => rfl
      | some path =>
        obtain ⟨loc, text, m1, m2, _⟩ := hfound path hf
        exact absurd ⟨loc, text, m1, m2⟩ h
    · rintro h ⟨loc, text, m1, m2⟩
      exact k2 h _ ((hs.1.2 _ ⟨M.host.grammar text, _⟩).2 ⟨loc, text, m1, rfl, rfl⟩) m2
  · intro rel hrel huniq
    obtain ⟨path, p1, rfl⟩ := Option.map_eq_some_iff.1 hrel
    obtain ⟨loc, text, m1, m2, m3⟩ := hfound path p1
    cases ho : (firm M x cached .pretty s.disk (.source type id)).2 with
    | none => exact absurd ⟨loc, text, m1, m2⟩ (h2.1 ho)
    | some t =>
      obtain ⟨loc', text', n1, n2, n3⟩ := h3 t ho
      have := huniq loc loc' text text' m1 m2 n1 n2
      subst this
      refine ⟨loc, text, m1, by rw [m3]; rfl, ?_⟩
      rw [show t = _ from n3]

/-! ## Examples -/

/-- The examples on one machine. -/
def exMachine : Machine := ⟨exHost, exScreen, exShell⟩

/-- Everything is enumerated from its end. -/
def exChance : Chance := ⟨List.reverse, List.reverse, exOrder, exRt⟩

theorem exChance_lawful : Chance.Lawful exChance :=
  ⟨fun w => List.reverse_perm w, fun w => List.reverse_perm w, exOrder_lawful⟩

/-- A disk with the two files and an older graph that cannot even be read. -/
def exOldDisk : FsTree :=
  .dir (some [("w".toList, .dir (some [("a.firm".toList, .file (some "S".toList)), ("b.firm".toList, .file (some "B".toList)),
    ("current.firm.graph".toList, .file (some "old".toList))]))])

/-- Is this a string? -/
def isText : FieldValue → Bool
  | .string _ => true
  | _ => false

theorem storable_texts {C : Codec} {es : List Entity} (hl : es.length < 2 ^ 32)
    (h : ∀ e ∈ es, ∀ p ∈ e.fields, isText p.2 = true) : Storable C es := by
  have key : ∀ e ∈ es, ∀ p ∈ e.fields, ∃ s, p.2 = .string s := by
    intro e he p hp
    have := h e he p hp
    cases hv : p.2 with
    | string s => exact ⟨s, rfl⟩
    | _ => rw [hv] at this; cases this
  refine ⟨hl, fun e he p hp w hw => ?_, fun e he p hp => ?_⟩
  · obtain ⟨s, hs⟩ := key e he p hp
    rw [hs] at hw
    cases hw
    trivial
  · obtain ⟨s, hs⟩ := key e he p hp
    rw [hs]
    refine ⟨by simp [levels], fun f hf => ?_⟩
    cases hf

theorem exOldDisk_wf : WellFormed exOldDisk := by
  have hv : ∀ n : Str, n ∈ ["w".toList, "a.firm".toList, "b.firm".toList, "current.firm.graph".toList] → ValidName n := by
    intro n hn
    simp only [List.mem_cons, List.not_mem_nil, or_false] at hn
    rcases hn with rfl | rfl | rfl | rfl <;> exact ⟨by decide, by decide, by decide, by decide⟩
  refine .dir (by decide) (fun p hp => ?_) (fun p hp => ?_)
  · rw [List.mem_singleton.1 hp]; exact hv _ (by decide)
  · rw [List.mem_singleton.1 hp]
    refine .dir (by decide) (fun p hp => ?_) (fun p hp => ?_)
    · simp only [List.mem_cons, List.not_mem_nil, or_false] at hp
      rcases hp with rfl | rfl | rfl <;> exact hv _ (by decide)
    · simp only [List.mem_cons, List.not_mem_nil, or_false] at hp
      rcases hp with rfl | rfl | rfl <;> exact .file _

theorem exOldDisk_graph : NoGraphDirs exMachine.host.ws exOldDisk := by
  rintro n hn es h
  rw [has_iff_lookup exOldDisk_wf] at h
  rcases hn with rfl | rfl
  · rw [show exOldDisk.lookup _ = some (.file (some "old".toList)) from rfl] at h; cases h
  · rw [show exOldDisk.lookup _ = none from rfl] at h; cases h

/-- What is built there. -/
def exOldBuild : WorkspaceBuild := ((loadBuild exHost id exOldDisk).getD ⟨[], []⟩)

theorem exOldBuild_current : Current exMachine.host exOldDisk exOldBuild := by
  have h : loadBuild exHost id exOldDisk = some exOldBuild := by
    unfold exOldBuild
    cases hb : loadBuild exHost id exOldDisk with
    | some b => rfl
    | none =>
      have : (loadBuild exHost id exOldDisk).isSome = true := by decide +kernel
      rw [hb] at this
      cases this
  obtain ⟨h1, h2⟩ := loadBuild_sound exOldDisk_wf exHost_ws (fun w => List.Perm.refl w) h
  exact ⟨h1, h2, by decide +kernel⟩

theorem exOldBuild_storable : Storable exMachine.screen.codec exOldBuild.entities :=
  storable_texts (by decide +kernel) (by decide +kernel)

example (f : OutputFormat) (c : Command) (hq : Question c) :
    ∃ b, Current exMachine.host exOldDisk b ∧ Says exMachine f b (firm exMachine exChance false f exOldDisk c).2 c :=
  (C112_answer_partial exMachine exChance exChance_lawful f exOldDisk exOldDisk_wf exHost_ws exOldDisk_graph _
    exOldBuild_current exOldBuild_storable c hq).1

example : exOldBuild.entities.map (·.id) = ["person.alice".toList, "person.bob".toList] ∧
    (firm exMachine exChance false .pretty exOldDisk (.list "person".toList)).2 =
      some "person.bob\nperson.alice\n".toList := by decide +kernel

/-- The hypotheses of the theorems about `--cached`, the backup, `add` and `source`. -/
example : Has exOldDisk (exMachine.host.ws ++ ["current.firm.graph".toList]) (.file (some "old".toList)) ∧
    (firm exMachine exChance false .pretty exOldDisk .build).2 = some [] ∧
    OnGraph (.get "person".toList "bob".toList) ∧ OnGraph (.query "from person".toList) := by
  refine ⟨(has_iff_lookup exOldDisk_wf).2 rfl, by decide +kernel, fun h => absurd h (by decide), trivial⟩

example : (firm exMachine exChance false .json exOldDisk (.add ⟨none, "person".toList, "Cy".toList,
    ["name".toList, "Cy".toList], [], []⟩)).2 = some [] := by decide +kernel

example : (firm exMachine exChance false .pretty exOldDisk (.source "person".toList "bob".toList)).2 =
    some "/w/b.firm\n".toList ∧
    (firm exMachine exChance false .pretty exOldDisk (.source "person".toList "eve".toList)).2 = none := by decide +kernel

/-- A disk whose only file does not build; `firm source` finds the definition all the same. -/
def exGhostDisk : FsTree := .dir (some [("w".toList, .dir (some [("c.firm".toList, .file (some "?".toList))]))])

example : (firm exMachine exChance false .pretty exGhostDisk .build).2 = none ∧
    (firm exMachine exChance false .pretty exGhostDisk (.source "ghost".toList "x".toList)).2 =
      some "/w/c.firm\n".toList := by decide +kernel

theorem exGhostDisk_wf : WellFormed exGhostDisk := by
  have hv : ∀ n : Str, n ∈ ["w".toList, "c.firm".toList] → ValidName n := by
    intro n hn
    simp only [List.mem_cons, List.not_mem_nil, or_false] at hn
    rcases hn with rfl | rfl <;> exact ⟨by decide, by decide, by decide, by decide⟩
  refine .dir (by decide) (fun p hp => ?_) (fun p hp => ?_)
  · rw [List.mem_singleton.1 hp]; exact hv _ (by decide)
  · rw [List.mem_singleton.1 hp]
    refine .dir (by decide) (fun p hp => ?_) (fun p hp => ?_)
    · rw [List.mem_singleton.1 hp]; exact hv _ (by decide)
    · rw [List.mem_singleton.1 hp]; exact .file _

/-- The hypotheses of `C112_unbuilt` are met. -/
example : ∀ b, ¬ Current exMachine.host exGhostDisk b := by
  intro b hb
  obtain ⟨b', h, _⟩ := loadBuild_complete exGhostDisk_wf exHost_ws (order := id) (fun w => List.Perm.refl w) hb
  have : (loadBuild exHost id exGhostDisk).isSome = false := by decide +kernel
  rw [h] at this
  cases this

/-- The hypotheses of `C112_blocked` are met by a disk on which the files build. -/
example : ∃ d : FsTree, d.lookup (exMachine.host.ws ++ ["current.firm.graph".toList]) = some (.file (some "{}".toList)) ∧
    d.lookup (exMachine.host.ws ++ ["backup.firm.graph".toList]) = some (.dir (some [])) ∧
    (loadBuild exMachine.host id d).isSome = true :=
  ⟨.dir (some [("w".toList, .dir (some [("a.firm".toList, .file (some "S".toList)),
    ("current.firm.graph".toList, .file (some "{}".toList)), ("backup.firm.graph".toList, .dir (some []))]))]),
    rfl, rfl, by decide +kernel⟩

/-- A machine that reads every number with a fraction as infinite, as `f64` does with very large ones. -/
def exHugeMachine : Machine :=
  ⟨{ exHost with
      lang := { exLang with parseF64 := fun _ => some (.inf false) }
      grammar := fun text => .mk "source_file".toList text
        [exSchemaNode "person" [("size", "float", "true")],
          exEntityNode "person" "alice" [exFieldNode "size" "number" "9.5"]] }, exScreen, exShell⟩

/-- One file. -/
def exHugeDisk : FsTree := .dir (some [("w".toList, .dir (some [("a.firm".toList, .file (some "H".toList))]))])

/-- What is built there. -/
def exHugeBuild : WorkspaceBuild := (loadBuild exHugeMachine.host id exHugeDisk).getD ⟨[], []⟩

example : exHugeBuild.entities = [⟨"person.alice".toList, "person".toList, [("size".toList, .float (.inf false))]⟩] := by
  decide +kernel

/-- The hypotheses of `C112_infinite` are met. -/
example : WellFormed exHugeDisk ∧ NoGraphDirs exHugeMachine.host.ws exHugeDisk ∧
    Current exHugeMachine.host exHugeDisk exHugeBuild ∧ AllKept exHugeMachine.screen.codec exHugeBuild.entities ∧
    ¬ Tame exHugeBuild.entities := by
  have hbuilt : exHugeBuild.entities =
      [⟨"person.alice".toList, "person".toList, [("size".toList, .float (.inf false))]⟩] := by decide +kernel
  have hv : ∀ n : Str, n ∈ ["w".toList, "a.firm".toList] → ValidName n := by
    intro n hn
    simp only [List.mem_cons, List.not_mem_nil, or_false] at hn
    rcases hn with rfl | rfl <;> exact ⟨by decide, by decide, by decide, by decide⟩
  have hwf : WellFormed exHugeDisk := by
    refine .dir (by decide) (fun p hp => ?_) (fun p hp => ?_)
    · rw [List.mem_singleton.1 hp]; exact hv _ (by decide)
    · rw [List.mem_singleton.1 hp]
      refine .dir (by decide) (fun p hp => ?_) (fun p hp => ?_)
      · rw [List.mem_singleton.1 hp]; exact hv _ (by decide)
      · rw [List.mem_singleton.1 hp]; exact .file _
  have h : loadBuild exHugeMachine.host id exHugeDisk = some exHugeBuild := by
    unfold exHugeBuild
    cases hb : loadBuild exHugeMachine.host id exHugeDisk with
    | some b => rfl
    | none =>
      have : (loadBuild exHugeMachine.host id exHugeDisk).isSome = true := by decide +kernel
      rw [hb] at this
      cases this
  obtain ⟨h1, h2⟩ := loadBuild_sound (H := exHugeMachine.host) hwf exHost_ws (fun w => List.Perm.refl w) h
  refine ⟨hwf, ?_, ⟨h1, h2, by decide +kernel⟩, ?_, ?_⟩
  · rintro n hn es h
    rw [has_iff_lookup hwf] at h
    rcases hn with rfl | rfl
    · rw [show exHugeDisk.lookup _ = none from rfl] at h; cases h
    · rw [show exHugeDisk.lookup _ = none from rfl] at h; cases h
  · rw [hbuilt]
    intro e he p hp w hw
    rw [List.mem_singleton.1 he] at hp
    rw [List.mem_singleton.1 hp] at hw
    cases hw
    exact fun hf => absurd rfl (hf.2 false)
  · rw [hbuilt]
    intro ht
    exact (ht _ (List.mem_singleton.2 rfl) _ (List.mem_singleton.2 rfl)).2 _ .self |>.2 false rfl

end Firm
