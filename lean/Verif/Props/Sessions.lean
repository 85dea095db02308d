import Verif.Props.Main
import Verif.Props.Command
import Verif.Props.Agreement

/-!
# Several runs of the command line, and the command line beside the server (C114–C115)
-/

namespace Firm

open Spec

/-- Two current builds hold the same. -/
theorem current_perm {H : Host} {d : FsTree} {b b' : WorkspaceBuild} (h : Current H d b) (h' : Current H d b') :
    b.entities.Perm b'.entities ∧ b.schemas.Perm b'.schemas := by
  obtain ⟨w, hw, hb⟩ := h.built
  obtain ⟨w', hw', hb'⟩ := h'.built
  obtain ⟨b2, p1, p2, p3⟩ := C43_order H.lang w w' (loadsAs_perm hw hw') b hb
  rw [hb'] at p1
  have := Except.ok.inj p1
  subst this
  exact ⟨p2, p3⟩

/-- What can be loaded before saving the graph can be loaded after it. -/
theorem current_saved {H : Host} {d d' : FsTree} (hd : WellFormed d) (hd' : WellFormed d') (hws : ∀ n ∈ H.ws, ValidName n)
    (hl : loadFiles H d' = loadFiles H d) {b : WorkspaceBuild} (h : Current H d b) : Current H d' b := by
  obtain ⟨w, hw⟩ := (loadFiles_spec hd hws).2 h.readable
  obtain ⟨w0, hw0, hb⟩ := h.built
  have h1 := (loadFiles_spec hd hws).1 w hw
  have h2 := (loadFiles_spec hd' hws).1 w (hl.trans hw)
  exact ⟨h2.1, ⟨w0, loadsAs_order (loadsAs_perm hw0 h1.2) h2.2, hb⟩, h.ids⟩

theorem readable_append {ws : List Str} {d d' : FsTree} (hd' : WellFormed d') (hread : Spec.Readable ws d) {dirs : List Str}
    {name text : Str} (hnew : Has d' (ws ++ (dirs ++ [name])) (.file (some text)))
    (hrest : ∀ l u, l ≠ ws ++ (dirs ++ [name]) → NotDir u → (Has d l u ↔ Has d' l u)) : Spec.Readable ws d' := by
  have hnd : ∀ t : Option Str, NotDir (.file t) := fun t es h => by cases h
  have hndd : NotDir (.dir none) := fun es h => by cases h
  refine ⟨has_parent hnew (by simp), fun loc hh => ?_, fun dirs' n hn hh => ?_⟩
  · by_cases hl : loc = dirs ++ [name]
    · subst hl
      cases has_file_unique hd' hh hnew
    · exact hread.2.1 loc ((hrest _ _ (by simpa using hl) hndd).2 hh)
  · by_cases hl : dirs' ++ [n] = dirs ++ [name]
    · rw [hl] at hh
      cases has_file_unique hd' hh hnew
    · exact hread.2.2 dirs' n hn ((hrest _ _ (by simpa using hl) (hnd _)).2 hh)

theorem wf_add {S : Shell} (hws : ∀ n ∈ S.ws, ValidName n) {g : Graph} {schemas : List EntitySchema} {d d' : FsTree}
    (hd : WellFormed d) {a : AddArgs} {ok : Bool} (h : S.add g schemas d a = (d', ok)) : WellFormed d' := by
  unfold Shell.add at h
  split at h
  · cases h; exact hd
  · exact (cliAppend_spec hd (dslPath_valid hws _ _) h).1

/-- A run of `add`, step by step. -/
theorem add_run {M : Machine} {x : Chance} (hx : Chance.Lawful x) {f : OutputFormat} {d : FsTree} (hd : WellFormed d)
    (hws : ∀ n ∈ M.host.ws, ValidName n) (hg : NoGraphDirs M.host.ws d) {b0 : WorkspaceBuild} (hb : Current M.host d b0)
    (hst : Storable M.screen.codec b0.entities) {a : AddArgs} {s : Str} (h : (firm M x false f d (.add a)).2 = some s) :
    ∃ d1 b g, WellFormed d1 ∧ Current M.host d1 b ∧ b0.entities.Perm b.entities ∧ b0.schemas.Perm b.schemas ∧
      (∀ id e, g.getEntity id = some e ↔ e ∈ b.entities ∧ e.id = id) ∧ SameButGraph M.host.ws d d1 ∧
      M.shell.add g b.schemas d1 a = ((firm M x false f d (.add a)).1, true) := by
  obtain ⟨d', b1, g, h1, h2, h3, h4, h5, h6, h7⟩ := built_saved hd hws hx hg hb hst
  obtain ⟨b2, k1, k2, k3, k4⟩ := loadBuild_complete hd hws hx.again hb
  have hrun : firm M x false f d (.add a) = match M.shell.add g b2.schemas d' a with
      | (d'', true) => (d'', some [])
      | (d'', false) => (d'', none) := by
    unfold firm
    rw [if_neg (by exact Bool.noConfusion), h1]
    show addCommand M x d' a = _
    unfold addCommand
    rw [h4]
    dsimp only
    rw [loadBuild_files h6, k1]
    rfl
  rw [hrun] at h ⊢
  cases hsa : M.shell.add g b2.schemas d' a with
  | mk d'' ok =>
    rw [hsa] at h
    cases ok with
    | false => cases h
    | true =>
      refine ⟨d', b2, g, h3, current_saved hd h3 hws h6 k2, k3, k4, fun id e => ?_, h7, hsa⟩
      rw [h5.getEntity, C01_lookup, (toGraph_run (toGraph_current h2.ids)).2.1,
        ((current_perm h2 k2).1).mem_iff]

/-- C114: an entity that `firm add` has added is printed by `firm get`, is refused when it is added again, and is served by a
server that is started then. Missing: values that do not read back (C51, C68, C69, C88), a last line without a line break
(`C72_glued`), target files outside the workspace, and what is missing in C112. -/
theorem C114_add_get_partial (M : Machine) (hlang : M.shell.lang = M.host.lang) (hsws : M.shell.ws = M.host.ws)
    (hT : RegularCase M.host.lang.cases) (hws : ∀ n ∈ M.host.ws, ValidName n) (x : Chance) (hx : Chance.Lawful x)
    (f : OutputFormat) (d : FsTree) (hd : WellFormed d) (hg : NoGraphDirs M.host.ws d) (b0 : WorkspaceBuild)
    (hb : Current M.host d b0) (hst : Storable M.screen.codec b0.entities) (a : AddArgs) (hdot : '.' ∉ a.type)
    (hns : a.type ≠ "schema".toList) {dirs : List Str} {name : Str} (hname : FirmName name)
    (htarget : lexicalPlace [] (M.shell.dslPath a.toFile a.type) = M.host.ws ++ (dirs ++ [name]))
    (d' : FsTree) (s : Str) (h : firm M x false f d (.add a) = (d', some s)) :
    ∃ (sc : EntitySchema) (e : Entity) (old : Str), sc ∈ b0.schemas ∧ Conforms M.host.lang.env sc e ∧ e.entityType = a.type ∧
      e.id = M.host.lang.cases.composeEntityId a.type (M.shell.sanitize a.id) ∧
      Has d' (M.host.ws ++ (dirs ++ [name])) (.file (some (old ++ generateDsl M.host.lang .default [e]))) ∧
      (ReadsAppended M.host.grammar old (old ++ generateDsl M.host.lang .default [e]) (entityNode M.host.lang .default e) →
        (∀ q ∈ e.fields, ReadsBack M.host.lang .default (joinWith ['/'] (dirs ++ [name])) q.2) →
        Storable M.screen.codec (b0.entities ++ [e]) → NoGraphDirs M.host.ws d' → ∀ x', Chance.Lawful x' →
        (∀ f' id, M.host.lang.cases.composeEntityId a.type id = e.id →
          (firm M x' false f' d' (.get a.type id)).2 = some (outputEntity M.screen e f')) ∧
        (∀ f', (firm M x' false f' d' (.add a)).2 = none) ∧
        ∃ st, rebuild M.host x'.files d' = .ok st ∧ st.build.entities.Perm (b0.entities ++ [e]) ∧
          st.build.schemas.Perm b0.schemas) := by
  obtain ⟨d1, b, g, h1, h2, h3, h4, h5, h6, h7⟩ := add_run hx hd hws hg hb hst (by rw [h])
  rw [h] at h7
  dsimp only at h7
  have hvalid : ∀ n ∈ M.shell.ws, ValidName n := by rw [hsws]; exact hws
  have hd' := wf_add hvalid h1 h7
  obtain ⟨w, hw, hbw⟩ := h2.built
  obtain ⟨_, e0, loc, p1, p2, p3, p4, p5, p6, p7, p8⟩ := C72_add_partial M.shell hvalid g b.schemas d1 d' h1 a h7
  rw [htarget] at p6
  subst p6
  have key : ∃ (sc : EntitySchema) (e : Entity) (old : Str), sc ∈ b.schemas ∧ Conforms M.host.lang.env sc e ∧
      e.entityType = a.type ∧ e.id = M.host.lang.cases.composeEntityId a.type (M.shell.sanitize a.id) ∧
      Has d' (M.host.ws ++ (dirs ++ [name])) (.file (some (old ++ generateDsl M.host.lang .default [e]))) ∧
      (ReadsAppended M.host.grammar old (old ++ generateDsl M.host.lang .default [e]) (entityNode M.host.lang .default e) →
        (∀ q ∈ e.fields, ReadsBack M.host.lang .default (joinWith ['/'] (dirs ++ [name])) q.2) →
        ∃ b', Current M.host d' b' ∧ b'.entities.Perm (b.entities ++ [e]) ∧ b'.schemas.Perm b.schemas) := by
    have hread' : Spec.Readable M.host.ws d' := by
      rcases p7 with ⟨hbad, _⟩ | ⟨old, _, hnew⟩
      · exact absurd hbad (h2.readable.2.2 dirs name hname)
      · exact readable_append hd' h2.readable hnew p8
    obtain ⟨w', hw'⟩ := (loadFiles_spec hd' hws).2 hread'
    have hl' := ((loadFiles_spec hd' hws).1 w' hw').2
    have c := C93_command_partial M.shell M.host.grammar (hlang ▸ hT) hvalid g h1 hd' (hsws ▸ h2.readable)
      (w := w) (w' := w') (hsws ▸ hw) (hlang ▸ hbw) a hdot hname (by rw [htarget, hsws]) h7 (hsws ▸ hl')
    rw [hlang, hsws] at c
    obtain ⟨sc, e, old, c1, c2, c3, c4, c5, c6⟩ := c
    refine ⟨sc, e, old, c1, c2, c3, c4, c5, fun hr hback => ?_⟩
    obtain ⟨c7, c8⟩ := c6 hr
    obtain ⟨b', c9, c10⟩ := c8 hback
    obtain ⟨_, _, _, c11⟩ := c7 b' c9
    refine ⟨b', ⟨hread', ⟨w', hl', c9⟩, (c10.map _).nodup_iff.2 ?_⟩, c10, c11⟩
    rw [List.map_append, List.map_cons, List.map_nil, List.nodup_append]
    refine ⟨h2.ids, by simp, ?_⟩
    intro y hy z hz heq
    obtain ⟨e1, he1, rfl⟩ := List.mem_map.1 hy
    rw [List.mem_singleton.1 hz] at heq
    rw [Option.eq_none_iff_forall_ne_some] at p5
    exact p5 e1 ((h5 _ _).2 ⟨he1, by rw [heq, c4, p4, hlang]⟩)
  obtain ⟨sc, e, old, c1, c2, c3, c4, c5, c6⟩ := key
  refine ⟨sc, e, old, h4.mem_iff.2 c1, c2, c3, c4, c5, fun hr hback hst' hg' x' hx' => ?_⟩
  obtain ⟨b', k1, k2, k3⟩ := c6 hr hback
  have hst'' : Storable M.screen.codec b'.entities :=
    storable_perm ((h3.append_right [e]).trans k2.symm) hst'
  have hmem : e ∈ b'.entities := k2.mem_iff.2 (by simp)
  refine ⟨fun f' id hid => ?_, fun f' => ?_, ?_⟩
  · obtain ⟨⟨b2, m1, _, m2⟩, _⟩ := C112_answer_partial M x' hx' f' d' hd' hws hg' b' k1 hst'' (.get a.type id) trivial
    exact (m2 hns _).2 ⟨e, ((current_perm m1 k1).1).mem_iff.2 hmem, hid.symm, rfl⟩
  · cases ho : (firm M x' false f' d' (.add a)).2 with
    | none => rfl
    | some t =>
      obtain ⟨_, e2, _, _, _, _, _, n1, n2, _⟩ := C112_add_partial M hvalid x' hx' f' d' hd' hws hg' b' k1 hst'' a t ho
      refine absurd ?_ (n2 e hmem)
      rw [c4, n1, hlang]
  · obtain ⟨st, hs⟩ := rebuild_ok (order := x'.files) hd' hws hx'.files k1.readable (fun w hw => by
      obtain ⟨w0, hw0, hb0⟩ := k1.built
      obtain ⟨b2, q1, q2, _⟩ := C43_order M.host.lang w0 w (loadsAs_perm hw0 hw) b' hb0
      exact ⟨b2, q1, (q2.map _).nodup_iff.1 k1.ids⟩)
    have hserves := rebuild_serves hd' hws hx'.files hs
    have hcur : Current M.host d' st.build :=
      ⟨k1.readable, ⟨_, hserves.1, hserves.2.1⟩, (toGraph_run hserves.2.2).2.2.2⟩
    obtain ⟨q1, q2⟩ := current_perm hcur k1
    exact ⟨st, hs, (q1.trans k2).trans (h3.symm.append_right [e]), (q2.trans k3).trans h4.symm⟩

/-! ## C115: the command line beside the server -/

namespace Spec

/-- The server's word for a direction of the command line. -/
def sameDirection : Option CliDirection → Option Direction
  | some .to => some .incoming
  | some .from => some .outgoing
  | none => none

/-- How the command line shows what the tool `get` answers with. -/
def shown (S : Screen) (f : OutputFormat) : Item → Str
  | .entity e => outputEntity S e f
  | .schema x => outputSchema S x f

end Spec

theorem serves_current {H : Host} {s : Server} (hs : Serves H s) (hr : Spec.Readable H.ws s.disk) :
    Current H s.disk s.state.build :=
  ⟨hr, ⟨_, hs.1, hs.2.1⟩, (toGraph_run hs.2.2).2.2.2⟩

theorem getTool_iff {H : Host} {s : Server} (hs : Serves H s) (type id : Str) :
    (type = "schema".toList → ∀ i, getTool H.lang.cases s.state.build type id = some i ↔
      ∃ x ∈ s.state.build.schemas, x.entityType = id ∧ i = .schema x) ∧
    (type ≠ "schema".toList → ∀ i, getTool H.lang.cases s.state.build type id = some i ↔
      ∃ e ∈ s.state.build.entities, e.id = H.lang.cases.composeEntityId type id ∧ i = .entity e) := by
  have hn := (toGraph_run hs.2.2).2.2.2
  have hu := ((C41_build _ _ s.state.build.entities s.state.build.schemas).1 hs.2.1).oneSchema
  unfold getTool
  refine ⟨fun ht i => ?_, fun ht i => ?_⟩
  · rw [if_pos ht, Option.map_eq_some_iff]
    constructor
    · rintro ⟨y, h1, rfl⟩
      exact ⟨y, List.mem_of_find?_eq_some h1, by simpa using List.find?_some h1, rfl⟩
    · rintro ⟨y, h1, h2, rfl⟩
      cases hf : s.state.build.schemas.find? fun s => decide (s.entityType = id) with
      | none => exact absurd (decide_eq_true h2) (by simpa using List.find?_eq_none.1 hf y h1)
      | some z =>
        refine ⟨z, rfl, ?_⟩
        have h3 : z.entityType = id := by simpa using List.find?_some hf
        rw [List.inj_on_of_nodup_map hu (List.mem_of_find?_eq_some hf) h1 (h3.trans h2.symm)]
  · rw [if_neg ht, Option.map_eq_some_iff]
    constructor
    · rintro ⟨y, h1, rfl⟩
      exact ⟨y, List.mem_of_find?_eq_some h1, by simpa using List.find?_some h1, rfl⟩
    · rintro ⟨y, h1, h2, rfl⟩
      exact ⟨y, find_unique hn h1 h2, rfl⟩

theorem ascending_unique : ∀ {xs ys : List Str}, xs.Pairwise (fun a b => strCmp a b = .lt) →
    ys.Pairwise (fun a b => strCmp a b = .lt) → (∀ x, x ∈ xs ↔ x ∈ ys) → xs = ys := by
  intro xs ys hx hy h
  have nd : ∀ {l : List Str}, l.Pairwise (fun a b => strCmp a b = .lt) → l.Nodup := fun hl =>
    hl.imp fun hab heq => by rw [heq] at hab; exact strCmp_lt_irrefl _ hab
  refine ((List.perm_ext_iff_of_nodup (nd hx) (nd hy)).2 h).eq_of_pairwise (fun a b _ _ h1 h2 => ?_) hx hy
  exact absurd (strCmp_lt_trans h1 h2) (strCmp_lt_irrefl a)

/-- C115: `firm get` prints what the tool `get` answers with, and nothing exactly when the tool reports an error. Missing
here and below: what is missing in C112, and files that became unreadable after the server read them. -/
theorem C115_get_partial (M : Machine) (x : Chance) (hx : Chance.Lawful x) (f : OutputFormat) (s : Server)
    (hs : Serves M.host s) (hd : WellFormed s.disk) (hws : ∀ n ∈ M.host.ws, ValidName n)
    (hr : Spec.Readable M.host.ws s.disk) (hg : NoGraphDirs M.host.ws s.disk)
    (hst : Storable M.screen.codec s.state.build.entities) (type id : Str) :
    (firm M x false f s.disk (.get type id)).2 =
      (getTool M.host.lang.cases s.state.build type id).map (shown M.screen f) := by
  have hc := serves_current hs hr
  obtain ⟨⟨b, h1, h2, h3⟩, _⟩ := C112_answer_partial M x hx f s.disk hd hws hg _ hc hst (.get type id) trivial
  obtain ⟨p1, p2⟩ := current_perm h1 hc
  refine Option.ext fun t => ?_
  rw [Option.map_eq_some_iff]
  by_cases ht : type = "schema".toList
  · rw [h2 ht]
    constructor
    · rintro ⟨y, k1, k2, rfl⟩
      exact ⟨.schema y, ((getTool_iff hs type id).1 ht _).2 ⟨y, p2.mem_iff.1 k1, k2, rfl⟩, rfl⟩
    · rintro ⟨i, k1, rfl⟩
      obtain ⟨y, k2, k3, rfl⟩ := ((getTool_iff hs type id).1 ht _).1 k1
      exact ⟨y, p2.mem_iff.2 k2, k3, rfl⟩
  · rw [h3 ht]
    constructor
    · rintro ⟨y, k1, k2, rfl⟩
      exact ⟨.entity y, ((getTool_iff hs type id).2 ht _).2 ⟨y, p1.mem_iff.1 k1, k2, rfl⟩, rfl⟩
    · rintro ⟨i, k1, rfl⟩
      obtain ⟨y, k2, k3, rfl⟩ := ((getTool_iff hs type id).2 ht _).1 k1
      exact ⟨y, p1.mem_iff.2 k2, k3, rfl⟩

/-- C115: `firm list` prints the names that the tool `list` answers with, possibly in another order. -/
theorem C115_list_partial (M : Machine) (x : Chance) (hx : Chance.Lawful x) (f : OutputFormat) (s : Server)
    (hs : Serves M.host s) (hd : WellFormed s.disk) (hws : ∀ n ∈ M.host.ws, ValidName n)
    (hr : Spec.Readable M.host.ws s.disk) (hg : NoGraphDirs M.host.ws s.disk)
    (hst : Storable M.screen.codec s.state.build.entities) (type : Str) :
    ∃ names names' : List Str, (firm M x false f s.disk (.list type)).2 = some (listOutput M.screen.codec names f) ∧
      listTool s.state.build type = joinWith ['\n'] names' ∧ names.Perm names' ∧ names.Nodup ∧
      (type = "schema".toList → ∀ n, n ∈ names ↔ ∃ y ∈ s.state.build.schemas, y.entityType = n) ∧
      (type ≠ "schema".toList → ∀ n, n ∈ names ↔ ∃ e ∈ s.state.build.entities, e.entityType = type ∧ e.id = n) := by
  have hc := serves_current hs hr
  obtain ⟨⟨b, h1, h2, h3⟩, _⟩ := C112_answer_partial M x hx f s.disk hd hws hg _ hc hst (.list type) trivial
  obtain ⟨p1, p2⟩ := current_perm h1 hc
  unfold listTool
  by_cases ht : type = "schema".toList
  · rw [if_pos ht]
    obtain ⟨_, _, hb⟩ := h1.built
    refine ⟨_, _, h2 ht, rfl, p2.map _, ((C41_build _ _ b.entities b.schemas).1 hb).oneSchema, fun _ n => ?_,
      fun h => absurd ht h⟩
    rw [List.mem_map]
    simp only [p2.mem_iff]
  · rw [if_neg ht]
    refine ⟨_, _, h3 ht, rfl, (p1.filter _).map _, (List.filter_sublist.map _).nodup h1.ids, fun h => absurd h ht,
      fun _ n => ?_⟩
    simp only [List.mem_map, List.mem_filter, decide_eq_true_eq, p1.mem_iff, and_assoc]

/-- C115: `firm related` prints the entities whose ids the tool `related` answers with, in the same order, and nothing
exactly when the tool reports an error. -/
theorem C115_related_partial (M : Machine) (x : Chance) (hx : Chance.Lawful x) (f : OutputFormat) (s : Server)
    (hs : Serves M.host s) (hd : WellFormed s.disk) (hws : ∀ n ∈ M.host.ws, ValidName n)
    (hr : Spec.Readable M.host.ws s.disk) (hg : NoGraphDirs M.host.ws s.disk)
    (hst : Storable M.screen.codec s.state.build.entities) (type id : Str) (dir : Option CliDirection) :
    ((firm M x false f s.disk (.related type id dir)).2 = none ↔
      relatedTool M.host.lang.cases s.state.graph type id (sameDirection dir) = none) ∧
    ∀ reply, relatedTool M.host.lang.cases s.state.graph type id (sameDirection dir) = some reply →
      ∃ es, (firm M x false f s.disk (.related type id dir)).2 = some (outputEntities M.screen es f) ∧
        (∀ e ∈ es, e ∈ s.state.build.entities) ∧
        reply = if es = [] then noneFound (sameDirection dir) else joinWith ['\n'] (es.map (·.id)) := by
  have hc := serves_current hs hr
  obtain ⟨⟨b, h1, h2, h3⟩, _⟩ := C112_answer_partial M x hx f s.disk hd hws hg _ hc hst (.related type id dir) trivial
  obtain ⟨p1, p2⟩ := current_perm h1 hc
  have hmiss := C86_missing M.host s hs type id (sameDirection dir)
  refine ⟨?_, fun reply hrep => ?_⟩
  · rw [h2, hmiss]
    constructor
    · intro h e he hid
      exact h ⟨e, p1.mem_iff.2 he, hid⟩
    · rintro h ⟨a, ha, hid⟩
      exact h a (p1.mem_iff.1 ha) hid
  · have : ∃ a ∈ s.state.build.entities, a.id = M.host.lang.cases.composeEntityId type id := by
      by_contra hno
      have := hmiss.2 fun e he hid => hno ⟨e, he, hid⟩
      rw [this] at hrep
      cases hrep
    obtain ⟨a, ha, hid⟩ := this
    obtain ⟨es, k1, k2, k3⟩ := h3 a (p1.mem_iff.2 ha) hid
    obtain ⟨ids, q1, q2, q3⟩ := C86_related M.host s hs ha hid.symm (sameDirection dir)
    have hlink : ∀ e, LinkedBy dir a e ↔ LinkedTo (sameDirection dir) a e := by
      intro e
      rcases dir with _ | _ | _ <;> exact Iff.rfl
    have hids : es.map (·.id) = ids := by
      refine ascending_unique (by rw [List.pairwise_map]; exact k2) q2 fun y => ?_
      rw [q1, List.mem_map]
      constructor
      · rintro ⟨e, he, rfl⟩
        exact ⟨e, p1.mem_iff.1 ((k3 e).1 he).1, rfl, (hlink e).1 ((k3 e).1 he).2⟩
      · rintro ⟨e, he, rfl, hl⟩
        exact ⟨e, (k3 e).2 ⟨p1.mem_iff.2 he, (hlink e).2 hl⟩, rfl⟩
    refine ⟨es, k1, fun e he => p1.mem_iff.1 ((k3 e).1 he).1, ?_⟩
    rw [q3] at hrep
    cases hrep
    subst hids
    simp only [List.map_eq_nil_iff]

/-- C115: a query without `limit` and without arithmetic that both answer has the same result up to order. -/
theorem C115_query_partial (M : Machine) (x : Chance) (hx : Chance.Lawful x) (f : OutputFormat) (s : Server)
    (hs : Serves M.host s) (hd : WellFormed s.disk) (hws : ∀ n ∈ M.host.ws, ValidName n)
    (hr : Spec.Readable M.host.ws s.disk) (hg : NoGraphDirs M.host.ws s.disk)
    (hst : Storable M.screen.codec s.state.build.entities) {q : QTree} (hq : ValidTree q)
    (ho : ∀ o ∈ q.operations, NoLimit o) (ha : NoArithmetic q.aggregation) (rt : Runtime) {r : QueryResult} {out : Str}
    (h : runQuery M.host.lang rt s.state.graph (showQuery q) = .ok r)
    (h' : (firm M x false f s.disk (.query (showQuery q))).2 = some out) :
    ∃ r', SameResult r r' ∧ out = outputResult M.screen r' f := by
  have hc := serves_current hs hr
  obtain ⟨⟨b, h1, rt', h2⟩, _⟩ :=
    C112_answer_partial M x hx f s.disk hd hws hg _ hc hst (.query (showQuery q)) trivial
  rw [h'] at h2
  obtain ⟨hgr, _, hacc, _⟩ := toGraph_run hs.2.2
  have hacc' := (toGraph_run (toGraph_current h1.ids)).2.2.1
  rw [hgr] at h
  split at h2
  · next r' hr' =>
    cases h2
    exact ⟨r', C95_same_partial M.host.lang rt rt' (by rw [hacc, hacc']; exact (current_perm hc h1).1) hq ho ha h hr', rfl⟩
  · cases h2

/-! ## Examples -/

def exCy : Entity := ⟨"person.cy".toList, "person".toList, [("name".toList, .string "Cy".toList)]⟩

/-- The sample grammar, which also reads the empty text and the block of `exCy`. -/
def exCyGrammar (text : Str) : Node :=
  if text = [] then .mk "source_file".toList [] []
  else if text = "person cy {\n    name = \"Cy\"\n}\n".toList then
    .mk "source_file".toList text [entityNode exLang .default exCy]
  else exGrammar text

def exCyMachine : Machine := ⟨{ exHost with grammar := exCyGrammar }, exScreen, exShell⟩

def exCyArgs : AddArgs := ⟨none, "person".toList, "Cy".toList, ["name".toList, "Cy".toList], [], []⟩

def exCyBuild : WorkspaceBuild := (loadBuild exCyMachine.host id exOldDisk).getD ⟨[], []⟩

theorem exCyBuild_current : Current exCyMachine.host exOldDisk exCyBuild := by
  have h : loadBuild exCyMachine.host id exOldDisk = some exCyBuild := by
    unfold exCyBuild
    cases hb : loadBuild exCyMachine.host id exOldDisk with
    | some b => rfl
    | none =>
      have : (loadBuild exCyMachine.host id exOldDisk).isSome = true := by decide +kernel
      rw [hb] at this
      cases this
  obtain ⟨h1, h2⟩ := loadBuild_sound (H := exCyMachine.host) exOldDisk_wf exHost_ws (fun w => List.Perm.refl w) h
  exact ⟨h1, h2, by decide +kernel⟩

/-- Is there a directory? -/
def isDirAt (d : FsTree) (loc : List Str) : Bool :=
  match d.lookup loc with
  | some (.dir _) => true
  | _ => false

theorem noGraphDirs_of {ws : List Str} {d : FsTree} (hd : WellFormed d)
    (h1 : isDirAt d (ws ++ ["current.firm.graph".toList]) = false)
    (h2 : isDirAt d (ws ++ ["backup.firm.graph".toList]) = false) : NoGraphDirs ws d := by
  rintro n (rfl | rfl) es h
  · rw [has_iff_lookup hd] at h
    unfold isDirAt at h1
    rw [h] at h1
    cases h1
  · rw [has_iff_lookup hd] at h
    unfold isDirAt at h2
    rw [h] at h2
    cases h2

/-- The hypotheses of `C114_add_get_partial` are met: the run, the target and the values. -/
example : (firm exCyMachine exChance false .json exOldDisk (.add exCyArgs)).2 = some [] ∧
    lexicalPlace [] (exCyMachine.shell.dslPath exCyArgs.toFile exCyArgs.type) =
      exCyMachine.host.ws ++ (["generated".toList] ++ ["person.firm".toList]) ∧ '.' ∉ exCyArgs.type ∧
    exCyArgs.type ≠ "schema".toList ∧
    (firm exCyMachine exChance false .json exOldDisk (.add exCyArgs)).1.lookup
      ["w".toList, "generated".toList, "person.firm".toList] = some (.file (some (generateDsl exLang .default [exCy]))) ∧
    isDirAt (firm exCyMachine exChance false .json exOldDisk (.add exCyArgs)).1
      ["w".toList, "current.firm.graph".toList] = false ∧
    isDirAt (firm exCyMachine exChance false .json exOldDisk (.add exCyArgs)).1
      ["w".toList, "backup.firm.graph".toList] = false := by
  refine ⟨by decide +kernel, by decide +kernel, by decide, by decide, ?_, by decide +kernel, by decide +kernel⟩
  have : (match (firm exCyMachine exChance false .json exOldDisk (.add exCyArgs)).1.lookup
      ["w".toList, "generated".toList, "person.firm".toList] with
      | some (.file (some t)) => some t
      | _ => none) = some (generateDsl exLang .default [exCy]) := by decide +kernel
  split at this
  · next h => rw [h]; cases this; rfl
  · cases this

example : FirmName "person.firm".toList ∧ RegularCase exCyMachine.host.lang.cases ∧
    ReadsAppended exCyMachine.host.grammar [] ([] ++ generateDsl exLang .default [exCy]) (entityNode exLang .default exCy) ∧
    (∀ q ∈ exCy.fields, ReadsBack exLang .default "generated/person.firm".toList q.2) ∧
    Storable exCyMachine.screen.codec exCyBuild.entities ∧
    Storable exCyMachine.screen.codec (exCyBuild.entities ++ [exCy]) := by
  refine ⟨⟨"person".toList, by decide, rfl⟩, asciiTable_regular, ⟨rfl, rfl⟩, ?_,
    storable_texts (by decide +kernel) (by decide +kernel), storable_texts (by decide +kernel) (by decide +kernel)⟩
  intro q hq
  rw [List.mem_singleton.1 hq]
  exact ⟨.string "Cy".toList, rfl, rfl⟩

example : (firm exCyMachine exChance false .pretty
      (firm exCyMachine exChance false .json exOldDisk (.add exCyArgs)).1 (.get "person".toList "cy".toList)).2 =
      some (outputEntity exScreen exCy .pretty) ∧
    (firm exCyMachine exChance false .pretty
      (firm exCyMachine exChance false .json exOldDisk (.add exCyArgs)).1 (.add exCyArgs)).2 = none := by
  decide +kernel

/-- A server beside the old graph file. -/
def exOldServer : Server :=
  ⟨exOldDisk, match rebuild exHost id exOldDisk with
    | .ok st => st
    | .error _ => ⟨[], ⟨[], []⟩, .empty⟩⟩

theorem exOldServer_serves : Serves exHost exOldServer := by
  have h : rebuild exHost id exOldDisk = .ok exOldServer.state := by
    unfold exOldServer
    cases hr : rebuild exHost id exOldDisk with
    | ok st => rfl
    | error e =>
      have : (match rebuild exHost id exOldDisk with | .ok _ => true | .error _ => false) = true := by decide +kernel
      rw [hr] at this
      cases this
  exact rebuild_serves exOldDisk_wf exHost_ws (fun w => List.Perm.refl w) h

/-- The hypotheses of C115 are met, with answers in two orders. -/
example : Serves exMachine.host exOldServer ∧ WellFormed exOldServer.disk ∧
    Spec.Readable exMachine.host.ws exOldServer.disk ∧ NoGraphDirs exMachine.host.ws exOldServer.disk ∧
    Storable exMachine.screen.codec exOldServer.state.build.entities ∧
    listTool exOldServer.state.build "person".toList = "person.alice\nperson.bob".toList ∧
    (firm exMachine exChance false .pretty exOldServer.disk (.list "person".toList)).2 =
      some "person.bob\nperson.alice\n".toList ∧
    (relatedTool exLang.cases exOldServer.state.graph "person".toList "bob".toList none).isSome = true :=
  ⟨exOldServer_serves, exOldDisk_wf, exOldBuild_current.readable, exOldDisk_graph,
    storable_texts (by decide +kernel) (by decide +kernel), by decide +kernel, by decide +kernel, by decide +kernel⟩

/-- The hypotheses of `C115_query_partial` are met. -/
example : ValidTree ⟨.wildcard, [], none⟩ ∧
    (match runQuery exLang exRt exOldServer.state.graph (showQuery ⟨.wildcard, [], none⟩) with
      | .ok _ => true | .error _ => false) = true ∧
    (firm exMachine exChance false .pretty exOldServer.disk
      (.query (showQuery ⟨.wildcard, [], none⟩))).2.isSome = true := by
  refine ⟨⟨trivial, nofun, nofun⟩, by decide +kernel, by decide +kernel⟩

end Firm
