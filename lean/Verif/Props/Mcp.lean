import Verif.Lemmas.Mcp

/-! # Properties of the MCP server: files and state (C56–C59, C71) -/

namespace Firm

open Spec

/-! ## A sample server -/

/-- A grammar for three texts: a schema with an entity, another entity, and an entity of an unknown
type. -/
def exGrammar (text : Str) : Node :=
  if text = "S".toList then .mk "source_file".toList text
    [exSchemaNode "person" [("name", "string", "true")],
      exEntityNode "person" "alice" [exFieldNode "name" "string" "\"Alice\""]]
  else if text = "B".toList then .mk "source_file".toList text
    [exEntityNode "person" "bob" [exFieldNode "name" "string" "\"Bob\""]]
  else .mk "source_file".toList text [exEntityNode "ghost" "x" []]

/-- The workspace `/w`; every text is accepted by the syntax check. -/
def exHost : Host where
  lang := exLang
  grammar := exGrammar
  accepts _ := true
  parseRfc3339 _ := none
  ws := ["w".toList]

/-- Two source files in `/w` and a directory beside it. -/
def exDisk : FsTree :=
  .dir (some [("w".toList, .dir (some [("a.firm".toList, .file (some "S".toList)),
      ("b.firm".toList, .file (some "B".toList))])),
    ("etc".toList, .dir (some []))])

/-- The state after loading a disk. -/
def exState (d : FsTree) : ServerState :=
  match rebuild exHost id d with
  | .ok st => st
  | .error _ => ⟨[], ⟨[], []⟩, Graph.empty⟩

def exServer : Server := ⟨exDisk, exState exDisk⟩

theorem exDisk_wf : WellFormed exDisk := by
  have hv : ∀ n : Str, n ∈ ["w".toList, "etc".toList, "a.firm".toList, "b.firm".toList] → ValidName n := by
    intro n hn
    simp only [List.mem_cons, List.not_mem_nil, or_false] at hn
    rcases hn with rfl | rfl | rfl | rfl <;> exact ⟨by decide, by decide, by decide, by decide⟩
  refine .dir (by decide) ?_ ?_
  · intro p hp
    simp only [List.mem_cons, List.not_mem_nil, or_false] at hp
    rcases hp with rfl | rfl <;> exact hv _ (by decide)
  · intro p hp
    simp only [List.mem_cons, List.not_mem_nil, or_false] at hp
    rcases hp with rfl | rfl
    · refine .dir (by decide) ?_ ?_
      · intro p hp
        simp only [List.mem_cons, List.not_mem_nil, or_false] at hp
        rcases hp with rfl | rfl <;> exact hv _ (by decide)
      · intro p hp
        simp only [List.mem_cons, List.not_mem_nil, or_false] at hp
        rcases hp with rfl | rfl <;> exact .file _
    · exact wf_empty

theorem exHost_ws : ∀ n ∈ exHost.ws, ValidName n := by
  intro n hn
  have : n = "w".toList := by simpa [exHost] using hn
  subst this
  exact ⟨by decide, by decide, by decide, by decide⟩

example : (exServer.state.build.entities.map (·.id)) = ["person.alice".toList, "person.bob".toList] := by
  decide +kernel

/-! ## C71: what is loaded -/

/-- C71: loading a directory succeeds exactly when everything in it can be read, and then the workspace
consists of exactly the firm files below the directory, each once and under its own path. -/
theorem C71_load (grammar : Str → Node) (ws : List Str) (d t : FsTree) (hd : WellFormed d)
    (hws : ∀ n ∈ ws, ValidName n) (ht : Has d ws t) :
    ∃ w r, Workspace.loadDirectory grammar [] (placeText ws) t = (w, r) ∧
      (r = .ok () ↔ Readable ws d) ∧ (r = .ok () → LoadsAs grammar ws d w) :=
  loadDirectory_spec hd hws ((has_iff_lookup hd).1 ht)

theorem join_prefix (path name : Str) : path <+: joinPath path name := by
  unfold joinPath
  split
  · exact List.prefix_append _ _
  · exact List.prefix_append _ _

/-- C71: loading a directory, whether it succeeds or not, changes nothing outside of it: what was loaded before
from other places stays as it was. -/
theorem C71_kept (grammar : Str → Node) (w : Workspace) (path : Str) (t : FsTree) {p : Str} (hp : ¬ path <+: p) :
    mapGet (w.loadDirectory grammar path t).1 p = mapGet w p := by
  have key : ∀ (n : Nat) (t : FsTree), sizeOf t ≤ n → ∀ (w : Workspace) (base path : Str), ¬ path <+: p →
      mapGet (loadTree grammar base w path t).1 p = mapGet w p := by
    intro n
    induction n with
    | zero => intro t ht; cases t <;> simp at ht
    | succ n ih =>
      intro t ht w base path hp
      match t with
      | .file _ => simp [loadTree]
      | .other => simp [loadTree]
      | .dir none => simp [loadTree]
      | .dir (some es) =>
        rw [loadTree]
        have hs : sizeOf es ≤ n := by simp at ht; omega
        clear ht
        induction es generalizing w with
        | nil => simp [loadEntries]
        | cons e es ihe =>
          obtain ⟨name, t⟩ := e
          have h1 : sizeOf t ≤ n := by simp at hs; omega
          have h2 : sizeOf es ≤ n := by simp at hs; omega
          have hj : ¬ joinPath path name <+: p := fun h => hp ((join_prefix path name).trans h)
          match t, h1 with
          | .dir d, h1 =>
            rw [loadEntries]
            have hd := ih (.dir d) h1 w base (joinPath path name) hj
            split
            · next w' _ hw => rw [ihe w' h2, ← hd, hw]
            · exact hd
          | .file text, h1 =>
            rw [loadEntries]
            have hd : mapGet (w.loadFile grammar (joinPath path name) base text).1 p = mapGet w p := by
              unfold Workspace.loadFile
              cases text with
              | none => rfl
              | some t =>
                dsimp only
                split
                · rfl
                · rw [mapGet_mapInsert, if_neg (fun h : joinPath path name = p => hj (h ▸ List.prefix_refl _))]
            split
            · split
              · next w' _ hw => rw [ihe w' h2, ← hd, hw]
              · exact hd
            · exact ihe w h2
          | .other, h1 => rw [loadEntries]; exact ihe w h2
  exact key _ t (Nat.le_refl _) w path path hp

/-- C71: the loaded files are those whose name has the extension `firm`. -/
theorem C71_extension (n : Str) : isFirmFile n = true ↔ FirmName n := isFirmFile_iff

example : ∃ w, Workspace.loadDirectory exGrammar [] (placeText exHost.ws)
      (.dir (some [("a.firm".toList, .file (some "S".toList)), ("b.firm".toList, .file (some "B".toList))])) = (w, .ok ()) ∧
    w.map (·.1) = ["/w/a.firm".toList, "/w/b.firm".toList] := ⟨_, rfl, by decide +kernel⟩

/-- A second directory on top of a first one. -/
example : (Workspace.loadDirectory exGrammar [("/v/x.firm".toList, ⟨exGrammar "S".toList, "x.firm".toList⟩)] (placeText exHost.ws)
      (.dir (some [("a.firm".toList, .file (some "S".toList))]))).1.map (·.1) = ["/v/x.firm".toList, "/w/a.firm".toList] ∧
    ¬ placeText exHost.ws <+: "/v/x.firm".toList := ⟨by decide +kernel, by decide⟩

example : FirmName "a.firm".toList ∧ ¬ FirmName ".firm".toList ∧ ¬ FirmName "a.firm.txt".toList := by
  refine ⟨⟨"a".toList, by decide, by decide⟩, ?_, ?_⟩
  · rw [← isFirmFile_iff]; decide
  · rw [← isFirmFile_iff]; decide

/-! ## C56: rejected requests -/

theorem original_leaf {d : FsTree} {loc : List Str}
    (h : leafAt d loc = none ∨ ∃ t, d.lookup loc = some (.file t)) (hb : d.lookup loc ≠ some (.file none)) :
    ((d.readText loc).map fun o => FsTree.file (some o)) = leafAt d loc := by
  unfold FsTree.readText
  rcases h with h | ⟨t, h⟩
  · rw [h]
    unfold leafAt at h
    cases hl : d.lookup loc with
    | none => rfl
    | some u =>
      rw [hl] at h
      cases u with
      | file t => cases h
      | other => rfl
      | dir e => rfl
  · rw [h]
    cases t with
    | none => exact absurd h hb
    | some t => exact (leafAt_eq_some.2 ⟨h, fun es h => by cases h⟩).symm

/-- C56 for `write_source`, provided no file with a name ending in `.firm` is unreadable. -/
theorem C56_write_partial (H : Host) (hws : ∀ n ∈ H.ws, ValidName n) (order : Workspace → Workspace)
    (s : Server) (hd : WellFormed s.disk) (path content : Str)
    (hb : ∀ loc stem, ¬ Has s.disk (loc ++ [stem ++ ".firm".toList]) (.file none))
    (h : (writeSource H order s path content false).2 = .error) :
    SameFiles s.disk (writeSource H order s path content false).1.disk ∧
    (writeSource H order s path content false).1.state = s.state := by
  unfold writeSource at h ⊢
  cases hv : validateAndWrite H s.disk path content with
  | mk d o =>
    obtain ⟨h1, h2, h3⟩ := validateAndWrite_spec hd hws hv
    rw [hv] at h
    cases o with
    | none => exact ⟨(sameFiles_iff hd h1).2 (h2 rfl), rfl⟩
    | some original =>
      dsimp only at h ⊢
      obtain ⟨a, b, c, _, e⟩ := h3 _ rfl
      cases hr : rebuild H order d with
      | ok st => rw [hr] at h; cases h
      | error err =>
        dsimp only
        rw [if_neg (by decide)]
        obtain ⟨k1, k2⟩ := rollbackWrite_spec (original := original) h1 hws e
          (by rw [a, if_pos rfl] : leafAt d (placeFor H.ws path) = some (.file (some content)))
        refine ⟨(sameFiles_iff hd k1).2 fun l => ?_, rfl⟩
        rw [k2 l, a l]
        split
        · next hh =>
          rw [b, hh]
          refine original_leaf c fun hn => ?_
          obtain ⟨p, n, hpn, stem, rfl⟩ := firm_place (ws := H.ws) e
          rw [placeFor, hpn] at hn
          exact hb p stem ((has_iff_lookup hd).2 hn)
        · rfl

/-- C56 for `delete_source`. -/
theorem C56_delete (H : Host) (hws : ∀ n ∈ H.ws, ValidName n) (order : Workspace → Workspace)
    (s : Server) (hd : WellFormed s.disk) (path : Str)
    (h : (deleteSource H order s path false).2 = .error) :
    SameFiles s.disk (deleteSource H order s path false).1.disk ∧
    (deleteSource H order s path false).1.state = s.state := by
  unfold deleteSource at h ⊢
  cases hv : deleteExecute s.disk H.ws path with
  | none => exact ⟨(sameFiles_iff hd hd).2 fun _ => rfl, rfl⟩
  | some r =>
    obtain ⟨d, original⟩ := r
    obtain ⟨h1, h2, h3, _, h5, h6⟩ := deleteExecute_spec hd hv
    rw [hv] at h
    dsimp only at h ⊢
    cases hr : rebuild H order d with
    | ok st => rw [hr] at h; cases h
    | error err =>
      dsimp only
      rw [if_neg (by decide)]
      obtain ⟨k1, k2⟩ := rollbackDelete_spec hd hws h5 h3
      rw [← h6] at k1 k2
      exact ⟨(sameFiles_iff hd k1).2 k2, rfl⟩

theorem readSourceFile_spec {d : FsTree} {ws : List Str} {path text : Str}
    (h : readSourceFile d ws path = some text) :
    d.lookup (placeFor ws path) = some (.file (some text)) ∧ ws <+: placeFor ws path ∧
    ∃ p n, placeFor ws path = p ++ [n] ∧ FirmName n := by
  unfold readSourceFile at h
  cases ha : toAbsolutePath d ws path with
  | none => rw [ha] at h; cases h
  | some loc =>
    have hloc := toAbsolutePath_eq ha
    rw [ha] at h
    dsimp only at h
    cases hl : d.lookup loc with
    | none => rw [hl] at h; cases h
    | some u =>
      rw [hl] at h
      dsimp only at h
      by_cases hf : hasFirmExtension loc = true
      · rw [if_pos hf] at h
        have hlk : d.lookup loc = some (.file (some text)) := by
          unfold FsTree.readText at h
          split at h
          · next heq => rw [heq, h]
          · cases h
        rw [hloc] at hlk hl hf
        refine ⟨hlk, ?_, ?_⟩
        · rw [hloc] at ha; exact absolute_inside ha (.inl (by rw [hl]; simp))
        · unfold hasFirmExtension at hf
          split at hf
          · cases hf
          · next n hn =>
            obtain ⟨p, hp⟩ := List.getLast?_eq_some_iff.1 hn
            exact ⟨p, n, hp, isFirmFile_iff.1 hf⟩
      · rw [if_neg hf] at h; cases h

/-- C56 for `replace_source`. -/
theorem C56_replace (H : Host) (hws : ∀ n ∈ H.ws, ValidName n) (order : Workspace → Workspace)
    (s : Server) (hd : WellFormed s.disk) (path old new : Str) (all : Bool)
    (h : (replaceSource H order s path old new all false).2 = .error) :
    SameFiles s.disk (replaceSource H order s path old new all false).1.disk ∧
    (replaceSource H order s path old new all false).1.state = s.state := by
  unfold replaceSource at h ⊢
  cases hx : replaceExecute s.disk H.ws path old new all with
  | none => exact ⟨(sameFiles_iff hd hd).2 fun _ => rfl, rfl⟩
  | some r =>
    obtain ⟨content, k⟩ := r
    rw [hx] at h
    dsimp only at h ⊢
    obtain ⟨text, htext⟩ : ∃ text, readSourceFile s.disk H.ws path = some text := by
      unfold replaceExecute at hx
      split at hx
      · cases hx
      · split at hx
        · cases hx
        · next heq => exact ⟨_, heq⟩
    have hlk := (readSourceFile_spec htext).1
    cases hv : validateAndWrite H s.disk path content with
    | mk d o =>
      obtain ⟨h1, h2, h3⟩ := validateAndWrite_spec hd hws hv
      rw [hv] at h
      cases o with
      | none => exact ⟨(sameFiles_iff hd h1).2 (h2 rfl), rfl⟩
      | some original =>
        dsimp only at h ⊢
        obtain ⟨a, b, c, _, e⟩ := h3 _ rfl
        cases hr : rebuild H order d with
        | ok st => rw [hr] at h; cases h
        | error err =>
          dsimp only
          rw [if_neg (by decide)]
          obtain ⟨k1, k2⟩ := rollbackWrite_spec (original := original) h1 hws e
            (by rw [a, if_pos rfl] : leafAt d (placeFor H.ws path) = some (.file (some content)))
          refine ⟨(sameFiles_iff hd k1).2 fun l => ?_, rfl⟩
          rw [k2 l, a l]
          split
          · next hh =>
            rw [b, hh]
            refine original_leaf c fun hn => ?_
            rw [hlk] at hn; cases hn
          · rfl

/-- C56 is false of `write_source` when the target exists but is not valid text: the rejected request
deletes it. -/
theorem C56_binary : ∃ (s : Server), WellFormed s.disk ∧
    Has s.disk ["w".toList, "x.firm".toList] (.file none) ∧
    (writeSource exHost id s "x.firm".toList "bad".toList false).2 = .error ∧
    ¬ Has (writeSource exHost id s "x.firm".toList "bad".toList false).1.disk
      ["w".toList, "x.firm".toList] (.file none) := by
  have hv : ∀ n : Str, n ∈ ["w".toList, "x.firm".toList] → ValidName n := by
    intro n hn
    simp only [List.mem_cons, List.not_mem_nil, or_false] at hn
    rcases hn with rfl | rfl <;> exact ⟨by decide, by decide, by decide, by decide⟩
  have hwf : WellFormed (.dir (some [("w".toList, .dir (some [("x.firm".toList, .file none)]))])) := by
    refine .dir (by decide) ?_ ?_
    · intro p hp; rw [List.mem_singleton.1 hp]; exact hv _ (by decide)
    · intro p hp
      rw [List.mem_singleton.1 hp]
      refine .dir (by decide) ?_ ?_
      · intro p hp; rw [List.mem_singleton.1 hp]; exact hv _ (by decide)
      · intro p hp; rw [List.mem_singleton.1 hp]; exact .file _
  refine ⟨⟨.dir (some [("w".toList, .dir (some [("x.firm".toList, .file none)]))]), exState exDisk⟩, hwf,
    .inside (List.mem_singleton.2 rfl) (.inside (List.mem_singleton.2 rfl) (.here _)), by decide +kernel, ?_⟩
  intro h
  have : ∀ d, writeSource exHost id ⟨.dir (some [("w".toList, .dir (some [("x.firm".toList, .file none)]))]),
      exState exDisk⟩ "x.firm".toList "bad".toList false = d →
      d.1.disk = .dir (some [("w".toList, .dir (some []))]) := by
    intro d hd; subst hd; rfl
  rw [this _ rfl] at h
  cases h with
  | inside hm ht =>
    rw [List.mem_singleton] at hm
    cases hm
    cases ht with
    | inside hm _ => cases hm

example : (writeSource exHost id exServer "c.firm".toList "bad".toList false).2 = .error ∧
    (deleteSource exHost id exServer "a.firm".toList false).2 = .error ∧
    (replaceSource exHost id exServer "a.firm".toList "S".toList "B".toList false false).2 = .error ∧
    (writeSource exHost id exServer "new/c.firm".toList "bad".toList true).2 = .warning ∧
    (deleteSource exHost id exServer "b.firm".toList false).2 = .success := by
  decide +kernel

example : ∀ loc stem, ¬ Has exServer.disk (loc ++ [stem ++ ".firm".toList]) (.file none) := by
  intro loc stem h
  have hread : Readable [] exDisk := by
    obtain ⟨w, r, h1, h2, _⟩ := loadDirectory_spec (grammar := exGrammar) (ws := []) exDisk_wf (by simp) (lookup_nil _)
    rw [← h2]
    have : (Workspace.loadDirectory exGrammar [] (placeText []) exDisk).2 = .ok () := by rfl
    rw [h1] at this
    exact this
  by_cases hs : stem = []
  · subst hs
    have h : exDisk.lookup _ = some _ := (has_iff_lookup exDisk_wf).1 h
    obtain ⟨es, h1, h2⟩ := lookup_snoc_some h
    match loc, h1 with
    | [], h1 => cases h1; exact nomatch (show (none : Option FsTree) = some _ from h2)
    | [a], h1 =>
      obtain ⟨fs, c, e1, e2, e3⟩ := lookup_cons_some h1
      cases e1
      rw [lookup_nil] at e3
      cases e3
      rw [mapGet_cons] at e2
      split at e2
      · cases e2; exact nomatch (show (none : Option FsTree) = some _ from h2)
      · rw [mapGet_cons] at e2
        split at e2
        · cases e2; cases h2
        · cases e2
    | a :: b :: rest, h1 =>
      obtain ⟨fs, c, e1, e2, e3⟩ := lookup_cons_some h1
      cases e1
      rw [mapGet_cons] at e2
      split at e2
      · cases e2
        obtain ⟨fs, c, e1, e2, e3⟩ := lookup_cons_some e3
        cases e1
        rw [mapGet_cons] at e2
        split at e2
        · cases e2; cases rest <;> cases e3
        · rw [mapGet_cons] at e2
          split at e2
          · cases e2; cases rest <;> cases e3
          · cases e2
      · rw [mapGet_cons] at e2
        split at e2
        · cases e2; cases e3
        · cases e2
  · exact hread.2.2 loc _ ⟨stem, hs, rfl⟩ h

/-! ## C57: the state is the build of the disk -/

theorem serves_leaves {H : Host} {s : Server} {d' : FsTree} (hd : WellFormed s.disk) (hd' : WellFormed d')
    (h : ∀ l text, leafAt d' l = some (.file (some text)) ↔ leafAt s.disk l = some (.file (some text)))
    (hs : Serves H s) : Serves H ⟨d', s.state⟩ :=
  ⟨loadsAs_of_leaves hd hd' h hs.1, hs.2.1, hs.2.2⟩

/-- What a write that is rolled back leaves behind. -/
theorem rolled_back {d d1 : FsTree} {ws : List Str} {path content : Str} {original : Option Str}
    (h1 : WellFormed d1) (hws : ∀ n ∈ ws, ValidName n)
    (a : LeafSet d d1 (placeFor ws path) (some (.file (some content))))
    (b : original = d.readText (placeFor ws path))
    (e : endsWith path ".firm".toList = true) :
    WellFormed (rollbackWrite d1 ws path original) ∧
    ∀ l text, leafAt (rollbackWrite d1 ws path original) l = some (.file (some text)) ↔
      leafAt d l = some (.file (some text)) := by
  obtain ⟨k1, k2⟩ := rollbackWrite_spec (original := original) h1 hws e
    (by rw [a, if_pos rfl] : leafAt d1 (placeFor ws path) = some (.file (some content)))
  refine ⟨k1, fun l text => ?_⟩
  rw [k2 l, a l]
  split
  · next hh =>
    rw [b, hh]
    unfold FsTree.readText
    constructor
    · intro h
      rw [Option.map_eq_some_iff] at h
      obtain ⟨t, ht, he⟩ := h
      cases he
      refine leafAt_eq_some.2 ⟨?_, fun es h => by cases h⟩
      split at ht
      · next heq => rw [heq, ht]
      · cases ht
    · intro h
      rw [(leafAt_eq_some.1 h).1]
      rfl
  · rfl

/-- A request without force. -/
def Request.unforced : Request → Prop
  | .write _ _ force => force = false
  | .delete _ force => force = false
  | .replace _ _ _ _ force => force = false
  | .add _ => True
  | .build => True

theorem appendDsl_spec {d d' : FsTree} {loc : List Str} {dsl : Str} {ok : Bool} (hd : WellFormed d)
    (hl : ∀ n ∈ loc, ValidName n) (h : appendDsl d loc dsl = (d', ok)) :
    WellFormed d' ∧ (ok = false → ∀ l, leafAt d' l = leafAt d l) ∧
    (ok = true → ∃ old, LeafSet d d' loc (some (.file (some (old ++ (appendPrefix old ++ dsl))))) ∧
      ((old = [] ∧ leafAt d loc = none) ∨ leafAt d loc = some (.file (some old)))) := by
  unfold appendDsl at h
  cases hc : d.createDirAll loc.dropLast with
  | none => rw [hc] at h; cases h; exact ⟨hd, fun _ _ => rfl, fun h => (by cases h)⟩
  | some d1 =>
    have hd1 := wf_createDirAll hd (fun n hn => hl n (List.mem_of_mem_dropLast hn)) hc
    have hl1 := leafAt_createDirAll hc
    rw [hc] at h
    dsimp only at h
    rcases List.eq_nil_or_concat loc with rfl | ⟨p, n, rfl⟩
    · have : ∃ x, d1 = .dir x := by
        cases d with
        | dir e => rw [List.dropLast_nil] at hc; rw [FsTree.createDirAll] at hc; cases hc; exact ⟨_, rfl⟩
        | file t => cases hc
        | other => cases hc
      obtain ⟨x, rfl⟩ := this
      have : (FsTree.dir x).lookup [] = some (.dir x) := lookup_nil _
      unfold FsTree.readText at h
      rw [this] at h
      cases h
      exact ⟨hd1, fun _ => hl1, fun h => (by cases h)⟩
    · rw [List.concat_eq_append] at *
      cases hlk : d1.lookup (p ++ [n]) with
      | none =>
        rw [hlk] at h
        dsimp only at h
        cases hw : d1.writeFile (p ++ [n]) dsl with
        | none => rw [hw] at h; cases h; exact ⟨hd1, fun _ => hl1, fun h => (by cases h)⟩
        | some d2 =>
          rw [hw] at h
          cases h
          obtain ⟨e1, e2, e3, e4⟩ := writeFile_spec hw
          refine ⟨by rw [e1]; exact wf_place hd1 (.file _) hl, fun h => (by cases h), fun _ => ⟨[], ?_, ?_⟩⟩
          · exact leafSet_congr hl1 e3
          · left
            refine ⟨rfl, ?_⟩
            rw [← hl1]; unfold leafAt; rw [hlk]; rfl
      | some u =>
        rw [hlk] at h
        dsimp only at h
        cases hr : d1.readText (p ++ [n]) with
        | none => rw [hr] at h; cases h; exact ⟨hd1, fun _ => hl1, fun h => (by cases h)⟩
        | some old =>
          rw [hr] at h
          dsimp only at h
          cases hw : d1.writeFile (p ++ [n]) (old ++ (appendPrefix old ++ dsl)) with
          | none => rw [hw] at h; cases h; exact ⟨hd1, fun _ => hl1, fun h => (by cases h)⟩
          | some d2 =>
            rw [hw] at h
            cases h
            obtain ⟨e1, e2, e3, e4⟩ := writeFile_spec hw
            refine ⟨by rw [e1]; exact wf_place hd1 (.file _) hl, fun h => (by cases h), fun _ => ⟨old, ?_, ?_⟩⟩
            · exact leafSet_congr hl1 e3
            · right
              rw [← hl1]
              refine leafAt_eq_some.2 ⟨?_, fun es h => by cases h⟩
              unfold FsTree.readText at hr
              split at hr
              · next heq => rw [heq, hr]
              · cases hr

theorem placeOf_valid {d : FsTree} {ws : List Str} (hws : ∀ n ∈ ws, ValidName n) (path : Str) :
    ∀ n ∈ d.placeOf ws path, ValidName n := by
  rw [placeOf_eq]; exact place_valid hws path

theorem addExecute_spec {H : Host} {s : Server} {p : AddParams} {d : FsTree} {ok : Bool}
    (hd : WellFormed s.disk) (hws : ∀ n ∈ H.ws, ValidName n) (h : addExecute H s p = (d, ok)) :
    WellFormed d ∧ (ok = false → ∀ l, leafAt d l = leafAt s.disk l) := by
  unfold addExecute at h
  cases he : entityToAdd H s.state p with
  | none => rw [he] at h; cases h; exact ⟨hd, fun _ _ => rfl⟩
  | some e =>
    rw [he] at h
    obtain ⟨h1, h2, _⟩ := appendDsl_spec hd (placeOf_valid hws _) h
    exact ⟨h1, h2⟩

/-- One request keeps the state in line with the disk. -/
theorem handle_serves {H : Host} (hws : ∀ n ∈ H.ws, ValidName n) {order : Workspace → Workspace}
    (ho : ∀ w, (order w).Perm w) {s : Server} (hd : WellFormed s.disk) (hs : Serves H s) {r : Request}
    (hu : r.unforced) (hw : ∀ p, r = .add p → (s.handle H order r).2 ≠ .warning) :
    WellFormed (s.handle H order r).1.disk ∧ Serves H (s.handle H order r).1 := by
  cases r with
  | write path content force =>
    cases (hu : force = false)
    rw [Server.handle]
    unfold writeSource
    cases hv : validateAndWrite H s.disk path content with
    | mk d o =>
      obtain ⟨h1, h2, h3⟩ := validateAndWrite_spec hd hws hv
      cases o with
      | none => exact ⟨h1, serves_leaves hd h1 (fun l t => by rw [h2 rfl]) hs⟩
      | some original =>
        dsimp only
        obtain ⟨a, b, c, _, e⟩ := h3 _ rfl
        cases hr : rebuild H order d with
        | ok st => exact ⟨h1, rebuild_serves h1 hws ho hr⟩
        | error err =>
          dsimp only
          rw [if_neg (by decide)]
          obtain ⟨k1, k2⟩ := rolled_back h1 hws a b e
          exact ⟨k1, serves_leaves hd k1 k2 hs⟩
  | delete path force =>
    cases (hu : force = false)
    rw [Server.handle]
    unfold deleteSource
    cases hv : deleteExecute s.disk H.ws path with
    | none => exact ⟨hd, hs⟩
    | some r =>
      obtain ⟨d, original⟩ := r
      obtain ⟨h1, h2, h3, _, h5, h6⟩ := deleteExecute_spec hd hv
      dsimp only
      cases hr : rebuild H order d with
      | ok st => exact ⟨h1, rebuild_serves h1 hws ho hr⟩
      | error err =>
        dsimp only
        rw [if_neg (by decide)]
        obtain ⟨k1, k2⟩ := rollbackDelete_spec hd hws h5 h3
        rw [← h6] at k1 k2
        exact ⟨k1, serves_leaves hd k1 (fun l t => by rw [k2]) hs⟩
  | replace path old new all force =>
    cases (hu : force = false)
    rw [Server.handle]
    unfold replaceSource
    cases hx : replaceExecute s.disk H.ws path old new all with
    | none => exact ⟨hd, hs⟩
    | some r =>
      obtain ⟨content, k⟩ := r
      dsimp only
      cases hv : validateAndWrite H s.disk path content with
      | mk d o =>
        obtain ⟨h1, h2, h3⟩ := validateAndWrite_spec hd hws hv
        cases o with
        | none => exact ⟨h1, serves_leaves hd h1 (fun l t => by rw [h2 rfl]) hs⟩
        | some original =>
          dsimp only
          obtain ⟨a, b, c, _, e⟩ := h3 _ rfl
          cases hr : rebuild H order d with
          | ok st => exact ⟨h1, rebuild_serves h1 hws ho hr⟩
          | error err =>
            dsimp only
            rw [if_neg (by decide)]
            obtain ⟨k1, k2⟩ := rolled_back h1 hws a b e
            exact ⟨k1, serves_leaves hd k1 k2 hs⟩
  | add p =>
    have hw := hw p rfl
    rw [Server.handle] at hw ⊢
    unfold addEntityTool at hw ⊢
    cases hx : addExecute H s p with
    | mk d ok =>
      obtain ⟨h1, h2⟩ := addExecute_spec hd hws hx
      rw [hx] at hw
      cases ok with
      | false => exact ⟨h1, serves_leaves hd h1 (fun l t => by rw [h2 rfl]) hs⟩
      | true =>
        dsimp only at hw ⊢
        cases hr : rebuild H order d with
        | ok st => exact ⟨h1, rebuild_serves h1 hws ho hr⟩
        | error err => rw [hr] at hw; exact absurd rfl hw
  | build =>
    rw [Server.handle]
    unfold buildTool
    cases hr : rebuild H order s.disk with
    | ok st => exact ⟨hd, rebuild_serves hd hws ho hr⟩
    | error err => exact ⟨hd, hs⟩

/-- A history of requests without force, processed one at a time; no `add_entity` showed its warning.
The order of the files in memory may be different each time. -/
inductive Spec.History (H : Host) : Server → Server → Prop
  | start (s : Server) : History H s s
  | next {s t : Server} {order : Workspace → Workspace} {r : Request} : History H s t →
      (∀ w, (order w).Perm w) → r.unforced → (∀ p, r = .add p → (t.handle H order r).2 ≠ .warning) →
      History H s (t.handle H order r).1

/-- C57: the state of the server stays the build of the files on disk, for any sequence of requests. -/
theorem C57_fresh (H : Host) (hws : ∀ n ∈ H.ws, ValidName n) (s t : Server) (hd : WellFormed s.disk)
    (hs : Serves H s) (h : History H s t) : WellFormed t.disk ∧ Serves H t := by
  induction h with
  | start => exact ⟨hd, hs⟩
  | next _ ho hu hw ih => exact handle_serves hws ho ih.1 ih.2 hu hw

/-- The sample server serves what is on its disk. -/
theorem exServer_serves : Serves exHost exServer := by
  have h : rebuild exHost id exDisk = .ok (exState exDisk) := by
    unfold exState
    cases hr : rebuild exHost id exDisk with
    | ok st => rfl
    | error e =>
      have : (match rebuild exHost id exDisk with | .ok _ => true | .error _ => false) = true := by decide +kernel
      rw [hr] at this
      cases this
  exact rebuild_serves exDisk_wf exHost_ws (fun w => List.Perm.refl w) h

example : ∃ t, History exHost exServer t ∧ t.state.build.entities.map (·.id) = ["person.alice".toList] :=
  ⟨_, .next (order := id) (r := .delete "b.firm".toList false)
    (.next (order := id) (r := .delete "a.firm".toList false) (.start _) (fun w => List.Perm.refl w) rfl
      (fun _ h => by cases h))
    (fun w => List.Perm.refl w) rfl (fun _ h => by cases h), by decide +kernel⟩

/-! ## C58: two requests at once -/

/-- What is known of a `write_source` request in a phase: `d0` is the disk before both requests. -/
def PhaseOk (d0 d : FsTree) (loc : List Str) (content path : Str) : Phase → Prop
  | .start => leafAt d loc = leafAt d0 loc
  | .written o => leafAt d loc = some (.file (some content)) ∧ (o.map fun t => FsTree.file (some t)) = leafAt d0 loc ∧
      endsWith path ".firm".toList = true
  | .failed o => leafAt d loc = some (.file (some content)) ∧ (o.map fun t => FsTree.file (some t)) = leafAt d0 loc ∧
      endsWith path ".firm".toList = true
  | .done .error => leafAt d loc = leafAt d0 loc
  | .done _ => leafAt d loc = some (.file (some content))

theorem PhaseOk.congr {d0 d d' : FsTree} {loc : List Str} {content path : Str} {ph : Phase}
    (h : leafAt d' loc = leafAt d loc) (hp : PhaseOk d0 d loc content path ph) : PhaseOk d0 d' loc content path ph := by
  cases ph with
  | start => exact h.trans hp
  | written o => exact ⟨h.trans hp.1, hp.2⟩
  | failed o => exact ⟨h.trans hp.1, hp.2⟩
  | done r => cases r <;> exact h.trans hp

theorem writeStep_ok {H : Host} (hws : ∀ n ∈ H.ws, ValidName n) {rb : FsTree → Except WorkspaceError ServerState}
    {p : WriteParams} {s : Server} {ph : Phase} {d0 : FsTree} (hd : WellFormed s.disk)
    (hb : leafAt d0 (placeFor H.ws p.path) ≠ some (.file none))
    (h : PhaseOk d0 s.disk (placeFor H.ws p.path) p.content p.path ph) :
    WellFormed (writeStep H rb p s ph).1.disk ∧
    (∀ l, l ≠ placeFor H.ws p.path → leafAt (writeStep H rb p s ph).1.disk l = leafAt s.disk l) ∧
    PhaseOk d0 (writeStep H rb p s ph).1.disk (placeFor H.ws p.path) p.content p.path (writeStep H rb p s ph).2 := by
  cases ph with
  | start =>
    rw [writeStep]
    cases hv : validateAndWrite H s.disk p.path p.content with
    | mk d o =>
      obtain ⟨h1, h2, h3⟩ := validateAndWrite_spec hd hws hv
      cases o with
      | none => exact ⟨h1, fun l _ => h2 rfl l, (h2 rfl _).trans h⟩
      | some original =>
        obtain ⟨a, b, c, _, e⟩ := h3 _ rfl
        refine ⟨h1, fun l hl => by rw [a l, if_neg hl], by rw [a, if_pos rfl], ?_, e⟩
        have h : leafAt s.disk _ = leafAt d0 _ := h
        rw [← h, b]
        refine original_leaf c fun hn => hb ?_
        rw [← h]
        exact leafAt_eq_some.2 ⟨hn, fun es h => by cases h⟩
  | written o =>
    rw [writeStep]
    cases rb s.disk with
    | ok st => exact ⟨hd, fun _ _ => rfl, h.1⟩
    | error e =>
      dsimp only
      split
      · exact ⟨hd, fun _ _ => rfl, h.1⟩
      · exact ⟨hd, fun _ _ => rfl, h⟩
  | failed o =>
    rw [writeStep]
    obtain ⟨k1, k2⟩ := rollbackWrite_spec (original := o) hd hws h.2.2 h.1
    refine ⟨k1, fun l hl => by rw [k2 l, if_neg hl], ?_⟩
    show leafAt _ _ = _
    rw [k2, if_pos rfl, h.2.1]
  | done r => rw [writeStep]; exact ⟨hd, fun _ _ => rfl, h⟩

/-- C58 for requests for different files, in every interleaving and whatever the rebuilds yield: a
rejected request leaves its file as it was, and no other file is touched. What is missing: requests for
the same file (see `C58_same_file`), and, as in C56, targets that are not valid text. -/
theorem C58_distinct_partial (H : Host) (hws : ∀ n ∈ H.ws, ValidName n) (p q : WriteParams)
    (hne : lexicalPlace H.ws (pathComponents p.path) ≠ lexicalPlace H.ws (pathComponents q.path))
    (s : Server) (hd : WellFormed s.disk) (hb : ∀ loc, ¬ Has s.disk loc (.file none))
    (sched : List (Bool × (FsTree → Except WorkspaceError ServerState))) (x : Pair)
    (hx : x = Pair.run H p q ⟨s, .start, .start⟩ sched) :
    (x.a = .done .error → ∀ u, NotDir u → (Has s.disk (lexicalPlace H.ws (pathComponents p.path)) u ↔
      Has x.server.disk (lexicalPlace H.ws (pathComponents p.path)) u)) ∧
    (x.b = .done .error → ∀ u, NotDir u → (Has s.disk (lexicalPlace H.ws (pathComponents q.path)) u ↔
      Has x.server.disk (lexicalPlace H.ws (pathComponents q.path)) u)) ∧
    ∀ loc u, loc ≠ lexicalPlace H.ws (pathComponents p.path) → loc ≠ lexicalPlace H.ws (pathComponents q.path) →
      NotDir u → (Has s.disk loc u ↔ Has x.server.disk loc u) := by
  have hb' : ∀ loc, leafAt s.disk loc ≠ some (.file none) := fun loc h =>
    hb loc ((has_iff_lookup hd).2 (leafAt_eq_some.1 h).1)
  have inv : ∀ (sched : List (Bool × (FsTree → Except WorkspaceError ServerState))) (x : Pair),
      WellFormed x.server.disk → PhaseOk s.disk x.server.disk (placeFor H.ws p.path) p.content p.path x.a →
      PhaseOk s.disk x.server.disk (placeFor H.ws q.path) q.content q.path x.b →
      (∀ l, l ≠ placeFor H.ws p.path → l ≠ placeFor H.ws q.path → leafAt x.server.disk l = leafAt s.disk l) →
      WellFormed (x.run H p q sched).server.disk ∧
      PhaseOk s.disk (x.run H p q sched).server.disk (placeFor H.ws p.path) p.content p.path (x.run H p q sched).a ∧
      PhaseOk s.disk (x.run H p q sched).server.disk (placeFor H.ws q.path) q.content q.path (x.run H p q sched).b ∧
      (∀ l, l ≠ placeFor H.ws p.path → l ≠ placeFor H.ws q.path →
        leafAt (x.run H p q sched).server.disk l = leafAt s.disk l) := by
    intro sched
    induction sched with
    | nil => intro x h1 h2 h3 h4; exact ⟨h1, h2, h3, h4⟩
    | cons m ms ih =>
      intro x h1 h2 h3 h4
      show _ ∧ _ ∧ _ ∧ _
      have hrun : x.run H p q (m :: ms) = (x.step H p q m).run H p q ms := rfl
      rw [hrun]
      apply ih
      all_goals unfold Pair.step
      all_goals by_cases hm : m.1 = true
      all_goals first | rw [if_pos hm] | rw [if_neg hm]
      · exact (writeStep_ok hws h1 (hb' _) h2).1
      · exact (writeStep_ok hws h1 (hb' _) h3).1
      · exact (writeStep_ok hws h1 (hb' _) h2).2.2
      · exact h2.congr ((writeStep_ok hws h1 (hb' _) h3).2.1 _ hne)
      · exact h3.congr ((writeStep_ok hws h1 (hb' _) h2).2.1 _ (Ne.symm hne))
      · exact (writeStep_ok hws h1 (hb' _) h3).2.2
      · exact fun l e1 e2 => ((writeStep_ok hws h1 (hb' _) h2).2.1 _ e1).trans (h4 l e1 e2)
      · exact fun l e1 e2 => ((writeStep_ok hws h1 (hb' _) h3).2.1 _ e2).trans (h4 l e1 e2)
  obtain ⟨i1, i2, i3, i4⟩ := inv sched ⟨s, .start, .start⟩ hd rfl rfl (fun _ _ _ => rfl)
  rw [← hx] at i1 i2 i3 i4
  have has_leaf : ∀ loc, leafAt x.server.disk loc = leafAt s.disk loc → ∀ u, NotDir u →
      (Has s.disk loc u ↔ Has x.server.disk loc u) := by
    intro loc h u hu
    rw [has_iff_lookup hd, has_iff_lookup i1]
    have h1 := leafAt_eq_some (d := s.disk) (u := u) (loc := loc)
    have h2 := leafAt_eq_some (d := x.server.disk) (u := u) (loc := loc)
    rw [h] at h2
    exact ⟨fun hh => (h2.1 (h1.2 ⟨hh, hu⟩)).1, fun hh => (h1.1 (h2.2 ⟨hh, hu⟩)).1⟩
  refine ⟨fun ha => has_leaf _ ?_, fun hbb => has_leaf _ ?_, fun loc u e1 e2 hu => has_leaf loc (i4 loc e1 e2) u hu⟩
  · rw [ha] at i2; exact i2
  · rw [hbb] at i3; exact i3

/-- A request that is not interrupted does what `write_source` does. -/
theorem C58_uninterrupted (H : Host) (order : Workspace → Workspace) (p q : WriteParams) (s : Server) :
    ∃ r, Pair.run H p q ⟨s, .start, .start⟩ (List.replicate 3 (true, rebuild H order)) =
      ⟨(writeSource H order s p.path p.content p.force).1, .done r, .start⟩ ∧
      r = (writeSource H order s p.path p.content p.force).2 := by
  unfold writeSource
  simp only [List.replicate, Pair.run, List.foldl, Pair.step, if_true]
  cases hv : validateAndWrite H s.disk p.path p.content with
  | mk d o =>
    cases o with
    | none => exact ⟨_, by simp [writeStep, hv], rfl⟩
    | some original =>
      cases hr : rebuild H order d with
      | ok st => exact ⟨_, by simp [writeStep, hv, hr], rfl⟩
      | error e =>
        cases hf : p.force with
        | true => exact ⟨_, by simp [writeStep, hv, hr, hf], rfl⟩
        | false => exact ⟨_, by simp [writeStep, hv, hr, hf], rfl⟩

/-- C58 is false for two requests for the same file: both are rejected and the text of the first one
stays on the disk. -/
theorem C58_same_file : ∃ (p q : WriteParams) (sched : List Bool),
    let x := Pair.run exHost p q ⟨exServer, .start, .start⟩ (sched.map fun b => (b, rebuild exHost id))
    x.a = .done .error ∧ x.b = .done .error ∧
    exServer.disk.readText ["w".toList, "c.firm".toList] = none ∧
    x.server.disk.readText ["w".toList, "c.firm".toList] = some "bad".toList :=
  ⟨⟨"c.firm".toList, "bad".toList, false⟩, ⟨"c.firm".toList, "worse".toList, false⟩,
    [true, false, true, false, true, false], by decide +kernel⟩

example : lexicalPlace exHost.ws (pathComponents "c.firm".toList) ≠
    lexicalPlace exHost.ws (pathComponents "x/d.firm".toList) := by decide

/-- Both requests for different files can be rejected: the second one because of the first. -/
example : (Pair.run exHost ⟨"c.firm".toList, "bad".toList, false⟩ ⟨"b.firm".toList, "B".toList, false⟩
    ⟨exServer, .start, .start⟩ ([true, false, false, false, true, true].map fun b => (b, rebuild exHost id))).b =
      .done .error ∧
    (writeSource exHost id exServer "b.firm".toList "B".toList false).2 = .success := by decide +kernel

/-! ## C59: inside the workspace -/

theorem sameOutside_of_leaves {ws : List Str} {d d' : FsTree} (hd : WellFormed d) (hd' : WellFormed d')
    (h : ∀ l, ¬ ws <+: l → leafAt d' l = leafAt d l) : SameOutside ws d d' := by
  intro loc u hu hw
  rw [has_iff_lookup hd, has_iff_lookup hd']
  have h1 := leafAt_eq_some (d := d) (u := u) (loc := loc)
  have h2 := leafAt_eq_some (d := d') (u := u) (loc := loc)
  rw [h loc hw] at h2
  exact ⟨fun hh => (h2.1 (h1.2 ⟨hh, hu⟩)).1, fun hh => (h1.1 (h2.2 ⟨hh, hu⟩)).1⟩

/-- C59, reading: what `read_source` returns is the content of a firm file in the workspace directory. -/
theorem C59_read (H : Host) (d : FsTree) (hd : WellFormed d) (es : Option (List (Str × FsTree)))
    (hdir : Has d H.ws (.dir es)) (path text : Str) (h : readSourceFile d H.ws path = some text) :
    ∃ loc, FirmFile d H.ws loc text := by
  obtain ⟨h1, ⟨loc, h2⟩, p, n, h3, h4⟩ := readSourceFile_spec h
  refine ⟨loc, ?_, by rw [h2]; exact (has_iff_lookup hd).2 h1⟩
  rcases List.eq_nil_or_concat loc with rfl | ⟨q, m, rfl⟩
  · rw [List.append_nil] at h2
    rw [← h2, (has_iff_lookup hd).1 hdir] at h1
    cases h1
  · rw [List.concat_eq_append] at *
    rw [← h2, ← List.append_assoc] at h3
    have := (List.append_inj' h3 rfl).2
    rw [List.singleton_inj] at this
    exact ⟨q, m, rfl, this ▸ h4⟩

theorem leafSet_outside {ws loc : List Str} {d d' : FsTree} {u : Option FsTree} (hw : ws <+: loc)
    (h : LeafSet d d' loc u) : ∀ l, ¬ ws <+: l → leafAt d' l = leafAt d l := by
  intro l hl
  rw [h l, if_neg (by rintro rfl; exact hl hw)]

/-- C59 for `delete_source`. -/
theorem C59_delete (H : Host) (hws : ∀ n ∈ H.ws, ValidName n) (order : Workspace → Workspace) (s : Server)
    (hd : WellFormed s.disk) (path : Str) (force : Bool) :
    SameOutside H.ws s.disk (deleteSource H order s path force).1.disk := by
  unfold deleteSource
  cases hv : deleteExecute s.disk H.ws path with
  | none => exact fun _ _ _ _ => Iff.rfl
  | some r =>
    obtain ⟨d, original⟩ := r
    obtain ⟨h1, h2, h3, h4, h5, h6⟩ := deleteExecute_spec hd hv
    have hin : H.ws <+: placeFor H.ws path := absolute_inside h4 (.inl (by rw [h3]; simp))
    dsimp only
    cases rebuild H order d with
    | ok st => exact sameOutside_of_leaves hd h1 (leafSet_outside hin h2)
    | error e =>
      dsimp only
      split
      · exact sameOutside_of_leaves hd h1 (leafSet_outside hin h2)
      · obtain ⟨k1, k2⟩ := rollbackDelete_spec hd hws h5 h3
        rw [← h6] at k1 k2
        exact sameOutside_of_leaves hd k1 (fun l _ => k2 l)

/-- The common part of `write_source` and `replace_source`. -/
theorem written_outside {H : Host} (hws : ∀ n ∈ H.ws, ValidName n) {order : Workspace → Workspace} {s : Server}
    (hd : WellFormed s.disk) {path content : Str} {force : Bool}
    (hin : ∀ loc, toAbsolutePath s.disk H.ws path = some loc → H.ws <+: loc) :
    SameOutside H.ws s.disk (writeSource H order s path content force).1.disk := by
  unfold writeSource
  cases hv : validateAndWrite H s.disk path content with
  | mk d o =>
    obtain ⟨h1, h2, h3⟩ := validateAndWrite_spec hd hws hv
    cases o with
    | none => exact sameOutside_of_leaves hd h1 (fun l _ => h2 rfl l)
    | some original =>
      obtain ⟨a, b, c, e0, e⟩ := h3 _ rfl
      have hin := hin _ e0
      dsimp only
      cases rebuild H order d with
      | ok st => exact sameOutside_of_leaves hd h1 (leafSet_outside hin a)
      | error err =>
        dsimp only
        split
        · exact sameOutside_of_leaves hd h1 (leafSet_outside hin a)
        · obtain ⟨k1, k2⟩ := rollbackWrite_spec (original := original) h1 hws e
            (by rw [a, if_pos rfl] : leafAt d (placeFor H.ws path) = some (.file (some content)))
          exact sameOutside_of_leaves hd k1 fun l hl =>
            (leafSet_outside hin k2 l hl).trans (leafSet_outside hin a l hl)

/-- C59 for `write_source` with paths that do not begin at the root or exist already. What is missing:
`C59_write_escapes`. -/
theorem C59_write_partial (H : Host) (hws : ∀ n ∈ H.ws, ValidName n) (order : Workspace → Workspace) (s : Server)
    (hd : WellFormed s.disk) (path content : Str) (force : Bool)
    (hp : path.head? ≠ some '/' ∨ ∃ u, Has s.disk (lexicalPlace H.ws (pathComponents path)) u) :
    SameOutside H.ws s.disk (writeSource H order s path content force).1.disk := by
  refine written_outside hws hd fun loc hl => absolute_inside hl ?_
  rcases hp with hp | ⟨u, hu⟩
  · exact .inr hp
  · left
    rw [toAbsolutePath_eq hl, (has_iff_lookup hd).1 hu]
    simp

/-- C59 for `replace_source`. -/
theorem C59_replace (H : Host) (hws : ∀ n ∈ H.ws, ValidName n) (order : Workspace → Workspace) (s : Server)
    (hd : WellFormed s.disk) (path old new : Str) (all force : Bool) :
    SameOutside H.ws s.disk (replaceSource H order s path old new all force).1.disk := by
  unfold replaceSource
  cases hx : replaceExecute s.disk H.ws path old new all with
  | none => exact fun _ _ _ _ => Iff.rfl
  | some r =>
    obtain ⟨content, k⟩ := r
    obtain ⟨text, htext⟩ : ∃ text, readSourceFile s.disk H.ws path = some text := by
      unfold replaceExecute at hx
      split at hx
      · cases hx
      · split at hx
        · cases hx
        · next heq => exact ⟨_, heq⟩
    exact written_outside (order := order) (content := content) (force := force) hws hd fun loc hl => by
      rw [toAbsolutePath_eq hl]; exact (readSourceFile_spec htext).2.1

/-- The place of a relative path without two dots in a row is inside the directory it starts from. -/
theorem plain_inside {ws : List Str} {path : Str} (h1 : path.head? ≠ some '/')
    (h2 : strContains path "..".toList = false) : ws <+: lexicalPlace ws (pathComponents path) := by
  obtain ⟨pre, ns, e, hpre⟩ := plain_components h2
  rw [e, lexicalPlace_append, lexicalPlace_normal]
  rcases hpre with rfl | rfl | ⟨_, h⟩
  · exact List.prefix_append _ _
  · exact List.prefix_append _ _
  · exact absurd h h1

/-- C59 for `add_entity` when the target is a relative path without two dots in a row. What is missing:
`C59_add_escapes`. -/
theorem C59_add_partial (H : Host) (hws : ∀ n ∈ H.ws, ValidName n) (order : Workspace → Workspace) (s : Server)
    (hd : WellFormed s.disk) (p : AddParams)
    (h1 : (p.toFile.getD (defaultTarget p.type)).head? ≠ some '/')
    (h2 : ¬ Occurs "..".toList (p.toFile.getD (defaultTarget p.type))) :
    SameOutside H.ws s.disk (addEntityTool H order s p).1.disk := by
  unfold addEntityTool
  have key : ∀ d ok, addExecute H s p = (d, ok) → SameOutside H.ws s.disk d := by
    intro d ok h
    unfold addExecute at h
    cases he : entityToAdd H s.state p with
    | none => rw [he] at h; cases h; exact fun _ _ _ _ => Iff.rfl
    | some e =>
      rw [he] at h
      obtain ⟨a1, a2, a3⟩ := appendDsl_spec hd (placeOf_valid hws _) h
      cases ok with
      | false => exact sameOutside_of_leaves hd a1 (fun l _ => a2 rfl l)
      | true =>
        obtain ⟨old, a3, _⟩ := a3 rfl
        rw [placeOf_eq] at a3
        exact sameOutside_of_leaves hd a1 (leafSet_outside (plain_inside h1 (by
          rw [Bool.eq_false_iff]; exact fun hc => h2 ((strContains_iff _ _).1 hc))) a3)
  cases hx : addExecute H s p with
  | mk d ok =>
    have := key d ok hx
    cases ok with
    | false => exact this
    | true =>
      dsimp only
      cases rebuild H order d <;> exact this

/-- The default target of `add_entity` for a plain type name. -/
theorem C59_default_target (t : Str) (h0 : t ≠ []) (h1 : '/' ∉ t) (h2 : '.' ∉ t) :
    defaultTarget t = "generated/".toList ++ t ++ ".firm".toList := by
  have hv : ValidName t := ⟨h0, h1, by rintro rfl; simp at h2, by rintro rfl; simp at h2⟩
  have hc : pathComponents t = [.normal t] :=
    pathComponents_relative (ns := [t]) (by simp) (fun n hn => by rw [List.mem_singleton.1 hn]; exact hv)
  have hx : extensionOf t = none := by unfold extensionOf; rw [splitChar_none h2]
  have hcs : defaultComps t = [.normal "generated".toList, .normal t] := by
    unfold defaultComps
    split
    · simp at h1
    · rw [hc]; simp
  unfold defaultTarget
  rw [hcs]
  simp only [List.getLast?_cons_cons, List.getLast?_singleton, hx, List.dropLast_cons_cons, List.dropLast_singleton]
  simp [showComps, joinWith, compText]

/-- C59 is false of `write_source`: a path that begins at the root and does not exist yet is written
as it is. -/
theorem C59_write_escapes :
    (writeSource exHost id exServer "/etc/x.firm".toList "S".toList false).2 = .success ∧
    (writeSource exHost id exServer "/etc/x.firm".toList "S".toList false).1.disk.readText
      ["etc".toList, "x.firm".toList] = some "S".toList := by decide +kernel

/-- C59 is false of `add_entity`: the target is not checked. -/
theorem C59_add_escapes : ∃ p : AddParams, p.toFile = some "../etc/x.txt".toList ∧
    (addEntityTool exHost id exServer p).2 = .success ∧
    ((addEntityTool exHost id exServer p).1.disk.readText ["etc".toList, "x.txt".toList]).isSome = true :=
  ⟨⟨"person".toList, "carol".toList, [("name".toList, .string "Carol".toList)], some "../etc/x.txt".toList, []⟩,
    by decide +kernel⟩

example : (readSourceFile exDisk exHost.ws "./b.firm".toList = some "B".toList) ∧
    readSourceFile exDisk exHost.ws "../w/b.firm".toList = some "B".toList ∧
    readSourceFile exDisk exHost.ws "../etc/x.firm".toList = none := by decide +kernel

example : ("new/c.firm".toList.head? ≠ some '/') ∧ defaultTarget "person".toList = "generated/person.firm".toList ∧
    strContains "generated/person.firm".toList "..".toList = false := by decide

end Firm
