import Verif.Model.Said
import Verif.Props.Served

/-!
# What a reply to a change says is so (C160)

`write_source`, `delete_source`, `replace_source` and `add_entity` answer with a text about the files. Here the text is
compared with the disk before and after.
-/

namespace Firm
open Spec

/-! ## The texts do not change what is done -/

theorem writeSourceFileT_eq (W : Wording) (d : FsTree) (ws : List Str) (rel content : Str) :
    writeSourceFile d ws rel content =
      ((writeSourceFileT W d ws rel content).1, (writeSourceFileT W d ws rel content).2.isOk) := by
  unfold writeSourceFile writeSourceFileT
  cases endsWith rel ".firm".toList with
  | false => rfl
  | true =>
    rw [if_pos rfl, if_pos rfl]
    cases toAbsolutePath d ws rel with
    | none => rfl
    | some loc =>
      dsimp only
      cases d.createDirAll loc.dropLast with
      | none => rfl
      | some d1 => dsimp only; cases d1.writeFile loc content <;> rfl

theorem validateAndWriteT_eq (W : Wording) (H : Host) (d : FsTree) (path content : Str) :
    validateAndWrite H d path content =
      ((validateAndWriteT W H d path content).1, (validateAndWriteT W H d path content).2.toOption.map (·.original)) := by
  unfold validateAndWrite validateAndWriteT
  cases H.accepts content with
  | false => rfl
  | true =>
    rw [if_pos rfl, if_pos rfl, writeSourceFileT_eq W]
    cases writeSourceFileT W d H.ws path content with
    | mk d' r => cases r <;> rfl

theorem validateAndWriteT_existed {W : Wording} {H : Host} {d d' : FsTree} {path content : Str} {r : WriteResult}
    (h : validateAndWriteT W H d path content = (d', .ok r)) : r.fileExisted = r.original.isSome := by
  unfold validateAndWriteT at h
  split at h
  · dsimp only at h
    split at h
    · cases h; rfl
    · cases h
  · cases h

theorem rollbackWriteT_eq (d : FsTree) (ws : List Str) (path : Str) (o : Option Str) :
    rollbackWrite d ws path o = (rollbackWriteT d ws path o).1 := by
  unfold rollbackWrite rollbackWriteT
  cases o with
  | none => dsimp only; cases d.removeFile (d.placeOf ws path) <;> rfl
  | some t => dsimp only; cases d.writeFile (d.placeOf ws path) t <;> rfl

theorem rollbackDeleteT_eq (d : FsTree) (ws : List Str) (path content : Str) :
    rollbackDelete d ws path content = (rollbackDeleteT d ws path content).1 := by
  unfold rollbackDelete rollbackDeleteT
  cases d.createDirAll (d.placeOf ws path).dropLast with
  | none => rfl
  | some d1 => dsimp only; cases d1.writeFile (d.placeOf ws path) content <;> rfl

theorem deleteExecuteT_eq (W : Wording) (d : FsTree) (ws : List Str) (path : Str) :
    deleteExecute d ws path = (deleteExecuteT W d ws path).toOption := by
  unfold deleteExecute deleteExecuteT
  cases endsWith path ".firm".toList with
  | false => rfl
  | true =>
    rw [if_pos rfl, if_pos rfl]
    cases toAbsolutePath d ws path with
    | none => rfl
    | some loc =>
      dsimp only
      cases hl : d.lookup loc with
      | none => rw [show d.readText loc = none by unfold FsTree.readText; rw [hl]]; rfl
      | some t =>
        dsimp only
        cases d.readText loc with
        | none => rfl
        | some o => dsimp only; cases d.removeFile loc <;> rfl

theorem readSourceFileT_eq (W : Wording) (d : FsTree) (ws : List Str) (rel : Str) :
    readSourceFile d ws rel = (readSourceFileT W d ws rel).toOption := by
  unfold readSourceFile readSourceFileT
  cases toAbsolutePath d ws rel with
  | none => rfl
  | some loc =>
    dsimp only
    cases d.lookup loc with
    | none => rfl
    | some t =>
      dsimp only
      cases hasFirmExtension loc with
      | false => rfl
      | true => rw [if_pos rfl, if_pos rfl]; cases d.readText loc <;> rfl

theorem replaceOutcome_eq (content path old new : Str) (all : Bool) : replaceText content old new all =
    match replaceOutcome content path old new all with
    | .replaced c k => some (c, k)
    | _ => none := by
  have hof : ∀ o : Option Str, (match ReplaceOutcome.ofText o with
      | .replaced c k => some (c, k)
      | _ => none) = (none : Option (Str × Nat)) := fun o => by cases o <;> rfl
  unfold replaceText replaceOutcome
  by_cases h1 : old = []
  · rw [if_pos h1, if_pos h1]
  · rw [if_neg h1, if_neg h1]
    by_cases h2 : matchCount old content = 0
    · rw [if_pos h2, if_pos h2]; exact (hof _).symm
    · rw [if_neg h2, if_neg h2]
      by_cases h3 : matchCount old content > 1 ∧ all = false
      · rw [if_pos h3, if_pos h3]; exact (hof _).symm
      · rw [if_neg h3, if_neg h3]
        cases all <;> rfl

theorem replaceExecuteT_eq (W : Wording) (d : FsTree) (ws : List Str) (path old new : Str) (all : Bool) :
    replaceExecute d ws path old new all =
    match replaceExecuteT W d ws path old new all with
    | .replaced c k => some (c, k)
    | _ => none := by
  unfold replaceExecute replaceExecuteT
  by_cases h1 : old = []
  · rw [if_pos h1, if_pos h1]
  · rw [if_neg h1, if_neg h1, readSourceFileT_eq W]
    cases readSourceFileT W d ws path with
    | error e => rfl
    | ok c => exact replaceOutcome_eq c path old new all

theorem addExecuteT_eq (H : Host) (s : Server) (p : AddParams) :
    addExecute H s p = ((addExecuteT H s p).1, (addExecuteT H s p).2.isSome) := by
  unfold addExecute addExecuteT appendDsl
  cases entityToAdd H s.state p with
  | none => rfl
  | some e =>
    dsimp only
    generalize s.disk.placeOf H.ws (p.toFile.getD (defaultTarget p.type)) = loc
    generalize generateDsl H.lang .default [e] = dsl
    cases s.disk.createDirAll loc.dropLast with
    | none => rfl
    | some d1 =>
      dsimp only
      cases d1.lookup loc with
      | none => dsimp only; cases d1.writeFile loc dsl <;> rfl
      | some t =>
        dsimp only
        cases d1.readText loc with
        | none => rfl
        | some c => dsimp only; cases d1.writeFile loc (c ++ (appendPrefix c ++ dsl)) <;> rfl

/-- The reply is of the kind. -/
def Spec.OfKind (k : Reply) (r : ToolReply) : Prop := r.isError = true ↔ k = .error

/-- C160: the tools with texts do what the tools without texts do. -/
theorem C160_refines (W : Wording) (why : Str) (H : Host) (order : Workspace → Workspace) (s : Server) :
    (∀ path content force, (writeSourceT W H order s path content force).1 = (writeSource H order s path content force).1 ∧
      OfKind (writeSource H order s path content force).2 (writeSourceT W H order s path content force).2) ∧
    (∀ path force, (deleteSourceT W H order s path force).1 = (deleteSource H order s path force).1 ∧
      OfKind (deleteSource H order s path force).2 (deleteSourceT W H order s path force).2) ∧
    (∀ path old new all force,
      (replaceSourceT W H order s path old new all force).1 = (replaceSource H order s path old new all force).1 ∧
      ∀ r, (replaceSourceT W H order s path old new all force).2 = some r →
        OfKind (replaceSource H order s path old new all force).2 r) ∧
    (∀ p, (addEntityT W why H order s p).1 = (addEntityTool H order s p).1 ∧
      OfKind (addEntityTool H order s p).2 (addEntityT W why H order s p).2) := by
  have ht : ∀ {x : List Str}, OfKind .error ⟨true, x⟩ := fun {x} => ⟨fun _ => rfl, fun _ => rfl⟩
  have hf : ∀ {x : List Str}, OfKind .success ⟨false, x⟩ := fun {x} => ⟨(fun h => by cases h), fun h => by cases h⟩
  have hw : ∀ {x : List Str}, OfKind .warning ⟨false, x⟩ := fun {x} => ⟨(fun h => by cases h), fun h => by cases h⟩
  refine ⟨fun path content force => ?_, fun path force => ?_, fun path old new all force => ?_, fun p => ?_⟩
  · unfold writeSource writeSourceT
    rw [validateAndWriteT_eq W]
    cases validateAndWriteT W H s.disk path content with
    | mk d r =>
      cases r with
      | error e => exact ⟨rfl, ht⟩
      | ok r =>
        dsimp only [Except.toOption, Option.map_some]
        cases rebuild H order d with
        | ok st => exact ⟨rfl, hf⟩
        | error e =>
          cases force with
          | true => exact ⟨rfl, hw⟩
          | false => exact ⟨by dsimp only; rw [rollbackWriteT_eq]; rfl, ht⟩
  · unfold deleteSource deleteSourceT
    rw [deleteExecuteT_eq W]
    cases deleteExecuteT W s.disk H.ws path with
    | error e => exact ⟨rfl, ht⟩
    | ok r =>
      obtain ⟨d, o⟩ := r
      dsimp only [Except.toOption]
      cases rebuild H order d with
      | ok st => exact ⟨rfl, hf⟩
      | error e =>
        cases force with
        | true => exact ⟨rfl, hw⟩
        | false => exact ⟨by dsimp only; rw [rollbackDeleteT_eq]; rfl, ht⟩
  · unfold replaceSource replaceSourceT
    rw [replaceExecuteT_eq W]
    cases replaceExecuteT W s.disk H.ws path old new all with
    | crash => exact ⟨rfl, fun r h => by cases h⟩
    | refused e => exact ⟨rfl, fun r h => by cases h; exact ht⟩
    | replaced c k =>
      dsimp only
      rw [validateAndWriteT_eq W]
      cases validateAndWriteT W H s.disk path c with
      | mk d r =>
        cases r with
        | error e => exact ⟨rfl, fun r h => by cases h; exact ht⟩
        | ok r =>
          dsimp only [Except.toOption, Option.map_some]
          cases rebuild H order d with
          | ok st => exact ⟨rfl, fun r h => by cases h; exact hf⟩
          | error e =>
            cases force with
            | true => exact ⟨rfl, fun r h => by cases h; exact hw⟩
            | false => exact ⟨by dsimp only; rw [rollbackWriteT_eq]; rfl, fun r h => by cases h; exact ht⟩
  · unfold addEntityTool addEntityT
    rw [addExecuteT_eq]
    cases addExecuteT H s p with
    | mk d o =>
      cases o with
      | none => exact ⟨rfl, ht⟩
      | some x =>
        obtain ⟨dsl, new⟩ := x
        dsimp only [Option.isSome]
        cases rebuild H order d with
        | ok st => exact ⟨rfl, hf⟩
        | error e => exact ⟨rfl, hw⟩

/-! ## write_source -/

/-- The files on the disk make a workspace that builds. -/
def Spec.GoodFiles (H : Host) (d : FsTree) : Prop :=
  Readable H.ws d ∧ ∀ w, LoadsAs H.grammar H.ws d w → ∃ b, w.build H.lang = .ok b ∧ (b.entities.map (·.id)).Nodup

/-- The end of a reply that is not an error: the workspace is said to be valid and the server serves it, or a warning is
given, the files do not build and the server goes on with what it had. -/
def Spec.EndsRight (W : Wording) (H : Host) (s s' : Server) (force : Bool) (rest : Str) : Prop :=
  (rest = "Workspace is valid.".toList ∧ Serves H s') ∨
  (force = true ∧ (∃ e, rest = "Warning: workspace has validation errors: ".toList ++ W.say e ++
      ". Use 'build' to check status after making more changes.".toList) ∧
    s'.state = s.state ∧ ¬ GoodFiles H s'.disk)

theorem bad_files {H : Host} {order : Workspace → Workspace} {d : FsTree} (hd : WellFormed d)
    (hws : ∀ n ∈ H.ws, ValidName n) (ho : ∀ w, (order w).Perm w) {e : WorkspaceError} (h : rebuild H order d = .error e) :
    ¬ GoodFiles H d := by
  rintro ⟨h1, h2⟩
  obtain ⟨st, hst⟩ := rebuild_ok hd hws ho h1 h2
  rw [hst] at h
  cases h

/-- What a change that is not refused says of the file and what is so. -/
theorem writtenT {W : Wording} {H : Host} (hws : ∀ n ∈ H.ws, ValidName n) {d d' : FsTree} (hd : WellFormed d)
    {path content : Str} {r : WriteResult} (h : validateAndWriteT W H d path content = (d', .ok r)) :
    WellFormed d' ∧ Has d' (lexicalPlace H.ws (pathComponents path)) (.file (some content)) ∧
    LeafSet d d' (lexicalPlace H.ws (pathComponents path)) (some (.file (some content))) ∧
    endsWith path ".firm".toList = true ∧
    ((r.fileExisted = true ∧ ∃ old, r.original = some old ∧ Has d (lexicalPlace H.ws (pathComponents path)) (.file (some old))) ∨
     (r.fileExisted = false ∧ r.original = none ∧ (Has d (lexicalPlace H.ws (pathComponents path)) (.file none) ∨
       ∀ u, NotDir u → ¬ Has d (lexicalPlace H.ws (pathComponents path)) u))) := by
  have hv := validateAndWriteT_eq W H d path content
  rw [h] at hv
  obtain ⟨h1, _, h3⟩ := validateAndWrite_spec hd hws hv
  obtain ⟨a, b, c, _, e⟩ := h3 r.original rfl
  have hl := a (lexicalPlace H.ws (pathComponents path))
  rw [if_pos rfl, leafAt_eq_some] at hl
  refine ⟨h1, (has_iff_lookup h1).2 hl.1, a, e, ?_⟩
  rw [validateAndWriteT_existed h]
  cases ho : r.original with
  | some old =>
    refine .inl ⟨rfl, old, rfl, (has_iff_lookup hd).2 ?_⟩
    rw [b] at ho
    unfold FsTree.readText at ho
    split at ho
    · next heq => rw [heq, ho]
    · cases ho
  | none =>
    refine .inr ⟨rfl, rfl, ?_⟩
    rw [b] at ho
    rcases c with c | ⟨t, c⟩
    · refine .inr fun u hu hh => ?_
      have := leafAt_eq_some.2 ⟨(has_iff_lookup hd).1 hh, hu⟩
      rw [c] at this
      cases this
    · unfold FsTree.readText at ho
      rw [c] at ho
      dsimp only at ho
      subst ho
      exact .inl ((has_iff_lookup hd).2 c)

/-- C160: a reply of `write_source` that is not an error names the number of bytes that are now in the file, says
`Updated` if there was a text and `Created` if there was nothing, and ends right.  Missing: files that are not text
(`C160_binary`). -/
theorem C160_written_partial (W : Wording) (H : Host) (hws : ∀ n ∈ H.ws, ValidName n) (order : Workspace → Workspace)
    (ho : ∀ w, (order w).Perm w) (s : Server) (hd : WellFormed s.disk) (path content : Str) (force : Bool)
    (hb : ¬ Has s.disk (lexicalPlace H.ws (pathComponents path)) (.file none))
    (h : (writeSourceT W H order s path content force).2.isError = false) :
    ∃ word rest, (writeSourceT W H order s path content force).2.texts = [word ++ " ".toList ++ path ++ " (".toList ++
        showNat (byteLen content) ++ " bytes). ".toList ++ rest] ∧
      Has (writeSourceT W H order s path content force).1.disk (lexicalPlace H.ws (pathComponents path))
        (.file (some content)) ∧
      ((word = "Updated".toList ∧ ∃ old, Has s.disk (lexicalPlace H.ws (pathComponents path)) (.file (some old))) ∨
       (word = "Created".toList ∧ ∀ u, NotDir u → ¬ Has s.disk (lexicalPlace H.ws (pathComponents path)) u)) ∧
      EndsRight W H s (writeSourceT W H order s path content force).1 force rest := by
  unfold writeSourceT at h ⊢
  cases hv : validateAndWriteT W H s.disk path content with
  | mk d r =>
    rw [hv] at h
    cases r with
    | error e => cases h
    | ok r =>
      obtain ⟨k1, k2, _, _, k3⟩ := writtenT hws hd hv
      have hword : ∃ word, writtenText path content r.fileExisted = word ++ " ".toList ++ path ++ " (".toList ++
          showNat (byteLen content) ++ " bytes). ".toList ∧
          ((word = "Updated".toList ∧ ∃ old, Has s.disk (lexicalPlace H.ws (pathComponents path)) (.file (some old))) ∨
          (word = "Created".toList ∧ ∀ u, NotDir u → ¬ Has s.disk (lexicalPlace H.ws (pathComponents path)) u)) := by
        rcases k3 with ⟨x, old, _, y⟩ | ⟨x, _, y | y⟩
        · exact ⟨_, by rw [x]; rfl, .inl ⟨rfl, old, y⟩⟩
        · exact absurd y hb
        · exact ⟨_, by rw [x]; rfl, .inr ⟨rfl, y⟩⟩
      obtain ⟨word, hw, hword⟩ := hword
      dsimp only at h ⊢
      cases hr : rebuild H order d with
      | ok st => exact ⟨word, _, by dsimp only; rw [hw]; rfl, k2, hword, .inl ⟨rfl, rebuild_serves k1 hws ho hr⟩⟩
      | error e =>
        rw [hr] at h
        cases force with
        | false => cases h
        | true =>
          exact ⟨word, _, by dsimp only; rw [if_pos rfl, hw]; rfl, k2, hword,
            .inr ⟨rfl, ⟨e, rfl⟩, rfl, bad_files k1 hws ho hr⟩⟩

/-- The refusals before anything is validated. -/
theorem refusal_text {W : Wording} {H : Host} {d d' : FsTree} {path content e : Str}
    (h : validateAndWriteT W H d path content = (d', .error e)) :
    (e = "Invalid DSL syntax: the content contains parse errors. ".toList ++
        "Please check for unclosed braces, missing values, or malformed references.".toList ∧ H.accepts content = false) ∨
    (e = "Path must end with .firm extension: ".toList ++ path ∧ endsWith path ".firm".toList = false) ∨
    (e = "Invalid path (must be within workspace): ".toList ++ path ∧ toAbsolutePath d H.ws path = none) ∨
    e = "Failed to create parent directories: ".toList ++ W.io ∨ e = "Failed to write file: ".toList ++ W.io := by
  unfold validateAndWriteT at h
  cases ha : H.accepts content with
  | false =>
    rw [ha, if_neg (by exact Bool.noConfusion)] at h
    cases h
    exact .inl ⟨rfl, rfl⟩
  | true =>
    rw [ha, if_pos rfl] at h
    dsimp only at h
    refine .inr ?_
    cases hw : writeSourceFileT W d H.ws path content with
    | mk d1 r =>
      rw [hw] at h
      cases r with
      | ok u => cases h
      | error e1 =>
        cases h
        unfold writeSourceFileT at hw
        cases he : endsWith path ".firm".toList with
        | false =>
          rw [he, if_neg (by exact Bool.noConfusion)] at hw
          cases hw
          exact .inl ⟨rfl, rfl⟩
        | true =>
          rw [he, if_pos rfl] at hw
          refine .inr ?_
          cases hp : toAbsolutePath d H.ws path with
          | none => rw [hp] at hw; cases hw; exact .inl ⟨rfl, rfl⟩
          | some loc =>
            rw [hp] at hw
            dsimp only at hw
            refine .inr ?_
            cases hc : d.createDirAll loc.dropLast with
            | none => rw [hc] at hw; cases hw; exact .inl rfl
            | some d1 =>
              rw [hc] at hw
              dsimp only at hw
              cases hf : d1.writeFile loc content with
              | none => rw [hf] at hw; cases hw; exact .inr rfl
              | some d2 => rw [hf] at hw; cases hw

theorem refusal_head {W : Wording} {H : Host} {d d' : FsTree} {path content e : Str}
    (h : validateAndWriteT W H d path content = (d', .error e)) : ¬ "Validation failed: ".toList <+: e := by
  rintro ⟨t, ht⟩
  rcases refusal_text h with ⟨rfl, _⟩ | ⟨rfl, _⟩ | ⟨rfl, _⟩ | rfl | rfl <;>
    exact absurd (List.cons.inj ht).1 (by decide)

/-- Rolling back a change of a text file or of nothing works. -/
theorem rolled_backT {H : Host} (hws : ∀ n ∈ H.ws, ValidName n) {d d' : FsTree} (hd : WellFormed d) (hd' : WellFormed d')
    {path content : Str} {o : Option Str} (he : endsWith path ".firm".toList = true)
    (hl : LeafSet d d' (lexicalPlace H.ws (pathComponents path)) (some (.file (some content))))
    (ho : leafAt d (lexicalPlace H.ws (pathComponents path)) = o.map fun t => .file (some t)) :
    (rollbackWriteT d' H.ws path o).2 = true ∧ SameFiles d (rollbackWriteT d' H.ws path o).1 := by
  have hh : leafAt d' (lexicalPlace H.ws (pathComponents path)) = some (.file (some content)) := by
    rw [hl, if_pos rfl]
  obtain ⟨k1, k2⟩ := rollbackWrite_spec (original := o) hd' hws he hh
  rw [rollbackWriteT_eq] at k1 k2
  refine ⟨?_, (sameFiles_iff hd k1).2 fun l => ?_⟩
  · have hf := (leafAt_eq_some.1 hh).1
    unfold rollbackWriteT
    rw [placeOf_eq]
    cases o with
    | none => dsimp only; unfold FsTree.removeFile; rw [hf]
    | some t => dsimp only; unfold FsTree.writeFile; rw [hf]
  · rw [k2 l, hl l]
    split
    · next h => rw [← ho, h]
    · rfl

theorem original_kept {d : FsTree} (hd : WellFormed d) {loc : List Str} {x : Bool} {o : Option Str}
    (hb : ¬ Has d loc (.file none))
    (h : (x = true ∧ ∃ old, o = some old ∧ Has d loc (.file (some old))) ∨
      (x = false ∧ o = none ∧ (Has d loc (.file none) ∨ ∀ u, NotDir u → ¬ Has d loc u))) :
    leafAt d loc = o.map fun t => .file (some t) := by
  rcases h with ⟨_, old, rfl, h⟩ | ⟨_, rfl, h | h⟩
  · exact leafAt_eq_some.2 ⟨(has_iff_lookup hd).1 h, fun es h => by cases h⟩
  · exact absurd h hb
  · cases hl : leafAt d loc with
    | none => rfl
    | some u => exact absurd ((has_iff_lookup hd).2 (leafAt_eq_some.1 hl).1) (h u (leafAt_eq_some.1 hl).2)

theorem rolledBack_suffix (e : Str) :
    "Changes have been rolled back. Use 'force: true' to write anyway.".toList <:+ rolledBackText e true :=
  ⟨"Validation failed: ".toList ++ e ++ ". ".toList, by
    unfold rolledBackText
    rw [if_pos rfl, List.append_assoc _ "Changes have been rolled back.".toList]
    rfl⟩

/-- C160: when `write_source` fails in the validation it says that the changes were rolled back, and they were.
Missing: files that are not text (`C160_binary`). -/
theorem C160_rolled_partial (W : Wording) (H : Host) (hws : ∀ n ∈ H.ws, ValidName n) (order : Workspace → Workspace)
    (s : Server) (hd : WellFormed s.disk) (path content : Str) (force : Bool)
    (hb : ¬ Has s.disk (lexicalPlace H.ws (pathComponents path)) (.file none)) (t : Str)
    (h : (writeSourceT W H order s path content force).2 = ⟨true, [t]⟩) (ht : "Validation failed: ".toList <+: t) :
    "Changes have been rolled back. Use 'force: true' to write anyway.".toList <:+ t ∧
    SameFiles s.disk (writeSourceT W H order s path content force).1.disk ∧
    (writeSourceT W H order s path content force).1.state = s.state := by
  unfold writeSourceT at h ⊢
  cases hv : validateAndWriteT W H s.disk path content with
  | mk d r =>
    rw [hv] at h
    cases r with
    | error e =>
      cases h
      exact absurd ht (refusal_head hv)
    | ok r =>
      obtain ⟨k1, _, k4, k5, k3⟩ := writtenT hws hd hv
      dsimp only at h ⊢
      cases hr : rebuild H order d with
      | ok st => rw [hr] at h; cases h
      | error e =>
        rw [hr] at h
        cases force with
        | true => cases h
        | false =>
          obtain ⟨x, y⟩ := rolled_backT (o := r.original) hws hd k1 k5 k4 (original_kept hd hb k3)
          dsimp only at h ⊢
          rw [if_neg (by exact Bool.noConfusion)] at h ⊢
          rw [x] at h
          cases h
          exact ⟨rolledBack_suffix _, y, rfl⟩

/-- C160: a refusal before the validation names its cause. Nothing is changed. -/
theorem C160_refused (W : Wording) (H : Host) (hws : ∀ n ∈ H.ws, ValidName n) (order : Workspace → Workspace)
    (s : Server) (hd : WellFormed s.disk) (path content : Str) (force : Bool) (t : Str)
    (h : (writeSourceT W H order s path content force).2 = ⟨true, [t]⟩) (ht : ¬ "Validation failed: ".toList <+: t) :
    SameFiles s.disk (writeSourceT W H order s path content force).1.disk ∧
    (writeSourceT W H order s path content force).1.state = s.state ∧
    ("Invalid DSL syntax".toList <+: t → H.accepts content = false) ∧
    ("Path must end with .firm".toList <+: t → ¬ ".firm".toList <:+ path) := by
  unfold writeSourceT at h ⊢
  cases hv : validateAndWriteT W H s.disk path content with
  | mk d r =>
    rw [hv] at h
    cases r with
    | error e =>
      cases h
      have hv' := validateAndWriteT_eq W H s.disk path content
      rw [hv] at hv'
      obtain ⟨h1, h2, _⟩ := validateAndWrite_spec hd hws hv'
      refine ⟨(sameFiles_iff hd h1).2 (h2 rfl), rfl, ?_, ?_⟩
      · rintro ⟨x, hx⟩
        rcases refusal_text hv with ⟨_, h⟩ | ⟨rfl, _⟩ | ⟨rfl, _⟩ | rfl | rfl
        · exact h
        · exact absurd (List.cons.inj hx).1 (by decide)
        · have h8 := congrArg (fun l : Str => l[8]?) hx
          exact absurd (Option.some.inj (show some 'D' = some 'p' from h8)) (by decide)
        · exact absurd (List.cons.inj hx).1 (by decide)
        · exact absurd (List.cons.inj hx).1 (by decide)
      · rintro ⟨x, hx⟩
        rcases refusal_text hv with ⟨rfl, _⟩ | ⟨_, h⟩ | ⟨rfl, _⟩ | rfl | rfl
        · exact absurd (List.cons.inj hx).1 (by decide)
        · intro hs
          rw [show endsWith path ".firm".toList = true from List.isSuffixOf_iff_suffix.2 hs] at h
          cases h
        · exact absurd (List.cons.inj hx).1 (by decide)
        · exact absurd (List.cons.inj hx).1 (by decide)
        · exact absurd (List.cons.inj hx).1 (by decide)
    | ok r =>
      dsimp only at h
      cases hr : rebuild H order d with
      | ok st => rw [hr] at h; cases h
      | error e =>
        rw [hr] at h
        cases force with
        | true => cases h
        | false =>
          dsimp only at h
          rw [if_neg (by exact Bool.noConfusion)] at h
          injection h with _ h
          injection h with h _
          subst h
          refine absurd ?_ ht
          unfold rolledBackText
          simp only [List.append_assoc]
          exact List.prefix_append _ _

/-! ## delete_source -/

/-- C160: a reply of `delete_source` that is not an error says that the file is deleted, and it was there and is gone. -/
theorem C160_deleted (W : Wording) (H : Host) (hws : ∀ n ∈ H.ws, ValidName n) (order : Workspace → Workspace)
    (ho : ∀ w, (order w).Perm w) (s : Server) (hd : WellFormed s.disk) (path : Str) (force : Bool)
    (h : (deleteSourceT W H order s path force).2.isError = false) :
    ∃ rest, (deleteSourceT W H order s path force).2.texts = ["Deleted '".toList ++ path ++ "'. ".toList ++ rest] ∧
      (∃ old, Has s.disk (lexicalPlace H.ws (pathComponents path)) (.file (some old))) ∧
      (∀ u, NotDir u → ¬ Has (deleteSourceT W H order s path force).1.disk (lexicalPlace H.ws (pathComponents path)) u) ∧
      EndsRight W H s (deleteSourceT W H order s path force).1 force rest := by
  unfold deleteSourceT at h ⊢
  cases hv : deleteExecuteT W s.disk H.ws path with
  | error e => rw [hv] at h; cases h
  | ok r =>
    obtain ⟨d, old⟩ := r
    rw [hv] at h
    have hv' := deleteExecuteT_eq W s.disk H.ws path
    rw [hv] at hv'
    obtain ⟨h1, h2, h3, _, _, _⟩ := deleteExecute_spec hd hv'
    have hgone : ∀ u, NotDir u → ¬ Has d (lexicalPlace H.ws (pathComponents path)) u := by
      intro u hu hh
      have := leafAt_eq_some.2 ⟨(has_iff_lookup h1).1 hh, hu⟩
      rw [h2, if_pos rfl] at this
      cases this
    dsimp only at h ⊢
    cases hr : rebuild H order d with
    | ok st =>
      exact ⟨_, rfl, ⟨old, (has_iff_lookup hd).2 h3⟩, hgone, .inl ⟨rfl, rebuild_serves h1 hws ho hr⟩⟩
    | error e =>
      rw [hr] at h
      cases force with
      | false => cases h
      | true =>
        exact ⟨_, rfl, ⟨old, (has_iff_lookup hd).2 h3⟩, hgone, .inr ⟨rfl, ⟨e, rfl⟩, rfl, bad_files h1 hws ho hr⟩⟩

/-- C160: when `delete_source` fails in the validation it says that the file was restored, and it was. -/
theorem C160_restored (W : Wording) (H : Host) (hws : ∀ n ∈ H.ws, ValidName n) (order : Workspace → Workspace)
    (s : Server) (hd : WellFormed s.disk) (path : Str) (force : Bool) (t : Str)
    (h : (deleteSourceT W H order s path force).2 = ⟨true, [t]⟩)
    (ht : "Deletion would break the workspace: ".toList <+: t) :
    "File has been restored. Use 'force: true' to delete anyway.".toList <:+ t ∧
    SameFiles s.disk (deleteSourceT W H order s path force).1.disk ∧
    (deleteSourceT W H order s path force).1.state = s.state := by
  unfold deleteSourceT at h ⊢
  cases hv : deleteExecuteT W s.disk H.ws path with
  | error e =>
    rw [hv] at h
    cases h
    obtain ⟨x, hx⟩ := ht
    exact absurd (List.cons.inj hx).1 (by decide)
  | ok r =>
    obtain ⟨d, old⟩ := r
    rw [hv] at h
    have hv' := deleteExecuteT_eq W s.disk H.ws path
    rw [hv] at hv'
    obtain ⟨h1, h2, h3, _, h5, h6⟩ := deleteExecute_spec hd hv'
    dsimp only at h ⊢
    cases hr : rebuild H order d with
    | ok st => rw [hr] at h; cases h
    | error e =>
      rw [hr] at h
      cases force with
      | true => cases h
      | false =>
        obtain ⟨k1, k2⟩ := rollbackDelete_spec hd hws h5 h3
        rw [← h6] at k1 k2
        have htrue : (rollbackDeleteT d H.ws path old).2 = true := by
          have hleaf := k2 (lexicalPlace H.ws (pathComponents path))
          rw [leafAt_eq_some.2 ⟨h3, fun es h => by cases h⟩, rollbackDeleteT_eq] at hleaf
          have hnone := h2 (lexicalPlace H.ws (pathComponents path))
          rw [if_pos rfl] at hnone
          have hgen : ∀ x : FsTree × Bool, (x.2 = false → ∀ l, leafAt x.1 l = leafAt d l) →
              leafAt x.1 (lexicalPlace H.ws (pathComponents path)) = some (.file (some old)) → x.2 = true := by
            intro x hx hy
            cases hz : x.2 with
            | true => rfl
            | false =>
              rw [hx hz, hnone] at hy
              cases hy
          refine hgen _ ?_ hleaf
          unfold rollbackDeleteT
          cases hc : d.createDirAll (d.placeOf H.ws path).dropLast with
          | none => exact fun _ _ => rfl
          | some d1 =>
            dsimp only
            cases d1.writeFile (d.placeOf H.ws path) old with
            | none => exact fun _ => leafAt_createDirAll hc
            | some d2 => exact fun h => by cases h
        dsimp only at h ⊢
        rw [if_neg (by exact Bool.noConfusion)] at h ⊢
        rw [htrue] at h
        rw [rollbackDeleteT_eq] at k1 k2
        cases h
        refine ⟨⟨"Deletion would break the workspace: ".toList ++ W.say e ++ ". ".toList, ?_⟩, (sameFiles_iff hd k1).2 k2, rfl⟩
        unfold restoredText
        rw [if_pos rfl, List.append_assoc _ "File has been restored.".toList]
        rfl

/-- C160, the rollback by itself, on any disk, also one that other programs have changed since the write: when it is
said to be done, the file is there with the text of before, or gone if there was none. -/
theorem C160_honest {ws : List Str} (hws : ∀ n ∈ ws, ValidName n) {d : FsTree} (hd : WellFormed d) {path : Str}
    (he : endsWith path ".firm".toList = true) :
    (∀ t, (rollbackWriteT d ws path (some t)).2 = true →
      Has (rollbackWriteT d ws path (some t)).1 (lexicalPlace ws (pathComponents path)) (.file (some t))) ∧
    ((rollbackWriteT d ws path none).2 = true →
      ∀ u, NotDir u → ¬ Has (rollbackWriteT d ws path none).1 (lexicalPlace ws (pathComponents path)) u) ∧
    (∀ t, (rollbackDeleteT d ws path t).2 = true →
      Has (rollbackDeleteT d ws path t).1 (lexicalPlace ws (pathComponents path)) (.file (some t))) := by
  obtain ⟨p, n, hpn, _⟩ := firm_place (ws := ws) he
  have hval := place_valid hws path
  rw [hpn] at hval ⊢
  refine ⟨fun t h => ?_, fun h u hu hh => ?_, fun t h => ?_⟩
  · unfold rollbackWriteT at h ⊢
    rw [placeOf_eq, hpn] at h ⊢
    dsimp only at h ⊢
    cases hw : d.writeFile (p ++ [n]) t with
    | none => rw [hw] at h; cases h
    | some d' =>
      obtain ⟨h1, h2, -, -⟩ := writeFile_spec hw
      dsimp only
      exact (has_iff_lookup (h1 ▸ wf_place hd (.file _) hval)).2 h2
  · unfold rollbackWriteT at h hh
    rw [placeOf_eq, hpn] at h hh
    dsimp only at h hh
    cases hw : d.removeFile (p ++ [n]) with
    | none => rw [hw] at h; cases h
    | some d' =>
      obtain ⟨h1, h2⟩ := removeFile_spec hw
      rw [hw] at hh
      have hl := leafAt_eq_some.2 ⟨(has_iff_lookup (h1 ▸ wf_remove hd)).1 hh, hu⟩
      rw [h2, if_pos rfl] at hl
      cases hl
  · unfold rollbackDeleteT at h ⊢
    rw [placeOf_eq, hpn] at h ⊢
    cases hc : d.createDirAll (p ++ [n]).dropLast with
    | none => rw [hc] at h; cases h
    | some d1 =>
      rw [hc] at h
      dsimp only at h ⊢
      cases hw : d1.writeFile (p ++ [n]) t with
      | none => rw [hw] at h; cases h
      | some d2 =>
        obtain ⟨h1, h2, -, -⟩ := writeFile_spec hw
        dsimp only
        exact (has_iff_lookup (h1 ▸ wf_place (wf_createDirAll hd
          (fun m hm => hval m (List.dropLast_subset _ hm)) hc) (.file _) hval)).2 h2

/-! ## replace_source -/

/-- C160: a reply of `replace_source` that is not an error names the number of places that were replaced. -/
theorem C160_replaced (W : Wording) (H : Host) (hws : ∀ n ∈ H.ws, ValidName n) (order : Workspace → Workspace)
    (ho : ∀ w, (order w).Perm w) (s : Server) (hd : WellFormed s.disk) (path old new : Str) (all force : Bool) (r : ToolReply)
    (h : (replaceSourceT W H order s path old new all force).2 = some r) (hr : r.isError = false) :
    ∃ text ps rest,
      ((ps.length = 2 ∧ r.texts = ["Replaced 1 occurrence in '".toList ++ path ++ "'. ".toList ++ rest]) ∨
       (2 < ps.length ∧ all = true ∧
        r.texts = ["Replaced ".toList ++ showNat (ps.length - 1) ++ " occurrences in '".toList ++ path ++ "'. ".toList ++ rest])) ∧
      Has s.disk (lexicalPlace H.ws (pathComponents path)) (.file (some text)) ∧ Cut old text ps ∧
      Has (replaceSourceT W H order s path old new all force).1.disk (lexicalPlace H.ws (pathComponents path))
        (.file (some (joinWith new ps))) ∧
      EndsRight W H s (replaceSourceT W H order s path old new all force).1 force rest := by
  unfold replaceSourceT at h ⊢
  have hx := replaceExecuteT_eq W s.disk H.ws path old new all
  cases hv : replaceExecuteT W s.disk H.ws path old new all with
  | crash => rw [hv] at h; cases h
  | refused e => rw [hv] at h; cases h; cases hr
  | replaced c k =>
    rw [hv] at h hx
    dsimp only at h hx ⊢
    unfold replaceExecute at hx
    by_cases hold : old = []
    · rw [if_pos hold] at hx; cases hx
    rw [if_neg hold] at hx
    cases hread : readSourceFile s.disk H.ws path with
    | none => rw [hread] at hx; cases hx
    | some text =>
      rw [hread] at hx
      dsimp only at hx
      have htext := (has_iff_lookup hd).2 (readSourceFile_spec hread).1
      obtain ⟨_, ps, hcut, hlen, hk1, hk2, rfl⟩ := (C60_replaces text old new c all k).1 hx
      have hword : ∀ rest, ((ps.length = 2 ∧
            [replacedText path k ++ rest] = ["Replaced 1 occurrence in '".toList ++ path ++ "'. ".toList ++ rest]) ∨
          (2 < ps.length ∧ all = true ∧
            [replacedText path k ++ rest] = ["Replaced ".toList ++ showNat (ps.length - 1) ++ " occurrences in '".toList ++ path ++
              "'. ".toList ++ rest])) := by
        intro rest
        by_cases hk : k = 1
        · exact .inl ⟨by omega, by unfold replacedText; rw [if_pos hk]⟩
        · refine .inr ⟨by omega, by rcases hk2 with h | h; exacts [absurd h hk, h], ?_⟩
          unfold replacedText
          rw [if_neg hk, show ps.length - 1 = k by omega]
      cases hw : validateAndWriteT W H s.disk path (joinWith new ps) with
      | mk d x =>
        rw [hw] at h
        cases x with
        | error e => cases h; cases hr
        | ok x =>
          obtain ⟨k1, k2, _, _, _⟩ := writtenT hws hd hw
          dsimp only at h ⊢
          cases hreb : rebuild H order d with
          | ok st =>
            rw [hreb] at h
            cases h
            exact ⟨text, ps, _, hword _, htext, hcut, k2, .inl ⟨rfl, rebuild_serves k1 hws ho hreb⟩⟩
          | error e =>
            rw [hreb] at h
            cases force with
            | false => cases h; cases hr
            | true =>
              cases h
              exact ⟨text, ps, _, hword _, htext, hcut, k2, .inr ⟨rfl, ⟨e, rfl⟩, rfl, bad_files k1 hws ho hreb⟩⟩

theorem replace_refusal {W : Wording} {d : FsTree} {ws : List Str} {path old new e : Str} {all : Bool}
    (h : replaceExecuteT W d ws path old new all = .refused e) : ¬ "Validation failed: ".toList <+: e := by
  rintro ⟨t, rfl⟩
  have hof : ∀ (o : Option Str) (f : Str → Str), (∀ x y, f x ≠ "Validation failed: ".toList ++ y) →
      ReplaceOutcome.ofText (o.map f) ≠ .refused ("Validation failed: ".toList ++ t) := by
    intro o f hf hx
    cases o with
    | none => cases hx
    | some x =>
      injection hx with hx
      exact hf x t hx
  unfold replaceExecuteT at h
  by_cases h1 : old = []
  · rw [if_pos h1] at h
    injection h with h
    exact absurd (List.cons.inj h).1 (by decide)
  rw [if_neg h1] at h
  cases hread : readSourceFileT W d ws path with
  | error e =>
    rw [hread] at h
    injection h with h
    subst h
    unfold readSourceFileT at hread
    split at hread
    · injection hread with h; exact absurd (List.cons.inj h).1 (by decide)
    · split at hread
      · injection hread with h; exact absurd (List.cons.inj h).1 (by decide)
      · split at hread
        · split at hread
          · injection hread with h; exact absurd (List.cons.inj h).1 (by decide)
          · cases hread
        · injection hread with h; exact absurd (List.cons.inj h).1 (by decide)
  | ok c =>
    rw [hread] at h
    dsimp only at h
    unfold replaceOutcome at h
    rw [if_neg h1] at h
    split at h
    · exact hof _ _ (fun x y hh => absurd (List.cons.inj hh).1 (by decide)) h
    · split at h
      · exact hof _ _ (fun x y hh => absurd (List.cons.inj hh).1 (by decide)) h
      · split at h <;> cases h

/-- C160: when `replace_source` fails in the validation it says that the changes were rolled back, and they were. -/
theorem C160_replace_rolled (W : Wording) (H : Host) (hws : ∀ n ∈ H.ws, ValidName n) (order : Workspace → Workspace)
    (s : Server) (hd : WellFormed s.disk) (path old new : Str) (all force : Bool) (t : Str)
    (h : (replaceSourceT W H order s path old new all force).2 = some ⟨true, [t]⟩)
    (ht : "Validation failed: ".toList <+: t) :
    "Changes have been rolled back. Use 'force: true' to write anyway.".toList <:+ t ∧
    SameFiles s.disk (replaceSourceT W H order s path old new all force).1.disk ∧
    (replaceSourceT W H order s path old new all force).1.state = s.state := by
  unfold replaceSourceT at h ⊢
  have hx := replaceExecuteT_eq W s.disk H.ws path old new all
  cases hv : replaceExecuteT W s.disk H.ws path old new all with
  | crash => rw [hv] at h; cases h
  | refused e => rw [hv] at h; cases h; exact absurd ht (replace_refusal hv)
  | replaced c k =>
    rw [hv] at h hx
    dsimp only at h hx ⊢
    have hread : ∃ text, readSourceFile s.disk H.ws path = some text := by
      unfold replaceExecute at hx
      split at hx
      · cases hx
      · split at hx
        · cases hx
        · next heq => exact ⟨_, heq⟩
    obtain ⟨text, hread⟩ := hread
    have hb : ¬ Has s.disk (lexicalPlace H.ws (pathComponents path)) (.file none) := fun hh => by
      have := (has_iff_lookup hd).1 hh
      have h2 := (readSourceFile_spec hread).1
      rw [placeFor] at h2
      rw [h2] at this
      cases this
    cases hw : validateAndWriteT W H s.disk path c with
    | mk d x =>
      rw [hw] at h
      cases x with
      | error e => cases h; exact absurd ht (refusal_head hw)
      | ok x =>
        obtain ⟨k1, _, k4, k5, k3⟩ := writtenT hws hd hw
        dsimp only at h ⊢
        cases hreb : rebuild H order d with
        | ok st => rw [hreb] at h; cases h
        | error e =>
          rw [hreb] at h
          cases force with
          | true => cases h
          | false =>
            obtain ⟨y, z⟩ := rolled_backT (o := x.original) hws hd k1 k5 k4 (original_kept hd hb k3)
            dsimp only at h ⊢
            rw [if_neg (by exact Bool.noConfusion)] at h ⊢
            rw [y] at h
            cases h
            exact ⟨rolledBack_suffix _, z, rfl⟩

/-! ## add_entity -/

theorem addExecuteT_new {H : Host} {s : Server} {p : AddParams} {d : FsTree} {dsl : Str} {new : Bool}
    (h : addExecuteT H s p = (d, some (dsl, new))) :
    (∃ e, entityToAdd H s.state p = some e ∧ dsl = generateDsl H.lang .default [e]) ∧
    ((new = true ∧ leafAt s.disk (lexicalPlace H.ws (pathComponents (p.toFile.getD (defaultTarget p.type)))) = none) ∨
     (new = false ∧ ∃ old,
      leafAt s.disk (lexicalPlace H.ws (pathComponents (p.toFile.getD (defaultTarget p.type)))) = some (.file (some old)))) := by
  unfold addExecuteT at h
  rw [placeOf_eq] at h
  generalize lexicalPlace H.ws (pathComponents (p.toFile.getD (defaultTarget p.type))) = loc at h ⊢
  cases he : entityToAdd H s.state p with
  | none => rw [he] at h; cases h
  | some e =>
    rw [he] at h
    dsimp only at h
    cases hc : s.disk.createDirAll loc.dropLast with
    | none => rw [hc] at h; cases h
    | some d1 =>
      have hl1 := leafAt_createDirAll hc
      rw [hc] at h
      dsimp only at h
      cases hlk : d1.lookup loc with
      | none =>
        rw [hlk] at h
        dsimp only at h
        split at h
        · cases h
        · cases h
          refine ⟨⟨e, rfl, rfl⟩, .inl ⟨rfl, ?_⟩⟩
          rw [← hl1]
          unfold leafAt
          rw [hlk]
          rfl
      | some u =>
        rw [hlk] at h
        dsimp only at h
        cases hr : d1.readText loc with
        | none => rw [hr] at h; cases h
        | some old =>
          rw [hr] at h
          dsimp only at h
          split at h
          · cases h
          · cases h
            refine ⟨⟨e, rfl, rfl⟩, .inr ⟨rfl, old, ?_⟩⟩
            rw [← hl1]
            refine leafAt_eq_some.2 ⟨?_, fun es h => by cases h⟩
            unfold FsTree.readText at hr
            split at hr
            · next heq => rw [heq, hr]
            · cases hr

/-- C160: a reply of `add_entity` that is not an error shows the text that was appended, and says whether there was a
file before; a third text is given exactly if the server could not load the files afterwards. -/
theorem C160_added (W : Wording) (why : Str) (H : Host) (hws : ∀ n ∈ H.ws, ValidName n) (order : Workspace → Workspace)
    (ho : ∀ w, (order w).Perm w) (s : Server) (hd : WellFormed s.disk) (p : AddParams)
    (h : (addEntityT W why H order s p).2.isError = false) :
    ∃ said dsl more sep old, (addEntityT W why H order s p).2.texts = said :: dsl :: more ∧
      ((said = "Created new file '".toList ++ p.toFile.getD (defaultTarget p.type) ++ "' and added entity.".toList ∧
          old = [] ∧ sep = [] ∧
          ∀ u, NotDir u → ¬ Has s.disk (lexicalPlace H.ws (pathComponents (p.toFile.getD (defaultTarget p.type)))) u) ∨
       (said = "Added entity to existing file '".toList ++ p.toFile.getD (defaultTarget p.type) ++ "'.".toList ∧
          Has s.disk (lexicalPlace H.ws (pathComponents (p.toFile.getD (defaultTarget p.type)))) (.file (some old)) ∧
          (sep = ['\n'] ∨ sep = []))) ∧
      Has (addEntityT W why H order s p).1.disk
        (lexicalPlace H.ws (pathComponents (p.toFile.getD (defaultTarget p.type)))) (.file (some (old ++ (sep ++ dsl)))) ∧
      ((more = [] ∧ Serves H (addEntityT W why H order s p).1) ∨
       ((∃ e, more = ["Warning: workspace rebuild failed after adding entity: ".toList ++ W.say e]) ∧
        (addEntityT W why H order s p).1.state = s.state ∧ ¬ GoodFiles H (addEntityT W why H order s p).1.disk)) := by
  unfold addEntityT at h ⊢
  cases hv : addExecuteT H s p with
  | mk d o =>
    rw [hv] at h
    cases o with
    | none => cases h
    | some x =>
      obtain ⟨dsl, new⟩ := x
      obtain ⟨⟨e, he, hdsl⟩, hnew⟩ := addExecuteT_new hv
      have hx := addExecuteT_eq H s p
      rw [hv] at hx
      unfold addExecute at hx
      rw [he] at hx
      dsimp only [Option.isSome] at hx
      rw [← hdsl] at hx
      obtain ⟨k1, _, k3⟩ := appendDsl_spec hd (placeOf_valid hws _) hx
      obtain ⟨old, a, b⟩ := k3 rfl
      rw [placeOf_eq] at a b
      have hl := a (lexicalPlace H.ws (pathComponents (p.toFile.getD (defaultTarget p.type))))
      rw [if_pos rfl] at hl
      have hhas := (has_iff_lookup k1).2 (leafAt_eq_some.1 hl).1
      have hsaid : (addedText (p.toFile.getD (defaultTarget p.type)) new =
            "Created new file '".toList ++ p.toFile.getD (defaultTarget p.type) ++ "' and added entity.".toList ∧
          old = [] ∧ appendPrefix old = [] ∧
          ∀ u, NotDir u → ¬ Has s.disk (lexicalPlace H.ws (pathComponents (p.toFile.getD (defaultTarget p.type)))) u) ∨
        (addedText (p.toFile.getD (defaultTarget p.type)) new =
            "Added entity to existing file '".toList ++ p.toFile.getD (defaultTarget p.type) ++ "'.".toList ∧
          Has s.disk (lexicalPlace H.ws (pathComponents (p.toFile.getD (defaultTarget p.type)))) (.file (some old)) ∧
          (appendPrefix old = ['\n'] ∨ appendPrefix old = [])) := by
        rcases hnew with ⟨rfl, hn⟩ | ⟨rfl, o', ho'⟩
        · rcases b with ⟨rfl, _⟩ | b
          · refine .inl ⟨rfl, rfl, rfl, fun u hu hh => ?_⟩
            have := leafAt_eq_some.2 ⟨(has_iff_lookup hd).1 hh, hu⟩
            rw [hn] at this
            cases this
          · rw [hn] at b; cases b
        · rcases b with ⟨_, b⟩ | b
          · rw [ho'] at b; cases b
          · refine .inr ⟨rfl, (has_iff_lookup hd).2 (leafAt_eq_some.1 b).1, ?_⟩
            unfold appendPrefix
            split
            · exact .inr rfl
            · exact .inl rfl
      dsimp only at h ⊢
      cases hr : rebuild H order d with
      | ok st => exact ⟨_, dsl, [], appendPrefix old, old, rfl, hsaid, hhas, .inl ⟨rfl, rebuild_serves k1 hws ho hr⟩⟩
      | error err =>
        exact ⟨_, dsl, _, appendPrefix old, old, rfl, hsaid, hhas, .inr ⟨⟨err, rfl⟩, rfl, bad_files k1 hws ho hr⟩⟩

/-! ## Where a reply is wrong -/

/-- A wording for examples. -/
def exWording : Wording := ⟨fun _ => "E".toList, "IO".toList⟩

/-- A disk with a file that is not text. -/
def exBinaryDisk : FsTree := .dir (some [("w".toList, .dir (some [("x.firm".toList, .file none)]))])

theorem exBinaryDisk_wf : WellFormed exBinaryDisk := by
  have hv : ∀ n : Str, n ∈ ["w".toList, "x.firm".toList] → ValidName n := by
    intro n hn
    simp only [List.mem_cons, List.not_mem_nil, or_false] at hn
    rcases hn with rfl | rfl <;> exact ⟨by decide, by decide, by decide, by decide⟩
  refine .dir (by decide) ?_ ?_
  · intro p hp
    cases List.mem_singleton.1 hp
    exact hv _ (by decide)
  · intro p hp
    cases List.mem_singleton.1 hp
    refine .dir (by decide) ?_ ?_
    · intro p hp
      cases List.mem_singleton.1 hp
      exact hv _ (by decide)
    · intro p hp
      cases List.mem_singleton.1 hp
      exact .file _

/-- C160 is false of `write_source` when the file is not text: it is replaced and said to be created; and when the
validation fails it is deleted and the changes are said to be rolled back. -/
theorem C160_binary : ∃ s : Server, WellFormed s.disk ∧ Has s.disk ["w".toList, "x.firm".toList] (.file none) ∧
    (writeSourceT exWording exHost id s "x.firm".toList "S".toList false).2 =
      ⟨false, ["Created x.firm (1 bytes). Workspace is valid.".toList]⟩ ∧
    (writeSourceT exWording exHost id s "x.firm".toList "bad".toList false).2 =
      ⟨true, ["Validation failed: E. Changes have been rolled back. Use 'force: true' to write anyway.".toList]⟩ ∧
    ¬ ∃ u, Has (writeSourceT exWording exHost id s "x.firm".toList "bad".toList false).1.disk
      ["w".toList, "x.firm".toList] u := by
  refine ⟨⟨exBinaryDisk, exState exDisk⟩, exBinaryDisk_wf, (has_iff_lookup exBinaryDisk_wf).2 rfl, by decide +kernel,
    by decide +kernel, fun ⟨u, hu⟩ => ?_⟩
  have key : (writeSourceT exWording exHost id ⟨exBinaryDisk, exState exDisk⟩ "x.firm".toList "bad".toList false).1.disk =
      .dir (some [("w".toList, .dir (some []))]) := rfl
  rw [key] at hu
  cases hu with
  | inside hm ht =>
    rw [List.mem_singleton] at hm
    cases hm
    cases ht with
    | inside hm _ => cases hm

/-- C160: `delete_source` and `add_entity` say that the validation of the workspace failed when they refuse a request, also
when the workspace is valid and nothing was validated. -/
theorem C160_blamed : ∃ (H : Host) (s : Server), Serves H s ∧
    (deleteSourceT exWording H id s "c.firm".toList false).2 =
      ⟨true, ["Workspace validation failed: File not found: c.firm".toList]⟩ ∧
    (addEntityT exWording "Schema for type 'robot' not found".toList H id s ⟨"robot".toList, "r".toList, [], none, []⟩).2 =
      ⟨true, ["Workspace validation failed: Schema for type 'robot' not found".toList]⟩ := by
  exact ⟨exHost, exServer, exServer_serves, by decide +kernel, by decide +kernel⟩

/-- C160: a path inside the workspace is said not to be within it, when two dots stand anywhere in its name. -/
theorem C160_within : ∃ (H : Host) (s : Server), Serves H s ∧
    lexicalPlace H.ws (pathComponents "notes..firm".toList) = H.ws ++ ["notes..firm".toList] ∧
    (writeSourceT exWording H id s "notes..firm".toList "B".toList false).2 =
      ⟨true, ["Invalid path (must be within workspace): notes..firm".toList]⟩ :=
  ⟨exHost, exServer, exServer_serves, by decide, by decide +kernel⟩

/-! ## Examples -/

example :
    (writeSourceT exWording exHost id exServer "b.firm".toList "B".toList false).2 =
      ⟨false, ["Updated b.firm (1 bytes). Workspace is valid.".toList]⟩ ∧
    (writeSourceT exWording exHost id exServer "new/c.firm".toList "bad".toList true).2 =
      ⟨false, ["Created new/c.firm (3 bytes). Warning: workspace has validation errors: E. Use 'build' to check status after making more changes.".toList]⟩ ∧
    (writeSourceT exWording exHost id exServer "b.firm".toList "bad".toList false).2 =
      ⟨true, ["Validation failed: E. Changes have been rolled back. Use 'force: true' to write anyway.".toList]⟩ ∧
    (writeSourceT exWording exHost id exServer "b.txt".toList "B".toList false).2 =
      ⟨true, ["Path must end with .firm extension: b.txt".toList]⟩ ∧
    (deleteSourceT exWording exHost id exServer "b.firm".toList false).2 =
      ⟨false, ["Deleted 'b.firm'. Workspace is valid.".toList]⟩ ∧
    (deleteSourceT exWording exHost id exServer "a.firm".toList false).2 =
      ⟨true, ["Deletion would break the workspace: E. File has been restored. Use 'force: true' to delete anyway.".toList]⟩ ∧
    (replaceSourceT exWording exHost id exServer "b.firm".toList "B".toList "B".toList false false).2 =
      some ⟨false, ["Replaced 1 occurrence in 'b.firm'. Workspace is valid.".toList]⟩ ∧
    (replaceSourceT exWording exHost id exServer "b.firm".toList "B".toList "bad".toList false false).2 =
      some ⟨true, ["Validation failed: E. Changes have been rolled back. Use 'force: true' to write anyway.".toList]⟩ ∧
    (addEntityT exWording [] exHost id exServer (exAdd "carol")).2 =
      ⟨false, ["Added entity to existing file 'b.firm'.".toList, "person carol {\n    name = \"Carol\"\n}\n".toList,
        "Warning: workspace rebuild failed after adding entity: E".toList]⟩ := by decide +kernel

example : ¬ Has exServer.disk (lexicalPlace exHost.ws (pathComponents "b.firm".toList)) (.file none) := by
  intro h
  have := (has_iff_lookup exDisk_wf).1 h
  cases this

end Firm
