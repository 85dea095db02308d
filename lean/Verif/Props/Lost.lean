import Verif.Model.Lost
import Verif.Props.Crash
import Verif.Props.Interrupted
import Verif.Props.Refusal

/-!
# Requests that crash (C138)
-/

namespace Firm
open Spec

/-- A firm file of the workspace has a value that crashes the reader. -/
def Spec.CrashFile (H : Host) (d : FsTree) : Prop :=
  ∃ loc text, FirmFile d H.ws loc text ∧ CrashesBelow H.lang (H.grammar text)

/-- A firm file of the workspace has an entity with a field whose value crashes the reader. -/
def Spec.CrashField (H : Host) (d : FsTree) : Prop :=
  ∃ loc text, FirmFile d H.ws loc text ∧ ∃ n ∈ (H.grammar text).children, n.kind = "entity_block".toList ∧
    ∃ fd ∈ entityFields n, ∃ v, fd.childOfKind "value" = some v ∧ HasLiteral (Crashes H.lang) v

/-- The change that the request asks for is on the disk `d'`, and nothing else is different. -/
def Spec.Done (H : Host) (s : Server) (d' : FsTree) : Request → Prop
  | .write path content _ =>
    SameBut s.disk d' (lexicalPlace H.ws (pathComponents path)) ∧
      Has d' (lexicalPlace H.ws (pathComponents path)) (.file (some content))
  | .delete path _ =>
    SameBut s.disk d' (lexicalPlace H.ws (pathComponents path)) ∧
      ∀ u, NotDir u → ¬ Has d' (lexicalPlace H.ws (pathComponents path)) u
  | .replace path old new all _ =>
    SameBut s.disk d' (lexicalPlace H.ws (pathComponents path)) ∧
      ∃ text text' k, Has s.disk (lexicalPlace H.ws (pathComponents path)) (.file (some text)) ∧
        replaceText text old new all = some (text', k) ∧
        Has d' (lexicalPlace H.ws (pathComponents path)) (.file (some text'))
  | .add p =>
    SameBut s.disk d' (lexicalPlace H.ws (pathComponents (p.toFile.getD (defaultTarget p.type)))) ∧
      ∃ e text, entityToAdd H s.state p = some e ∧ generateDsl H.lang .default [e] <:+ text ∧
        Has d' (lexicalPlace H.ws (pathComponents (p.toFile.getD (defaultTarget p.type)))) (.file (some text))
  | .build => d' = s.disk

theorem loadTree_panic (grammar : Str → Node) (base : Str) :
    ∀ (t : FsTree) (w : Workspace) (path : Str), (loadTree grammar base w path t).2 ≠ .error .panic := by
  have key : ∀ (n : Nat) (t : FsTree), sizeOf t ≤ n → ∀ (w : Workspace) (path : Str),
      (loadTree grammar base w path t).2 ≠ .error .panic := by
    intro n
    induction n with
    | zero => intro t ht; cases t <;> simp at ht
    | succ n ih =>
      intro t ht w path
      match t with
      | .file _ => simp [loadTree]
      | .other => simp [loadTree]
      | .dir none => simp [loadTree]
      | .dir (some es) =>
        rw [loadTree]
        have hs : sizeOf es ≤ n := by simp at ht; omega
        clear ht
        induction es generalizing w with
        | nil => simp [loadEntries]
        | cons e es ihe =>
          obtain ⟨name, t⟩ := e
          have h1 : sizeOf t ≤ n := by simp at hs; omega
          have h2 : sizeOf es ≤ n := by simp at hs; omega
          match t, h1 with
          | .dir d, h1 =>
            rw [loadEntries]
            have hd := ih (.dir d) h1 w (joinPath path name)
            split
            · exact ihe _ h2
            · next hne => exact hd
          | .file text, h1 =>
            rw [loadEntries]
            split
            · split
              · exact ihe _ h2
              · cases text with
                | none => simp [Workspace.loadFile]
                | some t =>
                  simp only [Workspace.loadFile]
                  split <;> simp
            · exact ihe _ h2
          | .other, h1 => rw [loadEntries]; exact ihe _ h2
  exact fun t => key _ t (Nat.le_refl _)

theorem rebuild_panic {H : Host} {order : Workspace → Workspace} {d : FsTree} (hd : WellFormed d)
    (hws : ∀ n ∈ H.ws, ValidName n) (ho : ∀ w, (order w).Perm w) (h : rebuild H order d = .error .panic) :
    CrashFile H d := by
  unfold rebuild at h
  cases ht : d.lookup H.ws with
  | none => rw [ht] at h; cases h
  | some t =>
    obtain ⟨w, r, h1, h2, h3⟩ := loadDirectory_spec (grammar := H.grammar) hd hws ht
    rw [ht] at h
    dsimp only at h
    have hp := loadTree_panic H.grammar (placeText H.ws) t [] (placeText H.ws)
    rw [show loadTree H.grammar (placeText H.ws) [] (placeText H.ws) t = (w, r) from h1] at hp
    rw [h1] at h
    cases r with
    | error e =>
      dsimp only at h
      cases h
      exact absurd rfl hp
    | ok u =>
      dsimp only at h
      cases hb : (order w).build H.lang with
      | ok b =>
        rw [hb] at h
        dsimp only at h
        split at h <;> cases h
      | error e =>
        rw [hb] at h
        cases h
        obtain ⟨⟨path, f⟩, hm, hc⟩ := C136_build H.lang _ hb
        obtain ⟨loc, text, hf, _, rfl⟩ := ((h3 rfl).2 path f).1 ((ho w).mem_iff.1 hm)
        exact ⟨loc, text, hf, hc⟩

/-- C138: a workspace with such an entity is not what any state serves. -/
theorem C138_unserved (H : Host) (s : Server) (hc : CrashField H s.disk) : ¬ Serves H s := by
  rintro ⟨h1, h2, _⟩
  obtain ⟨loc, text, hf, n, hn, hk, fd, hfd, v, hv, hl⟩ := hc
  refine C136_never_built H.lang ((h1.2 _ _).2 ⟨loc, text, hf, rfl, rfl⟩) (n := n) ?_ hfd hv hl _ h2
  exact List.mem_filter.2 ⟨hn, decide_eq_true hk⟩

theorem rebuild_field {H : Host} {order : Workspace → Workspace} {d : FsTree} {st : ServerState} (hd : WellFormed d)
    (hws : ∀ n ∈ H.ws, ValidName n) (ho : ∀ w, (order w).Perm w) (hc : CrashField H d) :
    rebuild H order d ≠ .ok st :=
  fun h => C138_unserved H ⟨d, st⟩ hc (rebuild_serves hd hws ho h)

theorem replaced_text {text path old new content : Str} {all : Bool} {k : Nat}
    (hr : replaceOutcome text path old new all = .replaced content k) : replaceText text old new all = some (content, k) := by
  unfold replaceOutcome at hr
  unfold replaceText
  split at hr
  · cases hr
  · rw [if_neg (by assumption)]
    split at hr
    · unfold ReplaceOutcome.ofText at hr; split at hr <;> cases hr
    · rw [if_neg (by assumption)]
      split at hr
      · unfold ReplaceOutcome.ofText at hr; split at hr <;> cases hr
      · rw [if_neg (by assumption)]
        split at hr <;> cases hr <;> simp_all

/-- C138: a request that is answered does what the model of the tools says (so that C56–C63 speak about it). -/
theorem C138_answered (H : Host) (order : Workspace → Workspace) (s : Server) (r : Request) (x : Reply)
    (h : (s.outcome H order r).2 = .reply x) : s.handle H order r = ((s.outcome H order r).1, x) := by
  have hw : ∀ path content force, (writeOutcome H order s path content force).2 = .reply x →
      writeSource H order s path content force = ((writeOutcome H order s path content force).1, x) := by
    intro path content force h
    revert h
    unfold writeOutcome writeSource
    rcases validateAndWrite H s.disk path content with ⟨d, _ | original⟩
    · intro h; cases h; rfl
    · dsimp only
      rcases rebuild H order d with e | st
      · cases e <;> cases force <;> intro h <;> cases h <;> rfl
      · intro h; cases h; rfl
  cases r with
  | write path content force => exact hw _ _ _ h
  | delete path force =>
    revert h
    simp only [Server.outcome, Server.handle]
    unfold deleteOutcome deleteSource
    rcases deleteExecute s.disk H.ws path with _ | ⟨d, original⟩
    · intro h; cases h; rfl
    · dsimp only
      rcases rebuild H order d with e | st
      · cases e <;> cases force <;> intro h <;> cases h <;> rfl
      · intro h; cases h; rfl
  | replace path old new all force =>
    simp only [Server.outcome, Server.handle, replaceOutcomeOf] at h ⊢
    unfold replaceSource replaceExecute
    by_cases h0 : old = []
    · rw [if_pos h0] at h ⊢; cases h
      rw [if_pos h0]
    · rw [if_neg h0] at h ⊢
      rw [if_neg h0]
      cases ht : readSourceFile s.disk H.ws path with
      | none => rw [ht] at h; cases h; rfl
      | some text =>
        rw [ht] at h
        dsimp only at h ⊢
        cases hr : replaceOutcome text path old new all with
        | crash => rw [hr] at h; cases h
        | refused m =>
          rw [hr] at h
          cases h
          have : replaceText text old new all = none := by
            unfold replaceOutcome at hr
            unfold replaceText
            split at hr
            · rw [if_pos (by assumption)]
            · rw [if_neg (by assumption)]
              split at hr
              · rw [if_pos (by assumption)]
              · rw [if_neg (by assumption)]
                split at hr
                · rw [if_pos (by assumption)]
                · split at hr <;> cases hr
          rw [this]
        | replaced content k =>
          rw [hr] at h
          dsimp only at h ⊢
          rw [replaced_text hr]
          exact hw _ _ _ h
  | add p =>
    revert h
    simp only [Server.outcome, Server.handle]
    unfold addOutcome addEntityTool
    rcases addExecute H s p with ⟨d, _ | _⟩
    · intro h; cases h; rfl
    · dsimp only
      rcases rebuild H order d with e | st
      · cases e <;> intro h <;> cases h <;> rfl
      · intro h; cases h; rfl
  | build =>
    revert h
    simp only [Server.outcome, Server.handle]
    unfold buildOutcome buildTool
    rcases rebuild H order s.disk with e | st
    · cases e <;> intro h <;> cases h <;> rfl
    · intro h; cases h; rfl

theorem leafSet_but {d d' : FsTree} {loc : List Str} {u : Option FsTree} (hd : WellFormed d) (hd' : WellFormed d')
    (h : LeafSet d d' loc u) : SameBut d d' loc :=
  fun l hl => leaf_sameAt hd hd' (by rw [h l, if_neg hl])

theorem writeOutcome_lost {H : Host} {order : Workspace → Workspace} {s : Server} {path content : Str} {force : Bool}
    (hd : WellFormed s.disk) (hws : ∀ n ∈ H.ws, ValidName n)
    (h : (writeOutcome H order s path content force).2 = .lost) :
    ∃ d, (writeOutcome H order s path content force).1 = ⟨d, s.state⟩ ∧ WellFormed d ∧
      rebuild H order d = .error .panic ∧ SameBut s.disk d (placeFor H.ws path) ∧
      Has d (placeFor H.ws path) (.file (some content)) := by
  revert h
  unfold writeOutcome
  cases hv : validateAndWrite H s.disk path content with
  | mk d o =>
    obtain ⟨h1, _, h3⟩ := validateAndWrite_spec hd hws hv
    cases o with
    | none => intro h; cases h
    | some original =>
      obtain ⟨h4, _⟩ := h3 original rfl
      dsimp only
      cases hr : rebuild H order d with
      | ok st => intro h; cases h
      | error e =>
        cases e with
        | panic =>
          intro _
          exact ⟨d, rfl, h1, hr, leafSet_but hd h1 h4, leaf_has h1 (by rw [h4, if_pos rfl])⟩
        | _ => cases force <;> intro h <;> cases h

/-- C138: a request without a reply leaves the served state as it was. Either it is a replacement whose refusal could not be
worded, and nothing is changed; or a value in a file of the workspace crashes the reader, and what was asked for is on the
disk, forced or not. -/
theorem C138_lost (H : Host) (hws : ∀ n ∈ H.ws, ValidName n) (order : Workspace → Workspace) (ho : ∀ w, (order w).Perm w)
    (s : Server) (hd : WellFormed s.disk) (r : Request) (h : (s.outcome H order r).2 = .lost) :
    (s.outcome H order r).1.state = s.state ∧
      ((∃ path old new all force text, r = .replace path old new all force ∧
          Has s.disk (lexicalPlace H.ws (pathComponents path)) (.file (some text)) ∧
          replaceOutcome text path old new all = .crash ∧ (s.outcome H order r).1 = s) ∨
        CrashFile H (s.outcome H order r).1.disk ∧ Done H s (s.outcome H order r).1.disk r) := by
  cases r with
  | write path content force =>
    obtain ⟨d, h1, h2, h3, h4, h5⟩ := writeOutcome_lost hd hws h
    simp only [Server.outcome]
    rw [h1]
    exact ⟨rfl, .inr ⟨rebuild_panic h2 hws ho h3, h4, h5⟩⟩
  | delete path force =>
    revert h
    simp only [Server.outcome]
    unfold deleteOutcome
    cases hv : deleteExecute s.disk H.ws path with
    | none => intro h; cases h
    | some p =>
      obtain ⟨d, original⟩ := p
      obtain ⟨h1, h2, _⟩ := deleteExecute_spec hd hv
      dsimp only
      cases hr : rebuild H order d with
      | ok st => intro h; cases h
      | error e =>
        cases e with
        | panic =>
          intro _
          refine ⟨rfl, .inr ⟨rebuild_panic h1 hws ho hr, leafSet_but hd h1 h2, fun u hu hh => ?_⟩⟩
          have := has_leaf h1 hu hh
          rw [h2, if_pos rfl] at this
          cases this
        | _ => cases force <;> intro h <;> cases h
  | replace path old new all force =>
    revert h
    simp only [Server.outcome]
    unfold replaceOutcomeOf
    by_cases h0 : old = []
    · rw [if_pos h0]; intro h; cases h
    · rw [if_neg h0]
      cases ht : readSourceFile s.disk H.ws path with
      | none => intro h; cases h
      | some text =>
        have htext := (has_iff_lookup hd).2 (readSourceFile_spec ht).1
        dsimp only
        cases hr : replaceOutcome text path old new all with
        | crash =>
          intro _
          exact ⟨rfl, .inl ⟨path, old, new, all, force, text, rfl, htext, hr, rfl⟩⟩
        | refused m => intro h; cases h
        | replaced content k =>
          intro h
          obtain ⟨d, h1, h2, h3, h4, h5⟩ := writeOutcome_lost hd hws h
          dsimp only
          rw [h1]
          exact ⟨rfl, .inr ⟨rebuild_panic h2 hws ho h3, h4, text, content, k, htext, replaced_text hr, h5⟩⟩
  | add p =>
    revert h
    simp only [Server.outcome]
    unfold addOutcome
    cases hx : addExecute H s p with
    | mk d ok =>
      cases ok with
      | false => intro h; cases h
      | true =>
        dsimp only
        cases hr : rebuild H order d with
        | ok st => intro h; cases h
        | error e =>
          cases e with
          | panic =>
            intro _
            unfold addExecute at hx
            cases he : entityToAdd H s.state p with
            | none => rw [he] at hx; cases hx
            | some e =>
              rw [he] at hx
              dsimp only at hx
              rw [placeOf_eq] at hx
              obtain ⟨h1, _, h3⟩ := appendDsl_spec hd (place_valid hws _) hx
              obtain ⟨old, h4, _⟩ := h3 rfl
              refine ⟨rfl, .inr ⟨rebuild_panic h1 hws ho hr, leafSet_but hd h1 h4, e, _, he, ?_,
                leaf_has h1 (by rw [h4, if_pos rfl])⟩⟩
              exact ⟨old ++ appendPrefix old, by simp⟩
          | _ => intro h; cases h
  | build =>
    revert h
    simp only [Server.outcome]
    unfold buildOutcome
    cases hr : rebuild H order s.disk with
    | ok st => intro h; cases h
    | error e =>
      cases e with
      | panic => intro _; exact ⟨rfl, .inr ⟨rebuild_panic hd hws ho hr, rfl⟩⟩
      | _ => intro h; cases h

/-- C138: while an entity of the workspace has a field whose value crashes the reader, no request succeeds and the served
state stays as it is. -/
theorem C138_stuck (H : Host) (hws : ∀ n ∈ H.ws, ValidName n) (order : Workspace → Workspace) (ho : ∀ w, (order w).Perm w)
    (s : Server) (hd : WellFormed s.disk) (r : Request) (hc : CrashField H (s.outcome H order r).1.disk) :
    (s.outcome H order r).1.state = s.state ∧ (s.outcome H order r).2 ≠ .reply .success := by
  have hno : ∀ {d : FsTree}, WellFormed d → CrashField H d → ∀ st, rebuild H order d ≠ .ok st :=
    fun hw hc st => rebuild_field hw hws ho hc
  have hw : ∀ path content force, CrashField H (writeOutcome H order s path content force).1.disk →
      (writeOutcome H order s path content force).1.state = s.state ∧
      (writeOutcome H order s path content force).2 ≠ .reply .success := by
    intro path content force
    unfold writeOutcome
    cases hv : validateAndWrite H s.disk path content with
    | mk d o =>
      obtain ⟨h1, _, _⟩ := validateAndWrite_spec hd hws hv
      cases o with
      | none => intro _; exact ⟨rfl, by simp⟩
      | some original =>
        dsimp only
        cases hr : rebuild H order d with
        | ok st => intro hc; exact absurd hr (hno h1 hc st)
        | error e => cases e <;> cases force <;> intro _ <;> exact ⟨rfl, by simp⟩
  revert hc
  cases r with
  | write path content force => exact hw _ _ _
  | delete path force =>
    simp only [Server.outcome]
    unfold deleteOutcome
    cases hv : deleteExecute s.disk H.ws path with
    | none => intro _; exact ⟨rfl, by simp⟩
    | some p =>
      obtain ⟨d, original⟩ := p
      obtain ⟨h1, _⟩ := deleteExecute_spec hd hv
      dsimp only
      cases hr : rebuild H order d with
      | ok st => intro hc; exact absurd hr (hno h1 hc st)
      | error e => cases e <;> cases force <;> intro _ <;> exact ⟨rfl, by simp⟩
  | replace path old new all force =>
    simp only [Server.outcome]
    unfold replaceOutcomeOf
    by_cases h0 : old = []
    · rw [if_pos h0]; intro _; exact ⟨rfl, by simp⟩
    · rw [if_neg h0]
      cases ht : readSourceFile s.disk H.ws path with
      | none => intro _; exact ⟨rfl, by simp⟩
      | some text =>
        dsimp only
        cases hr : replaceOutcome text path old new all with
        | crash => intro _; exact ⟨rfl, by simp⟩
        | refused m => intro _; exact ⟨rfl, by simp⟩
        | replaced content k => exact hw _ _ _
  | add p =>
    simp only [Server.outcome]
    unfold addOutcome
    cases hx : addExecute H s p with
    | mk d ok =>
      obtain ⟨h1, _⟩ := addExecute_spec hd hws hx
      cases ok with
      | false => intro _; exact ⟨rfl, by simp⟩
      | true =>
        dsimp only
        cases hr : rebuild H order d with
        | ok st => intro hc; exact absurd hr (hno h1 hc st)
        | error e => cases e <;> intro _ <;> exact ⟨rfl, by simp⟩
  | build =>
    simp only [Server.outcome]
    unfold buildOutcome
    cases hr : rebuild H order s.disk with
    | ok st => intro hc; exact absurd hr (hno hd hc st)
    | error e => cases e <;> intro _ <;> exact ⟨rfl, by simp⟩

theorem outcome_step {H : Host} (hws : ∀ n ∈ H.ws, ValidName n) {order : Workspace → Workspace} (ho : ∀ w, (order w).Perm w)
    {s : Server} (hd : WellFormed s.disk) (r : Request) : WellFormed (s.outcome H order r).1.disk ∧
      ((s.outcome H order r).1.state = s.state ∨ Serves H (s.outcome H order r).1) := by
  have hw : ∀ path content force, WellFormed (writeOutcome H order s path content force).1.disk ∧
      ((writeOutcome H order s path content force).1.state = s.state ∨
        Serves H (writeOutcome H order s path content force).1) := by
    intro path content force
    unfold writeOutcome
    cases hv : validateAndWrite H s.disk path content with
    | mk d o =>
      obtain ⟨h1, _, h3⟩ := validateAndWrite_spec hd hws hv
      cases o with
      | none => exact ⟨h1, .inl rfl⟩
      | some original =>
        obtain ⟨a, b, _, _, e⟩ := h3 _ rfl
        dsimp only
        cases hr : rebuild H order d with
        | ok st => exact ⟨h1, .inr (rebuild_serves h1 hws ho hr)⟩
        | error err =>
          have hk := (rolled_back h1 hws a b e).1
          cases err <;> cases force <;> first | exact ⟨h1, .inl rfl⟩ | exact ⟨hk, .inl rfl⟩
  cases r with
  | write path content force => exact hw _ _ _
  | delete path force =>
    simp only [Server.outcome]
    unfold deleteOutcome
    cases hv : deleteExecute s.disk H.ws path with
    | none => exact ⟨hd, .inl rfl⟩
    | some p =>
      obtain ⟨d, original⟩ := p
      obtain ⟨h1, _, h3, _, h5, h6⟩ := deleteExecute_spec hd hv
      dsimp only
      cases hr : rebuild H order d with
      | ok st => exact ⟨h1, .inr (rebuild_serves h1 hws ho hr)⟩
      | error err =>
        have hk := (rollbackDelete_spec hd hws h5 h3).1
        rw [← h6] at hk
        cases err <;> cases force <;> first | exact ⟨h1, .inl rfl⟩ | exact ⟨hk, .inl rfl⟩
  | replace path old new all force =>
    simp only [Server.outcome]
    unfold replaceOutcomeOf
    by_cases h0 : old = []
    · rw [if_pos h0]; exact ⟨hd, .inl rfl⟩
    · rw [if_neg h0]
      cases ht : readSourceFile s.disk H.ws path with
      | none => exact ⟨hd, .inl rfl⟩
      | some text =>
        dsimp only
        cases hr : replaceOutcome text path old new all with
        | crash => exact ⟨hd, .inl rfl⟩
        | refused m => exact ⟨hd, .inl rfl⟩
        | replaced content k => exact hw _ _ _
  | add p =>
    simp only [Server.outcome]
    unfold addOutcome
    cases hx : addExecute H s p with
    | mk d ok =>
      obtain ⟨h1, _⟩ := addExecute_spec hd hws hx
      cases ok with
      | false => exact ⟨h1, .inl rfl⟩
      | true =>
        dsimp only
        cases hr : rebuild H order d with
        | ok st => exact ⟨h1, .inr (rebuild_serves h1 hws ho hr)⟩
        | error e => cases e <;> exact ⟨h1, .inl rfl⟩
  | build =>
    simp only [Server.outcome]
    unfold buildOutcome
    cases hr : rebuild H order s.disk with
    | ok st => exact ⟨hd, .inr (rebuild_serves hd hws ho hr)⟩
    | error e => cases e <;> exact ⟨hd, .inl rfl⟩

/-- Any requests, one at a time, forced or not, answered or lost. -/
inductive Spec.Course (H : Host) : Server → Server → Prop
  | start (s : Server) : Course H s s
  | next {s t : Server} {order : Workspace → Workspace} {r : Request} : Course H s t → (∀ w, (order w).Perm w) →
      Course H s (t.outcome H order r).1

/-- C138: after any requests, the served state is the build of the files as they were at some earlier moment. -/
theorem C138_past (H : Host) (hws : ∀ n ∈ H.ws, ValidName n) (s t : Server) (hd : WellFormed s.disk) (hs : Serves H s)
    (h : Course H s t) : ∃ u, Course H s u ∧ Course H u t ∧ Serves H u ∧ u.state = t.state := by
  have key : WellFormed t.disk ∧ ∃ u, Course H s u ∧ Course H u t ∧ Serves H u ∧ u.state = t.state := by
    induction h with
    | start => exact ⟨hd, _, .start _, .start _, hs, rfl⟩
    | @next t order r h ho ih =>
      obtain ⟨hw, u, h1, h2, h3, h4⟩ := ih
      obtain ⟨k1, k2⟩ := outcome_step hws ho hw r
      refine ⟨k1, ?_⟩
      rcases k2 with k2 | k2
      · exact ⟨u, h1, .next h2 ho, h3, h4.trans k2.symm⟩
      · exact ⟨_, .next h ho, .start _, k2, rfl⟩
  exact key.2

/-! ## Examples -/

/-- The text `W` is a file with a value that crashes the reader. -/
def exWideHost : Host := { exHost with grammar := fun t => if t = "W".toList then exWideFile.root else exGrammar t }

/-- The state after loading the disk of two files. -/
def exWideServer : Server :=
  ⟨exDisk, match rebuild exWideHost id exDisk with
    | .ok st => st
    | .error _ => ⟨[], ⟨[], []⟩, Graph.empty⟩⟩

def exLostWrite : Request := .write "c.firm".toList "W".toList false

/-- The server after the write. -/
def exLost : Server := (exWideServer.outcome exWideHost id exLostWrite).1

theorem exLost_field (d : FsTree) (h : Has d ["w".toList, "c.firm".toList] (.file (some "W".toList))) :
    CrashField exWideHost d :=
  ⟨["c.firm".toList], "W".toList, ⟨⟨[], "c.firm".toList, rfl, isFirmFile_iff.1 (by decide)⟩, h⟩, _, .head _, rfl, _, .head _, _,
    rfl, .leaf (by decide) (.text ((between_iff _ _).2 ⟨by decide, by decide⟩) exWide_splits)⟩

/-- C138: a write without force that crashes is not undone — the file is there, nothing serves it, later builds and writes
crash too, and only deleting the file mends it. -/
theorem C138_kept : Serves exWideHost exWideServer ∧
    (exWideServer.outcome exWideHost id exLostWrite).2 = .lost ∧ ¬ Serves exWideHost exLost ∧
    Has exLost.disk ["w".toList, "c.firm".toList] (.file (some "W".toList)) ∧
    (exLost.outcome exWideHost id .build).2 = .lost ∧
    (exLost.outcome exWideHost id (.write "b.firm".toList "B".toList true)).2 = .lost ∧
    (exLost.outcome exWideHost id (.delete "c.firm".toList false)).2 = .reply .success := by
  have hlost : (exWideServer.outcome exWideHost id exLostWrite).2 = .lost := by decide +kernel
  have hhas : Has exLost.disk ["w".toList, "c.firm".toList] (.file (some "W".toList)) := by
    rcases (C138_lost exWideHost exHost_ws id (fun w => .refl w) exWideServer exDisk_wf exLostWrite hlost).2 with
      ⟨_, _, _, _, _, _, h, _⟩ | ⟨_, h⟩
    · cases h
    · exact h.2
  refine ⟨?_, hlost, C138_unserved _ _ (exLost_field _ hhas), hhas, by decide +kernel, by decide +kernel, by decide +kernel⟩
  have h : rebuild exWideHost id exDisk = .ok exWideServer.state := by
    unfold exWideServer
    cases hr : rebuild exWideHost id exDisk with
    | ok st => rfl
    | error e =>
      have : (match rebuild exWideHost id exDisk with | .ok _ => true | .error _ => false) = true := by decide +kernel
      rw [hr] at this
      cases this
  exact rebuild_serves exDisk_wf exHost_ws (fun w => .refl w) h

example : CrashField exWideHost (exWideServer.outcome exWideHost id exLostWrite).1.disk := exLost_field _ C138_kept.2.2.2.1

example : Course exWideHost exWideServer exLost := .next (order := id) (.start _) fun w => .refl w

end Firm
