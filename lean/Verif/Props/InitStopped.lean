import Verif.Model.InitStopped
import Verif.Props.NewWorkspace
import Verif.Props.Interrupted

/-!
# Setting up that is stopped (C139)
-/

namespace Firm
open Spec

/-! ## Lists of calls -/

theorem runOps_append (d : FsTree) (ops ops' : List FsOp) : runOps d (ops ++ ops') = runOps (runOps d ops) ops' := by
  induction ops generalizing d with
  | nil => rfl
  | cons op ops ih => exact ih _

theorem stopsAt_append {d d' : FsTree} {ops ops' : List FsOp} (h : StopsAt d (ops ++ ops') d') :
    StopsAt d ops d' ∨ StopsAt (runOps d ops) ops' d' := by
  induction ops generalizing d with
  | nil => exact .inr h
  | cons op ops ih =>
    cases h with
    | here => exact .inl (.here _ _)
    | inside k => exact .inl (.inside _ _ _ _)
    | later h => exact (ih h).imp .later id

theorem stopsAt_run (d : FsTree) (ops : List FsOp) : StopsAt d ops (runOps d ops) := by
  induction ops generalizing d with
  | nil => exact .here _ _
  | cons op ops ih => exact .later (ih _)

theorem stopsAt_one {d d' : FsTree} {op : FsOp} (h : StopsAt d [op] d') :
    d' = d ∨ (∃ k, d' = op.cut d k) ∨ d' = (op.run d).getD d := by
  cases h with
  | here => exact .inl rfl
  | inside k => exact .inr (.inl ⟨_, rfl⟩)
  | later h => exact .inr (.inr (stopsAt_nil h))

/-! ## Parts of the command -/

/-- A file that was being written when the command stopped: its place, what was there, what will be there and what is there. -/
inductive CutFile (S : Shell) (template : Str) (log : List (Question × Bool)) (as : List Answer) :
    List Str → Option FsTree → Option FsTree → Option FsTree → Prop
  | schema (sc u t) : sc ∈ defaultSchemas S.lang → (.schemas, true) ∈ log → (u = none ∨ (.overwriteSchemas, true) ∈ log) →
      Begun (generateSchema .default sc) t →
      CutFile S template log as (schemaPlace S.ws sc.entityType) u (some (.file (some (generateSchema .default sc)))) (some (.file t))
  | created (t) : (.createGitignore, true) ∈ log → Begun gitignoreEntries t →
      CutFile S template log as (S.ws ++ [".gitignore".toList]) none (some (.file (some gitignoreEntries))) (some (.file t))
  | extended (old more t) : gitignoreAppended old = some more → (.updateGitignore, true) ∈ log → Begun more t →
      CutFile S template log as (S.ws ++ [".gitignore".toList]) (some (.file (some old))) (some (.file (some (old ++ more))))
        (some (.file (t.map (old ++ ·))))
  | main (u person org t) : (.entities, true) ∈ log → (u = none ∨ (.overwriteMain, true) ∈ log) → Answer.text person ∈ as →
      Answer.text org ∈ as → Begun (mainText S person org) t →
      CutFile S template log as (S.ws ++ ["main.firm".toList]) u (some (.file (some (mainText S person org)))) (some (.file t))
  | context (u t) : (.context, true) ∈ log → (u = none ∨ (.overwriteContext, true) ∈ log) → Begun template t →
      CutFile S template log as (S.ws ++ ["AGENTS.md".toList]) u (some (.file (some template))) (some (.file t))

theorem CutFile.mono {S : Shell} {template : Str} {log log' : List (Question × Bool)} {as as' : List Answer} {l : List Str}
    {u v w : Option FsTree} (h : CutFile S template log as l u v w) (hl : ∀ q ∈ log, q ∈ log') (ha : ∀ a ∈ as, a ∈ as') :
    CutFile S template log' as' l u v w := by
  cases h with
  | schema sc _ t h1 h0 h2 h3 => exact .schema _ _ _ h1 (hl _ h0) (h2.imp id (hl _)) h3
  | created t h h3 => exact .created _ (hl _ h) h3
  | extended old more t h1 h2 h3 => exact .extended _ _ _ h1 (hl _ h2) h3
  | main _ p o t h0 h1 h2 h3 h4 => exact .main _ _ _ _ (hl _ h0) (h1.imp id (hl _)) (ha _ h2) (ha _ h3) h4
  | context _ t h0 h h3 => exact .context _ _ (hl _ h0) (h.imp id (hl _)) h3

/-- A part of the command with its calls. -/
structure StopPart (S : Shell) (template : Str) (own : List Str → Prop) (s t : InitState) (ops : List FsOp) : Prop where
  answers : ∀ a ∈ t.answers, a ∈ s.answers
  log : ∀ q ∈ s.log, q ∈ t.log
  finish : runOps s.disk ops = t.disk
  wf : WellFormed s.disk → ∀ d, StopsAt s.disk ops d → WellFormed d
  rest : ∀ d, StopsAt s.disk ops d → ∀ l, ¬ own l → leafAt d l = leafAt s.disk l
  stop : ∀ d, StopsAt s.disk ops d → ∃ p, ∀ l, leafAt d l = leafAt s.disk l ∨ leafAt d l = leafAt t.disk l ∨
    (l = p ∧ CutFile S template t.log s.answers l (leafAt s.disk l) (leafAt t.disk l) (leafAt d l))

theorem StopPart.mono {S : Shell} {template : Str} {own own' : List Str → Prop} {s t : InitState} {ops : List FsOp}
    (h : StopPart S template own s t ops) (ho : ∀ l, own l → own' l) : StopPart S template own' s t ops :=
  ⟨h.answers, h.log, h.finish, h.wf, fun d hd l hl => h.rest d hd l fun hh => hl (ho l hh), h.stop⟩

/-- Without calls. -/
theorem StopPart.none {S : Shell} {template : Str} (own : List Str → Prop) {s t : InitState} (ha : ∀ a ∈ t.answers, a ∈ s.answers)
    (hl : ∀ q ∈ s.log, q ∈ t.log) (hd : t.disk = s.disk) : StopPart S template own s t [] :=
  ⟨ha, hl, hd.symm, fun w _ h => stopsAt_nil h ▸ w, fun _ h _ _ => by rw [stopsAt_nil h],
    fun _ h => ⟨[], fun _ => .inl (by rw [stopsAt_nil h])⟩⟩

theorem StopPart.refl {S : Shell} {template : Str} (own : List Str → Prop) (s : InitState) : StopPart S template own s s [] :=
  .none own (fun _ h => h) (fun _ h => h) rfl

/-- Other answers are left. -/
theorem StopPart.left {S : Shell} {template : Str} {own : List Str → Prop} {s t t' : InitState} {ops : List FsOp}
    (h : StopPart S template own s t ops) (ha : ∀ a ∈ t'.answers, a ∈ s.answers) (hd : t'.disk = t.disk) (hl : t'.log = t.log) :
    StopPart S template own s t' ops :=
  ⟨ha, hl ▸ h.log, hd ▸ h.finish, h.wf, h.rest, by rw [hd, hl]; exact h.stop⟩

/-- One part after the other, at different places. -/
theorem StopPart.trans {S : Shell} {template : Str} {own own' : List Str → Prop} {s t u : InitState} {ops ops' : List FsOp}
    (h : StopPart S template own s t ops) (h' : StopPart S template own' t u ops') (hd : ∀ l, own l → own' l → False) :
    StopPart S template (fun l => own l ∨ own' l) s u (ops ++ ops') := by
  have hrest : ∀ l, ¬ own l → leafAt t.disk l = leafAt s.disk l := fun l hl =>
    h.finish ▸ h.rest _ (stopsAt_run _ _) l hl
  have hrest' : ∀ l, ¬ own' l → leafAt u.disk l = leafAt t.disk l := fun l hl =>
    h'.finish ▸ h'.rest _ (stopsAt_run _ _) l hl
  have hsp : ∀ {d}, StopsAt s.disk (ops ++ ops') d → StopsAt s.disk ops d ∨ StopsAt t.disk ops' d := fun hh =>
    h.finish ▸ stopsAt_append hh
  refine ⟨fun a ha => h.answers a (h'.answers a ha), fun q hq => h'.log q (h.log q hq), ?_, fun w d hs => ?_, fun d hs l hl => ?_,
    fun d hs => ?_⟩
  · rw [runOps_append, h.finish, h'.finish]
  · rcases hsp hs with hs | hs
    · exact h.wf w d hs
    · exact h'.wf (h.finish ▸ h.wf w _ (stopsAt_run _ _)) d hs
  · rcases hsp hs with hs | hs
    · exact h.rest d hs l fun hh => hl (.inl hh)
    · rw [h'.rest d hs l fun hh => hl (.inr hh), hrest l fun hh => hl (.inl hh)]
  · rcases hsp hs with hs | hs
    · obtain ⟨p, hp⟩ := h.stop d hs
      refine ⟨p, fun l => ?_⟩
      by_cases hl : own l
      · rw [hrest' l (hd l hl)]
        rcases hp l with hw | hw | ⟨rfl, hw⟩
        · exact .inl hw
        · exact .inr (.inl hw)
        · exact .inr (.inr ⟨rfl, hw.mono h'.log fun _ h => h⟩)
      · exact .inl (h.rest d hs l hl)
    · obtain ⟨p, hp⟩ := h'.stop d hs
      refine ⟨p, fun l => ?_⟩
      by_cases hl : own' l
      · rw [← hrest l fun hh => hd l hh hl]
        rcases hp l with hw | hw | ⟨rfl, hw⟩
        · exact .inl hw
        · exact .inr (.inl hw)
        · exact .inr (.inr ⟨rfl, hw.mono (fun _ h => h) h.answers⟩)
      · exact .inr (.inl (by rw [h'.rest d hs l hl, hrest' l hl]))

/-- A question before a part. -/
theorem stopPart_confirm {S : Shell} {template : Str} {own : List Str → Prop} (s : InitState) (q : Question)
    (k : Bool → InitState → InitState × Bool) (kOps : Bool → InitState → List FsOp)
    (hk : ∀ b rest, (∀ a ∈ rest, a ∈ s.answers) → StopPart S template own ⟨s.disk, rest, s.log ++ [(q, b)]⟩
      (k b ⟨s.disk, rest, s.log ++ [(q, b)]⟩).1 (kOps b ⟨s.disk, rest, s.log ++ [(q, b)]⟩)) :
    StopPart S template own s (s.confirm q k).1 (s.confirmOps q kOps) := by
  unfold InitState.confirm InitState.confirmOps
  rcases h : ask false (takeConfirm q.default) s.answers with _ | ⟨_ | b, rest⟩
  · exact .refl _ _
  · exact .refl _ _
  · have ha := (ask_mem h).2
    have h1 : StopPart S template (fun _ => False) s ⟨s.disk, rest, s.log ++ [(q, b)]⟩ [] :=
      .none _ ha (fun q hq => List.mem_append_left _ hq) rfl
    exact (h1.trans (hk b rest ha) (fun _ h _ => h)).mono fun l hl => hl.elim False.elim id

theorem stopPart_then {S : Shell} {template : Str} {own own' : List Str → Prop} {s : InitState} {r : InitState × Bool}
    {ops : List FsOp} {f : InitState → InitState × Bool} {fOps : InitState → List FsOp}
    (h : StopPart S template own s r.1 ops) (hf : StopPart S template own' r.1 (f r.1).1 (fOps r.1))
    (hd : ∀ l, own l → own' l → False) :
    StopPart S template (fun l => own l ∨ own' l) s (initThen r f).1 (thenOps ops r fOps) := by
  unfold initThen thenOps
  cases r.2 with
  | false =>
    rw [if_neg (by simp), if_neg (by simp), List.append_nil]
    exact h.mono fun l hl => .inl hl
  | true =>
    rw [if_pos rfl, if_pos rfl]
    exact h.trans hf hd

theorem stopPart_if {S : Shell} {template : Str} {own : List Str → Prop} {s : InitState} {b : Bool} {r : InitState × Bool}
    {ops : List FsOp} (h : b = true → StopPart S template own s r.1 ops) :
    StopPart S template own s (if b then r else (s, true)).1 (if b then ops else []) := by
  cases b with
  | true => exact h rfl
  | false => exact .refl _ _

/-- A file is written. -/
theorem stopPart_write {S : Shell} {template : Str} (s : InitState) (p : List Str) (n text : Str)
    (hv : ∀ m ∈ p ++ [n], ValidName m)
    (hc : ∀ t, Begun text t → CutFile S template s.log s.answers (p ++ [n]) (leafAt s.disk (p ++ [n]))
      (some (.file (some text))) (some (.file t))) :
    StopPart S template (fun l => l = p ++ [n]) s (s.write (p ++ [n]) text).1 [.write (p ++ [n]) text] := by
  unfold InitState.write
  cases h : s.disk.writeFile (p ++ [n]) text with
  | none =>
    have hsame : ∀ d, StopsAt s.disk [.write (p ++ [n]) text] d → d = s.disk := by
      intro d hd
      rcases stopsAt_one hd with e | ⟨k, e⟩ | e
      · exact e
      · rw [e, FsOp.cut, h]
      · rw [e, FsOp.run, h]; rfl
    refine ⟨fun _ h => h, fun _ h => h, ?_, fun w d hd => hsame d hd ▸ w, fun d hd l _ => by rw [hsame d hd],
      fun d hd => ⟨[], fun l => .inl (by rw [hsame d hd])⟩⟩
    rw [runOps, FsOp.run, h]
    rfl
  | some d1 =>
    obtain ⟨h1, -, h3, -⟩ := writeFile_spec h
    have key : ∀ d, StopsAt s.disk [.write (p ++ [n]) text] d → d = s.disk ∨
        ∃ t, Begun text t ∧ d = s.disk.place (p ++ [n]) (.file t) := by
      intro d hd
      rcases stopsAt_one hd with e | ⟨k, e⟩ | e
      · exact .inl e
      · rw [FsOp.cut, h] at e
        exact .inr ⟨_, firstBytes_begun k text, e⟩
      · rw [FsOp.run, h, Option.getD_some, h1] at e
        exact .inr ⟨_, begun_all text, e⟩
    obtain ⟨es, k1, k2⟩ := writeFile_parent h
    have hleaf : ∀ t, LeafSet s.disk (s.disk.place (p ++ [n]) (.file t)) (p ++ [n]) (some (.file t)) := fun t =>
      leafAt_place k1 k2
    refine ⟨fun _ h => h, fun _ h => h, ?_, fun w d hd => ?_, fun d hd l hl => ?_, fun d hd => ⟨p ++ [n], fun l => ?_⟩⟩
    · rw [runOps, FsOp.run, h]; rfl
    · rcases key d hd with rfl | ⟨t, -, rfl⟩
      · exact w
      · exact wf_place w (.file _) hv
    · rcases key d hd with rfl | ⟨t, -, rfl⟩
      · rfl
      · rw [hleaf t l, if_neg hl]
    · rcases key d hd with rfl | ⟨t, ht, rfl⟩
      · exact .inl rfl
      · by_cases hl : l = p ++ [n]
        · subst hl
          refine .inr (.inr ⟨rfl, ?_⟩)
          rw [hleaf t, if_pos rfl]
          show CutFile _ _ _ _ _ _ (leafAt d1 _) _
          rw [h3, if_pos rfl]
          exact hc t ht
        · exact .inl (by rw [hleaf t l, if_neg hl])

/-! ## The schemas -/

theorem stopPart_writeSchemas {S : Shell} (template : Str) (hL : PlainCase S.lang) (hws : ∀ n ∈ S.ws, ValidName n) :
    ∀ (scs : List EntitySchema) (s : InitState), (∀ sc ∈ scs, sc ∈ defaultSchemas S.lang) → (scs.map (·.entityType)).Nodup →
    (.schemas, true) ∈ s.log →
    (∀ sc ∈ scs, leafAt s.disk (schemaPlace S.ws sc.entityType) = none ∨ (.overwriteSchemas, true) ∈ s.log) →
    StopPart S template (fun l => ∃ sc ∈ scs, l = schemaPlace S.ws sc.entityType) s (writeSchemas S.ws scs s).1
      (writeSchemasOps S.ws scs s)
  | [], s, _, _, _, _ => .refl _ _
  | sc :: scs, s, hsc, hn, hq, ho => by
    rw [List.map_cons, List.nodup_cons] at hn
    have hne : ∀ c ∈ scs, schemaPlace S.ws c.entityType ≠ schemaPlace S.ws sc.entityType := fun c hc he =>
      hn.1 (schemaPlace_inj he ▸ List.mem_map_of_mem hc)
    unfold writeSchemas writeSchemasOps
    have h1 : StopPart S template (fun l => l = schemaPlace S.ws sc.entityType) s
        (s.write (schemaPlace S.ws sc.entityType) (generateSchema .default sc)).1
        [.write (schemaPlace S.ws sc.entityType) (generateSchema .default sc)] :=
      stopPart_write s (S.ws ++ ["schemas".toList]) (sc.entityType ++ ".firm".toList) _
        (schemaPlace_valid hL hws (hsc sc List.mem_cons_self))
        fun t ht => .schema sc _ t (hsc sc List.mem_cons_self) hq (ho sc List.mem_cons_self) ht
    refine (stopPart_then h1 (stopPart_writeSchemas template hL hws scs _ (fun c hc => hsc c (List.mem_cons_of_mem _ hc)) hn.2
      (h1.log _ hq) fun c hc => ?_) ?_).mono ?_
    · rw [← h1.finish, h1.rest _ (stopsAt_run _ _) _ (hne c hc)]
      exact (ho c (List.mem_cons_of_mem _ hc)).imp id (h1.log _)
    · rintro l rfl ⟨c, hc, he⟩
      exact hne c hc he.symm
    · rintro l (rfl | ⟨c, hc, rfl⟩)
      · exact ⟨sc, List.mem_cons_self, rfl⟩
      · exact ⟨c, List.mem_cons_of_mem _ hc, rfl⟩

theorem stopPart_mkdirs {S : Shell} {template : Str} (s : InitState) {q : List Str} (hq : ∀ m ∈ q, ValidName m) {d1 : FsTree}
    (h : s.disk.createDirAll q = some d1) :
    StopPart S template (fun _ => False) s ⟨d1, s.answers, s.log⟩ [.mkdirs q] := by
  have key : ∀ d, StopsAt s.disk [.mkdirs q] d → (WellFormed s.disk → WellFormed d) ∧ ∀ l, leafAt d l = leafAt s.disk l := by
    intro d hd
    rcases stopsAt_one hd with e | ⟨k, e⟩ | e
    · rw [e]; exact ⟨id, fun _ => rfl⟩
    · rw [FsOp.cut, h] at e
      dsimp only at e
      cases h' : s.disk.createDirAll (q.take k) with
      | none => rw [h'] at e; rw [e]; exact ⟨id, fun _ => rfl⟩
      | some d2 =>
        rw [h'] at e
        rw [e]
        exact ⟨fun w => wf_createDirAll w (fun m hm => hq m (List.mem_of_mem_take hm)) h', leafAt_createDirAll h'⟩
    · rw [FsOp.run, h] at e
      rw [e]
      exact ⟨fun w => wf_createDirAll w hq h, leafAt_createDirAll h⟩
  refine ⟨fun _ h => h, fun _ h => h, ?_, fun w d hd => (key d hd).1 w, fun d hd l _ => (key d hd).2 l,
    fun d hd => ⟨[], fun l => .inl ((key d hd).2 l)⟩⟩
  rw [runOps, FsOp.run, h]
  rfl

theorem stopPart_makeSchemas {S : Shell} (template : Str) (hL : PlainCase S.lang) (hws : ∀ n ∈ S.ws, ValidName n) (s : InitState)
    (hq : (.schemas, true) ∈ s.log)
    (ho : ∀ sc ∈ defaultSchemas S.lang, leafAt s.disk (schemaPlace S.ws sc.entityType) = none ∨ (.overwriteSchemas, true) ∈ s.log) :
    StopPart S template (IsSchemaPlace S) s (makeSchemas S s).1 (makeSchemasOps S s) := by
  unfold makeSchemas makeSchemasOps
  have hv : ∀ m ∈ S.ws ++ ["schemas".toList], ValidName m := initPlace_valid hws ⟨by decide, by decide, by decide, by decide⟩
  cases hc : s.disk.createDirAll (S.ws ++ ["schemas".toList]) with
  | none =>
    have hsame : ∀ d, StopsAt s.disk [.mkdirs (S.ws ++ ["schemas".toList])] d → d = s.disk := by
      intro d hd
      rcases stopsAt_one hd with e | ⟨k, e⟩ | e
      · exact e
      · rw [e, FsOp.cut, hc]
      · rw [e, FsOp.run, hc]; rfl
    refine ⟨fun _ h => h, fun _ h => h, ?_, fun w d hd => hsame d hd ▸ w, fun d hd l _ => by rw [hsame d hd],
      fun d hd => ⟨[], fun l => .inl (by rw [hsame d hd])⟩⟩
    rw [runOps, FsOp.run, hc]
    rfl
  | some d =>
    have h1 := stopPart_mkdirs (S := S) (template := template) s hv hc
    refine (h1.trans (stopPart_writeSchemas template hL hws (defaultSchemas S.lang) ⟨d, s.answers, s.log⟩ (fun _ h => h)
      (C107_types hL).2.1 hq fun sc hsc => ?_) (fun _ h _ => h)).mono fun l hl => hl.elim False.elim id
    show leafAt d _ = none ∨ _
    rw [leafAt_createDirAll hc]
    exact ho sc hsc

theorem stopPart_schemas {S : Shell} (template : Str) (hL : PlainCase S.lang) (hws : ∀ n ∈ S.ws, ValidName n) (s : InitState)
    (hq : (.schemas, true) ∈ s.log) :
    StopPart S template (IsSchemaPlace S) s (createDefaultSchemas S s).1 (createDefaultSchemasOps S s) := by
  unfold createDefaultSchemas createDefaultSchemasOps
  split
  · refine stopPart_confirm s .overwriteSchemas _ _ fun b rest _ => stopPart_if fun hb => ?_
    subst hb
    exact stopPart_makeSchemas template hL hws _ (List.mem_append_left _ hq) fun _ _ =>
      .inr (List.mem_append_right _ (List.mem_singleton.2 rfl))
  · next hany =>
    refine stopPart_makeSchemas template hL hws s hq fun sc hsc => .inl (leafAt_none_of_lookup fun hs => hany ?_)
    rw [List.any_eq_true]
    exact ⟨sc, hsc, hs⟩

/-! ## The other parts -/

theorem stopPart_append {S : Shell} {template : Str} (s : InitState) (p : List Str) (n old more : Str)
    (hv : ∀ m ∈ p ++ [n], ValidName m) (hr : s.disk.readText (p ++ [n]) = some old)
    (hc : ∀ t, Begun more t → CutFile S template s.log s.answers (p ++ [n]) (leafAt s.disk (p ++ [n]))
      (some (.file (some (old ++ more)))) (some (.file (t.map (old ++ ·))))) :
    StopPart S template (fun l => l = p ++ [n]) s (s.write (p ++ [n]) (old ++ more)).1 [.append (p ++ [n]) more] := by
  unfold InitState.write
  have hrun : FsOp.run s.disk (.append (p ++ [n]) more) = s.disk.writeFile (p ++ [n]) (old ++ more) := by
    rw [FsOp.run, hr, Option.getD_some]
  cases h : s.disk.writeFile (p ++ [n]) (old ++ more) with
  | none =>
    have hsame : ∀ d, StopsAt s.disk [.append (p ++ [n]) more] d → d = s.disk := by
      intro d hd
      rcases stopsAt_one hd with e | ⟨k, e⟩ | e
      · exact e
      · rw [e, FsOp.cut, hr, Option.getD_some, h]
      · rw [e, hrun, h]; rfl
    refine ⟨fun _ h => h, fun _ h => h, ?_, fun w d hd => hsame d hd ▸ w, fun d hd l _ => by rw [hsame d hd],
      fun d hd => ⟨[], fun l => .inl (by rw [hsame d hd])⟩⟩
    rw [runOps, hrun, h]
    rfl
  | some d1 =>
    obtain ⟨h1, -, h3, -⟩ := writeFile_spec h
    have key : ∀ d, StopsAt s.disk [.append (p ++ [n]) more] d → d = s.disk ∨
        ∃ t, Begun more t ∧ d = s.disk.place (p ++ [n]) (.file (t.map (old ++ ·))) := by
      intro d hd
      rcases stopsAt_one hd with e | ⟨k, e⟩ | e
      · exact .inl e
      · rw [FsOp.cut, hr, Option.getD_some, h] at e
        exact .inr ⟨_, firstBytes_begun k more, e⟩
      · rw [hrun, h, Option.getD_some, h1] at e
        exact .inr ⟨_, begun_all more, e⟩
    obtain ⟨es, k1, k2⟩ := writeFile_parent h
    have hleaf : ∀ t, LeafSet s.disk (s.disk.place (p ++ [n]) (.file t)) (p ++ [n]) (some (.file t)) := fun t =>
      leafAt_place k1 k2
    refine ⟨fun _ h => h, fun _ h => h, ?_, fun w d hd => ?_, fun d hd l hl => ?_, fun d hd => ⟨p ++ [n], fun l => ?_⟩⟩
    · rw [runOps, hrun, h]; rfl
    · rcases key d hd with rfl | ⟨t, -, rfl⟩
      · exact w
      · exact wf_place w (.file _) hv
    · rcases key d hd with rfl | ⟨t, -, rfl⟩
      · rfl
      · rw [hleaf _ l, if_neg hl]
    · rcases key d hd with rfl | ⟨t, ht, rfl⟩
      · exact .inl rfl
      · by_cases hl : l = p ++ [n]
        · subst hl
          refine .inr (.inr ⟨rfl, ?_⟩)
          rw [hleaf _, if_pos rfl]
          show CutFile _ _ _ _ _ _ (leafAt d1 _) _
          rw [h3, if_pos rfl]
          exact hc t ht
        · exact .inl (by rw [hleaf _ l, if_neg hl])

theorem stopPart_gitignore {S : Shell} (template : Str) (hws : ∀ n ∈ S.ws, ValidName n) (s : InitState) :
    StopPart S template (fun l => l = S.ws ++ [".gitignore".toList]) s (updateGitignore S s).1 (updateGitignoreOps S s) := by
  have hv := initPlace_valid hws validName_gitignore
  unfold updateGitignore updateGitignoreOps
  split
  · refine stopPart_confirm s .updateGitignore _ _ fun b rest _ => stopPart_if fun hb => ?_
    subst hb
    unfold extendGitignore extendGitignoreOps
    dsimp only
    cases hr : s.disk.readText (S.ws ++ [".gitignore".toList]) with
    | none => exact .refl _ _
    | some old =>
      dsimp only
      cases ha : gitignoreAppended old with
      | none => exact .refl _ _
      | some more =>
        refine stopPart_append _ S.ws _ old more hv hr fun t ht => ?_
        dsimp only
        rw [readText_leaf.1 hr]
        exact .extended _ _ _ ha (List.mem_append_right _ (List.mem_singleton.2 rfl)) ht
  · next hex =>
    refine stopPart_confirm s .createGitignore _ _ fun b rest _ => stopPart_if fun hb => ?_
    subst hb
    refine stopPart_write _ S.ws _ _ hv fun t ht => ?_
    dsimp only
    rw [leafAt_none_of_lookup hex]
    exact .created _ (List.mem_append_right _ (List.mem_singleton.2 rfl)) ht

theorem stopPart_makeEntities {S : Shell} (template : Str) (hws : ∀ n ∈ S.ws, ValidName n) (s : InitState)
    (hq : (.entities, true) ∈ s.log)
    (ho : leafAt s.disk (S.ws ++ ["main.firm".toList]) = none ∨ (.overwriteMain, true) ∈ s.log) :
    StopPart S template (fun l => l = S.ws ++ ["main.firm".toList]) s (makeEntities S s).1 (makeEntitiesOps S s) := by
  unfold makeEntities makeEntitiesOps InitState.enter InitState.enterOps
  have htext : ∀ {as rest : List Answer} {t : Str}, ask false (takeText some) as = some (some t, rest) →
      Answer.text t ∈ as ∧ ∀ a ∈ rest, a ∈ as := by
    intro as rest t h
    obtain ⟨⟨a, ha, hv⟩, h2⟩ := ask_mem h
    refine ⟨?_, h2⟩
    unfold takeText at hv
    split at hv
    · cases hv; exact ha
    · cases hv
  rcases h : ask false (takeText some) s.answers with _ | ⟨_ | person, rest⟩
  · exact .refl _ _
  · exact .refl _ _
  · obtain ⟨hp, hr⟩ := htext h
    dsimp only
    rcases h' : ask false (takeText some) rest with _ | ⟨_ | org, rest'⟩
    · exact .none _ hr (fun _ h => h) rfl
    · exact .none _ hr (fun _ h => h) rfl
    · obtain ⟨hp', hr'⟩ := htext h'
      dsimp only
      have hw := stopPart_write (S := S) (template := template) s S.ws "main.firm".toList (mainText S person org)
        (initPlace_valid hws validName_main) fun t ht => .main _ _ _ _ hq ho hp (hr _ hp') ht
      refine hw.left ?_ ?_ ?_
      all_goals
        unfold InitState.write
        try unfold mainText
        dsimp only
        cases s.disk.writeFile (S.ws ++ ["main.firm".toList])
          (generateDsl S.lang .default [initEntity S "person" person, initEntity S "organization" org]) <;>
        first | exact fun a ha => hr a (hr' a ha) | rfl

theorem stopPart_entities {S : Shell} (template : Str) (hws : ∀ n ∈ S.ws, ValidName n) (s : InitState)
    (hq : (.entities, true) ∈ s.log) :
    StopPart S template (fun l => l = S.ws ++ ["main.firm".toList]) s (createDefaultEntities S s).1
      (createDefaultEntitiesOps S s) := by
  unfold createDefaultEntities createDefaultEntitiesOps
  split
  · refine stopPart_confirm s .overwriteMain _ _ fun b rest _ => stopPart_if fun hb => ?_
    subst hb
    exact stopPart_makeEntities template hws _ (List.mem_append_left _ hq) (.inr (List.mem_append_right _ (List.mem_singleton.2 rfl)))
  · next hex => exact stopPart_makeEntities template hws s hq (.inl (leafAt_none_of_lookup hex))

theorem stopPart_context {S : Shell} (template : Str) (hws : ∀ n ∈ S.ws, ValidName n) (s : InitState)
    (hq : (.context, true) ∈ s.log) :
    StopPart S template (fun l => l = S.ws ++ ["AGENTS.md".toList]) s (createContext S template s).1
      (createContextOps S template s) := by
  have hv := initPlace_valid hws validName_agents
  unfold createContext createContextOps
  split
  · refine stopPart_confirm s .overwriteContext _ _ fun b rest _ => stopPart_if fun hb => ?_
    subst hb
    exact stopPart_write _ S.ws _ _ hv fun t ht => .context _ _ (List.mem_append_left _ hq)
      (.inr (List.mem_append_right _ (List.mem_singleton.2 rfl))) ht
  · next hex => exact stopPart_write _ S.ws _ _ hv fun t ht => .context _ _ hq (.inl (leafAt_none_of_lookup hex)) ht

/-- The whole command. -/
theorem stopPart_init {S : Shell} (template : Str) (hL : PlainCase S.lang) (hws : ∀ n ∈ S.ws, ValidName n) (s : InitState) :
    StopPart S template (fun _ => True) s (initWorkspace S template s).1 (initOps S template s) := by
  unfold initWorkspace initOps
  refine stopPart_confirm s .schemas _ _ fun b rest _ => ?_
  have hb : (Question.schemas, b) ∈ s.log ++ [(Question.schemas, b)] := List.mem_append_right _ (List.mem_singleton.2 rfl)
  refine (stopPart_then (own' := fun l => l = S.ws ++ [".gitignore".toList] ∨ l = S.ws ++ ["main.firm".toList] ∨
    l = S.ws ++ ["AGENTS.md".toList]) (stopPart_if fun h => stopPart_schemas template hL hws _ (h ▸ hb)) ?_ ?_).mono
      (fun _ _ => trivial)
  · refine (stopPart_then (own' := fun l => l = S.ws ++ ["main.firm".toList] ∨ l = S.ws ++ ["AGENTS.md".toList])
      (stopPart_gitignore template hws _) (stopPart_confirm _ .entities _ _ fun b rest _ => ?_) ?_)
    · refine stopPart_then (stopPart_if fun h => stopPart_entities template hws _ ?_)
        (stopPart_confirm _ .context _ _ fun b rest _ => stopPart_if fun h => stopPart_context template hws _ ?_) ?_
      · exact List.mem_append_right _ (by rw [h]; exact List.mem_singleton.2 rfl)
      · exact List.mem_append_right _ (by rw [h]; exact List.mem_singleton.2 rfl)
      · rintro l rfl h
        exact main_ne_agents _ h
    · rintro l rfl (h | h)
      · exact gitignore_ne_main _ h
      · exact gitignore_ne_agents _ h
  · rintro l ⟨sc, -, rfl⟩ (h | h | h) <;> exact schemaPlace_ne _ _ _ h

/-! ## C139 -/

section
variable {S : Shell} {template : Str} {d d' : FsTree} {as : List Answer}

/-- C139: the calls are those of the command: after the last one the disk is the one of C105. -/
theorem C139_end (hL : PlainCase S.lang) (hws : ∀ n ∈ S.ws, ValidName n) :
    StopsAt d (initOps S template ⟨d, as, []⟩) (initWorkspace S template ⟨d, as, []⟩).1.disk :=
  (stopPart_init template hL hws ⟨d, as, []⟩).finish ▸ stopsAt_run _ _

/-- C139: wherever the command stops, every file is as before or as at the end, but for one at most, which will be a text and
holds a beginning of it. -/
theorem C139_between (hL : PlainCase S.lang) (hws : ∀ n ∈ S.ws, ValidName n) (hd : WellFormed d)
    (h : StopsAt d (initOps S template ⟨d, as, []⟩) d') :
    WellFormed d' ∧ ∃ p, ∀ loc, SameAt d d' loc ∨ SameAt (initWorkspace S template ⟨d, as, []⟩).1.disk d' loc ∨
      loc = p ∧ ∃ text t, Has (initWorkspace S template ⟨d, as, []⟩).1.disk loc (.file (some text)) ∧ Has d' loc (.file t) ∧
        Begun text t := by
  have hp := stopPart_init template hL hws ⟨d, as, []⟩
  have hwf := hp.wf hd d' h
  have hwf' := init_wf hL hws hd template as
  refine ⟨hwf, ?_⟩
  obtain ⟨p, h1⟩ := hp.stop d' h
  refine ⟨p, fun loc => ?_⟩
  rcases h1 loc with h1 | h1 | ⟨hl, h1⟩
  · exact .inl (leaf_sameAt hd hwf h1)
  · exact .inr (.inl (leaf_sameAt hwf' hwf h1))
  · refine .inr (.inr ⟨hl, ?_⟩)
    have key : ∀ {text t}, some (FsTree.file (some text)) = leafAt (initWorkspace S template ⟨d, as, []⟩).1.disk loc →
        some (FsTree.file t) = leafAt d' loc → Begun text t →
        ∃ text t, Has (initWorkspace S template ⟨d, as, []⟩).1.disk loc (.file (some text)) ∧ Has d' loc (.file t) ∧
        Begun text t := fun h1 h2 h3 => ⟨_, _, leaf_has hwf' h1.symm, leaf_has hwf h2.symm, h3⟩
    generalize hv : leafAt (initWorkspace S template ⟨d, as, []⟩).1.disk loc = v at h1
    generalize hw : leafAt d' loc = w at h1
    generalize leafAt (InitState.disk ⟨d, as, []⟩) loc = u at h1
    cases h1 with
    | schema sc _ t _ _ _ hb => exact key hv.symm hw.symm hb
    | created t _ hb => exact key hv.symm hw.symm hb
    | extended old more t _ _ hb =>
      refine key hv.symm hw.symm ?_
      rcases hb with ⟨q, hq, rfl⟩ | ⟨rfl, c, hc, h2⟩
      · exact .inl ⟨old ++ q, (List.prefix_append_right_inj old).2 hq, rfl⟩
      · exact .inr ⟨rfl, c, List.mem_append_right _ hc, h2⟩
    | main _ _ _ t _ _ _ _ hb => exact key hv.symm hw.symm hb
    | context _ t _ _ hb => exact key hv.symm hw.symm hb

/-- C139: wherever the command stops, an existing file keeps its content, unless overwriting was agreed to; .gitignore keeps its
text, and what follows is a beginning of the lines that are added. -/
theorem C139_kept (hL : PlainCase S.lang) (hws : ∀ n ∈ S.ws, ValidName n) (hd : WellFormed d)
    (h : StopsAt d (initOps S template ⟨d, as, []⟩) d') {loc : List Str} {u : FsTree} (hu : NotDir u) (hh : Has d loc u) :
    Has d' loc u ∨
    SchemaFile S.ws loc ∧ (.overwriteSchemas, true) ∈ (initWorkspace S template ⟨d, as, []⟩).1.log ∨
    loc = S.ws ++ ["main.firm".toList] ∧ (.overwriteMain, true) ∈ (initWorkspace S template ⟨d, as, []⟩).1.log ∨
    loc = S.ws ++ ["AGENTS.md".toList] ∧ (.overwriteContext, true) ∈ (initWorkspace S template ⟨d, as, []⟩).1.log ∨
    loc = S.ws ++ [".gitignore".toList] ∧ (.updateGitignore, true) ∈ (initWorkspace S template ⟨d, as, []⟩).1.log ∧
      ∃ old more, u = .file (some old) ∧ Has d' loc (.file (some (old ++ more))) ∧
        (more <+: "**/*.firm.graph\n".toList ∨ more <+: "\n**/*.firm.graph\n".toList) := by
  have hp := stopPart_init template hL hws ⟨d, as, []⟩
  have hwf := hp.wf hd d' h
  have h0 : leafAt d loc = some u := has_leaf hd hu hh
  have happ : ∀ {old more : Str}, gitignoreAppended old = some more →
      more = "**/*.firm.graph\n".toList ∨ more = "\n**/*.firm.graph\n".toList := by
    intro old more hm
    have := (appended_cases old).2 more hm
    split at this
    · exact .inl this
    · exact .inr this
  obtain ⟨p, h1⟩ := hp.stop d' h
  rcases h1 loc with h1 | h1 | ⟨-, h1⟩
  · exact .inl (leaf_has hwf (h1.trans h0))
  · have ht := (init_part template hL hws ⟨d, as, []⟩).touched loc
    dsimp only at ht h1
    rw [h0, ← h1] at ht
    generalize hw : leafAt d' loc = w at ht
    generalize ho : some u = u' at ht
    cases ht with
    | same => exact .inl (leaf_has hwf (hw.trans ho.symm))
    | schema sc _ hsc _ hq =>
      rcases hq with rfl | hq
      · cases ho
      · exact .inr (.inl ⟨schemaFile_of hL hsc, hq⟩)
    | created => cases ho
    | extended old more hm hq =>
      cases ho
      refine .inr (.inr (.inr (.inr ⟨rfl, hq, old, more, rfl, leaf_has hwf hw, ?_⟩)))
      rcases happ hm with rfl | rfl
      · exact .inl (List.prefix_refl _)
      · exact .inr (List.prefix_refl _)
    | main _ _ _ _ hq =>
      rcases hq with rfl | hq
      · cases ho
      · exact .inr (.inr (.inl ⟨rfl, hq⟩))
    | context _ _ hq =>
      rcases hq with rfl | hq
      · cases ho
      · exact .inr (.inr (.inr (.inl ⟨rfl, hq⟩)))
  · dsimp only at h1
    rw [h0] at h1
    generalize hw : leafAt d' loc = w at h1
    generalize hv : leafAt (initWorkspace S template ⟨d, as, []⟩).1.disk loc = v at h1
    generalize ho : some u = u' at h1
    cases h1 with
    | schema sc _ t hsc _ hq =>
      rcases hq with rfl | hq
      · cases ho
      · exact .inr (.inl ⟨schemaFile_of hL hsc, hq⟩)
    | created => cases ho
    | extended old more t hm hq hb =>
      cases ho
      have hm' := happ hm
      rcases hb with ⟨q, hq', rfl⟩ | ⟨-, c, hc, h2⟩
      · refine .inr (.inr (.inr (.inr ⟨rfl, hq, old, q, rfl, leaf_has hwf hw, ?_⟩)))
        rcases hm' with rfl | rfl
        · exact .inl hq'
        · exact .inr hq'
      · exfalso
        have hsmall : ∀ c ∈ "\n**/*.firm.graph\n".toList, c.utf8Size = 1 := by decide
        have hc' : c ∈ "\n**/*.firm.graph\n".toList := by
          rcases hm' with rfl | rfl
          · exact List.mem_cons_of_mem _ hc
          · exact hc
        rw [hsmall c hc'] at h2
        exact absurd h2 (by decide)
    | main _ _ _ _ _ hq =>
      rcases hq with rfl | hq
      · cases ho
      · exact .inr (.inr (.inl ⟨rfl, hq⟩))
    | context _ _ _ hq =>
      rcases hq with rfl | hq
      · cases ho
      · exact .inr (.inr (.inr (.inl ⟨rfl, hq⟩)))

/-- C139: running the command again makes the schemas and main.firm complete, whatever an earlier run left, if the command ends
well, they are wanted and overwriting is not refused. -/
theorem C139_again_partial (hL : PlainCase S.lang) (hws : ∀ n ∈ S.ws, ValidName n) (hd : WellFormed d)
    (h : StopsAt d (initOps S template ⟨d, as, []⟩) d') {as' : List Answer}
    (hok : (initWorkspace S template ⟨d', as', []⟩).2 = true)
    (hq1 : (.schemas, true) ∈ (initWorkspace S template ⟨d', as', []⟩).1.log)
    (hq2 : (.entities, true) ∈ (initWorkspace S template ⟨d', as', []⟩).1.log)
    (hn1 : (.overwriteSchemas, false) ∉ (initWorkspace S template ⟨d', as', []⟩).1.log)
    (hn2 : (.overwriteMain, false) ∉ (initWorkspace S template ⟨d', as', []⟩).1.log) :
    (∀ sc ∈ defaultSchemas S.lang, Has (initWorkspace S template ⟨d', as', []⟩).1.disk
      (S.ws ++ ["schemas".toList, sc.entityType ++ ".firm".toList]) (.file (some (generateSchema .default sc)))) ∧
    ∃ person org, Answer.text person ∈ as' ∧ Answer.text org ∈ as' ∧ Has (initWorkspace S template ⟨d', as', []⟩).1.disk
      (S.ws ++ ["main.firm".toList])
      (.file (some (generateDsl S.lang .default [initEntity S "person" person, initEntity S "organization" org]))) := by
  have hwf := init_wf hL hws ((stopPart_init template hL hws ⟨d, as, []⟩).wf hd d' h) template as'
  obtain ⟨h1, p, o, hp, ho, h2⟩ := init_files hL hws hok hq1 hq2 hn1 hn2
  refine ⟨fun sc hsc => ?_, p, o, hp, ho, leaf_has hwf h2⟩
  have := leaf_has hwf (h1 sc hsc)
  unfold schemaPlace at this
  rwa [List.append_assoc] at this

/-- The part of the command that makes schemas does nothing if there is one already and yes is never answered. -/
theorem schemas_skipped {s : InitState} (hy : Answer.yes true ∉ s.answers)
    (hany : ∃ sc ∈ defaultSchemas S.lang, (s.disk.lookup (schemaPlace S.ws sc.entityType)).isSome) :
    (createDefaultSchemas S s).1.disk = s.disk := by
  unfold createDefaultSchemas
  rw [if_pos (List.any_eq_true.2 hany)]
  rcases confirm_cases s .overwriteSchemas (fun b s => if b then makeSchemas S s else (s, true)) with h | ⟨b, rest, h, hch⟩
  · rw [h]
  · rw [h]
    cases b with
    | false => rfl
    | true =>
      obtain ⟨more, h1, h2⟩ := (hch fun _ => False).log
      have hm := List.append_cancel_left h1
      rcases h2 (.overwriteSchemas, true) (hm ▸ List.mem_singleton.2 rfl) rfl with h | ⟨h, -⟩
      · exact absurd h hy
      · cases h

/-- C139: with the return key at the questions, a run on a disk that has one of the schema files makes none of the others. -/
theorem C139_skipped (hL : PlainCase S.lang) (hws : ∀ n ∈ S.ws, ValidName n) (hd : WellFormed d)
    (hy : Answer.yes true ∉ as) {t : String} (ht : t ∈ builtInTypes) {u : FsTree}
    (hu : Has d (S.ws ++ ["schemas".toList, t.toList ++ ".firm".toList]) u) {loc : List Str} (hloc : SchemaFile S.ws loc) :
    SameAt d (initWorkspace S template ⟨d, as, []⟩).1.disk loc := by
  have hwf := init_wf hL hws hd template as
  refine leaf_sameAt hd hwf ?_
  obtain ⟨t', ht', rfl⟩ := hloc
  have hne : ∀ n, S.ws ++ ["schemas".toList, t'.toList ++ ".firm".toList] ≠ S.ws ++ [n] := by
    intro n he
    have := List.append_cancel_left he
    cases this
  have hany : ∃ sc ∈ defaultSchemas S.lang, (d.lookup (schemaPlace S.ws sc.entityType)).isSome := by
    have : t.toList ∈ (defaultSchemas S.lang).map (·.entityType) := (C107_types hL).1 ▸ List.mem_map_of_mem ht
    obtain ⟨sc, hsc, he⟩ := List.mem_map.1 this
    refine ⟨sc, hsc, ?_⟩
    unfold schemaPlace
    rw [he, List.append_assoc]
    show (d.lookup (S.ws ++ ["schemas".toList, t.toList ++ ".firm".toList])).isSome = true
    rw [(has_iff_lookup hd).1 hu]
    rfl
  have ctx : ∀ s : InitState, leafAt (s.confirm .context fun b s => if b then createContext S template s else (s, true)).1.disk
      (S.ws ++ ["schemas".toList, t'.toList ++ ".firm".toList]) =
      leafAt s.disk (S.ws ++ ["schemas".toList, t'.toList ++ ".firm".toList]) := by
    intro s
    rcases confirm_cases s .context (fun b s => if b then createContext S template s else (s, true)) with h | ⟨b, rest, h, -⟩
    · rw [h]
    · rw [h]
      cases b with
      | false => rfl
      | true => exact (createContext_spec template hws _).1.rest _ (hne _)
  have thn : ∀ {r : InitState × Bool} {f : InitState → InitState × Bool},
      (∀ s, leafAt (f s).1.disk (S.ws ++ ["schemas".toList, t'.toList ++ ".firm".toList]) =
        leafAt s.disk (S.ws ++ ["schemas".toList, t'.toList ++ ".firm".toList])) →
      leafAt (initThen r f).1.disk (S.ws ++ ["schemas".toList, t'.toList ++ ".firm".toList]) =
        leafAt r.1.disk (S.ws ++ ["schemas".toList, t'.toList ++ ".firm".toList]) := by
    intro r f hf
    rcases initThen_cases r f with ⟨-, h⟩ | ⟨-, h⟩
    · rw [h]
    · rw [h, hf]
  unfold initWorkspace
  rcases confirm_cases ⟨d, as, []⟩ .schemas (fun b s =>
    initThen (if b then createDefaultSchemas S s else (s, true)) fun s =>
      initThen (updateGitignore S s) fun s =>
        s.confirm .entities fun b s =>
          initThen (if b then createDefaultEntities S s else (s, true)) fun s =>
            s.confirm .context fun b s => if b then createContext S template s else (s, true)) with h | ⟨b, rest, h, hch⟩
  · rw [h]
  · rw [h]
    have hy' : Answer.yes true ∉ rest := fun hh => hy ((hch fun _ => False).answers _ hh)
    rw [thn]
    · cases b with
      | false => rfl
      | true => rw [if_pos rfl, schemas_skipped (S := S) (s := ⟨d, rest, _⟩) hy' hany]
    · intro s
      rw [thn]
      · exact (updateGitignore_spec hws s).1.rest _ (hne _)
      · intro s
        rcases confirm_cases s .entities (fun b s =>
          initThen (if b then createDefaultEntities S s else (s, true)) fun s =>
            s.confirm .context fun b s => if b then createContext S template s else (s, true)) with h | ⟨b, rest, h, -⟩
        · rw [h]
        · rw [h, thn ctx]
          cases b with
          | false => rfl
          | true => exact (createDefaultEntities_spec hws _).1.rest _ (hne _)

end

/-! ## Examples -/

/-- An empty workspace. -/
def exBare : FsTree := .dir (some [("w".toList, .dir (some []))])

/-- The command is stopped after the first schema file was opened. -/
def exInitStopped : FsTree :=
  .dir (some [("w".toList, .dir (some [("schemas".toList, .dir (some [("person.firm".toList, .file (some []))]))]))])

theorem stopsAt_left {d d' : FsTree} {ops : List FsOp} (ops' : List FsOp) (h : StopsAt d ops d') : StopsAt d (ops ++ ops') d' := by
  induction h with
  | here d ops => exact .here _ _
  | inside d op ops k => exact .inside _ _ _ _
  | later _ ih => exact .later ih

theorem exInit_stop : StopsAt exBare (initOps exShell [] ⟨exBare, [.yes true], []⟩) exInitStopped := by
  unfold initOps
  rw [InitState.confirmOps]
  dsimp only
  rw [show ask false (takeConfirm Question.schemas.default) [.yes true] = some (some true, []) from rfl]
  dsimp only
  rw [if_pos rfl, thenOps]
  refine stopsAt_left _ ?_
  have hany : ((defaultSchemas exShell.lang).any fun sc =>
      (exBare.lookup (schemaPlace exShell.ws sc.entityType)).isSome) = false := by
    rw [List.any_eq_false]
    intro sc _
    show ¬ ((exBare.lookup ("w".toList :: "schemas".toList :: [sc.entityType ++ ".firm".toList])).isSome = true)
    exact Bool.noConfusion
  unfold createDefaultSchemasOps
  dsimp only
  rw [hany, if_neg (by exact Bool.noConfusion)]
  unfold makeSchemasOps
  have hcd : exBare.createDirAll (exShell.ws ++ ["schemas".toList]) =
      some (.dir (some [("w".toList, .dir (some [("schemas".toList, .dir (some []))]))])) := rfl
  dsimp only
  rw [hcd]
  dsimp only
  have ht := (C107_types exLang_plain).1
  obtain ⟨sc, scs, hsc, hty⟩ : ∃ sc scs, defaultSchemas exShell.lang = sc :: scs ∧ sc.entityType = "person".toList := by
    cases hs : defaultSchemas exShell.lang with
    | nil => rw [show defaultSchemas exLang = [] from hs] at ht; cases ht
    | cons sc scs =>
      rw [show defaultSchemas exLang = sc :: scs from hs, List.map_cons] at ht
      exact ⟨sc, scs, rfl, (List.cons.inj ht).1⟩
  rw [hsc]
  unfold writeSchemasOps thenOps
  refine .later ?_
  rw [FsOp.run, hcd, Option.getD_some, hty]
  generalize generateSchema .default sc = text
  rw [List.singleton_append]
  have hcut : exInitStopped = FsOp.cut (.dir (some [("w".toList, .dir (some [("schemas".toList, .dir (some []))]))])) 0
      (.write (schemaPlace exShell.ws "person".toList) text) := by
    rw [FsOp.cut, show firstBytes 0 text = some [] by rw [firstBytes]]
    rfl
  rw [hcut]
  exact .inside _ _ _ 0

/-- C139: a stop can leave an empty schema file and none of the others, and a second run with the return key at every question
ends well and leaves it so. -/
theorem C139_unfinished : ∃ (as as' : List Answer) (d' : FsTree), StopsAt exBare (initOps exShell [] ⟨exBare, as, []⟩) d' ∧
    (let r := initWorkspace exShell [] ⟨d', as', []⟩
     as' = List.replicate 7 (.text []) ∧ r.2 = true ∧
     r.1.disk.readText ["w".toList, "schemas".toList, "person.firm".toList] = some [] ∧
     (r.1.disk.lookup ["w".toList, "schemas".toList, "organization.firm".toList]).isSome = false) :=
  ⟨[.yes true], _, exInitStopped, exInit_stop, rfl, by decide +kernel⟩

example : WellFormed exBare ∧ WellFormed exInitStopped := by
  have hv : ∀ n : Str, n ∈ ["w".toList, "schemas".toList, "person.firm".toList] → ValidName n := by
    intro n hn
    simp only [List.mem_cons, List.not_mem_nil, or_false] at hn
    rcases hn with rfl | rfl | rfl <;> exact ⟨by decide, by decide, by decide, by decide⟩
  have one : ∀ {n : Str} {t : FsTree}, ValidName n → WellFormed t → WellFormed (.dir (some [(n, t)])) := fun hn ht =>
    .dir (by simp) (fun p hp => by rw [List.mem_singleton.1 hp]; exact hn) fun p hp => by rw [List.mem_singleton.1 hp]; exact ht
  exact ⟨one (hv _ (by decide)) (.dir (by decide) (fun p hp => by cases hp) fun p hp => by cases hp),
    one (hv _ (by decide)) (one (hv _ (by decide)) (one (hv _ (by decide)) (.file _)))⟩

/-- A second run that agrees to everything makes the schemas complete. -/
example :
    (let r := initWorkspace exShell [] ⟨exInitStopped, [.yes true, .yes true, .yes true, .yes true, .text "Ann".toList,
        .text "Acme".toList, .yes true], []⟩
     r.2 = true ∧ r.1.log = [(.schemas, true), (.overwriteSchemas, true), (.createGitignore, true), (.entities, true),
       (.context, true)]) := by decide +kernel

end Firm
