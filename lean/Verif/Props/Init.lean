import Verif.Props.Defaults

/-!
# C105, C106: setting up a workspace
-/

namespace Firm
open Spec

/-! ## What the steps change -/

/-- What a step of the command may do: it writes only files of `own`, the log grows, and a question counts as
answered with yes only after an answer yes, or after the return key alone if that stands for yes. -/
structure Change (own : List Str → Prop) (s s' : InitState) : Prop where
  wf : WellFormed s.disk → WellFormed s'.disk
  answers : ∀ a ∈ s'.answers, a ∈ s.answers
  log : ∃ more, s'.log = s.log ++ more ∧
    ∀ q ∈ more, q.2 = true → Answer.yes true ∈ s.answers ∨ (q.1.default = true ∧ Answer.text [] ∈ s.answers)
  rest : ∀ l, ¬ own l → leafAt s'.disk l = leafAt s.disk l

theorem Change.refl (own : List Str → Prop) (s : InitState) : Change own s s :=
  ⟨id, fun _ h => h, ⟨[], by simp⟩, fun _ _ => rfl⟩

theorem Change.trans {own own' : List Str → Prop} {s s' s'' : InitState} (h : Change own s s') (h' : Change own' s' s'') :
    Change (fun l => own l ∨ own' l) s s'' := by
  obtain ⟨m, h1, h2⟩ := h.log
  obtain ⟨m', h3, h4⟩ := h'.log
  refine ⟨fun w => h'.wf (h.wf w), fun a ha => h.answers a (h'.answers a ha), ⟨m ++ m', by rw [h3, h1, List.append_assoc], ?_⟩,
    fun l hl => ?_⟩
  · intro q hq ht
    rcases List.mem_append.1 hq with hq | hq
    · exact h2 q hq ht
    · exact (h4 q hq ht).imp (h.answers _) fun ⟨hy, hr⟩ => ⟨hy, h.answers _ hr⟩
  · rw [h'.rest l (fun ho => hl (.inr ho)), h.rest l (fun ho => hl (.inl ho))]

theorem Change.mono {own own' : List Str → Prop} {s s' : InitState} (h : Change own s s') (ho : ∀ l, own l → own' l) :
    Change own' s s' := ⟨h.wf, h.answers, h.log, fun l hl => h.rest l (fun hh => hl (ho l hh))⟩

theorem Change.mem_log {own : List Str → Prop} {s s' : InitState} (h : Change own s s') {q : Question × Bool} (hq : q ∈ s.log) :
    q ∈ s'.log := by
  obtain ⟨m, h1, -⟩ := h.log
  rw [h1]
  exact List.mem_append_left _ hq

theorem ask_mem {α : Type} {take : Answer → Option α} {as rest : List Answer} {v : α}
    (h : ask false take as = some (some v, rest)) : (∃ a ∈ as, take a = some v) ∧ ∀ a ∈ rest, a ∈ as := by
  induction as with
  | nil => cases h
  | cons a as ih =>
    have key : ∀ {a : Answer}, (match take a with | some v => some (some v, as) | none => ask false take as) = some (some v, rest) →
        (∃ b ∈ a :: as, take b = some v) ∧ ∀ b ∈ rest, b ∈ a :: as := by
      intro a h
      split at h
      · next v' hv =>
        cases h
        exact ⟨⟨a, List.mem_cons_self, hv⟩, fun b hb => List.mem_cons_of_mem _ hb⟩
      · obtain ⟨⟨b, hb, hv⟩, h2⟩ := ih h
        exact ⟨⟨b, List.mem_cons_of_mem _ hb, hv⟩, fun c hc => List.mem_cons_of_mem _ (h2 c hc)⟩
    cases a with
    | abort => cases h
    | skip => cases h
    | text s => exact key h
    | yes b => exact key h
    | pick k => exact key h
    | day n => exact key h

/-- A question: the command ends, or it goes on with the answer, which is logged. -/
theorem confirm_cases (s : InitState) (q : Question) (k : Bool → InitState → InitState × Bool) :
    s.confirm q k = (s, false) ∨ ∃ b rest, s.confirm q k = k b ⟨s.disk, rest, s.log ++ [(q, b)]⟩ ∧
      ∀ own, Change own s ⟨s.disk, rest, s.log ++ [(q, b)]⟩ := by
  unfold InitState.confirm
  split
  · next b rest h =>
    obtain ⟨⟨a, ha, hv⟩, h2⟩ := ask_mem h
    refine .inr ⟨b, rest, rfl, fun own => ⟨id, h2, ⟨[(q, b)], rfl, ?_⟩, fun _ _ => rfl⟩⟩
    intro p hp hb
    rw [List.mem_singleton.1 hp] at hb ⊢
    simp only at hb
    subst hb
    unfold takeConfirm at hv
    split at hv
    · cases hv; exact .inl ha
    · exact .inr ⟨Option.some.inj hv, ha⟩
    · cases hv
  · exact .inl rfl

theorem enter_cases (s : InitState) (k : Str → InitState → InitState × Bool) :
    s.enter k = (s, false) ∨ ∃ t rest, s.enter k = k t ⟨s.disk, rest, s.log⟩ ∧ Answer.text t ∈ s.answers ∧
      ∀ own, Change own s ⟨s.disk, rest, s.log⟩ := by
  unfold InitState.enter
  split
  · next t rest h =>
    obtain ⟨⟨a, ha, hv⟩, h2⟩ := ask_mem h
    refine .inr ⟨t, rest, rfl, ?_, fun own => ⟨id, h2, ⟨[], by simp⟩, fun _ _ => rfl⟩⟩
    unfold takeText at hv
    split at hv
    · cases hv; exact ha
    · cases hv
  · exact .inl rfl

/-- A file is written, or nothing happens. -/
theorem write_cases (s : InitState) (p : List Str) (n text : Str) (hv : ∀ m ∈ p ++ [n], ValidName m) :
    (s.write (p ++ [n]) text).1.log = s.log ∧ (s.write (p ++ [n]) text).1.answers = s.answers ∧
    Change (fun l => l = p ++ [n]) s (s.write (p ++ [n]) text).1 ∧
    ((s.write (p ++ [n]) text = (s, false)) ∨ ((s.write (p ++ [n]) text).2 = true ∧
      leafAt (s.write (p ++ [n]) text).1.disk (p ++ [n]) = some (.file (some text)))) := by
  unfold InitState.write
  cases h : s.disk.writeFile (p ++ [n]) text with
  | none => exact ⟨rfl, rfl, .refl _ _, .inl rfl⟩
  | some d =>
    obtain ⟨h1, -, h3, -⟩ := writeFile_spec h
    refine ⟨rfl, rfl, ⟨fun w => ?_, fun _ h => h, ⟨[], by simp⟩, fun l hl => ?_⟩, .inr ⟨rfl, ?_⟩⟩
    · show WellFormed d
      rw [h1]
      exact wf_place w (.file _) hv
    · show leafAt d l = _
      rw [h3, if_neg hl]
    · show leafAt d _ = _
      rw [h3, if_pos rfl]

theorem initThen_cases (r : InitState × Bool) (f : InitState → InitState × Bool) :
    (r.2 = false ∧ initThen r f = r) ∨ (r.2 = true ∧ initThen r f = f r.1) := by
  unfold initThen
  cases h : r.2 with
  | false => exact .inl ⟨rfl, if_neg (by simp)⟩
  | true => exact .inr ⟨rfl, if_pos rfl⟩

/-! ## The places -/

theorem schemaPlace_valid {S : Shell} (hL : PlainCase S.lang) (hws : ∀ n ∈ S.ws, ValidName n) {sc : EntitySchema}
    (hsc : sc ∈ defaultSchemas S.lang) : ∀ m ∈ schemaPlace S.ws sc.entityType, ValidName m := by
  have hm : sc.entityType ∈ builtInTypes.map String.toList := (C107_types hL).1 ▸ List.mem_map_of_mem hsc
  have hs : ∀ t ∈ builtInTypes.map String.toList, '/' ∉ t ++ ".firm".toList := by decide
  have hl : ∀ t : Str, 5 ≤ (t ++ ".firm".toList).length := by intro t; rw [List.length_append]; exact Nat.le_add_left _ _
  intro m h
  unfold schemaPlace at h
  rcases List.mem_append.1 h with h | h
  · rcases List.mem_append.1 h with h | h
    · exact hws m h
    · rw [List.mem_singleton.1 h]
      exact ⟨by decide, by decide, by decide, by decide⟩
  · rw [List.mem_singleton.1 h]
    have := hl sc.entityType
    refine ⟨?_, hs _ hm, ?_, ?_⟩ <;> intro h <;> rw [h] at this <;> revert this <;> decide

theorem initPlace_valid {ws : List Str} (hws : ∀ n ∈ ws, ValidName n) {n : Str} (hn : ValidName n) :
    ∀ m ∈ ws ++ [n], ValidName m := by
  intro m h
  rcases List.mem_append.1 h with h | h
  · exact hws m h
  · rw [List.mem_singleton.1 h]; exact hn

theorem validName_gitignore : ValidName ".gitignore".toList := ⟨by decide, by decide, by decide, by decide⟩
theorem validName_main : ValidName "main.firm".toList := ⟨by decide, by decide, by decide, by decide⟩
theorem validName_agents : ValidName "AGENTS.md".toList := ⟨by decide, by decide, by decide, by decide⟩

theorem schemaPlace_inj {ws : List Str} {t t' : Str} (h : schemaPlace ws t = schemaPlace ws t') : t = t' := by
  unfold schemaPlace at h
  have := List.append_cancel_left h
  simp only [List.cons.injEq, and_true] at this
  exact List.append_cancel_right this

theorem schemaPlace_ne (ws : List Str) (t n : Str) : schemaPlace ws t ≠ ws ++ [n] := by
  intro h
  have := congrArg List.length h
  simp only [schemaPlace, List.length_append, List.length_cons, List.length_nil] at this
  omega

theorem leafAt_none_of_lookup {d : FsTree} {l : List Str} (h : (d.lookup l).isSome ≠ true) : leafAt d l = none := by
  unfold leafAt
  cases hl : d.lookup l with
  | none => rfl
  | some u => rw [hl] at h; exact absurd rfl h

/-! ## The parts of the command -/

/-- The loop over the schemas. -/
theorem writeSchemas_spec {S : Shell} (hL : PlainCase S.lang) (hws : ∀ n ∈ S.ws, ValidName n) :
    ∀ (scs : List EntitySchema) (s : InitState), (∀ sc ∈ scs, sc ∈ defaultSchemas S.lang) →
    (writeSchemas S.ws scs s).1.log = s.log ∧
    Change (fun l => ∃ sc ∈ scs, l = schemaPlace S.ws sc.entityType) s (writeSchemas S.ws scs s).1 ∧
    (∀ l, leafAt (writeSchemas S.ws scs s).1.disk l = leafAt s.disk l ∨ ∃ sc ∈ scs, l = schemaPlace S.ws sc.entityType ∧
      leafAt (writeSchemas S.ws scs s).1.disk l = some (.file (some (generateSchema .default sc)))) ∧
    ((writeSchemas S.ws scs s).2 = true → (scs.map (·.entityType)).Nodup → ∀ sc ∈ scs,
      leafAt (writeSchemas S.ws scs s).1.disk (schemaPlace S.ws sc.entityType) = some (.file (some (generateSchema .default sc))))
  | [], s, _ => ⟨rfl, .refl _ _, fun _ => .inl rfl, fun _ _ sc h => by cases h⟩
  | sc :: scs, s, h => by
    have hsc := h sc List.mem_cons_self
    obtain ⟨w1, -, w3, w4⟩ := write_cases s (S.ws ++ ["schemas".toList]) (sc.entityType ++ ".firm".toList)
      (generateSchema .default sc) (schemaPlace_valid hL hws hsc)
    change (s.write (schemaPlace S.ws sc.entityType) _).1.log = _ at w1
    change Change (fun l => l = schemaPlace S.ws sc.entityType) s (s.write (schemaPlace S.ws sc.entityType) _).1 at w3
    change s.write (schemaPlace S.ws sc.entityType) _ = _ ∨ (s.write (schemaPlace S.ws sc.entityType) _).2 = true ∧
      leafAt (s.write (schemaPlace S.ws sc.entityType) _).1.disk (schemaPlace S.ws sc.entityType) = _ at w4
    unfold writeSchemas
    rcases initThen_cases (s.write (schemaPlace S.ws sc.entityType) (generateSchema .default sc)) (writeSchemas S.ws scs)
      with ⟨h1, h2⟩ | ⟨h1, h2⟩
    · rw [h2]
      rcases w4 with w4 | w4
      · rw [w4]
        exact ⟨rfl, .refl _ _, fun _ => .inl rfl, fun h => by cases h⟩
      · rw [h1] at w4
        cases w4.1
    · rw [h2]
      rcases w4 with w4 | ⟨-, w4⟩
      · rw [w4] at h1; cases h1
      generalize s.write (schemaPlace S.ws sc.entityType) (generateSchema .default sc) = r at *
      obtain ⟨i1, i2, i3, i4⟩ := writeSchemas_spec hL hws scs r.1 (fun c hc => h c (List.mem_cons_of_mem _ hc))
      refine ⟨i1.trans w1, (w3.trans i2).mono ?_, ?_, ?_⟩
      · rintro l (rfl | ⟨c, hc, rfl⟩)
        · exact ⟨sc, List.mem_cons_self, rfl⟩
        · exact ⟨c, List.mem_cons_of_mem _ hc, rfl⟩
      · intro l
        rcases i3 l with h3 | ⟨c, hc, rfl, h3⟩
        · by_cases hl : l = schemaPlace S.ws sc.entityType
          · exact .inr ⟨sc, List.mem_cons_self, hl, by rw [h3, hl, w4]⟩
          · exact .inl (by rw [h3, w3.rest l hl])
        · exact .inr ⟨c, List.mem_cons_of_mem _ hc, rfl, h3⟩
      · intro hok hn c hc
        rw [List.map_cons, List.nodup_cons] at hn
        rcases List.mem_cons.1 hc with rfl | hc
        · rw [i2.rest _ ?_, w4]
          rintro ⟨c', hc', he⟩
          exact hn.1 (schemaPlace_inj he ▸ List.mem_map_of_mem hc')
        · exact i4 hok hn.2 c hc

/-- The place of a schema file. -/
def IsSchemaPlace (S : Shell) (l : List Str) : Prop := ∃ sc ∈ defaultSchemas S.lang, l = schemaPlace S.ws sc.entityType

theorem makeSchemas_spec {S : Shell} (hL : PlainCase S.lang) (hws : ∀ n ∈ S.ws, ValidName n) (s : InitState) :
    Change (IsSchemaPlace S) s (makeSchemas S s).1 ∧
    (∀ l, leafAt (makeSchemas S s).1.disk l = leafAt s.disk l ∨ ∃ sc ∈ defaultSchemas S.lang,
      l = schemaPlace S.ws sc.entityType ∧
      leafAt (makeSchemas S s).1.disk l = some (.file (some (generateSchema .default sc)))) ∧
    ((makeSchemas S s).2 = true → ∀ sc ∈ defaultSchemas S.lang,
      leafAt (makeSchemas S s).1.disk (schemaPlace S.ws sc.entityType) = some (.file (some (generateSchema .default sc)))) := by
  unfold makeSchemas
  cases hc : s.disk.createDirAll (S.ws ++ ["schemas".toList]) with
  | none => exact ⟨.refl _ _, fun _ => .inl rfl, fun h => by cases h⟩
  | some d =>
    have hl := leafAt_createDirAll hc
    obtain ⟨-, i2, i3, i4⟩ := writeSchemas_spec hL hws (defaultSchemas S.lang) ⟨d, s.answers, s.log⟩ (fun _ h => h)
    have hstep : Change (fun _ => False) s ⟨d, s.answers, s.log⟩ :=
      ⟨fun w => wf_createDirAll w (initPlace_valid hws ⟨by decide, by decide, by decide, by decide⟩) hc, fun _ h => h,
        ⟨[], by simp⟩, fun l _ => hl l⟩
    refine ⟨(hstep.trans i2).mono ?_, fun l => ?_, fun hok => i4 hok (C107_types hL).2.1⟩
    · intro l ho
      rcases ho with ho | ho
      · exact ho.elim
      · exact ho
    · rcases i3 l with h | h
      · exact .inl (h.trans (hl l))
      · exact .inr h

/-- `create_default_schemas`. -/
theorem createDefaultSchemas_spec {S : Shell} (hL : PlainCase S.lang) (hws : ∀ n ∈ S.ws, ValidName n) (s : InitState) :
    Change (IsSchemaPlace S) s (createDefaultSchemas S s).1 ∧
    (∀ l, leafAt (createDefaultSchemas S s).1.disk l = leafAt s.disk l ∨
      ((leafAt s.disk l = none ∨ (.overwriteSchemas, true) ∈ (createDefaultSchemas S s).1.log) ∧
      ∃ sc ∈ defaultSchemas S.lang, l = schemaPlace S.ws sc.entityType ∧
        leafAt (createDefaultSchemas S s).1.disk l = some (.file (some (generateSchema .default sc))))) ∧
    ((createDefaultSchemas S s).2 = true → (.overwriteSchemas, false) ∉ (createDefaultSchemas S s).1.log →
      ∀ sc ∈ defaultSchemas S.lang, leafAt (createDefaultSchemas S s).1.disk (schemaPlace S.ws sc.entityType) =
        some (.file (some (generateSchema .default sc)))) := by
  unfold createDefaultSchemas
  split
  · next hany =>
    rcases confirm_cases s .overwriteSchemas (fun b s => if b then makeSchemas S s else (s, true)) with h | ⟨b, rest, h, hch⟩
    · rw [h]
      exact ⟨.refl _ _, fun _ => .inl rfl, fun h => by cases h⟩
    · rw [h]
      cases b with
      | false =>
        rw [if_neg (by simp)]
        exact ⟨hch _, fun _ => .inl rfl, fun _ hno => absurd (List.mem_append_right _ (List.mem_singleton.2 rfl)) hno⟩
      | true =>
        rw [if_pos rfl]
        obtain ⟨h1, h2, h3⟩ := makeSchemas_spec hL hws ⟨s.disk, rest, s.log ++ [(.overwriteSchemas, true)]⟩
        refine ⟨((hch (IsSchemaPlace S)).trans h1).mono (by tauto), fun l => ?_, fun hok _ => h3 hok⟩
        rcases h2 l with h | h
        · exact .inl h
        · exact .inr ⟨.inr (h1.mem_log (List.mem_append_right _ (List.mem_singleton.2 rfl))), h⟩
  · next hany =>
    obtain ⟨h1, h2, h3⟩ := makeSchemas_spec hL hws s
    refine ⟨h1, fun l => ?_, fun hok _ => h3 hok⟩
    rcases h2 l with h | ⟨sc, hsc, rfl, h⟩
    · exact .inl h
    · refine .inr ⟨.inl (leafAt_none_of_lookup fun hs => hany ?_), sc, hsc, rfl, h⟩
      rw [List.any_eq_true]
      exact ⟨sc, hsc, hs⟩

/-- One file that is written or left alone. -/
theorem write_one {S : Shell} (hws : ∀ n ∈ S.ws, ValidName n) {n : Str} (hn : ValidName n) (s : InitState) (text : Str) :
    (s.write (S.ws ++ [n]) text).1.log = s.log ∧
    Change (fun l => l = S.ws ++ [n]) s (s.write (S.ws ++ [n]) text).1 ∧
    (leafAt (s.write (S.ws ++ [n]) text).1.disk (S.ws ++ [n]) = leafAt s.disk (S.ws ++ [n]) ∨
      leafAt (s.write (S.ws ++ [n]) text).1.disk (S.ws ++ [n]) = some (.file (some text))) ∧
    ((s.write (S.ws ++ [n]) text).2 = true →
      leafAt (s.write (S.ws ++ [n]) text).1.disk (S.ws ++ [n]) = some (.file (some text))) := by
  obtain ⟨w1, -, w3, w4⟩ := write_cases s S.ws n text (initPlace_valid hws hn)
  refine ⟨w1, w3, ?_, fun hok => ?_⟩
  · rcases w4 with w4 | w4
    · rw [w4]; exact .inl rfl
    · exact .inr w4.2
  · rcases w4 with w4 | w4
    · rw [w4] at hok; cases hok
    · exact w4.2

/-- `create_or_update_gitignore`. -/
theorem updateGitignore_spec {S : Shell} (hws : ∀ n ∈ S.ws, ValidName n) (s : InitState) :
    Change (fun l => l = S.ws ++ [".gitignore".toList]) s (updateGitignore S s).1 ∧
    (leafAt (updateGitignore S s).1.disk (S.ws ++ [".gitignore".toList]) = leafAt s.disk (S.ws ++ [".gitignore".toList]) ∨
      (leafAt s.disk (S.ws ++ [".gitignore".toList]) = none ∧ (.createGitignore, true) ∈ (updateGitignore S s).1.log ∧
        leafAt (updateGitignore S s).1.disk (S.ws ++ [".gitignore".toList]) = some (.file (some gitignoreEntries))) ∨
      ∃ old more, leafAt s.disk (S.ws ++ [".gitignore".toList]) = some (.file (some old)) ∧ gitignoreAppended old = some more ∧
        (.updateGitignore, true) ∈ (updateGitignore S s).1.log ∧
        leafAt (updateGitignore S s).1.disk (S.ws ++ [".gitignore".toList]) = some (.file (some (old ++ more)))) ∧
    ((updateGitignore S s).2 = true → ∃ q b, (updateGitignore S s).1.log = s.log ++ [(q, b)] ∧
      (q = .updateGitignore ∨ q = .createGitignore) ∧ (b = true → ∃ new,
        leafAt (updateGitignore S s).1.disk (S.ws ++ [".gitignore".toList]) = some (.file (some new)) ∧
        (leafAt s.disk (S.ws ++ [".gitignore".toList]) = none ∧ new = gitignoreEntries ∨ ∃ old, s.disk.readText (S.ws ++ [".gitignore".toList]) = some old ∧
          (gitignoreAppended old = none ∧ new = old ∨ ∃ more, gitignoreAppended old = some more ∧ new = old ++ more)))) := by
  have leaf_of_read : ∀ {d : FsTree} {l : List Str} {t : Str}, d.readText l = some t → leafAt d l = some (.file (some t)) := by
    intro d l t h
    refine leafAt_eq_some.2 ⟨?_, by rintro es ⟨⟩⟩
    unfold FsTree.readText at h
    split at h
    · next u hu => rw [hu, ← h]
    · cases h
  unfold updateGitignore
  split
  · next hex =>
    rcases confirm_cases s .updateGitignore (fun b s => if b then extendGitignore S s else (s, true)) with h | ⟨b, rest, h, hch⟩
    · rw [h]
      exact ⟨.refl _ _, .inl rfl, fun h => by cases h⟩
    · rw [h]
      cases b with
      | false =>
        rw [if_neg (by simp)]
        exact ⟨hch _, .inl rfl, fun _ => ⟨_, _, rfl, .inl rfl, fun h => by cases h⟩⟩
      | true =>
        rw [if_pos rfl]
        unfold extendGitignore
        simp only
        cases hr : s.disk.readText (S.ws ++ [".gitignore".toList]) with
        | none => exact ⟨hch _, .inl rfl, fun h => by cases h⟩
        | some old =>
          simp only
          cases ha : gitignoreAppended old with
          | none => exact ⟨hch _, .inl rfl, fun _ => ⟨_, _, rfl, .inl rfl, fun _ => ⟨old, leaf_of_read hr, .inr ⟨old, rfl, .inl ⟨ha, rfl⟩⟩⟩⟩⟩
          | some more =>
            simp only
            obtain ⟨w1, w2, w3, w4⟩ := write_one hws validName_gitignore
              ⟨s.disk, rest, s.log ++ [(.updateGitignore, true)]⟩ (old ++ more)
            refine ⟨((hch (fun _ => False)).trans w2).mono (by tauto), ?_, fun hok => ⟨_, _, w1, .inl rfl,
              fun _ => ⟨_, w4 hok, .inr ⟨old, rfl, .inr ⟨more, ha, rfl⟩⟩⟩⟩⟩
            rcases w3 with w3 | w3
            · exact .inl w3
            · exact .inr (.inr ⟨old, more, leaf_of_read hr, ha, by rw [w1]; exact List.mem_append_right _ (List.mem_singleton.2 rfl), w3⟩)
  · next hex =>
    have hno := leafAt_none_of_lookup hex
    rcases confirm_cases s .createGitignore (fun b s => if b then s.write (S.ws ++ [".gitignore".toList]) gitignoreEntries
      else (s, true)) with h | ⟨b, rest, h, hch⟩
    · rw [h]
      exact ⟨.refl _ _, .inl rfl, fun h => by cases h⟩
    · rw [h]
      cases b with
      | false =>
        rw [if_neg (by simp)]
        exact ⟨hch _, .inl rfl, fun _ => ⟨_, _, rfl, .inr rfl, fun h => by cases h⟩⟩
      | true =>
        rw [if_pos rfl]
        obtain ⟨w1, w2, w3, w4⟩ := write_one hws validName_gitignore
          ⟨s.disk, rest, s.log ++ [(.createGitignore, true)]⟩ gitignoreEntries
        refine ⟨((hch (fun _ => False)).trans w2).mono (by tauto), ?_, fun hok => ⟨_, _, w1, .inr rfl, fun _ => ⟨_, w4 hok, .inl ⟨hno, rfl⟩⟩⟩⟩
        rcases w3 with w3 | w3
        · exact .inl w3
        · exact .inr (.inl ⟨hno, by rw [w1]; exact List.mem_append_right _ (List.mem_singleton.2 rfl), w3⟩)

/-- The text of main.firm for two names. -/
def mainText (S : Shell) (person org : Str) : Str :=
  generateDsl S.lang .default [initEntity S "person" person, initEntity S "organization" org]

theorem makeEntities_spec {S : Shell} (hws : ∀ n ∈ S.ws, ValidName n) (s : InitState) :
    Change (fun l => l = S.ws ++ ["main.firm".toList]) s (makeEntities S s).1 ∧
    (leafAt (makeEntities S s).1.disk (S.ws ++ ["main.firm".toList]) = leafAt s.disk (S.ws ++ ["main.firm".toList]) ∨
      ∃ person org, Answer.text person ∈ s.answers ∧ Answer.text org ∈ s.answers ∧
        leafAt (makeEntities S s).1.disk (S.ws ++ ["main.firm".toList]) = some (.file (some (mainText S person org)))) ∧
    ((makeEntities S s).2 = true → ∃ person org, Answer.text person ∈ s.answers ∧ Answer.text org ∈ s.answers ∧
        leafAt (makeEntities S s).1.disk (S.ws ++ ["main.firm".toList]) = some (.file (some (mainText S person org)))) := by
  unfold makeEntities
  rcases enter_cases s (fun person s => s.enter fun org s => s.write (S.ws ++ ["main.firm".toList])
    (generateDsl S.lang .default [initEntity S "person" person, initEntity S "organization" org])) with h | ⟨p, rest, h, hp, hch⟩
  · rw [h]
    exact ⟨.refl _ _, .inl rfl, fun h => by cases h⟩
  rw [h]
  rcases enter_cases ⟨s.disk, rest, s.log⟩ (fun org s => s.write (S.ws ++ ["main.firm".toList])
    (generateDsl S.lang .default [initEntity S "person" p, initEntity S "organization" org])) with h | ⟨o, rest', h, ho, hch'⟩
  · rw [h]
    exact ⟨hch _, .inl rfl, fun h => by cases h⟩
  rw [h]
  obtain ⟨-, w2, w3, w4⟩ := write_one hws validName_main ⟨s.disk, rest', s.log⟩ (mainText S p o)
  have hch2 := (hch (fun _ => False)).trans (hch' (fun _ => False))
  have ho' := (hch (fun _ => False)).answers _ ho
  refine ⟨(hch2.trans w2).mono (by tauto), ?_, fun hok => ⟨p, o, hp, ho', w4 hok⟩⟩
  rcases w3 with w3 | w3
  · exact .inl w3
  · exact .inr ⟨p, o, hp, ho', w3⟩

/-- `create_default_entities`. -/
theorem createDefaultEntities_spec {S : Shell} (hws : ∀ n ∈ S.ws, ValidName n) (s : InitState) :
    Change (fun l => l = S.ws ++ ["main.firm".toList]) s (createDefaultEntities S s).1 ∧
    (leafAt (createDefaultEntities S s).1.disk (S.ws ++ ["main.firm".toList]) = leafAt s.disk (S.ws ++ ["main.firm".toList]) ∨
      ((leafAt s.disk (S.ws ++ ["main.firm".toList]) = none ∨ (.overwriteMain, true) ∈ (createDefaultEntities S s).1.log) ∧
      ∃ person org, Answer.text person ∈ s.answers ∧ Answer.text org ∈ s.answers ∧
        leafAt (createDefaultEntities S s).1.disk (S.ws ++ ["main.firm".toList]) = some (.file (some (mainText S person org))))) ∧
    ((createDefaultEntities S s).2 = true → (.overwriteMain, false) ∉ (createDefaultEntities S s).1.log →
      ∃ person org, Answer.text person ∈ s.answers ∧ Answer.text org ∈ s.answers ∧
        leafAt (createDefaultEntities S s).1.disk (S.ws ++ ["main.firm".toList]) = some (.file (some (mainText S person org)))) := by
  unfold createDefaultEntities
  split
  · next hex =>
    rcases confirm_cases s .overwriteMain (fun b s => if b then makeEntities S s else (s, true)) with h | ⟨b, rest, h, hch⟩
    · rw [h]
      exact ⟨.refl _ _, .inl rfl, fun h => by cases h⟩
    · rw [h]
      cases b with
      | false =>
        rw [if_neg (by simp)]
        exact ⟨hch _, .inl rfl, fun _ hno => absurd (List.mem_append_right _ (List.mem_singleton.2 rfl)) hno⟩
      | true =>
        rw [if_pos rfl]
        obtain ⟨h1, h2, h3⟩ := makeEntities_spec hws ⟨s.disk, rest, s.log ++ [(.overwriteMain, true)]⟩
        have hm := (hch (fun _ => False)).answers
        have key : ∀ {P : Str → Str → Prop}, (∃ person org, Answer.text person ∈ rest ∧ Answer.text org ∈ rest ∧ P person org) →
            ∃ person org, Answer.text person ∈ s.answers ∧ Answer.text org ∈ s.answers ∧ P person org := by
          rintro P ⟨p, o, hp, ho, h⟩
          exact ⟨p, o, hm _ hp, hm _ ho, h⟩
        refine ⟨((hch (fun _ => False)).trans h1).mono (by tauto), ?_, fun hok _ => key (h3 hok)⟩
        rcases h2 with h | h
        · exact .inl h
        · exact .inr ⟨.inr (h1.mem_log (List.mem_append_right _ (List.mem_singleton.2 rfl))), key h⟩
  · next hex =>
    obtain ⟨h1, h2, h3⟩ := makeEntities_spec hws s
    refine ⟨h1, ?_, fun hok _ => h3 hok⟩
    rcases h2 with h | h
    · exact .inl h
    · exact .inr ⟨.inl (leafAt_none_of_lookup hex), h⟩

/-- `create_ai_context`. -/
theorem createContext_spec {S : Shell} (template : Str) (hws : ∀ n ∈ S.ws, ValidName n) (s : InitState) :
    Change (fun l => l = S.ws ++ ["AGENTS.md".toList]) s (createContext S template s).1 ∧
    (leafAt (createContext S template s).1.disk (S.ws ++ ["AGENTS.md".toList]) = leafAt s.disk (S.ws ++ ["AGENTS.md".toList]) ∨
      ((leafAt s.disk (S.ws ++ ["AGENTS.md".toList]) = none ∨ (.overwriteContext, true) ∈ (createContext S template s).1.log) ∧
        leafAt (createContext S template s).1.disk (S.ws ++ ["AGENTS.md".toList]) = some (.file (some template)))) := by
  unfold createContext
  split
  · next hex =>
    rcases confirm_cases s .overwriteContext (fun b s => if b then s.write (S.ws ++ ["AGENTS.md".toList]) template else (s, true))
      with h | ⟨b, rest, h, hch⟩
    · rw [h]
      exact ⟨.refl _ _, .inl rfl⟩
    · rw [h]
      cases b with
      | false =>
        rw [if_neg (by simp)]
        exact ⟨hch _, .inl rfl⟩
      | true =>
        rw [if_pos rfl]
        obtain ⟨-, h1, h2, -⟩ := write_one hws validName_agents ⟨s.disk, rest, s.log ++ [(.overwriteContext, true)]⟩ template
        refine ⟨((hch (fun _ => False)).trans h1).mono (by tauto), ?_⟩
        rcases h2 with h | h
        · exact .inl h
        · exact .inr ⟨.inr (h1.mem_log (List.mem_append_right _ (List.mem_singleton.2 rfl))), h⟩
  · next hex =>
    obtain ⟨-, h1, h2, -⟩ := write_one hws validName_agents s template
    refine ⟨h1, ?_⟩
    rcases h2 with h | h
    · exact .inl h
    · exact .inr ⟨.inl (leafAt_none_of_lookup hex), h⟩

/-! ## The whole command -/

/-- What may happen to the file at `l`, before and after. -/
inductive Touched (S : Shell) (template : Str) (log : List (Question × Bool)) (as : List Answer) :
    List Str → Option FsTree → Option FsTree → Prop
  | same (l u) : Touched S template log as l u u
  | schema (sc u) : sc ∈ defaultSchemas S.lang → (.schemas, true) ∈ log → (u = none ∨ (.overwriteSchemas, true) ∈ log) →
      Touched S template log as (schemaPlace S.ws sc.entityType) u (some (.file (some (generateSchema .default sc))))
  | created : (.createGitignore, true) ∈ log →
      Touched S template log as (S.ws ++ [".gitignore".toList]) none (some (.file (some gitignoreEntries)))
  | extended (old more) : gitignoreAppended old = some more → (.updateGitignore, true) ∈ log →
      Touched S template log as (S.ws ++ [".gitignore".toList]) (some (.file (some old))) (some (.file (some (old ++ more))))
  | main (u person org) : (.entities, true) ∈ log → (u = none ∨ (.overwriteMain, true) ∈ log) → Answer.text person ∈ as → Answer.text org ∈ as →
      Touched S template log as (S.ws ++ ["main.firm".toList]) u (some (.file (some (mainText S person org))))
  | context (u) : (.context, true) ∈ log → (u = none ∨ (.overwriteContext, true) ∈ log) →
      Touched S template log as (S.ws ++ ["AGENTS.md".toList]) u (some (.file (some template)))

theorem Touched.mono {S : Shell} {template : Str} {log log' : List (Question × Bool)} {as as' : List Answer} {l : List Str}
    {u v : Option FsTree} (h : Touched S template log as l u v) (hl : ∀ q ∈ log, q ∈ log') (ha : ∀ a ∈ as, a ∈ as') :
    Touched S template log' as' l u v := by
  cases h with
  | same => exact .same _ _
  | schema sc _ h1 h0 h2 => exact .schema _ _ h1 (hl _ h0) (h2.imp id (hl _))
  | created h => exact .created (hl _ h)
  | extended old more h1 h2 => exact .extended _ _ h1 (hl _ h2)
  | main _ p o h0 h1 h2 h3 => exact .main _ _ _ (hl _ h0) (h1.imp id (hl _)) (ha _ h2) (ha _ h3)
  | context _ h0 h => exact .context _ (hl _ h0) (h.imp id (hl _))

/-- Part of the command: it touches only files of `own`, as allowed. -/
structure Part (S : Shell) (template : Str) (own : List Str → Prop) (s t : InitState) : Prop where
  change : Change own s t
  touched : ∀ l, Touched S template t.log s.answers l (leafAt s.disk l) (leafAt t.disk l)

theorem Part.trans {S : Shell} {template : Str} {own own' : List Str → Prop} {s t u : InitState}
    (h : Part S template own s t) (h' : Part S template own' t u) (hd : ∀ l, own l → own' l → False) :
    Part S template (fun l => own l ∨ own' l) s u := by
  refine ⟨h.change.trans h'.change, fun l => ?_⟩
  by_cases hl : own l
  · rw [h'.change.rest l (hd l hl)]
    exact (h.touched l).mono (fun q hq => h'.change.mem_log hq) (fun _ h => h)
  · rw [← h.change.rest l hl]
    exact (h'.touched l).mono (fun _ h => h) h.change.answers

theorem Part.of_same {S : Shell} {template : Str} {own : List Str → Prop} {s t : InitState} (h : Change own s t)
    (hd : ∀ l, leafAt t.disk l = leafAt s.disk l) : Part S template own s t :=
  ⟨h, fun l => by rw [hd]; exact .same _ _⟩

theorem Part.mono {S : Shell} {template : Str} {own own' : List Str → Prop} {s t : InitState} (h : Part S template own s t)
    (ho : ∀ l, own l → own' l) : Part S template own' s t := ⟨h.change.mono ho, h.touched⟩

theorem Part.of_place {S : Shell} {template : Str} {p : List Str} {s t : InitState} (h : Change (fun l => l = p) s t)
    (hp : Touched S template t.log s.answers p (leafAt s.disk p) (leafAt t.disk p)) :
    Part S template (fun l => l = p) s t := by
  refine ⟨h, fun l => ?_⟩
  by_cases hl : l = p
  · rw [hl]; exact hp
  · rw [h.rest l hl]; exact .same _ _

theorem part_schemas {S : Shell} (template : Str) (hL : PlainCase S.lang) (hws : ∀ n ∈ S.ws, ValidName n) (s : InitState)
    (hq : (.schemas, true) ∈ s.log) : Part S template (IsSchemaPlace S) s (createDefaultSchemas S s).1 := by
  obtain ⟨h1, h2, -⟩ := createDefaultSchemas_spec hL hws s
  refine ⟨h1, fun l => ?_⟩
  rcases h2 l with h | ⟨ho, sc, hsc, rfl, h⟩
  · rw [h]; exact .same _ _
  · rw [h]; exact .schema _ _ hsc (h1.mem_log hq) ho

theorem part_gitignore {S : Shell} (template : Str) (hws : ∀ n ∈ S.ws, ValidName n) (s : InitState) :
    Part S template (fun l => l = S.ws ++ [".gitignore".toList]) s (updateGitignore S s).1 := by
  obtain ⟨h1, h2, -⟩ := updateGitignore_spec hws s
  refine .of_place h1 ?_
  rcases h2 with h | ⟨h3, h4, h⟩ | ⟨old, more, h3, h4, h5, h⟩
  · rw [h]; exact .same _ _
  · rw [h, h3]; exact .created h4
  · rw [h, h3]; exact .extended _ _ h4 h5

theorem part_entities {S : Shell} (template : Str) (hws : ∀ n ∈ S.ws, ValidName n) (s : InitState)
    (hq : (.entities, true) ∈ s.log) : Part S template (fun l => l = S.ws ++ ["main.firm".toList]) s (createDefaultEntities S s).1 := by
  obtain ⟨h1, h2, -⟩ := createDefaultEntities_spec hws s
  refine .of_place h1 ?_
  rcases h2 with h | ⟨h3, p, o, hp, ho, h⟩
  · rw [h]; exact .same _ _
  · rw [h]; exact .main _ _ _ (h1.mem_log hq) h3 hp ho

theorem part_context {S : Shell} (template : Str) (hws : ∀ n ∈ S.ws, ValidName n) (s : InitState)
    (hq : (.context, true) ∈ s.log) : Part S template (fun l => l = S.ws ++ ["AGENTS.md".toList]) s (createContext S template s).1 := by
  obtain ⟨h1, h2⟩ := createContext_spec template hws s
  refine .of_place h1 ?_
  rcases h2 with h | ⟨h3, h⟩
  · rw [h]; exact .same _ _
  · rw [h]; exact .context _ (h1.mem_log hq) h3

/-- A question in front of a part. -/
theorem part_confirm {S : Shell} {template : Str} {own : List Str → Prop} (s : InitState) (q : Question)
    (k : Bool → InitState → InitState × Bool) (hk : ∀ b t, (q, b) ∈ t.log → Part S template own t (k b t).1) :
    Part S template own s (s.confirm q k).1 := by
  rcases confirm_cases s q k with h | ⟨b, rest, h, hch⟩
  · rw [h]
    exact .of_same (.refl _ _) fun _ => rfl
  · rw [h]
    have h1 : Part S template (fun _ => False) s ⟨s.disk, rest, s.log ++ [(q, b)]⟩ := .of_same (hch _) fun _ => rfl
    exact (h1.trans (hk b _ (List.mem_append_right _ (List.mem_singleton.2 rfl))) (fun _ h _ => h)).mono (by tauto)

theorem part_then {S : Shell} {template : Str} {own own' : List Str → Prop} {s : InitState} {r : InitState × Bool}
    {f : InitState → InitState × Bool} (h : Part S template own s r.1) (hf : ∀ t, Part S template own' t (f t).1)
    (hd : ∀ l, own l → own' l → False) : Part S template (fun l => own l ∨ own' l) s (initThen r f).1 := by
  rcases initThen_cases r f with ⟨-, h2⟩ | ⟨-, h2⟩
  · rw [h2]
    exact h.mono fun l hl => .inl hl
  · rw [h2]
    exact h.trans (hf r.1) hd

theorem part_if {S : Shell} {template : Str} {own : List Str → Prop} {s : InitState} {b : Bool} {r : InitState × Bool}
    (h : b = true → Part S template own s r.1) : Part S template own s (if b then r else (s, true)).1 := by
  cases b with
  | true => exact h rfl
  | false => exact .of_same (.refl _ _) fun _ => rfl

theorem gitignore_ne_main (ws : List Str) : ws ++ [".gitignore".toList] ≠ ws ++ ["main.firm".toList] := by
  intro h
  have := List.append_cancel_left h
  revert this
  decide

theorem gitignore_ne_agents (ws : List Str) : ws ++ [".gitignore".toList] ≠ ws ++ ["AGENTS.md".toList] := by
  intro h
  have := List.append_cancel_left h
  revert this
  decide

theorem main_ne_agents (ws : List Str) : ws ++ ["main.firm".toList] ≠ ws ++ ["AGENTS.md".toList] := by
  intro h
  have := List.append_cancel_left h
  revert this
  decide

/-- The whole command touches its own files only, as allowed. -/
theorem init_part {S : Shell} (template : Str) (hL : PlainCase S.lang) (hws : ∀ n ∈ S.ws, ValidName n) (s : InitState) :
    Part S template (fun _ => True) s (initWorkspace S template s).1 := by
  unfold initWorkspace
  refine part_confirm s .schemas _ fun b s hb => ?_
  refine (part_then (own' := fun l => l = S.ws ++ [".gitignore".toList] ∨ l = S.ws ++ ["main.firm".toList] ∨
    l = S.ws ++ ["AGENTS.md".toList]) (part_if fun h => part_schemas template hL hws s (h ▸ hb)) (fun s => ?_) ?_).mono (fun _ _ => trivial)
  · refine (part_then (own' := fun l => l = S.ws ++ ["main.firm".toList] ∨ l = S.ws ++ ["AGENTS.md".toList])
      (part_gitignore template hws s) (fun s => part_confirm s .entities _ fun b s hb => ?_) ?_)
    · refine part_then (part_if fun h => part_entities template hws s (h ▸ hb))
        (fun s => part_confirm s .context _ fun b s hb => part_if fun h => part_context template hws s (h ▸ hb)) ?_
      rintro l rfl h
      exact main_ne_agents _ h
    · rintro l rfl (h | h)
      · exact gitignore_ne_main _ h
      · exact gitignore_ne_agents _ h
  · rintro l ⟨sc, -, rfl⟩ (h | h | h) <;> exact schemaPlace_ne _ _ _ h

/-! ## C105 -/

/-- A file of a default schema. -/
def Spec.SchemaFile (ws loc : List Str) : Prop :=
  ∃ t ∈ builtInTypes, loc = ws ++ ["schemas".toList, t.toList ++ ".firm".toList]

theorem schemaFile_of {S : Shell} (hL : PlainCase S.lang) {sc : EntitySchema} (hsc : sc ∈ defaultSchemas S.lang) :
    SchemaFile S.ws (schemaPlace S.ws sc.entityType) := by
  have hm : sc.entityType ∈ builtInTypes.map String.toList := (C107_types hL).1 ▸ List.mem_map_of_mem hsc
  obtain ⟨t, ht, he⟩ := List.mem_map.1 hm
  exact ⟨t, ht, by unfold schemaPlace; rw [← he, List.append_assoc]; rfl⟩

section
variable {S : Shell} {template : Str} {d : FsTree} {as : List Answer}

theorem init_wf (hL : PlainCase S.lang) (hws : ∀ n ∈ S.ws, ValidName n) (hd : WellFormed d) (template : Str) (as : List Answer) :
    WellFormed (initWorkspace S template ⟨d, as, []⟩).1.disk := (init_part template hL hws ⟨d, as, []⟩).change.wf hd

/-- C105: an existing file keeps its content, wherever the command stops, with these exceptions: schema files, main.firm
and AGENTS.md if the question about overwriting was answered with yes, and .gitignore, to which text is appended if that
was answered with yes. -/
theorem C105_kept (hL : PlainCase S.lang) (hws : ∀ n ∈ S.ws, ValidName n) (hd : WellFormed d) {loc : List Str} {u : FsTree}
    (hu : NotDir u) (h : Has d loc u) :
    Has (initWorkspace S template ⟨d, as, []⟩).1.disk loc u ∨
    SchemaFile S.ws loc ∧ (.overwriteSchemas, true) ∈ (initWorkspace S template ⟨d, as, []⟩).1.log ∨
    loc = S.ws ++ ["main.firm".toList] ∧ (.overwriteMain, true) ∈ (initWorkspace S template ⟨d, as, []⟩).1.log ∨
    loc = S.ws ++ ["AGENTS.md".toList] ∧ (.overwriteContext, true) ∈ (initWorkspace S template ⟨d, as, []⟩).1.log ∨
    loc = S.ws ++ [".gitignore".toList] ∧ (.updateGitignore, true) ∈ (initWorkspace S template ⟨d, as, []⟩).1.log ∧
      ∃ old more, u = .file (some old) ∧
        Has (initWorkspace S template ⟨d, as, []⟩).1.disk loc (.file (some (old ++ more))) := by
  have hwf := init_wf hL hws hd template as
  have ht := (init_part template hL hws ⟨d, as, []⟩).touched loc
  generalize initWorkspace S template ⟨d, as, []⟩ = r at *
  have h0 : leafAt d loc = some u := leafAt_eq_some.2 ⟨(has_iff_lookup hd).1 h, hu⟩
  have back : ∀ {v : FsTree}, leafAt r.1.disk loc = some v → Has r.1.disk loc v := fun hv =>
    (has_iff_lookup hwf).2 (leafAt_eq_some.1 hv).1
  dsimp only at ht
  rw [h0] at ht
  generalize hv : leafAt r.1.disk loc = v at ht back
  generalize ho : some u = u' at ht
  cases ht with
  | same => exact .inl (back ho.symm)
  | schema sc _ h1 _ h2 =>
    rcases h2 with h2 | h2
    · rw [h2] at ho; cases ho
    · exact .inr (.inl ⟨schemaFile_of hL h1, h2⟩)
  | created => cases ho
  | extended old more _ h2 =>
    cases ho
    exact .inr (.inr (.inr (.inr ⟨rfl, h2, old, more, rfl, back rfl⟩)))
  | main _ p o _ h2 =>
    rcases h2 with h2 | h2
    · rw [h2] at ho; cases ho
    · exact .inr (.inr (.inl ⟨rfl, h2⟩))
  | context _ _ h2 =>
    rcases h2 with h2 | h2
    · rw [h2] at ho; cases ho
    · exact .inr (.inr (.inr (.inl ⟨rfl, h2⟩)))

/-- C105: a file that was not there before, or has another content, is one of the command's own, and its question was
answered with yes. -/
theorem C105_new (hL : PlainCase S.lang) (hws : ∀ n ∈ S.ws, ValidName n) (hd : WellFormed d) {loc : List Str} {u : FsTree}
    (hu : NotDir u) (h : Has (initWorkspace S template ⟨d, as, []⟩).1.disk loc u) :
    Has d loc u ∨
    SchemaFile S.ws loc ∧ (.schemas, true) ∈ (initWorkspace S template ⟨d, as, []⟩).1.log ∨
    loc = S.ws ++ ["main.firm".toList] ∧ (.entities, true) ∈ (initWorkspace S template ⟨d, as, []⟩).1.log ∨
    loc = S.ws ++ ["AGENTS.md".toList] ∧ (.context, true) ∈ (initWorkspace S template ⟨d, as, []⟩).1.log ∧
      u = .file (some template) ∨
    loc = S.ws ++ [".gitignore".toList] ∧ ((.createGitignore, true) ∈ (initWorkspace S template ⟨d, as, []⟩).1.log ∨
      (.updateGitignore, true) ∈ (initWorkspace S template ⟨d, as, []⟩).1.log) := by
  have hwf := init_wf hL hws hd template as
  have ht := (init_part template hL hws ⟨d, as, []⟩).touched loc
  generalize initWorkspace S template ⟨d, as, []⟩ = r at *
  have h0 : leafAt r.1.disk loc = some u := leafAt_eq_some.2 ⟨(has_iff_lookup hwf).1 h, hu⟩
  dsimp only at ht
  rw [h0] at ht
  generalize hv : leafAt d loc = v at ht
  generalize ho : some u = u' at ht
  cases ht with
  | same => rw [← ho] at hv; exact .inl ((has_iff_lookup hd).2 (leafAt_eq_some.1 hv).1)
  | schema sc _ h1 h2 => exact .inr (.inl ⟨schemaFile_of hL h1, h2⟩)
  | created h2 => exact .inr (.inr (.inr (.inr ⟨rfl, .inl h2⟩)))
  | extended old more _ h2 => exact .inr (.inr (.inr (.inr ⟨rfl, .inr h2⟩)))
  | main _ p o h2 => exact .inr (.inr (.inl ⟨rfl, h2⟩))
  | context _ h2 => cases ho; exact .inr (.inr (.inr (.inl ⟨rfl, h2, rfl⟩)))

/-- C105: with the return key alone no existing file is replaced; only .gitignore is extended. -/
theorem C105_return (hL : PlainCase S.lang) (hws : ∀ n ∈ S.ws, ValidName n) (hd : WellFormed d)
    (has : Answer.yes true ∉ as) {loc : List Str} {u : FsTree} (hu : NotDir u) (h : Has d loc u)
    (hg : loc ≠ S.ws ++ [".gitignore".toList]) : Has (initWorkspace S template ⟨d, as, []⟩).1.disk loc u := by
  obtain ⟨more, h1, h2⟩ := (init_part template hL hws ⟨d, as, []⟩).change.log
  have key : ∀ q : Question, q.default = false → (q, true) ∉ (initWorkspace S template ⟨d, as, []⟩).1.log := by
    intro q hq hm
    rw [h1] at hm
    rcases h2 (q, true) (by simpa using hm) rfl with hy | ⟨hy, -⟩
    · exact has hy
    · simp only at hy
      rw [hq] at hy
      cases hy
  rcases C105_kept (template := template) (as := as) hL hws hd hu h with h | ⟨-, h⟩ | ⟨-, h⟩ | ⟨-, h⟩ | ⟨h, -⟩
  · exact h
  · exact absurd h (key _ rfl)
  · exact absurd h (key _ rfl)
  · exact absurd h (key _ rfl)
  · exact absurd h hg

/-- C105: a file that is new or has another content comes from an answer yes or from the return key; with any other
answers nothing changes on the disk. -/
theorem C105_answered (hL : PlainCase S.lang) (hws : ∀ n ∈ S.ws, ValidName n) (hd : WellFormed d)
    (hy : Answer.yes true ∉ as) (hr : Answer.text [] ∉ as) {loc : List Str} {u : FsTree} (hu : NotDir u) :
    Has (initWorkspace S template ⟨d, as, []⟩).1.disk loc u ↔ Has d loc u := by
  obtain ⟨more, h1, h2⟩ := (init_part template hL hws ⟨d, as, []⟩).change.log
  have key : ∀ q : Question, (q, true) ∉ (initWorkspace S template ⟨d, as, []⟩).1.log := by
    intro q hm
    rw [h1] at hm
    rcases h2 (q, true) (by simpa using hm) rfl with h | ⟨-, h⟩
    · exact hy h
    · exact hr h
  constructor
  · intro h
    rcases C105_new (template := template) (as := as) hL hws hd hu h with
      h | ⟨-, h⟩ | ⟨-, h⟩ | ⟨-, h, -⟩ | ⟨-, h | h⟩
    · exact h
    all_goals exact absurd h (key _)
  · intro h
    rcases C105_kept (template := template) (as := as) hL hws hd hu h with h | ⟨-, h⟩ | ⟨-, h⟩ | ⟨-, h⟩ | ⟨-, h, -⟩
    · exact h
    all_goals exact absurd h (key _)

example : Answer.yes true ∉ [Answer.text "ja".toList, .yes false, .abort] ∧
    Answer.text [] ∉ [Answer.text "ja".toList, .yes false, .abort] := by decide

end

/-- A disk with the files of an earlier init and of someone else. -/
def exInitDisk : FsTree :=
  .dir (some [("w".toList, .dir (some [("schemas".toList, .dir (some [("person.firm".toList, .file (some "mine".toList))])),
    (".gitignore".toList, .file (some "target".toList)), ("main.firm".toList, .file (some "m".toList)),
    ("AGENTS.md".toList, .file (some "a".toList)), ("notes.txt".toList, .file (some "n".toList))]))])

example : WellFormed exInitDisk := by
  have v : ∀ s : String, (decide (s.toList ≠ []) && decide ('/' ∉ s.toList) && decide (s.toList ≠ ['.']) &&
      decide (s.toList ≠ ['.', '.'])) = true → ValidName s.toList := by
    intro s h
    simp only [Bool.and_eq_true, decide_eq_true_eq] at h
    exact ⟨h.1.1.1, h.1.1.2, h.1.2, h.2⟩
  have vs : ∀ ss : List String, (ss.all fun s => decide (s.toList ≠ []) && decide ('/' ∉ s.toList) && decide (s.toList ≠ ['.']) &&
      decide (s.toList ≠ ['.', '.'])) = true → ∀ n ∈ ss.map String.toList, ValidName n := by
    intro ss h n hn
    obtain ⟨s, hs, rfl⟩ := List.mem_map.1 hn
    exact v s (List.all_eq_true.1 h s hs)
  have all : ∀ {es : List (Str × FsTree)} (ss : List String), es.map (·.1) = ss.map String.toList →
      (ss.all fun s => decide (s.toList ≠ []) && decide ('/' ∉ s.toList) && decide (s.toList ≠ ['.']) &&
      decide (s.toList ≠ ['.', '.'])) = true → ∀ p ∈ es, ValidName p.1 := by
    intro es ss h1 h2 p hp
    exact vs ss h2 p.1 (h1 ▸ List.mem_map_of_mem hp)
  refine .dir (by decide) (all ["w"] rfl (by decide)) fun p hp => ?_
  rw [List.mem_singleton.1 hp]
  refine .dir (by decide) (all ["schemas", ".gitignore", "main.firm", "AGENTS.md", "notes.txt"] rfl (by decide)) fun p hp => ?_
  simp only [List.mem_cons, List.not_mem_nil, or_false] at hp
  rcases hp with rfl | rfl | rfl | rfl | rfl
  · refine .dir (by decide) (all ["person.firm"] rfl (by decide)) fun p hp => ?_
    rw [List.mem_singleton.1 hp]
    exact .file _
  all_goals exact .file _

/-- The return key at every question keeps the files, yes replaces them. -/
example :
    (let r := initWorkspace exShell "T".toList ⟨exInitDisk, List.replicate 7 (.text []), []⟩
     r.2 = true ∧ r.1.disk.readText ["w".toList, "main.firm".toList] = some "m".toList ∧
     r.1.disk.readText ["w".toList, "schemas".toList, "person.firm".toList] = some "mine".toList ∧
     r.1.disk.readText ["w".toList, ".gitignore".toList] = some "target\n**/*.firm.graph\n".toList) ∧
    (let r := initWorkspace exShell "T".toList ⟨exInitDisk, [.yes true, .yes true, .yes true, .yes true, .yes true,
        .text "Ann".toList, .text "Acme".toList, .yes true, .yes true], []⟩
     r.2 = true ∧ r.1.disk.readText ["w".toList, "AGENTS.md".toList] = some "T".toList ∧
     r.1.disk.readText ["w".toList, "notes.txt".toList] = some "n".toList ∧
     (r.1.disk.readText ["w".toList, "main.firm".toList]).isSome = true ∧
     r.1.disk.readText ["w".toList, "main.firm".toList] ≠ some "m".toList) := by decide +kernel

/-! ## C106 -/

/-- A command that ended well went through all its parts. -/
theorem init_success {S : Shell} {template : Str} {s : InitState} (h : (initWorkspace S template s).2 = true) :
    ∃ (b : Bool) (rest : List Answer) (b' : Bool) (rest' : List Answer) (b'' : Bool) (rest'' : List Answer)
      (s1 : InitState) (r1 r2 : InitState × Bool) (s3 : InitState) (r3 : InitState × Bool) (s4 : InitState) (r4 : InitState × Bool),
      s1 = ⟨s.disk, rest, s.log ++ [(.schemas, b)]⟩ ∧ (∀ a ∈ rest, a ∈ s.answers) ∧
      r1 = (if b then createDefaultSchemas S s1 else (s1, true)) ∧ r1.2 = true ∧
      r2 = updateGitignore S r1.1 ∧ r2.2 = true ∧
      s3 = ⟨r2.1.disk, rest', r2.1.log ++ [(.entities, b')]⟩ ∧ (∀ a ∈ rest', a ∈ r2.1.answers) ∧
      r3 = (if b' then createDefaultEntities S s3 else (s3, true)) ∧ r3.2 = true ∧
      s4 = ⟨r3.1.disk, rest'', r3.1.log ++ [(.context, b'')]⟩ ∧
      r4 = (if b'' then createContext S template s4 else (s4, true)) ∧ r4.2 = true ∧
      initWorkspace S template s = r4 := by
  have hc : ∀ {s : InitState} {q : Question} {k : Bool → InitState → InitState × Bool}, (s.confirm q k).2 = true →
      ∃ b rest, s.confirm q k = k b ⟨s.disk, rest, s.log ++ [(q, b)]⟩ ∧ ∀ a ∈ rest, a ∈ s.answers := by
    intro s q k h
    rcases confirm_cases s q k with h' | ⟨b, rest, h', hch⟩
    · rw [h'] at h; cases h
    · exact ⟨b, rest, h', (hch (fun _ => False)).answers⟩
  have ht : ∀ {r : InitState × Bool} {f : InitState → InitState × Bool}, (initThen r f).2 = true →
      r.2 = true ∧ initThen r f = f r.1 := by
    intro r f h
    rcases initThen_cases r f with ⟨h1, h2⟩ | h2
    · rw [h2, h1] at h; cases h
    · exact h2
  unfold initWorkspace at h ⊢
  obtain ⟨b, rest, e1, ha⟩ := hc h
  rw [e1] at h ⊢
  obtain ⟨h1, e2⟩ := ht h
  rw [e2] at h ⊢
  obtain ⟨h2, e3⟩ := ht h
  rw [e3] at h ⊢
  obtain ⟨b', rest', e4, ha'⟩ := hc h
  rw [e4] at h ⊢
  obtain ⟨h3, e5⟩ := ht h
  rw [e5] at h ⊢
  obtain ⟨b'', rest'', e6, -⟩ := hc h
  rw [e6] at h ⊢
  exact ⟨b, rest, b', rest', b'', rest'', _, _, _, _, _, _, _, rfl, ha, rfl, h1, rfl, h2, rfl, ha', rfl, h3, rfl, rfl, h, rfl⟩

/-- The questions that were asked between two states. -/
def Questioned (qs : List Question) (s t : InitState) : Prop := ∀ q ∈ t.log, q ∈ s.log ∨ q.1 ∈ qs

theorem asked_confirm {qs : List Question} {s : InitState} {q : Question} {k : Bool → InitState → InitState × Bool} (hq : q ∈ qs)
    (hk : ∀ b t, Questioned qs t (k b t).1) : Questioned qs s (s.confirm q k).1 := by
  rcases confirm_cases s q k with h | ⟨b, rest, h, -⟩
  · rw [h]
    exact fun _ h => .inl h
  · rw [h]
    intro p hp
    rcases hk b _ p hp with h | h
    · rcases List.mem_append.1 h with h | h
      · exact .inl h
      · rw [List.mem_singleton.1 h]; exact .inr hq
    · exact .inr h

theorem asked_write {qs : List Question} (s : InitState) (l : List Str) (text : Str) : Questioned qs s (s.write l text).1 := by
  unfold InitState.write
  split <;> exact fun _ h => .inl h

theorem asked_enter {qs : List Question} {s : InitState} {k : Str → InitState → InitState × Bool}
    (hk : ∀ b t, Questioned qs t (k b t).1) : Questioned qs s (s.enter k).1 := by
  rcases enter_cases s k with h | ⟨b, rest, h, -⟩
  · rw [h]
    exact fun _ h => .inl h
  · rw [h]
    exact hk b _

theorem asked_if {qs : List Question} {s : InitState} {b : Bool} {r : InitState × Bool} (h : Questioned qs s r.1) :
    Questioned qs s (if b then r else (s, true)).1 := by
  cases b with
  | true => exact h
  | false => exact fun _ h => .inl h

theorem asked_writeSchemas {qs : List Question} (ws : List Str) : ∀ (scs : List EntitySchema) (s : InitState),
    Questioned qs s (writeSchemas ws scs s).1
  | [], _ => fun _ h => .inl h
  | sc :: scs, s => by
    unfold writeSchemas
    rcases initThen_cases (s.write (schemaPlace ws sc.entityType) (generateSchema .default sc)) (writeSchemas ws scs)
      with ⟨-, h⟩ | ⟨-, h⟩
    · rw [h]; exact asked_write _ _ _
    · rw [h]
      intro q hq
      rcases asked_writeSchemas ws scs _ q hq with h | h
      · exact asked_write _ _ _ q h
      · exact .inr h

theorem asked_schemas (S : Shell) (s : InitState) : Questioned [.overwriteSchemas] s (createDefaultSchemas S s).1 := by
  have hm : ∀ s : InitState, Questioned [.overwriteSchemas] s (makeSchemas S s).1 := by
    intro s
    unfold makeSchemas
    split
    · exact fun _ h => .inl h
    · next d _ => exact asked_writeSchemas S.ws _ ⟨d, s.answers, s.log⟩
  unfold createDefaultSchemas
  split
  · exact asked_confirm List.mem_cons_self fun b t => asked_if (hm t)
  · exact hm s

theorem asked_entities (S : Shell) (s : InitState) : Questioned [.overwriteMain] s (createDefaultEntities S s).1 := by
  have hm : ∀ s : InitState, Questioned [.overwriteMain] s (makeEntities S s).1 := fun s =>
    asked_enter fun _ _ => asked_enter fun _ t => asked_write t _ _
  unfold createDefaultEntities
  split
  · exact asked_confirm List.mem_cons_self fun b t => asked_if (hm t)
  · exact hm s

theorem asked_context (S : Shell) (template : Str) (s : InitState) : Questioned [.overwriteContext] s (createContext S template s).1 := by
  unfold createContext
  split
  · exact asked_confirm List.mem_cons_self fun b t => asked_if (asked_write t _ _)
  · exact asked_write _ _ _

/-- What is known of .gitignore after a command that ended well. -/
theorem init_gitignore {S : Shell} {template : Str} (hL : PlainCase S.lang) (hws : ∀ n ∈ S.ws, ValidName n) {d : FsTree}
    {as : List Answer} (h : (initWorkspace S template ⟨d, as, []⟩).2 = true)
    (hq : (.updateGitignore, true) ∈ (initWorkspace S template ⟨d, as, []⟩).1.log ∨
      (.createGitignore, true) ∈ (initWorkspace S template ⟨d, as, []⟩).1.log) :
    ∃ new, leafAt (initWorkspace S template ⟨d, as, []⟩).1.disk (S.ws ++ [".gitignore".toList]) = some (.file (some new)) ∧
      (leafAt d (S.ws ++ [".gitignore".toList]) = none ∧ new = gitignoreEntries ∨ ∃ old, leafAt d (S.ws ++ [".gitignore".toList]) = some (.file (some old)) ∧
        (gitignoreAppended old = none ∧ new = old ∨ ∃ more, gitignoreAppended old = some more ∧ new = old ++ more)) := by
  obtain ⟨b, rest, b', rest', b'', rest'', s1, r1, r2, s3, r3, s4, r4, e1, -, e2, h2, e3, h3, e4, -, e5, h5, e6, e7, h7, e8⟩ :=
    init_success h
  rw [e8] at hq ⊢
  have p1 : Change (IsSchemaPlace S) s1 r1.1 := by
    rw [e2]
    cases b with
    | false => exact .refl _ _
    | true => exact (createDefaultSchemas_spec hL hws s1).1
  have a1 : Questioned [.overwriteSchemas] s1 r1.1 := by rw [e2]; exact asked_if (asked_schemas S s1)
  obtain ⟨p2, -, p2'⟩ := updateGitignore_spec hws r1.1
  rw [← e3] at p2 p2'
  have p3 : Change (fun l => l = S.ws ++ ["main.firm".toList]) s3 r3.1 := by
    rw [e5]
    cases b' with
    | false => exact .refl _ _
    | true => exact (createDefaultEntities_spec hws s3).1
  have a3 : Questioned [.overwriteMain] s3 r3.1 := by rw [e5]; exact asked_if (asked_entities S s3)
  have p4 : Change (fun l => l = S.ws ++ ["AGENTS.md".toList]) s4 r4.1 := by
    rw [e7]
    cases b'' with
    | false => exact .refl _ _
    | true => exact (createContext_spec template hws s4).1
  have a4 : Questioned [.overwriteContext] s4 r4.1 := by rw [e7]; exact asked_if (asked_context S template s4)
  have k1 : leafAt r1.1.disk (S.ws ++ [".gitignore".toList]) = leafAt d (S.ws ++ [".gitignore".toList]) := by
    rw [p1.rest, e1]
    rintro ⟨sc, -, he⟩
    exact schemaPlace_ne _ _ _ he.symm
  have k2 : leafAt r4.1.disk (S.ws ++ [".gitignore".toList]) = leafAt r2.1.disk (S.ws ++ [".gitignore".toList]) := by
    rw [p4.rest _ (gitignore_ne_agents _), e6]
    dsimp only
    rw [p3.rest _ (gitignore_ne_main _), e4]
  obtain ⟨q, b0, hlog, hq0, hnew⟩ := p2' h3
  have hkey : ∀ q', (q' = .updateGitignore ∨ q' = .createGitignore) → (q', true) ∈ r4.1.log → b0 = true := by
    intro q' hq' hm
    have hne : ∀ q'' : Question, (q'' ≠ .updateGitignore ∧ q'' ≠ .createGitignore) → q' ≠ q'' := by
      rintro q'' ⟨n1, n2⟩ rfl
      rcases hq' with rfl | rfl
      · exact n1 rfl
      · exact n2 rfl
    rcases a4 _ hm with hm | hm
    · rw [e6] at hm
      rcases List.mem_append.1 hm with hm | hm
      · rcases a3 _ hm with hm | hm
        · rw [e4] at hm
          rcases List.mem_append.1 hm with hm | hm
          · rw [hlog] at hm
            rcases List.mem_append.1 hm with hm | hm
            · rcases a1 _ hm with hm | hm
              · rw [e1] at hm
                exact absurd (Prod.mk.inj (List.mem_singleton.1 hm)).1 (hne _ (by decide))
              · exact absurd (List.mem_singleton.1 hm) (hne _ (by decide))
            · exact (Prod.mk.inj (List.mem_singleton.1 hm)).2.symm
          · exact absurd (Prod.mk.inj (List.mem_singleton.1 hm)).1 (hne _ (by decide))
        · exact absurd (List.mem_singleton.1 hm) (hne _ (by decide))
      · exact absurd (Prod.mk.inj (List.mem_singleton.1 hm)).1 (hne _ (by decide))
    · exact absurd (List.mem_singleton.1 hm) (hne _ (by decide))
  have hb : b0 = true := by
    rcases hq with hq | hq
    · exact hkey _ (.inl rfl) hq
    · exact hkey _ (.inr rfl) hq
  obtain ⟨new, hn1, hn2⟩ := hnew hb
  refine ⟨new, k2.trans hn1, hn2.imp (fun hh => ⟨k1 ▸ hh.1, hh.2⟩) ?_⟩
  rintro ⟨old, hr, ho⟩
  refine ⟨old, ?_, ho⟩
  rw [← k1]
  refine leafAt_eq_some.2 ⟨?_, by rintro es ⟨⟩⟩
  unfold FsTree.readText at hr
  split at hr
  · next u hu => rw [hu, ← hr]
  · cases hr

theorem appended_cases (old : Str) : (gitignoreAppended old = none ↔ Occurs ".DS_Store".toList old ∧ Occurs "*.firm.graph".toList old) ∧
    ∀ more, gitignoreAppended old = some more → more = (if endsWith old ['\n'] then [] else ['\n']) ++ gitignoreEntries := by
  unfold gitignoreAppended
  rw [← strContains_iff, ← strContains_iff, ← Bool.and_eq_true]
  split
  · next h => exact ⟨⟨fun _ => h, fun _ => rfl⟩, fun _ h => by cases h⟩
  · next h => exact ⟨⟨fun h' => (by cases h'), fun h' => absurd h' h⟩, fun _ h => (Option.some.inj h).symm⟩

/-- C106: after an init that was allowed to write .gitignore, the file has the text that the command looks for, and what it
had before. -/
theorem C106_marked {S : Shell} {template : Str} (hL : PlainCase S.lang) (hws : ∀ n ∈ S.ws, ValidName n) {d : FsTree}
    (hd : WellFormed d) {as : List Answer} (h : (initWorkspace S template ⟨d, as, []⟩).2 = true)
    (hq : (.updateGitignore, true) ∈ (initWorkspace S template ⟨d, as, []⟩).1.log ∨
      (.createGitignore, true) ∈ (initWorkspace S template ⟨d, as, []⟩).1.log) :
    ∃ new, Has (initWorkspace S template ⟨d, as, []⟩).1.disk (S.ws ++ [".gitignore".toList]) (.file (some new)) ∧
      Occurs "*.firm.graph".toList new ∧
      ∀ old, Has d (S.ws ++ [".gitignore".toList]) (.file (some old)) → old <+: new := by
  obtain ⟨new, h1, h2⟩ := init_gitignore hL hws h hq
  have hwf := init_wf hL hws hd template as
  have he : Occurs "*.firm.graph".toList gitignoreEntries := ⟨"**/".toList, "\n".toList, by decide⟩
  refine ⟨new, (has_iff_lookup hwf).2 (leafAt_eq_some.1 h1).1, ?_, fun old ho => ?_⟩
  · rcases h2 with ⟨-, rfl⟩ | ⟨old, -, ⟨h2, rfl⟩ | ⟨more, h2, rfl⟩⟩
    · exact he
    · exact ((appended_cases new).1.1 h2).2
    · rw [(appended_cases old).2 more h2]
      obtain ⟨a, b, hab⟩ := he
      exact ⟨old ++ (if endsWith old ['\n'] then [] else ['\n']) ++ a, b, by rw [hab]; simp only [List.append_assoc]⟩
  · have ho' := leafAt_eq_some.2 ⟨(has_iff_lookup hd).1 ho, by rintro es ⟨⟩⟩
    rcases h2 with ⟨h3, -⟩ | ⟨old', h3, h2⟩
    · rw [ho'] at h3; cases h3
    · rw [ho'] at h3
      cases h3
      rcases h2 with ⟨-, rfl⟩ | ⟨more, -, rfl⟩
      · exact List.prefix_refl _
      · exact List.prefix_append _ _

/-- C106, in part: if the file did not have the two texts that the command looks for, it ends in a line of its own that
ignores the graph files.  Missing: files with the two texts in other places (`C106_comment`). -/
theorem C106_line_partial {S : Shell} {template : Str} (hL : PlainCase S.lang) (hws : ∀ n ∈ S.ws, ValidName n) {d : FsTree}
    (hd : WellFormed d) {as : List Answer} (h : (initWorkspace S template ⟨d, as, []⟩).2 = true)
    (hq : (.updateGitignore, true) ∈ (initWorkspace S template ⟨d, as, []⟩).1.log ∨
      (.createGitignore, true) ∈ (initWorkspace S template ⟨d, as, []⟩).1.log)
    (hold : ∀ old, Has d (S.ws ++ [".gitignore".toList]) (.file (some old)) →
      ¬ (Occurs ".DS_Store".toList old ∧ Occurs "*.firm.graph".toList old)) :
    ∃ pre, Has (initWorkspace S template ⟨d, as, []⟩).1.disk (S.ws ++ [".gitignore".toList])
        (.file (some (pre ++ "**/*.firm.graph\n".toList))) ∧ (pre = [] ∨ pre.getLast? = some '\n') := by
  obtain ⟨new, h1, h2⟩ := init_gitignore hL hws h hq
  have hwf := init_wf hL hws hd template as
  have hh := (has_iff_lookup hwf).2 (leafAt_eq_some.1 h1).1
  rcases h2 with ⟨-, rfl⟩ | ⟨old, h3, ⟨h2, rfl⟩ | ⟨more, h2, rfl⟩⟩
  · exact ⟨[], hh, .inl rfl⟩
  · exact absurd ((appended_cases new).1.1 h2) (hold new ((has_iff_lookup hd).2 (leafAt_eq_some.1 h3).1))
  · rw [(appended_cases old).2 more h2, ← List.append_assoc] at hh
    refine ⟨_, hh, .inr ?_⟩
    split
    · next hn =>
      rw [List.append_nil]
      unfold endsWith at hn
      obtain ⟨a, ha⟩ := List.isSuffixOf_iff_suffix.1 hn
      rw [← ha]
      simp
    · simp

/-- A text whose last character is not in the second half occurs in the first half. -/
theorem occurs_left {p a b : Str} {c : Char} (h : Occurs (p ++ [c]) (a ++ b)) (hc : c ∉ b) : Occurs (p ++ [c]) a := by
  obtain ⟨u, v, h⟩ := h
  rcases List.append_eq_append_iff.1 h with ⟨w, h1, h2⟩ | ⟨w, h1, h2⟩
  · rcases List.eq_nil_or_concat w with rfl | ⟨w', e, rfl⟩
    · rw [List.append_nil] at h1
      exact ⟨u, [], by rw [← h1, List.append_nil]⟩
    · rw [List.concat_eq_append, ← List.append_assoc, ← List.append_assoc] at h1
      have := List.append_inj_right' h1 rfl
      simp only [List.cons.injEq, and_true] at this
      rw [h2, List.concat_eq_append, this] at hc
      simp at hc
  · exact ⟨u, w, h1⟩

/-- C106: every repetition appends the line again if the file does not mention .DS_Store, which the command never writes. -/
theorem C106_again {old more : Str} (h : ¬ Occurs ".DS_Store".toList old) (hm : gitignoreAppended old = some more) :
    ¬ Occurs ".DS_Store".toList (old ++ more) ∧ ∃ more', gitignoreAppended (old ++ more) = some more' ∧
      Occurs "**/*.firm.graph".toList more' := by
  have hmore := (appended_cases old).2 more hm
  have h1 : ¬ Occurs ".DS_Store".toList (old ++ more) := by
    intro ho
    refine h (occurs_left (p := ".DS_Stor".toList) (c := 'e') (b := more) ho ?_)
    rw [hmore]
    split <;> decide
  refine ⟨h1, ?_⟩
  cases hx : gitignoreAppended (old ++ more) with
  | none => exact absurd ((appended_cases _).1.1 hx).1 h1
  | some more' =>
    refine ⟨more', rfl, ?_⟩
    rw [(appended_cases _).2 more' hx]
    exact ⟨_, "\n".toList, by rw [List.append_assoc]; rfl⟩

/-- C106, in part: a file with the two texts is left as it is.  Missing: the line that the command writes itself is not
recognised (`C106_again`, `C106_twice`). -/
theorem C106_repeat_partial {S : Shell} {template : Str} (hL : PlainCase S.lang) (hws : ∀ n ∈ S.ws, ValidName n) {d : FsTree}
    (hd : WellFormed d) (as : List Answer) {old : Str} (h : Has d (S.ws ++ [".gitignore".toList]) (.file (some old)))
    (h1 : Occurs ".DS_Store".toList old) (h2 : Occurs "*.firm.graph".toList old) :
    Has (initWorkspace S template ⟨d, as, []⟩).1.disk (S.ws ++ [".gitignore".toList]) (.file (some old)) := by
  have hwf := init_wf hL hws hd template as
  have ht := (init_part template hL hws ⟨d, as, []⟩).touched (S.ws ++ [".gitignore".toList])
  generalize initWorkspace S template ⟨d, as, []⟩ = r at *
  have h0 := leafAt_eq_some.2 ⟨(has_iff_lookup hd).1 h, by rintro es ⟨⟩⟩
  dsimp only at ht
  rw [h0] at ht
  generalize hv : leafAt r.1.disk (S.ws ++ [".gitignore".toList]) = v at ht
  generalize ho : some (FsTree.file (some old)) = u' at ht
  generalize hl : S.ws ++ [".gitignore".toList] = l at ht
  cases ht with
  | same => rw [← hl]; exact (has_iff_lookup hwf).2 (leafAt_eq_some.1 (hv.trans ho.symm)).1
  | schema sc _ _ _ _ => exact absurd hl.symm (schemaPlace_ne _ _ _)
  | created => cases ho
  | extended old' more h3 _ =>
    cases ho
    rw [(appended_cases old).1.2 ⟨h1, h2⟩] at h3
    cases h3
  | main => exact absurd hl (gitignore_ne_main _)
  | context => exact absurd hl (gitignore_ne_agents _)

/-- C106 is false: a second init with the same answers extends .gitignore again. -/
theorem C106_twice : ∃ (as : List Answer) (d : FsTree),
    (let r := initWorkspace exShell [] ⟨d, as, []⟩
     let r' := initWorkspace exShell [] ⟨r.1.disk, as, []⟩
     r.2 = true ∧ r'.2 = true ∧
     r.1.disk.readText ["w".toList, ".gitignore".toList] = some "**/*.firm.graph\n".toList ∧
     r'.1.disk.readText ["w".toList, ".gitignore".toList] = some "**/*.firm.graph\n**/*.firm.graph\n".toList) :=
  ⟨[.yes false, .yes true, .yes false, .yes false], .dir (some [("w".toList, .dir (some []))]), by decide +kernel⟩

/-- C106 is false: a remark that has the two texts keeps the command from writing the line. -/
theorem C106_comment : ∃ (as : List Answer) (d : FsTree),
    (let r := initWorkspace exShell [] ⟨d, as, []⟩
     r.2 = true ∧ (.updateGitignore, true) ∈ r.1.log ∧
     r.1.disk.readText ["w".toList, ".gitignore".toList] = some "# keep .DS_Store and *.firm.graph\n".toList) :=
  ⟨[.yes false, .yes true, .yes false, .yes false],
    .dir (some [("w".toList, .dir (some [(".gitignore".toList, .file (some "# keep .DS_Store and *.firm.graph\n".toList))]))]),
    by decide +kernel⟩

end Firm
