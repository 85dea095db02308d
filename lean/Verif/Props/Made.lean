import Verif.Props.Trees

/-! # Entities that a program makes, writes and reads again (C144) -/

namespace Firm
open Spec

variable {L : Lang} {o : GeneratorOptions} {source : Str}

/-- What `Entity::new(EntityId::new(id), EntityType::new(ty))` with the given fields makes. -/
def Spec.made (t : CaseTable) (id ty : Str) (fields : List (FieldId × FieldValue)) : Entity :=
  ⟨t.snake id, t.snake ty, fields⟩

/-- `rest` is what comes after the first dot of the id, or all of it if there is no dot. -/
def Spec.OwnPart (id rest : Str) : Prop :=
  (∃ p, '.' ∉ p ∧ id = p ++ '.' :: rest) ∨ ('.' ∉ id ∧ rest = id)

theorem ownPart_decompose (id : Str) : OwnPart id (decomposeEntityId id).2 := by
  rcases C48_decompose_all id with ⟨h, h'⟩ | ⟨p, q, h1, h2, h3⟩
  · exact .inr ⟨h, by rw [h']⟩
  · exact .inl ⟨p, h2, by rw [h3]; exact h1⟩

theorem ownPart_unique {id r r' : Str} (h : OwnPart id r) (h' : OwnPart id r') : r = r' := by
  have key : ∀ {p p' q q' : Str}, '.' ∉ p → '.' ∉ p' → p ++ '.' :: q = p' ++ '.' :: q' → q = q' := by
    intro p
    induction p with
    | nil =>
      intro p' q q' _ h2 h
      cases p' with
      | nil => simpa using h
      | cons c p' =>
        simp only [List.nil_append, List.cons_append, List.cons.injEq] at h
        exact absurd (by rw [← h.1]; exact List.mem_cons_self) h2
    | cons c p ih =>
      intro p' q q' h1 h2 h
      cases p' with
      | nil =>
        simp only [List.nil_append, List.cons_append, List.cons.injEq] at h
        exact absurd (by rw [h.1]; exact List.mem_cons_self) h1
      | cons d p' =>
        simp only [List.cons_append, List.cons.injEq] at h
        exact ih (fun hm => h1 (List.mem_cons_of_mem _ hm)) (fun hm => h2 (List.mem_cons_of_mem _ hm)) h.2
  rcases h with ⟨p, hp, rfl⟩ | ⟨hd, rfl⟩
  · rcases h' with ⟨p', hp', h⟩ | ⟨hd', _⟩
    · exact key hp hp' h
    · exact absurd (by simp) hd'
  · rcases h' with ⟨p', hp', rfl⟩ | ⟨_, rfl⟩
    · exact absurd (by simp) hd
    · rfl

/-- A normal type, a dot and the own part of a normal id make a normal id. -/
theorem snake_joined {t : CaseTable} (ht : RegularCase t) {ty id rest : Str} (hty : IsSnake t ty) (hid : IsSnake t id)
    (hr : OwnPart id rest) : IsSnake t (ty ++ '.' :: rest) := by
  have hsuf : ∃ p, id = p ++ rest := by
    rcases hr with ⟨p, _, h⟩ | ⟨_, rfl⟩
    · exact ⟨p ++ ['.'], by simpa using h⟩
    · exact ⟨[], rfl⟩
  obtain ⟨p, hp⟩ := hsuf
  have hchain : ∀ R : Char → Char → Prop, (∀ c, ¬ R c '.') → (∀ c, ¬ R '.' c) → NoNeighbours R ty → NoNeighbours R id →
      NoNeighbours R (ty ++ '.' :: rest) := by
    intro R h1 h2 h3 h4
    rw [noNeighbours_iff] at h3 h4 ⊢
    rw [hp] at h4
    refine List.isChain_append.2 ⟨h3, ?_, ?_⟩
    · refine List.isChain_cons.2 ⟨fun c _ => h2 c, (List.isChain_append.1 h4).2.1⟩
    · intro x _ y hy
      simp only [List.head?_cons, Option.mem_def, Option.some.injEq] at hy
      subst hy
      exact h1 x
  have hdot : t.isUpper '.' = false ∧ t.isLower '.' = false := ht.delim '.' (.inr rfl)
  refine ⟨?_, ?_, ?_, ?_, ?_⟩
  · intro c hc
    rcases List.mem_append.1 hc with hc | hc
    · exact hty.chars c hc
    · rcases List.mem_cons.1 hc with rfl | hc
      · exact ⟨hdot.1, by decide, by decide⟩
      · exact hid.chars c (by rw [hp]; exact List.mem_append_right _ hc)
  · cases ty with
    | nil => simp
    | cons c ty => exact hty.first
  · cases rest using List.reverseRecOn with
    | nil => simp
    | append_singleton r c =>
      have := hid.last
      rw [hp, ← List.append_assoc, List.getLast?_concat] at this
      rw [← List.cons_append, ← List.append_assoc, List.getLast?_concat]
      exact this
  · exact hchain _ (fun c h => absurd h.2 (by decide)) (fun c h => absurd h.1 (by decide)) hty.doubled hid.doubled
  · refine hchain _ (fun c h => ?_) (fun c h => ?_) hty.contact hid.contact
    · rcases h with h | h
      · exact absurd h.2 (by decide)
      · rw [hdot.2] at h; exact absurd h.2 (by decide)
    · rcases h with h | h
      · rw [hdot.2] at h; exact absurd h.1 (by decide)
      · exact absurd h.1 (by decide)

/-- C144: an entity that a program makes is read again, from the text generated for it, with its type and fields, and
with its type and the own part of its id as id: whatever stands before the first dot of the id is lost. -/
theorem C144_read (ht : RegularCase L.cases) (id ty : Str) (fields : List (FieldId × FieldValue))
    (h : ∀ p ∈ fields, ReadsBack L o source p.2) {rest : Str} (hr : OwnPart (L.cases.snake id) rest) :
    toEntity L source (entityNode L o (made L.cases id ty fields)) =
      .ok ⟨L.cases.snake ty ++ '.' :: rest, L.cases.snake ty, fields⟩ := by
  rw [C70_reads_as _ h]
  have hty := C47_normal_partial ht ty
  have hl : L.cases.lower (L.cases.snake ty) = L.cases.snake ty := lower_fixed ht fun c hc => (hty.chars c hc).1
  have hrest : (decomposeEntityId (L.cases.snake id)).2 = rest := ownPart_unique (ownPart_decompose _) hr
  show Except.ok (Entity.mk (L.cases.composeEntityId (L.cases.lower (L.cases.snake ty))
    (decomposeEntityId (L.cases.snake id)).2) (L.cases.lower (L.cases.snake ty)) fields) = _
  rw [hl, hrest, compose_parts ht (snake_joined ht hty (C47_normal_partial ht id) hr)]

/-- C144: the id is kept exactly when it begins with the type and a dot. Missing: ids made in any other way, as in
the examples of the guide (`C144_guide`, `C144_clash`). -/
theorem C144_kept_partial (ht : RegularCase L.cases) (id ty : Str) (hdot : '.' ∉ L.cases.snake ty)
    (fields : List (FieldId × FieldValue)) (h : ∀ p ∈ fields, ReadsBack L o source p.2) :
    toEntity L source (entityNode L o (made L.cases id ty fields)) = .ok (made L.cases id ty fields) ↔
      ∃ i, L.cases.snake id = L.cases.snake ty ++ '.' :: i := by
  rw [C144_read ht id ty fields h (ownPart_decompose _)]
  constructor
  · intro he
    injection he with he
    injection he with he
    exact ⟨_, he.symm⟩
  · rintro ⟨i, hi⟩
    rw [ownPart_unique (ownPart_decompose (L.cases.snake id)) (.inl ⟨_, hdot, hi⟩)]
    unfold made
    rw [hi]

/-- C144: two entities that a program makes are read under one id exactly when their types and the own parts of
their ids agree. -/
theorem C144_apart (ht : RegularCase L.cases) {id ty id' ty' rest rest' : Str}
    (hdot : '.' ∉ L.cases.snake ty) (hdot' : '.' ∉ L.cases.snake ty') {fields fields' : List (FieldId × FieldValue)}
    (hr : OwnPart (L.cases.snake id) rest) (hr' : OwnPart (L.cases.snake id') rest') {e e' : Entity}
    (h : ∀ p ∈ fields, ReadsBack L o source p.2) (h' : ∀ p ∈ fields', ReadsBack L o source p.2)
    (he : toEntity L source (entityNode L o (made L.cases id ty fields)) = .ok e)
    (he' : toEntity L source (entityNode L o (made L.cases id' ty' fields')) = .ok e') :
    e.id = e'.id ↔ L.cases.snake ty = L.cases.snake ty' ∧ rest = rest' := by
  rw [C144_read ht id ty fields h hr] at he
  rw [C144_read ht id' ty' fields' h' hr'] at he'
  cases he
  cases he'
  constructor
  · intro hid
    dsimp only at hid
    have h2 : rest = rest' := ownPart_unique (.inl ⟨_, hdot, rfl⟩) (.inl ⟨_, hdot', hid⟩)
    subst h2
    exact ⟨List.append_cancel_right hid, rfl⟩
  · rintro ⟨h1, rfl⟩
    dsimp only
    rw [h1]

/-- C144 is false for the first example of the guide (docs/src/library/getting-started.md): the text is the one shown
there, and the entity that is read from it is not the one that was made. -/
theorem C144_guide : ∃ e e' : Entity,
    e = made exLang.cases "john_doe".toList "person".toList [("name".toList, .string "John Doe".toList)] ∧
    generateDsl exLang .default [e] = "person john_doe {\n    name = \"John Doe\"\n}\n".toList ∧
    toEntity exLang [] (entityNode exLang .default e) = .ok e' ∧ e.id = "john_doe".toList ∧
    e'.id = "person.john_doe".toList := by
  have h1 : exLang.cases.snake "john_doe".toList = "john_doe".toList := by decide +kernel
  have h2 : exLang.cases.snake "person".toList = "person".toList := by decide +kernel
  have hr : OwnPart (exLang.cases.snake "john_doe".toList) "john_doe".toList := by
    rw [h1]
    exact .inr ⟨by decide, rfl⟩
  have h3 := C144_read (L := exLang) (o := .default) (source := []) asciiTable_regular "john_doe".toList "person".toList
    [("name".toList, .string "John Doe".toList)] (fun p hp => by
      rw [List.mem_singleton.1 hp]
      exact ⟨.string "John Doe".toList, rfl, rfl⟩) hr
  refine ⟨_, _, rfl, ?_, h3, h1, ?_⟩
  · decide +kernel
  · rw [h2]
    rfl

/-- C144 is false for the ids that the guide makes for follow-up tasks (docs/src/library/examples.md,
`followup_{interaction id}`): the task is accepted beside another one in the graph, and what is written for the two is
read as two entities with one id, which no graph accepts. -/
theorem C144_clash : ∃ e₁ e₂ e₁' e₂' : Entity,
    e₁ = made exLang.cases "task.kick_off".toList "task".toList [] ∧
    e₂ = made exLang.cases ("followup_".toList ++ "interaction.kick_off".toList) "task".toList [] ∧
    (Graph.empty.addEntities [e₁, e₂]).2 = .ok () ∧
    toEntity exLang [] (entityNode exLang .default e₁) = .ok e₁' ∧
    toEntity exLang [] (entityNode exLang .default e₂) = .ok e₂' ∧
    (Graph.empty.addEntities [e₁', e₂']).2 ≠ .ok () := by
  have a1 : exLang.cases.snake "task.kick_off".toList = "task.kick_off".toList := by decide +kernel
  have a2 : exLang.cases.snake ("followup_".toList ++ "interaction.kick_off".toList) =
      "followup_interaction.kick_off".toList := by decide +kernel
  have a3 : exLang.cases.snake "task".toList = "task".toList := by decide +kernel
  have r1 : OwnPart (exLang.cases.snake "task.kick_off".toList) "kick_off".toList := by
    rw [a1]
    exact .inl ⟨"task".toList, by decide, rfl⟩
  have r2 : OwnPart (exLang.cases.snake ("followup_".toList ++ "interaction.kick_off".toList)) "kick_off".toList := by
    rw [a2]
    exact .inl ⟨"followup_interaction".toList, by decide, rfl⟩
  have h1 := C144_read (L := exLang) (o := .default) (source := []) asciiTable_regular _ "task".toList []
    (fun p hp => by cases hp) r1
  have h2 := C144_read (L := exLang) (o := .default) (source := []) asciiTable_regular _ "task".toList []
    (fun p hp => by cases hp) r2
  rw [a3] at h1 h2
  refine ⟨_, _, _, _, rfl, rfl, ?_, h1, h2, ?_⟩
  · unfold made
    rw [a1, a2, a3]
    decide +kernel
  · decide +kernel

/-! ## Example -/

example : toEntity exLang [] (entityNode exLang .default (made exLang.cases "Person.JohnDoe".toList "Person".toList
    [("age".toList, .integer 42)])) = .ok (made exLang.cases "Person.JohnDoe".toList "Person".toList
    [("age".toList, .integer 42)]) := by
  have h1 : exLang.cases.snake "Person.JohnDoe".toList = "person.john_doe".toList := by decide +kernel
  have h2 : exLang.cases.snake "Person".toList = "person".toList := by decide +kernel
  refine (C144_kept_partial (L := exLang) asciiTable_regular _ _ (by rw [h2]; decide) _ ?_).2 ⟨"john_doe".toList, ?_⟩
  · intro p hp
    rw [List.mem_singleton.1 hp]
    exact ⟨.integer 42, rfl, rfl⟩
  · rw [h1, h2]
    decide

end Firm
