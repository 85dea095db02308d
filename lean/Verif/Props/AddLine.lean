import Verif.Model.AddLine
import Verif.Props.Command

/-!
# C133: no argument of `firm add` is dropped silently
-/

namespace Firm

open Spec

/-- Some argument other than the target file is given. -/
def Spec.Given (a : AddLine) : Prop :=
  a.type ≠ none ∨ a.id ≠ none ∨ a.fields ≠ [] ∨ a.lists ≠ [] ∨ a.values ≠ []

theorem wordsOf_nil {ps : List (Str × Str)} : (wordsOf ps).isEmpty = true ↔ ps = [] := by
  cases ps <;> simp [wordsOf]

theorem nonInteractive_iff (a : AddLine) : a.nonInteractive = true ↔ Given a := by
  unfold AddLine.nonInteractive Given
  have h : ∀ ps, (!(wordsOf ps).isEmpty) = true ↔ ps ≠ [] := by
    intro ps
    rw [ne_eq, ← wordsOf_nil]
    simp
  simp only [Bool.or_eq_true, h, Option.isSome_iff_ne_none, or_assoc]

/-- C133: the user is asked exactly if nothing but a target file is given; otherwise the answers make no difference. -/
theorem C133_asked (D : Dialogue) (g : Graph) (schemas : List EntitySchema) (d : FsTree) (a : AddLine) :
    (¬ Given a → ∀ as, D.addEntity g schemas d a as = D.add g schemas d a.toFile as) ∧
    (Given a → ∀ as as', D.addEntity g schemas d a as = D.addEntity g schemas d a as') := by
  refine ⟨fun h as => ?_, fun h as as' => ?_⟩
  · rw [Dialogue.addEntity, if_neg (fun hc => h ((nonInteractive_iff a).1 hc))]
  · rw [Dialogue.addEntity, Dialogue.addEntity, if_pos ((nonInteractive_iff a).2 h), if_pos ((nonInteractive_iff a).2 h)]

/-- C133: arguments without a type or without an id are refused, and nothing is written. -/
theorem C133_incomplete (D : Dialogue) (g : Graph) (schemas : List EntitySchema) (d : FsTree) (a : AddLine) (as : List Answer)
    (h : Given a) (hm : a.type = none ∨ a.id = none) : D.addEntity g schemas d a as = (d, false) := by
  rw [Dialogue.addEntity, if_pos ((nonInteractive_iff a).2 h)]
  rcases hm with hm | hm <;> rw [hm]
  cases a.type <;> rfl

/-- The command with these options. -/
def addArgs (a : AddLine) (type id : Str) : AddArgs :=
  ⟨a.toFile, type, id, wordsOf a.fields, wordsOf a.lists, wordsOf a.values⟩

theorem addEntity_complete (D : Dialogue) (g : Graph) (schemas : List EntitySchema) (d : FsTree) {a : AddLine} {type id : Str}
    (ht : a.type = some type) (hi : a.id = some id) (as : List Answer) :
    D.addEntity g schemas d a as = D.shell.add g schemas d (addArgs a type id) := by
  rw [Dialogue.addEntity, if_pos ((nonInteractive_iff a).2 (.inl (by rw [ht]; simp))), ht, hi]
  rfl

/-- What the entity has of an argument: the field, the list, or the item. -/
structure Spec.Honoured (S : Shell) (sc : EntitySchema) (target : List PathComp) (a : AddLine) (e : Entity) : Prop where
  field : ∀ q ∈ a.fields, ∃ r ∈ e.fields, ArgumentWritten S target sc q r
  list : ∀ q ∈ a.lists, ∃ r ∈ e.fields, ListWritten S target sc a.values q r
  value : ∀ p ∈ a.values, ∃ t xs x, (S.lang.cases.snake p.1, .list xs) ∈ e.fields ∧ x ∈ xs ∧ Argument S target t p.2 x
  /-- nothing else is in the entity -/
  only : ∀ r ∈ e.fields, (∃ q ∈ a.fields, ArgumentWritten S target sc q r) ∨ ∃ q ∈ a.lists, ListWritten S target sc a.values q r

theorem honoured_left {α β : Type} {R : α → β → Prop} {as : List α} {bs : List β} (h : List.Forall₂ R as bs) :
    ∀ a ∈ as, ∃ b ∈ bs, R a b := by
  induction h with
  | nil => intro a ha; cases ha
  | cons h _ ih =>
    intro a ha
    rcases List.mem_cons.1 ha with rfl | ha
    · exact ⟨_, by simp, h⟩
    · obtain ⟨b, hb, hr⟩ := ih a ha
      exact ⟨b, by simp [hb], hr⟩

theorem honoured_right {α β : Type} {R : α → β → Prop} {as : List α} {bs : List β} (h : List.Forall₂ R as bs) :
    ∀ b ∈ bs, ∃ a ∈ as, R a b := by
  induction h with
  | nil => intro a ha; cases ha
  | cons h _ ih =>
    intro a ha
    rcases List.mem_cons.1 ha with rfl | ha
    · exact ⟨_, by simp, h⟩
    · obtain ⟨b, hb, hr⟩ := ih a ha
      exact ⟨b, by simp [hb], hr⟩

/-- C133: if `firm add` with arguments succeeds, the entity whose text it appends has something of every argument, and nothing
else. Missing for the full claim: values for a list that is not declared (`C133_ignored`), a list declared twice
(`C133_twice`), and the arguments that C92 leaves out. -/
theorem C133_honoured_partial (D : Dialogue) (hws : ∀ n ∈ D.shell.ws, ValidName n) (hord : ∀ m, (D.shell.order m).Perm m)
    (g : Graph) (schemas : List EntitySchema) (d d' : FsTree) (hd : WellFormed d) (a : AddLine) (as : List Answer) (hg : Given a)
    (hn : (a.lists.map (·.1)).Nodup) (hdecl : ∀ p ∈ a.values, p.1 ∈ a.lists.map (·.1))
    (hp : ∀ sc ∈ schemas, ∀ q ∈ a.fields, ∀ fd, (D.shell.lang.cases.snake q.1, fd) ∈ sc.fields → PlainArgument fd.fieldType q.2)
    (hl : ∀ q ∈ a.lists, ∀ t, D.shell.lang.env.lower q.2 = itemTypeName t → ∀ s ∈ valuesOf a.values q.1, PlainArgument t s)
    (h : D.addEntity g schemas d a as = (d', true)) :
    ∃ type id, a.type = some type ∧ a.id = some id ∧ ∃ (sc : EntitySchema) (e : Entity),
      sc ∈ schemas ∧ Conforms D.shell.lang.env sc e ∧ e.entityType = type ∧
      e.id = D.shell.lang.cases.composeEntityId type (D.shell.sanitize id) ∧
      Honoured D.shell sc (D.shell.dslPath a.toFile type) a e ∧
      (Has d (lexicalPlace [] (D.shell.dslPath a.toFile type)) (.file none) ∨
        ∃ old, Has d' (lexicalPlace [] (D.shell.dslPath a.toFile type))
          (.file (some (old ++ generateDsl D.shell.lang .default [e])))) := by
  cases ht : a.type with
  | none => rw [C133_incomplete D g schemas d a as hg (.inl ht)] at h; cases h
  | some type =>
    cases hi : a.id with
    | none => rw [C133_incomplete D g schemas d a as hg (.inr hi)] at h; cases h
    | some id =>
      rw [addEntity_complete D g schemas d ht hi] at h
      obtain ⟨sc, e, h1, h2, h3, h4, h5, lists', scalars, listed, k1, k2, k3, k4⟩ :=
        C92_entity_partial D.shell hws hord g schemas d d' hd (addArgs a type id) (fields := a.fields) (lists := a.lists)
          (values := a.values) rfl rfl rfl hn hp hl h
      refine ⟨type, id, rfl, rfl, sc, e, h1, h2, h3, h4, ⟨?_, ?_, ?_, ?_⟩, h5⟩
      · intro q hq
        obtain ⟨r, hr, hw⟩ := honoured_left k3 q hq
        exact ⟨r, by rw [k2]; exact List.mem_append_left _ hr, hw⟩
      · intro q hq
        obtain ⟨r, hr, hw⟩ := honoured_left k4 q (k1.mem_iff.2 hq)
        exact ⟨r, by rw [k2]; exact List.mem_append_right _ hr, hw⟩
      · intro p hp
        obtain ⟨q, hq, hqp⟩ := List.mem_map.1 (hdecl p hp)
        obtain ⟨r, hr, hr1, _, t, xs, _, _, hr2, _, hxs⟩ := honoured_left k4 q (k1.mem_iff.2 hq)
        have hpv : p.2 ∈ valuesOf a.values q.1 := by
          unfold valuesOf
          exact List.mem_filterMap.2 ⟨p, hp, by rw [if_pos hqp.symm]⟩
        obtain ⟨x, hx, hax⟩ := honoured_left hxs p.2 hpv
        refine ⟨t, xs, x, ?_, hx, hax⟩
        rw [k2, ← hqp, ← hr1, ← hr2]
        exact List.mem_append_right _ hr
      · intro r hr
        rw [k2] at hr
        rcases List.mem_append.1 hr with hr | hr
        · exact .inl (honoured_right k3 r hr)
        · obtain ⟨q, hq, hw⟩ := honoured_right k4 r hr
          exact .inr ⟨q, k1.mem_iff.1 hq, hw⟩

theorem addLists_values {S : Shell} {target : List PathComp} {sc : EntitySchema} {vs ws ls : List (Str × Str)} {e : Entity}
    (h : ∀ q ∈ ls, valuesOf vs q.1 = valuesOf ws q.1) : S.addLists target sc vs e ls = S.addLists target sc ws e ls := by
  induction ls generalizing e with
  | nil => rfl
  | cons q ls ih =>
    obtain ⟨n, t⟩ := q
    rw [Shell.addLists, Shell.addLists, valuesOf_eq, valuesOf_eq, h (n, t) (by simp)]
    simp only [fun e => ih (e := e) fun q hq => h q (by simp [hq])]

theorem insert_keys (ps : List (Str × Str)) : ∀ (m : List (Str × Str)) (k : Str),
    k ∈ (ps.foldl (fun m p => mapInsert m p.1 p.2) m).map (·.1) ↔ k ∈ m.map (·.1) ∨ k ∈ ps.map (·.1) := by
  induction ps with
  | nil => intro m k; simp
  | cons p ps ih =>
    intro m k
    rw [List.foldl_cons, ih, mapInsert_keys, List.map_cons, List.mem_cons]
    split
    · next hp =>
      constructor
      · rintro (h | h)
        · exact .inl h
        · exact .inr (.inr h)
      · rintro (h | rfl | h)
        · exact .inl h
        · exact .inl hp
        · exact .inr h
    · rw [List.mem_append, List.mem_singleton, or_assoc]

/-- C133 fails: a value for a list that is not declared with `--list`, or that is declared with another spelling, changes
nothing, and the command succeeds or fails as it would without it. -/
theorem C133_ignored (D : Dialogue) (hord : ∀ m, (D.shell.order m).Perm m) (g : Graph) (schemas : List EntitySchema) (d : FsTree)
    (a : AddLine) (as : List Answer) {type id : Str} (ht : a.type = some type) (hi : a.id = some id) {before after : List (Str × Str)}
    {n v : Str} (hv : a.values = before ++ (n, v) :: after) (hn : n ∉ a.lists.map (·.1)) :
    D.addEntity g schemas d a as = D.addEntity g schemas d { a with values := before ++ after } as := by
  rw [addEntity_complete D g schemas d ht hi,
    addEntity_complete D g schemas d (a := { a with values := before ++ after }) ht hi]
  have key : ∀ sc e, D.shell.addLists (D.shell.dslPath a.toFile type) sc (pairsOf (wordsOf a.values)) e
        (D.shell.order ((pairsOf (wordsOf a.lists)).foldl (fun m p => mapInsert m p.1 p.2) [])) =
      D.shell.addLists (D.shell.dslPath a.toFile type) sc (pairsOf (wordsOf (before ++ after))) e
        (D.shell.order ((pairsOf (wordsOf a.lists)).foldl (fun m p => mapInsert m p.1 p.2) [])) := by
    intro sc e
    refine addLists_values fun q hq => ?_
    have hm : q.1 ∈ a.lists.map (·.1) := by
      have := List.mem_map_of_mem (f := (·.1)) ((hord _).mem_iff.1 hq)
      rw [insert_keys] at this
      have := this.resolve_left (by simp)
      rwa [wordsOf, pairsOf_flat] at this
    have hne : n ≠ q.1 := fun h => hn (h ▸ hm)
    rw [wordsOf, pairsOf_flat, wordsOf, pairsOf_flat, hv]
    unfold valuesOf
    rw [List.filterMap_append, List.filterMap_append, List.filterMap_cons_none (by rw [if_neg hne])]
  have he : D.shell.entityToAdd g schemas (addArgs a type id) =
      D.shell.entityToAdd g schemas (addArgs { a with values := before ++ after } type id) := by
    unfold Shell.entityToAdd
    simp only [addArgs, key]
    rfl
  unfold Shell.add
  rw [he]
  rfl

/-- C133 fails: of a list that is declared twice only the second type counts. -/
theorem C133_twice (D : Dialogue) (g : Graph) (schemas : List EntitySchema) (d : FsTree) (a : AddLine) (as : List Answer)
    {type id : Str} (ht : a.type = some type) (hi : a.id = some id) {before after : List (Str × Str)} {n t t' : Str}
    (hv : a.lists = before ++ (n, t) :: (n, t') :: after) :
    D.addEntity g schemas d a as = D.addEntity g schemas d { a with lists := before ++ (n, t') :: after } as := by
  have htwice : ∀ m : List (Str × Str), mapInsert (mapInsert m n t) n t' = mapInsert m n t' := by
    intro m
    induction m with
    | nil => simp [mapInsert]
    | cons p m ih =>
      by_cases h : p.1 = n
      · simp [mapInsert, h]
      · simp [mapInsert, h, ih]
  rw [addEntity_complete D g schemas d ht hi,
    addEntity_complete D g schemas d (a := { a with lists := before ++ (n, t') :: after }) ht hi]
  have he : D.shell.entityToAdd g schemas (addArgs a type id) =
      D.shell.entityToAdd g schemas (addArgs { a with lists := before ++ (n, t') :: after } type id) := by
    unfold Shell.entityToAdd
    simp only [addArgs, hv, wordsOf, pairsOf_flat, List.foldl_append, List.foldl_cons, htwice]
    rfl
  unfold Shell.add
  rw [he]
  rfl

/-! ## What is refused -/

/-- An argument that cannot be honoured: a name that the schema does not have, a list that is none or has no value, a type of
items that there is not. -/
inductive Spec.Hopeless (S : Shell) (sc : EntitySchema) (a : AddLine) : Prop
  | field {q : Str × Str} : q ∈ a.fields → S.lang.cases.snake q.1 ∉ sc.fields.map (·.1) → Hopeless S sc a
  | list {q : Str × Str} : q ∈ a.lists → S.lang.cases.snake q.1 ∉ sc.fields.map (·.1) → Hopeless S sc a
  | scalar {q : Str × Str} : q ∈ a.lists → (∀ fd, (S.lang.cases.snake q.1, fd) ∈ sc.fields → fd.fieldType ≠ .list) → Hopeless S sc a
  | listField {q : Str × Str} : q ∈ a.fields → (∀ fd, (S.lang.cases.snake q.1, fd) ∈ sc.fields → fd.fieldType = .list) → Hopeless S sc a
  | empty {q : Str × Str} : q ∈ a.lists → q.1 ∉ a.values.map (·.1) → Hopeless S sc a
  | itemType {q : Str × Str} : (a.lists.map (·.1)).Nodup → q ∈ a.lists →
      (∀ t, t ≠ .list → S.lang.env.lower q.2 ≠ itemTypeName t) → Hopeless S sc a

theorem addFields_some {S : Shell} {target : List PathComp} {sc : EntitySchema} {fs : List (Str × Str)} {e e' : Entity}
    (h : S.addFields target sc e fs = some e') : ∀ q ∈ fs, ∃ fd, (S.lang.cases.snake q.1, fd) ∈ sc.fields ∧ fd.fieldType ≠ .list := by
  induction fs generalizing e with
  | nil => intro q hq; cases hq
  | cons p fs ih =>
    obtain ⟨n, v⟩ := p
    rw [Shell.addFields] at h
    split at h
    · cases h
    · next fd hfd =>
      split at h
      · cases h
      · next x hx =>
        intro q hq
        rcases List.mem_cons.1 hq with rfl | hq
        · refine ⟨fd, mapGet_in hfd, fun hl => ?_⟩
          rw [hl] at hx
          cases hx
        · exact ih h q hq

theorem addLists_some {S : Shell} {target : List PathComp} {sc : EntitySchema} {values ls : List (Str × Str)} {e e' : Entity}
    (h : S.addLists target sc values e ls = some e') : ∀ q ∈ ls,
      (∃ fd, (S.lang.cases.snake q.1, fd) ∈ sc.fields ∧ fd.fieldType = .list) ∧ q.1 ∈ values.map (·.1) ∧
      ∃ t, t ≠ .list ∧ S.lang.env.lower q.2 = itemTypeName t := by
  induction ls generalizing e with
  | nil => intro q hq; cases hq
  | cons p ls ih =>
    obtain ⟨n, ty⟩ := p
    rw [Shell.addLists] at h
    split at h
    · cases h
    · next fd hfd =>
      split at h
      · next hlist =>
        split at h
        · cases h
        · next t ht =>
          rw [valuesOf_eq] at h
          split at h
          · cases h
          · next texts hne =>
            split at h
            · cases h
            · split at h
              · cases h
              · intro q hq
                rcases List.mem_cons.1 hq with rfl | hq
                · refine ⟨⟨fd, mapGet_in hfd, hlist⟩, ?_, t, (C90_item_type _ _ _).1 ht⟩
                  cases hx : valuesOf values n with
                  | nil => exact absurd hx hne
                  | cons x xs =>
                    have : x ∈ valuesOf values n := by rw [hx]; simp
                    obtain ⟨p, hp, hpx⟩ := List.mem_filterMap.1 this
                    split at hpx
                    · next h => exact List.mem_map.2 ⟨p, hp, h⟩
                    · cases hpx
                · exact ih h q hq
      · cases h

/-- C133: an argument that cannot be honoured is refused, and nothing is written. -/
theorem C133_hopeless (D : Dialogue) (hord : ∀ m, (D.shell.order m).Perm m) (g : Graph) (schemas : List EntitySchema) (d : FsTree)
    (a : AddLine) (as : List Answer) {type : Str} (ht : a.type = some type)
    (h : ∀ sc ∈ schemas, sc.entityType = type → Hopeless D.shell sc a) :
    D.addEntity g schemas d a as = (d, false) := by
  cases hi : a.id with
  | none => exact C133_incomplete D g schemas d a as (.inl (by rw [ht]; simp)) (.inr hi)
  | some id =>
    rw [addEntity_complete D g schemas d ht hi]
    have he : D.shell.entityToAdd g schemas (addArgs a type id) = none := by
      unfold Shell.entityToAdd
      split
      · rfl
      · next sc hsc =>
        have hmem := List.mem_of_find?_eq_some hsc
        have hty := List.find?_some hsc
        simp only [decide_eq_true_eq] at hty
        dsimp only
        split
        · rfl
        · split
          · rfl
          · next e1 he1 =>
            split
            · rfl
            · next e2 he2 =>
              exfalso
              simp only [addArgs, wordsOf, pairsOf_flat] at he1 he2
              have hf := addFields_some he1
              have hl := addLists_some he2
              have hdecl : ∀ q ∈ a.lists, ∃ t, (q.1, t) ∈ D.shell.order (a.lists.foldl (fun m p => mapInsert m p.1 p.2) []) := by
                intro q hq
                have : q.1 ∈ (a.lists.foldl (fun m p => mapInsert m p.1 p.2) []).map (·.1) :=
                  (insert_keys _ _ _).2 (.inr (List.mem_map_of_mem hq))
                obtain ⟨r, hr, hrq⟩ := List.mem_map.1 this
                exact ⟨r.2, (hord _).mem_iff.2 (by rw [← hrq]; exact hr)⟩
              cases h sc hmem hty with
              | field hq hno =>
                obtain ⟨fd, hfd, _⟩ := hf _ hq
                exact hno (List.mem_map_of_mem (f := (·.1)) hfd)
              | list hq hno =>
                obtain ⟨t, ht⟩ := hdecl _ hq
                obtain ⟨⟨fd, hfd, _⟩, _⟩ := hl _ ht
                exact hno (List.mem_map_of_mem (f := (·.1)) hfd)
              | scalar hq hno =>
                obtain ⟨t, ht⟩ := hdecl _ hq
                obtain ⟨⟨fd, hfd, hfl⟩, _⟩ := hl _ ht
                exact hno fd hfd hfl
              | listField hq hno =>
                obtain ⟨fd, hfd, hfl⟩ := hf _ hq
                exact hfl (hno fd hfd)
              | empty hq hno =>
                obtain ⟨t, ht⟩ := hdecl _ hq
                exact hno (hl _ ht).2.1
              | itemType hn hq hno =>
                rw [insert_all [] a.lists (by simpa using hn), List.nil_append] at hl
                obtain ⟨_, _, t, ht1, ht2⟩ := hl _ ((hord _).mem_iff.2 hq)
                exact hno t ht1 ht2
    unfold Shell.add
    rw [he]

/-! ## Examples -/

/-- A command with two scalars and a list, and one with a further value under another spelling. -/
def exAddLine : AddLine :=
  ⟨some "b".toList, some "person".toList, some "Bob".toList, [("name".toList, "Bob B".toList), ("Age".toList, "-41".toList)],
    [("tags".toList, "String".toList)], [("tags".toList, "x".toList), ("tags".toList, "y".toList)]⟩
def exDropLine : AddLine :=
  { exAddLine with values := [("tags".toList, "x".toList), ("Tags".toList, "z".toList), ("tags".toList, "y".toList)] }

/-- The value under the other spelling is not written, and the command succeeds. -/
example : (Dialogue.addEntity ⟨exShell, []⟩ .empty [exArgSchema] exDisk exDropLine []).2 = true ∧
    (Dialogue.addEntity ⟨exShell, []⟩ .empty [exArgSchema] exDisk exDropLine []).1.readText ["w".toList, "b.firm".toList] =
      some "Bperson bob {\n    name = \"Bob B\"\n    age = -41\n    tags = [\"x\", \"y\"]\n}\n".toList ∧
    "Tags".toList ∉ exDropLine.lists.map (·.1) := by decide +kernel

/-- The first command meets the hypotheses of `C133_honoured_partial`. -/
example : Given exAddLine ∧ (exAddLine.lists.map (·.1)).Nodup ∧ (∀ p ∈ exAddLine.values, p.1 ∈ exAddLine.lists.map (·.1)) ∧
    (Dialogue.addEntity ⟨exShell, []⟩ .empty [exArgSchema] exDisk exAddLine []).2 = true ∧
    (∀ sc ∈ [exArgSchema], ∀ q ∈ exAddLine.fields, ∀ fd, (exShell.lang.cases.snake q.1, fd) ∈ sc.fields →
      PlainArgument fd.fieldType q.2) ∧
    ∀ q ∈ exAddLine.lists, ∀ t, exShell.lang.env.lower q.2 = itemTypeName t → ∀ s ∈ valuesOf exAddLine.values q.1,
      PlainArgument t s := by
  refine ⟨.inl (by simp [exAddLine]), by decide, by decide, by decide +kernel, ?_, ?_⟩
  · intro sc hsc q hq fd hfd
    rw [List.mem_singleton.1 hsc] at hfd
    have hfloat : fd.fieldType ≠ .float := (by decide : ∀ p ∈ exArgSchema.fields, p.2.fieldType ≠ .float) _ hfd
    have hdate : fd.fieldType ≠ .dateTime := (by decide : ∀ p ∈ exArgSchema.fields, p.2.fieldType ≠ .dateTime) _ hfd
    simp only [exAddLine, List.mem_cons, List.not_mem_nil, or_false] at hq
    rcases hq with rfl | rfl
    all_goals exact ⟨by simp, by simp, fun h => absurd h hfloat, fun h => absurd h hdate⟩
  · intro q hq t ht s hs
    have hq := List.mem_singleton.1 hq
    rw [hq] at hs ht
    have hfloat : t ≠ .float := by rintro rfl; exact absurd ht (by decide +kernel)
    have hdate : t ≠ .dateTime := by rintro rfl; exact absurd ht (by decide +kernel)
    have : s = "x".toList ∨ s = "y".toList := by
      have h : valuesOf exAddLine.values "tags".toList = ["x".toList, "y".toList] := by decide
      rw [h] at hs
      simpa using hs
    rcases this with rfl | rfl
    all_goals exact ⟨by simp, by simp, fun h => absurd h hfloat, fun h => absurd h hdate⟩

/-- A misspelt field. -/
example : Hopeless exShell exArgSchema { exAddLine with fields := [("nmae".toList, "Bob".toList)] } :=
  .field (q := ("nmae".toList, "Bob".toList)) (by simp) (by decide +kernel)

end Firm
