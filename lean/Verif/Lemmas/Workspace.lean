import Verif.Spec.Workspace
import Verif.Props.Schema
import Mathlib.Data.List.Forall2

/-! Lemmas about loading and building a workspace. -/

namespace Firm

open Spec

theorem collectResults_forall {α β ε : Type} {f : α → Except ε β} {as : List α} {bs : List β} :
    collectResults f as = .ok bs ↔ List.Forall₂ (fun a b => f a = .ok b) as bs := by
  induction as generalizing bs with
  | nil => simp [collectResults, eq_comm]
  | cons a as ih =>
    simp only [collectResults]
    cases ha : f a with
    | error e => simp [List.forall₂_cons_left_iff, ha]
    | ok b =>
      cases hc : collectResults f as with
      | error e =>
        simp only [reduceCtorEq, List.forall₂_cons_left_iff, ha, Except.ok.injEq, false_iff, not_exists,
          not_and]
        intro c u _ h
        rw [← ih, hc] at h; simp at h
      | ok cs =>
        simp only [Except.ok.injEq, List.forall₂_cons_left_iff, ha]
        constructor
        · rintro rfl
          exact ⟨b, cs, rfl, ih.1 hc, rfl⟩
        · rintro ⟨c, u, rfl, h, rfl⟩
          rw [← ih, hc] at h; simp at h; rw [h]

theorem forall₂_append_left {α β : Type} {R : α → β → Prop} {l₁ l₂ : List α} {u : List β} :
    List.Forall₂ R (l₁ ++ l₂) u ↔
      ∃ u₁ u₂, List.Forall₂ R l₁ u₁ ∧ List.Forall₂ R l₂ u₂ ∧ u = u₁ ++ u₂ := by
  induction l₁ generalizing u with
  | nil => simp [List.forall₂_nil_left_iff]
  | cons a l₁ ih =>
    simp only [List.cons_append, List.forall₂_cons_left_iff, ih]
    constructor
    · rintro ⟨b, _, h1, ⟨u₁, u₂, h2, h3, rfl⟩, rfl⟩
      exact ⟨b :: u₁, u₂, ⟨b, u₁, h1, h2, rfl⟩, h3, rfl⟩
    · rintro ⟨_, u₂, ⟨b, u₁, h1, h2, rfl⟩, h3, rfl⟩
      exact ⟨b, u₁ ++ u₂, h1, ⟨u₁, u₂, h2, h3, rfl⟩, rfl⟩

theorem mapGet_isSome {β : Type} {m : List (Str × β)} {k : Str} :
    (mapGet m k).isSome ↔ k ∈ m.map (·.1) := by
  induction m with
  | nil => simp [mapGet]
  | cons p m ih =>
    obtain ⟨k', v⟩ := p
    unfold mapGet
    by_cases h : k' = k
    · simp [h]
    · simp only [h, if_false, ih, List.map_cons, List.mem_cons]
      exact ⟨Or.inr, fun h' => h'.resolve_left (fun h2 => h h2.symm)⟩

theorem mapGet_some {β : Type} {m : List (Str × β)} {k : Str} {v : β}
    (hm : (m.map (·.1)).Nodup) : mapGet m k = some v ↔ (k, v) ∈ m := by
  induction m with
  | nil => simp [mapGet]
  | cons p m ih =>
    obtain ⟨k', v'⟩ := p
    simp only [List.map_cons, List.nodup_cons] at hm
    unfold mapGet
    by_cases h : k' = k
    · subst h
      simp only [if_true, Option.some.injEq, List.mem_cons, Prod.mk.injEq, true_and]
      constructor
      · exact fun h => Or.inl h.symm
      · rintro (h | h)
        · exact h.symm
        · exact absurd (List.mem_map_of_mem h) hm.1
    · simp only [h, if_false, ih hm.2, List.mem_cons, Prod.mk.injEq]
      exact ⟨Or.inr, fun h' => h'.resolve_left (fun h2 => h h2.1.symm)⟩

/-- Schemas keyed by their type. -/
def keyed (ss : List EntitySchema) : List (EntityType × EntitySchema) :=
  ss.map fun s => (s.entityType, s)

theorem keyed_keys (ss : List EntitySchema) : (keyed ss).map (·.1) = ss.map (·.entityType) := by
  simp [keyed, Function.comp_def]

theorem addSchemas_ok {L : Lang} {path rel : Str} {ns : List Node}
    {acc : List EntitySchema} {m' : List (EntityType × EntitySchema)}
    (hacc : (acc.map (·.entityType)).Nodup) :
    addSchemas L path rel (keyed acc) ns = .ok m' ↔
      ∃ ss, List.Forall₂ (fun n s => toSchema L rel n = .ok s) ns ss ∧
        m' = keyed (acc ++ ss) ∧ ((acc ++ ss).map (·.entityType)).Nodup := by
  induction ns generalizing acc with
  | nil =>
    simp only [addSchemas, Except.ok.injEq, List.forall₂_nil_left_iff]
    constructor
    · rintro rfl; exact ⟨[], rfl, by simp, by simpa using hacc⟩
    · rintro ⟨ss, rfl, h, _⟩; simpa using h.symm
  | cons n ns ih =>
    unfold addSchemas
    have hsplit : (∃ ss, List.Forall₂ (fun n s => toSchema L rel n = .ok s) (n :: ns) ss ∧
        m' = keyed (acc ++ ss) ∧ ((acc ++ ss).map (·.entityType)).Nodup) ↔
        ∃ s ss, toSchema L rel n = .ok s ∧ List.Forall₂ (fun n s => toSchema L rel n = .ok s) ns ss ∧
          m' = keyed (acc ++ s :: ss) ∧ ((acc ++ s :: ss).map (·.entityType)).Nodup := by
      constructor
      · rintro ⟨ss, h, h2⟩
        obtain ⟨s, u, h3, h4, rfl⟩ := List.forall₂_cons_left_iff.1 h
        exact ⟨s, u, h3, h4, h2⟩
      · rintro ⟨s, ss, h3, h4, h2⟩
        exact ⟨s :: ss, .cons h3 h4, h2⟩
    rw [hsplit]
    cases hs : toSchema L rel n with
    | error e => cases e <;> simp
    | ok s =>
      simp only [mapGet_isSome, keyed_keys]
      split
      · rename_i hmem
        simp only [reduceCtorEq, false_iff, not_exists, not_and]
        rintro s' ss' hs' _ _ hn
        cases hs'
        simp only [List.map_append, List.map_cons] at hn
        have := List.disjoint_of_nodup_append hn hmem
        simp at this
      · rename_i hmem
        have hnew : mapInsert (keyed acc) s.entityType s = keyed (acc ++ [s]) := by
          rw [mapInsert_new (by rw [keyed_keys]; exact hmem)]
          simp [keyed]
        have hacc' : ((acc ++ [s]).map (·.entityType)).Nodup := by
          simp only [List.map_append, List.map_cons, List.map_nil]
          rw [List.nodup_append]
          refine ⟨hacc, by simp, ?_⟩
          intro a ha b hb
          simp only [List.mem_singleton] at hb
          rintro rfl
          exact hmem (hb ▸ ha)
        rw [hnew, ih hacc']
        constructor
        · rintro ⟨ss, h1, h2, h3⟩
          exact ⟨s, ss, rfl, h1, by simpa using h2, by simpa using h3⟩
        · rintro ⟨s', ss, h0, h1, h2, h3⟩
          cases h0
          exact ⟨ss, h1, by simpa using h2, by simpa using h3⟩

theorem blocksOf_cons (kind : String) (p : Str × SourceFile) (w : Workspace) :
    blocksOf kind (p :: w) =
      ((p.2.root.children.filter fun c => c.kind = kind.toList).map fun c => (p.2.rel, c)) ++
        blocksOf kind w := by simp [blocksOf]

theorem schemaPass_ok {L : Lang} {w : Workspace} {acc : List EntitySchema}
    {m' : List (EntityType × EntitySchema)} (hacc : (acc.map (·.entityType)).Nodup) :
    schemaPass L (keyed acc) w = .ok m' ↔
      ∃ ss, List.Forall₂ (fun b s => toSchema L b.1 b.2 = .ok s) (blocksOf "schema_block" w) ss ∧
        m' = keyed (acc ++ ss) ∧ ((acc ++ ss).map (·.entityType)).Nodup := by
  induction w generalizing acc with
  | nil =>
    simp only [schemaPass, Except.ok.injEq, blocksOf, List.flatMap_nil, List.forall₂_nil_left_iff]
    constructor
    · rintro rfl; exact ⟨[], rfl, by simp, by simpa using hacc⟩
    · rintro ⟨ss, rfl, h, _⟩; simpa using h.symm
  | cons p w ih =>
    obtain ⟨path, f⟩ := p
    rw [blocksOf_cons]
    simp only [schemaPass]
    have hfile : ∀ ss, List.Forall₂ (fun (b : Str × Node) s => toSchema L b.1 b.2 = .ok s)
        (((path, f).2.root.children.filter fun c => c.kind = "schema_block".toList).map
          fun c => ((path, f).2.rel, c)) ss ↔
        List.Forall₂ (fun n s => toSchema L f.rel n = .ok s) f.schemas ss := by
      intro ss
      rw [List.forall₂_map_left_iff]
      rfl
    cases ha : addSchemas L path f.rel (keyed acc) f.schemas with
    | error e =>
      simp only [reduceCtorEq, false_iff, not_exists, not_and]
      intro ss hss _ hn
      obtain ⟨s1, s2, h1, h2, rfl⟩ := forall₂_append_left.1 hss
      rw [hfile] at h1
      have hok := (addSchemas_ok (path := path) (m' := keyed (acc ++ s1)) hacc).2 ⟨s1, h1, rfl, by
        rw [← List.append_assoc, List.map_append] at hn
        exact (List.nodup_append.1 hn).1⟩
      rw [ha] at hok; simp at hok
    | ok m =>
      obtain ⟨s1, h1, rfl, hn1⟩ := (addSchemas_ok hacc).1 ha
      simp only []
      rw [ih hn1]
      constructor
      · rintro ⟨s2, h2, h3, h4⟩
        refine ⟨s1 ++ s2, forall₂_append_left.2 ⟨s1, s2, (hfile s1).2 h1, h2, rfl⟩, ?_, ?_⟩
        · simpa using h3
        · simpa using h4
      · rintro ⟨ss, hss, h3, h4⟩
        obtain ⟨s1', s2, h1', h2, rfl⟩ := forall₂_append_left.1 hss
        rw [hfile] at h1'
        have : s1 = s1' := by
          have hu : Relator.RightUnique (fun n (s : EntitySchema) => toSchema L f.rel n = .ok s) := by
            intro a b c hb hc; rw [hb] at hc; simpa using hc
          exact List.right_unique_forall₂' hu h1 h1'
        subst this
        exact ⟨s2, h2, by simpa using h3, by simpa using h4⟩

theorem checkEntity_ok {L : Lang} {m : List (EntityType × EntitySchema)} {path rel : Str} {n : Node}
    {e : Entity} :
    checkEntity L m path rel n = .ok e ↔
      toEntity L rel n = .ok e ∧ ∃ s, mapGet m e.entityType = some s ∧ Conforms L.env s e := by
  unfold checkEntity
  cases ht : toEntity L rel n with
  | error err => cases err <;> simp
  | ok e' =>
    simp only [Except.ok.injEq]
    cases hg : mapGet m e'.entityType with
    | none =>
      simp only [reduceCtorEq, false_iff, not_and, not_exists]
      rintro rfl s h; rw [hg] at h; simp at h
    | some s =>
      simp only []
      cases hv : s.validate L.env e' with
      | error errs =>
        simp only [reduceCtorEq, false_iff, not_and, not_exists]
        rintro rfl s' h hc
        rw [hg] at h; cases h
        rw [(C15_verdict _ _ _).2 hc] at hv; simp at hv
      | ok u =>
        simp only [Except.ok.injEq]
        constructor
        · rintro rfl; exact ⟨rfl, s, hg, (C15_verdict _ _ _).1 hv⟩
        · exact fun h => h.1

theorem entityPass_ok {L : Lang} {m : List (EntityType × EntitySchema)} {w : Workspace}
    {es : List Entity} :
    entityPass L m w = .ok es ↔
      List.Forall₂ (fun (b : Str × Node) (e : Entity) => toEntity L b.1 b.2 = .ok e ∧
        ∃ s, mapGet m e.entityType = some s ∧ Conforms L.env s e) (blocksOf "entity_block" w) es := by
  induction w generalizing es with
  | nil => simp [entityPass, blocksOf, eq_comm]
  | cons p w ih =>
    obtain ⟨path, f⟩ := p
    rw [blocksOf_cons]
    simp only [entityPass]
    have hfile : ∀ es, List.Forall₂ (fun (b : Str × Node) (e : Entity) => toEntity L b.1 b.2 = .ok e ∧
        ∃ s, mapGet m e.entityType = some s ∧ Conforms L.env s e)
        (((path, f).2.root.children.filter fun c => c.kind = "entity_block".toList).map
          fun c => ((path, f).2.rel, c)) es ↔
        collectResults (checkEntity L m path f.rel) f.entities = .ok es := by
      intro es
      rw [List.forall₂_map_left_iff, collectResults_forall]
      simp only [checkEntity_ok]
      rfl
    cases hc : collectResults (checkEntity L m path f.rel) f.entities with
    | error e =>
      simp only [reduceCtorEq, false_iff]
      intro h
      obtain ⟨e1, e2, h1, h2, rfl⟩ := forall₂_append_left.1 h
      rw [hfile, hc] at h1; simp at h1
    | ok e1 =>
      cases hr : entityPass L m w with
      | error e =>
        simp only [reduceCtorEq, false_iff]
        intro h
        obtain ⟨e1, e2, h1, h2, rfl⟩ := forall₂_append_left.1 h
        rw [← ih, hr] at h2; simp at h2
      | ok e2 =>
        simp only [Except.ok.injEq]
        constructor
        · rintro rfl
          exact forall₂_append_left.2 ⟨e1, e2, (hfile e1).2 hc, ih.1 hr, rfl⟩
        · intro h
          obtain ⟨e1', e2', h1, h2, rfl⟩ := forall₂_append_left.1 h
          rw [hfile, hc] at h1; rw [← ih, hr] at h2
          simp at h1 h2; rw [h1, h2]

end Firm
