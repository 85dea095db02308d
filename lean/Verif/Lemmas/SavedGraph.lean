import Verif.Lemmas.Saved
import Verif.Lemmas.Graph
import Verif.Props.Schema

/-!
# Saved values, entities and graphs
-/

namespace Firm
open Spec

theorem readAll_map {α β : Type} {f : β → Option α} {h : α → β} {as : List α} (H : ∀ a ∈ as, f (h a) = some a) :
    readAll f (as.map h) = some as := by
  induction as with
  | nil => rfl
  | cons a as ih =>
    simp only [List.map_cons, readAll, H a (by simp), ih (fun b hb => H b (by simp [hb])), Option.map_some]

theorem readAll_none {α β : Type} {f : α → Option β} {as : List α} {a : α} (ha : a ∈ as) (h : f a = none) :
    readAll f as = none := by
  induction as with
  | nil => cases ha
  | cons b as ih =>
    rcases List.mem_cons.1 ha with rfl | ha
    · simp only [readAll, h]
    · simp only [readAll, ih ha]
      cases f b <;> rfl

theorem saveValues_map (C : Codec) (vs : List FieldValue) : saveValues C vs = vs.map (saveValue C) := by
  induction vs with
  | nil => rfl
  | cons v vs ih => simp [saveValues, ih]

/-! ## Levels -/

theorem levels_le_of {vs : List FieldValue} {v : FieldValue} (h : v ∈ vs) : levels v ≤ levelsOf vs := by
  induction vs with
  | nil => cases h
  | cons w vs ih =>
    simp only [levelsOf]
    rcases List.mem_cons.1 h with rfl | h
    · omega
    · have := ih h; omega

theorem levelsOf_le {vs : List FieldValue} {n : Nat} (h : ∀ v ∈ vs, levels v ≤ n) : levelsOf vs ≤ n := by
  induction vs with
  | nil => simp [levelsOf]
  | cons w vs ih =>
    simp only [levelsOf]
    have := h w (by simp)
    have := ih (fun v hv => h v (by simp [hv]))
    omega

theorem jInt_ok {C : Codec} {n : Int} (h : -2 ^ 63 ≤ n ∧ n < 2 ^ 63) (k : Nat) : Readable C k (jInt n) := by
  cases n with
  | ofNat n =>
    apply Readable.number
    show n < 2 ^ 64
    have : (n : Int) < 2 ^ 63 := h.2
    omega
  | negSucc n =>
    apply Readable.number
    show n < 2 ^ 63
    have := h.1
    omega

theorem jFloat_ok {C : Codec} {f : F64} (h : IsFinite f → FloatReads C f) (k : Nat) : Readable C k (jFloat f) := by
  cases f with
  | nan => exact .null _
  | inf s => exact .null _
  | negZero => exact .number _ (h ⟨by simp, by simp⟩)
  | fin q => exact .number _ (h ⟨by simp, by simp⟩)

theorem tag_ok {C : Codec} {n : Nat} {name : String} {v : JVal} (h : Readable C n v) : Readable C (n + 1) (jTag name v) :=
  .object (by
    intro e he
    rw [List.mem_singleton] at he
    subst he
    exact h)

theorem saveValue_ok (C : Codec) : ∀ (n : Nat) (v : FieldValue), levels v ≤ n → (∀ w, PartOf w v → Kept C w) →
    Readable C n (saveValue C v) := by
  intro n
  induction n using Nat.strongRecOn with
  | ind n ih =>
    intro v hl hk
    have hself := hk v .self
    cases v with
    | boolean b =>
      obtain ⟨n, rfl⟩ : ∃ k, n = k + 1 := ⟨n - 1, by simp only [levels] at hl; omega⟩
      exact tag_ok (.bool _ _)
    | string s =>
      obtain ⟨n, rfl⟩ : ∃ k, n = k + 1 := ⟨n - 1, by simp only [levels] at hl; omega⟩
      exact tag_ok (.string _ _)
    | integer i =>
      obtain ⟨n, rfl⟩ : ∃ k, n = k + 1 := ⟨n - 1, by simp only [levels] at hl; omega⟩
      exact tag_ok (jInt_ok hself _)
    | float f =>
      obtain ⟨n, rfl⟩ : ∃ k, n = k + 1 := ⟨n - 1, by simp only [levels] at hl; omega⟩
      exact tag_ok (jFloat_ok hself _)
    | currency d c =>
      obtain ⟨n, rfl⟩ : ∃ k, n = k + 2 := ⟨n - 2, by simp only [levels] at hl; omega⟩
      refine tag_ok (.object ?_)
      intro e he
      simp only [List.mem_cons, List.not_mem_nil, or_false] at he
      rcases he with rfl | rfl <;> exact .string _ _
    | reference r =>
      cases r with
      | entity id =>
        obtain ⟨n, rfl⟩ : ∃ k, n = k + 2 := ⟨n - 2, by simp only [levels] at hl; omega⟩
        exact tag_ok (tag_ok (.string _ _))
      | field id f =>
        obtain ⟨n, rfl⟩ : ∃ k, n = k + 3 := ⟨n - 3, by simp only [levels] at hl; omega⟩
        refine tag_ok (tag_ok (.array ?_))
        intro e he
        simp only [List.mem_cons, List.not_mem_nil, or_false] at he
        rcases he with rfl | rfl <;> exact .string _ _
    | list vs =>
      obtain ⟨n, rfl⟩ : ∃ k, n = k + 2 := ⟨n - 2, by simp only [levels] at hl; omega⟩
      refine tag_ok (.array ?_)
      intro j hj
      rw [saveValues_map] at hj
      obtain ⟨v, hv, rfl⟩ := List.mem_map.1 hj
      refine ih n (by omega) v ?_ (fun w hw => hk w (.item hv hw))
      have := levels_le_of hv
      simp only [levels] at hl
      omega
    | dateTime d =>
      obtain ⟨n, rfl⟩ : ∃ k, n = k + 1 := ⟨n - 1, by simp only [levels] at hl; omega⟩
      exact tag_ok (.string _ _)
    | path p =>
      obtain ⟨n, rfl⟩ : ∃ k, n = k + 1 := ⟨n - 1, by simp only [levels] at hl; omega⟩
      exact tag_ok (.string _ _)
    | enum s =>
      obtain ⟨n, rfl⟩ : ∃ k, n = k + 1 := ⟨n - 1, by simp only [levels] at hl; omega⟩
      exact tag_ok (.string _ _)

theorem within_object {n : Nat} {es : List (Str × JVal)} (h : Shallow n (.object es)) :
    ∃ m, n = m + 1 ∧ ∀ e ∈ es, Shallow m e.2 := by
  cases h with
  | object h => exact ⟨_, rfl, h⟩

theorem within_array {n : Nat} {vs : List JVal} (h : Shallow n (.array vs)) : ∃ m, n = m + 1 ∧ ∀ v ∈ vs, Shallow m v := by
  cases h with
  | array h => exact ⟨_, rfl, h⟩

theorem within_tag {n : Nat} {name : String} {v : JVal} (h : Shallow n (jTag name v)) : ∃ m, n = m + 1 ∧ Shallow m v := by
  obtain ⟨m, rfl, h1⟩ := within_object h
  exact ⟨m, rfl, h1 (_, v) List.mem_cons_self⟩

theorem levels_of_within (C : Codec) : ∀ (n : Nat) (v : FieldValue), Shallow n (saveValue C v) → levels v ≤ n := by
  intro n
  induction n using Nat.strongRecOn with
  | ind n ih =>
    intro v h
    cases v with
    | list vs =>
      obtain ⟨m, rfl, h1⟩ := within_tag h
      obtain ⟨m, rfl, h2⟩ := within_array h1
      simp only [levels]
      have : levelsOf vs ≤ m := levelsOf_le fun v hv => ih m (by omega) v (h2 _ (by
        rw [saveValues_map]; exact List.mem_map_of_mem hv))
      omega
    | currency d c =>
      obtain ⟨m, rfl, h1⟩ := within_tag h
      obtain ⟨m, rfl, h2⟩ := within_object h1
      simp only [levels]
      omega
    | reference r =>
      cases r with
      | entity id =>
        obtain ⟨m, rfl, h1⟩ := within_tag h
        obtain ⟨m, rfl, h2⟩ := within_tag h1
        simp only [levels]
        omega
      | field id f =>
        obtain ⟨m, rfl, h1⟩ := within_tag h
        obtain ⟨m, rfl, h2⟩ := within_tag h1
        obtain ⟨m, rfl, h3⟩ := within_array h2
        simp only [levels]
        omega
    | boolean b => obtain ⟨m, rfl, h⟩ := within_tag h; simp only [levels]; omega
    | string b => obtain ⟨m, rfl, h⟩ := within_tag h; simp only [levels]; omega
    | integer b => obtain ⟨m, rfl, h⟩ := within_tag h; simp only [levels]; omega
    | float b => obtain ⟨m, rfl, h⟩ := within_tag h; simp only [levels]; omega
    | dateTime b => obtain ⟨m, rfl, h⟩ := within_tag h; simp only [levels]; omega
    | path b => obtain ⟨m, rfl, h⟩ := within_tag h; simp only [levels]; omega
    | enum b => obtain ⟨m, rfl, h⟩ := within_tag h; simp only [levels]; omega

/-! ## Values -/

theorem asI64_jInt {n : Int} (h : -2 ^ 63 ≤ n ∧ n < 2 ^ 63) : ∃ k, jInt n = .number k ∧ k.asI64 = some n := by
  cases n with
  | ofNat n =>
    refine ⟨_, rfl, ?_⟩
    have : (n : Int) < 2 ^ 63 := h.2
    simp only [JsonNumber.asI64]
    rw [if_pos (by omega)]
    rfl
  | negSucc n => exact ⟨_, rfl, rfl⟩

theorem jFloat_read {f : F64} (h : IsFinite f) : ∃ k : JsonNumber, jFloat f = .number k ∧ k.asF64 = f := by
  cases f with
  | nan => exact absurd rfl h.1
  | inf s => exact absurd rfl (h.2 s)
  | negZero => exact ⟨_, rfl, rfl⟩
  | fin q => exact ⟨_, rfl, rfl⟩

theorem loadValue_save (C : Codec) : ∀ (n : Nat) (v : FieldValue), levels v ≤ n → (∀ w, PartOf w v → Kept C w) →
    (∀ f, PartOf (.float f) v → IsFinite f) → loadValue C n (saveValue C v) = some v := by
  intro n
  induction n with
  | zero =>
    intro v hl
    cases v with
    | reference r => cases r <;> simp [levels] at hl
    | _ => simp [levels] at hl
  | succ n ih =>
    intro v hl hk hf
    have hself := hk v .self
    cases v with
    | boolean b => rfl
    | string s => rfl
    | integer i =>
      obtain ⟨k, h1, h2⟩ := asI64_jInt hself
      show (match jInt i with
        | .number n => n.asI64.map FieldValue.integer
        | _ => none) = some (.integer i)
      rw [h1]
      simp only [h2, Option.map_some]
    | float f =>
      obtain ⟨k, h1, h2⟩ := jFloat_read (hf f .self)
      show (match jFloat f with
        | .number n => some (FieldValue.float n.asF64)
        | _ => none) = some (.float f)
      rw [h1]
      simp only [h2]
    | currency d c =>
      show (match parseDecimal d.show with
        | some d => if C.knownCurrency c then some (FieldValue.currency d c) else none
        | none => none) = _
      rw [parseDecimal_show hself.1]
      simp only [hself.2, if_true]
    | reference r => cases r <;> rfl
    | list vs =>
      show (readAll (loadValue C n) (saveValues C vs)).map FieldValue.list = _
      rw [saveValues_map, readAll_map]
      · rfl
      · intro v hv
        refine ih v ?_ (fun w hw => hk w (.item hv hw)) (fun f hw => hf f (.item hv hw))
        have := levels_le_of hv
        simp only [levels] at hl
        omega
    | dateTime d =>
      show ((C.readDate (C.dateText d)).map FieldValue.dateTime) = _
      have : C.readDate (C.dateText d) = some d := hself
      rw [this]
      rfl
    | path p => rfl
    | enum s => rfl

theorem loadValue_infinite (C : Codec) {f : F64} (hf : ¬ IsFinite f) : ∀ (v : FieldValue), PartOf (.float f) v →
    ∀ n, loadValue C n (saveValue C v) = none := by
  intro v hv
  induction hv with
  | self =>
    intro n
    cases n with
    | zero => rfl
    | succ n =>
      cases f with
      | nan => rfl
      | inf s => rfl
      | negZero => exact absurd ⟨by simp, by simp⟩ hf
      | fin q => exact absurd ⟨by simp, by simp⟩ hf
  | @item v vs hv _ ih =>
    intro n
    cases n with
    | zero => rfl
    | succ n =>
      show (readAll (loadValue C n) (saveValues C vs)).map FieldValue.list = _
      rw [saveValues_map, readAll_none (List.mem_map_of_mem hv) (ih n)]
      rfl

/-! ## Entities -/

theorem loadField_save {C : Codec} {p : FieldId × FieldValue} (hl : levels p.2 ≤ 127) (hk : ∀ w, PartOf w p.2 → Kept C w)
    (hf : ∀ f, PartOf (.float f) p.2 → IsFinite f) : loadField C (.array [.string p.1, saveValue C p.2]) = some p := by
  simp only [loadField, loadValue_save C 127 p.2 hl hk hf, Option.map_some]

theorem loadEntity_eq (C : Codec) (e : Entity) : loadEntity C (saveEntity C e) =
    (readAll (loadField C) (e.fields.map fun p => .array [.string p.1, saveValue C p.2])).map fun fs => ⟨e.id, e.entityType, fs⟩ := by
  show (match some e.id, some e.entityType, readAll (loadField C) (e.fields.map fun p => .array [.string p.1, saveValue C p.2]) with
    | some id, some t, some fs => some (⟨id, t, fs⟩ : Entity)
    | _, _, _ => none) = _
  cases readAll (loadField C) (e.fields.map fun p => .array [.string p.1, saveValue C p.2]) <;> rfl

theorem loadEntity_save {C : Codec} {e : Entity} (hk : ∀ p ∈ e.fields, ∀ w, PartOf w p.2 → Kept C w)
    (hp : ∀ p ∈ e.fields, levels p.2 ≤ 121 ∧ ∀ f, PartOf (.float f) p.2 → IsFinite f) :
    loadEntity C (saveEntity C e) = some e := by
  rw [loadEntity_eq, readAll_map]
  · rfl
  · intro p h
    exact loadField_save (by have := (hp p h).1; omega) (hk p h) (hp p h).2

theorem loadEntity_infinite {C : Codec} {e : Entity} {p : FieldId × FieldValue} (hp : p ∈ e.fields) {f : F64}
    (hf : ¬ IsFinite f) (hv : PartOf (.float f) p.2) : loadEntity C (saveEntity C e) = none := by
  rw [loadEntity_eq, readAll_none (List.mem_map_of_mem hp)]
  · rfl
  · show (loadValue C 127 (saveValue C p.2)).map _ = none
    rw [loadValue_infinite C hf _ hv]
    rfl

theorem saveEntity_ok {C : Codec} {n : Nat} {e : Entity} (hk : ∀ p ∈ e.fields, ∀ w, PartOf w p.2 → Kept C w)
    (hp : ∀ p ∈ e.fields, levels p.2 ≤ n) : Readable C (n + 3) (saveEntity C e) := by
  refine .object ?_
  intro x hx
  simp only [List.mem_cons, List.not_mem_nil, or_false] at hx
  rcases hx with rfl | rfl | rfl
  · exact .string _ _
  · exact .string _ _
  · refine .array ?_
    intro j hj
    obtain ⟨p, h, rfl⟩ := List.mem_map.1 hj
    refine .array ?_
    intro x hx
    simp only [List.mem_cons, List.not_mem_nil, or_false] at hx
    rcases hx with rfl | rfl
    · exact .string _ _
    · exact saveValue_ok C n p.2 (hp p h) (hk p h)

theorem entity_within {C : Codec} {n : Nat} {e : Entity} (h : Shallow n (saveEntity C e)) {p : FieldId × FieldValue}
    (hp : p ∈ e.fields) : levels p.2 + 3 ≤ n := by
  obtain ⟨m, rfl, h1⟩ := within_object h
  have h2 := h1 ("fields".toList, .array (e.fields.map fun p => .array [.string p.1, saveValue C p.2])) (by simp)
  obtain ⟨m, rfl, h3⟩ := within_array h2
  have h4 := h3 _ (List.mem_map_of_mem hp)
  obtain ⟨m, rfl, h5⟩ := within_array h4
  have := levels_of_within C m p.2 (h5 _ (by simp))
  omega

/-! ## Maps -/

theorem foldl_mapInsert {β : Type} (es m : List (Str × β)) (h : ((m ++ es).map (·.1)).Nodup) :
    es.foldl (fun m p => mapInsert m p.1 p.2) m = m ++ es := by
  induction es generalizing m with
  | nil => simp
  | cons p es ih =>
    have hn : p.1 ∉ m.map (·.1) := by
      intro hm
      rw [List.map_append, List.nodup_append] at h
      exact h.2.2 _ hm _ (by simp) rfl
    rw [List.foldl_cons, mapInsert_new hn, ih]
    · simp
    · simpa using h

theorem loadMap_save {α : Type} {f : JVal → Option α} {h : α → JVal} {es : List (Str × α)} (hf : ∀ e ∈ es, f (h e.2) = some e.2)
    (hn : (es.map (·.1)).Nodup) : loadMap f (.object (es.map fun p => (p.1, h p.2))) = some es := by
  simp only [loadMap]
  rw [readAll_map (h := fun p : Str × α => (p.1, h p.2))]
  · rw [Option.map_some, foldl_mapInsert es [] (by simpa using hn)]
    rfl
  · intro e he
    simp only [hf e he, Option.map_some]

theorem lookup_perm {α : Type} {l l' : List (Str × α)} (h : l.Perm l') (hn : (l.map (·.1)).Nodup) (k : Str) :
    l.lookup k = l'.lookup k := by
  have hmem : ∀ {l : List (Str × α)}, (l.map (·.1)).Nodup → ∀ v, l.lookup k = some v ↔ (k, v) ∈ l := by
    intro l hl v
    induction l with
    | nil => simp
    | cons p l ih =>
      obtain ⟨a, b⟩ := p
      simp only [List.map_cons, List.nodup_cons] at hl
      simp only [List.lookup_cons]
      by_cases hk : k = a
      · subst hk
        simp only [beq_self_eq_true]
        constructor
        · intro h; cases h; simp
        · intro h
          rcases List.mem_cons.1 h with h | h
          · cases h; rfl
          · exact absurd (List.mem_map_of_mem h) hl.1
      · have : (k == a) = false := by simp [hk]
        simp only [this]
        rw [ih hl.2, List.mem_cons]
        constructor
        · exact .inr
        · rintro (h | h)
          · cases h; exact absurd rfl hk
          · exact h
  have hn' : (l'.map (·.1)).Nodup := (h.map (·.1)).nodup_iff.1 hn
  apply Option.ext
  intro v
  rw [hmem hn, hmem hn']
  exact h.mem_iff

/-! ## Relationships and edges -/

theorem loadRelationship_save (r : Relationship) : loadRelationship (saveRelationship r) = some r := by
  cases r <;> rfl

theorem loadEdge_save {n : Nat} {e : Edge} (h1 : e.src < n) (h2 : e.dst < n) :
    loadEdge n (.array [jIndex e.src, jIndex e.dst, saveRelationship e.rel]) = some e := by
  have h3 := loadRelationship_save e.rel
  simp only [loadEdge, jIndex, JVal.index]
  rw [h3]
  simp only
  rw [if_pos ⟨h1, h2⟩]

theorem saveRelationship_ok (C : Codec) (n : Nat) (r : Relationship) : Readable C (n + 2) (saveRelationship r) := by
  cases r with
  | entityReference f =>
    refine tag_ok (.object ?_)
    intro x hx
    simp only [List.mem_cons, List.not_mem_nil, or_false] at hx
    rcases hx with rfl
    exact .string _ _
  | fieldReference f t =>
    refine tag_ok (.object ?_)
    intro x hx
    simp only [List.mem_cons, List.not_mem_nil, or_false] at hx
    rcases hx with rfl | rfl <;> exact .string _ _

theorem jIndex_ok (C : Codec) (n : Nat) {k : Nat} (h : k < 2 ^ 64) : Readable C n (jIndex k) := .number _ h

/-! ## The graph -/

theorem Inv.edge_bounds {g : Graph} (h : Inv g) {ed : Edge} (hed : ed ∈ g.edges) :
    ed.src < g.nodes.length ∧ ed.dst < g.nodes.length := by
  obtain ⟨e, i, hi, p, hp, hc⟩ := mem_edgesToAdd.1 (h.edges ed hed)
  obtain ⟨h1, id, _, h3⟩ := mem_collect_dst _ _ hc
  obtain ⟨a, ha, _⟩ := (h.idMap id ed.dst).1 h3
  exact ⟨h1 ▸ (List.getElem?_eq_some_iff.1 hi).1, (List.getElem?_eq_some_iff.1 ha).1⟩

theorem idMapOf_keys (nodes : List Entity) : (idMapOf nodes).map (·.1) = (nodes.map (·.id)).reverse := by
  unfold idMapOf
  rw [List.map_reverse, List.map_map]
  congr 1
  have : ∀ (l : List Entity) (k : Nat), (l.zipIdx k).map ((fun x => x.1) ∘ fun p : Entity × Nat => (p.1.id, p.2)) = l.map (·.id) := by
    intro l
    induction l with
    | nil => intro k; rfl
    | cons a l ih => intro k; simp [ih]
  exact this nodes 0

theorem Inv.idKeys {g : Graph} (h : Inv g) : (g.idMap.map (·.1)).Nodup := by
  rw [h.idMapEq, idMapOf_keys, List.nodup_reverse]
  exact h.nodup

theorem typePush_bound {m : List (EntityType × List Nat)} {t : EntityType} {i k : Nat} (hk : i < k)
    (h : ∀ p ∈ m, ∀ j ∈ p.2, j < k) : ∀ p ∈ typePush m t i, ∀ j ∈ p.2, j < k := by
  induction m with
  | nil =>
    intro p hp
    simp only [typePush, List.mem_singleton] at hp
    subst hp
    simpa using hk
  | cons q m ih =>
    obtain ⟨a, b⟩ := q
    intro p hp
    simp only [typePush] at hp
    split at hp
    · rcases List.mem_cons.1 hp with rfl | hp
      · intro j hj
        simp only [List.mem_append, List.mem_singleton] at hj
        rcases hj with hj | rfl
        · exact h _ List.mem_cons_self j hj
        · exact hk
      · exact h p (List.mem_cons_of_mem _ hp)
    · rcases List.mem_cons.1 hp with rfl | hp
      · exact h _ List.mem_cons_self
      · exact ih (fun p hp => h p (List.mem_cons_of_mem _ hp)) p hp

theorem Inv.type_bounds {g : Graph} (h : Inv g) : ∀ p ∈ g.typeMap, ∀ j ∈ p.2, j < g.nodes.length := by
  rw [h.typeMapEq]
  unfold typeMapOf
  have : ∀ (l : List (Entity × Nat)) (m : List (EntityType × List Nat)) (k : Nat), (∀ x ∈ l, x.2 < k) →
      (∀ p ∈ m, ∀ j ∈ p.2, j < k) → ∀ p ∈ l.foldl (fun m p => typePush m p.1.entityType p.2) m, ∀ j ∈ p.2, j < k := by
    intro l
    induction l with
    | nil => intro m k _ h; exact h
    | cons x l ih =>
      intro m k hl hm
      rw [List.foldl_cons]
      exact ih _ k (fun y hy => hl y (by simp [hy])) (typePush_bound (hl x (by simp)) hm)
  refine this _ _ _ ?_ (by simp)
  intro x hx
  obtain ⟨a, i⟩ := x
  rw [List.mem_zipIdx_iff_getElem?] at hx
  exact (List.getElem?_eq_some_iff.1 hx).1

/-- The tree that is saved. -/
def graphTree (C : Codec) (o : MapOrder) (g : Graph) : JVal :=
  saveGraph C g.nodes g.edges (o.ids g.idMap) (o.types g.typeMap)

theorem graphTree_ok {C : Codec} {o : MapOrder} (ho : MapOrder.Lawful o) {g : Graph} (h : Inv g) (hlen : g.nodes.length < 2 ^ 32)
    (hk : AllKept C g.nodes) {n : Nat} (hn : ∀ e ∈ g.nodes, ∀ p ∈ e.fields, levels p.2 ≤ n) :
    Readable C (n + 6) (graphTree C o g) := by
  refine .object ?_
  intro x hx
  simp only [List.mem_cons, List.not_mem_nil, or_false] at hx
  rcases hx with rfl | rfl | rfl
  · refine .object ?_
    intro x hx
    simp only [List.mem_cons, List.not_mem_nil, or_false] at hx
    rcases hx with rfl | rfl | rfl | rfl
    · refine .array ?_
      intro j hj
      obtain ⟨e, he, rfl⟩ := List.mem_map.1 hj
      exact saveEntity_ok (hk e he) (hn e he)
    · exact .array (by simp)
    · exact .string _ _
    · refine .array ?_
      intro j hj
      obtain ⟨e, he, rfl⟩ := List.mem_map.1 hj
      have hb := h.edge_bounds he
      refine .array ?_
      intro x hx
      simp only [List.mem_cons, List.not_mem_nil, or_false] at hx
      rcases hx with rfl | rfl | rfl
      · exact jIndex_ok C _ (by omega)
      · exact jIndex_ok C _ (by omega)
      · exact saveRelationship_ok C n e.rel
  · refine .object ?_
    intro j hj
    obtain ⟨p, hp, rfl⟩ := List.mem_map.1 hj
    have hp := (ho.1 _).mem_iff.1 hp
    refine jIndex_ok C _ ?_
    have : g.idMap.lookup p.1 = some p.2 := by
      have hm : (p.1, p.2) ∈ g.idMap := hp
      rw [h.idMapEq] at hm ⊢
      have hn := h.idKeys
      rw [h.idMapEq] at hn
      exact mem_lookup hn hm
    obtain ⟨e, he, _⟩ := (h.idMap _ _).1 this
    have := (List.getElem?_eq_some_iff.1 he).1
    omega
  · refine .object ?_
    intro j hj
    obtain ⟨p, hp, rfl⟩ := List.mem_map.1 hj
    have hp := (ho.2 _).mem_iff.1 hp
    refine .array ?_
    intro j hj
    obtain ⟨i, hi, rfl⟩ := List.mem_map.1 hj
    have := h.type_bounds p hp i hi
    exact jIndex_ok C _ (by omega)
where
  mem_lookup {l : List (Str × Nat)} (hn : (l.map (·.1)).Nodup) {k : Str} {v : Nat} (h : (k, v) ∈ l) : l.lookup k = some v := by
    induction l with
    | nil => cases h
    | cons p l ih =>
      obtain ⟨a, b⟩ := p
      simp only [List.map_cons, List.nodup_cons] at hn
      simp only [List.lookup_cons]
      rcases List.mem_cons.1 h with h1 | h1
      · cases h1; simp
      · have : k ≠ a := by rintro rfl; exact hn.1 (List.mem_map.2 ⟨_, h1, rfl⟩)
        have : (k == a) = false := by simp [this]
        simp only [this]
        exact ih hn.2 h1

theorem graph_within {C : Codec} {o : MapOrder} {n : Nat} {g : Graph} (h : Shallow n (graphTree C o g)) {e : Entity}
    (he : e ∈ g.nodes) {p : FieldId × FieldValue} (hp : p ∈ e.fields) : levels p.2 + 6 ≤ n := by
  obtain ⟨m, rfl, h1⟩ := within_object h
  have h2 := h1 _ List.mem_cons_self
  obtain ⟨m, rfl, h3⟩ := within_object h2
  have h4 := h3 _ List.mem_cons_self
  obtain ⟨m, rfl, h5⟩ := within_array h4
  have := entity_within (h5 _ (List.mem_map_of_mem he)) hp
  omega

theorem loadGraph_eq (C : Codec) (o : MapOrder) (g : Graph) : loadGraph C (graphTree C o g) =
    (match readAll (loadEntity C) (g.nodes.map (saveEntity C)) with
    | none => none
    | some nodes =>
      match readAll (loadEdge nodes.length) (g.edges.map fun e => .array [jIndex e.src, jIndex e.dst, saveRelationship e.rel]),
          loadMap JVal.index (.object ((o.ids g.idMap).map fun p => (p.1, jIndex p.2))),
          loadMap (fun v => v.items.bind (readAll JVal.index)) (.object ((o.types g.typeMap).map fun p => (p.1, .array (p.2.map jIndex)))) with
      | some edges, some ids, some types => some ⟨nodes, edges, ids, types⟩
      | _, _, _ => none) := rfl

theorem loadGraph_save {C : Codec} {o : MapOrder} (ho : MapOrder.Lawful o) {g : Graph} (h : Inv g)
    (hk : AllKept C g.nodes) (hp : Tame g.nodes) :
    loadGraph C (graphTree C o g) = some ⟨g.nodes, g.edges, o.ids g.idMap, o.types g.typeMap⟩ := by
  rw [loadGraph_eq, readAll_map fun e he => loadEntity_save (hk e he) (hp e he)]
  simp only
  have hed : readAll (loadEdge g.nodes.length)
      (g.edges.map fun e => .array [jIndex e.src, jIndex e.dst, saveRelationship e.rel]) = some g.edges :=
    readAll_map fun e he => loadEdge_save (h.edge_bounds he).1 (h.edge_bounds he).2
  rw [hed,
    loadMap_save (h := jIndex) (fun _ _ => rfl) (((ho.1 g.idMap).map (·.1)).nodup_iff.2 h.idKeys),
    loadMap_save (h := fun l : List Nat => .array (l.map jIndex)) (fun e _ => readAll_map (f := JVal.index) (h := jIndex) fun _ _ => rfl)
      (((ho.2 g.typeMap).map (·.1)).nodup_iff.2 h.typeKeys)]

theorem loadGraph_infinite {C : Codec} {o : MapOrder} {g : Graph} {e : Entity} (he : e ∈ g.nodes)
    {p : FieldId × FieldValue} (hp : p ∈ e.fields) {f : F64} (hf : ¬ IsFinite f) (hv : PartOf (.float f) p.2) :
    loadGraph C (graphTree C o g) = none := by
  rw [loadGraph_eq, readAll_none (List.mem_map_of_mem he) (loadEntity_infinite hp hf hv)]

end Firm
