import Verif.Props.Printed

/-!
# C109 without a limit on the nesting: which entities are printed alike
-/

namespace Firm

open Spec

/-- Values that differ in nothing but the kind of floats that are not finite. -/
inductive Spec.PrintsAlike : FieldValue → FieldValue → Prop
  | same (v : FieldValue) : PrintsAlike v v
  | float {f g : F64} : ¬ IsFinite f → ¬ IsFinite g → PrintsAlike (.float f) (.float g)
  | list {v w : FieldValue} {vs ws : List FieldValue} : PrintsAlike v w → PrintsAlike (.list vs) (.list ws) →
      PrintsAlike (.list (v :: vs)) (.list (w :: ws))

/-- The same for entities: same id, same type, same names of fields in the same order. -/
def Spec.PrintsAlikeEntity (e e' : Entity) : Prop :=
  e.id = e'.id ∧ e.entityType = e'.entityType ∧ List.Forall₂ (fun p q => p.1 = q.1 ∧ PrintsAlike p.2 q.2) e.fields e'.fields

/-- The printed text determines the tree, however deep it is. -/
theorem jsonOutput_inj {C : Codec} {n m : Nat} {v w : JVal} (hv : Readable C n v) (hw : Readable C m w)
    (h : jsonOutput C v = jsonOutput C w) : v = w := by
  have hr : ∀ {u}, Readable C (max n m) u → jValue C (max n m) (jsonPretty C 0 u ++ ['\n']) = some (u, ['\n']) :=
    fun hu => jValue_pretty C _ 0 hu ['\n'] (stops_cons (by decide))
  have h' : jsonPretty C 0 v ++ ['\n'] = jsonPretty C 0 w ++ ['\n'] := h
  have a := hr (hv.mono _ (Nat.le_max_left ..))
  rw [h', hr (hw.mono _ (Nat.le_max_right ..))] at a
  exact (Prod.mk.inj (Option.some.inj a)).1.symm

theorem jFloat_infinite {f : F64} (h : ¬ IsFinite f) : jFloat f = .null := by
  cases f with
  | nan => rfl
  | inf s => rfl
  | negZero => exact absurd ⟨by simp, by simp⟩ h
  | fin q => exact absurd ⟨by simp, by simp⟩ h

theorem jFloat_alike {f g : F64} (h : jFloat f = jFloat g) : PrintsAlike (.float f) (.float g) := by
  by_cases hf : IsFinite f
  · by_cases hg : IsFinite g
    · rw [jFloat_inj hf hg h]
      exact .same _
    · rw [jFloat_infinite hg] at h
      obtain ⟨k, h1, _⟩ := jFloat_read hf
      rw [h1] at h
      cases h
  · by_cases hg : IsFinite g
    · rw [jFloat_infinite hf] at h
      obtain ⟨k, h1, _⟩ := jFloat_read hg
      rw [h1] at h
      cases h
    · exact .float hf hg

theorem jTag_inj {a b : String} {x y : JVal} (h : jTag a x = jTag b y) : a.toList = b.toList ∧ x = y := by
  simpa [jTag] using h

theorem saveReference_inj {r r' : ReferenceValue} (h : saveReference r = saveReference r') : r = r' := by
  cases r <;> cases r'
  · cases JVal.string.inj (jTag_inj h).2; rfl
  · exact absurd (jTag_inj h).1 (by decide)
  · exact absurd (jTag_inj h).1 (by decide)
  · have := (jTag_inj h).2
    simp only [JVal.array.injEq, List.cons.injEq, JVal.string.injEq, and_true] at this
    rw [this.1, this.2]

mutual
theorem saveValue_alike {C : Codec} : ∀ (v w : FieldValue), (∀ x, PartOf x v → Kept C x) → (∀ x, PartOf x w → Kept C x) →
    saveValue C v = saveValue C w → PrintsAlike v w := by
  intro v w hv hw h
  cases v with
  | boolean b =>
    cases w <;> simp only [saveValue] at h <;> first | exact absurd (jTag_inj h).1 (by decide) | skip
    cases JVal.bool.inj (jTag_inj h).2; exact .same _
  | string b =>
    cases w <;> simp only [saveValue] at h <;> first | exact absurd (jTag_inj h).1 (by decide) | skip
    cases JVal.string.inj (jTag_inj h).2; exact .same _
  | integer b =>
    cases w <;> simp only [saveValue] at h <;> first | exact absurd (jTag_inj h).1 (by decide) | skip
    cases jInt_inj (jTag_inj h).2; exact .same _
  | float b =>
    cases w <;> simp only [saveValue] at h <;> first | exact absurd (jTag_inj h).1 (by decide) | skip
    exact jFloat_alike (jTag_inj h).2
  | currency d c =>
    cases w <;> simp only [saveValue] at h <;> first | exact absurd (jTag_inj h).1 (by decide) | skip
    next d' c' =>
    have h2 := (jTag_inj h).2
    simp only [JVal.object.injEq, List.cons.injEq, Prod.mk.injEq, JVal.string.injEq, true_and, and_true] at h2
    have hd : d = d' := show_inj (hv _ .self).1 (hw _ .self).1 h2.1
    rw [hd, h2.2]; exact .same _
  | reference r =>
    cases w <;> simp only [saveValue] at h <;> first | exact absurd (jTag_inj h).1 (by decide) | skip
    cases saveReference_inj (jTag_inj h).2; exact .same _
  | list vs =>
    cases w <;> simp only [saveValue] at h <;> first | exact absurd (jTag_inj h).1 (by decide) | skip
    next ws =>
    exact saveValues_alike vs ws (fun v hvs x hx => hv x (.item hvs hx)) (fun v hvs x hx => hw x (.item hvs hx))
      (JVal.array.inj (jTag_inj h).2)
  | dateTime d =>
    cases w <;> simp only [saveValue] at h <;> first | exact absurd (jTag_inj h).1 (by decide) | skip
    next d' =>
    have h2 := JVal.string.inj (jTag_inj h).2
    have a : C.readDate (C.dateText d) = some d := hv _ .self
    have b : C.readDate (C.dateText d') = some d' := hw _ .self
    rw [h2, b] at a
    cases a; exact .same _
  | path b =>
    cases w <;> simp only [saveValue] at h <;> first | exact absurd (jTag_inj h).1 (by decide) | skip
    cases JVal.string.inj (jTag_inj h).2; exact .same _
  | enum b =>
    cases w <;> simp only [saveValue] at h <;> first | exact absurd (jTag_inj h).1 (by decide) | skip
    cases JVal.string.inj (jTag_inj h).2; exact .same _
theorem saveValues_alike {C : Codec} : ∀ (vs ws : List FieldValue), (∀ v ∈ vs, ∀ x, PartOf x v → Kept C x) →
    (∀ v ∈ ws, ∀ x, PartOf x v → Kept C x) → saveValues C vs = saveValues C ws → PrintsAlike (.list vs) (.list ws)
  | [], [], _, _, _ => .same _
  | [], _ :: _, _, _, h => by simp [saveValues] at h
  | _ :: _, [], _, _, h => by simp [saveValues] at h
  | v :: vs, w :: ws, hv, hw, h => by
    simp only [saveValues, List.cons.injEq] at h
    exact .list (saveValue_alike v w (hv v (by simp)) (hw w (by simp)) h.1)
      (saveValues_alike vs ws (fun x hx => hv x (by simp [hx])) (fun x hx => hw x (by simp [hx])) h.2)
end

theorem saveValue_of_alike {C : Codec} {v w : FieldValue} (h : PrintsAlike v w) : saveValue C v = saveValue C w := by
  induction h with
  | same v => rfl
  | float hf hg => simp only [saveValue, jFloat_infinite hf, jFloat_infinite hg]
  | list _ _ ih1 ih2 =>
    simp only [saveValue] at ih2
    simp only [saveValue, saveValues, ih1, JVal.array.inj (jTag_inj ih2).2]

theorem map_forall2 {α β : Type} {f : α → β} {R : α → α → Prop} : ∀ {as bs : List α},
    (∀ a ∈ as, ∀ b ∈ bs, f a = f b ↔ R a b) → (as.map f = bs.map f ↔ List.Forall₂ R as bs)
  | [], [], _ => by simp
  | [], _ :: _, _ => by simp
  | _ :: _, [], _ => by simp
  | a :: as, b :: bs, h => by
    rw [List.map_cons, List.map_cons, List.cons.injEq, List.forall₂_cons, h a (by simp) b (by simp),
      map_forall2 fun x hx y hy => h x (by simp [hx]) y (by simp [hy])]

theorem saveEntity_alike {C : Codec} {e e' : Entity} (hk : AllKept C [e]) (hk' : AllKept C [e']) :
    saveEntity C e = saveEntity C e' ↔ PrintsAlikeEntity e e' := by
  unfold saveEntity PrintsAlikeEntity
  simp only [JVal.object.injEq, List.cons.injEq, Prod.mk.injEq, JVal.string.injEq, JVal.array.injEq, true_and, and_true]
  rw [map_forall2]
  intro p hp q hq
  simp only [JVal.array.injEq, List.cons.injEq, JVal.string.injEq, and_true]
  exact and_congr_right fun _ => ⟨saveValue_alike _ _ (hk e (by simp) p hp) (hk' e' (by simp) q hq), saveValue_of_alike⟩

/-- Some depth is enough for the entity. -/
theorem saveEntity_deep {C : Codec} {e : Entity} (hk : AllKept C [e]) : ∃ n, Readable C n (saveEntity C e) := by
  have : ∀ fs : List (FieldId × FieldValue), ∃ n, ∀ p ∈ fs, levels p.2 ≤ n := by
    intro fs
    induction fs with
    | nil => exact ⟨0, by simp⟩
    | cons p fs ih =>
      obtain ⟨n, hn⟩ := ih
      refine ⟨max (levels p.2) n, ?_⟩
      intro q hq
      rcases List.mem_cons.1 hq with rfl | hq
      · exact Nat.le_max_left ..
      · exact (hn q hq).trans (Nat.le_max_right ..)
  obtain ⟨n, hn⟩ := this e.fields
  exact ⟨n + 3, saveEntity_ok (hk e (by simp)) hn⟩

theorem saveEntities_deep {C : Codec} {es : List Entity} (hk : AllKept C es) :
    ∃ n, Readable C n (.array (es.map (saveEntity C))) := by
  have : ∃ n, ∀ v ∈ es.map (saveEntity C), Readable C n v := by
    induction es with
    | nil => exact ⟨0, by simp⟩
    | cons e es ih =>
      obtain ⟨n, hn⟩ := ih fun e he => hk e (by simp [he])
      obtain ⟨m, hm⟩ := saveEntity_deep (C := C) (e := e) fun x hx => hk x (by simp at hx; simp [hx])
      refine ⟨max m n, ?_⟩
      intro v hv
      rcases List.mem_cons.1 hv with rfl | hv
      · exact hm.mono _ (Nat.le_max_left ..)
      · exact (hn v hv).mono _ (Nat.le_max_right ..)
  obtain ⟨n, hn⟩ := this
  exact ⟨n + 1, .array hn⟩

/-- C109, whatever the nesting: `query` and `related` print two lists of entities alike in JSON exactly when these differ in
nothing but the kind of floats that are not finite. Missing for the full claim: those floats. -/
theorem C109_alike_partial (S : Screen) (es es' : List Entity) (hk : AllKept S.codec es) (hk' : AllKept S.codec es') :
    outputEntities S es .json = outputEntities S es' .json ↔ List.Forall₂ PrintsAlikeEntity es es' := by
  rw [← map_forall2 (f := saveEntity S.codec) fun a ha b hb =>
    saveEntity_alike (fun x hx => hk x (by simp at hx; rw [hx]; exact ha)) fun x hx => hk' x (by simp at hx; rw [hx]; exact hb)]
  constructor
  · intro h
    obtain ⟨n, hn⟩ := saveEntities_deep hk
    obtain ⟨m, hm⟩ := saveEntities_deep hk'
    exact JVal.array.inj (jsonOutput_inj hn hm h)
  · intro h
    show jsonOutput _ (.array (es.map _)) = jsonOutput _ (.array (es'.map _))
    rw [h]

/-- C109: the same for `get`. Missing for the full claim: as before. -/
theorem C109_alike_get_partial (S : Screen) (e e' : Entity) (hk : AllKept S.codec [e]) (hk' : AllKept S.codec [e']) :
    outputEntity S e .json = outputEntity S e' .json ↔ PrintsAlikeEntity e e' := by
  rw [← saveEntity_alike hk hk']
  constructor
  · intro h
    obtain ⟨n, hn⟩ := saveEntity_deep hk
    obtain ⟨m, hm⟩ := saveEntity_deep hk'
    exact jsonOutput_inj hn hm h
  · intro h
    show jsonOutput _ _ = jsonOutput _ _
    rw [h]

/-- A list nested `n` deep. -/
def nested : Nat → FieldValue
  | 0 => .integer 1
  | n + 1 => .list [nested n]

theorem nested_kept (C : Codec) : ∀ n x, PartOf x (nested n) → Kept C x
  | 0, x, h => by cases h; exact ⟨by decide, by decide⟩
  | n + 1, x, h => by
    cases h with
    | self => exact trivial
    | item hv hx => rw [List.mem_singleton.1 hv] at hx; exact nested_kept C n x hx

/-- Lists nested more deeply than the reader of JSON goes are told apart. -/
example (S : Screen) : outputEntity S ⟨"a".toList, "t".toList, [("x".toList, nested 400)]⟩ .json ≠
    outputEntity S ⟨"a".toList, "t".toList, [("x".toList, nested 401)]⟩ .json := by
  intro h
  have hk : ∀ n, AllKept S.codec [⟨"a".toList, "t".toList, [("x".toList, nested n)]⟩] := by
    intro n e he p hp
    rw [List.mem_singleton.1 he] at hp
    rw [List.mem_singleton.1 hp]
    exact nested_kept _ n
  have h := ((C109_alike_get_partial S _ _ (hk 400) (hk 401)).1 h).2.2
  rw [List.forall₂_cons] at h
  have key : ∀ n, ¬ PrintsAlike (nested n) (nested (n + 1)) := by
    intro n
    induction n with
    | zero => intro h; cases h
    | succ n ih =>
      intro h
      have hl : ∀ {v w}, PrintsAlike (.list [v]) (.list [w]) → PrintsAlike v w := by
        intro v w h
        cases h with
        | same => exact .same _
        | list h _ => exact h
      exact ih (hl h)
  exact key 400 h.1.2

end Firm
