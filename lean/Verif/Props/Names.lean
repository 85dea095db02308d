import Verif.Lemmas.Names

/-!
# Properties of identifiers (C47, C48)
-/

namespace Firm
open Spec

variable {t : CaseTable}

/-! ## C47

`RegularCase` holds of the ASCII letters (`asciiTable_regular`) and of all Unicode letters except the
title-case ones, for which idempotence fails (`C47_title_case`). -/

/-- C47: the result of normalisation is snake case. Missing for the full claim: title-case letters. -/
theorem C47_normal_partial (ht : RegularCase t) (s : Str) : IsSnake t (t.snake s) :=
  join_isSnake ht (clean_words ht s)

/-- C47: normalising twice is normalising once. Missing for the full claim: title-case letters. -/
theorem C47_idempotent_partial (ht : RegularCase t) (s : Str) : t.snake (t.snake s) = t.snake s :=
  snake_fixed ht (C47_normal_partial ht s)

/-- C47: exactly the snake case texts are left unchanged. -/
theorem C47_unchanged (ht : RegularCase t) (s : Str) : t.snake s = s ↔ IsSnake t s :=
  ⟨fun h => h ▸ C47_normal_partial ht s, snake_fixed ht⟩

/-- C47 is false for title-case letters: `ǅ1` becomes `ǆ1`, which becomes `ǆ_1`. -/
theorem C47_title_case : ∃ s, titleTable.snake (titleTable.snake s) ≠ titleTable.snake s :=
  ⟨['ǅ', '1'], by decide⟩

example : RegularCase asciiTable := asciiTable_regular
example : asciiTable.snake "JohnDoe HTTPServer-p1".toList = "john_doe_http_server_p_1".toList := by
  decide
example : IsSnake asciiTable "john_doe_1".toList :=
  (C47_unchanged asciiTable_regular _).1 (by decide)

/-! ## C48 -/

/-- The parts of a composite id. -/
theorem compose_eq (ht : RegularCase t) {ty id : Str}
    (hty : ∀ c, ty.getLast? = some c → isDelim c = false)
    (hid : ∀ c, id.head? = some c → isDelim c = false) :
    t.composeEntityId ty id = t.snake (t.lower ty) ++ '.' :: t.snake id :=
  snake_dot ht (lower_last ht hty) hid

/-- C48: a composite id decomposes into the normalised (lower-cased) type and the normalised id, for
types without a dot that do not end with a delimiter and ids that do not begin with one. Missing for
the full claim: those two cases, where it is false (`C48_trailing`, `C48_leading`). -/
theorem C48_decompose_partial (ht : RegularCase t) {ty id : Str} (hdot : '.' ∉ ty)
    (hty : ∀ c, ty.getLast? = some c → isDelim c = false)
    (hid : ∀ c, id.head? = some c → isDelim c = false) :
    decomposeEntityId (t.composeEntityId ty id) = (t.snake (t.lower ty), t.snake id) := by
  unfold decomposeEntityId
  rw [compose_eq ht hty hid, splitOnceDot_append]
  · rfl
  · intro h
    exact hdot (dot_mem_lower ht (dot_mem_snake ht h))

/-- C48: for a type written without upper-case letters the first part is the entity type. -/
theorem C48_type (ht : RegularCase t) {ty id : Str} (hdot : '.' ∉ ty)
    (hty : ∀ c, ty.getLast? = some c → isDelim c = false)
    (hid : ∀ c, id.head? = some c → isDelim c = false)
    (hlow : ∀ c ∈ ty, t.isUpper c = false) :
    (decomposeEntityId (t.composeEntityId ty id)).1 = t.snake ty := by
  rw [C48_decompose_partial ht hdot hty hid, lower_fixed ht hlow]

/-- C48: two entities get the same composite id exactly when the normalised types and ids agree. -/
theorem C48_injective_partial (ht : RegularCase t) {ty id ty' id' : Str} (hdot : '.' ∉ ty)
    (hdot' : '.' ∉ ty')
    (hty : ∀ c, ty.getLast? = some c → isDelim c = false)
    (hid : ∀ c, id.head? = some c → isDelim c = false)
    (hty' : ∀ c, ty'.getLast? = some c → isDelim c = false)
    (hid' : ∀ c, id'.head? = some c → isDelim c = false) :
    t.composeEntityId ty id = t.composeEntityId ty' id' ↔
      t.snake (t.lower ty) = t.snake (t.lower ty') ∧ t.snake id = t.snake id' := by
  constructor
  · intro h
    have h' := congrArg decomposeEntityId h
    rw [C48_decompose_partial ht hdot hty hid, C48_decompose_partial ht hdot' hty' hid'] at h'
    exact Prod.mk.injEq .. ▸ h'
  · rintro ⟨h1, h2⟩
    rw [compose_eq ht hty hid, compose_eq ht hty' hid', h1, h2]

/-- C48: text without a dot decomposes into `unknown` and itself; any other text into the part before
its first dot and the rest. -/
theorem C48_decompose_all (s : Str) :
    ('.' ∉ s ∧ decomposeEntityId s = ("unknown".toList, s)) ∨
    ∃ p q, s = p ++ '.' :: q ∧ '.' ∉ p ∧ decomposeEntityId s = (p, q) := by
  by_cases h : '.' ∈ s
  · right
    have : ∃ p q, s = p ++ '.' :: q ∧ '.' ∉ p := by
      induction s with
      | nil => simp at h
      | cons c s ih =>
        by_cases hc : c = '.'
        · subst hc; exact ⟨[], s, rfl, by simp⟩
        · obtain ⟨p, q, rfl, hp⟩ := ih (by simpa [Ne.symm hc] using h)
          exact ⟨c :: p, q, rfl, by simp [Ne.symm hc, hp]⟩
    obtain ⟨p, q, rfl, hp⟩ := this
    exact ⟨p, q, rfl, hp, by simp [decomposeEntityId, splitOnceDot_append hp]⟩
  · left
    refine ⟨h, ?_⟩
    have : splitOnceDot s = none := by
      induction s with
      | nil => rfl
      | cons c s ih =>
        simp only [List.mem_cons, not_or] at h
        simp [splitOnceDot, Ne.symm h.1, ih h.2]
    simp [decomposeEntityId, this]

/-- C48 is false for a type ending with a delimiter … -/
theorem C48_trailing : (decomposeEntityId (asciiTable.composeEntityId "task_".toList "x".toList)).1 ≠
    asciiTable.snake "task_".toList := by decide

/-- … and for an id beginning with one, … -/
theorem C48_leading : (decomposeEntityId (asciiTable.composeEntityId "task".toList "_x".toList)).2 ≠
    asciiTable.snake "_x".toList := by decide

/-- … and for a type in camel case the first part is not the entity type. -/
theorem C48_camel_case :
    (decomposeEntityId (asciiTable.composeEntityId "ProjectTask".toList "x".toList)).1 ≠
      asciiTable.snake "ProjectTask".toList := by decide

example : decomposeEntityId (asciiTable.composeEntityId "Person".toList "JohnDoe.x".toList) =
    ("person".toList, "john_doe.x".toList) := by decide
example : '.' ∉ "Person".toList ∧ (∀ c, "Person".toList.getLast? = some c → isDelim c = false) ∧
    ∀ c, "JohnDoe.x".toList.head? = some c → isDelim c = false := by
  refine ⟨by decide, ?_, ?_⟩ <;> intro c h <;> injection h with h <;> subst h <;> decide

end Firm
