import Verif.Model.Schema

/-!
# Specification of schema conformance

Written from docs/src/concepts/schemas.md, not from the validator.
-/

namespace Firm.Spec

/-- The entity's value for a field: the first entry with that name. -/
inductive FirstValue : List (FieldId × FieldValue) → FieldId → FieldValue → Prop where
  | here (f v rest) : FirstValue ((f, v) :: rest) f v
  | there (g w rest f v) : g ≠ f → FirstValue rest f v → FirstValue ((g, w) :: rest) f v

/-- The value `v` has the declared type and, for enums, is one of the allowed spellings. -/
def ValueOk (env : Env) (fs : FieldSchema) (v : FieldValue) : Prop :=
  v.getType = fs.fieldType ∧
    ∀ x, v = .enum x → ∃ allowed, fs.allowedValues = some allowed ∧ env.lower (trim x) ∈ allowed

/-- What a schema asks of one of its fields. -/
def FieldOk (env : Env) (e : Entity) (f : FieldId) (fs : FieldSchema) : Prop :=
  (∀ v, FirstValue e.fields f v → ValueOk env fs v) ∧
    (fs.fieldMode = .required → ∃ v, FirstValue e.fields f v)

/-- An entity conforms to a schema. -/
def Conforms (env : Env) (s : EntitySchema) (e : Entity) : Prop :=
  e.entityType = s.entityType ∧ ∀ f fs, (f, fs) ∈ s.fields → FieldOk env e f fs

/-- The right error for a field that is violated. -/
inductive FieldViolation (env : Env) (e : Entity) (f : FieldId) (fs : FieldSchema) :
    ValidationErrorType → Prop where
  | missing : fs.fieldMode = .required → (∀ v, ¬ FirstValue e.fields f v) →
      FieldViolation env e f fs (.missingRequiredField f)
  | wrongType (v) : FirstValue e.fields f v → v.getType ≠ fs.fieldType →
      FieldViolation env e f fs (.mismatchedFieldType fs.fieldType v.getType)
  | notAllowed (x allowed) : FirstValue e.fields f (.enum x) → fs.fieldType = .enum →
      fs.allowedValues = some allowed → env.lower (trim x) ∉ allowed →
      FieldViolation env e f fs (.invalidEnumValue x allowed)
  | noValues (x) : FirstValue e.fields f (.enum x) → fs.fieldType = .enum →
      fs.allowedValues = none → FieldViolation env e f fs (.invalidEnumValue x [])

end Firm.Spec
