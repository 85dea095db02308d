import Verif.Model.Basic
import Verif.Model.Sort

/-!
# Entity schemas and validation

Rust sources: `/repo/firm_core/src/schema/{mod,validation,validation_errors}.rs`.
-/

namespace Firm

/-- `FieldMode` — firm_core/src/schema/mod.rs:14-17. -/
inductive FieldMode where
  | required
  | optional
  deriving DecidableEq, Repr, Inhabited

/-- `FieldSchema` — firm_core/src/schema/mod.rs:21-26. -/
structure FieldSchema where
  fieldType : FieldType
  fieldMode : FieldMode
  order : Nat
  allowedValues : Option (List Str)
  deriving DecidableEq, Repr, Inhabited

/-- `FieldSchema::new` — firm_core/src/schema/mod.rs:29-36. -/
def FieldSchema.new (t : FieldType) (m : FieldMode) (order : Nat) : FieldSchema := ⟨t, m, order, none⟩

/-- The normalisation `v.trim().to_lowercase()` — firm_core/src/schema/mod.rs:42 and
firm_core/src/schema/validation.rs:42. -/
def normalizeEnum (env : Env) (v : Str) : Str := env.lower (trim v)

/-- `FieldSchema::new_enum` — firm_core/src/schema/mod.rs:39-51. -/
def FieldSchema.newEnum (env : Env) (m : FieldMode) (order : Nat) (allowed : List Str) : FieldSchema :=
  ⟨.enum, m, order, some (allowed.map (normalizeEnum env))⟩

/-- `FieldSchema::is_required` — firm_core/src/schema/mod.rs:59-61. -/
def FieldSchema.isRequired (s : FieldSchema) : Bool := s.fieldMode == .required

/-- `EntitySchema` — firm_core/src/schema/mod.rs:71-75. The field map is the list of its entries in
the order in which the hash map enumerates them: theorems about all such lists cover all orders.
The private `insertion_order` (always 0, never read) is dropped. -/
structure EntitySchema where
  entityType : EntityType
  fields : List (FieldId × FieldSchema)
  deriving DecidableEq, Repr, Inhabited

/-- `EntitySchema::new` — firm_core/src/schema/mod.rs:79-85. -/
def EntitySchema.new (t : EntityType) : EntitySchema := ⟨t, []⟩

/-- `HashMap::insert`: replaces the value of an existing key, otherwise adds the entry. -/
def mapInsert {β : Type} (m : List (Str × β)) (k : Str) (v : β) : List (Str × β) :=
  match m with
  | [] => [(k, v)]
  | (k', v') :: m => if k' = k then (k, v) :: m else (k', v') :: mapInsert m k v

/-- `HashMap::get`. -/
def mapGet {β : Type} (m : List (Str × β)) (k : Str) : Option β :=
  match m with
  | [] => none
  | (k', v') :: m => if k' = k then some v' else mapGet m k

/-- `EntitySchema::add_field_schema` (also `with_raw_field`) — firm_core/src/schema/mod.rs:88-97. -/
def EntitySchema.addFieldSchema (s : EntitySchema) (id : FieldId) (f : FieldSchema) : EntitySchema :=
  { s with fields := mapInsert s.fields id f }

/-- `EntitySchema::next_order` — firm_core/src/schema/mod.rs:153-155. -/
def EntitySchema.nextOrder (s : EntitySchema) : Nat := s.fields.length

/-- `EntitySchema::with_required_field` — firm_core/src/schema/mod.rs:100-103. -/
def EntitySchema.withRequiredField (s : EntitySchema) (id : FieldId) (t : FieldType) : EntitySchema :=
  s.addFieldSchema id (.new t .required s.nextOrder)

/-- `EntitySchema::with_optional_field` — firm_core/src/schema/mod.rs:106-109. -/
def EntitySchema.withOptionalField (s : EntitySchema) (id : FieldId) (t : FieldType) : EntitySchema :=
  s.addFieldSchema id (.new t .optional s.nextOrder)

/-- `EntitySchema::with_required_enum` — firm_core/src/schema/mod.rs:112-118. -/
def EntitySchema.withRequiredEnum (env : Env) (s : EntitySchema) (id : FieldId) (allowed : List Str) :
    EntitySchema :=
  s.addFieldSchema id (.newEnum env .required s.nextOrder allowed)

/-- `EntitySchema::with_optional_enum` — firm_core/src/schema/mod.rs:121-127. -/
def EntitySchema.withOptionalEnum (env : Env) (s : EntitySchema) (id : FieldId) (allowed : List Str) :
    EntitySchema :=
  s.addFieldSchema id (.newEnum env .optional s.nextOrder allowed)

/-- `EntitySchema::with_metadata` — firm_core/src/schema/mod.rs:130-143. -/
def EntitySchema.withMetadata (s : EntitySchema) : EntitySchema :=
  ((s.addFieldSchema "notes".toList (.new .string .optional 100)).addFieldSchema
    "created_at".toList (.new .dateTime .optional 101)).addFieldSchema
    "updated_at".toList (.new .dateTime .optional 102)

/-- `EntitySchema::ordered_fields` — firm_core/src/schema/mod.rs:146-150: a stable sort by a natural
number key of the entries in hash order. -/
def EntitySchema.orderedFields (s : EntitySchema) : List (FieldId × FieldSchema) :=
  stableSort (fun a b => a.2.order ≤ b.2.order) s.fields

/-- `ValidationErrorType` — firm_core/src/schema/validation_errors.rs:5-23. -/
inductive ValidationErrorType where
  | mismatchedEntityType (expected actual : EntityType)
  | missingRequiredField (required : FieldId)
  | mismatchedFieldType (expected actual : FieldType)
  | invalidEnumValue (actual : Str) (allowed : List Str)
  deriving DecidableEq, Repr, Inhabited

/-- `ValidationError` — firm_core/src/schema/validation_errors.rs:27-114. The formatted `message` is
left out; it is a function of the other fields. -/
structure ValidationError where
  entityId : Option EntityId
  field : Option FieldId
  errorType : ValidationErrorType
  deriving DecidableEq, Repr, Inhabited

/-- The body of the loop over the schema's fields: the errors it pushes for one field —
firm_core/src/schema/validation.rs:28-66. -/
def validateField (env : Env) (e : Entity) (p : FieldId × FieldSchema) : List ValidationError :=
  match e.getField p.1 with
  | some v =>
    if !v.isType p.2.fieldType then
      [⟨some e.id, some p.1, .mismatchedFieldType p.2.fieldType v.getType⟩]
    else
      match v with
      | .enum value =>
        match p.2.allowedValues with
        | some allowed =>
          if !allowed.contains (normalizeEnum env value) then
            [⟨some e.id, some p.1, .invalidEnumValue value allowed⟩]
          else []
        | none => [⟨some e.id, some p.1, .invalidEnumValue value []⟩]
      | _ => []
  | none =>
    if p.2.isRequired then [⟨some e.id, some p.1, .missingRequiredField p.1⟩] else []

/-- The error list that `EntitySchema::validate` accumulates — firm_core/src/schema/validation.rs:16-67. -/
def EntitySchema.errors (env : Env) (s : EntitySchema) (e : Entity) : List ValidationError :=
  (if e.entityType = s.entityType then [] else
    [⟨some e.id, none, .mismatchedEntityType s.entityType e.entityType⟩]) ++
  s.fields.flatMap (validateField env e)

/-- `EntitySchema::validate` — firm_core/src/schema/validation.rs:10-81. -/
def EntitySchema.validate (env : Env) (s : EntitySchema) (e : Entity) :
    Except (List ValidationError) Unit :=
  if (s.errors env e).isEmpty then .ok () else .error (s.errors env e)

/-- A step of the schema builders. -/
inductive SchemaOp where
  | raw (id : FieldId) (f : FieldSchema)
  | requiredField (id : FieldId) (t : FieldType)
  | optionalField (id : FieldId) (t : FieldType)
  | requiredEnum (id : FieldId) (allowed : List Str)
  | optionalEnum (id : FieldId) (allowed : List Str)
  | metadata

/-- One builder call. -/
def SchemaOp.step (env : Env) (s : EntitySchema) : SchemaOp → EntitySchema
  | .raw id f => s.addFieldSchema id f
  | .requiredField id t => s.withRequiredField id t
  | .optionalField id t => s.withOptionalField id t
  | .requiredEnum id a => s.withRequiredEnum env id a
  | .optionalEnum id a => s.withOptionalEnum env id a
  | .metadata => s.withMetadata

/-- A schema made by a sequence of builder calls. -/
def EntitySchema.build (env : Env) (t : EntityType) (ops : List SchemaOp) : EntitySchema :=
  ops.foldl (SchemaOp.step env) (EntitySchema.new t)

end Firm
