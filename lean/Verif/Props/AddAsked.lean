import Verif.Props.Asked
import Verif.Props.TwoWays
import Verif.Props.Unlinked
import Verif.Props.Evolved

/-!
# Which `firm add` commands are accepted

C172: `firm add` succeeds exactly when the type has a schema, the id is new, every `--field` and every `--list` names a field
of the schema and its texts can be read, no required field is missing, the first value of each field has the right type, and
a text can be put at the end of the target file.
-/

namespace Firm
open Spec

/-! ## Specification -/

/-- The kinds of values that an argument can be read as. -/
inductive Spec.ValueKind where
  | boolean | string | integer | float | currency | entity | field | dateTime | enum | path
deriving DecidableEq

/-- The type of field that such a value is for. -/
def Spec.ValueKind.fieldType : ValueKind → FieldType
  | .boolean => .boolean
  | .string => .string
  | .integer => .integer
  | .float => .float
  | .currency => .currency
  | .entity => .reference
  | .field => .reference
  | .dateTime => .dateTime
  | .enum => .enum
  | .path => .path

/-- A text given for a field of the type is read as a value of the kind. -/
inductive Spec.ReadAs (S : Shell) : FieldType → Str → ValueKind → Prop
  | yes : ReadAs S .boolean "true".toList .boolean
  | no : ReadAs S .boolean "false".toList .boolean
  | string (s : Str) : ReadAs S .string s .string
  | enum (s : Str) : ReadAs S .enum s .enum
  | path (s : Str) : ReadAs S .path s .path
  | integer {t : FieldType} {s : Str} {n : Int} : t = .integer ∨ t = .float → IntText s n → -(2 ^ 63) ≤ n → n < 2 ^ 63 →
      ReadAs S t s .integer
  | float {t : FieldType} {s : Str} {f : F64} : t = .integer ∨ t = .float → '.' ∈ s → S.lang.parseF64 s = some f →
      ReadAs S t s .float
  | currency {a c : Str} {d : Decimal} : ' ' ∉ a → ' ' ∉ c → parseDecimal a = some d → S.lang.knownCurrency c = true →
      ReadAs S .currency (a ++ ' ' :: c) .currency
  | entity {a b : Str} : '.' ∉ a → '.' ∉ b → ReadAs S .reference (a ++ '.' :: b) .entity
  | field {a b f : Str} : '.' ∉ a → '.' ∉ b → '.' ∉ f → ReadAs S .reference (a ++ '.' :: (b ++ '.' :: f)) .field
  | date {s : Str} {day : Int} : parseCivil s = some day → ReadAs S .dateTime s .dateTime
  | dateTime {s : Str} {d : DateTime} : MomentText S.lang s d → ReadAs S .dateTime s .dateTime

/-- An argument without quotation marks that are taken off, and without the date-times that are read in another way. -/
def Spec.UsualArgument (t : FieldType) (s : Str) : Prop :=
  (t = .string → ¬ (tripleQuote <+: s ∧ tripleQuote <:+ s)) ∧ (t = .enum → '"' ∉ s) ∧
  (t = .dateTime → (∀ x y z, s ≠ x ++ " UTC".toList ++ y ++ " UTC".toList ++ z) ∧
    ∀ x z h, s = x ++ " UTC".toList ++ z → parseI32 z = some h → -(2 ^ 31) ≤ h * 3600 ∧ h * 3600 < 2 ^ 31)

/-- What a schema asks of the arguments of `firm add`: each `--field` is one of its fields and has a text that can be read;
so is each `--list`, which has values that are all read as the same kind (of a name given twice, the last item type counts);
no required field is missing; the first text for a field is read as its type, and the first word for a choice is allowed. -/
structure Spec.ArgumentsFit (S : Shell) (sc : EntitySchema) (fields lists values : List (Str × Str)) : Prop where
  known : ∀ q ∈ fields, ∃ fd k, (S.lang.cases.snake q.1, fd) ∈ sc.fields ∧ ReadAs S fd.fieldType q.2 k
  listed : ∀ before q after, lists = before ++ q :: after → (∀ r ∈ after, r.1 ≠ q.1) →
    (∃ fd, (S.lang.cases.snake q.1, fd) ∈ sc.fields ∧ fd.fieldType = .list) ∧ valuesOf values q.1 ≠ [] ∧
      ∃ t k, ItemWord S.lang.env q.2 t ∧ ∀ s ∈ valuesOf values q.1, ReadAs S t s k
  required : ∀ k fd, (k, fd) ∈ sc.fields → fd.fieldMode = .required → ∃ q ∈ fields ++ lists, S.lang.cases.snake q.1 = k
  first : ∀ before q after, fields = before ++ q :: after →
    (∀ r ∈ before, S.lang.cases.snake r.1 ≠ S.lang.cases.snake q.1) →
    ∀ fd, (S.lang.cases.snake q.1, fd) ∈ sc.fields →
      (∃ k, ReadAs S fd.fieldType q.2 k ∧ k.fieldType = fd.fieldType) ∧
      (fd.fieldType = .enum → ∃ words, fd.allowedValues = some words ∧ S.lang.env.lower (trim q.2) ∈ words)

/-! ## Values -/

/-- The kind of a value. -/
def kindOf : ParsedValue → Option ValueKind
  | .boolean _ => some .boolean
  | .string _ => some .string
  | .integer _ => some .integer
  | .float _ => some .float
  | .currency _ _ => some .currency
  | .entityRef _ _ => some .entity
  | .fieldRef _ _ _ => some .field
  | .list _ => none
  | .dateTime _ => some .dateTime
  | .path _ => some .path
  | .enum _ => some .enum

theorem kind_type {T : CaseTable} {v : ParsedValue} {k : ValueKind} (h : kindOf v = some k) :
    (toFieldValue T v).getType = k.fieldType := by
  cases v <;> cases h <;> rfl

/-- The name of a kind in a message. -/
def kindName : ValueKind → Str
  | .boolean => "Boolean".toList
  | .string => "String".toList
  | .integer => "Integer".toList
  | .float => "Float".toList
  | .currency => "Currency".toList
  | .entity => "EntityReference".toList
  | .field => "FieldReference".toList
  | .dateTime => "DateTime".toList
  | .enum => "Enum".toList
  | .path => "Path".toList

theorem kind_name {v w : ParsedValue} {k l : ValueKind} (hv : kindOf v = some k) (hw : kindOf w = some l) :
    v.typeName = w.typeName ↔ k = l := by
  have h1 : ∀ {v : ParsedValue} {k : ValueKind}, kindOf v = some k → v.typeName = kindName k := by
    intro v k h
    cases v <;> cases h <;> rfl
  rw [h1 hv, h1 hw]
  refine ⟨fun h => ?_, fun h => by rw [h]⟩
  clear hv hw
  cases k <;> cases l <;> first | rfl | exact absurd h (by decide)

theorem read_iff {S : Shell} {target : List PathComp} {t : FieldType} {s : Str} (hu : UsualArgument t s) {k : ValueKind} :
    (∃ v, S.fieldValue target t s = some v ∧ kindOf v = some k) ↔ ReadAs S t s k := by
  have hnum : t = .integer ∨ t = .float → S.fieldValue target t s = (parseNumber S.lang s).toOption := by
    rintro (rfl | rfl) <;> rfl
  have number : t = .integer ∨ t = .float → ∀ v, S.fieldValue target t s = some v → kindOf v = some k → ReadAs S t s k := by
    intro ht v hv hk
    rw [hnum ht] at hv
    rcases parseNumber_cases (toOption_some hv) with ⟨h1, f, h2, rfl⟩ | ⟨h1, n, h2, rfl⟩
    · cases hk; exact .float ht h1 h2
    · cases hk
      obtain ⟨h3, h4, h5⟩ := (parseI64_iff _ _).1 h2
      exact .integer ht h3 h4 h5
  constructor
  · rintro ⟨v, h, hk⟩
    cases t with
    | boolean =>
      replace h := toOption_some h
      unfold parseBoolean at h
      split at h
      · next hs => cases h; subst hs; cases hk; exact .yes
      · split at h
        · next hs => cases h; subst hs; cases hk; exact .no
        · cases h
    | string =>
      replace h := toOption_some h
      unfold parseString at h
      split at h
      · split at h
        · cases h; cases hk; exact .string _
        · cases h
      · cases h; cases hk; exact .string _
    | integer => exact number (.inl rfl) v h hk
    | float => exact number (.inr rfl) v h hk
    | currency =>
      replace h := toOption_some h
      unfold parseCurrency at h
      split at h
      · next a c hs =>
        obtain ⟨rfl, h1, h2⟩ := parts_two hs
        split at h
        · cases h
        · next d hd =>
          split at h
          · next hc => cases h; cases hk; exact .currency h1 h2 hd hc
          · cases h
      · cases h
    | reference =>
      replace h := toOption_some h
      unfold parseReference at h
      split at h
      · next a b hs =>
        obtain ⟨rfl, h1, h2⟩ := parts_two hs
        cases h; cases hk; exact .entity h1 h2
      · next a b f hs =>
        obtain ⟨rfl, h1, h2, h3⟩ := parts_three hs
        cases h; cases hk; exact .field h1 h2 h3
      · cases h
    | list => cases h
    | dateTime =>
      change (match parseDateTime S.lang s with | .ok v => some v | .error _ => (parseDate S.lang s).toOption) = some v at h
      cases hd : parseDateTime S.lang s with
      | ok w =>
        rw [hd] at h
        cases h
        obtain ⟨d, rfl⟩ := parseDateTime_value hd
        cases hk
        obtain ⟨h1, h2⟩ := hu.2.2 rfl
        exact .dateTime (C91_means_partial S.lang h1 h2 hd)
      | error e =>
        rw [hd] at h
        replace h := toOption_some h
        unfold parseDate at h
        split at h
        · cases h
        · next day hday => cases h; cases hk; exact .date hday
    | path => cases h; cases hk; exact .path _
    | enum => cases h; cases hk; exact .enum _
  · intro h
    cases h with
    | yes => exact ⟨.boolean true, rfl, rfl⟩
    | no => exact ⟨.boolean false, rfl, rfl⟩
    | string =>
      refine ⟨.string (trimMatches '"' s), ?_, rfl⟩
      rw [Shell.fieldValue, parseString, if_neg]
      · rfl
      · intro h
        rw [Bool.and_eq_true] at h
        obtain ⟨x, hx⟩ := (startsWith_iff _ _).1 h.1
        obtain ⟨y, hy⟩ := (endsWith_iff _ _).1 h.2
        exact hu.1 rfl ⟨⟨x, hx.symm⟩, ⟨y, hy.symm⟩⟩
    | enum => exact ⟨_, rfl, rfl⟩
    | path => exact ⟨_, rfl, rfl⟩
    | @integer _ _ n ht h1 h2 h3 =>
      refine ⟨.integer n, ?_, rfl⟩
      rw [hnum ht, parseNumber, if_neg (intText_no_dot h1), (parseI64_iff _ _).2 ⟨h1, h2, h3⟩]
      rfl
    | @float _ _ f ht h1 h2 =>
      refine ⟨.float f, ?_, rfl⟩
      rw [hnum ht, parseNumber, if_pos h1, h2]
      rfl
    | @currency a c d h1 h2 h3 h4 =>
      obtain ⟨v, h5, h6⟩ := C92_accepted S (target := target) (.currency h1 h2 h3 h4)
      refine ⟨v, h5, ?_⟩
      cases v <;> cases h6
      rfl
    | @entity a b h1 h2 =>
      obtain ⟨v, h5, h6⟩ := C92_accepted S (target := target) (.entity h1 h2)
      refine ⟨v, h5, ?_⟩
      cases v with
      | entityRef => rfl
      | _ => simp only [toFieldValue, reduceCtorEq, FieldValue.reference.injEq] at h6
    | @field a b f h1 h2 h3 =>
      obtain ⟨v, h5, h6⟩ := C92_accepted S (target := target) (.field h1 h2 h3)
      refine ⟨v, h5, ?_⟩
      cases v with
      | fieldRef => rfl
      | _ => simp only [toFieldValue, reduceCtorEq, FieldValue.reference.injEq] at h6
    | @date _ day h =>
      obtain ⟨v, h5, h6⟩ := C92_accepted S (target := target) (.date h)
      refine ⟨v, h5, ?_⟩
      cases v <;> cases h6
      rfl
    | @dateTime _ d h =>
      obtain ⟨v, h5, h6⟩ := C92_accepted S (target := target) (.dateTime h)
      refine ⟨v, h5, ?_⟩
      cases v <;> cases h6
      rfl

theorem value_kind {S : Shell} {target : List PathComp} {t : FieldType} {s : Str} {v : ParsedValue}
    (h : S.fieldValue target t s = some v) : ∃ k, kindOf v = some k := by
  have number : (parseNumber S.lang s).toOption = some v → ∃ k, kindOf v = some k := by
    intro hv
    rcases parseNumber_cases (toOption_some hv) with ⟨-, f, -, rfl⟩ | ⟨-, n, -, rfl⟩
    · exact ⟨_, rfl⟩
    · exact ⟨_, rfl⟩
  cases t with
  | boolean =>
    replace h := toOption_some h
    unfold parseBoolean at h
    split at h
    · cases h; exact ⟨_, rfl⟩
    · split at h
      · cases h; exact ⟨_, rfl⟩
      · cases h
  | string =>
    replace h := toOption_some h
    unfold parseString at h
    split at h
    · split at h
      · cases h; exact ⟨_, rfl⟩
      · cases h
    · cases h; exact ⟨_, rfl⟩
  | integer => exact number h
  | float => exact number h
  | currency =>
    replace h := toOption_some h
    unfold parseCurrency at h
    split at h
    · split at h
      · cases h
      · split at h
        · cases h; exact ⟨_, rfl⟩
        · cases h
    · cases h
  | reference =>
    replace h := toOption_some h
    unfold parseReference at h
    split at h
    · cases h; exact ⟨_, rfl⟩
    · cases h; exact ⟨_, rfl⟩
    · cases h
  | list => cases h
  | dateTime =>
    change (match parseDateTime S.lang s with | .ok v => some v | .error _ => (parseDate S.lang s).toOption) = some v at h
    cases hd : parseDateTime S.lang s with
    | ok w =>
      rw [hd] at h
      cases h
      obtain ⟨d, rfl⟩ := parseDateTime_value hd
      exact ⟨_, rfl⟩
    | error e =>
      rw [hd] at h
      replace h := toOption_some h
      unfold parseDate at h
      split at h
      · cases h
      · cases h; exact ⟨_, rfl⟩
  | path => cases h; exact ⟨_, rfl⟩
  | enum => cases h; exact ⟨_, rfl⟩

theorem value_enum {S : Shell} {target : List PathComp} {t : FieldType} {s : Str} (hu : UsualArgument t s) {v : ParsedValue}
    (h : S.fieldValue target t s = some v) (ht : t = .enum) : toFieldValue S.lang.cases v = .enum s := by
  subst ht
  rw [Shell.fieldValue, parseEnum_plain (hu.2.1 rfl)] at h
  cases h
  rfl

/-- The items of a list: they can be read, all as the same kind. -/
theorem items_iff {S : Shell} {target : List PathComp} {t : FieldType} {ss : List Str} (hne : ss ≠ [])
    (hu : ∀ s ∈ ss, UsualArgument t s) :
    (∃ vs v, S.items target t ss = some vs ∧ parseListFromVec vs = .ok v) ↔ ∃ k, ∀ s ∈ ss, ReadAs S t s k := by
  have key : ∀ {ss : List Str}, (∀ s ∈ ss, UsualArgument t s) → ∀ k,
      (∃ vs, S.items target t ss = some vs ∧ ∀ v ∈ vs, kindOf v = some k) ↔ ∀ s ∈ ss, ReadAs S t s k := by
    intro ss hu k
    induction ss with
    | nil => exact ⟨fun _ s hs => (by cases hs), fun _ => ⟨[], rfl, fun v hv => by cases hv⟩⟩
    | cons s ss ih =>
      rw [List.forall_mem_cons] at hu
      rw [List.forall_mem_cons, ← ih hu.2, ← read_iff (target := target) hu.1, Shell.items]
      cases S.fieldValue target t s with
      | none => simp
      | some v =>
        cases S.items target t ss with
        | none => simp
        | some vs => simp
  have kinds : ∀ {ss vs}, S.items target t ss = some vs → ∀ v ∈ vs, ∃ k, kindOf v = some k := by
    intro ss
    induction ss with
    | nil => intro vs h; cases h; exact fun v hv => by cases hv
    | cons s ss ih =>
      intro vs h
      rw [Shell.items] at h
      split at h
      · cases h
      · next v hv =>
        obtain ⟨ws, hws, rfl⟩ := Option.map_eq_some_iff.1 h
        rw [List.forall_mem_cons]
        exact ⟨value_kind hv, ih hws⟩
  constructor
  · rintro ⟨vs, v, h1, h2⟩
    cases vs with
    | nil =>
      cases ss with
      | nil => exact absurd rfl hne
      | cons s ss =>
        rw [Shell.items] at h1
        split at h1
        · cases h1
        · obtain ⟨ws, hws, h⟩ := Option.map_eq_some_iff.1 h1
          cases h
    | cons w vs =>
      obtain ⟨k, hk⟩ := kinds h1 w (by simp)
      refine ⟨k, (key hu k).1 ⟨_, h1, ?_⟩⟩
      unfold parseListFromVec at h2
      dsimp only at h2
      rcases checkItems_spec w.typeName 1 vs with ⟨-, h⟩ | ⟨pre, u, post, rfl, -, h, h3⟩
      · rw [List.forall_mem_cons]
        refine ⟨hk, fun u hu => ?_⟩
        obtain ⟨l, hl⟩ := kinds h1 u (List.mem_cons_of_mem _ hu)
        rw [hl, (kind_name hl hk).1 (h u hu)]
      · rw [h3] at h2
        cases h2
  · rintro ⟨k, h⟩
    obtain ⟨vs, h1, h2⟩ := (key hu k).2 h
    refine ⟨vs, .list vs, h1, ?_⟩
    cases vs with
    | nil => rfl
    | cons w vs =>
      rw [List.forall_mem_cons] at h2
      rw [parseListFromVec, checkItems_same fun u hu => (kind_name (h2.2 u hu) h2.1).2 rfl]

/-! ## First values -/

theorem firstValue_append {a b : List (FieldId × FieldValue)} {k : FieldId} {x : FieldValue} :
    FirstValue (a ++ b) k x ↔ FirstValue a k x ∨ ((∀ p ∈ a, p.1 ≠ k) ∧ FirstValue b k x) := by
  induction a with
  | nil =>
    refine ⟨fun h => .inr ⟨(fun _ h => by cases h), h⟩, fun h => ?_⟩
    rcases h with h | h
    · cases h
    · exact h.2
  | cons p a ih =>
    obtain ⟨j, y⟩ := p
    rw [List.cons_append, List.forall_mem_cons]
    constructor
    · intro h
      cases h with
      | here => exact .inl (.here _ _ _)
      | there _ _ _ _ _ hne h =>
        rcases ih.1 h with h | ⟨h1, h2⟩
        · exact .inl (.there _ _ _ _ _ hne h)
        · exact .inr ⟨⟨hne, h1⟩, h2⟩
    · rintro (h | ⟨⟨hne, h1⟩, h2⟩)
      · cases h with
        | here => exact .here _ _ _
        | there _ _ _ _ _ hne h => exact .there _ _ _ _ _ hne (ih.2 (.inl h))
      · exact .there _ _ _ _ _ hne (ih.2 (.inr ⟨h1, h2⟩))

section
variable {α : Type} {key : α → Str} {R : α → FieldId × FieldValue → Prop}

theorem first_of (hR : ∀ q r, R q r → r.1 = key q) {fs : List α} {new : List (FieldId × FieldValue)}
    (h : List.Forall₂ R fs new) {k : FieldId} {x : FieldValue} (hx : FirstValue new k x) :
    ∃ before q after, fs = before ++ q :: after ∧ (∀ r ∈ before, key r ≠ k) ∧ R q (k, x) := by
  induction h with
  | nil => cases hx
  | @cons q r fs new h1 h2 ih =>
    cases hx with
    | here => exact ⟨[], q, fs, rfl, (fun _ h => by cases h), h1⟩
    | there g w _ _ _ hne hx =>
      obtain ⟨before, q', after, rfl, h3, h4⟩ := ih hx
      refine ⟨q :: before, q', after, rfl, ?_, h4⟩
      rw [List.forall_mem_cons]
      exact ⟨by rw [← hR _ _ h1]; exact hne, h3⟩

theorem of_first (hR : ∀ q r, R q r → r.1 = key q) {fs : List α} {new : List (FieldId × FieldValue)}
    (h : List.Forall₂ R fs new) {before after : List α} {q : α} (hq : fs = before ++ q :: after)
    (hb : ∀ r ∈ before, key r ≠ key q) : ∃ x, FirstValue new (key q) x ∧ R q (key q, x) := by
  subst hq
  induction before generalizing new with
  | nil =>
    cases h with
    | @cons _ r _ new h1 h2 =>
      obtain ⟨k, x⟩ := r
      have h3 := hR _ _ h1
      dsimp only at h3
      subst h3
      exact ⟨x, .here _ _ _, h1⟩
  | cons b before ih =>
    cases h with
    | @cons _ r _ new h1 h2 =>
      obtain ⟨k, x⟩ := r
      rw [List.forall_mem_cons] at hb
      obtain ⟨y, h3, h4⟩ := ih hb.2 h2
      exact ⟨y, .there _ _ _ _ _ (by rw [show k = _ from hR _ _ h1]; exact hb.1) h3, h4⟩
end

/-! ## Fields and lists -/

/-- A `--field` and the field that is made of it. -/
def scalarOf (S : Shell) (target : List PathComp) (sc : EntitySchema) (q : Str × Str) (r : FieldId × FieldValue) : Prop :=
  r.1 = S.lang.cases.snake q.1 ∧ ∃ fd v, mapGet sc.fields r.1 = some fd ∧ S.fieldValue target fd.fieldType q.2 = some v ∧
    r.2 = toFieldValue S.lang.cases v

/-- A `--list` and the field that is made of it. -/
def listOf (S : Shell) (target : List PathComp) (sc : EntitySchema) (values : List (Str × Str)) (q : Str × Str)
    (r : FieldId × FieldValue) : Prop :=
  r.1 = S.lang.cases.snake q.1 ∧ (∃ fd, mapGet sc.fields r.1 = some fd ∧ fd.fieldType = .list) ∧
    valuesOf values q.1 ≠ [] ∧ ∃ t vs v, parseListItemType S.lang.env q.2 = some t ∧
      S.items target t (valuesOf values q.1) = some vs ∧ parseListFromVec vs = .ok v ∧ r.2 = toFieldValue S.lang.cases v

theorem cli_addFields_iff {S : Shell} {target : List PathComp} {sc : EntitySchema} {fs : List (Str × Str)} {e e' : Entity} :
    S.addFields target sc e fs = some e' ↔
      ∃ new, e' = { e with fields := e.fields ++ new } ∧ List.Forall₂ (scalarOf S target sc) fs new := by
  induction fs generalizing e with
  | nil =>
    rw [Shell.addFields]
    constructor
    · intro h; cases h; exact ⟨[], by simp, .nil⟩
    · rintro ⟨new, rfl, h⟩; cases h; simp
  | cons q fs ih =>
    obtain ⟨n, s⟩ := q
    rw [Shell.addFields]
    constructor
    · intro h
      split at h
      · cases h
      · next fd hfd =>
        split at h
        · cases h
        · next v hv =>
          obtain ⟨new, rfl, hf⟩ := ih.1 h
          exact ⟨(S.lang.cases.snake n, toFieldValue S.lang.cases v) :: new,
            by simp only [Entity.withField, List.append_assoc, List.singleton_append], .cons ⟨rfl, fd, v, hfd, hv, rfl⟩ hf⟩
    · rintro ⟨new, rfl, h⟩
      cases h with
      | @cons _ r _ new h1 h2 =>
        obtain ⟨k, x⟩ := r
        obtain ⟨rfl, fd, v, h3, h4, rfl⟩ := h1
        dsimp only at h3 h4
        rw [h3]
        dsimp only
        rw [h4]
        exact ih.2 ⟨new, by simp only [Entity.withField, List.append_assoc, List.singleton_append], h2⟩

theorem cli_addLists_iff {S : Shell} {target : List PathComp} {sc : EntitySchema} {values ls : List (Str × Str)}
    {e e' : Entity} :
    S.addLists target sc values e ls = some e' ↔
      ∃ new, e' = { e with fields := e.fields ++ new } ∧ List.Forall₂ (listOf S target sc values) ls new := by
  induction ls generalizing e with
  | nil =>
    rw [Shell.addLists]
    constructor
    · intro h; cases h; exact ⟨[], by simp, .nil⟩
    · rintro ⟨new, rfl, h⟩; cases h; simp
  | cons q ls ih =>
    obtain ⟨n, ty⟩ := q
    rw [Shell.addLists]
    constructor
    · intro h
      split at h
      · cases h
      · next fd hfd =>
        split at h
        · next hlist =>
          split at h
          · cases h
          · next t ht =>
            rw [valuesOf_eq] at h
            split at h
            · cases h
            · next texts hne =>
              split at h
              · cases h
              · next vs hvs =>
                split at h
                · cases h
                · next v hv =>
                  obtain ⟨new, rfl, hf⟩ := ih.1 h
                  exact ⟨(S.lang.cases.snake n, toFieldValue S.lang.cases v) :: new,
                    by simp only [Entity.withField, List.append_assoc, List.singleton_append],
                    .cons ⟨rfl, ⟨fd, hfd, hlist⟩, hne, t, vs, v, ht, hvs, hv, rfl⟩ hf⟩
        · cases h
    · rintro ⟨new, rfl, h⟩
      cases h with
      | @cons _ r _ new h1 h2 =>
        obtain ⟨k, x⟩ := r
        obtain ⟨rfl, ⟨fd, h3, h4⟩, h5, t, vs, v, h6, h7, h8, rfl⟩ := h1
        dsimp only at h3 h5 h6 h7
        rw [h3]
        dsimp only
        rw [if_pos h4, h6]
        dsimp only
        rw [valuesOf_eq]
        have hrest : S.addLists target sc values (e.withField (S.lang.cases.snake n) (toFieldValue S.lang.cases v)) ls =
            some { e with fields := e.fields ++ (S.lang.cases.snake n, toFieldValue S.lang.cases v) :: new } :=
          ih.2 ⟨new, by simp only [Entity.withField, List.append_assoc, List.singleton_append], h2⟩
        split
        · next hnil => exact absurd hnil h5
        · rw [h7]
          dsimp only
          rw [h8]
          exact hrest

/-- Inserting pairs one after another keeps the last one of each name. -/
theorem insert_last (m ps : List (Str × Str)) (hm : (m.map (·.1)).Nodup) :
    ((ps.foldl (fun m p => mapInsert m p.1 p.2) m).map (·.1)).Nodup ∧
    ∀ q, q ∈ ps.foldl (fun m p => mapInsert m p.1 p.2) m ↔
      (q ∈ m ∧ ∀ r ∈ ps, r.1 ≠ q.1) ∨ ∃ before after, ps = before ++ q :: after ∧ ∀ r ∈ after, r.1 ≠ q.1 := by
  induction ps generalizing m with
  | nil => exact ⟨hm, fun q => ⟨fun h => .inl ⟨h, (fun _ h => by cases h)⟩, fun h => by
      rcases h with h | ⟨b, a, h, -⟩
      · exact h.1
      · exact absurd h.symm (by simp)⟩⟩
  | cons p ps ih =>
    obtain ⟨h1, h2⟩ := ih (mapInsert m p.1 p.2) (mapInsert_nodup hm)
    refine ⟨h1, fun q => (h2 q).trans ?_⟩
    have hin : q ∈ mapInsert m p.1 p.2 ↔ (q ∈ m ∧ p.1 ≠ q.1) ∨ q = p := by
      obtain ⟨k, v⟩ := q
      rw [mapGet_iff_mem (mapInsert_nodup hm), mapGet_insert, mapGet_iff_mem hm]
      split
      · next hk =>
        subst hk
        constructor
        · intro h; cases h; exact .inr rfl
        · rintro (h | h)
          · exact absurd rfl h.2
          · rw [← h]
      · next hk =>
        constructor
        · exact fun h => .inl ⟨h, hk⟩
        · rintro (h | h)
          · exact h.1
          · exact absurd (by rw [← h]) hk
    rw [hin, List.forall_mem_cons]
    constructor
    · rintro (⟨⟨h3, h4⟩ | rfl, h5⟩ | ⟨b, a, rfl, h3⟩)
      · exact .inl ⟨h3, h4, h5⟩
      · exact .inr ⟨[], ps, rfl, h5⟩
      · exact .inr ⟨p :: b, a, rfl, h3⟩
    · rintro (⟨h3, h4, h5⟩ | ⟨b, a, h3, h4⟩)
      · exact .inl ⟨.inl ⟨h3, h4⟩, h5⟩
      · cases b with
        | nil => cases h3; exact .inl ⟨.inr rfl, h4⟩
        | cons c b => cases h3; exact .inr ⟨b, a, rfl, h4⟩

theorem last_named {ls : List (Str × Str)} {n : Str} (h : ∃ q ∈ ls, q.1 = n) :
    ∃ before r after, ls = before ++ r :: after ∧ (∀ b ∈ after, b.1 ≠ r.1) ∧ r.1 = n := by
  induction ls with
  | nil => obtain ⟨q, hq, -⟩ := h; cases hq
  | cons a ls ih =>
    by_cases hl : ∃ q ∈ ls, q.1 = n
    · obtain ⟨b, r, c, rfl, h1, h2⟩ := ih hl
      exact ⟨a :: b, r, c, rfl, h1, h2⟩
    · obtain ⟨q, hq, hqn⟩ := h
      rcases List.mem_cons.1 hq with rfl | hq
      · exact ⟨[], q, ls, rfl, fun b hb hbr => hl ⟨b, hb, hbr.trans hqn⟩, hqn⟩
      · exact absurd ⟨q, hq, hqn⟩ hl

theorem arguments_conform {S : Shell} {target : List PathComp} {sc : EntitySchema} {values fields lists : List (Str × Str)}
    (hk : (sc.fields.map (·.1)).Nodup)
    (hu : ∀ q ∈ fields, ∀ fd, (S.lang.cases.snake q.1, fd) ∈ sc.fields → UsualArgument fd.fieldType q.2)
    {scalars listed : List (FieldId × FieldValue)} (h1 : List.Forall₂ (scalarOf S target sc) fields scalars)
    (h2 : List.Forall₂ (listOf S target sc values) lists listed) {id : Str} :
    Conforms S.lang.env sc ⟨id, sc.entityType, scalars ++ listed⟩ ↔
      (∀ k fd, (k, fd) ∈ sc.fields → fd.fieldMode = .required → ∃ q ∈ fields ++ lists, S.lang.cases.snake q.1 = k) ∧
      ∀ before q after, fields = before ++ q :: after →
        (∀ r ∈ before, S.lang.cases.snake r.1 ≠ S.lang.cases.snake q.1) →
        ∀ fd, (S.lang.cases.snake q.1, fd) ∈ sc.fields →
          (∃ k, ReadAs S fd.fieldType q.2 k ∧ k.fieldType = fd.fieldType) ∧
          (fd.fieldType = .enum → ∃ words, fd.allowedValues = some words ∧ S.lang.env.lower (trim q.2) ∈ words) := by
  have R1 : ∀ q r, scalarOf S target sc q r → r.1 = S.lang.cases.snake q.1 := fun q r h => h.1
  have R2 : ∀ q r, listOf S target sc values q r → r.1 = S.lang.cases.snake q.1 := fun q r h => h.1
  have one : ∀ {k : Str} {fd fd' : FieldSchema}, (k, fd) ∈ sc.fields → mapGet sc.fields k = some fd' → fd' = fd := by
    intro k fd fd' hm hg
    have := (mapGet_iff_mem hk).1 hm
    rw [hg] at this
    exact Option.some.inj this
  unfold Conforms
  constructor
  · rintro ⟨-, hc⟩
    refine ⟨fun k fd hm hr => ?_, fun before q after hq hb fd hm => ?_⟩
    · obtain ⟨v, hv⟩ := (hc k fd hm).2 hr
      rcases firstValue_append.1 hv with hv | ⟨-, hv⟩
      · obtain ⟨b, q, a, rfl, -, h3⟩ := first_of R1 h1 hv
        exact ⟨q, by simp, h3.1.symm⟩
      · obtain ⟨b, q, a, rfl, -, h3⟩ := first_of R2 h2 hv
        exact ⟨q, by simp, h3.1.symm⟩
    · obtain ⟨x, hx, -, fd', v, h3, h4, h5⟩ := of_first R1 h1 hq hb
      dsimp only at h3 h4 h5
      have := one hm h3
      subst this
      subst h5
      obtain ⟨h6, h7⟩ := (hc _ _ hm).1 _ (firstValue_append.2 (.inl hx))
      have hus := hu q (by rw [hq]; simp) _ hm
      obtain ⟨k, hkv⟩ := value_kind h4
      refine ⟨⟨k, (read_iff (target := target) hus).1 ⟨v, h4, hkv⟩, ?_⟩, fun he => ?_⟩
      · rw [← kind_type (T := S.lang.cases) hkv]; exact h6
      · exact h7 _ (value_enum hus h4 he)
  · rintro ⟨hreq, hfirst⟩
    refine ⟨rfl, fun k fd hm => ⟨fun v hv => ?_, fun hr => ?_⟩⟩
    · rcases firstValue_append.1 hv with hv | ⟨-, hv⟩
      · obtain ⟨b, q, a, hq, hb, h3, fd', w, h4, h5, h6⟩ := first_of R1 h1 hv
        dsimp only at h3 h4 h5 h6
        have := one hm h4
        subst this
        subst h3
        obtain ⟨⟨k, h7, h8⟩, h9⟩ := hfirst b q a hq hb _ hm
        have hus := hu q (by rw [hq]; simp) _ hm
        obtain ⟨w', h10, h11⟩ := (read_iff (target := target) hus).2 h7
        rw [h5] at h10
        cases h10
        have hty := kind_type (T := S.lang.cases) h11
        rw [← h6, h8] at hty
        refine ⟨hty, fun x hx => ?_⟩
        have he : fd'.fieldType = .enum := by rw [← hty, hx]; rfl
        have := value_enum hus h5 he
        rw [← h6, hx] at this
        cases this
        exact h9 he
      · obtain ⟨b, q, a, hq, hb, h3, ⟨fd', h4, h5⟩, -, t, vs, w, -, -, h6, h7⟩ := first_of R2 h2 hv
        dsimp only at h3 h4 h7
        have := one hm h4
        subst this
        have hw : w = .list vs := by
          unfold parseListFromVec at h6
          split at h6
          · cases h6; rfl
          · split at h6
            · cases h6; rfl
            · cases h6
        subst hw
        subst h7
        refine ⟨by rw [h5]; rfl, fun x hx => by cases hx⟩
    · by_cases hf : ∃ q ∈ fields, S.lang.cases.snake q.1 = k
      · obtain ⟨q, hq, rfl⟩ := hf
        obtain ⟨b, r, a, hs, hb, hrq⟩ := first_named (fun q : Str × Str => S.lang.cases.snake q.1) hq
        obtain ⟨x, hx, -⟩ := of_first R1 h1 hs hb
        exact ⟨x, firstValue_append.2 (.inl (by rw [← hrq]; exact hx))⟩
      · obtain ⟨q, hq, rfl⟩ := hreq k fd hm hr
        rcases List.mem_append.1 hq with hq | hq
        · exact absurd ⟨q, hq, rfl⟩ hf
        · obtain ⟨b, r, a, hs, hb, hrq⟩ := first_named (fun q : Str × Str => S.lang.cases.snake q.1) hq
          obtain ⟨x, hx, -⟩ := of_first R2 h2 hs hb
          refine ⟨x, firstValue_append.2 (.inr ⟨fun p hp hpk => ?_, by rw [← hrq]; exact hx⟩)⟩
          obtain ⟨q', hq', h3⟩ := forall2_left h1 p hp
          exact hf ⟨q', hq', by rw [← hpk]; exact h3.1.symm⟩

theorem forall2_exists {α β : Type} {R : α → β → Prop} {as : List α} (h : ∀ a ∈ as, ∃ b, R a b) :
    ∃ bs, List.Forall₂ R as bs := by
  induction as with
  | nil => exact ⟨[], .nil⟩
  | cons a as ih =>
    rw [List.forall_mem_cons] at h
    obtain ⟨b, hb⟩ := h.1
    obtain ⟨bs, hbs⟩ := ih h.2
    exact ⟨b :: bs, .cons hb hbs⟩

theorem cli_entityToAdd_iff {S : Shell} (hord : ∀ m, (S.order m).Perm m) {b : WorkspaceBuild}
    (hb : ∃ w : Workspace, w.build S.lang = .ok b) (g : Graph) (a : AddArgs) {fields lists values : List (Str × Str)}
    (h1 : a.fields = fields.flatMap fun p => [p.1, p.2]) (h2 : a.lists = lists.flatMap fun p => [p.1, p.2])
    (h3 : a.listValues = values.flatMap fun p => [p.1, p.2])
    (hu : ∀ sc ∈ b.schemas, ∀ q ∈ fields, ∀ fd, (S.lang.cases.snake q.1, fd) ∈ sc.fields → UsualArgument fd.fieldType q.2)
    (hl : ∀ q ∈ lists, ∀ t, ItemWord S.lang.env q.2 t → ∀ s ∈ valuesOf values q.1, UsualArgument t s) :
    (∃ e, S.entityToAdd g b.schemas a = some e) ↔
      g.getEntity (S.lang.cases.composeEntityId a.type (S.sanitize a.id)) = none ∧
      ∃ sc ∈ b.schemas, sc.entityType = a.type ∧ ArgumentsFit S sc fields lists values := by
  obtain ⟨w, hb⟩ := hb
  obtain ⟨hone, hkeys⟩ := state_schemas hb
  obtain ⟨-, hlast⟩ := insert_last [] lists List.nodup_nil
  have hmem : ∀ q, q ∈ S.order (lists.foldl (fun m p => mapInsert m p.1 p.2) []) ↔
      ∃ before after, lists = before ++ q :: after ∧ ∀ r ∈ after, r.1 ≠ q.1 := by
    intro q
    rw [(hord _).mem_iff, hlast q]
    constructor
    · rintro (h | h)
      · exact absurd h.1 (by simp)
      · exact h
    · exact .inr
  have hnames : ∀ k : Str, (∃ q ∈ fields ++ S.order (lists.foldl (fun m p => mapInsert m p.1 p.2) []), S.lang.cases.snake q.1 = k) ↔
      ∃ q ∈ fields ++ lists, S.lang.cases.snake q.1 = k := by
    intro k
    constructor
    · rintro ⟨q, hq, hqk⟩
      rcases List.mem_append.1 hq with hq | hq
      · exact ⟨q, List.mem_append_left _ hq, hqk⟩
      · obtain ⟨x, y, hxy, -⟩ := (hmem q).1 hq
        exact ⟨q, List.mem_append_right _ (by rw [hxy]; simp), hqk⟩
    · rintro ⟨q, hq, hqk⟩
      rcases List.mem_append.1 hq with hq | hq
      · exact ⟨q, List.mem_append_left _ hq, hqk⟩
      · obtain ⟨x, r, y, hxy, h4, h5⟩ := last_named ⟨q, hq, rfl⟩
        exact ⟨r, List.mem_append_right _ ((hmem r).2 ⟨x, y, hxy, h4⟩), by rw [h5]; exact hqk⟩
  constructor
  · rintro ⟨e, he⟩
    unfold Shell.entityToAdd at he
    split at he
    · cases he
    · next sc hsc =>
      obtain ⟨hm, hty⟩ := (find_schema hone).1 hsc
      dsimp only at he
      rw [h1, h2, h3, pairsOf_flat, pairsOf_flat, pairsOf_flat] at he
      split at he
      · cases he
      · next hg =>
        split at he
        · cases he
        · next e1 he1 =>
          split at he
          · cases he
          · next e2 he2 =>
            split at he
            · cases he
            · next hval =>
              cases he
              obtain ⟨scalars, rfl, hf⟩ := cli_addFields_iff.1 he1
              obtain ⟨listed, rfl, hls⟩ := cli_addLists_iff.1 he2
              have hc := (C15_verdict _ _ _).1 hval
              simp only [Entity.new, List.nil_append] at hc
              obtain ⟨h4, h5⟩ := (arguments_conform (hkeys sc hm) (hu sc hm) hf hls).1 hc
              refine ⟨hg, sc, hm, hty, ?_, ?_, ?_, h5⟩
              · intro q hq
                obtain ⟨r, -, h6, fd, v, h7, h8, -⟩ := forall2_right hf q hq
                rw [h6] at h7
                obtain ⟨k, hk⟩ := value_kind h8
                exact ⟨fd, k, mapGet_in h7, (read_iff (hu sc hm q hq fd (mapGet_in h7))).1 ⟨v, h8, hk⟩⟩
              · intro before q after hq hafter
                obtain ⟨r, -, h6, ⟨fd, h7, h8⟩, h9, t, vs, v, h10, h11, h12, -⟩ :=
                  forall2_right hls q ((hmem q).2 ⟨before, after, hq, hafter⟩)
                rw [h6] at h7
                have hw := itemWord_iff.1 h10
                obtain ⟨k, hk⟩ := (items_iff h9 (hl q (by rw [hq]; simp) t hw)).1 ⟨vs, v, h11, h12⟩
                exact ⟨⟨fd, mapGet_in h7, h8⟩, h9, t, k, hw, hk⟩
              · exact fun k fd hmk hr => (hnames k).1 (h4 k fd hmk hr)
  · rintro ⟨hg, sc, hm, hty, hk, hli, hreq, hfirst⟩
    obtain ⟨scalars, hf⟩ : ∃ new, List.Forall₂ (scalarOf S (S.dslPath a.toFile a.type) sc) fields new := by
      refine forall2_exists fun q hq => ?_
      obtain ⟨fd, k, h4, h5⟩ := hk q hq
      obtain ⟨v, h6, -⟩ := (read_iff (target := S.dslPath a.toFile a.type) (hu sc hm q hq fd h4)).2 h5
      exact ⟨(_, _), rfl, fd, v, (mapGet_iff_mem (hkeys sc hm)).1 h4, h6, rfl⟩
    obtain ⟨listed, hls⟩ : ∃ new, List.Forall₂ (listOf S (S.dslPath a.toFile a.type) sc values)
        (S.order (lists.foldl (fun m p => mapInsert m p.1 p.2) [])) new := by
      refine forall2_exists fun q hq => ?_
      obtain ⟨before, after, hs, hafter⟩ := (hmem q).1 hq
      obtain ⟨⟨fd, h4, h5⟩, h6, t, k, h7, h8⟩ := hli before q after hs hafter
      obtain ⟨vs, v, h9, h10⟩ := (items_iff (target := S.dslPath a.toFile a.type) h6
        (hl q (by rw [hs]; simp) t h7)).2 ⟨k, h8⟩
      exact ⟨(_, _), rfl, ⟨fd, (mapGet_iff_mem (hkeys sc hm)).1 h4, h5⟩, h6, t, vs, v, itemWord_iff.2 h7, h9, h10, rfl⟩
    have hcon := (arguments_conform (hkeys sc hm) (hu sc hm) hf hls
      (id := S.lang.cases.composeEntityId a.type (S.sanitize a.id))).2
      ⟨fun k fd hmk hr => (hnames k).2 (hreq k fd hmk hr), hfirst⟩
    refine ⟨⟨S.lang.cases.composeEntityId a.type (S.sanitize a.id), sc.entityType, scalars ++ listed⟩, ?_⟩
    unfold Shell.entityToAdd
    rw [(find_schema hone).2 ⟨hm, hty⟩]
    dsimp only
    rw [hg, h1, h2, h3, pairsOf_flat, pairsOf_flat, pairsOf_flat]
    dsimp only
    rw [cli_addFields_iff.2 ⟨scalars, rfl, hf⟩]
    dsimp only
    rw [cli_addLists_iff.2 ⟨listed, rfl, hls⟩]
    dsimp only
    simp only [Entity.new, List.nil_append]
    rw [(C15_verdict _ _ _).2 hcon]

/-! ## The target file -/

theorem cliAppend_iff {d : FsTree} (hd : WellFormed d) {loc : List Str} {dsl : Str} :
    (cliAppend d loc dsl).2 = true ↔ loc ≠ [] ∧ CanWrite d loc := by
  rcases List.eq_nil_or_concat loc with rfl | ⟨p, n, rfl⟩
  · simp only [ne_eq, not_true_eq_false, false_and, iff_false, Bool.not_eq_true]
    unfold cliAppend
    cases d with
    | dir e => rfl
    | file t => rfl
    | other => rfl
  · rw [List.concat_eq_append]
    unfold cliAppend
    rw [List.dropLast_concat]
    cases hc : d.createDirAll p with
    | none =>
      refine ⟨(fun h => by cases h), fun h => ?_⟩
      obtain ⟨d1, d2, h1, -⟩ := (canWrite_iff (content := dsl) hd).2 h.2
      rw [hc] at h1
      cases h1
    | some d1 =>
      have hw : ∀ content, (∃ d2, d1.writeFile (p ++ [n]) content = some d2) ↔ p ++ [n] ≠ [] ∧ CanWrite d (p ++ [n]) := by
        intro content
        rw [← canWrite_iff (content := content) hd, hc]
        simp
      have hw' : ∀ content, (match d1.writeFile (p ++ [n]) content with
          | none => (d1, false)
          | some d2 => (d2, true)).2 = true ↔ p ++ [n] ≠ [] ∧ CanWrite d (p ++ [n]) := by
        intro content
        rw [← hw content]
        cases d1.writeFile (p ++ [n]) content <;> simp
      have hkind : ∀ u, d1.lookup (p ++ [n]) = some u → CanWrite d (p ++ [n]) → ∃ t, u = .file t := by
        intro u hlk h2
        obtain ⟨d2, hd2⟩ := (hw dsl).2 ⟨by simp, h2⟩
        obtain ⟨-, k2, k3⟩ := writeFile_isSome.1 ⟨d2, hd2⟩
        rcases k3 with k3 | ⟨t, k3⟩
        · unfold leafAt at k3
          rw [hlk] at k3
          cases u with
          | dir e =>
            cases e with
            | none => cases k3
            | some es => exact absurd ⟨es, hlk⟩ k2
          | file t => exact ⟨t, rfl⟩
          | other => cases k3
        · rw [(leafAt_eq_some.1 k3).1] at hlk
          cases hlk
          exact ⟨t, rfl⟩
      dsimp only
      cases hlk : d1.lookup (p ++ [n]) with
      | none => exact hw' dsl
      | some u =>
        cases u with
        | file t =>
          cases t with
          | some old => exact hw' _
          | none =>
            refine ⟨fun _ => (hw dsl).1 (writeFile_isSome.2 ?_), fun _ => rfl⟩
            have hdir : DirAt d1 p := by
              obtain ⟨e, he⟩ := createDirAll_dir hc
              cases e with
              | some es => exact ⟨es, he⟩
              | none =>
                have hdr : d1.lookup (p ++ [n]) = none := by
                  rw [lookup_append, he]
                  rfl
                rw [hdr] at hlk
                cases hlk
            exact ⟨hdir, fun ⟨es, hes⟩ => (by rw [hlk] at hes; cases hes),
              .inr ⟨none, leafAt_eq_some.2 ⟨hlk, fun es h => by cases h⟩⟩⟩
        | dir e =>
          refine ⟨(fun h => by cases h), fun h => ?_⟩
          obtain ⟨t, ht⟩ := hkind _ hlk h.2
          cases ht
        | other =>
          refine ⟨(fun h => by cases h), fun h => ?_⟩
          obtain ⟨t, ht⟩ := hkind _ hlk h.2
          cases ht

/-! ## The decision -/

/-- C172: `firm add` succeeds exactly when the id is new, there is a schema of the type that the arguments fit, and the target
can be written.  Missing: the arguments with quotation marks and the date-times that are read in another way (`C172_quoted`). -/
theorem C172_accepted_partial (S : Shell) (hord : ∀ m, (S.order m).Perm m) (b : WorkspaceBuild)
    (hb : ∃ w : Workspace, w.build S.lang = .ok b) (g : Graph) (d : FsTree) (hd : WellFormed d) (a : AddArgs)
    {fields lists values : List (Str × Str)}
    (h1 : a.fields = fields.flatMap fun p => [p.1, p.2]) (h2 : a.lists = lists.flatMap fun p => [p.1, p.2])
    (h3 : a.listValues = values.flatMap fun p => [p.1, p.2])
    (hu : ∀ sc ∈ b.schemas, ∀ q ∈ fields, ∀ fd, (S.lang.cases.snake q.1, fd) ∈ sc.fields → UsualArgument fd.fieldType q.2)
    (hl : ∀ q ∈ lists, ∀ t, ItemWord S.lang.env q.2 t → ∀ s ∈ valuesOf values q.1, UsualArgument t s) :
    (S.add g b.schemas d a).2 = true ↔
      g.getEntity (S.lang.cases.composeEntityId a.type (S.sanitize a.id)) = none ∧
      (∃ sc ∈ b.schemas, sc.entityType = a.type ∧ ArgumentsFit S sc fields lists values) ∧
      lexicalPlace [] (S.dslPath a.toFile a.type) ≠ [] ∧ CanWrite d (lexicalPlace [] (S.dslPath a.toFile a.type)) := by
  rw [← and_assoc, ← cli_entityToAdd_iff hord hb g a h1 h2 h3 hu hl]
  unfold Shell.add
  cases S.entityToAdd g b.schemas a with
  | none => simp
  | some e =>
    dsimp only
    rw [cliAppend_iff hd]
    simp

/-! ## The order of the lists -/

theorem items_order (S : Shell) (o : List (Str × Str) → List (Str × Str)) (target : List PathComp) (t : FieldType) (ss : List Str) :
    Shell.items { S with order := o } target t ss = S.items target t ss := by
  induction ss with
  | nil => rfl
  | cons s ss ih =>
    rw [Shell.items, Shell.items, ih]
    rfl

theorem firstValue_exists {fs : List (FieldId × FieldValue)} {k : FieldId} (h : k ∈ fs.map (·.1)) : ∃ x, FirstValue fs k x := by
  induction fs with
  | nil => cases h
  | cons p fs ih =>
    obtain ⟨j, y⟩ := p
    by_cases hj : j = k
    · subst hj; exact ⟨y, .here _ _ _⟩
    · rw [List.map_cons, List.mem_cons] at h
      obtain ⟨x, hx⟩ := ih (h.resolve_left fun e => hj e.symm)
      exact ⟨x, .there _ _ _ _ _ hj hx⟩

theorem conforms_lists {S : Shell} {target : List PathComp} {sc : EntitySchema} {values lists lists' : List (Str × Str)}
    (hk : (sc.fields.map (·.1)).Nodup) {id t : Str} {scalars listed listed' : List (FieldId × FieldValue)}
    (hp : lists.Perm lists') (h1 : List.Forall₂ (listOf S target sc values) lists listed)
    (h2 : List.Forall₂ (listOf S target sc values) lists' listed')
    (h : Conforms S.lang.env sc ⟨id, t, scalars ++ listed⟩) : Conforms S.lang.env sc ⟨id, t, scalars ++ listed'⟩ := by
  obtain ⟨h0, h⟩ := h
  refine ⟨h0, fun k fd hm => ⟨fun v hv => ?_, fun hr => ?_⟩⟩
  · rcases firstValue_append.1 hv with hv | ⟨-, hv⟩
    · exact (h k fd hm).1 v (firstValue_append.2 (.inl hv))
    · obtain ⟨b, q, a, -, -, h3, ⟨fd', h4, h5⟩, -, t, vs, w, -, -, h6, h7⟩ :=
        first_of (key := fun q => S.lang.cases.snake q.1) (fun q r h => h.1) h2 hv
      dsimp only at h3 h4 h7
      have : fd' = fd := by
        have := (mapGet_iff_mem hk).1 hm
        rw [h4] at this
        exact Option.some.inj this
      subst this
      have hw : w = .list vs := by
        unfold parseListFromVec at h6
        split at h6
        · cases h6; rfl
        · split at h6
          · cases h6; rfl
          · cases h6
      subst hw
      subst h7
      exact ⟨by rw [h5]; rfl, fun x hx => by cases hx⟩
  · obtain ⟨v, hv⟩ := (h k fd hm).2 hr
    rcases firstValue_append.1 hv with hv | ⟨hn, hv⟩
    · exact ⟨v, firstValue_append.2 (.inl hv)⟩
    · obtain ⟨b, q, a, hq, -, h3, -⟩ :=
        first_of (key := fun q => S.lang.cases.snake q.1) (fun q r h => h.1) h1 hv
      obtain ⟨r, hr, h4, -⟩ := forall2_right h2 q (hp.mem_iff.1 (by rw [hq]; simp))
      obtain ⟨x, hx⟩ := firstValue_exists (fs := listed') (k := k) (List.mem_map.2 ⟨r, hr, by rw [h4]; exact h3.symm⟩)
      exact ⟨x, firstValue_append.2 (.inr ⟨hn, hx⟩)⟩

theorem forall2_perm {α β : Type} {R : α → β → Prop} {as as' : List α} {bs : List β} (hp : as.Perm as')
    (h : List.Forall₂ R as bs) : ∃ bs', List.Forall₂ R as' bs' :=
  forall2_exists fun a ha => (forall2_right h a (hp.mem_iff.2 ha)).imp fun _ h => h.2

/-- C172: the order in which the hash map enumerates the lists does not decide whether the command succeeds. -/
theorem C172_order (S : Shell) (hord : ∀ m, (S.order m).Perm m) (o : List (Str × Str) → List (Str × Str))
    (ho : ∀ m, (o m).Perm m) (b : WorkspaceBuild) (hb : ∃ w : Workspace, w.build S.lang = .ok b) (g : Graph) (d : FsTree)
    (hd : WellFormed d) (a : AddArgs) :
    (Shell.add { S with order := o } g b.schemas d a).2 = true ↔ (S.add g b.schemas d a).2 = true := by
  obtain ⟨w, hb⟩ := hb
  obtain ⟨hone, hkeys⟩ := state_schemas hb
  have key : ∀ (o o' : List (Str × Str) → List (Str × Str)), (∀ m, (o m).Perm m) → (∀ m, (o' m).Perm m) → ∀ e,
      Shell.entityToAdd { S with order := o } g b.schemas a = some e →
      ∃ e', Shell.entityToAdd { S with order := o' } g b.schemas a = some e' := by
    intro o o' ho ho' e he
    unfold Shell.entityToAdd at he ⊢
    split at he
    · cases he
    · next sc hsc =>
      obtain ⟨hm, hty⟩ := (find_schema hone).1 hsc
      dsimp only at he ⊢
      split at he
      · cases he
      · next hg =>
        rw [show g.getEntity (S.lang.cases.composeEntityId a.type (Shell.sanitize { S with order := o' } a.id)) = none from hg]
        dsimp only
        split at he
        · cases he
        · next e1 he1 =>
          obtain ⟨scalars, rfl, hf⟩ := cli_addFields_iff.1 he1
          rw [show Shell.addFields { S with order := o' } (Shell.dslPath { S with order := o' } a.toFile a.type) sc _ _ = some _ from
            cli_addFields_iff.2 ⟨scalars, rfl, hf⟩]
          dsimp only
          split at he
          · cases he
          · next e2 he2 =>
            obtain ⟨listed, rfl, hls⟩ := cli_addLists_iff.1 he2
            split at he
            · cases he
            · next hval =>
              have hc := (C15_verdict _ _ _).1 hval
              have hperm := (ho ((pairsOf a.lists).foldl (fun m p => mapInsert m p.1 p.2) [])).trans
                (ho' ((pairsOf a.lists).foldl (fun m p => mapInsert m p.1 p.2) [])).symm
              obtain ⟨listed', hls'⟩ := forall2_perm hperm hls
              have hconv : ∀ q r, listOf { S with order := o } (Shell.dslPath { S with order := o } a.toFile a.type) sc
                  (pairsOf a.listValues) q r → listOf { S with order := o' } (Shell.dslPath { S with order := o' } a.toFile a.type) sc
                  (pairsOf a.listValues) q r := by
                rintro q r ⟨k1, k2, k3, t, vs, v, k4, k5, k6, k7⟩
                refine ⟨k1, k2, k3, t, vs, v, k4, ?_, k6, k7⟩
                rw [items_order S] at k5 ⊢
                exact k5
              rw [cli_addLists_iff.2 ⟨listed', rfl, hls'.imp hconv⟩]
              dsimp only
              have hc' := conforms_lists (hkeys sc hm) hperm hls hls' hc
              have hv := (C15_verdict _ _ _).2 hc'
              split
              · next herr => cases herr.symm.trans hv
              · exact ⟨_, rfl⟩
  have both : (∃ e, Shell.entityToAdd { S with order := o } g b.schemas a = some e) ↔ ∃ e, S.entityToAdd g b.schemas a = some e :=
    ⟨fun ⟨e, he⟩ => key o S.order ho hord e he, fun ⟨e, he⟩ => key S.order o hord ho e he⟩
  have ans : ∀ S' : Shell, (S'.add g b.schemas d a).2 = true ↔ (∃ e, S'.entityToAdd g b.schemas a = some e) ∧
      lexicalPlace [] (S'.dslPath a.toFile a.type) ≠ [] ∧ CanWrite d (lexicalPlace [] (S'.dslPath a.toFile a.type)) := by
    intro S'
    unfold Shell.add
    cases S'.entityToAdd g b.schemas a with
    | none => simp
    | some e =>
      dsimp only
      rw [cliAppend_iff hd]
      simp
  rw [ans, ans, both]
  rfl

/-! ## What is read in another way -/

/-- C172 is false for texts in three quotation marks: the program panics for some of them. -/
theorem C172_quoted (S : Shell) (target : List PathComp) :
    S.fieldValue target .string "\"\"\" x\n\u00a0y\"\"\"".toList = none ∧
    ReadAs S .string "\"\"\" x\n\u00a0y\"\"\"".toList .string :=
  ⟨by rfl, .string _⟩

/-! ## Examples -/

/-- A workspace with the schema of a person, whose name and age are required. -/
def exAgeFiles : Workspace :=
  [exFile "a.firm" [exSchemaNode "person" [("name", "string", "true"), ("age", "integer", "true"), ("tags", "list", "false")]]]

/-- What is built from it. -/
def exAgeBuild : WorkspaceBuild :=
  match exAgeFiles.build exLang with
  | .ok b => b
  | .error _ => ⟨[], []⟩

theorem exAge_built : exAgeFiles.build exShell.lang = .ok exAgeBuild := by
  have h : (exAgeFiles.build exLang).toBool = true := by decide +kernel
  unfold exAgeBuild
  change exAgeFiles.build exLang = _
  cases hb : exAgeFiles.build exLang with
  | ok b => rfl
  | error e => rw [hb] at h; cases h

/-- A command that succeeds and meets the hypotheses. -/
example : (exShell.add .empty exAgeBuild.schemas exDisk exAddArgs).2 = true ∧ (∀ m, (exShell.order m).Perm m) ∧
    (∃ w : Workspace, w.build exShell.lang = .ok exAgeBuild) ∧ WellFormed exDisk ∧
    UsualArgument .string "say \"hi\"".toList ∧ UsualArgument .integer "-41".toList ∧ UsualArgument .string "x".toList := by
  refine ⟨by decide +kernel, fun m => .refl m, ⟨_, exAge_built⟩, exDisk_wf, ?_, ?_, ?_⟩
  all_goals refine ⟨fun h => ?_, fun h => ?_, fun h => ?_⟩ <;> first | (cases h; decide) | cases h

/-- A command with a missing age, one with a float for the age, one with a list that has no values, and one that names the list
twice: only the last is accepted. -/
example :
    (exShell.add .empty exAgeBuild.schemas exDisk { exAddArgs with fields := ["name".toList, "Bob".toList] }).2 = false ∧
    (exShell.add .empty exAgeBuild.schemas exDisk { exAddArgs with fields := ["name".toList, "Bob".toList, "age".toList, "4.5".toList] }).2 = false ∧
    (exShell.add .empty exAgeBuild.schemas exDisk { exAddArgs with listValues := [] }).2 = false ∧
    (exShell.add .empty exAgeBuild.schemas exDisk
      { exAddArgs with lists := ["tags".toList, "what".toList, "tags".toList, "string".toList] }).2 = true := by
  decide +kernel

end Firm
