import Verif.Props.Accepted
import Verif.Props.Served
import Verif.Props.EnumAsked

/-!
# Which requests to add an entity are accepted

C169: `add_entity` is refused exactly when the type has no schema, the id is taken, a field is unknown or has a value that
does not fit, a required field is missing, a chosen word is not allowed, or nothing can be appended to the target file.
-/

namespace Firm
open Spec

/-! ## Specification -/

/-- A JSON value fits a field of this type, which is not a list. -/
inductive Spec.Fits (H : Host) : FieldType → Json → Prop
  | string (s : Str) : Fits H .string (.string s)
  | enum (s : Str) : Fits H .enum (.string s)
  | path (s : Str) : Fits H .path (.string s)
  | reference (s : Str) : Fits H .reference (.string s)
  | boolean (b : Bool) : Fits H .boolean (.bool b)
  | float (n : JsonNumber) : Fits H .float (.number n)
  | integer {n : JsonNumber} {i : Int} : IsInt n i → i ≤ 2 ^ 63 - 1 → Fits H .integer (.number n)
  | currency {s amount code : Str} {d : Decimal} : Words s [amount, code] → parseDecimal amount = some d →
      H.lang.knownCurrency code = true → Fits H .currency (.string s)
  | dateTime {s : Str} {d : DateTime} : H.parseRfc3339 s = some d → Fits H .dateTime (.string s)

/-- The word, in any case, for the type of the items of a list. -/
inductive Spec.ItemWord (env : Env) (s : Str) : FieldType → Prop
  | string : env.lower s = "string".toList → ItemWord env s .string
  | integer : env.lower s = "integer".toList → ItemWord env s .integer
  | float : env.lower s = "float".toList → ItemWord env s .float
  | boolean : env.lower s = "boolean".toList → ItemWord env s .boolean
  | currency : env.lower s = "currency".toList → ItemWord env s .currency
  | reference : env.lower s = "reference".toList → ItemWord env s .reference
  | dateTime : env.lower s = "datetime".toList → ItemWord env s .dateTime
  | path : env.lower s = "path".toList → ItemWord env s .path
  | enum : env.lower s = "enum".toList → ItemWord env s .enum

/-- The same for lists: `types` are the types of items that the request names for its fields. -/
inductive Spec.FitsField (H : Host) (types : List (Str × Str)) (name : Str) : FieldType → Json → Prop
  | one {t : FieldType} {v : Json} : Fits H t v → FitsField H types name t v
  | empty : FitsField H types name .list (.array [])
  | list {s : Str} {t : FieldType} {vs : List Json} : (name, s) ∈ types → ItemWord H.lang.env s t → (∀ v ∈ vs, Fits H t v) →
      FitsField H types name .list (.array vs)

/-- A text can be put at the end of the file there: only directories are on the way, and the place is free or a text. -/
def Spec.CanAppend (d : FsTree) (place : List Str) : Prop :=
  place ≠ [] ∧ CanWrite d place ∧ ¬ Has d place (.file none)

/-- What a schema asks of the fields of a request: each is one of its fields and has a value that fits, no required field is
missing, and the first word given for a choice is allowed. -/
structure Spec.FieldsFit (H : Host) (sc : EntitySchema) (types : List (Str × Str)) (fields : List (Str × Json)) : Prop where
  known : ∀ q ∈ fields, ∃ fd, (H.lang.cases.snake q.1, fd) ∈ sc.fields ∧ FitsField H types q.1 fd.fieldType q.2
  required : ∀ k fd, (k, fd) ∈ sc.fields → fd.fieldMode = .required → ∃ q ∈ fields, H.lang.cases.snake q.1 = k
  allowed : ∀ before q after, fields = before ++ q :: after →
    (∀ r ∈ before, H.lang.cases.snake r.1 ≠ H.lang.cases.snake q.1) →
    ∀ fd, (H.lang.cases.snake q.1, fd) ∈ sc.fields → fd.fieldType = .enum → ∀ x, q.2 = .string x →
      ∃ words, fd.allowedValues = some words ∧ H.lang.env.lower (trim x) ∈ words

/-! ## Values -/

theorem fits_scalar {H : Host} {target : List PathComp} {t : FieldType} {v : Json} :
    (∃ x, jsonScalar H target t v = some x) ↔ Fits H t v := by
  constructor
  · rintro ⟨x, h⟩
    unfold jsonScalar at h
    split at h
    · exact .string _
    · next n =>
      cases n with
      | pos n =>
        have : (n : Int) ≤ 2 ^ 63 - 1 := by
          by_contra hn
          unfold JsonNumber.asI64 at h
          dsimp only at h
          rw [if_neg hn] at h
          cases h
        exact .integer (.pos n) this
      | neg n => exact .integer (.neg n) (by omega)
      | float f => cases h
    · exact .float _
    · exact .boolean _
    · exact .reference _
    · exact .enum _
    · exact .path _
    · split at h
      · next amount code hs =>
        split at h
        · next d hd =>
          split at h
          · next hc => exact .currency ((splitWhitespace_iff _ _).1 hs) hd hc
          · cases h
        · cases h
      · cases h
    · next s =>
      cases hd : H.parseRfc3339 s with
      | none => rw [hd] at h; cases h
      | some d => exact .dateTime hd
    · cases h
  · intro h
    cases h with
    | string s => exact ⟨_, rfl⟩
    | enum s => exact ⟨_, rfl⟩
    | path s => exact ⟨_, rfl⟩
    | reference s => exact ⟨_, rfl⟩
    | boolean s => exact ⟨_, rfl⟩
    | float s => exact ⟨_, rfl⟩
    | integer h1 h2 =>
      cases h1 with
      | pos n => exact ⟨.integer n, by unfold jsonScalar JsonNumber.asI64; dsimp only; rw [if_pos h2]; rfl⟩
      | neg n => exact ⟨_, rfl⟩
    | @currency s amount code d h1 h2 h3 =>
      refine ⟨.currency d code, ?_⟩
      unfold jsonScalar
      dsimp only
      rw [(splitWhitespace_iff _ _).2 h1]
      dsimp only
      rw [h2]
      dsimp only
      rw [if_pos h3]
    | @dateTime s d h1 =>
      refine ⟨.dateTime d, ?_⟩
      unfold jsonScalar
      dsimp only
      rw [h1]
      rfl

theorem scalar_type {H : Host} {target : List PathComp} {t : FieldType} {v : Json} {x : FieldValue}
    (h : jsonScalar H target t v = some x) : x.getType = t ∧ ∀ w, x = .enum w → v = .string w := by
  unfold jsonScalar at h
  split at h
  · cases h; exact ⟨rfl, fun w h => by cases h⟩
  · obtain ⟨i, -, rfl⟩ := Option.map_eq_some_iff.1 h; exact ⟨rfl, fun w h => by cases h⟩
  · cases h; exact ⟨rfl, fun w h => by cases h⟩
  · cases h; exact ⟨rfl, fun w h => by cases h⟩
  · cases h; exact ⟨rfl, fun w h => by cases h⟩
  · cases h; exact ⟨rfl, fun w h => by cases h; rfl⟩
  · cases h; exact ⟨rfl, fun w h => by cases h⟩
  · split at h
    · split at h
      · split at h
        · cases h; exact ⟨rfl, fun w h => by cases h⟩
        · cases h
      · cases h
    · cases h
  · obtain ⟨i, -, rfl⟩ := Option.map_eq_some_iff.1 h; exact ⟨rfl, fun w h => by cases h⟩
  · cases h

theorem fits_items {H : Host} {target : List PathComp} {t : FieldType} {vs : List Json} :
    (∃ xs, jsonItems H target t vs = some xs) ↔ ∀ v ∈ vs, Fits H t v := by
  induction vs with
  | nil => exact ⟨fun _ v hv => (by cases hv), fun _ => ⟨[], rfl⟩⟩
  | cons v vs ih =>
    rw [List.forall_mem_cons, ← ih, ← fits_scalar (target := target), jsonItems]
    cases jsonScalar H target t v with
    | none => simp
    | some x =>
      cases jsonItems H target t vs with
      | none => simp
      | some xs => simp

theorem itemWord_iff {env : Env} {s : Str} {t : FieldType} : parseListItemType env s = some t ↔ ItemWord env s t := by
  unfold parseListItemType
  dsimp only
  constructor
  · intro h
    split at h
    · next hw => cases h; exact .string hw
    split at h
    · next hw => cases h; exact .integer hw
    split at h
    · next hw => cases h; exact .float hw
    split at h
    · next hw => cases h; exact .boolean hw
    split at h
    · next hw => cases h; exact .currency hw
    split at h
    · next hw => cases h; exact .reference hw
    split at h
    · next hw => cases h; exact .dateTime hw
    split at h
    · next hw => cases h; exact .path hw
    split at h
    · next hw => cases h; exact .enum hw
    cases h
  · intro h
    cases h with
    | string h => rw [h]; rfl
    | integer h => rw [h]; rfl
    | float h => rw [h]; rfl
    | boolean h => rw [h]; rfl
    | currency h => rw [h]; rfl
    | reference h => rw [h]; rfl
    | dateTime h => rw [h]; rfl
    | path h => rw [h]; rfl
    | enum h => rw [h]; rfl

theorem fits_field {H : Host} {target : List PathComp} {types : List (Str × Str)} (hn : (types.map (·.1)).Nodup)
    {name : Str} {t : FieldType} {v : Json} :
    (∃ x, jsonToFieldValue H target types name t v = some x) ↔ FitsField H types name t v := by
  have hsc : t ≠ .list ∨ (∀ vs, v ≠ .array vs) →
      (jsonToFieldValue H target types name t v = jsonScalar H target t v) ∧ (FitsField H types name t v ↔ Fits H t v) := by
    intro h
    refine ⟨?_, ?_, .one⟩
    · unfold jsonToFieldValue
      split
      · rcases h with h | h
        · exact absurd rfl h
        · exact absurd rfl (h _)
      · rcases h with h | h
        · exact absurd rfl h
        · exact absurd rfl (h _)
      · rfl
    · intro hf
      cases hf with
      | one h => exact h
      | empty => rcases h with h | h; exacts [absurd rfl h, absurd rfl (h _)]
      | list => rcases h with h | h; exacts [absurd rfl h, absurd rfl (h _)]
  by_cases h : t ≠ .list ∨ (∀ vs, v ≠ .array vs)
  · rw [(hsc h).1, (hsc h).2, fits_scalar]
  · rw [not_or, not_not] at h
    obtain ⟨rfl, h⟩ := h
    obtain ⟨vs, rfl⟩ : ∃ vs, v = .array vs := by
      by_contra hc
      exact h fun vs hv => hc ⟨vs, hv⟩
    cases vs with
    | nil => exact ⟨fun _ => .empty, fun _ => ⟨_, rfl⟩⟩
    | cons v vs =>
      constructor
      · rintro ⟨x, h⟩
        unfold jsonToFieldValue at h
        dsimp only at h
        split at h
        · cases h
        · next s hs =>
          split at h
          · cases h
          · next it hit =>
            obtain ⟨xs, hxs, -⟩ := Option.map_eq_some_iff.1 h
            exact .list ((mapGet_iff_mem hn).2 hs) (itemWord_iff.1 hit) (fits_items.1 ⟨xs, hxs⟩)
      · intro h
        cases h with
        | one h => cases h
        | @list s t _ h1 h2 h3 =>
          obtain ⟨xs, hxs⟩ := fits_items (target := target).2 h3
          refine ⟨.list xs, ?_⟩
          unfold jsonToFieldValue
          dsimp only
          rw [(mapGet_iff_mem hn).1 h1]
          dsimp only
          rw [itemWord_iff.2 h2]
          dsimp only
          rw [hxs]
          rfl

theorem field_type {H : Host} {target : List PathComp} {types : List (Str × Str)}
    {name : Str} {t : FieldType} {v : Json} {x : FieldValue} (h : jsonToFieldValue H target types name t v = some x) :
    x.getType = t ∧ ∀ w, x = .enum w → v = .string w := by
  unfold jsonToFieldValue at h
  split at h
  · cases h; exact ⟨rfl, fun w h => by cases h⟩
  · split at h
    · cases h
    · split at h
      · cases h
      · obtain ⟨i, -, rfl⟩ := Option.map_eq_some_iff.1 h; exact ⟨rfl, fun w h => by cases h⟩
  · exact scalar_type h

/-! ## Fields -/

/-- The value of a requested field. -/
def valueOf (H : Host) (target : List PathComp) (types : List (Str × Str)) (sc : EntitySchema) (q : Str × Json)
    (r : FieldId × FieldValue) : Prop :=
  r.1 = H.lang.cases.snake q.1 ∧ ∃ fd, mapGet sc.fields r.1 = some fd ∧
    jsonToFieldValue H target types q.1 fd.fieldType q.2 = some r.2

theorem addFields_iff {H : Host} {target : List PathComp} {types : List (Str × Str)} {sc : EntitySchema}
    {fs : List (Str × Json)} {e e' : Entity} :
    addFields H target types sc e fs = some e' ↔
      ∃ new, e' = { e with fields := e.fields ++ new } ∧ List.Forall₂ (valueOf H target types sc) fs new := by
  induction fs generalizing e with
  | nil =>
    rw [addFields]
    constructor
    · intro h; cases h; exact ⟨[], by simp, .nil⟩
    · rintro ⟨new, rfl, h⟩; cases h; simp
  | cons q fs ih =>
    obtain ⟨n, v⟩ := q
    rw [addFields]
    constructor
    · intro h
      split at h
      · cases h
      · next fd hfd =>
        split at h
        · cases h
        · next x hx =>
          obtain ⟨new, rfl, hf⟩ := ih.1 h
          exact ⟨(H.lang.cases.snake n, x) :: new, by simp only [Entity.withField, List.append_assoc, List.singleton_append], .cons ⟨rfl, fd, hfd, hx⟩ hf⟩
    · rintro ⟨new, rfl, h⟩
      cases h with
      | @cons _ r _ new h1 h2 =>
        obtain ⟨k, x⟩ := r
        obtain ⟨rfl, fd, h3, h4⟩ := h1
        dsimp only at h3 h4
        rw [h3]
        dsimp only
        rw [h4]
        exact ih.2 ⟨new, by simp only [Entity.withField, List.append_assoc, List.singleton_append], h2⟩

theorem first_value {H : Host} {target : List PathComp} {types : List (Str × Str)} {sc : EntitySchema}
    {fs : List (Str × Json)} {new : List (FieldId × FieldValue)} (h : List.Forall₂ (valueOf H target types sc) fs new)
    {k : FieldId} {x : FieldValue} (hx : FirstValue new k x) :
    ∃ before q after, fs = before ++ q :: after ∧ (∀ r ∈ before, H.lang.cases.snake r.1 ≠ k) ∧
      valueOf H target types sc q (k, x) := by
  induction h with
  | nil => cases hx
  | @cons q r fs new h1 h2 ih =>
    cases hx with
    | here => exact ⟨[], q, fs, rfl, (fun _ h => by cases h), h1⟩
    | there g w _ _ _ hne hx =>
      obtain ⟨before, q', after, rfl, h3, h4⟩ := ih hx
      refine ⟨q :: before, q', after, rfl, ?_, h4⟩
      rw [List.forall_mem_cons]
      exact ⟨by rw [← h1.1]; exact hne, h3⟩

theorem value_first {H : Host} {target : List PathComp} {types : List (Str × Str)} {sc : EntitySchema}
    {fs : List (Str × Json)} {new : List (FieldId × FieldValue)} (h : List.Forall₂ (valueOf H target types sc) fs new)
    {before after : List (Str × Json)} {q : Str × Json} (hq : fs = before ++ q :: after)
    (hb : ∀ r ∈ before, H.lang.cases.snake r.1 ≠ H.lang.cases.snake q.1) :
    ∃ x, FirstValue new (H.lang.cases.snake q.1) x ∧ valueOf H target types sc q (H.lang.cases.snake q.1, x) := by
  subst hq
  induction before generalizing new with
  | nil =>
    cases h with
    | @cons _ r _ new h1 h2 =>
      obtain ⟨k, x⟩ := r
      obtain ⟨h3, h4⟩ := h1
      dsimp only at h3
      subst h3
      exact ⟨x, .here _ _ _, rfl, h4⟩
  | cons b before ih =>
    cases h with
    | @cons _ r _ new h1 h2 =>
      obtain ⟨k, x⟩ := r
      rw [List.forall_mem_cons] at hb
      obtain ⟨y, h3, h4⟩ := ih hb.2 h2
      exact ⟨y, .there _ _ _ _ _ (by rw [show k = _ from h1.1]; exact hb.1) h3, h4⟩

theorem first_named {α : Type} (f : α → Str) {fs : List α} {q : α} (h : q ∈ fs) :
    ∃ before r after, fs = before ++ r :: after ∧ (∀ b ∈ before, f b ≠ f r) ∧ f r = f q := by
  induction fs with
  | nil => cases h
  | cons a fs ih =>
    by_cases ha : f a = f q
    · exact ⟨[], a, fs, rfl, (fun _ h => by cases h), ha⟩
    · rcases List.mem_cons.1 h with rfl | h
      · exact absurd rfl ha
      · obtain ⟨before, r, after, rfl, h1, h2⟩ := ih h
        refine ⟨a :: before, r, after, rfl, ?_, h2⟩
        rw [List.forall_mem_cons]
        exact ⟨by rw [h2]; exact ha, h1⟩

theorem fields_conform {H : Host} {target : List PathComp} {types : List (Str × Str)} {sc : EntitySchema}
    (hk : (sc.fields.map (·.1)).Nodup) {fs : List (Str × Json)} {new : List (FieldId × FieldValue)}
    (h : List.Forall₂ (valueOf H target types sc) fs new) {id t : Str} :
    Conforms H.lang.env sc ⟨id, t, new⟩ ↔ t = sc.entityType ∧
      (∀ k fd, (k, fd) ∈ sc.fields → fd.fieldMode = .required → ∃ q ∈ fs, H.lang.cases.snake q.1 = k) ∧
      ∀ before q after, fs = before ++ q :: after →
        (∀ r ∈ before, H.lang.cases.snake r.1 ≠ H.lang.cases.snake q.1) →
        ∀ fd, (H.lang.cases.snake q.1, fd) ∈ sc.fields → fd.fieldType = .enum → ∀ x, q.2 = .string x →
          ∃ words, fd.allowedValues = some words ∧ H.lang.env.lower (trim x) ∈ words := by
  unfold Conforms
  refine and_congr Iff.rfl ⟨fun hc => ⟨fun k fd hm hr => ?_, fun before q after hq hb fd hm he x hx => ?_⟩, ?_⟩
  · obtain ⟨v, hv⟩ := (hc k fd hm).2 hr
    obtain ⟨before, q, after, rfl, -, h2⟩ := first_value h hv
    exact ⟨q, by simp, h2.1.symm⟩
  · obtain ⟨y, hy, -, fd', h3, h4⟩ := value_first h hq hb
    have : fd' = fd := by
      have := (mapGet_iff_mem hk).1 hm
      dsimp only at h3
      rw [h3] at this
      exact Option.some.inj this
    subst this
    dsimp only at h4
    rw [he, hx] at h4
    cases h4
    exact ((hc _ _ hm).1 _ hy).2 x rfl
  · rintro ⟨h1, h2⟩ k fd hm
    refine ⟨fun v hv => ?_, fun hr => ?_⟩
    · obtain ⟨before, q, after, hq, hb, hkq, fd', h3, h4⟩ := first_value h hv
      dsimp only at hkq h3 h4
      have : fd' = fd := by
        have := (mapGet_iff_mem hk).1 hm
        rw [h3] at this
        exact Option.some.inj this
      subst this
      obtain ⟨h5, h6⟩ := field_type h4
      refine ⟨h5, fun x hx => ?_⟩
      subst hkq
      refine h2 before q after hq hb _ hm ?_ x (h6 x hx)
      rw [← h5, hx]
      rfl
    · obtain ⟨q, hq, rfl⟩ := h1 k fd hm hr
      obtain ⟨before, r, after, hs, hb, hrq⟩ := first_named (fun q : Str × Json => H.lang.cases.snake q.1) hq
      obtain ⟨x, hx, -⟩ := value_first h hs hb
      exact ⟨x, by rw [← hrq]; exact hx⟩

/-- The state of a server: its schemas come from some build. -/
theorem state_schemas {L : Lang} {w : Workspace} {b : WorkspaceBuild} (hb : w.build L = .ok b) :
    (b.schemas.map (·.entityType)).Nodup ∧ ∀ sc ∈ b.schemas, (sc.fields.map (·.1)).Nodup := by
  have hv := (C41_build L w b.entities b.schemas).1 hb
  refine ⟨hv.oneSchema, fun sc hsc => ?_⟩
  obtain ⟨bl, -, hc⟩ := forall2_left hv.schemas sc hsc
  unfold toSchema at hc
  split at hc
  · cases hc
  · exact (fields_read hc).2.1 List.nodup_nil

theorem find_schema {ss : List EntitySchema} (hn : (ss.map (·.entityType)).Nodup) {t : Str} {sc : EntitySchema} :
    (ss.find? fun s => decide (s.entityType = t)) = some sc ↔ sc ∈ ss ∧ sc.entityType = t := by
  induction ss with
  | nil => simp
  | cons a ss ih =>
    rw [List.map_cons, List.nodup_cons] at hn
    by_cases ha : a.entityType = t
    · rw [List.find?_cons_of_pos (by simpa using ha)]
      constructor
      · intro h; cases h; exact ⟨by simp, ha⟩
      · rintro ⟨h1, h2⟩
        rcases List.mem_cons.1 h1 with rfl | h1
        · rfl
        · exact absurd (List.mem_map.2 ⟨sc, h1, h2.trans ha.symm⟩) hn.1
    · rw [List.find?_cons_of_neg (by simpa using ha), ih hn.2]
      constructor
      · rintro ⟨h1, h2⟩; exact ⟨List.mem_cons_of_mem _ h1, h2⟩
      · rintro ⟨h1, h2⟩
        rcases List.mem_cons.1 h1 with rfl | h1
        · exact absurd h2 ha
        · exact ⟨h1, h2⟩

theorem entityToAdd_iff {H : Host} {st : ServerState} (hb : ∃ w : Workspace, w.build H.lang = .ok st.build) {p : AddParams}
    (hn : (p.listItemTypes.map (·.1)).Nodup) :
    (∃ e, entityToAdd H st p = some e) ↔
      H.lang.cases.snake p.type = p.type ∧
      st.graph.getEntity (H.lang.cases.composeEntityId p.type (H.lang.cases.snake p.id)) = none ∧
      ∃ sc ∈ st.build.schemas, sc.entityType = p.type ∧ FieldsFit H sc p.listItemTypes p.fields := by
  obtain ⟨w, hb⟩ := hb
  obtain ⟨hone, hkeys⟩ := state_schemas hb
  constructor
  · rintro ⟨e, he⟩
    unfold entityToAdd at he
    split at he
    · cases he
    · next sc hsc =>
      obtain ⟨hm, hty⟩ := (find_schema hone).1 hsc
      dsimp only at he
      split at he
      · cases he
      · next hg =>
        split at he
        · cases he
        · next e1 he1 =>
          split at he
          · cases he
          · next hval =>
            cases he
            obtain ⟨new, rfl, hf⟩ := addFields_iff.1 he1
            have hc := (C15_verdict _ _ _).1 hval
            obtain ⟨h1, h2, h3⟩ := (fields_conform (hkeys sc hm) hf).1 hc
            refine ⟨?_, hg, sc, hm, hty, ?_, h2, h3⟩
            · rw [hty] at h1; exact h1
            · intro q hq
              obtain ⟨r, -, hr⟩ := forall2_right hf q hq
              obtain ⟨h4, fd, h5, h6⟩ := hr
              rw [h4] at h5
              exact ⟨fd, mapGet_in h5, (fits_field hn).1 ⟨_, h6⟩⟩
  · rintro ⟨hsn, hg, sc, hm, hty, hk, hr, ha⟩
    have hnew : ∃ new, List.Forall₂ (valueOf H (joinComps H.ws (p.toFile.getD (defaultTarget p.type))) p.listItemTypes sc)
        p.fields new := by
      generalize p.fields = fs at hk
      clear hr ha
      induction fs with
      | nil => exact ⟨[], .nil⟩
      | cons q fs ih =>
        rw [List.forall_mem_cons] at hk
        obtain ⟨new, hnew⟩ := ih hk.2
        obtain ⟨fd, h1, h2⟩ := hk.1
        obtain ⟨x, hx⟩ := (fits_field (target := joinComps H.ws (p.toFile.getD (defaultTarget p.type))) hn).2 h2
        exact ⟨(_, x) :: new, .cons ⟨rfl, fd, (mapGet_iff_mem (hkeys sc hm)).1 h1, hx⟩ hnew⟩
    obtain ⟨new, hnew⟩ := hnew
    have hcon := (fields_conform (hkeys sc hm) hnew (id := H.lang.cases.composeEntityId p.type (H.lang.cases.snake p.id))
      (t := H.lang.cases.snake p.type)).2 ⟨by rw [hsn, hty], hr, ha⟩
    refine ⟨⟨H.lang.cases.composeEntityId p.type (H.lang.cases.snake p.id), H.lang.cases.snake p.type, new⟩, ?_⟩
    unfold entityToAdd
    rw [(find_schema hone).2 ⟨hm, hty⟩]
    dsimp only
    rw [hg]
    dsimp only
    rw [addFields_iff.2 ⟨new, rfl, hnew⟩]
    dsimp only
    simp only [Entity.new, List.nil_append]
    rw [(C15_verdict _ _ _).2 hcon]

/-! ## Appending -/

theorem canAppend_iff {d : FsTree} (hd : WellFormed d) {loc : List Str} {dsl : Str} :
    (appendDsl d loc dsl).2 = true ↔ CanAppend d loc := by
  unfold CanAppend
  rcases List.eq_nil_or_concat loc with rfl | ⟨p, n, rfl⟩
  · simp only [ne_eq, not_true_eq_false, false_and, iff_false, Bool.not_eq_true]
    unfold appendDsl
    cases d with
    | dir e => rfl
    | file t => rfl
    | other => rfl
  · rw [List.concat_eq_append]
    have hnp : ¬ (p ++ [n]) <+: p := fun hp => by
      have := hp.length_le
      rw [List.length_append] at this
      simp at this
    unfold appendDsl
    rw [List.dropLast_concat]
    cases hc : d.createDirAll p with
    | none =>
      refine ⟨(fun h => by cases h), fun h => ?_⟩
      obtain ⟨d1, d2, h1, -⟩ := (canWrite_iff (content := dsl) hd).2 h.2.1
      rw [hc] at h1
      cases h1
    | some d1 =>
      have hw : ∀ content, (∃ d2, d1.writeFile (p ++ [n]) content = some d2) ↔ CanWrite d (p ++ [n]) := by
        intro content
        rw [← canWrite_iff (content := content) hd, hc]
        simp
      have hw' : ∀ content, (match d1.writeFile (p ++ [n]) content with
          | none => (d1, false)
          | some d2 => (d2, true)).2 = true ↔ CanWrite d (p ++ [n]) := by
        intro content
        rw [← hw content]
        cases d1.writeFile (p ++ [n]) content <;> simp
      dsimp only
      cases hlk : d1.lookup (p ++ [n]) with
      | none =>
        dsimp only
        refine (hw' dsl).trans ⟨fun h => ⟨by simp, h, fun hf => ?_⟩, fun h => h.2.1⟩
        have := (hasLeaf_iff hd fun es h => by cases h).1 hf
        rw [← leafAt_createDirAll hc] at this
        rw [(leafAt_eq_some.1 this).1] at hlk
        cases hlk
      | some u =>
        dsimp only
        cases hr : d1.readText (p ++ [n]) with
        | none =>
          refine ⟨(fun h => by cases h), fun h => ?_⟩
          obtain ⟨h1, h2, h3⟩ := h
          exfalso
          have : ∃ t, u = .file t := by
            obtain ⟨d2, hd2⟩ := (hw dsl).2 h2
            obtain ⟨-, k2, k3⟩ := writeFile_isSome.1 ⟨d2, hd2⟩
            rcases k3 with k3 | ⟨t, k3⟩
            · unfold leafAt at k3
              rw [hlk] at k3
              cases u with
              | dir e =>
                cases e with
                | none => cases k3
                | some es => exact absurd ⟨es, hlk⟩ k2
              | file t => exact ⟨t, rfl⟩
              | other => cases k3
            · rw [(leafAt_eq_some.1 k3).1] at hlk
              cases hlk
              exact ⟨t, rfl⟩
          obtain ⟨t, rfl⟩ := this
          unfold FsTree.readText at hr
          rw [hlk] at hr
          dsimp only at hr
          subst hr
          refine h3 ((hasLeaf_iff hd fun es h => by cases h).2 ?_)
          rw [← leafAt_createDirAll hc]
          exact leafAt_eq_some.2 ⟨hlk, fun es h => by cases h⟩
        | some old =>
          dsimp only
          refine (hw' _).trans ⟨fun h => ⟨by simp, h, fun hf => ?_⟩, fun h => h.2.1⟩
          have := (hasLeaf_iff hd fun es h => by cases h).1 hf
          rw [← leafAt_createDirAll hc] at this
          unfold FsTree.readText at hr
          rw [(leafAt_eq_some.1 this).1] at hr
          cases hr

/-! ## The decision -/

/-- C169: `add_entity` is not refused exactly when the type is written in its normal form, the id is new, there is a schema of
the type that the fields of the request fit, and a text can be put at the end of the target file. -/
theorem C169_accepted (H : Host) (order : Workspace → Workspace) (s : Server) (hd : WellFormed s.disk)
    (hb : ∃ w : Workspace, w.build H.lang = .ok s.state.build) (p : AddParams) (hn : (p.listItemTypes.map (·.1)).Nodup) :
    (addEntityTool H order s p).2 ≠ .error ↔
      H.lang.cases.snake p.type = p.type ∧
      s.state.graph.getEntity (H.lang.cases.composeEntityId p.type (H.lang.cases.snake p.id)) = none ∧
      (∃ sc ∈ s.state.build.schemas, sc.entityType = p.type ∧ FieldsFit H sc p.listItemTypes p.fields) ∧
      CanAppend s.disk (lexicalPlace H.ws (pathComponents (p.toFile.getD (defaultTarget p.type)))) := by
  have key : (addEntityTool H order s p).2 ≠ .error ↔ (addExecute H s p).2 = true := by
    unfold addEntityTool
    rcases addExecute H s p with ⟨d, _ | _⟩
    · simp
    · dsimp only
      cases rebuild H order d <;> simp
  rw [key, ← and_assoc, ← and_assoc, and_assoc (a := H.lang.cases.snake p.type = p.type), ← entityToAdd_iff hb hn]
  unfold addExecute
  cases entityToAdd H s.state p with
  | none => simp
  | some e =>
    dsimp only
    rw [placeOf_eq, canAppend_iff hd]
    simp

/-- C169: a request that is not refused is answered with success exactly when nothing but the target file stops the workspace
from being read, and the source files with the new text in the target file make a valid workspace. -/
theorem C169_success (H : Host) (hws : ∀ n ∈ H.ws, ValidName n) (order : Workspace → Workspace)
    (ho : ∀ w, (order w).Perm w) (s : Server) (hd : WellFormed s.disk) (p : AddParams) {loc : List Str} (hne : loc ≠ [])
    (hl : lexicalPlace H.ws (pathComponents (p.toFile.getD (defaultTarget p.type))) = H.ws ++ loc)
    (ha : (addEntityTool H order s p).2 ≠ .error) :
    ∃ (e : Entity) (old sep : Str), e.id = H.lang.cases.composeEntityId p.type (H.lang.cases.snake p.id) ∧
      (Has s.disk (H.ws ++ loc) (.file (some old)) ∨ (old = [] ∧ ∀ u, ¬ Has s.disk (H.ws ++ loc) u)) ∧
      (sep = ['\n'] ∨ (sep = [] ∧ (old = [] ∨ old.getLast? = some '\n'))) ∧
      ((addEntityTool H order s p).2 = .success ↔ RestReadable H.ws s.disk loc ∧
        ValidSources H (withFile (FirmFile s.disk H.ws) loc (old ++ (sep ++ generateDsl H.lang .default [e])))) := by
  have hok : (addExecute H s p).2 = true := by
    unfold addEntityTool at ha
    split at ha
    · exact absurd rfl ha
    · next heq => rw [heq]
  have hok' := hok
  cases hx : addExecute H s p with
  | mk d ok =>
    rw [hx] at hok
    dsimp only at hok
    subst hok
    have hcan : CanAppend s.disk (H.ws ++ loc) := by
      unfold addExecute at hok'
      split at hok'
      · cases hok'
      · rw [placeOf_eq, hl] at hok'
        exact (canAppend_iff hd).1 hok'
    have key : (addEntityTool H order s p).2 = .success ↔ ∃ st, rebuild H order d = .ok st := by
      unfold addEntityTool
      rw [hx]
      dsimp only
      cases rebuild H order d <;> simp
    unfold addExecute at hx
    cases he : entityToAdd H s.state p with
    | none => rw [he] at hx; cases hx
    | some e =>
      rw [he] at hx
      obtain ⟨a1, -, a3⟩ := appendDsl_spec hd (placeOf_valid hws _) hx
      obtain ⟨old, b1, b2⟩ := a3 rfl
      rw [placeOf_eq, hl] at b1 b2
      refine ⟨e, old, appendPrefix old, (entityToAdd_spec he).1, ?_, ?_, ?_⟩
      · rcases b2 with ⟨e1, e2⟩ | e2
        · right
          refine ⟨e1, fun u hu => ?_⟩
          obtain ⟨t, rfl⟩ := hcan.2.1.2 u hu
          rw [(hasLeaf_iff hd fun es h => by cases h).1 hu] at e2
          cases e2
        · left; exact (has_iff_lookup hd).2 (leafAt_eq_some.1 e2).1
      · unfold appendPrefix
        split
        · next hc => exact .inr ⟨rfl, hc⟩
        · exact .inl rfl
      · have hhas : Has d (H.ws ++ loc) (.file (some (old ++ (appendPrefix old ++ generateDsl H.lang .default [e])))) :=
          (hasLeaf_iff a1 fun es h => by cases h).2 (by rw [b1, if_pos rfl])
        rw [key, rebuild_iff hws ho a1, firmFile_set hd a1 b1, readable_set hd a1 (.inr ⟨_, rfl⟩) b1
          (fun h => by obtain ⟨t, ht⟩ := hcan.2.1.2 _ h; cases ht) (has_parent hhas hne)]

/-! ## The order of the fields -/

/-- C169: the order in which the fields of a request are enumerated does not decide whether it is refused, when no two of them
are names of the same field.  Missing: two names of the same field (`C169_two_names`). -/
theorem C169_order_partial (H : Host) (order : Workspace → Workspace) (s : Server) (hd : WellFormed s.disk)
    (hb : ∃ w : Workspace, w.build H.lang = .ok s.state.build) (p : AddParams) (hn : (p.listItemTypes.map (·.1)).Nodup)
    (fields : List (Str × Json)) (hp : fields.Perm p.fields)
    (hk : (p.fields.map fun q => H.lang.cases.snake q.1).Nodup) :
    (addEntityTool H order s { p with fields := fields }).2 = .error ↔ (addEntityTool H order s p).2 = .error := by
  have key : ∀ {sc : EntitySchema} {fs fs' : List (Str × Json)}, (fs.map fun q => H.lang.cases.snake q.1).Nodup →
      fs'.Perm fs → FieldsFit H sc p.listItemTypes fs' → FieldsFit H sc p.listItemTypes fs := by
    intro sc fs fs' hnd hp h
    refine ⟨fun q hq => h.known q (hp.mem_iff.2 hq), fun k fd hm hr => ?_, fun before q after hs _ fd hm he x hx => ?_⟩
    · obtain ⟨q, hq, hk⟩ := h.required k fd hm hr
      exact ⟨q, hp.mem_iff.1 hq, hk⟩
    · have hq : q ∈ fs' := hp.mem_iff.2 (by rw [hs]; simp)
      obtain ⟨b, a, hba⟩ := List.append_of_mem hq
      refine h.allowed b q a hba (fun r hr hrq => ?_) fd hm he x hx
      have hnd' : (fs'.map fun q => H.lang.cases.snake q.1).Nodup := (hp.map _).nodup_iff.2 hnd
      rw [hba, List.map_append, List.map_cons] at hnd'
      exact (List.nodup_cons.1 (List.nodup_middle.1 hnd')).1 (List.mem_append.2 (.inl (List.mem_map.2 ⟨r, hr, hrq⟩)))
  have hk' : (fields.map fun q => H.lang.cases.snake q.1).Nodup := (hp.map _).nodup_iff.2 hk
  rw [← not_iff_not]
  refine (C169_accepted H order s hd hb { p with fields := fields } hn).trans
    (Iff.trans ?_ (C169_accepted H order s hd hb p hn).symm)
  dsimp only
  refine and_congr Iff.rfl (and_congr Iff.rfl (and_congr ?_ Iff.rfl))
  constructor
  · rintro ⟨sc, h1, h2, h3⟩; exact ⟨sc, h1, h2, key hk hp h3⟩
  · rintro ⟨sc, h1, h2, h3⟩; exact ⟨sc, h1, h2, key hk' hp.symm h3⟩

/-- A host whose texts are all read as the same schema: deals that have the status `open`. -/
def exDealHost : Host :=
  { exHost with grammar := fun text => .mk "source_file".toList text [schemaNode .default (exOpenSchema "open")] }

/-- One source file with this schema. -/
def exDealDisk : FsTree := .dir (some [("w".toList, .dir (some [("a.firm".toList, .file (some "S".toList))]))])

/-- The server after loading it. -/
def exDealServer : Server :=
  ⟨exDealDisk, match rebuild exDealHost id exDealDisk with
    | .ok st => st
    | .error _ => ⟨[], ⟨[], []⟩, .empty⟩⟩

/-- A request that names the status twice. -/
def exTwoNames (first second : Str × Json) : AddParams := ⟨"deal".toList, "a".toList, [first, second], some "b.txt".toList, []⟩

/-- C169 is false when a request names a field twice, in two spellings: the order in which the hash map enumerates them decides
whether the request is refused. -/
theorem C169_two_names :
    (rebuild exDealHost id exDealDisk).toBool = true ∧
    (addEntityTool exDealHost id exDealServer
      (exTwoNames ("status".toList, .string "open".toList) ("Status".toList, .string "lost".toList))).2 ≠ .error ∧
    (addEntityTool exDealHost id exDealServer
      (exTwoNames ("Status".toList, .string "lost".toList) ("status".toList, .string "open".toList))).2 = .error := by
  decide +kernel

/-! ## Examples -/

/-- A request that is accepted and meets the hypotheses. -/
example : (∃ w : Workspace, w.build exLongHost.lang = .ok exLongServer.state.build) ∧ WellFormed exLongServer.disk ∧
    (∀ n ∈ exLongHost.ws, ValidName n) ∧
    lexicalPlace exLongHost.ws (pathComponents ((exAdd "carol").toFile.getD (defaultTarget (exAdd "carol").type))) =
      exLongHost.ws ++ ["b.firm".toList] ∧
    (addEntityTool exLongHost id exLongServer (exAdd "carol")).2 = .success ∧
    ((exAdd "carol").fields.map fun q => exLongHost.lang.cases.snake q.1).Nodup :=
  ⟨⟨_, exLongServer_serves.2.1⟩, exDisk_wf, exHost_ws, by decide +kernel, by decide +kernel, by decide +kernel⟩

/-- What is required of it is so. -/
example : ∃ sc ∈ exLongServer.state.build.schemas, FieldsFit exLongHost sc [] (exAdd "carol").fields := by
  obtain ⟨-, -, ⟨sc, h1, -, h2⟩, -⟩ := (C169_accepted exLongHost id exLongServer exDisk_wf ⟨_, exLongServer_serves.2.1⟩
    (exAdd "carol") List.nodup_nil).1 (by decide +kernel)
  exact ⟨sc, h1, h2⟩

/-- A number is refused for the name. -/
example : (addEntityTool exLongHost id exLongServer { exAdd "carol" with fields := [("name".toList, .number (.pos 1))] }).2 =
    .error ∧ ¬ Fits exLongHost .string (.number (.pos 1)) := ⟨by decide +kernel, fun h => by cases h⟩

/-- An amount with a currency fits, a list of them where the request names the type of the items. -/
example : FitsField { exHost with lang := { exLang with knownCurrency := fun _ => true } } [("prices".toList, "Currency".toList)]
    "prices".toList .list (.array [.string "1.50 EUR".toList]) := by
  refine .list (s := "Currency".toList) (List.mem_singleton.2 rfl) (.currency (by decide +kernel)) ?_
  intro v hv
  rw [List.mem_singleton.1 hv]
  exact .currency (amount := "1.50".toList) (code := "EUR".toList) (d := ⟨150, 2⟩) ((splitWhitespace_iff _ _).1 (by decide +kernel))
    (by decide +kernel) rfl

end Firm
