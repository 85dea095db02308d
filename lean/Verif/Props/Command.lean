import Verif.Props.Adding
import Verif.Props.Moments
import Verif.Props.Cli

/-! # What `firm add` writes (C92) -/

namespace Firm
open Spec

/-! ## Texts of integers -/

/-- The digits of a number. -/
inductive Spec.DigitText : Str → Nat → Prop
  | one {d : Nat} : d < 10 → DigitText [digitChar d] d
  | more {s : Str} {n d : Nat} : DigitText s n → d < 10 → DigitText (s ++ [digitChar d]) (10 * n + d)

/-- The text of an integer: an optional sign and digits. -/
inductive Spec.IntText : Str → Int → Prop
  | plain {s : Str} {n : Nat} : DigitText s n → IntText s n
  | plus {s : Str} {n : Nat} : DigitText s n → IntText ('+' :: s) n
  | minus {s : Str} {n : Nat} : DigitText s n → IntText ('-' :: s) (-(n : Int))

theorem digit_char {c : Char} (h : isDigit c = true) : ∃ d, d < 10 ∧ c = digitChar d := by
  have hc : 48 ≤ c.toNat ∧ c.toNat ≤ 57 := by
    unfold isDigit at h
    revert h
    simp only [Bool.and_eq_true, decide_eq_true_eq]
    exact fun h => h
  refine ⟨c.toNat - 48, by omega, ?_⟩
  unfold digitChar
  rw [show 48 + (c.toNat - 48) = c.toNat by omega, Char.ofNat_toNat]

theorem digitText_digits {s : Str} {n : Nat} (h : DigitText s n) : (∀ c ∈ s, isDigit c = true) ∧ s ≠ [] ∧ digitsVal s = n := by
  induction h with
  | one hd =>
    refine ⟨fun c hc => ?_, by simp, ?_⟩
    · rw [List.mem_singleton.1 hc]; exact isDigit_digitChar hd
    · simp [digitsVal, digitVal_digitChar hd]
  | more h hd ih =>
    refine ⟨fun c hc => ?_, by simp, ?_⟩
    · rcases List.mem_append.1 hc with hc | hc
      · exact ih.1 c hc
      · rw [List.mem_singleton.1 hc]; exact isDigit_digitChar hd
    · rw [digitsVal_append, ih.2.2]
      simp [digitsVal, digitVal_digitChar hd]
      omega

theorem parseNat_iff (s : Str) (n : Nat) : parseNat s = some n ↔ DigitText s n := by
  constructor
  · intro h
    unfold parseNat at h
    split at h
    · next hs =>
      rw [Bool.and_eq_true] at hs
      have hd : ∀ c ∈ s, isDigit c = true := List.all_eq_true.1 hs.2
      have hne : s ≠ [] := by rintro rfl; simp at hs
      cases h
      clear hs
      induction s using List.reverseRecOn with
      | nil => exact absurd rfl hne
      | append_singleton s c ih =>
        obtain ⟨d, h1, rfl⟩ := digit_char (hd c (by simp))
        by_cases hs : s = []
        · subst hs
          have := DigitText.one h1
          simpa [digitsVal, digitVal_digitChar h1] using this
        · have := DigitText.more (ih (fun c hc => hd c (by simp [hc])) hs) h1
          rw [digitsVal_append]
          simpa [digitsVal, digitVal_digitChar h1, Nat.mul_comm] using this
    · cases h
  · intro h
    obtain ⟨h1, h2, h3⟩ := digitText_digits h
    rw [parseNat_of h1 h2, h3]

theorem parseSigned_iff (s : Str) (n : Int) : parseSigned s = some n ↔ IntText s n := by
  constructor
  · intro h
    unfold parseSigned at h
    split at h <;> obtain ⟨k, hk, rfl⟩ := Option.map_eq_some_iff.1 h
    · exact .minus ((parseNat_iff _ _).1 hk)
    · exact .plus ((parseNat_iff _ _).1 hk)
    · exact .plain ((parseNat_iff _ _).1 hk)
  · intro h
    cases h with
    | plain h =>
      obtain ⟨h1, h2, h3⟩ := digitText_digits h
      rw [parseSigned_digits h1, parseNat_of h1 h2, h3]
      rfl
    | plus h => rw [parseSigned, (parseNat_iff _ _).2 h]; rfl
    | minus h => rw [parseSigned, (parseNat_iff _ _).2 h]; rfl

theorem parseI64_iff (s : Str) (n : Int) : parseI64 s = some n ↔ IntText s n ∧ -(2 ^ 63) ≤ n ∧ n < 2 ^ 63 := by
  unfold parseI64
  rw [Option.filter_eq_some_iff, parseSigned_iff]
  simp

theorem intText_no_dot {s : Str} {n : Int} (h : IntText s n) : '.' ∉ s := by
  have key : ∀ {t : Str} {k : Nat}, DigitText t k → '.' ∉ t := fun h hc =>
    absurd ((digitText_digits h).1 _ hc) (by decide)
  cases h with
  | plain h => exact key h
  | plus h => simpa using key h
  | minus h => simpa using key h

/-! ## C92: arguments -/

/-- What an argument of `firm add` means for a field of the given type. -/
inductive Spec.Argument (S : Shell) (target : List PathComp) : FieldType → Str → FieldValue → Prop
  | yes : Argument S target .boolean "true".toList (.boolean true)
  | no : Argument S target .boolean "false".toList (.boolean false)
  | string {s : Str} : '"' ∉ s → Argument S target .string s (.string s)
  | enum {s : Str} : '"' ∉ s → Argument S target .enum s (.enum s)
  | integer {s : Str} {n : Int} : IntText s n → -(2 ^ 63) ≤ n → n < 2 ^ 63 → Argument S target .integer s (.integer n)
  | float {s : Str} {f : F64} : '.' ∈ s → S.lang.parseF64 s = some f → Argument S target .float s (.float f)
  | currency {a c : Str} {d : Decimal} : ' ' ∉ a → ' ' ∉ c → parseDecimal a = some d → S.lang.knownCurrency c = true →
      Argument S target .currency (a ++ ' ' :: c) (.currency d c)
  | entity {a b : Str} : '.' ∉ a → '.' ∉ b →
      Argument S target .reference (a ++ '.' :: b) (.reference (.entity (S.lang.cases.composeEntityId a b)))
  | field {a b f : Str} : '.' ∉ a → '.' ∉ b → '.' ∉ f →
      Argument S target .reference (a ++ '.' :: (b ++ '.' :: f)) (.reference (.field (S.lang.cases.composeEntityId a b) f))
  | date {s : Str} {day : Int} : parseCivil s = some day →
      Argument S target .dateTime s (.dateTime (moment day 0 S.lang.localOffset))
  | dateTime {s : Str} {d : DateTime} : MomentText S.lang s d → Argument S target .dateTime s (.dateTime d)
  | path (s : Str) : Argument S target .path s (.path (S.pathArg target s))

/-- An argument without the cases that are read in another way. -/
def Spec.PlainArgument (t : FieldType) (s : Str) : Prop :=
  (t = .string ∨ t = .enum → '"' ∉ s) ∧ (t = .integer → '.' ∉ s) ∧ (t = .float → '.' ∈ s) ∧
  (t = .dateTime → (∀ x y z, s ≠ x ++ " UTC".toList ++ y ++ " UTC".toList ++ z) ∧
    ∀ x z h, s = x ++ " UTC".toList ++ z → parseI32 z = some h → -(2 ^ 31) ≤ h * 3600 ∧ h * 3600 < 2 ^ 31)

theorem parseString_plain {s : Str} (h : '"' ∉ s) : parseString s = .ok (.string s) := by
  unfold parseString
  have : startsWith s tripleQuote = false := by
    cases hs : startsWith s tripleQuote with
    | false => rfl
    | true => exact absurd (startsWith_mem hs '"' (by decide)) h
  rw [this, Bool.false_and, if_neg (by decide), (trimMatches_end h).2]

theorem parseEnum_plain {s : Str} (h : '"' ∉ s) : parseEnum s = .ok (.enum s) := by
  unfold parseEnum
  rw [strReplace_eq (by decide), splitStr_none (c := '"') (by decide) h]
  show Except.ok (ParsedValue.enum (trimMatches '"' s)) = _
  rw [(trimMatches_end h).2]

theorem toOption_some {v : ParsedValue} {r : ValueResult} (h : r.toOption = some v) : r = .ok v := by
  cases r with
  | error e => cases h
  | ok x => cases h; rfl

theorem parts_two {c : Char} {s a b : Str} (h : splitChar c s = [a, b]) : s = a ++ c :: b ∧ c ∉ a ∧ c ∉ b := by
  have h1 := joinWith_splitChar c s
  have h2 := splitChar_no (c := c) (s := s)
  rw [h] at h1 h2
  exact ⟨by rw [← h1]; simp [joinWith], h2 a (by simp), h2 b (by simp)⟩

theorem parts_three {c : Char} {s a b d : Str} (h : splitChar c s = [a, b, d]) :
    s = a ++ c :: (b ++ c :: d) ∧ c ∉ a ∧ c ∉ b ∧ c ∉ d := by
  have h1 := joinWith_splitChar c s
  have h2 := splitChar_no (c := c) (s := s)
  rw [h] at h1 h2
  exact ⟨by rw [← h1]; simp [joinWith], h2 a (by simp), h2 b (by simp), h2 d (by simp)⟩

theorem parseNumber_cases {L : Lang} {s : Str} {v : ParsedValue} (h : parseNumber L s = .ok v) :
    ('.' ∈ s ∧ ∃ f, L.parseF64 s = some f ∧ v = .float f) ∨ ('.' ∉ s ∧ ∃ n, parseI64 s = some n ∧ v = .integer n) := by
  unfold parseNumber at h
  split at h
  · next hd =>
    split at h
    · next f hf => cases h; exact .inl ⟨hd, f, hf, rfl⟩
    · cases h
  · next hd =>
    split at h
    · next n hn => cases h; exact .inr ⟨hd, n, hn, rfl⟩
    · cases h

theorem parseDateTime_value {L : Lang} {s : Str} {v : ParsedValue} (h : parseDateTime L s = .ok v) : ∃ d, v = .dateTime d := by
  unfold parseDateTime at h
  split at h
  · split at h
    · cases h
    · split at h
      · cases h
      · split at h
        · cases h
        · cases h; exact ⟨_, rfl⟩
  · cases h

/-- C92: an argument that is accepted means what is stored. Missing: quotation marks (`C92_quoted`), integers
for floats and floats for integers (`C92_number_items`) and the date-times of `C91_two_zones` and `C91_wraps`. -/
theorem C92_value_partial (S : Shell) {target : List PathComp} {t : FieldType} {s : Str} {v : ParsedValue}
    (hp : PlainArgument t s) (h : S.fieldValue target t s = some v) :
    Argument S target t s (toFieldValue S.lang.cases v) := by
  obtain ⟨hq, hi, hf, hd⟩ := hp
  cases t with
  | boolean =>
    replace h := toOption_some h
    unfold parseBoolean at h
    split at h
    · next hs => cases h; subst hs; exact .yes
    · split at h
      · next hs => cases h; subst hs; exact .no
      · cases h
  | string =>
    replace h := toOption_some h
    rw [parseString_plain (hq (.inl rfl))] at h
    cases h
    exact .string (hq (.inl rfl))
  | enum =>
    replace h := toOption_some (r := parseEnum s) h
    rw [parseEnum_plain (hq (.inr rfl))] at h
    cases h
    exact .enum (hq (.inr rfl))
  | integer =>
    rcases parseNumber_cases (toOption_some h) with ⟨h1, _⟩ | ⟨_, n, h2, rfl⟩
    · exact absurd h1 (hi rfl)
    · obtain ⟨k1, k2, k3⟩ := (parseI64_iff _ _).1 h2
      exact .integer k1 k2 k3
  | float =>
    rcases parseNumber_cases (toOption_some h) with ⟨h1, f, h2, rfl⟩ | ⟨h1, _⟩
    · exact .float h1 h2
    · exact absurd (hf rfl) h1
  | currency =>
    replace h := toOption_some h
    unfold parseCurrency at h
    split at h
    · next a c hs =>
      obtain ⟨rfl, h1, h2⟩ := parts_two hs
      split at h
      · cases h
      · next d hd =>
        split at h
        · next hk => cases h; exact .currency h1 h2 hd hk
        · cases h
    · cases h
  | reference =>
    replace h := toOption_some h
    unfold parseReference at h
    split at h
    · next a b hs =>
      obtain ⟨rfl, h1, h2⟩ := parts_two hs
      cases h
      exact .entity h1 h2
    · next a b f hs =>
      obtain ⟨rfl, h1, h2, h3⟩ := parts_three hs
      cases h
      exact .field h1 h2 h3
    · cases h
  | dateTime =>
    unfold Shell.fieldValue at h
    dsimp only at h
    split at h
    · next v' hv =>
      cases h
      obtain ⟨d, rfl⟩ := parseDateTime_value hv
      exact .dateTime (C91_means_partial _ (hd rfl).1 (hd rfl).2 hv)
    · replace h := toOption_some h
      unfold parseDate at h
      split at h
      · cases h
      · next day hday =>
        cases h
        have := Argument.date (S := S) (target := target) hday
        exact this
  | path => cases h; exact .path s
  | list => cases h

/-- C92: an argument with a meaning is accepted and read as what it means. -/
theorem C92_accepted (S : Shell) {target : List PathComp} {t : FieldType} {s : Str} {x : FieldValue}
    (h : Argument S target t s x) : ∃ v, S.fieldValue target t s = some v ∧ toFieldValue S.lang.cases v = x := by
  cases h with
  | yes => exact ⟨.boolean true, rfl, rfl⟩
  | no => exact ⟨.boolean false, rfl, rfl⟩
  | string h => exact ⟨.string s, by rw [Shell.fieldValue, parseString_plain h]; rfl, rfl⟩
  | enum h => exact ⟨.enum s, by rw [Shell.fieldValue, parseEnum_plain h]; rfl, rfl⟩
  | @integer s n h1 h2 h3 =>
    exact ⟨.integer n, by rw [Shell.fieldValue, parseNumber, if_neg (intText_no_dot h1), (parseI64_iff _ _).2 ⟨h1, h2, h3⟩]; rfl, rfl⟩
  | @float s f h1 h2 => exact ⟨.float f, by rw [Shell.fieldValue, parseNumber, if_pos h1, h2]; rfl, rfl⟩
  | @currency a c d h1 h2 h3 h4 =>
    refine ⟨.currency d c, ?_, rfl⟩
    rw [Shell.fieldValue, parseCurrency, splitChar_two, splitChar_none h1, splitChar_none h2]
    simp only [List.cons_append, List.nil_append, h3, h4, if_true]
    rfl
  | @entity a b h1 h2 =>
    refine ⟨.entityRef a b, ?_, rfl⟩
    rw [Shell.fieldValue, parseReference, splitChar_two, splitChar_none h1, splitChar_none h2]
    rfl
  | @field a b f h1 h2 h3 =>
    refine ⟨.fieldRef a b f, ?_, rfl⟩
    rw [Shell.fieldValue, parseReference, splitChar_two, splitChar_none h1, splitChar_two, splitChar_none h2, splitChar_none h3]
    rfl
  | @date s day h1 =>
    refine ⟨.dateTime (moment day 0 S.lang.localOffset), ?_, rfl⟩
    have hA : 'a' ∉ s := fun hc => dateChar_not (.inl rfl) (civil_chars h1 _ hc)
    rw [Shell.fieldValue, parseDateTime, splitStr_none (c := 'a') (by decide) hA]
    dsimp only
    rw [parseDate, h1]
    rfl
  | @dateTime s d h1 => exact ⟨.dateTime d, by rw [Shell.fieldValue, C91_accepted _ h1], rfl⟩
  | path s => exact ⟨_, rfl, rfl⟩

/-- C92 is false for quotation marks: the outer ones are lost, and an enum argument loses `enum"`. -/
theorem C92_quoted (S : Shell) (target : List PathComp) :
    S.fieldValue target .string "\"so be it\"".toList = some (.string "so be it".toList) ∧
    S.fieldValue target .string "say \"hi\"".toList = some (.string "say \"hi".toList) ∧
    S.fieldValue target .enum "an enum\"s".toList = some (.enum "an s".toList) := ⟨rfl, rfl, rfl⟩

/-- C92 is false for the items of a list of numbers: what is stored for a list of integers can be a float. -/
theorem C92_number_items (S : Shell) (target : List PathComp) {f : F64} (h : S.lang.parseF64 "1.5".toList = some f) :
    S.fieldValue target .integer "1.5".toList = some (.float f) ∧
    S.fieldValue target .float "2".toList = some (.integer 2) := by
  refine ⟨?_, rfl⟩
  rw [Shell.fieldValue, parseNumber, if_pos (by decide), h]
  rfl

/-! ## C92: the entity -/

/-- A `--field` argument and the field that is written for it. -/
def Spec.ArgumentWritten (S : Shell) (target : List PathComp) (sc : EntitySchema) (q : Str × Str)
    (r : FieldId × FieldValue) : Prop :=
  r.1 = S.lang.cases.snake q.1 ∧ ∃ fd, (r.1, fd) ∈ sc.fields ∧ Argument S target fd.fieldType q.2 r.2

/-- The values given for a list, in order. -/
def Spec.valuesOf (values : List (Str × Str)) (name : Str) : List Str :=
  values.filterMap fun p => if p.1 = name then some p.2 else none

/-- A `--list` argument (name and item type) and the field that is written for it. -/
def Spec.ListWritten (S : Shell) (target : List PathComp) (sc : EntitySchema) (values : List (Str × Str)) (q : Str × Str)
    (r : FieldId × FieldValue) : Prop :=
  r.1 = S.lang.cases.snake q.1 ∧ (∃ fd, (r.1, fd) ∈ sc.fields ∧ fd.fieldType = .list) ∧
    ∃ t xs, t ≠ .list ∧ S.lang.env.lower q.2 = itemTypeName t ∧ r.2 = .list xs ∧ xs ≠ [] ∧
      List.Forall₂ (Argument S target t) (valuesOf values q.1) xs

theorem cli_addFields_written {S : Shell} {target : List PathComp} {sc : EntitySchema} {fs : List (Str × Str)}
    (hp : ∀ q ∈ fs, ∀ fd, (S.lang.cases.snake q.1, fd) ∈ sc.fields → PlainArgument fd.fieldType q.2) {e e' : Entity}
    (h : S.addFields target sc e fs = some e') :
    e'.entityType = e.entityType ∧ ∃ new, e'.fields = e.fields ++ new ∧ List.Forall₂ (ArgumentWritten S target sc) fs new := by
  induction fs generalizing e with
  | nil => cases h; exact ⟨rfl, [], by simp, .nil⟩
  | cons q fs ih =>
    obtain ⟨n, v⟩ := q
    rw [Shell.addFields] at h
    split at h
    · cases h
    · next fd hfd =>
      split at h
      · cases h
      · next x hx =>
        obtain ⟨h2, new, h3, h4⟩ := ih (fun q hq => hp q (List.mem_cons_of_mem _ hq)) h
        refine ⟨h2, (S.lang.cases.snake n, toFieldValue S.lang.cases x) :: new, ?_, .cons ⟨rfl, fd, mapGet_in hfd, ?_⟩ h4⟩
        · rw [h3]
          simp [Entity.withField]
        · exact C92_value_partial S (hp (n, v) (by simp) fd (mapGet_in hfd)) hx

theorem valuesOf_eq (values : List (Str × Str)) (name : Str) :
    (values.filter fun p => decide (p.1 = name)).map (·.2) = valuesOf values name := by
  unfold valuesOf
  induction values with
  | nil => rfl
  | cons p values ih =>
    by_cases hp : p.1 = name
    · rw [List.filter_cons_of_pos (by simpa using hp), List.map_cons, ih, List.filterMap_cons_some (by rw [if_pos hp])]
    · rw [List.filter_cons_of_neg (by simpa using hp), ih, List.filterMap_cons_none (by rw [if_neg hp])]

theorem cli_items_written {S : Shell} {target : List PathComp} {t : FieldType} {ss : List Str} {vs : List ParsedValue}
    (hp : ∀ s ∈ ss, PlainArgument t s) (h : S.items target t ss = some vs) :
    List.Forall₂ (Argument S target t) ss (toFieldValues S.lang.cases vs) := by
  induction ss generalizing vs with
  | nil => cases h; exact .nil
  | cons s ss ih =>
    rw [Shell.items] at h
    split at h
    · cases h
    · next v hv =>
      obtain ⟨ws, hws, rfl⟩ := Option.map_eq_some_iff.1 h
      exact .cons (C92_value_partial S (hp s (by simp)) hv) (ih (fun s hs => hp s (List.mem_cons_of_mem _ hs)) hws)

theorem cli_addLists_written {S : Shell} {target : List PathComp} {sc : EntitySchema} {values ls : List (Str × Str)}
    (hp : ∀ q ∈ ls, ∀ t, S.lang.env.lower q.2 = itemTypeName t → ∀ s ∈ valuesOf values q.1, PlainArgument t s)
    {e e' : Entity} (h : S.addLists target sc values e ls = some e') :
    e'.entityType = e.entityType ∧
      ∃ new, e'.fields = e.fields ++ new ∧ List.Forall₂ (ListWritten S target sc values) ls new := by
  induction ls generalizing e with
  | nil => cases h; exact ⟨rfl, [], by simp, .nil⟩
  | cons q ls ih =>
    obtain ⟨n, ty⟩ := q
    rw [Shell.addLists] at h
    split at h
    · cases h
    · next fd hfd =>
      split at h
      · next hlist =>
        split at h
        · cases h
        · next t ht =>
          obtain ⟨ht1, ht2⟩ := (C90_item_type _ _ _).1 ht
          rw [valuesOf_eq] at h
          split at h
          · cases h
          · next texts hne =>
            split at h
            · cases h
            · next vs hvs =>
              split at h
              · cases h
              · next v hv =>
                have hv2 : v = .list vs := by
                  unfold parseListFromVec at hv
                  split at hv
                  · cases hv; rfl
                  · split at hv
                    · cases hv; rfl
                    · cases hv
                subst hv2
                have hw := cli_items_written (hp (n, ty) (by simp) t ht2) hvs
                obtain ⟨h2, new, h3, h4⟩ := ih (fun q hq => hp q (List.mem_cons_of_mem _ hq)) h
                refine ⟨h2, (S.lang.cases.snake n, .list (toFieldValues S.lang.cases vs)) :: new, ?_,
                  .cons ⟨rfl, ⟨fd, mapGet_in hfd, hlist⟩, t, _, ht1, ht2, rfl, ?_, hw⟩ h4⟩
                · rw [h3]
                  simp [Entity.withField, toFieldValue]
                · intro hnil
                  rw [hnil] at hw
                  cases hx : valuesOf values n with
                  | nil => exact hne hx
                  | cons a b => rw [hx] at hw; cases hw
      · cases h

theorem pairsOf_flat (ps : List (Str × Str)) : pairsOf (ps.flatMap fun p => [p.1, p.2]) = ps := by
  induction ps with
  | nil => rfl
  | cons p ps ih =>
    show (p.1, p.2) :: pairsOf (ps.flatMap fun p => [p.1, p.2]) = _
    rw [ih]

theorem insert_all (m ps : List (Str × Str)) (h : ((m ++ ps).map (·.1)).Nodup) :
    ps.foldl (fun m p => mapInsert m p.1 p.2) m = m ++ ps := by
  induction ps generalizing m with
  | nil => simp
  | cons p ps ih =>
    rw [List.foldl_cons, mapInsert_new, ih]
    · simp
    · simpa using h
    · rw [List.map_append, List.map_cons] at h
      exact fun hc => (List.nodup_middle.1 h |> List.nodup_cons.1).1 (List.mem_append_left _ hc)

/-- C92: a successful `firm add` appends the text of an entity with the requested type and id that conforms to
the schema and has exactly the requested fields, first those given with `--field` in order, then the lists in
some order, with the values that the arguments mean. Missing: the arguments of `C92_quoted` and
`C92_number_items`, and the glued text of `C72_glued`. -/
theorem C92_entity_partial (S : Shell) (hws : ∀ n ∈ S.ws, ValidName n) (hord : ∀ m, (S.order m).Perm m) (g : Graph)
    (schemas : List EntitySchema) (d d' : FsTree) (hd : WellFormed d) (a : AddArgs) {fields lists values : List (Str × Str)}
    (h1 : a.fields = fields.flatMap fun p => [p.1, p.2]) (h2 : a.lists = lists.flatMap fun p => [p.1, p.2])
    (h3 : a.listValues = values.flatMap fun p => [p.1, p.2]) (hn : (lists.map (·.1)).Nodup)
    (hp : ∀ sc ∈ schemas, ∀ q ∈ fields, ∀ fd, (S.lang.cases.snake q.1, fd) ∈ sc.fields → PlainArgument fd.fieldType q.2)
    (hl : ∀ q ∈ lists, ∀ t, S.lang.env.lower q.2 = itemTypeName t → ∀ s ∈ valuesOf values q.1, PlainArgument t s)
    (h : S.add g schemas d a = (d', true)) :
    ∃ (sc : EntitySchema) (e : Entity), sc ∈ schemas ∧ Conforms S.lang.env sc e ∧ e.entityType = a.type ∧
      e.id = S.lang.cases.composeEntityId a.type (S.sanitize a.id) ∧
      (Has d (lexicalPlace [] (S.dslPath a.toFile a.type)) (.file none) ∨
        ∃ old, Has d' (lexicalPlace [] (S.dslPath a.toFile a.type)) (.file (some (old ++ generateDsl S.lang .default [e])))) ∧
      ∃ lists' scalars listed, lists'.Perm lists ∧ e.fields = scalars ++ listed ∧
        List.Forall₂ (ArgumentWritten S (S.dslPath a.toFile a.type) sc) fields scalars ∧
        List.Forall₂ (ListWritten S (S.dslPath a.toFile a.type) sc values) lists' listed := by
  obtain ⟨sc, e, loc, he, _, _, _, hid, _, rfl, hfile, _⟩ := cli_add S hws g schemas d d' hd a h
  unfold Shell.entityToAdd at he
  split at he
  · cases he
  · next sc' hsc =>
    have hmem := List.mem_of_find?_eq_some hsc
    have hty := List.find?_some hsc
    simp only [decide_eq_true_eq] at hty
    dsimp only at he
    split at he
    · cases he
    · split at he
      · cases he
      · next e1 he1 =>
        split at he
        · cases he
        · next e2 he2 =>
          split at he
          · cases he
          · next hv =>
            cases he
            rw [h1, pairsOf_flat] at he1
            rw [h2, h3, pairsOf_flat, pairsOf_flat, insert_all [] lists (by simpa using hn), List.nil_append] at he2
            obtain ⟨_, scalars, k1, k2⟩ := cli_addFields_written (hp sc' hmem) he1
            obtain ⟨_, listed, k3, k4⟩ := cli_addLists_written
              (fun q hq => hl q ((hord lists).mem_iff.1 hq)) he2
            have hc := (C15_verdict _ _ _).1 hv
            refine ⟨sc', e, hmem, hc, by rw [hc.1, hty], hid, ?_, S.order lists, scalars, listed, hord lists, ?_, k2, k4⟩
            · rcases hfile with h | ⟨old, _, h⟩
              · exact .inl h.1
              · exact .inr ⟨old, h⟩
            · rw [k3, k1]
              rfl

/-! ## C92: paths -/

/-- `base.join(path)` leads to the place of the path, through the names of both. -/
theorem joinComps_plain (cwd : List Str) (s : Str) : ∃ r, joinComps cwd s = .rootDir :: r ∧
    (∀ c ∈ r, (∃ n ∈ cwd, c = .normal n) ∨ (Plain c ∧ c ∈ pathComponents s)) ∧
    lexicalPlace [] r = lexicalPlace cwd (pathComponents s) := by
  by_cases hs : s.head? = some '/'
  · cases s with
    | nil => cases hs
    | cons x s =>
      cases hs
      have hp : pathComponents ('/' :: s) = .rootDir :: (splitChar '/' ('/' :: s)).filterMap pieceComp := rfl
      refine ⟨(splitChar '/' ('/' :: s)).filterMap pieceComp, rfl, fun c hc => .inr ⟨plain_or_dot hc, ?_⟩, by rw [hp]; rfl⟩
      rw [hp]
      exact List.mem_cons_of_mem _ hc
  · refine ⟨cwd.map .normal ++ (pathComponents s).filter fun c => decide (c ≠ .curDir), ?_, fun c hc => ?_, ?_⟩
    · unfold joinComps
      split
      · exact absurd rfl hs
      · rfl
    · rcases List.mem_append.1 hc with hc | hc
      · obtain ⟨n, hn, rfl⟩ := List.mem_map.1 hc
        exact .inl ⟨n, hn, rfl⟩
      · obtain ⟨hc, hne⟩ := List.mem_filter.1 hc
        refine .inr ⟨?_, hc⟩
        obtain ⟨pre, r, h1, h2, h3⟩ := components_shape s
        rw [h1] at hc
        rcases List.mem_append.1 hc with hc | hc
        · rcases h3 with rfl | rfl | ⟨rfl, h⟩
          · cases hc
          · rw [List.mem_singleton.1 hc] at hne; simp at hne
          · exact absurd h hs
        · exact h2 c hc
    · rw [lexicalPlace_append, lexicalPlace_normal, List.nil_append, lexicalPlace_dots]

/-! ### C59, C89: the target and the paths of `add_entity` -/

/-- C59: an extension of the type is replaced in the default target. -/
theorem C59_default_extension (stem ext : Str) (h0 : stem ≠ []) (h1 : '/' ∉ stem) (h3 : '.' ∉ ext)
    (h4 : ValidName (stem ++ '.' :: ext)) :
    defaultTarget (stem ++ '.' :: ext) = "generated/".toList ++ stem ++ ".firm".toList := by
  have hc : pathComponents (stem ++ '.' :: ext) = [.normal (stem ++ '.' :: ext)] :=
    pathComponents_relative (ns := [stem ++ '.' :: ext]) (by simp) (fun n hn => by rw [List.mem_singleton.1 hn]; exact h4)
  have hx : extensionOf (stem ++ '.' :: ext) = some ext := by
    have hne := splitChar_ne_nil '.' stem
    unfold extensionOf
    rw [splitChar_two, splitChar_none h3]
    cases hs : splitChar '.' stem with
    | nil => exact absurd hs hne
    | cons p ps =>
      cases ps with
      | nil =>
        have hp : p = stem := by
          by_cases hd : '.' ∈ stem
          · obtain ⟨a, b, rfl⟩ := List.append_of_mem hd
            rw [splitChar_two] at hs
            have := congrArg List.length hs
            have h5 := List.length_pos_of_ne_nil (splitChar_ne_nil '.' a)
            have h6 := List.length_pos_of_ne_nil (splitChar_ne_nil '.' b)
            simp at this
            omega
          · rw [splitChar_none hd] at hs
            simpa using hs.symm
        subst hp
        simp [h0]
      | cons q ps =>
        cases ps with
        | nil => simp
        | cons r ps =>
          simp only [List.cons_append]
          rw [show p :: q :: r :: (ps ++ [ext]) = (p :: q :: r :: ps) ++ [ext] from rfl, List.getLast?_concat]
  have hcs : defaultComps (stem ++ '.' :: ext) = [.normal "generated".toList, .normal (stem ++ '.' :: ext)] := by
    unfold defaultComps
    split
    · next heq =>
      cases stem with
      | nil => exact absurd rfl h0
      | cons c stem => simp only [List.cons_append, List.cons.injEq] at heq; simp [heq.1] at h1
    · rw [hc]; simp
  unfold defaultTarget
  rw [hcs]
  simp only [List.getLast?_cons_cons, List.getLast?_singleton, hx]
  have : (stem ++ '.' :: ext).take ((stem ++ '.' :: ext).length - ext.length - 1) = stem := by
    rw [List.take_append_of_le_length (by simp; omega), List.take_of_length_le (by simp; omega)]
  rw [this]
  simp [showComps, joinWith, compText]

example : defaultTarget "person.v2".toList = "generated/person.firm".toList :=
  C59_default_extension "person".toList "v2".toList (by decide) (by decide) (by decide)
    ⟨by decide, by decide, by decide, by decide⟩

/-- C59: the default target of a type whose name is a path: it is taken from the root when it begins
there, so that the entity is not written below `generated`, and below `generated` otherwise. -/
theorem C59_default_path (ns : List Str) (n : Str) (hns : ∀ m ∈ ns, ValidName m) (hn : ValidName n)
    (hd : '.' ∉ n) :
    defaultTarget ('/' :: joinWith ['/'] (ns ++ [n])) = '/' :: joinWith ['/'] (ns ++ [n ++ ".firm".toList]) ∧
    defaultTarget (joinWith ['/'] (ns ++ [n])) =
      joinWith ['/'] ("generated".toList :: (ns ++ [n ++ ".firm".toList])) := by
  have hall : ∀ m ∈ ns ++ [n], ValidName m := by
    intro m hm
    rcases List.mem_append.1 hm with hm | hm
    · exact hns m hm
    · rw [List.mem_singleton.1 hm]; exact hn
  have hx : extensionOf n = none := by unfold extensionOf; rw [splitChar_none hd]
  have ht : ∀ l : List Str, (l.map PathComp.normal).map compText = l := by
    intro l; rw [List.map_map]; exact (List.map_congr_left fun _ _ => rfl).trans (List.map_id l)
  constructor
  · have hcs : defaultComps ('/' :: joinWith ['/'] (ns ++ [n])) =
        (.rootDir :: ns.map .normal) ++ [.normal n] := by
      show pathComponents (placeText (ns ++ [n])) = _
      rw [pathComponents_placeText hall]; simp
    unfold defaultTarget
    simp only [hcs, List.getLast?_concat, List.dropLast_concat, hx]
    rw [show (PathComp.rootDir :: ns.map PathComp.normal) ++ [PathComp.normal (n ++ ".firm".toList)] =
      .rootDir :: (ns ++ [n ++ ".firm".toList]).map .normal by simp]
    exact congrArg (fun l => '/' :: joinWith ['/'] l) (ht (ns ++ [n ++ ".firm".toList]))
  · have hcs : defaultComps (joinWith ['/'] (ns ++ [n])) =
        (.normal "generated".toList :: ns.map .normal) ++ [.normal n] := by
      have hp := pathComponents_relative (by simp) hall
      unfold defaultComps
      split
      · next r heq =>
        rw [heq] at hp
        have : PathComp.rootDir ∈ (ns ++ [n]).map PathComp.normal := by
          rw [← hp]; unfold pathComponents; simp
        simp at this
      · rw [hp, List.filter_eq_self.2 (by
          intro c hc; obtain ⟨m, _, rfl⟩ := List.mem_map.1 hc; simp)]
        simp
    unfold defaultTarget
    simp only [hcs, List.getLast?_concat, List.dropLast_concat, hx]
    rw [show (PathComp.normal "generated".toList :: ns.map PathComp.normal) ++
        [PathComp.normal (n ++ ".firm".toList)] =
      ("generated".toList :: (ns ++ [n ++ ".firm".toList])).map .normal by simp]
    exact congrArg (joinWith ['/']) (ht ("generated".toList :: (ns ++ [n ++ ".firm".toList])))

example : defaultTarget "/etc/x".toList = "/etc/x.firm".toList :=
  (C59_default_path ["etc".toList] "x".toList
    (by intro m hm; rw [List.mem_singleton.1 hm]; exact ⟨by decide, by decide, by decide, by decide⟩)
    ⟨by decide, by decide, by decide, by decide⟩ (by decide)).1

/-- C89: a path without a relative form is written from the root: it leads from everywhere to the place to which the
given path leads from the workspace. -/
theorem C89_from_root {ws : List Str} (hws : ∀ n ∈ ws, ValidName n) (target : List PathComp) (s : Str)
    (h : diffComps (joinComps ws s) (parentOf target) = none) (from' : List Str) :
    (jsonPath ws target s).head? = some '/' ∧
    lexicalPlace from' (pathComponents (jsonPath ws target s)) = lexicalPlace ws (pathComponents s) := by
  obtain ⟨r, h1, h2, h3⟩ := joinComps_plain ws s
  have ht : Tidy (joinComps ws s) := by
    refine .inr ⟨r, h1, fun c hc => ?_⟩
    rcases h2 c hc with ⟨n, hn, rfl⟩ | hc
    · exact .inr ⟨n, rfl, hws n hn⟩
    · exact hc.1
  unfold jsonPath
  rw [h]
  simp only
  rw [components_show ht, h1]
  exact ⟨rfl, h3⟩

/-- Such a path: the target is `/w/x.firm`, spelled by way of `gen`. -/
example : diffComps (joinComps ["w".toList] "gen/a.txt".toList) (parentOf (joinComps ["w".toList] "gen/../../w/x.firm".toList)) = none ∧
    jsonPath ["w".toList] (joinComps ["w".toList] "gen/../../w/x.firm".toList) "gen/a.txt".toList = "/w/gen/a.txt".toList := by
  decide

/-! ### C92, continued -/

theorem mem_lexicalPlace {loc : List Str} {cs : List PathComp} {n : Str} (h : n ∈ lexicalPlace loc cs) :
    n ∈ loc ∨ PathComp.normal n ∈ cs := by
  induction cs generalizing loc with
  | nil => exact .inl h
  | cons c cs ih =>
    rcases ih (loc := stepFrom loc c) h with h | h
    · cases c with
      | rootDir => cases h
      | curDir => exact .inl h
      | parentDir => exact .inl (List.dropLast_subset _ h)
      | normal m =>
        rcases List.mem_append.1 h with h | h
        · exact .inl h
        · rw [List.mem_singleton.1 h]; exact .inr (by simp)
    · exact .inr (List.mem_cons_of_mem _ h)

/-- Making a path canonical keeps its place and brings in no names. -/
theorem canonical_plain {d : FsTree} {r : List PathComp} (h : ∀ c ∈ r, Plain c) : ∃ r', d.canonical (.rootDir :: r) = .rootDir :: r' ∧
    (∀ c ∈ r', Plain c) ∧ (∀ n, PathComp.normal n ∈ r' → PathComp.normal n ∈ r) ∧ lexicalPlace [] r' = lexicalPlace [] r := by
  unfold FsTree.canonical
  split
  · exact ⟨r, rfl, h, fun _ h => h, rfl⟩
  · next loc hloc =>
    split
    · exact ⟨r, rfl, h, fun _ h => h, rfl⟩
    · have hl : loc = lexicalPlace [] r := resolve_lexical hloc
      subst hl
      have hmem : ∀ n ∈ lexicalPlace [] r, PathComp.normal n ∈ r := fun n hn => (mem_lexicalPlace hn).resolve_left (by simp)
      refine ⟨(lexicalPlace [] r).map .normal, rfl, fun c hc => ?_, fun n hn => ?_, ?_⟩
      · obtain ⟨n, hn, rfl⟩ := List.mem_map.1 hc
        exact h _ (hmem n hn)
      · obtain ⟨m, hm, he⟩ := List.mem_map.1 hn
        cases he
        exact hmem n hm
      · rw [lexicalPlace_normal, List.nil_append]

/-- C92: a path given to `firm add` leads, after it has been written and read back, to the place to which it
leads from the current directory. Missing: a target in a directory given with `..` that does not exist yet
(`C92_dots`) and names that end with `path` (`C88_ending`). -/
theorem C92_path_partial (d : FsTree) {cwd ws dirs : List Str} {name : Str} (hcwd : ∀ n ∈ cwd, ValidName n)
    (hv : ∀ n ∈ dirs ++ [name], ValidName n) {target : List PathComp}
    (hdir : parentOf target = .rootDir :: (ws ++ dirs).map .normal ∨
      (d.resolve [] (parentOf target) = some (ws ++ dirs) ∧ d.lookup (ws ++ dirs) ≠ none)) {s : Str}
    (hq : '"' ∉ s) (hq2 : ∀ n ∈ cwd, '"' ∉ n)
    (he : ∀ n x, n ∈ cwd ∨ PathComp.normal n ∈ pathComponents s → n ≠ x ++ "path".toList) :
    ∃ p, parsePath ("path\"".toList ++ pathArgument d cwd target s ++ ['"']) (joinWith ['/'] (dirs ++ [name])) = .ok (.path p) ∧
      NormalPath p ∧ lexicalPlace ws (pathComponents p) = lexicalPlace cwd (pathComponents s) := by
  have hbase : d.canonical (parentOf target) = .rootDir :: (ws ++ dirs).map .normal := by
    rcases hdir with h | ⟨h1, h2⟩
    · rw [h]
      unfold FsTree.canonical
      split
      · rfl
      · next loc hloc =>
        split
        · rfl
        · have : loc = lexicalPlace [] ((ws ++ dirs).map .normal) := resolve_lexical hloc
          rw [this, lexicalPlace_normal, List.nil_append]
    · unfold FsTree.canonical
      rw [h1]
      dsimp only
      cases hl : d.lookup (ws ++ dirs) with
      | none => exact absurd hl h2
      | some u => rfl
  obtain ⟨r, h1, h2, h3⟩ := joinComps_plain cwd s
  have hr : ∀ c ∈ r, Plain c := by
    intro c hc
    rcases h2 c hc with ⟨n, hn, rfl⟩ | ⟨h, _⟩
    · exact .inr ⟨n, rfl, hcwd n hn⟩
    · exact h
  obtain ⟨r', k1, k2, k3, k4⟩ := canonical_plain (d := d) hr
  obtain ⟨rel, g1, g2, g3⟩ := diff_names r' (ws ++ dirs)
  have hpath : pathArgument d cwd target s = showComps rel := by
    unfold pathArgument
    rw [h1, k1, hbase]
    dsimp only
    rw [diffComps, if_pos rfl, g1]
  have hnames : ∀ n, PathComp.normal n ∈ rel → n ∈ cwd ∨ PathComp.normal n ∈ pathComponents s := by
    intro n hn
    rcases g3 _ hn with h | h
    · cases h
    · rcases h2 _ (k3 n h) with ⟨m, hm, he⟩ | ⟨_, h⟩
      · cases he; exact .inl hm
      · exact .inr h
  rw [hpath]
  obtain ⟨p, l1, l2, l3⟩ := written_reads hv (rel := rel)
    (fun c hc => by
      rcases g3 c hc with rfl | h
      · exact .inl rfl
      · exact k2 c h)
    (fun n hn => by
      rcases hnames n hn with h | h
      · exact hq2 n h
      · exact fun hc => hq (mem_component h hc))
    fun n x hn => he n x (hnames n hn)
  refine ⟨p, l1, l2, ?_⟩
  have := g2 []
  rw [List.nil_append] at this
  rw [l3, this, k4, h3]

/-- C92 is false for a target in a missing directory given with `..`: the file is `/w/x.firm`, and the path
that was to lead to `/w/docs/a.txt` leads to `/docs/a.txt`. -/
theorem C92_dots : ∃ d : FsTree, WellFormed d ∧
    lexicalPlace [] (joinComps ["w".toList] "gen/../x.firm".toList) = ["w".toList, "x.firm".toList] ∧
    pathArgument d ["w".toList] (joinComps ["w".toList] "gen/../x.firm".toList) "docs/a.txt".toList = "../../docs/a.txt".toList ∧
    lexicalPlace ["w".toList] (pathComponents "../../docs/a.txt".toList) = ["docs".toList, "a.txt".toList] :=
  ⟨exDisk, exDisk_wf, by decide⟩

/-! ## Examples -/

/-- A schema and a command with scalars and a list. -/
def exArgSchema : EntitySchema :=
  ⟨"person".toList, [("name".toList, .new .string .required 0), ("age".toList, .new .integer .required 1),
    ("tags".toList, .new .list .optional 2)]⟩
def exAddArgs : AddArgs :=
  ⟨some "b".toList, "person".toList, "Bob".toList, ["name".toList, "Bob B".toList, "Age".toList, "-41".toList],
    ["tags".toList, "String".toList], ["tags".toList, "x".toList, "other".toList, "7".toList, "tags".toList, "y".toList]⟩

/-- The command succeeds. -/
example : (exShell.add .empty [exArgSchema] exDisk exAddArgs).2 = true ∧
    (exShell.add .empty [exArgSchema] exDisk exAddArgs).1.readText ["w".toList, "b.firm".toList] =
      some "Bperson bob {\n    name = \"Bob B\"\n    age = -41\n    tags = [\"x\", \"y\"]\n}\n".toList := by decide +kernel

/-- Its arguments meet the hypotheses of `C92_entity_partial`. -/
example : (∀ n ∈ exShell.ws, ValidName n) ∧ (∀ m, (exShell.order m).Perm m) ∧
    exAddArgs.fields = [("name".toList, "Bob B".toList), ("Age".toList, "-41".toList)].flatMap (fun p => [p.1, p.2]) ∧
    exAddArgs.lists = [("tags".toList, "String".toList)].flatMap (fun p => [p.1, p.2]) ∧
    valuesOf [("tags".toList, "x".toList), ("other".toList, "7".toList), ("tags".toList, "y".toList)] "tags".toList =
      ["x".toList, "y".toList] ∧
    PlainArgument .string "Bob B".toList ∧ PlainArgument .integer "-41".toList ∧ PlainArgument .string "x".toList := by
  refine ⟨?_, fun m => .refl m, by decide, by decide, by decide, ?_, ?_, ?_⟩
  · intro n hn
    rw [List.mem_singleton.1 hn]
    exact ⟨by decide, by decide, by decide, by decide⟩
  all_goals exact ⟨by simp, by simp, by simp, fun h => by cases h⟩

example (S : Shell) (target : List PathComp) : Argument S target .integer "-41".toList (.integer (-41)) :=
  .integer (.minus (.more (.one (d := 4) (by decide)) (d := 1) (by decide))) (by decide) (by decide)
example (S : Shell) (target : List PathComp) (h : S.lang.knownCurrency "EUR".toList = true) :
    Argument S target .currency "5.50 EUR".toList (.currency ⟨550, 2⟩ "EUR".toList) :=
  .currency (a := "5.50".toList) (by decide) (by decide) (by decide) h

/-- A path argument, also with a target in an existing directory given with `..`. -/
example : parentOf (exShell.dslPath none "person".toList) = .rootDir :: (["w".toList] ++ ["generated".toList]).map .normal ∧
    pathArgument exDisk ["etc".toList] (exShell.dslPath none "person".toList) "../w/a.pdf".toList = "../../etc/../w/a.pdf".toList ∧
    exDisk.resolve [] (parentOf (exShell.dslPath (some "../etc/x".toList) "person".toList)) = some ["etc".toList] ∧
    pathArgument exDisk ["w".toList] (exShell.dslPath (some "../etc/x".toList) "person".toList) "a.firm".toList =
      "../w/a.firm".toList := by decide

end Firm
