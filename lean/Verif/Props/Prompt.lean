import Verif.Model.Prompt
import Verif.Props.Command
import Verif.Props.Schema
import Verif.Props.Order

/-! # Adding entities by dialogue (C99–C104) -/

namespace Firm
open Spec

/-! ## Questions and answers -/

/-- A question is answered: after answers that say nothing to it comes one that says `v`. -/
inductive Spec.Answered {α : Type} (R : Answer → α → Prop) : List Answer → α → Prop
  | now {a : Answer} {v : α} : R a v → Answered R [a] v
  | again {a : Answer} {used : List Answer} {v : α} : a ≠ .abort → a ≠ .skip → (∀ w, ¬ R a w) → Answered R used v →
      Answered R (a :: used) v

/-- A question is declined: after answers that say nothing to it comes the escape key. -/
inductive Spec.Declined {α : Type} (R : Answer → α → Prop) : List Answer → Prop
  | now : Declined R [.skip]
  | again {a : Answer} {used : List Answer} : a ≠ .abort → a ≠ .skip → (∀ w, ¬ R a w) → Declined R used →
      Declined R (a :: used)

/-- Yes or no. -/
def Spec.SaysYes (a : Answer) (b : Bool) : Prop := a = .yes b

/-- A line of text that means something. -/
def Spec.SaysText {α : Type} (P : Str → α → Prop) (a : Answer) (v : α) : Prop := ∃ s, a = .text s ∧ P s v

/-- The number of an option. -/
def Spec.Picks {α : Type} (options : List α) (a : Answer) (v : α) : Prop :=
  ∃ before after, options = before ++ v :: after ∧ a = .pick before.length

/-- A day. -/
def Spec.SaysDay (a : Answer) (n : Int) : Prop := a = .day n

/-- What `take` takes are the answers of `R`. -/
structure Takes {α : Type} (take : Answer → Option α) (R : Answer → α → Prop) : Prop where
  iff : ∀ a v, take a = some v ↔ R a v
  abort : ∀ v, ¬ R .abort v
  skip : ∀ v, ¬ R .skip v

theorem ask_some {α : Type} {take : Answer → Option α} {R : Answer → α → Prop} (ht : Takes take R) (sk : Bool)
    (as : List Answer) (v : α) (rest : List Answer) :
    ask sk take as = some (some v, rest) ↔ ∃ used, as = used ++ rest ∧ Answered R used v := by
  induction as with
  | nil =>
    constructor
    · intro h; cases h
    · rintro ⟨used, h1, h2⟩
      cases h2 <;> simp at h1
  | cons a as ih =>
    constructor
    · intro h
      unfold ask at h
      split at h
      · cases h
      · cases h
      · split at h <;> cases h
      · next a' rest' hna hns heq =>
        cases heq
        split at h
        · next w hw => cases h; exact ⟨[a], rfl, .now ((ht.iff _ _).1 hw)⟩
        · next hw =>
          obtain ⟨used, h1, h2⟩ := ih.1 h
          refine ⟨a :: used, by rw [h1]; rfl, .again (fun e => hna e) (fun e => hns e) ?_ h2⟩
          intro w hR
          rw [(ht.iff _ _).2 hR] at hw
          cases hw
    · rintro ⟨used, h1, h2⟩
      cases h2 with
      | @now b _ hR =>
        obtain ⟨rfl, rfl⟩ : a = b ∧ as = rest := by simpa using h1
        have h3 := (ht.iff _ _).2 hR
        cases a <;> first
          | exact absurd hR (ht.abort _)
          | exact absurd hR (ht.skip _)
          | (unfold ask; rw [h3])
      | @again b used' _ hna hns hno h2 =>
        obtain ⟨rfl, h4⟩ : a = b ∧ as = used' ++ rest := by simpa using h1
        have h3 : take a = none := by
          cases hc : take a with
          | none => rfl
          | some w => exact absurd ((ht.iff _ _).1 hc) (hno w)
        have h5 := ih.2 ⟨used', h4, h2⟩
        cases a <;> first
          | exact absurd rfl hna
          | exact absurd rfl hns
          | (unfold ask; rw [h3]; exact h5)

theorem ask_none {α : Type} {take : Answer → Option α} {R : Answer → α → Prop} (ht : Takes take R) (sk : Bool)
    (as : List Answer) (rest : List Answer) :
    ask sk take as = some (none, rest) ↔ sk = true ∧ ∃ used, as = used ++ rest ∧ Declined R used := by
  induction as with
  | nil =>
    constructor
    · intro h; cases h
    · rintro ⟨_, used, h1, h2⟩
      cases h2 <;> simp at h1
  | cons a as ih =>
    constructor
    · intro h
      unfold ask at h
      split at h
      · cases h
      · cases h
      · next heq =>
        cases heq
        split at h
        · next hsk => cases h; exact ⟨hsk, [.skip], rfl, .now⟩
        · cases h
      · next a' rest' hna hns heq =>
        cases heq
        split at h
        · cases h
        · next hw =>
          obtain ⟨hsk, used, h1, h2⟩ := ih.1 h
          refine ⟨hsk, a :: used, by rw [h1]; rfl, .again (fun e => hna e) (fun e => hns e) ?_ h2⟩
          intro w hR
          rw [(ht.iff _ _).2 hR] at hw
          cases hw
    · rintro ⟨hsk, used, h1, h2⟩
      cases h2 with
      | now =>
        obtain ⟨rfl, rfl⟩ : a = .skip ∧ as = rest := by simpa using h1
        unfold ask
        rw [if_pos hsk]
      | @again b used' hna hns hno h2 =>
        obtain ⟨rfl, h4⟩ : a = b ∧ as = used' ++ rest := by simpa using h1
        have h3 : take a = none := by
          cases hc : take a with
          | none => rfl
          | some w => exact absurd ((ht.iff _ _).1 hc) (hno w)
        have h5 := ih.2 ⟨hsk, used', h4, h2⟩
        cases a <;> first
          | exact absurd rfl hna
          | exact absurd rfl hns
          | (unfold ask; rw [h3]; exact h5)

theorem andThen_some {α β : Type} (r : Asked α) (f : α → List Answer → Asked β) (v : β) (rest : List Answer) :
    r.andThen f = some (some v, rest) ↔ ∃ x mid, r = some (some x, mid) ∧ f x mid = some (some v, rest) := by
  unfold Asked.andThen
  split <;> simp

theorem andThen_none {α β : Type} (r : Asked α) (f : α → List Answer → Asked β) (rest : List Answer) :
    r.andThen f = some (none, rest) ↔
      r = some (none, rest) ∨ ∃ x mid, r = some (some x, mid) ∧ f x mid = some (none, rest) := by
  unfold Asked.andThen
  split <;> simp

theorem takesYes : Takes takeYes SaysYes :=
  ⟨fun a v => by cases a <;> simp [takeYes, SaysYes], fun v h => (by cases h), fun v h => (by cases h)⟩

theorem takesDay : Takes takeDay SaysDay :=
  ⟨fun a v => by cases a <;> simp [takeDay, SaysDay], fun v h => (by cases h), fun v h => (by cases h)⟩

theorem takesText {α : Type} {parse : Str → Option α} {P : Str → α → Prop} (h : ∀ s v, parse s = some v ↔ P s v) :
    Takes (takeText parse) (SaysText P) :=
  ⟨fun a v => by cases a <;> simp [takeText, SaysText, h], fun v ⟨s, h, _⟩ => (by cases h),
    fun v ⟨s, h, _⟩ => (by cases h)⟩

theorem takesOption {α : Type} (options : List α) : Takes (takeOption options) (Picks options) := by
  refine ⟨fun a v => ?_, fun v ⟨_, _, _, h⟩ => (by cases h), fun v ⟨_, _, _, h⟩ => (by cases h)⟩
  cases a <;> simp only [takeOption, Picks, reduceCtorEq, and_false, exists_false, Answer.pick.injEq]
  next k =>
  constructor
  · intro h
    obtain ⟨hk, he⟩ := List.getElem?_eq_some_iff.1 h
    refine ⟨options.take k, options.drop (k + 1), ?_, by simp; omega⟩
    rw [← he]
    simp
  · rintro ⟨before, after, rfl, rfl⟩
    simp

theorem askOption_some {α : Type} (sk : Bool) (options : List α) (as : List Answer) (v : α) (rest : List Answer) :
    askOption sk options as = some (some v, rest) ↔ ∃ used, as = used ++ rest ∧ Answered (Picks options) used v := by
  unfold askOption
  split
  · next h =>
    simp only [reduceCtorEq, false_iff]
    rintro ⟨used, -, h2⟩
    have h0 : options = [] := by simpa using h
    subst h0
    induction h2 with
    | now hR => obtain ⟨b, a, h3, _⟩ := hR; simp at h3
    | again _ _ _ _ ih => exact ih
  · exact ask_some (takesOption options) sk as v rest

theorem askOption_none {α : Type} (sk : Bool) {options : List α} (ho : options ≠ []) (as : List Answer) (rest : List Answer) :
    askOption sk options as = some (none, rest) ↔
      sk = true ∧ ∃ used, as = used ++ rest ∧ Declined (Picks options) used := by
  unfold askOption
  rw [if_neg (by simpa using ho)]
  exact ask_none (takesOption options) sk as rest

theorem askOption_required {α : Type} {options : List α} {as : List Answer} {r : Option α × List Answer}
    (h : askOption false options as = some r) : ∃ v, r = (some v, r.2) := by
  obtain ⟨v, rest⟩ := r
  cases v with
  | some v => exact ⟨v, rfl⟩
  | none =>
    unfold askOption at h
    split at h
    · cases h
    · exact absurd ((ask_none (takesOption options) false as rest).1 h).1 (by decide)

/-! ## Values -/

/-- A line that is not blank. -/
def Spec.NotBlank (s : Str) (v : Str) : Prop := v = s ∧ ∃ c ∈ s, isWs c = false

/-- The text of an integer between two bounds. -/
def Spec.IntBetween (lo hi : Int) (s : Str) (n : Int) : Prop := IntText s n ∧ lo ≤ n ∧ n < hi

/-- The empty line stands for `d`. -/
def Spec.OrDefault {α : Type} (d : α) (P : Str → α → Prop) (s : Str) (v : α) : Prop := (s = [] ∧ v = d) ∨ (s ≠ [] ∧ P s v)

/-- The three steps of a date: the day, the time of day (noon unless given), the hours of the offset (the local ones
unless given). -/
inductive Spec.DateAnswered (L : Lang) : List Answer → DateTime → Prop
  | mk {u₁ u₂ u₃ : List Answer} {n : Int} {t : Nat} {o : Int} : Answered SaysDay u₁ n →
      Answered (SaysText (OrDefault 720 fun s m => parseTime s = some m)) u₂ t →
      Answered (SaysText (OrDefault (L.localOffset.tdiv 3600) (IntBetween (-(2 ^ 31)) (2 ^ 31)))) u₃ o →
      -12 ≤ o → o ≤ 14 → DateAnswered L (u₁ ++ (u₂ ++ u₃)) (moment n t (o * 3600))

/-- A date can be declined at each step. -/
inductive Spec.DateDeclined (L : Lang) : List Answer → Prop
  | day {u : List Answer} : Declined SaysDay u → DateDeclined L u
  | time {u₁ u₂ : List Answer} {n : Int} : Answered SaysDay u₁ n →
      Declined (SaysText (OrDefault 720 fun s m => parseTime s = some m)) u₂ → DateDeclined L (u₁ ++ u₂)
  | offset {u₁ u₂ u₃ : List Answer} {n : Int} {t : Nat} : Answered SaysDay u₁ n →
      Answered (SaysText (OrDefault 720 fun s m => parseTime s = some m)) u₂ t →
      Declined (SaysText (OrDefault (L.localOffset.tdiv 3600) (IntBetween (-(2 ^ 31)) (2 ^ 31)))) u₃ →
      DateDeclined L (u₁ ++ (u₂ ++ u₃))

/-- The answers that give a value of one of the types that a list can have. -/
inductive Spec.ItemEntered (D : Dialogue) : FieldType → List Answer → FieldValue → Prop
  | boolean {u : List Answer} {b : Bool} : Answered SaysYes u b → ItemEntered D .boolean u (.boolean b)
  | string {u : List Answer} {s : Str} : Answered (SaysText NotBlank) u s → ItemEntered D .string u (.string s)
  | integer {u : List Answer} {n : Int} : Answered (SaysText (IntBetween (-(2 ^ 63)) (2 ^ 63))) u n →
      ItemEntered D .integer u (.integer n)
  | float {u : List Answer} {f : F64} : Answered (SaysText fun s f => D.shell.lang.parseF64 s = some f) u f →
      ItemEntered D .float u (.float f)
  | currency {u₁ u₂ : List Answer} {d : Decimal} {c : Str} : Answered (SaysText fun s d => parseDecimal s = some d) u₁ d →
      Answered (Picks D.currencies) u₂ c → ItemEntered D .currency (u₁ ++ u₂) (.currency d c)
  | dateTime {u : List Answer} {d : DateTime} : DateAnswered D.shell.lang u d → ItemEntered D .dateTime u (.dateTime d)

/-- The answers that give no value of such a type. -/
inductive Spec.ItemDeclined (D : Dialogue) : FieldType → List Answer → Prop
  | boolean {u : List Answer} : Declined SaysYes u → ItemDeclined D .boolean u
  | string {u : List Answer} : Declined (SaysText NotBlank) u → ItemDeclined D .string u
  | integer {u : List Answer} : Declined (SaysText (IntBetween (-(2 ^ 63)) (2 ^ 63))) u → ItemDeclined D .integer u
  | float {u : List Answer} : Declined (SaysText fun s f => D.shell.lang.parseF64 s = some f) u → ItemDeclined D .float u
  | currency {u : List Answer} : Declined (SaysText fun s d => parseDecimal s = some d) u → ItemDeclined D .currency u
  | dateTime {u : List Answer} : DateDeclined D.shell.lang u → ItemDeclined D .dateTime u

/-- The items of a list: entered one after the other, until one is declined. -/
inductive Spec.ItemsEntered (D : Dialogue) (t : FieldType) : List Answer → List FieldValue → Prop
  | done {u : List Answer} : ItemDeclined D t u → ItemsEntered D t u []
  | more {u us : List Answer} {v : FieldValue} {vs : List FieldValue} : ItemEntered D t u v → ItemsEntered D t us vs →
      ItemsEntered D t (u ++ us) (v :: vs)

/-- The types that the items of a list can have, in the order in which they are offered. -/
def Spec.ItemTypes : List FieldType := [.string, .integer, .float, .boolean, .dateTime, .currency]

/-- The text of a reference to something in the graph. -/
inductive Spec.RefText (T : CaseTable) (g : Graph) : Str → ReferenceValue → Prop
  | entity {a b : Str} {e : Entity} : '.' ∉ a → '.' ∉ b → g.getEntity (T.composeEntityId a b) = some e →
      RefText T g (a ++ '.' :: b) (.entity (T.composeEntityId a b))
  | field {a b f : Str} {e : Entity} {v : FieldValue} : '.' ∉ a → '.' ∉ b → '.' ∉ f →
      g.getEntity (T.composeEntityId a b) = some e → FirstValue e.fields f v →
      RefText T g (a ++ '.' :: (b ++ '.' :: f)) (.field (T.composeEntityId a b) f)

/-- The answers that give a value of a field. -/
inductive Spec.FieldEntered (D : Dialogue) (g : Graph) (target : List PathComp) (fs : FieldSchema) :
    List Answer → FieldValue → Prop
  | item {u : List Answer} {v : FieldValue} : ItemEntered D fs.fieldType u v → FieldEntered D g target fs u v
  | reference {u : List Answer} {r : ReferenceValue} : fs.fieldType = .reference →
      Answered (SaysText (RefText D.shell.lang.cases g)) u r → FieldEntered D g target fs u (.reference r)
  | list {u us : List Answer} {t : FieldType} {vs : List FieldValue} : fs.fieldType = .list →
      Answered (Picks ItemTypes) u t → ItemsEntered D t us vs → FieldEntered D g target fs (u ++ us) (.list vs)
  | path {u : List Answer} {s : Str} : fs.fieldType = .path → Answered (SaysText fun s v => v = s) u s →
      FieldEntered D g target fs u (.path (promptedPath D.shell.ws target s))
  | enum {u : List Answer} {allowed : List Str} {v : Str} : fs.fieldType = .enum → fs.allowedValues = some allowed →
      Answered (Picks allowed) u v → FieldEntered D g target fs u (.enum v)

/-- The answers that give no value of a field. -/
inductive Spec.FieldDeclined (D : Dialogue) (g : Graph) (fs : FieldSchema) : List Answer → Prop
  | item {u : List Answer} : ItemDeclined D fs.fieldType u → FieldDeclined D g fs u
  | reference {u : List Answer} : fs.fieldType = .reference → Declined (SaysText (RefText D.shell.lang.cases g)) u →
      FieldDeclined D g fs u
  | list {u : List Answer} : fs.fieldType = .list → Declined (Picks ItemTypes) u → FieldDeclined D g fs u
  | path {u : List Answer} : fs.fieldType = .path → Declined (SaysText fun s v : Str => v = s) u → FieldDeclined D g fs u

/-! ### What the prompts take -/

theorem all_ws_trim (s : Str) : (trim s).isEmpty = true ↔ ∀ c ∈ s, isWs c = true := by
  rw [List.isEmpty_iff, trim_nil_iff]

theorem takesString : Takes (takeText fun s => if (trim s).isEmpty then none else some s) (SaysText NotBlank) := by
  refine takesText fun s v => ?_
  unfold NotBlank
  by_cases h : (trim s).isEmpty = true
  · rw [if_pos h]
    simp only [reduceCtorEq, false_iff, not_and]
    rintro - ⟨c, hc, h2⟩
    rw [(all_ws_trim s).1 h c hc] at h2
    cases h2
  · rw [if_neg h]
    have : ∃ c ∈ s, isWs c = false := by
      by_contra hno
      refine h ((all_ws_trim s).2 fun c hc => ?_)
      cases hw : isWs c with
      | true => rfl
      | false => exact absurd ⟨c, hc, hw⟩ hno
    constructor
    · intro hv; cases hv; exact ⟨rfl, this⟩
    · rintro ⟨rfl, -⟩; rfl

theorem takesI64 : Takes (takeText parseI64) (SaysText (IntBetween (-(2 ^ 63)) (2 ^ 63))) :=
  takesText parseI64_iff

theorem parseI32_iff (s : Str) (n : Int) : parseI32 s = some n ↔ IntText s n ∧ -(2 ^ 31) ≤ n ∧ n < 2 ^ 31 := by
  unfold parseI32
  rw [Option.filter_eq_some_iff, parseSigned_iff]
  simp

theorem takesDefault {α : Type} (d : α) {parse : Str → Option α} {P : Str → α → Prop} (h : ∀ s v, parse s = some v ↔ P s v) :
    Takes (takeText (orDefault d parse)) (SaysText (OrDefault d P)) := by
  refine takesText fun s v => ?_
  unfold orDefault OrDefault
  by_cases hs : s = []
  · simp [hs, eq_comm]
  · simp [hs, h]

theorem takesTime : Takes (takeText (orDefault (12 * 60) parseTime)) (SaysText (OrDefault 720 fun s m => parseTime s = some m)) :=
  takesDefault _ fun _ _ => Iff.rfl

theorem takesOffset (d : Int) :
    Takes (takeText (orDefault d parseI32)) (SaysText (OrDefault d (IntBetween (-(2 ^ 31)) (2 ^ 31)))) :=
  takesDefault _ parseI32_iff

theorem datePrompt_some (D : Dialogue) (sk : Bool) (as rest : List Answer) (v : FieldValue) :
    datePrompt D sk as = some (some v, rest) ↔
      ∃ used d, as = used ++ rest ∧ DateAnswered D.shell.lang used d ∧ v = .dateTime d := by
  unfold datePrompt
  simp only [andThen_some, ask_some takesDay, ask_some takesTime, ask_some (takesOffset _)]
  constructor
  · rintro ⟨n, _, ⟨u₁, h1, h2⟩, t, _, ⟨u₂, h3, h4⟩, o, _, ⟨u₃, h5, h6⟩, h7⟩
    split at h7
    · next ho =>
      cases h7
      refine ⟨_, _, ?_, .mk h2 h4 h6 ho.1 ho.2, rfl⟩
      rw [h1, h3, h5]
      simp
    · cases h7
  · rintro ⟨_, _, h1, ⟨h2, h3, h4, h5, h6⟩, rfl⟩
    rename_i u₁ u₂ u₃ n t o
    refine ⟨n, _, ⟨u₁, by rw [h1, List.append_assoc], h2⟩, t, _, ⟨u₂, by rw [List.append_assoc], h3⟩, o, rest,
      ⟨u₃, rfl, h4⟩, ?_⟩
    rw [if_pos ⟨h5, h6⟩]
    rfl

theorem datePrompt_none (D : Dialogue) (sk : Bool) (as rest : List Answer) :
    datePrompt D sk as = some (none, rest) ↔ sk = true ∧ ∃ used, as = used ++ rest ∧ DateDeclined D.shell.lang used := by
  unfold datePrompt
  simp only [andThen_none, ask_some takesDay, ask_some takesTime, ask_none takesDay, ask_some (takesOffset _),
    ask_none takesTime, ask_none (takesOffset _)]
  constructor
  · rintro (⟨hsk, u, h1, h2⟩ | ⟨n, _, ⟨u₁, h1, h2⟩, ⟨hsk, u₂, h3, h4⟩ | ⟨t, _, ⟨u₂, h3, h4⟩, ⟨hsk, u₃, h5, h6⟩ | ⟨o, _, _, h7⟩⟩⟩)
    · exact ⟨hsk, u, h1, .day h2⟩
    · exact ⟨hsk, _, by rw [h1, h3, List.append_assoc], .time h2 h4⟩
    · exact ⟨hsk, _, by rw [h1, h3, h5]; simp, .offset h2 h4 h6⟩
    · split at h7 <;> cases h7
  · rintro ⟨hsk, u, h1, h2⟩
    cases h2 with
    | day h2 => exact .inl ⟨hsk, u, h1, h2⟩
    | time h2 h3 => exact .inr ⟨_, _, ⟨_, by rw [h1, List.append_assoc], h2⟩, .inl ⟨hsk, _, rfl, h3⟩⟩
    | offset h2 h3 h4 =>
      exact .inr ⟨_, _, ⟨_, by rw [h1, List.append_assoc], h2⟩, .inr ⟨_, _, ⟨_, by rw [List.append_assoc], h3⟩,
        .inl ⟨hsk, _, rfl, h4⟩⟩⟩

theorem itemPrompt_some (D : Dialogue) (sk : Bool) (t : FieldType) (as rest : List Answer) (v : FieldValue) :
    itemPrompt D sk t as = some (some v, rest) ↔ ∃ used, as = used ++ rest ∧ ItemEntered D t used v := by
  unfold itemPrompt
  cases t with
  | boolean =>
    simp only [boolPrompt, andThen_some, ask_some takesYes]
    constructor
    · rintro ⟨b, _, ⟨u, h1, h2⟩, h3⟩; cases h3; exact ⟨u, h1, .boolean h2⟩
    · rintro ⟨u, h1, ⟨h2⟩⟩; exact ⟨_, _, ⟨u, h1, h2⟩, rfl⟩
  | string =>
    simp only [stringPrompt, andThen_some, ask_some takesString]
    constructor
    · rintro ⟨b, _, ⟨u, h1, h2⟩, h3⟩; cases h3; exact ⟨u, h1, .string h2⟩
    · rintro ⟨u, h1, h2⟩; cases h2 with | string h2 => exact ⟨_, _, ⟨u, h1, h2⟩, rfl⟩
  | integer =>
    simp only [intPrompt, andThen_some, ask_some takesI64]
    constructor
    · rintro ⟨b, _, ⟨u, h1, h2⟩, h3⟩; cases h3; exact ⟨u, h1, .integer h2⟩
    · rintro ⟨u, h1, h2⟩; cases h2 with | integer h2 => exact ⟨_, _, ⟨u, h1, h2⟩, rfl⟩
  | float =>
    simp only [floatPrompt, andThen_some, ask_some (takesText fun s v => Iff.rfl)]
    constructor
    · rintro ⟨b, _, ⟨u, h1, h2⟩, h3⟩; cases h3; exact ⟨u, h1, .float h2⟩
    · rintro ⟨u, h1, h2⟩; cases h2 with | float h2 => exact ⟨_, _, ⟨u, h1, h2⟩, rfl⟩
  | currency =>
    simp only [currencyPrompt, andThen_some, ask_some (takesText fun s v => Iff.rfl), askOption_some]
    constructor
    · rintro ⟨d, _, ⟨u, h1, h2⟩, c, _, ⟨u', h3, h4⟩, h5⟩
      cases h5
      exact ⟨u ++ u', by rw [h1, h3, List.append_assoc], .currency h2 h4⟩
    · rintro ⟨u, h1, h2⟩
      cases h2 with
      | currency h2 h3 => exact ⟨_, _, ⟨_, by rw [h1, List.append_assoc], h2⟩, _, _, ⟨_, rfl, h3⟩, rfl⟩
  | dateTime =>
    simp only [datePrompt_some]
    constructor
    · rintro ⟨u, d, h1, h2, rfl⟩; exact ⟨u, h1, .dateTime h2⟩
    · rintro ⟨u, h1, h2⟩; cases h2 with | dateTime h2 => exact ⟨_, _, h1, h2, rfl⟩
  | _ =>
    simp only [reduceCtorEq, false_iff]
    rintro ⟨u, -, h2⟩
    cases h2

theorem itemPrompt_none (D : Dialogue) (sk : Bool) (t : FieldType) (as rest : List Answer) :
    itemPrompt D sk t as = some (none, rest) ↔ sk = true ∧ ∃ used, as = used ++ rest ∧ ItemDeclined D t used := by
  unfold itemPrompt
  cases t with
  | boolean =>
    simp only [boolPrompt, andThen_none, ask_none takesYes, Option.some.injEq, Prod.mk.injEq, reduceCtorEq, false_and,
      and_false, exists_false, or_false]
    constructor
    · rintro ⟨hsk, u, h1, h2⟩; exact ⟨hsk, u, h1, .boolean h2⟩
    · rintro ⟨hsk, u, h1, h2⟩; cases h2 with | boolean h2 => exact ⟨hsk, u, h1, h2⟩
  | string =>
    simp only [stringPrompt, andThen_none, ask_none takesString, Option.some.injEq, Prod.mk.injEq, reduceCtorEq,
      false_and, and_false, exists_false, or_false]
    constructor
    · rintro ⟨hsk, u, h1, h2⟩; exact ⟨hsk, u, h1, .string h2⟩
    · rintro ⟨hsk, u, h1, h2⟩; cases h2 with | string h2 => exact ⟨hsk, u, h1, h2⟩
  | integer =>
    simp only [intPrompt, andThen_none, ask_none takesI64, Option.some.injEq, Prod.mk.injEq, reduceCtorEq, false_and,
      and_false, exists_false, or_false]
    constructor
    · rintro ⟨hsk, u, h1, h2⟩; exact ⟨hsk, u, h1, .integer h2⟩
    · rintro ⟨hsk, u, h1, h2⟩; cases h2 with | integer h2 => exact ⟨hsk, u, h1, h2⟩
  | float =>
    simp only [floatPrompt, andThen_none, ask_none (takesText fun s v => Iff.rfl), Option.some.injEq, Prod.mk.injEq,
      reduceCtorEq, false_and, and_false, exists_false, or_false]
    constructor
    · rintro ⟨hsk, u, h1, h2⟩; exact ⟨hsk, u, h1, .float h2⟩
    · rintro ⟨hsk, u, h1, h2⟩; cases h2 with | float h2 => exact ⟨hsk, u, h1, h2⟩
  | currency =>
    simp only [currencyPrompt, andThen_none, ask_none (takesText fun s v => Iff.rfl)]
    constructor
    · rintro (⟨hsk, u, h1, h2⟩ | ⟨d, _, _, h | ⟨c, _, _, h⟩⟩)
      · exact ⟨hsk, u, h1, .currency h2⟩
      · obtain ⟨v, hv⟩ := askOption_required h
        cases hv
      · cases h
    · rintro ⟨hsk, u, h1, h2⟩; cases h2 with | currency h2 => exact .inl ⟨hsk, u, h1, h2⟩
  | dateTime =>
    simp only [datePrompt_none]
    constructor
    · rintro ⟨hsk, u, h1, h2⟩; exact ⟨hsk, u, h1, .dateTime h2⟩
    · rintro ⟨hsk, u, h1, h2⟩; cases h2 with | dateTime h2 => exact ⟨hsk, u, h1, h2⟩
  | _ =>
    simp only [reduceCtorEq, false_iff]
    rintro ⟨-, u, -, h2⟩
    cases h2

theorem answered_ne {α : Type} {R : Answer → α → Prop} {u : List Answer} {v : α} (h : Answered R u v) : u ≠ [] := by
  cases h <;> simp

theorem declined_ne {α : Type} {R : Answer → α → Prop} {u : List Answer} (h : Declined R u) : u ≠ [] := by
  cases h <;> simp

theorem itemEntered_ne {D : Dialogue} {t : FieldType} {u : List Answer} {v : FieldValue} (h : ItemEntered D t u v) : u ≠ [] := by
  cases h with
  | boolean h => exact answered_ne h
  | string h => exact answered_ne h
  | integer h => exact answered_ne h
  | float h => exact answered_ne h
  | currency h _ => simp [answered_ne h]
  | dateTime h => cases h with | mk h => simp [answered_ne h]

theorem itemDeclined_ne {D : Dialogue} {t : FieldType} {u : List Answer} (h : ItemDeclined D t u) : u ≠ [] := by
  cases h with
  | boolean h => exact declined_ne h
  | string h => exact declined_ne h
  | integer h => exact declined_ne h
  | float h => exact declined_ne h
  | currency h => exact declined_ne h
  | dateTime h =>
    cases h with
    | day h => exact declined_ne h
    | time h => simp [answered_ne h]
    | offset h => simp [answered_ne h]

theorem listLoop_iff (D : Dialogue) (t : FieldType) : ∀ (n : Nat) (as rest : List Answer) (vs : List FieldValue), as.length ≤ n →
    (listLoop D t n as = some (vs, rest) ↔ ∃ used, as = used ++ rest ∧ ItemsEntered D t used vs)
  | 0, as, rest, vs, hn => by
    have has : as = [] := List.length_eq_zero_iff.1 (by omega)
    subst has
    simp only [listLoop, reduceCtorEq, false_iff]
    rintro ⟨used, h1, h2⟩
    have hu : used = [] := (List.append_eq_nil_iff.1 h1.symm).1
    subst hu
    generalize hx : ([] : List Answer) = x at h2
    cases h2 with
    | done h => exact itemDeclined_ne h hx.symm
    | more h _ => exact itemEntered_ne h (List.append_eq_nil_iff.1 hx.symm).1
  | n + 1, as, rest, vs, hn => by
    rw [listLoop]
    constructor
    · intro h
      split at h
      · cases h
      · next hi =>
        cases h
        obtain ⟨-, used, h1, h2⟩ := (itemPrompt_none D true t as rest).1 hi
        exact ⟨used, h1, .done h2⟩
      · next v mid hi =>
        obtain ⟨used, h1, h2⟩ := (itemPrompt_some D true t as mid v).1 hi
        obtain ⟨⟨ws, r⟩, h3, h4⟩ := Option.map_eq_some_iff.1 h
        cases h4
        have hlen : mid.length ≤ n := by
          have := List.length_pos_of_ne_nil (itemEntered_ne h2)
          have := congrArg List.length h1
          simp only [List.length_append] at this
          omega
        obtain ⟨used', h5, h6⟩ := (listLoop_iff D t n mid r ws hlen).1 h3
        exact ⟨used ++ used', by rw [h1, h5, List.append_assoc], .more h2 h6⟩
    · rintro ⟨used, h1, h2⟩
      cases h2 with
      | done h2 => rw [(itemPrompt_none D true t as rest).2 ⟨rfl, used, h1, h2⟩]
      | @more u us v ws h2 h3 =>
        rw [List.append_assoc] at h1
        rw [(itemPrompt_some D true t as (us ++ rest) v).2 ⟨u, h1, h2⟩]
        have hlen : (us ++ rest).length ≤ n := by
          have := List.length_pos_of_ne_nil (itemEntered_ne h2)
          have := congrArg List.length h1
          simp only [List.length_append] at this ⊢
          omega
        simp only
        rw [(listLoop_iff D t n (us ++ rest) rest ws hlen).2 ⟨us, rfl, h3⟩]
        rfl

theorem referenceExists_iff (T : CaseTable) (g : Graph) (s : Str) :
    referenceExists T g s = true ↔ ∃ r, RefText T g s r := by
  unfold referenceExists
  constructor
  · intro h
    split at h
    · next t i hs =>
      obtain ⟨rfl, h1, h2⟩ := parts_two hs
      obtain ⟨e, he⟩ := Option.isSome_iff_exists.1 h
      exact ⟨_, .entity h1 h2 he⟩
    · next t i f hs =>
      obtain ⟨rfl, h1, h2, h3⟩ := parts_three hs
      split at h
      · next e he =>
        obtain ⟨v, hv⟩ := Option.isSome_iff_exists.1 h
        exact ⟨_, .field h1 h2 h3 he (getField_iff.1 hv)⟩
      · cases h
    · cases h
  · rintro ⟨r, h⟩
    cases h with
    | entity h1 h2 he =>
      rw [splitChar_two, splitChar_none h1, splitChar_none h2]
      simp [he]
    | field h1 h2 h3 he hv =>
      rw [splitChar_two, splitChar_none h1, splitChar_two, splitChar_none h2, splitChar_none h3]
      simp [he, getField_iff.2 hv]

theorem said_map {α β : Type} {R : Answer → α → Prop} {R' : Answer → β → Prop} {f : α → β → Prop}
    (h : ∀ a w, R' a w ↔ ∃ v, R a v ∧ f v w) (ht : ∀ a v, R a v → ∃ w, f v w) (a : Answer) :
    (∀ w, ¬ R' a w) ↔ ∀ v, ¬ R a v := by
  constructor
  · intro hn v hv
    obtain ⟨w, hw⟩ := ht a v hv
    exact hn w ((h a w).2 ⟨v, hv, hw⟩)
  · intro hn w hw
    obtain ⟨v, hv, _⟩ := (h a w).1 hw
    exact hn v hv

theorem answered_map {α β : Type} {R : Answer → α → Prop} {R' : Answer → β → Prop} {f : α → β → Prop}
    (h : ∀ a w, R' a w ↔ ∃ v, R a v ∧ f v w) (ht : ∀ a v, R a v → ∃ w, f v w) (u : List Answer) (w : β) :
    Answered R' u w ↔ ∃ v, Answered R u v ∧ f v w := by
  constructor
  · intro h'
    induction h' with
    | now hR =>
      obtain ⟨v, hv, hf⟩ := (h _ _).1 hR
      exact ⟨v, .now hv, hf⟩
    | again h1 h2 h3 _ ih =>
      obtain ⟨v, hv, hf⟩ := ih
      exact ⟨v, .again h1 h2 ((said_map h ht _).1 h3) hv, hf⟩
  · rintro ⟨v, hv, hf⟩
    induction hv with
    | now hR => exact .now ((h _ _).2 ⟨_, hR, hf⟩)
    | again h1 h2 h3 _ ih => exact .again h1 h2 ((said_map h ht _).2 h3) (ih hf)

theorem declined_map {α β : Type} {R : Answer → α → Prop} {R' : Answer → β → Prop} {f : α → β → Prop}
    (h : ∀ a w, R' a w ↔ ∃ v, R a v ∧ f v w) (ht : ∀ a v, R a v → ∃ w, f v w) (u : List Answer) :
    Declined R' u ↔ Declined R u := by
  constructor
  · intro h'
    induction h' with
    | now => exact .now
    | again h1 h2 h3 _ ih => exact .again h1 h2 ((said_map h ht _).1 h3) ih
  · intro h'
    induction h' with
    | now => exact .now
    | again h1 h2 h3 _ ih => exact .again h1 h2 ((said_map h ht _).2 h3) ih

theorem takesReference (T : CaseTable) (g : Graph) : Takes (takeText fun s => if referenceExists T g s then some s else none)
    (SaysText fun s v => v = s ∧ ∃ r, RefText T g s r) := by
  refine takesText fun s v => ?_
  rw [← referenceExists_iff]
  by_cases h : referenceExists T g s = true
  · simp only [h, if_true, Option.some.injEq, and_true]
    exact eq_comm
  · simp [h]

theorem saysRef (T : CaseTable) (g : Graph) (a : Answer) (r : ReferenceValue) : SaysText (RefText T g) a r ↔
    ∃ s, SaysText (fun s v => v = s ∧ ∃ r, RefText T g s r) a s ∧ RefText T g s r := by
  constructor
  · rintro ⟨s, rfl, h⟩; exact ⟨s, ⟨s, rfl, rfl, r, h⟩, h⟩
  · rintro ⟨s, ⟨s', rfl, rfl, -⟩, h⟩; exact ⟨_, rfl, h⟩

theorem saysRef_total (T : CaseTable) (g : Graph) (a : Answer) (s : Str)
    (h : SaysText (fun s v => v = s ∧ ∃ r, RefText T g s r) a s) : ∃ r, RefText T g s r := by
  obtain ⟨s', -, rfl, h⟩ := h
  exact h

theorem referencePrompt_some (T : CaseTable) (g : Graph) (sk : Bool) (as rest : List Answer) (v : FieldValue) :
    referencePrompt T g sk as = some (some v, rest) ↔
      ∃ used r, as = used ++ rest ∧ Answered (SaysText (RefText T g)) used r ∧ v = .reference r := by
  unfold referencePrompt
  simp only [andThen_some, ask_some (takesReference T g), answered_map (saysRef T g) (saysRef_total T g)]
  have last : ∀ {u : List Answer} {s : Str}, Answered (SaysText fun s v => v = s ∧ ∃ r, RefText T g s r) u s →
      ∃ r, RefText T g s r := by
    intro u s h
    induction h with
    | now h => exact saysRef_total T g _ _ h
    | again _ _ _ _ ih => exact ih
  constructor
  · rintro ⟨s, _, ⟨u, h1, h2⟩, h3⟩
    obtain ⟨r, hr⟩ := last h2
    cases hr with
    | entity a b he =>
      rw [splitChar_two, splitChar_none a, splitChar_none b] at h3
      cases h3
      exact ⟨u, _, h1, ⟨_, h2, .entity a b he⟩, rfl⟩
    | field a b c he hv =>
      rw [splitChar_two, splitChar_none a, splitChar_two, splitChar_none b, splitChar_none c] at h3
      cases h3
      exact ⟨u, _, h1, ⟨_, h2, .field a b c he hv⟩, rfl⟩
  · rintro ⟨u, r, h1, ⟨s, h2, hr⟩, rfl⟩
    refine ⟨s, rest, ⟨u, h1, h2⟩, ?_⟩
    cases hr with
    | entity a b he => rw [splitChar_two, splitChar_none a, splitChar_none b]; rfl
    | field a b c he hv => rw [splitChar_two, splitChar_none a, splitChar_two, splitChar_none b, splitChar_none c]; rfl

theorem referencePrompt_none (T : CaseTable) (g : Graph) (sk : Bool) (as rest : List Answer) :
    referencePrompt T g sk as = some (none, rest) ↔
      sk = true ∧ ∃ used, as = used ++ rest ∧ Declined (SaysText (RefText T g)) used := by
  unfold referencePrompt
  simp only [andThen_none, ask_none (takesReference T g), declined_map (saysRef T g) (saysRef_total T g)]
  constructor
  · rintro (h | ⟨s, mid, -, h⟩)
    · exact h
    · split at h <;> cases h
  · exact .inl

theorem listPrompt_some (D : Dialogue) (sk : Bool) (as rest : List Answer) (v : FieldValue) :
    listPrompt D sk as = some (some v, rest) ↔
      ∃ u us t vs, as = u ++ us ++ rest ∧ Answered (Picks ItemTypes) u t ∧ ItemsEntered D t us vs ∧ v = .list vs := by
  unfold listPrompt
  simp only [andThen_some, askOption_some]
  constructor
  · rintro ⟨t, mid, ⟨u, h1, h2⟩, h3⟩
    obtain ⟨⟨vs, r⟩, h4, h5⟩ := Option.map_eq_some_iff.1 h3
    cases h5
    obtain ⟨us, h6, h7⟩ := (listLoop_iff D t _ mid r vs (Nat.le_refl _)).1 h4
    exact ⟨u, us, t, vs, by rw [List.append_assoc, h1, h6], h2, h7, rfl⟩
  · rintro ⟨u, us, t, vs, h1, h2, h3, rfl⟩
    refine ⟨t, us ++ rest, ⟨u, by rw [h1, List.append_assoc], h2⟩, ?_⟩
    rw [(listLoop_iff D t _ (us ++ rest) rest vs (Nat.le_refl _)).2 ⟨us, rfl, h3⟩]
    rfl

theorem listPrompt_none (D : Dialogue) (sk : Bool) (as rest : List Answer) :
    listPrompt D sk as = some (none, rest) ↔ sk = true ∧ ∃ used, as = used ++ rest ∧ Declined (Picks ItemTypes) used := by
  unfold listPrompt
  simp only [andThen_none, askOption_none sk (options := listItemTypes) (by decide)]
  constructor
  · rintro (h | ⟨t, mid, -, h⟩)
    · exact h
    · obtain ⟨p, -, hp⟩ := Option.map_eq_some_iff.1 h
      cases hp
  · exact .inl

theorem takesLine : Takes (takeText some) (SaysText fun s v : Str => v = s) :=
  takesText fun s v => by rw [Option.some.injEq]; exact eq_comm

/-! ## C100: the fields are those that the answers give -/

/-- C100: the value of a field is the one that the answers give. -/
theorem C100_value (D : Dialogue) (g : Graph) (target : List PathComp) (fs : FieldSchema) (as rest : List Answer) (v : FieldValue) :
    fieldPrompt D g target fs as = some (some v, rest) ↔ ∃ used, as = used ++ rest ∧ FieldEntered D g target fs used v := by
  obtain ⟨t, m, k, al⟩ := fs
  have item : ∀ (t : FieldType), t ≠ .reference → t ≠ .list → t ≠ .path → t ≠ .enum →
      (itemPrompt D (!FieldSchema.isRequired ⟨t, m, k, al⟩) t as = some (some v, rest) ↔
        ∃ used, as = used ++ rest ∧ FieldEntered D g target ⟨t, m, k, al⟩ used v) := by
    intro t h1 h2 h3 h4
    rw [itemPrompt_some]
    constructor
    · rintro ⟨u, h5, h6⟩; exact ⟨u, h5, .item h6⟩
    · rintro ⟨u, h5, h6⟩
      cases h6 with
      | item h => exact ⟨u, h5, h⟩
      | reference h => exact absurd h h1
      | list h => exact absurd h h2
      | path h => exact absurd h h3
      | enum h => exact absurd h h4
  cases t with
  | reference =>
    show referencePrompt _ _ _ _ = _ ↔ _
    rw [referencePrompt_some]
    constructor
    · rintro ⟨u, r, h1, h2, rfl⟩; exact ⟨u, h1, .reference rfl h2⟩
    · rintro ⟨u, h1, h2⟩
      cases h2 with
      | item h => cases h
      | reference h h' => exact ⟨u, _, h1, h', rfl⟩
      | list h => cases h
      | path h => cases h
      | enum h => cases h
  | list =>
    show listPrompt _ _ _ = _ ↔ _
    rw [listPrompt_some]
    constructor
    · rintro ⟨u, us, t, vs, h1, h2, h3, rfl⟩; exact ⟨u ++ us, h1, .list rfl h2 h3⟩
    · rintro ⟨u, h1, h2⟩
      cases h2 with
      | item h => cases h
      | reference h => cases h
      | list h h' h'' => exact ⟨_, _, _, _, h1, h', h'', rfl⟩
      | path h => cases h
      | enum h => cases h
  | path =>
    show pathPrompt _ _ _ _ = _ ↔ _
    simp only [pathPrompt, andThen_some, ask_some takesLine]
    constructor
    · rintro ⟨s, _, ⟨u, h1, h2⟩, h3⟩; cases h3; exact ⟨u, h1, .path rfl h2⟩
    · rintro ⟨u, h1, h2⟩
      cases h2 with
      | item h => cases h
      | reference h => cases h
      | list h => cases h
      | path h h' => exact ⟨_, rest, ⟨u, h1, h'⟩, rfl⟩
      | enum h => cases h
  | enum =>
    show enumPrompt al as = _ ↔ _
    constructor
    · intro h
      unfold enumPrompt at h
      split at h
      · simp only [andThen_some, askOption_some] at h
        obtain ⟨s, _, ⟨u, h1, h2⟩, h3⟩ := h
        cases h3
        exact ⟨u, h1, .enum rfl rfl h2⟩
      · cases h
    · rintro ⟨u, h1, h2⟩
      cases h2 with
      | item h => cases h
      | reference h => cases h
      | list h => cases h
      | path h => cases h
      | enum h h' h'' =>
        have h' : al = some _ := h'
        subst h'
        simp only [enumPrompt, andThen_some, askOption_some]
        exact ⟨_, rest, ⟨u, h1, h''⟩, rfl⟩
  | boolean => exact item .boolean (by decide) (by decide) (by decide) (by decide)
  | string => exact item .string (by decide) (by decide) (by decide) (by decide)
  | integer => exact item .integer (by decide) (by decide) (by decide) (by decide)
  | float => exact item .float (by decide) (by decide) (by decide) (by decide)
  | currency => exact item .currency (by decide) (by decide) (by decide) (by decide)
  | dateTime => exact item .dateTime (by decide) (by decide) (by decide) (by decide)

/-- C100: no field has a value exactly if it is optional and declined. -/
theorem C100_no_value (D : Dialogue) (g : Graph) (target : List PathComp) (fs : FieldSchema) (as rest : List Answer) :
    fieldPrompt D g target fs as = some (none, rest) ↔
      fs.fieldMode = .optional ∧ ∃ used, as = used ++ rest ∧ FieldDeclined D g fs used := by
  obtain ⟨t, m, k, al⟩ := fs
  have hsk : (!FieldSchema.isRequired ⟨t, m, k, al⟩) = true ↔ m = .optional := by
    cases m <;> simp [FieldSchema.isRequired]
  have item : t ≠ .reference → t ≠ .list → t ≠ .path → t ≠ .enum →
      (itemPrompt D (!FieldSchema.isRequired ⟨t, m, k, al⟩) t as = some (none, rest) ↔
        m = .optional ∧ ∃ used, as = used ++ rest ∧ FieldDeclined D g ⟨t, m, k, al⟩ used) := by
    intro h1 h2 h3 h4
    rw [itemPrompt_none, hsk]
    refine and_congr Iff.rfl ?_
    constructor
    · rintro ⟨u, h5, h6⟩; exact ⟨u, h5, .item h6⟩
    · rintro ⟨u, h5, h6⟩
      cases h6 with
      | item h => exact ⟨u, h5, h⟩
      | reference h => exact absurd h h1
      | list h => exact absurd h h2
      | path h => exact absurd h h3
  cases t with
  | reference =>
    show referencePrompt _ _ _ _ = _ ↔ _
    rw [referencePrompt_none, hsk]
    refine and_congr Iff.rfl ?_
    constructor
    · rintro ⟨u, h1, h2⟩; exact ⟨u, h1, .reference rfl h2⟩
    · rintro ⟨u, h1, h2⟩
      cases h2 with
      | item h => cases h
      | reference h h' => exact ⟨u, h1, h'⟩
      | list h => cases h
      | path h => cases h
  | list =>
    show listPrompt _ _ _ = _ ↔ _
    rw [listPrompt_none, hsk]
    refine and_congr Iff.rfl ?_
    constructor
    · rintro ⟨u, h1, h2⟩; exact ⟨u, h1, .list rfl h2⟩
    · rintro ⟨u, h1, h2⟩
      cases h2 with
      | item h => cases h
      | reference h => cases h
      | list h h' => exact ⟨u, h1, h'⟩
      | path h => cases h
  | path =>
    show pathPrompt _ _ _ _ = _ ↔ _
    simp only [pathPrompt, andThen_none, ask_none takesLine, hsk, Option.some.injEq, Prod.mk.injEq, reduceCtorEq,
      false_and, and_false, exists_false, or_false]
    refine and_congr Iff.rfl ?_
    constructor
    · rintro ⟨u, h1, h2⟩; exact ⟨u, h1, .path rfl h2⟩
    · rintro ⟨u, h1, h2⟩
      cases h2 with
      | item h => cases h
      | reference h => cases h
      | list h => cases h
      | path h h' => exact ⟨u, h1, h'⟩
  | enum =>
    show enumPrompt al as = _ ↔ _
    constructor
    · intro h
      unfold enumPrompt at h
      split at h
      · rw [andThen_none] at h
        rcases h with h | ⟨_, _, _, h⟩
        · obtain ⟨v, hv⟩ := askOption_required h
          cases hv
        · cases h
      · cases h
    · rintro ⟨-, u, -, h2⟩
      cases h2 with
      | item h => cases h
      | reference h => cases h
      | list h => cases h
      | path h => cases h
  | boolean => exact item (by decide) (by decide) (by decide) (by decide)
  | string => exact item (by decide) (by decide) (by decide) (by decide)
  | integer => exact item (by decide) (by decide) (by decide) (by decide)
  | float => exact item (by decide) (by decide) (by decide) (by decide)
  | currency => exact item (by decide) (by decide) (by decide) (by decide)
  | dateTime => exact item (by decide) (by decide) (by decide) (by decide)

/-- Fields are asked for in order; those that are entered get a value. -/
inductive Spec.Filled (D : Dialogue) (g : Graph) (target : List PathComp) :
    List (FieldId × FieldSchema) → List Answer → List (FieldId × FieldValue) → Prop
  | nil : Filled D g target [] [] []
  | entered {f : FieldId} {fs : FieldSchema} {more : List (FieldId × FieldSchema)} {u us : List Answer} {v : FieldValue}
      {vs : List (FieldId × FieldValue)} : FieldEntered D g target fs u v → Filled D g target more us vs →
      Filled D g target ((f, fs) :: more) (u ++ us) ((f, v) :: vs)
  | declined {f : FieldId} {fs : FieldSchema} {more : List (FieldId × FieldSchema)} {u us : List Answer}
      {vs : List (FieldId × FieldValue)} : fs.fieldMode = .optional → FieldDeclined D g fs u → Filled D g target more us vs →
      Filled D g target ((f, fs) :: more) (u ++ us) vs

theorem promptFields_iff (D : Dialogue) (g : Graph) (target : List PathComp) (fields : List (FieldId × FieldSchema)) :
    ∀ (e e' : Entity) (as rest : List Answer), promptFields D g target fields e as = some (e', rest) ↔
      ∃ used vs, as = used ++ rest ∧ Filled D g target fields used vs ∧ e' = ⟨e.id, e.entityType, e.fields ++ vs⟩ := by
  induction fields with
  | nil =>
    intro e e' as rest
    simp only [promptFields, Option.some.injEq, Prod.mk.injEq]
    constructor
    · rintro ⟨rfl, rfl⟩; exact ⟨[], [], rfl, .nil, by simp⟩
    · rintro ⟨used, vs, h1, h2, rfl⟩
      cases h2
      exact ⟨by simp, by simpa using h1⟩
  | cons p more ih =>
    obtain ⟨f, fs⟩ := p
    intro e e' as rest
    rw [promptFields]
    constructor
    · intro h
      split at h
      · cases h
      · next mid hf =>
        obtain ⟨hm, u, h1, h2⟩ := (C100_no_value D g target fs as mid).1 hf
        obtain ⟨us, vs, h3, h4, rfl⟩ := (ih _ _ _ _).1 h
        exact ⟨u ++ us, vs, by rw [h1, h3, List.append_assoc], .declined hm h2 h4, rfl⟩
      · next v mid hf =>
        obtain ⟨u, h1, h2⟩ := (C100_value D g target fs as mid v).1 hf
        obtain ⟨us, vs, h3, h4, rfl⟩ := (ih _ _ _ _).1 h
        exact ⟨u ++ us, (f, v) :: vs, by rw [h1, h3, List.append_assoc], .entered h2 h4, by simp [Entity.withField]⟩
    · rintro ⟨used, vs, h1, h2, rfl⟩
      cases h2 with
      | @entered _ _ _ u us v vs h2 h3 =>
        rw [(C100_value D g target fs as (us ++ rest) v).2 ⟨u, by rw [h1, List.append_assoc], h2⟩]
        exact (ih _ _ _ _).2 ⟨us, vs, rfl, h3, by simp [Entity.withField]⟩
      | @declined _ _ _ u us vs hm h2 h3 =>
        rw [(C100_no_value D g target fs as (us ++ rest)).2 ⟨hm, u, by rw [h1, List.append_assoc], h2⟩]
        exact (ih _ _ _ _).2 ⟨us, _, rfl, h3, rfl⟩

theorem byText {α : Type} (key : α → Str) : TotalPreorderOn (fun a b : α => (strCmp (key a) (key b)).isLE) fun _ => True where
  total a b _ _ := by
    have := strCmp_le_total (key a) (key b)
    simpa using this
  trans a b c _ _ _ h1 h2 := strCmp_isLE_trans h1 h2

/-- These are the fields of the schema with this mode, ordered by name. -/
structure Spec.FieldsInOrder (sc : EntitySchema) (m : FieldMode) (fields : List (FieldId × FieldSchema)) : Prop where
  perm : fields.Perm (sc.fields.filter fun p => p.2.fieldMode = m)
  order : fields.Pairwise fun a b => TextNotAfter a.1 b.1

theorem fieldsOfMode_order (sc : EntitySchema) (b : Bool) :
    FieldsInOrder sc (if b then .required else .optional) (fieldsOfMode sc b) := by
  constructor
  · refine (stableSort_perm _ _).trans ?_
    have : (fun p : FieldId × FieldSchema => p.2.isRequired == b) =
        fun p => decide (p.2.fieldMode = if b then FieldMode.required else .optional) := by
      funext p
      obtain ⟨_, _, m, _, _⟩ := p
      cases b <;> cases m <;> rfl
    rw [this]
  · have := stableSort_sorted (byText fun p : FieldId × FieldSchema => p.1)
      (l := sc.fields.filter fun p => p.2.isRequired == b) (fun _ _ => trivial)
    exact this.imp fun h => (strCmp_isLE _ _).1 h

/-- What the answers of a dialogue make: `sc` is picked from the schemas in the order of their types and `chosen` is
the text of the id; then come the required fields and, if wanted, the optional ones. -/
structure Spec.Entered (D : Dialogue) (g : Graph) (schemas : List EntitySchema) (target : List PathComp)
    (as : List Answer) (sc : EntitySchema) (chosen : Str) (e : Entity) (rest : List Answer) : Prop where
  parts : ∃ (types : List EntitySchema) (req opt : List (FieldId × FieldSchema)) (u₁ u₂ u₃ u₄ u₅ : List Answer) (b : Bool)
      (vs ws : List (FieldId × FieldValue)),
    as = u₁ ++ (u₂ ++ (u₃ ++ (u₄ ++ (u₅ ++ rest)))) ∧
    types.Perm schemas ∧ types.Pairwise (fun a b => TextNotAfter a.entityType b.entityType) ∧
    Answered (Picks types) u₁ sc ∧ Answered (SaysText fun s v => v = s) u₂ chosen ∧
    FieldsInOrder sc .required req ∧ FieldsInOrder sc .optional opt ∧
    Filled D g target req u₃ vs ∧ Answered SaysYes u₄ b ∧
    (b = true → Filled D g target opt u₅ ws) ∧ (b = false → u₅ = [] ∧ ws = []) ∧
    e.entityType = sc.entityType ∧ e.fields = vs ++ ws

/-- C100: the entity has the picked type, the required fields in the order of their names, then the optional fields that
were entered, each with the value that was entered. -/
theorem C100_entity (D : Dialogue) (g : Graph) (schemas : List EntitySchema) (toFile : Option Str) (as rest : List Answer)
    (e : Entity) (target : List PathComp) (h : D.entity g schemas toFile as = some (e, target, rest)) :
    ∃ sc chosen, Entered D g schemas target as sc chosen e rest ∧ target = D.shell.dslPath toFile sc.entityType ∧
      e.id = D.shell.uniqueEntityId g sc.entityType chosen := by
  unfold Dialogue.entity at h
  split at h
  · next sc as₁ hsc =>
    obtain ⟨u₁, h1, h2⟩ := (askOption_some _ _ _ _ _).1 hsc
    have hsort := stableSort_sorted (byText fun s : EntitySchema => s.entityType) (l := schemas) (fun _ _ => trivial)
    split at h
    · next chosen as₂ hch =>
      obtain ⟨u₂, h3, h4⟩ := (ask_some takesLine _ _ _ _).1 hch
      dsimp only at h
      split at h
      · cases h
      · next e₁ as₃ hreq =>
        obtain ⟨u₃, vs, h5, h6, rfl⟩ := (promptFields_iff _ _ _ _ _ _ _ _).1 hreq
        split at h
        · next as₄ hno =>
          obtain ⟨u₄, h7, h8⟩ := (ask_some takesYes _ _ _ _).1 hno
          cases h
          refine ⟨sc, chosen, ⟨_, _, fieldsOfMode sc false, u₁, u₂, u₃, u₄, [], false, vs, [], ?_, stableSort_perm _ _,
            hsort.imp fun h => (strCmp_isLE _ _).1 h, h2, h4, fieldsOfMode_order sc true, fieldsOfMode_order sc false, h6,
            h8, (by intro hb; cases hb), fun _ => ⟨rfl, rfl⟩, rfl, by simp [Entity.new]⟩, rfl, rfl⟩
          rw [h1, h3, h5, h7]
          rfl
        · next as₄ hyes =>
          obtain ⟨u₄, h7, h8⟩ := (ask_some takesYes _ _ _ _).1 hyes
          split at h
          · cases h
          · next e₂ as₅ hopt =>
            obtain ⟨u₅, ws, h9, h10, rfl⟩ := (promptFields_iff _ _ _ _ _ _ _ _).1 hopt
            cases h
            refine ⟨sc, chosen, ⟨_, _, fieldsOfMode sc false, u₁, u₂, u₃, u₄, u₅, true, vs, ws, ?_, stableSort_perm _ _,
              hsort.imp fun h => (strCmp_isLE _ _).1 h, h2, h4, fieldsOfMode_order sc true, fieldsOfMode_order sc false, h6,
              h8, (fun _ => h10), (by intro hb; cases hb), rfl, by simp [Entity.new]⟩, rfl, rfl⟩
            rw [h1, h3, h5, h7, h9]
        · cases h
    · cases h
  · cases h

theorem filled_from {D : Dialogue} {g : Graph} {target : List PathComp} {fields : List (FieldId × FieldSchema)}
    {u : List Answer} {vs : List (FieldId × FieldValue)} (h : Filled D g target fields u vs) :
    (vs.map (·.1)).Sublist (fields.map (·.1)) ∧
    (∀ p ∈ vs, ∃ fs us, (p.1, fs) ∈ fields ∧ FieldEntered D g target fs us p.2) ∧
    ((∀ p ∈ fields, p.2.fieldMode = .required) → vs.map (·.1) = fields.map (·.1)) := by
  induction h with
  | nil => exact ⟨.slnil, by simp, fun _ => rfl⟩
  | entered h1 _ ih =>
    obtain ⟨i1, i2, i3⟩ := ih
    refine ⟨i1.cons_cons _, ?_, fun hr => ?_⟩
    · intro p hp
      rcases List.mem_cons.1 hp with rfl | hp
      · exact ⟨_, _, List.mem_cons_self, h1⟩
      · obtain ⟨fs, us, h2, h3⟩ := i2 p hp
        exact ⟨fs, us, List.mem_cons_of_mem _ h2, h3⟩
    · rw [List.map_cons, List.map_cons, i3 fun p hp => hr p (List.mem_cons_of_mem _ hp)]
  | declined hm h1 _ ih =>
    obtain ⟨i1, i2, i3⟩ := ih
    refine ⟨i1.cons _, ?_, fun hr => ?_⟩
    · intro p hp
      obtain ⟨fs, us, h2, h3⟩ := i2 p hp
      exact ⟨fs, us, List.mem_cons_of_mem _ h2, h3⟩
    · have := hr _ List.mem_cons_self
      rw [hm] at this
      cases this

/-- C100: no field is there twice, every field is one of the schema and every required field is there. -/
theorem C100_fields (D : Dialogue) (g : Graph) (schemas : List EntitySchema) (target : List PathComp) (as rest : List Answer)
    (sc : EntitySchema) (chosen : Str) (e : Entity) (hk : sc.KeysUnique)
    (h : Entered D g schemas target as sc chosen e rest) :
    (e.fields.map (·.1)).Nodup ∧
    (∀ p ∈ e.fields, ∃ fs us, (p.1, fs) ∈ sc.fields ∧ FieldEntered D g target fs us p.2) ∧
    ∀ f fs, (f, fs) ∈ sc.fields → fs.fieldMode = .required → f ∈ e.fields.map (·.1) := by
  obtain ⟨_, req, opt, _, _, u₃, _, u₅, b, vs, ws, -, -, -, -, -, hreq, hopt, h1, -, h2, h2', -, hf⟩ := h.parts
  obtain ⟨a1, a2, a3⟩ := filled_from h1
  have hw : (ws.map (·.1)).Sublist (opt.map (·.1)) ∧
      ∀ p ∈ ws, ∃ fs us, (p.1, fs) ∈ opt ∧ FieldEntered D g target fs us p.2 := by
    cases b with
    | false => obtain ⟨-, rfl⟩ := h2' rfl; simp
    | true =>
      obtain ⟨b1, b2, -⟩ := filled_from (h2 rfl)
      exact ⟨b1, b2⟩
  have hreqmem : ∀ p, p ∈ req ↔ p ∈ sc.fields ∧ p.2.fieldMode = .required := fun p => by
    rw [hreq.perm.mem_iff]; simp
  have hoptmem : ∀ p, p ∈ opt ↔ p ∈ sc.fields ∧ p.2.fieldMode = .optional := fun p => by
    rw [hopt.perm.mem_iff]; simp
  have uniq : ∀ {f : FieldId} {x y : FieldSchema}, (f, x) ∈ sc.fields → (f, y) ∈ sc.fields → x = y := by
    intro f x y hx hy
    have := List.inj_on_of_nodup_map hk hx hy rfl
    exact (Prod.mk.inj this).2
  have nodup_of : ∀ {l : List (FieldId × FieldSchema)} {m : FieldMode}, FieldsInOrder sc m l → (l.map (·.1)).Nodup := by
    intro l m hl
    rw [(hl.perm.map _).nodup_iff]
    exact hk.sublist (List.filter_sublist.map _)
  refine ⟨?_, ?_, ?_⟩
  · rw [hf, List.map_append, List.nodup_append]
    refine ⟨(nodup_of hreq).sublist a1, (nodup_of hopt).sublist hw.1, ?_⟩
    rintro a ha b hb rfl
    obtain ⟨p, hp, rfl⟩ := List.mem_map.1 ha
    obtain ⟨q, hq, hqp⟩ := List.mem_map.1 hb
    obtain ⟨fs, -, c1, -⟩ := a2 p hp
    obtain ⟨fs', -, c2, -⟩ := hw.2 q hq
    obtain ⟨d1, d2⟩ := (hreqmem _).1 c1
    obtain ⟨d3, d4⟩ := (hoptmem _).1 c2
    rw [hqp] at d3
    have := uniq d1 d3
    subst this
    simp only at d2 d4
    rw [d2] at d4
    cases d4
  · intro p hp
    rw [hf] at hp
    rcases List.mem_append.1 hp with hp | hp
    · obtain ⟨fs, us, c1, c2⟩ := a2 p hp
      exact ⟨fs, us, ((hreqmem _).1 c1).1, c2⟩
    · obtain ⟨fs, us, c1, c2⟩ := hw.2 p hp
      exact ⟨fs, us, ((hoptmem _).1 c1).1, c2⟩
  · intro f fs hm hr
    rw [hf, List.map_append, a3 fun p hp => ((hreqmem p).1 hp).2]
    exact List.mem_append_left _ (List.mem_map.2 ⟨(f, fs), (hreqmem _).2 ⟨hm, hr⟩, rfl⟩)

/-! ## C99: the entity satisfies its schema -/

theorem itemEntered_type {D : Dialogue} {t : FieldType} {u : List Answer} {v : FieldValue} (h : ItemEntered D t u v) :
    v.getType = t ∧ ∀ x, v ≠ .enum x := by
  cases h <;> exact ⟨rfl, fun x h => by cases h⟩

theorem picks_mem {α : Type} {options : List α} {u : List Answer} {v : α} (h : Answered (Picks options) u v) : v ∈ options := by
  induction h with
  | now h => obtain ⟨b, a, rfl, -⟩ := h; simp
  | again _ _ _ _ ih => exact ih

theorem entered_ok {D : Dialogue} {g : Graph} {target : List PathComp} {fs : FieldSchema} {u : List Answer} {v : FieldValue}
    (env : Env) (hn : ∀ allowed, fs.allowedValues = some allowed → ∀ x ∈ allowed, env.lower (trim x) ∈ allowed)
    (h : FieldEntered D g target fs u v) : ValueOk env fs v := by
  cases h with
  | item h =>
    obtain ⟨h1, h2⟩ := itemEntered_type h
    exact ⟨h1, fun x hx => absurd hx (h2 x)⟩
  | reference h => exact ⟨h.symm, fun x hx => by cases hx⟩
  | list h => exact ⟨h.symm, fun x hx => by cases hx⟩
  | path h => exact ⟨h.symm, fun x hx => by cases hx⟩
  | enum h h' h'' =>
    refine ⟨h.symm, fun x hx => ?_⟩
    cases hx
    exact ⟨_, h', hn _ h' _ (picks_mem h'')⟩

/-- C99: whatever is answered, an entity that a dialogue makes satisfies the schema that was picked. The allowed values of
an enum contain their own normal forms. -/
theorem C99_conforms (D : Dialogue) (g : Graph) (schemas : List EntitySchema) (toFile : Option Str) (as rest : List Answer)
    (e : Entity) (target : List PathComp) (hk : ∀ sc ∈ schemas, sc.KeysUnique)
    (hn : ∀ sc ∈ schemas, ∀ p ∈ sc.fields, ∀ allowed, p.2.allowedValues = some allowed →
      ∀ x ∈ allowed, D.shell.lang.env.lower (trim x) ∈ allowed)
    (h : D.entity g schemas toFile as = some (e, target, rest)) :
    ∃ sc ∈ schemas, Conforms D.shell.lang.env sc e := by
  obtain ⟨sc, chosen, h1, -, -⟩ := C100_entity D g schemas toFile as rest e target h
  have hsc : sc ∈ schemas := by
    obtain ⟨types, _, _, _, _, _, _, _, _, _, _, -, hp, -, hpick, -⟩ := h1.parts
    exact hp.mem_iff.1 (picks_mem hpick)
  have hty : e.entityType = sc.entityType := by
    obtain ⟨_, _, _, _, _, _, _, _, _, _, _, -, -, -, -, -, -, -, -, -, -, -, ht, -⟩ := h1.parts
    exact ht
  obtain ⟨c1, c2, c3⟩ := C100_fields D g schemas target as rest sc chosen e (hk sc hsc) h1
  refine ⟨sc, hsc, hty, fun f fs hf => ⟨fun v hv => ?_, fun hr => ?_⟩⟩
  · have hmem : (f, v) ∈ e.fields := by
      clear c1 c2 c3 hf
      generalize e.fields = l at hv
      induction hv with
      | here => simp
      | there _ _ _ _ _ _ _ ih => exact List.mem_cons_of_mem _ ih
    obtain ⟨fs', us, d1, d2⟩ := c2 _ hmem
    have hfs : fs' = fs := (Prod.mk.inj (List.inj_on_of_nodup_map (hk sc hsc) d1 hf rfl)).2
    subst hfs
    exact entered_ok _ (fun al ha => hn sc hsc _ hf al ha) d2
  · have := c3 f fs hf hr
    cases hg : e.getField f with
    | some v => exact ⟨v, getField_iff.1 hg⟩
    | none =>
      obtain ⟨p, hp, rfl⟩ := List.mem_map.1 this
      unfold Entity.getField at hg
      have := List.find?_eq_none.1 (Option.map_eq_none_iff.1 hg) p hp
      simp at this

end Firm
