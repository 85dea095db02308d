import Verif.Props.Printed
import Verif.Props.Names

/-! # What shown texts tell (C119, C120) -/

namespace Firm

open Spec

/-! ## Values -/

/-- No leap second, and less than a day from UTC. -/
def Spec.Dated (d : DateTime) : Prop := d.nanos < 10 ^ 9 ∧ -86400 < d.offset ∧ d.offset < 86400

/-- The libraries show different floats, dates and currencies differently. -/
structure Spec.Faithful (S : Screen) : Prop where
  floats : ∀ f g, S.showF64 f = S.showF64 g → f = g
  dates : ∀ d e, Dated d → Dated e → S.showDate d = S.showDate e → d = e
  currencies : ∀ c c', S.currencyName c = S.currencyName c' → c = c'

/-- An id or name without a dot in it, or with exactly one. -/
def Spec.OneDot (id : Str) : Prop := ∃ a b, id = a ++ '.' :: b ∧ '.' ∉ a ∧ '.' ∉ b

/-- A value as files have it, other than a list: amounts in the range of decimals, dates without leap seconds, and
references made of an id with one dot and of a name without. -/
def Spec.Single : FieldValue → Prop
  | .currency d _ => d.fits = true
  | .dateTime d => Dated d
  | .reference (.entity id) => OneDot id
  | .reference (.field id f) => OneDot id ∧ '.' ∉ f
  | .list _ => False
  | _ => True

theorem blank_not_in_show (d : Decimal) : ' ' ∉ d.show := by
  obtain ⟨a, b, h, hd, _⟩ := d.show_shape
  rw [h]
  have hdig : ∀ {c : Char}, isDigit c = true → c ≠ ' ' := by rintro c hc rfl; exact absurd hc (by decide)
  intro hm
  rcases List.mem_append.1 hm with hm | hm
  · rcases List.mem_append.1 hm with hm | hm
    · split at hm
      · exact absurd (List.mem_singleton.1 hm) (by decide)
      · cases hm
    · exact hdig (hd _ (List.mem_append_left _ hm)) rfl
  · split at hm
    · cases hm
    · rcases List.mem_cons.1 hm with hm | hm
      · exact absurd hm (by decide)
      · exact hdig (hd _ (List.mem_append_right _ hm)) rfl

theorem showInt_inj {n m : Int} (h : showInt n = showInt m) : n = m := by
  have a := parseSigned_showInt n
  rw [h, parseSigned_showInt] at a
  exact (Option.some.inj a).symm

theorem showNat_inj {n m : Nat} (h : showNat n = showNat m) : n = m := by
  have a := digitsVal_showNat n
  rw [h, digitsVal_showNat] at a
  exact a.symm

theorem amount_inj {d d' : Decimal} {c c' : Str} (h : d.fits = true) (h' : d'.fits = true)
    (he : d.show ++ ' ' :: c = d'.show ++ ' ' :: c') : d = d' ∧ c = c' := by
  obtain ⟨h1, h2⟩ := upto_inj (blank_not_in_show d) (blank_not_in_show d') he
  exact ⟨show_inj h h' h1, h2⟩

theorem showReference_inj {r r' : ReferenceValue} (h : Single (.reference r)) (h' : Single (.reference r'))
    (he : showReference r = showReference r') : r = r' := by
  cases r with
  | entity id =>
    obtain ⟨a, b, rfl, ha, hb⟩ := h
    cases r' with
    | entity id' => rw [showReference, showReference] at he; rw [he]
    | field id' f =>
      obtain ⟨⟨a', b', rfl, ha', hb'⟩, hf⟩ := h'
      rw [showReference, showReference, List.append_assoc, List.cons_append] at he
      obtain ⟨_, h2⟩ := upto_inj ha ha' he
      exact absurd (by rw [h2]; simp) hb
  | field id f =>
    obtain ⟨⟨a, b, rfl, ha, hb⟩, hf⟩ := h
    cases r' with
    | entity id' =>
      obtain ⟨a', b', rfl, ha', hb'⟩ := h'
      rw [showReference, showReference, List.append_assoc, List.cons_append] at he
      obtain ⟨_, h2⟩ := upto_inj ha ha' he
      exact absurd (by rw [← h2]; simp) hb'
    | field id' f' =>
      obtain ⟨⟨a', b', rfl, ha', hb'⟩, hf'⟩ := h'
      rw [showReference, showReference, List.append_assoc, List.append_assoc, List.cons_append, List.cons_append] at he
      obtain ⟨h1, h2⟩ := upto_inj ha ha' he
      obtain ⟨h3, h4⟩ := upto_inj hb hb' h2
      rw [h1, h3, h4]

/-- C119 for values other than lists. -/
theorem C119_single (S : Screen) (hS : Faithful S) (v w : FieldValue) (hv : Single v) (hw : Single w)
    (ht : v.getType = w.getType) (he : showValue S v = showValue S w) : v = w := by
  cases v with
  | boolean b =>
    cases w with
    | boolean b' =>
      rw [showValue, showValue] at he
      cases b <;> cases b' <;> first | rfl | exact absurd he (by decide)
    | _ => cases ht
  | string s =>
    cases w with
    | string s' => rw [showValue, showValue] at he; rw [he]
    | _ => cases ht
  | integer n =>
    cases w with
    | integer m => rw [showValue, showValue] at he; rw [showInt_inj he]
    | _ => cases ht
  | float f =>
    cases w with
    | float g => rw [showValue, showValue] at he; rw [hS.floats f g he]
    | _ => cases ht
  | currency d c =>
    cases w with
    | currency d' c' =>
      rw [showValue, showValue] at he
      obtain ⟨h1, h2⟩ := amount_inj hv hw he
      rw [h1, hS.currencies _ _ h2]
    | _ => cases ht
  | reference r =>
    cases w with
    | reference r' => rw [showValue, showValue] at he; rw [showReference_inj hv hw he]
    | _ => cases ht
  | list vs => cases hv
  | dateTime d =>
    cases w with
    | dateTime e => rw [showValue, showValue] at he; rw [hS.dates d e hv hw he]
    | _ => cases ht
  | path p =>
    cases w with
    | path p' => rw [showValue, showValue] at he; rw [he]
    | _ => cases ht
  | enum s =>
    cases w with
    | enum s' => rw [showValue, showValue] at he; rw [he]
    | _ => cases ht

/-- Items of a list that can be told apart: of one type, and each shown as a text that is not empty and has no comma. -/
def Spec.PlainItems (S : Screen) (t : FieldType) (vs : List FieldValue) : Prop :=
  ∀ v ∈ vs, Single v ∧ v.getType = t ∧ showValue S v ≠ [] ∧ ',' ∉ showValue S v

theorem showValues_map (S : Screen) : ∀ vs, showValues S vs = vs.map (showValue S)
  | [] => by rw [showValues]; rfl
  | v :: vs => by rw [showValues, showValues_map S vs]; rfl

/-- C119 for lists with items of one type. Missing for the full claim: items that contain commas or are shown as
nothing (see `C119_commas` and `C119_empty`), lists of lists. -/
theorem C119_lists_partial (S : Screen) (hS : Faithful S) (t : FieldType) (vs ws : List FieldValue)
    (hv : PlainItems S t vs) (hw : PlainItems S t ws) (he : showValue S (.list vs) = showValue S (.list ws)) :
    vs = ws := by
  rw [showValue, showValue, List.cons.injEq] at he
  have he := List.append_cancel_right he.2
  rw [showValues_map, showValues_map] at he
  have hnil : ∀ {xs : List FieldValue}, PlainItems S t xs → joinWith [','] (xs.map (showValue S)) = [] → xs = [] := by
    intro xs hx h
    match xs, hx, h with
    | [], _, _ => rfl
    | [x], hx, h => exact absurd h (hx x (by simp)).2.2.1
    | x :: y :: xs, hx, h =>
      have h : showValue S x ++ [','] ++ joinWith [','] ((y :: xs).map (showValue S)) = [] := h
      simp at h
  by_cases h1 : vs = []
  · subst h1
    exact (hnil hw he.symm).symm
  by_cases h2 : ws = []
  · subst h2
    exact absurd (hnil hv he) h1
  have hmap := joinWith_inj (by simpa using h1) (by simpa using h2)
    (fun x hx => by obtain ⟨v, hm, rfl⟩ := List.mem_map.1 hx; exact (hv v hm).2.2.2)
    (fun x hx => by obtain ⟨v, hm, rfl⟩ := List.mem_map.1 hx; exact (hw v hm).2.2.2) he
  exact map_inj_on (fun a ha b hb h => C119_single S hS a b (hv a ha).1 (hw b hb).1
    ((hv a ha).2.1.trans (hw b hb).2.1.symm) h) hmap

/-- C119 fails for lists of texts with commas. -/
theorem C119_commas (S : Screen) : showValue S (.list [.string "a,b".toList]) =
    showValue S (.list [.string "a".toList, .string "b".toList]) := by
  simp only [showValue, showValues]; decide

/-- C119 fails for the list of one empty text, which is shown like the list without items. -/
theorem C119_empty (S : Screen) : showValue S (.list [.string []]) = showValue S (.list []) := by
  simp only [showValue, showValues]; decide

/-! ## Names of fields -/

/-- The capital letter of a character has the same lower-case form, and is not a blank, a colon or nothing. True of
the ASCII characters; among the others, of all but a few such as `ß` and the `i` without a dot. -/
structure Spec.Capital (S : Screen) (c : Char) : Prop where
  lower : S.cases.lower (S.upperChar c) = S.cases.lowerChar c
  nonempty : S.upperChar c ≠ []
  blank : ' ' ∈ S.upperChar c → c = ' '
  colon : ':' ∈ S.upperChar c → c = ':'

theorem words_ok {t : CaseTable} {s w : Str} (h : w ∈ t.words s) : w ≠ [] ∧ ∀ c ∈ w, c ∈ s ∧ isDelim c = false := by
  have hv := List.mem_filter.1 h
  exact ⟨by rintro rfl; simp at hv, (allWords_ok (t := t) s w hv.1).1⟩

theorem lower_lower {t : CaseTable} (ht : RegularCase t) (w : Str) : t.lower (t.lower w) = t.lower w :=
  lower_fixed ht fun _ hc => (mem_lower ht hc).1

theorem lower_capital {S : Screen} (ht : RegularCase S.cases) {w : Str} (hc : ∀ c ∈ w, Capital S c) :
    S.cases.lower (S.capital w) = S.cases.lower w := by
  cases w with
  | nil => rfl
  | cons c w => rw [Screen.capital, lower_append, (hc c (by simp)).lower, lower_lower ht, lower_cons]

theorem not_mem_lower {t : CaseTable} (ht : RegularCase t) {x : Char} (hx : isDelim x = true) {w : Str} (h : x ∉ w) :
    x ∉ t.lower w := by
  intro hm
  rcases (mem_lower ht hm).2 with h2 | ⟨d, _, hd, hc⟩
  · exact h h2
  · have := (ht.lowered d hd x hc).2.2.1
    rw [hx] at this
    cases this

/-- C119 for the names of fields: normalised names that are shown alike are equal. Missing for the full claim: names with
letters that share their capital with another letter (see `C119_capitals`). -/
theorem C119_names_partial (S : Screen) (ht : RegularCase S.cases) (s s' : Str) (h : IsSnake S.cases s)
    (h' : IsSnake S.cases s') (hc : ∀ c ∈ s, Capital S c) (hc' : ∀ c ∈ s', Capital S c)
    (he : S.sentence s = S.sentence s') : s = s' := by
  have hs := snake_fixed ht h
  have hs' := snake_fixed ht h'
  have blank : ∀ {s w : Str}, w ∈ S.cases.words s → ' ' ∉ w := by
    intro s w hw hm
    exact absurd ((words_ok hw).2 _ hm).2 (by decide)
  have cap_ne : ∀ {s w : Str}, (∀ c ∈ s, Capital S c) → w ∈ S.cases.words s → S.capital w ≠ [] := by
    intro s w hc hw
    cases w with
    | nil => exact absurd rfl (words_ok hw).1
    | cons c w => rw [Screen.capital]; intro h; exact (hc c ((words_ok hw).2 c (by simp)).1).nonempty (List.append_eq_nil_iff.1 h).1
  have cap_blank : ∀ {s w : Str}, (∀ c ∈ s, Capital S c) → w ∈ S.cases.words s → ' ' ∉ S.capital w := by
    intro s w hc hw
    cases w with
    | nil => intro h; cases h
    | cons c w =>
      rw [Screen.capital]
      intro h
      rcases List.mem_append.1 h with h | h
      · have := (hc c ((words_ok hw).2 c (by simp)).1).blank h
        subst this
        exact blank hw (by simp)
      · exact not_mem_lower ht (by decide) (fun hm => blank hw (List.mem_cons_of_mem _ hm)) h
  have join_ne : ∀ {x : Str} {xs : List Str}, x ≠ [] → joinWith [' '] (x :: xs) ≠ [] := by
    intro x xs hx h
    cases xs with
    | nil => exact hx h
    | cons y ys =>
      have h : x ++ [' '] ++ joinWith [' '] (y :: ys) = [] := h
      simp at h
  unfold CaseTable.snake at hs hs'
  unfold Screen.sentence at he
  cases hw : S.cases.words s with
  | nil =>
    cases hw' : S.cases.words s' with
    | nil => rw [hw] at hs; rw [hw'] at hs'; exact hs.symm.trans hs'
    | cons w' ws' =>
      rw [hw, hw'] at he
      exact absurd he.symm (join_ne (cap_ne hc' (by rw [hw']; simp)))
  | cons w ws =>
    cases hw' : S.cases.words s' with
    | nil =>
      rw [hw, hw'] at he
      exact absurd he (join_ne (cap_ne hc (by rw [hw]; simp)))
    | cons w' ws' =>
      rw [hw, hw'] at he
      dsimp only at he
      have plain : ∀ {s w : Str} {ws : List Str}, (∀ c ∈ s, Capital S c) → S.cases.words s = w :: ws →
          ∀ x ∈ S.capital w :: ws.map S.cases.lower, ' ' ∉ x := by
        intro s w ws hc hw x hx
        rcases List.mem_cons.1 hx with rfl | hx
        · exact cap_blank hc (by rw [hw]; simp)
        · obtain ⟨v, hv, rfl⟩ := List.mem_map.1 hx
          exact not_mem_lower ht (by decide) (blank (s := s) (by rw [hw]; simp [hv]))
      have := joinWith_inj (by simp) (by simp) (plain hc hw) (plain hc' hw') he
      rw [List.cons.injEq] at this
      have hl : S.cases.lower w = S.cases.lower w' := by
        rw [← lower_capital ht fun c hm => hc c ((words_ok (t := S.cases) (s := s) (w := w) (by rw [hw]; simp)).2 c hm).1,
          this.1, lower_capital ht fun c hm => hc' c ((words_ok (t := S.cases) (s := s') (w := w') (by rw [hw']; simp)).2 c hm).1]
      rw [← hs, ← hs', hw, hw', List.map_cons, List.map_cons, hl, this.2]

/-- A screen on which, as in Unicode, the `i` without a dot has the capital of `i`. -/
def Spec.exDotless : Screen := { exScreen with upperChar := fun c => if c = 'ı' then ['I'] else [c.toUpper] }

/-- C119 fails for such names: two normalised names are shown alike. -/
theorem C119_capitals : IsSnake exDotless.cases "ırmak".toList ∧ IsSnake exDotless.cases "irmak".toList ∧
    "ırmak".toList ≠ "irmak".toList ∧ exDotless.sentence "ırmak".toList = exDotless.sentence "irmak".toList :=
  ⟨(C47_unchanged asciiTable_regular _).1 (by decide +kernel), (C47_unchanged asciiTable_regular _).1 (by decide +kernel),
    by decide, by decide +kernel⟩

/-! ## Entities -/

theorem colon_not_in_sentence {S : Screen} {s : Str} (hc : ∀ c ∈ s, Capital S c)
    (hlow : ∀ c, ':' ∈ S.cases.lowerChar c → c = ':') (h : ':' ∉ s) : ':' ∉ S.sentence s := by
  have low : ∀ {w : Str}, ':' ∉ w → ':' ∉ S.cases.lower w := by
    intro w hw hm
    obtain ⟨c, hcw, hm⟩ := List.mem_flatMap.1 hm
    rw [hlow c hm] at hcw
    exact hw hcw
  have word : ∀ {w : Str}, w ∈ S.cases.words s → ':' ∉ w := fun hw hm => h ((words_ok hw).2 _ hm).1
  have cap : ∀ {w : Str}, w ∈ S.cases.words s → ':' ∉ S.capital w := by
    intro w hm
    have hw := word hm
    have hc : ∀ c ∈ w, Capital S c := fun c h => hc c ((words_ok hm).2 c h).1
    cases w with
    | nil => intro h; cases h
    | cons c w =>
      rw [Screen.capital]
      intro h
      rcases List.mem_append.1 h with h | h
      · rw [(hc c (by simp)).colon h] at hw; exact hw (by simp)
      · exact low (fun hm => hw (List.mem_cons_of_mem _ hm)) h
  unfold Screen.sentence
  cases hw : S.cases.words s with
  | nil => intro h; cases h
  | cons w ws =>
    refine joinWith_plain (by decide) fun x hx => ?_
    rcases List.mem_cons.1 hx with rfl | hx
    · exact cap (by rw [hw]; simp)
    · obtain ⟨v, hv, rfl⟩ := List.mem_map.1 hx
      exact low (word (by rw [hw]; simp [hv]))

/-- A value that can be told: a single one, or a list of items of one type that can be told apart. `t` is the type of
the items. -/
def Spec.LegibleValue (S : Screen) (t : FieldType) : FieldValue → Prop
  | .list vs => PlainItems S t vs
  | v => Single v

/-- What is known of the fields beforehand: of each field of each entity the type, and for lists the type of the items. -/
structure Spec.LegibleEntity (S : Screen) (type item : EntityId → FieldId → FieldType) (e : Entity) : Prop where
  lines : OneLiners S e
  names : ∀ p ∈ e.fields, IsSnake S.cases p.1 ∧ ':' ∉ p.1 ∧ ∀ c ∈ p.1, Capital S c
  types : ∀ p ∈ e.fields, p.2.getType = type e.id p.1
  values : ∀ p ∈ e.fields, LegibleValue S (item e.id p.1) p.2

theorem legible_inj {S : Screen} (hS : Faithful S) {t : FieldType} {v w : FieldValue} (hv : LegibleValue S t v)
    (hw : LegibleValue S t w) (ht : v.getType = w.getType) (he : showValue S v = showValue S w) : v = w := by
  cases v with
  | list vs =>
    cases w with
    | list ws => rw [C119_lists_partial S hS t vs ws hv hw he]
    | _ => cases ht
  | _ =>
    cases w with
    | list ws => cases ht
    | _ => exact C119_single S hS _ _ hv hw ht he

/-- C119 for whole replies: when the types of the fields are known, the reply of the tool tells the ids, the fields and
their values. Missing for the full claim: as in C110 and for lists. -/
theorem C119_reply_partial (S : Screen) (hS : Faithful S) (ht : RegularCase S.cases)
    (hlow : ∀ c, ':' ∈ S.cases.lowerChar c → c = ':') (type item : EntityId → FieldId → FieldType)
    (es es' : List Entity) (h : ∀ e ∈ es, LegibleEntity S type item e) (h' : ∀ e ∈ es', LegibleEntity S type item e)
    (he : queryReply S (.entities es) = queryReply S (.entities es')) :
    es.map (fun e => (e.id, e.fields)) = es'.map (fun e => (e.id, e.fields)) := by
  have hseen := C110_reply_partial S es es' (fun e hm => (h e hm).lines) (fun e hm => (h' e hm).lines) he
  have key : ∀ e ∈ es, ∀ e' ∈ es', seen S e = seen S e' → (e.id, e.fields) = (e'.id, e'.fields) := by
    intro e hm e' hm' hse
    rw [seen, seen, Prod.mk.injEq] at hse
    obtain ⟨hid, hf⟩ := hse
    rw [Prod.mk.injEq]
    refine ⟨hid, map_inj_on ?_ hf⟩
    intro p hp q hq hpq
    have hp1 := (h e hm).names p hp
    have hq1 := (h' e' hm').names q hq
    have hpq : S.sentence p.1 ++ ": ".toList ++ showValue S p.2 = S.sentence q.1 ++ ": ".toList ++ showValue S q.2 := hpq
    rw [List.append_assoc, List.append_assoc] at hpq
    obtain ⟨k1, k2⟩ := upto_inj (x := ' ' :: showValue S p.2) (y := ' ' :: showValue S q.2)
      (colon_not_in_sentence hp1.2.2 hlow hp1.2.1) (colon_not_in_sentence hq1.2.2 hlow hq1.2.1) hpq
    have hname := C119_names_partial S ht p.1 q.1 hp1.1 hq1.1 hp1.2.2 hq1.2.2 k1
    have hval : showValue S p.2 = showValue S q.2 := (List.cons.inj k2).2
    have hvp := (h e hm).values p hp
    have hvq := (h' e' hm').values q hq
    have htp := (h e hm).types p hp
    have htq := (h' e' hm').types q hq
    rw [← hid, ← hname] at hvq htq
    exact Prod.ext hname (legible_inj hS hvp hvq (htp.trans htq.symm) hval)
  have gen : ∀ {as bs : List Entity}, (∀ a ∈ as, ∀ b ∈ bs, seen S a = seen S b → (a.id, a.fields) = (b.id, b.fields)) →
      as.map (seen S) = bs.map (seen S) → as.map (fun e => (e.id, e.fields)) = bs.map (fun e => (e.id, e.fields)) := by
    intro as
    induction as with
    | nil => intro bs _ h; cases bs with | nil => rfl | cons b bs => cases h
    | cons a as ih =>
      intro bs hk h
      cases bs with
      | nil => cases h
      | cons b bs =>
        rw [List.map_cons, List.map_cons, List.cons.injEq] at h
        rw [List.map_cons, List.map_cons, hk a (by simp) b (by simp) h.1,
          ih (fun x hx y hy => hk x (by simp [hx]) y (by simp [hy])) h.2]
  exact gen key hseen

/-! ## Results of aggregations -/

/-- The aggregation that a result is of; a sum also has the kind of its value. -/
inductive Spec.ResultKind where
  | count
  | sumInteger
  | sumFloat
  | sumCurrency
  | average
  | median
  | select
  deriving DecidableEq

def Spec.resultKind : AggregationResult → ResultKind
  | .count _ => .count
  | .sum (.integer _) => .sumInteger
  | .sum (.float _) => .sumFloat
  | .sum (.currency _ _) => .sumCurrency
  | .average _ => .average
  | .median _ => .median
  | .select _ _ => .select

/-- C119 for the results of the aggregations with one value. -/
theorem C119_results (S : Screen) (hS : Faithful S) (r r' : AggregationResult) (hk : resultKind r = resultKind r')
    (hsel : resultKind r ≠ .select)
    (hf : ∀ d c, r = .sum (.currency d c) → d.fits = true) (hf' : ∀ d c, r' = .sum (.currency d c) → d.fits = true)
    (he : showResult S r = showResult S r') : r = r' := by
  cases r with
  | select cs rows => exact absurd rfl hsel
  | count n =>
    cases r' with
    | count m => rw [showResult, showResult] at he; rw [showNat_inj he]
    | sum v => cases v <;> cases hk
    | _ => cases hk
  | average f =>
    cases r' with
    | average g => rw [showResult, showResult] at he; rw [hS.floats _ _ he]
    | sum v => cases v <;> cases hk
    | _ => cases hk
  | median f =>
    cases r' with
    | median g => rw [showResult, showResult] at he; rw [hS.floats _ _ he]
    | sum v => cases v <;> cases hk
    | _ => cases hk
  | sum v =>
    cases r' with
    | sum w =>
      rw [showResult, showResult] at he
      cases v with
      | integer n =>
        cases w with
        | integer m => rw [showAggregate, showAggregate] at he; rw [showInt_inj he]
        | _ => cases hk
      | float f =>
        cases w with
        | float g => rw [showAggregate, showAggregate] at he; rw [hS.floats _ _ he]
        | _ => cases hk
      | currency d c =>
        cases w with
        | currency d' c' =>
          rw [showAggregate, showAggregate] at he
          obtain ⟨h1, h2⟩ := amount_inj (hf _ _ rfl) (hf' _ _ rfl) he
          rw [h1, h2]
        | _ => cases hk
    | _ => cases v <;> cases hk

/-- C119 for what `firm query` prints: also infinities and what is no number are told apart, unlike in JSON
(`C109_not_a_number`). -/
theorem C119_output (S : Screen) (hS : Faithful S) (r r' : AggregationResult) (hk : resultKind r = resultKind r')
    (hsel : resultKind r ≠ .select)
    (hf : ∀ d c, r = .sum (.currency d c) → d.fits = true) (hf' : ∀ d c, r' = .sum (.currency d c) → d.fits = true)
    (he : outputResult S (.aggregation r) .pretty = outputResult S (.aggregation r') .pretty) : r = r' :=
  C119_results S hS r r' hk hsel hf hf' (List.append_cancel_right he)

/-! ## C120: schemas -/

/-- What a schema says of a field: name, type, whether it is required, allowed values. -/
def Spec.demanded (p : FieldId × FieldSchema) : FieldId × FieldType × Bool × Option (List Str) :=
  (p.1, p.2.fieldType, p.2.isRequired, p.2.allowedValues)

/-- A field whose name and allowed values have no line breaks, and whose allowed values are not empty and have no commas. -/
def Spec.PlainField (p : FieldId × FieldSchema) : Prop :=
  '\n' ∉ p.1 ∧ ∀ vs, p.2.allowedValues = some vs → ∀ v ∈ vs, '\n' ∉ v ∧ ',' ∉ v ∧ v ≠ []

/-- The lines of a field. -/
def fieldLines (p : FieldId × FieldSchema) : List Str :=
  [] :: p.1 :: ("- Type: ".toList ++ showFieldType p.2.fieldType) :: ("- Required: ".toList ++ showBool p.2.isRequired) ::
    (match p.2.allowedValues with
    | some vs => ["- Allowed values: ".toList ++ joinWith ", ".toList vs]
    | none => [])

theorem showSchemaField_lines (p : FieldId × FieldSchema) : showSchemaField p = unlines (fieldLines p) := by
  unfold showSchemaField fieldLines unlines
  cases p.2.allowedValues with
  | none => simp
  | some vs => simp

theorem showSchema_lines (s : EntitySchema) :
    showSchema s = unlines (s.entityType :: s.orderedFields.flatMap fieldLines) := by
  have : ∀ ps : List (FieldId × FieldSchema), ps.flatMap showSchemaField = unlines (ps.flatMap fieldLines) := by
    intro ps
    induction ps with
    | nil => rfl
    | cons p ps ih => rw [List.flatMap_cons, List.flatMap_cons, unlines_append, ih, showSchemaField_lines]
  rw [showSchema, this]
  simp [unlines]

theorem joinComma_inj : ∀ {a b : List Str}, (∀ x ∈ a, ',' ∉ x ∧ x ≠ []) → (∀ x ∈ b, ',' ∉ x ∧ x ≠ []) →
    joinWith ", ".toList a = joinWith ", ".toList b → a = b
  | [], [], _, _, _ => rfl
  | [], [y], _, hb, h => absurd (show y = [] from h.symm) (hb y (by simp)).2
  | [], y :: z :: ys, _, hb, h => by
    have h : [] = y ++ ", ".toList ++ joinWith ", ".toList (z :: ys) := h
    simp at h
  | [x], [], ha, _, h => absurd (show x = [] from h) (ha x (by simp)).2
  | x :: z :: xs, [], ha, _, h => by
    have h : x ++ ", ".toList ++ joinWith ", ".toList (z :: xs) = [] := h
    simp at h
  | [x], [y], _, _, h => by
    have h : x = y := h
    rw [h]
  | [x], y :: z :: ys, ha, _, h => by
    have h : x = y ++ ", ".toList ++ joinWith ", ".toList (z :: ys) := h
    exact absurd (by rw [h]; simp) (ha x (by simp)).1
  | x :: z :: xs, [y], _, hb, h => by
    have h : x ++ ", ".toList ++ joinWith ", ".toList (z :: xs) = y := h
    exact absurd (by rw [← h]; simp) (hb y (by simp)).1
  | x :: z :: xs, y :: w :: ys, ha, hb, h => by
    have h : x ++ ", ".toList ++ joinWith ", ".toList (z :: xs) = y ++ ", ".toList ++ joinWith ", ".toList (w :: ys) := h
    rw [List.append_assoc, List.append_assoc] at h
    obtain ⟨h1, h2⟩ := upto_inj (x := ' ' :: joinWith ", ".toList (z :: xs)) (y := ' ' :: joinWith ", ".toList (w :: ys))
      (ha x (by simp)).1 (hb y (by simp)).1 h
    rw [h1, joinComma_inj (fun v hv => ha v (List.mem_cons_of_mem _ hv)) (fun v hv => hb v (List.mem_cons_of_mem _ hv))
      (List.cons.inj h2).2]

theorem joinComma_plain : ∀ {a : List Str}, (∀ x ∈ a, '\n' ∉ x) → '\n' ∉ joinWith ", ".toList a
  | [], _ => by simp [joinWith]
  | [x], h => h x (by simp)
  | x :: y :: xs, h => by
    show '\n' ∉ x ++ ", ".toList ++ joinWith ", ".toList (y :: xs)
    have ih := joinComma_plain (a := y :: xs) fun v hv => h v (List.mem_cons_of_mem _ hv)
    rw [List.mem_append, List.mem_append, not_or, not_or]
    exact ⟨⟨h x (by simp), by decide⟩, ih⟩

theorem fieldLines_plain {p : FieldId × FieldSchema} (h : PlainField p) : ∀ l ∈ fieldLines p, '\n' ∉ l := by
  intro l hl
  unfold fieldLines at hl
  rcases List.mem_cons.1 hl with rfl | hl
  · simp
  rcases List.mem_cons.1 hl with rfl | hl
  · exact h.1
  rcases List.mem_cons.1 hl with rfl | hl
  · cases p.2.fieldType <;> decide
  rcases List.mem_cons.1 hl with rfl | hl
  · cases p.2.isRequired <;> decide
  cases hv : p.2.allowedValues with
  | none => rw [hv] at hl; cases hl
  | some vs =>
    rw [hv] at hl
    rw [List.mem_singleton.1 hl, List.mem_append, not_or]
    exact ⟨by decide, joinComma_plain fun x hx => (h.2 vs hv x hx).1⟩

theorem showBool_inj {a b : Bool} (h : showBool a = showBool b) : a = b := by
  cases a <;> cases b <;> first | rfl | exact absurd h (by decide)

theorem fieldLines_inj : ∀ {ps qs : List (FieldId × FieldSchema)}, (∀ p ∈ ps, PlainField p) → (∀ p ∈ qs, PlainField p) →
    ps.flatMap fieldLines = qs.flatMap fieldLines → ps.map demanded = qs.map demanded
  | [], [], _, _, _ => rfl
  | [], q :: qs, _, _, h => by rw [List.flatMap_cons] at h; cases h
  | p :: ps, [], _, _, h => by rw [List.flatMap_cons] at h; cases h
  | p :: ps, q :: qs, hp, hq, h => by
    rw [List.flatMap_cons, List.flatMap_cons] at h
    unfold fieldLines at h
    simp only [List.cons_append, List.cons.injEq, true_and] at h
    obtain ⟨h1, h2, h3, h4⟩ := h
    have h2 := showFieldType_inj (List.append_cancel_left h2)
    have h3 := showBool_inj (List.append_cancel_left h3)
    have tail : ∀ rs : List (FieldId × FieldSchema), rs.flatMap fieldLines = [] ∨ (rs.flatMap fieldLines).head? = some [] := by
      intro rs
      cases rs with
      | nil => exact .inl rfl
      | cons r rs => exact .inr rfl
    have key : p.2.allowedValues = q.2.allowedValues ∧ ps.flatMap fieldLines = qs.flatMap fieldLines := by
      cases hvp : p.2.allowedValues with
      | none =>
        cases hvq : q.2.allowedValues with
        | none => rw [hvp, hvq] at h4; exact ⟨rfl, h4⟩
        | some vs =>
          rw [hvp, hvq] at h4
          exfalso
          have h4 : ps.flatMap fieldLines = ("- Allowed values: ".toList ++ joinWith ", ".toList vs) :: qs.flatMap fieldLines := h4
          rcases tail ps with ht | ht
          · rw [ht] at h4; cases h4
          · rw [h4] at ht
            simp at ht
      | some us =>
        cases hvq : q.2.allowedValues with
        | none =>
          rw [hvp, hvq] at h4
          exfalso
          have h4 : ("- Allowed values: ".toList ++ joinWith ", ".toList us) :: ps.flatMap fieldLines = qs.flatMap fieldLines := h4
          rcases tail qs with ht | ht
          · rw [ht] at h4; cases h4
          · rw [← h4] at ht
            simp at ht
        | some vs =>
          rw [hvp, hvq] at h4
          have h4 : ("- Allowed values: ".toList ++ joinWith ", ".toList us) :: ps.flatMap fieldLines =
            ("- Allowed values: ".toList ++ joinWith ", ".toList vs) :: qs.flatMap fieldLines := h4
          rw [List.cons.injEq] at h4
          refine ⟨?_, h4.2⟩
          rw [joinComma_inj (fun x hx => ((hp p (by simp)).2 us hvp x hx).2) (fun x hx => ((hq q (by simp)).2 vs hvq x hx).2)
            (List.append_cancel_left h4.1)]
    rw [List.map_cons, List.map_cons, fieldLines_inj (fun r hr => hp r (List.mem_cons_of_mem _ hr))
      (fun r hr => hq r (List.mem_cons_of_mem _ hr)) key.2]
    unfold demanded
    rw [h1, h2, h3, key.1]

/-- C120: the text of a schema tells its type and what it demands of each field, in order. Missing for the full claim:
names and values with line breaks, allowed values that are empty or have commas (see `C120_commas`). -/
theorem C120_schemas_partial (s s' : EntitySchema) (h : '\n' ∉ s.entityType) (h' : '\n' ∉ s'.entityType)
    (hp : ∀ p ∈ s.orderedFields, PlainField p) (hp' : ∀ p ∈ s'.orderedFields, PlainField p)
    (he : showSchema s = showSchema s') :
    s.entityType = s'.entityType ∧ s.orderedFields.map demanded = s'.orderedFields.map demanded := by
  rw [showSchema_lines, showSchema_lines] at he
  have plain : ∀ {s : EntitySchema}, '\n' ∉ s.entityType → (∀ p ∈ s.orderedFields, PlainField p) →
      ∀ l ∈ s.entityType :: s.orderedFields.flatMap fieldLines, '\n' ∉ l := by
    intro s h hp l hl
    rcases List.mem_cons.1 hl with rfl | hl
    · exact h
    · obtain ⟨p, hm, hl⟩ := List.mem_flatMap.1 hl
      exact fieldLines_plain (hp p hm) l hl
  have := unlines_inj (plain h hp) (plain h' hp') he
  rw [List.cons.injEq] at this
  exact ⟨this.1, fieldLines_inj hp hp' this.2⟩

/-- A schema with one enum. -/
def Spec.exEnum (values : List Str) : EntitySchema :=
  ⟨"task".toList, [("state".toList, ⟨.enum, .required, 0, some values⟩)]⟩

/-- C120 fails for allowed values with commas: two schemas that allow different values are shown alike. -/
theorem C120_commas : showSchema (exEnum ["open, done".toList]) = showSchema (exEnum ["open".toList, "done".toList]) ∧
    (exEnum ["open, done".toList]).orderedFields.map demanded ≠ (exEnum ["open".toList, "done".toList]).orderedFields.map demanded := by
  decide +kernel

/-! ## Examples -/

example : Single (.reference (.field "person.a".toList "name".toList)) ∧ Single (.currency ⟨250, 2⟩ "EUR".toList) ∧
    Single (.string "a,b".toList) :=
  ⟨⟨⟨"person".toList, "a".toList, rfl, by decide, by decide⟩, by decide⟩, show (_ : Bool) = true by decide, trivial⟩

example : PlainItems exScreen .integer [.integer 3, .integer (-4)] := by
  intro v hv
  simp only [List.mem_cons, List.not_mem_nil, or_false] at hv
  rcases hv with rfl | rfl
  · exact ⟨trivial, rfl, by decide +kernel, by decide +kernel⟩
  · exact ⟨trivial, rfl, by decide +kernel, by decide +kernel⟩

example : showValue exScreen (.list [.integer 3, .integer (-4)]) = "[3,-4]".toList := by decide +kernel

example : ∀ p ∈ (exEnum ["open".toList, "done".toList]).orderedFields, PlainField p := by
  intro p hp
  have : p = ("state".toList, ⟨.enum, .required, 0, some ["open".toList, "done".toList]⟩) := by
    have h : (exEnum ["open".toList, "done".toList]).orderedFields =
        [("state".toList, ⟨.enum, .required, 0, some ["open".toList, "done".toList]⟩)] := by decide +kernel
    rw [h] at hp
    exact List.mem_singleton.1 hp
  subst this
  refine ⟨by decide, fun vs hvs v hv => ?_⟩
  cases hvs
  revert v
  decide

example : IsSnake exScreen.cases "due_date".toList :=
  (C47_unchanged asciiTable_regular _).1 (by decide +kernel)

example : ∀ c ∈ "due_date".toList, Capital exScreen c := by
  intro c hc
  have : ∀ c ∈ "due_date".toList, exScreen.cases.lower (exScreen.upperChar c) = exScreen.cases.lowerChar c ∧
    exScreen.upperChar c ≠ [] ∧ (' ' ∈ exScreen.upperChar c → c = ' ') ∧ (':' ∈ exScreen.upperChar c → c = ':') := by
    decide +kernel
  obtain ⟨h1, h2, h3, h4⟩ := this c hc
  exact ⟨h1, h2, h3, h4⟩

example : exScreen.sentence "due_date".toList = "Due date".toList := by decide +kernel

/-- A screen that shows floats as fractions, currencies by their codes and dates by their numbers. -/
def exFaithful : Screen := { exScreen with
  showF64 := fun
    | .nan => "NaN".toList
    | .inf true => "-inf".toList
    | .inf false => "inf".toList
    | .negZero => "-0".toList
    | .fin q => showInt q.num ++ '/' :: showNat q.den
  currencyName := fun c => c
  showDate := fun d => showInt d.secs ++ ' ' :: (showNat d.nanos ++ ' ' :: showInt d.offset) }

example : Faithful exFaithful := by
  have hi : ∀ (c : Char), c ≠ '-' → isDigit c = false → ∀ n, c ∉ showInt n := by
    intro c h1 h2 n hm
    rcases mem_showInt hm with h | h
    · exact h1 h
    · rw [h2] at h; cases h
  have hn : ∀ (c : Char), isDigit c = false → ∀ n, c ∉ showNat n := by
    intro c h2 n hm
    have := showNat_digits n c hm
    rw [h2] at this; cases this
  refine ⟨?_, ?_, fun c c' h => h⟩
  · have slash : ∀ (q : Rat) (s : Str), '/' ∉ s → showInt q.num ++ '/' :: showNat q.den ≠ s := by
      rintro q s hs rfl
      exact hs (by simp)
    intro f g h
    rcases f with _ | (_ | _) | _ | q <;> rcases g with _ | (_ | _) | _ | r <;> first
      | rfl
      | exact absurd h (slash q _ (by decide))
      | exact absurd h.symm (slash r _ (by decide))
      | exact absurd h (by decide)
      | obtain ⟨h1, h2⟩ := upto_inj (hi '/' (by decide) (by decide) _) (hi '/' (by decide) (by decide) _) h
        exact congrArg F64.fin (Rat.ext (showInt_inj h1) (showNat_inj h2))
  · intro d e _ _ h
    obtain ⟨h1, h2⟩ := upto_inj (hi ' ' (by decide) (by decide) _) (hi ' ' (by decide) (by decide) _) h
    obtain ⟨h3, h4⟩ := upto_inj (hn ' ' (by decide) _) (hn ' ' (by decide) _) h2
    cases d; cases e
    cases showInt_inj h1; cases showNat_inj h3; cases showInt_inj h4
    rfl

/-- A task with an assignee and marks. -/
def exShown : Entity := ⟨"task.a".toList, "task".toList,
  [("assigned_to".toList, .reference (.entity "person.b".toList)), ("marks".toList, .list [.integer 3, .integer (-4)])]⟩

example : LegibleEntity exFaithful (fun _ f => if f = "marks".toList then .list else .reference) (fun _ _ => .integer) exShown := by
  have hcap : ∀ p ∈ exShown.fields, ∀ c ∈ p.1, exFaithful.cases.lower (exFaithful.upperChar c) = exFaithful.cases.lowerChar c ∧
      exFaithful.upperChar c ≠ [] ∧ (' ' ∈ exFaithful.upperChar c → c = ' ') ∧ (':' ∈ exFaithful.upperChar c → c = ':') := by
    decide +kernel
  have hsn : ∀ p ∈ exShown.fields, exFaithful.cases.snake p.1 = p.1 ∧ ':' ∉ p.1 := by decide +kernel
  refine ⟨by unfold OneLiners; decide +kernel, fun p hp => ⟨(C47_unchanged asciiTable_regular _).1 (hsn p hp).1, (hsn p hp).2,
    fun c hc => ?_⟩, by decide +kernel, ?_⟩
  · obtain ⟨h1, h2, h3, h4⟩ := hcap p hp c hc
    exact ⟨h1, h2, h3, h4⟩
  · intro p hp
    simp only [exShown, List.mem_cons, List.not_mem_nil, or_false] at hp
    rcases hp with rfl | rfl
    · exact ⟨"person".toList, "b".toList, rfl, by decide, by decide⟩
    · intro v hv
      simp only [List.mem_cons, List.not_mem_nil, or_false] at hv
      rcases hv with rfl | rfl
      · exact ⟨trivial, rfl, by decide +kernel, by decide +kernel⟩
      · exact ⟨trivial, rfl, by decide +kernel, by decide +kernel⟩

example : queryReply exFaithful (.entities [exShown]) = "task.a\n\nAssigned to: person.b\nMarks: [3,-4]\n".toList := by
  decide +kernel

example : showResult exFaithful (.sum (.currency ⟨250, 2⟩ "EUR".toList)) = "2.50 EUR".toList := by decide +kernel

end Firm
