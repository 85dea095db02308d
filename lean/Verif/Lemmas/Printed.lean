import Verif.Model.Printed
import Verif.Lemmas.SavedGraph

/-!
# Lemmas on printed texts
-/

namespace Firm

open Spec

/-! ## Indented JSON -/

theorem jSkip_pad (n : Nat) (s : Str) : jSkip (jPad n ++ s) = jSkip s := by
  have hrep : ∀ k, jSkip (List.replicate k ' ' ++ s) = jSkip s := by
    intro k
    induction k with
    | zero => rfl
    | succ k ih =>
      rw [List.replicate_succ, List.cons_append]
      show jSkip (' ' :: _) = _
      rw [← ih]
      simp [jSkip, jWs]
  rw [← hrep (2 * n)]
  simp [jPad, jSkip, jWs]

theorem pad_ends (n : Nat) (s : Str) : EndsNumber (jPad n ++ s) := stops_cons (by decide)

theorem jTail_spaced {α : Type} {p : Str → Option (α × Str)} {text : α → Str} {close : Char} (hc : close = ']' ∨ close = '}')
    (k m : Nat) (rest : Str) : ∀ (as : List α), (∀ a ∈ as, ReadsItem p text a) → ∀ n, as.length < n →
    jTail p close n ((as.flatMap fun a => ',' :: (jPad k ++ text a)) ++ (jPad m ++ close :: rest)) = some (as, rest) := by
  have hw : jWs close = false := by rcases hc with rfl | rfl <;> decide
  have hne : (',' : Char) ≠ close := by rcases hc with rfl | rfl <;> decide
  intro as
  induction as with
  | nil =>
    intro _ n hn
    cases n with
    | zero => simp at hn
    | succ n =>
      rw [List.flatMap_nil, List.nil_append, jTail, jSkip_pad, jSkip_cons hw]
      simp
  | cons a as ih =>
    intro ha n hn
    cases n with
    | zero => simp at hn
    | succ n =>
      obtain ⟨⟨c, s, hs, hcw, _⟩, hp⟩ := ha a (by simp)
      have hr : EndsNumber ((as.flatMap fun a => ',' :: (jPad k ++ text a)) ++ (jPad m ++ close :: rest)) := by
        cases as with
        | nil => exact pad_ends m _
        | cons b bs =>
          rw [List.flatMap_cons]
          exact stops_cons (by decide)
      have hcomma : jWs ',' = false := by decide
      rw [List.flatMap_cons]
      simp only [List.cons_append, List.append_assoc]
      rw [jTail, jSkip_cons hcomma]
      simp only [if_neg hne, if_true]
      have : jSkip (jPad k ++ (text a ++ ((as.flatMap fun a => ',' :: (jPad k ++ text a)) ++ (jPad m ++ close :: rest)))) =
          text a ++ ((as.flatMap fun a => ',' :: (jPad k ++ text a)) ++ (jPad m ++ close :: rest)) := by
        rw [jSkip_pad, hs, List.cons_append]
        exact jSkip_cons hcw
      rw [this, hp _ hr]
      simp only [ih (fun b hb => ha b (by simp [hb])) n (by simpa using hn), Option.map_some]

theorem jSeq_spaced {α : Type} {p : Str → Option (α × Str)} {text : α → Str} {close : Char} (hc : close = ']' ∨ close = '}')
    (k m : Nat) (rest : Str) (as : List α) (ha : ∀ a ∈ as, ReadsItem p text a) :
    jSeq p close (joinWith [','] (as.map fun a => jPad k ++ text a) ++ (jPad m ++ close :: rest)) = some (as, rest) := by
  have hw : jWs close = false := by rcases hc with rfl | rfl <;> decide
  cases as with
  | nil =>
    simp only [List.map_nil, joinWith, List.nil_append]
    rw [jSeq, jSkip_pad, jSkip_cons hw]
    simp
  | cons a as =>
    obtain ⟨⟨c, s, hs, hcw, h1, h2⟩, hp⟩ := ha a (by simp)
    have hr : EndsNumber ((as.flatMap fun a => ',' :: (jPad k ++ text a)) ++ (jPad m ++ close :: rest)) := by
      cases as with
      | nil => exact pad_ends m _
      | cons b bs =>
        rw [List.flatMap_cons]
        exact stops_cons (by decide)
    have hne : c ≠ close := by rcases hc with rfl | rfl <;> assumption
    rw [joinWith_comma (fun a => jPad k ++ text a), List.append_assoc, List.append_assoc, jSeq]
    have hskip : jSkip (jPad k ++ (text a ++ ((as.flatMap fun a => ',' :: (jPad k ++ text a)) ++ (jPad m ++ close :: rest)))) =
        c :: (s ++ ((as.flatMap fun a => ',' :: (jPad k ++ text a)) ++ (jPad m ++ close :: rest))) := by
      rw [jSkip_pad, hs, List.cons_append]
      exact jSkip_cons hcw
    rw [hskip]
    simp only [if_neg hne]
    have hp' := hp _ hr
    rw [hs, List.cons_append] at hp'
    rw [hp']
    simp only
    rw [jTail_spaced hc k m rest as (fun b hb => ha b (by simp [hb]))]
    · rfl
    · have := flatMap_commas (fun a => jPad k ++ text a) as
      simp only [List.length_append, List.length_cons] at this ⊢
      omega

theorem prettyItems_map (C : Codec) (n : Nat) (vs : List JVal) :
    prettyItems C n vs = vs.map fun v => jPad n ++ jsonPretty C n v := by
  induction vs with
  | nil => rfl
  | cons v vs ih => simp [prettyItems, ih]

theorem prettyEntries_map (C : Codec) (n : Nat) (es : List (Str × JVal)) :
    prettyEntries C n es = es.map fun e => jPad n ++ (jsonString e.1 ++ ": ".toList ++ jsonPretty C n e.2) := by
  induction es with
  | nil => rfl
  | cons e es ih =>
    obtain ⟨k, v⟩ := e
    rw [prettyEntries, ih, prettyEntry, List.map_cons]

theorem pretty_array (C : Codec) (k : Nat) {vs : List JVal} (h : vs ≠ []) : jsonPretty C k (.array vs) =
    '[' :: (joinWith [','] (vs.map fun v => jPad (k + 1) ++ jsonPretty C (k + 1) v) ++ jPad k ++ [']']) := by
  cases vs with
  | nil => exact absurd rfl h
  | cons v vs =>
    rw [jsonPretty, prettyItems_map]
    simp

theorem pretty_object (C : Codec) (k : Nat) {es : List (Str × JVal)} (h : es ≠ []) : jsonPretty C k (.object es) =
    '{' :: (joinWith [','] (es.map fun e => jPad (k + 1) ++ (jsonString e.1 ++ ": ".toList ++ jsonPretty C (k + 1) e.2)) ++
      jPad k ++ ['}']) := by
  cases es with
  | nil => exact absurd rfl h
  | cons e es =>
    rw [jsonPretty, prettyEntries_map]
    simp

theorem jsonPretty_head {C : Codec} {n : Nat} (k : Nat) {v : JVal} (h : Readable C n v) :
    ∃ c s, jsonPretty C k v = c :: s ∧ jWs c = false ∧ c ≠ ']' ∧ c ≠ '}' := by
  cases v with
  | array vs =>
    cases vs with
    | nil => exact ⟨'[', _, by rw [jsonPretty]; rfl, by decide⟩
    | cons v vs => exact ⟨'[', _, pretty_array C k (by simp), by decide⟩
  | object es =>
    cases es with
    | nil => exact ⟨'{', _, by rw [jsonPretty]; rfl, by decide⟩
    | cons v vs => exact ⟨'{', _, pretty_object C k (by simp), by decide⟩
  | null => rw [jsonPretty]; · exact jsonText_head h
            all_goals simp
  | bool b => rw [jsonPretty]; · exact jsonText_head h
              all_goals simp
  | string s => rw [jsonPretty]; · exact jsonText_head h
                all_goals simp
  | number s => rw [jsonPretty]; · exact jsonText_head h
                all_goals simp

/-- The indented text of a tree is read as that tree. -/
theorem jValue_pretty (C : Codec) : ∀ (n k : Nat) {v : JVal}, Readable C n v → ∀ r, EndsNumber r →
    jValue C n (jsonPretty C k v ++ r) = some (v, r) := by
  intro n
  induction n with
  | zero =>
    intro k v h r hr
    have : jsonPretty C k v = jsonText C v := by
      cases h <;> rw [jsonPretty] <;> simp
    rw [this]
    exact jValue_text C 0 h r hr
  | succ n ih =>
    intro k v h r hr
    cases v with
    | array vs =>
      cases h with
      | array hvs =>
        by_cases hne : vs = []
        · subst hne
          rfl
        · rw [pretty_array C k hne]
          simp only [List.cons_append, List.append_assoc, List.nil_append]
          rw [jValue, if_neg (by decide), if_pos rfl]
          rw [jSeq_spaced (.inl rfl) (k + 1) k r vs
            (fun v hv => ⟨jsonPretty_head (k + 1) (hvs v hv), fun r hr => ih (k + 1) (hvs v hv) r hr⟩)]
          rfl
    | object es =>
      cases h with
      | object hes =>
        by_cases hne : es = []
        · subst hne
          rfl
        · rw [pretty_object C k hne]
          simp only [List.cons_append, List.append_assoc, List.nil_append]
          rw [jValue, if_neg (by decide), if_neg (by decide), if_pos rfl]
          have hseq := jSeq_spaced (p := jEntry (jValue C n)) (close := '}') (.inr rfl)
            (text := fun e => jsonString e.1 ++ ": ".toList ++ jsonPretty C (k + 1) e.2) (k + 1) k r es
            (by
              intro e he
              obtain ⟨key, v⟩ := e
              refine ⟨⟨'"', _, rfl, by decide⟩, ?_⟩
              intro r hr
              simp only [jsonString, List.cons_append, List.append_assoc, List.nil_append]
              rw [jEntry, jString_read]
              have hcolon : jWs ':' = false := by decide
              have htwo : ": ".toList = [':', ' '] := rfl
              rw [htwo]
              simp only [List.cons_append, List.nil_append, jSkip_cons hcolon]
              obtain ⟨c, s, hs, hw, _⟩ := jsonPretty_head (k + 1) (hes _ he)
              have : jSkip (' ' :: (jsonPretty C (k + 1) v ++ r)) = jsonPretty C (k + 1) v ++ r := by
                rw [hs, List.cons_append]
                have : jSkip (' ' :: c :: (s ++ r)) = jSkip (c :: (s ++ r)) := by simp [jSkip, jWs]
                rw [this]
                exact jSkip_cons hw
              rw [this, ih (k + 1) (hes _ he) r hr]
              rfl)
          simp only [List.append_assoc] at hseq
          rw [hseq]
          rfl
    | null => exact jValue_text C (n + 1) h r hr
    | bool b => exact jValue_text C (n + 1) h r hr
    | string s => exact jValue_text C (n + 1) h r hr
    | number s => exact jValue_text C (n + 1) h r hr

/-- What `json_output` prints is read as the printed tree. -/
theorem jsonOutput_read {C : Codec} {v : JVal} (h : Readable C 127 v) : jsonParse C (jsonOutput C v) = some v := by
  unfold jsonParse jsonOutput printLine
  obtain ⟨c, s, hs, hw, _⟩ := jsonPretty_head 0 h
  have hskip : jSkip (jsonPretty C 0 v ++ ['\n']) = jsonPretty C 0 v ++ ['\n'] := by
    rw [hs, List.cons_append]
    exact jSkip_cons hw
  rw [hskip, jValue_pretty C 127 0 h ['\n'] (stops_cons (by decide))]
  rfl

end Firm
