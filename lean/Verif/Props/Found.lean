import Verif.Props.QueryFields
import Verif.Props.Dates
import Verif.Props.Prompted
import Verif.Props.Quoted
import Verif.Props.QueryLiterals
import Verif.Props.NearFloats

/-!
# Finding a field by its literal

C140: an entity whose field was written with a literal is found by the query that compares the field with
the same literal.
-/

namespace Firm
open Spec F64

/-- The text, as a literal of the given kind in the given source file, is a value that equals what the same
text means in a query. -/
def Spec.FoundBy (L : Lang) (source kind text : Str) : Prop :=
  ∃ v w w', parseLeaf L source kind text = .ok v ∧ qLeaf text = some (w, []) ∧ readQValue L w = .ok w' ∧
    compareField L.env (toFieldValue L.cases v) .equal (convertValue w') = .ok true

variable {L : Lang} {source : Str}

theorem foundBy_iff {kind text : Str} {v : ParsedValue} {w : QValue} {w' : ParsedQueryValue}
    (h1 : parseLeaf L source kind text = .ok v) (h2 : qLeaf text = some (w, [])) (h3 : readQValue L w = .ok w') :
    FoundBy L source kind text ↔ compareField L.env (toFieldValue L.cases v) .equal (convertValue w') = .ok true := by
  constructor
  · rintro ⟨v1, w1, w2, e1, e2, e3, e4⟩
    rw [h1] at e1
    cases e1
    rw [h2] at e2
    cases e2
    rw [h3] at e3
    cases e3
    exact e4
  · exact fun h => ⟨v, w, w', h1, h2, h3, h⟩

/-! ## Booleans -/

/-- C140: booleans are found. -/
theorem C140_boolean (b : Bool) : FoundBy L source "boolean".toList (showQValue (.boolean b)) := by
  have hq := qLeaf_boolean (b := b) follow_nil.toFollowBlank
  rw [List.append_nil] at hq
  have hp : parseLeaf L source "boolean".toList (showQValue (.boolean b)) = .ok (.boolean b) := by
    unfold parseLeaf
    rw [if_pos rfl]
    cases b <;> rfl
  refine (foundBy_iff hp (by simpa [showQValue] using hq) (by rw [readQValue])).2 ?_
  cases b <;> rfl

/-! ## Texts -/

theorem sameText_iff {a b : Str} : SameText a b ↔ asciiLower a = asciiLower b := by
  rw [← eqIgnoreAsciiCase_iff, eqIgnoreAsciiCase, beq_iff_eq]

theorem sameText_length {a b : Str} (h : SameText a b) : a.length = b.length := h.1

theorem sameText_refl (a : Str) : SameText a a := C25_equivalence.1 a

theorem compare_texts {env : Env} {fv : FieldValue} {s t : Str} (hfv : textOf fv = some s) {v : FilterValue}
    (hv : v = .string t ∨ v = .enum t ∨ v = .path t) : compareField env fv .equal v = .ok true ↔ SameText s t :=
  (C25_equal env fv s t hfv v hv).1

theorem qLeaf_quoted {s : Str} (hs : '"' ∉ s) : qLeaf ('"' :: s ++ ['"']) = some (.string (s.dropWhile qWs), []) := by
  have h := C74_leading (q := '"') (.inl rfl) (s := s) (r := []) hs
  rw [List.cons_append] at h ⊢
  have hh := leaf_head (s := s ++ ['"']) (c := '"') (by decide) (by decide)
  unfold qLeaf
  rw [hh.1, hh.2.1, qReference_none (stops_cons (by decide)),
    show "path".toList = 'p' :: "ath".toList from rfl, qTagged_none (stops_cons (by decide)),
    show "enum".toList = 'e' :: "num".toList from rfl, qTagged_none (stops_cons (by decide)), h]

theorem dropWhile_same {s : Str} (h : (s.dropWhile qWs).length = s.length) : ∀ c, s.head? = some c → qWs c = false := by
  intro c hc
  cases s with
  | nil => cases hc
  | cons d s =>
    cases hc
    cases hw : qWs c with
    | false => rfl
    | true =>
      rw [List.dropWhile_cons_of_pos hw] at h
      have := (List.dropWhile_suffix qWs (l := s)).length_le
      simp at h
      omega

theorem dropWhile_none {s : Str} (h : ∀ c, s.head? = some c → qWs c = false) : s.dropWhile qWs = s := by
  cases s with
  | nil => rfl
  | cons d s => rw [List.dropWhile_cons_of_neg (by simp [h d rfl])]

theorem parseString_quoted {s : Str} (hs : '"' ∉ s) : parseString ('"' :: s ++ ['"']) = .ok (.string s) := by
  unfold parseString
  rw [if_neg, trimMatches_quoted (fun h => hs (List.mem_of_mem_head? h)) (fun h => hs (List.mem_of_getLast? h))]
  intro h
  rw [Bool.and_eq_true, startsWith_iff] at h
  obtain ⟨⟨r, hr⟩, -⟩ := h
  cases s with
  | nil => cases hr
  | cons c s =>
    rw [tripleQuote] at hr
    simp only [List.cons_append, List.cons.injEq] at hr
    exact hs (by simp [hr.2.1])

/-- C140, exactly, for a text in quotes: it is found unless white space follows the opening quote. -/
theorem C140_string {s : Str} (hs : '"' ∉ s) :
    FoundBy L source "string".toList ('"' :: s ++ ['"']) ↔ ∀ c, s.head? = some c → qWs c = false := by
  rw [foundBy_iff (v := .string s) (by rw [parseLeaf_string]; exact parseString_quoted hs) (qLeaf_quoted hs) rfl]
  show compareField L.env (.string s) .equal (.string (s.dropWhile qWs)) = .ok true ↔ _
  rw [compare_texts rfl (.inl rfl)]
  exact ⟨fun h => dropWhile_same (sameText_length h).symm, fun h => by rw [dropWhile_none h]; exact sameText_refl s⟩

/-- C140: in a query a text in three quotes ends after the second one. -/
theorem C140_triple (x : Str) : qLeaf ('"' :: '"' :: '"' :: x) = some (.string [], '"' :: x) := by
  have hh := leaf_head (s := '"' :: '"' :: x) (c := '"') (by decide) (by decide)
  unfold qLeaf
  rw [hh.1, hh.2.1, qReference_none (stops_cons (by decide)),
    show "path".toList = 'p' :: "ath".toList from rfl, qTagged_none (stops_cons (by decide)),
    show "enum".toList = 'e' :: "num".toList from rfl, qTagged_none (stops_cons (by decide))]
  rfl

theorem qTagged_leading {k s : Str} (hs : '"' ∉ s) :
    qTagged k (k ++ '"' :: s ++ ['"']) = some (s.dropWhile qWs, []) := by
  unfold qTagged
  rw [List.append_assoc, qLit_append]
  dsimp only
  rw [List.cons_append, qSkip_of (by decide)]
  exact C74_leading (q := '"') (.inl rfl) (s := s) (r := []) hs

theorem qLeaf_tagged_enum {s : Str} (hs : '"' ∉ s) :
    qLeaf ("enum".toList ++ '"' :: s ++ ['"']) = some (.enum (s.dropWhile qWs), []) := by
  have hh := leaf_head (c := 'e') (s := "num".toList ++ '"' :: s ++ ['"']) (by decide) (by decide)
  have hr : qReference ("enum".toList ++ '"' :: s ++ ['"']) = none := by
    rw [List.append_assoc]
    exact qReference_word ident_enum (stops_cons (by decide)) (stops_cons (by decide))
  have hp : qTagged "path".toList ("enum".toList ++ '"' :: s ++ ['"']) = none :=
    qTagged_none (a := 'p') (k := "ath".toList) (stops_cons (by decide))
  have ht := qTagged_leading (k := "enum".toList) hs
  unfold qLeaf
  rw [hr, hp, ht]
  rw [show "enum".toList ++ '"' :: s ++ ['"'] = 'e' :: ("num".toList ++ '"' :: s ++ ['"']) from rfl, hh.1, hh.2.1]

theorem qLeaf_tagged_path {s : Str} (hs : '"' ∉ s) :
    qLeaf ("path".toList ++ '"' :: s ++ ['"']) = some (.path (s.dropWhile qWs), []) := by
  have hh := leaf_head (c := 'p') (s := "ath".toList ++ '"' :: s ++ ['"']) (by decide) (by decide)
  have hr : qReference ("path".toList ++ '"' :: s ++ ['"']) = none := by
    rw [List.append_assoc]
    exact qReference_word ident_path (stops_cons (by decide)) (stops_cons (by decide))
  have ht := qTagged_leading (k := "path".toList) hs
  unfold qLeaf
  rw [hr, ht]
  rw [show "path".toList ++ '"' :: s ++ ['"'] = 'p' :: ("ath".toList ++ '"' :: s ++ ['"']) from rfl, hh.1, hh.2.1]

theorem sameText_ws {a b : Char} {s t : Str} (h : SameText (a :: s) (b :: t)) (ha : qWs a = true) : qWs b = true := by
  have h := h.2 (a, b) (by simp)
  simp only [qWs, Bool.or_eq_true, beq_iff_eq] at ha
  rcases h with h | h | h
  · dsimp only at h
    subst h
    simpa [qWs] using ha
  all_goals
    exfalso
    dsimp only at h
    have e : a.toNat < 65 := by rcases ha with (rfl | rfl) | rfl <;> decide
    omega

/-- C140, exactly, for enum values: they are found unless white space follows the opening quote or the value
ends with `enum`. -/
theorem C140_enum {s : Str} (hs : '"' ∉ s) :
    FoundBy L source "enum".toList ("enum".toList ++ '"' :: s ++ ['"']) ↔
      (∀ c, s.head? = some c → qWs c = false) ∧ ∀ x, s ≠ x ++ "enum".toList := by
  obtain ⟨h1, h2⟩ := literal_text (q := "enum".toList) (by decide) (by decide) hs
  have key : ∀ v, trimMatches '"' (strReplace ("enum".toList ++ ['"']) [] ("enum".toList ++ ['"'] ++ s ++ ['"'])) = v →
      (FoundBy L source "enum".toList ("enum".toList ++ '"' :: s ++ ['"']) ↔ SameText v (s.dropWhile qWs)) := by
    intro v hv
    rw [foundBy_iff (v := .enum v) (by rw [parseLeaf_enum]; exact congrArg (fun t => Except.ok (ParsedValue.enum t)) hv)
      (qLeaf_tagged_enum hs) rfl]
    exact compare_texts (fv := .enum v) rfl (.inr (.inl rfl))
  by_cases he : ∃ x, s = x ++ "enum".toList
  · obtain ⟨x, hx⟩ := he
    rw [key x (h1 x hx)]
    constructor
    · intro hsame
      exfalso
      have hl := sameText_length hsame
      have h4 : s.length = x.length + 4 := by rw [hx]; simp
      cases s with
      | nil => simp at h4
      | cons c s =>
        cases hw : qWs c with
        | false =>
          rw [List.dropWhile_cons_of_neg (by simp [hw])] at hl
          omega
        | true =>
          cases x with
          | nil =>
            cases hx
            cases hw
          | cons d x =>
            obtain ⟨rfl, -⟩ := List.cons.inj hx
            cases hd : (c :: s).dropWhile qWs with
            | nil =>
              rw [hd] at hl
              cases hl
            | cons e y =>
              rw [hd] at hsame
              have h1 := sameText_ws hsame hw
              have h2 := stops_dropWhile qWs (c :: s) e (by rw [hd]; rfl)
              rw [h1] at h2
              cases h2
    · exact fun h => absurd hx (h.2 x)
  · have he' : ∀ x, s ≠ x ++ "enum".toList := fun x hx => he ⟨x, hx⟩
    rw [key s (h2 he')]
    exact ⟨fun h => ⟨dropWhile_same (sameText_length h).symm, he'⟩,
      fun h => by rw [dropWhile_none h.1]; exact sameText_refl s⟩

/-! ## Numbers -/

theorem rndPos_int {q : ℚ} (h : pow2 53 ≤ q) : ∃ m : Int, rndPos q = m := by
  have h0 : 0 < q := lt_of_lt_of_le (pow2_pos 53) h
  have h1 : pow2 53 < pow2 (ilog2 q + 1) := lt_of_le_of_lt h (ilog2_spec h0).2
  rw [pow2_lt] at h1
  obtain ⟨k, hk⟩ := pow2_int (e := lastBit q) (by unfold lastBit; omega)
  exact ⟨roundHalfEven (q / pow2 (lastBit q)) * k, by rw [rndPos_eq, hk]; push_cast; rfl⟩

theorem ofInt_int {n : Int} (h : n.natAbs ≤ 2 ^ 63) : ∃ m : Int, F64.ofInt n = .fin m ∧
    -(2 ^ 63) ≤ m ∧ m ≤ 2 ^ 63 := by
  by_cases hs : n.natAbs ≤ 2 ^ 53
  · exact ⟨n, F64.ofInt_exact hs, by omega, by omega⟩
  · have e53 : pow2 53 = 2 ^ 53 := by rw [pow2_eq]; norm_num
    have e63 : pow2 63 = 2 ^ 63 := by rw [pow2_eq]; norm_num
    have g53 : OnGrid ((2 : ℚ) ^ 53) := e53 ▸ pow2_grid (by omega)
    have g63 : OnGrid ((2 : ℚ) ^ 63) := e63 ▸ pow2_grid (by omega)
    have b63 : |(2 : ℚ) ^ 63| < pow2 1024 := by rw [abs_of_nonneg (by positivity), ← e63]; exact pow2_lt.2 (by omega)
    have b53 : |(2 : ℚ) ^ 53| < pow2 1024 := by rw [abs_of_nonneg (by positivity), ← e53]; exact pow2_lt.2 (by omega)
    have n63 : |-(2 : ℚ) ^ 63| < pow2 1024 := by rw [abs_neg]; exact b63
    have n53 : |-(2 : ℚ) ^ 53| < pow2 1024 := by rw [abs_neg]; exact b53
    unfold ofInt
    rcases lt_or_ge 0 n with hp | hp
    · have h1 : (2 : ℚ) ^ 53 ≤ (n : ℚ) := by
        have : (2 : Int) ^ 53 ≤ n := by omega
        exact_mod_cast this
      have h2 : (n : ℚ) ≤ 2 ^ 63 := by
        have : n ≤ (2 : Int) ^ 63 := by omega
        exact_mod_cast this
      obtain ⟨v, hv, hlo, hhi⟩ := rnd_between g53 g63 b53 b63 h1 h2
      have hv' : rnd (n : ℚ) = fin v := by
        rcases hv with hv | ⟨-, rfl⟩
        · exact hv
        · norm_num at hlo
      have h0 : (0 : ℚ) < n := by exact_mod_cast hp
      obtain ⟨m, hm⟩ := rndPos_int (q := (n : ℚ)) (by rw [e53]; exact h1)
      have hv2 := hv'
      unfold rnd at hv2
      simp only at hv2
      rw [if_neg h0.ne', if_pos h0] at hv2
      split at hv2
      · cases hv2
      · cases hv2
        rw [hm] at hv' hlo hhi
        refine ⟨m, hv', ?_, by exact_mod_cast hhi⟩
        have : (2 : Int) ^ 53 ≤ m := by exact_mod_cast hlo
        omega
    · have h1 : -(2 : ℚ) ^ 63 ≤ (n : ℚ) := by
        have : -(2 : Int) ^ 63 ≤ n := by omega
        exact_mod_cast this
      have h2 : (n : ℚ) ≤ -2 ^ 53 := by
        have : n ≤ -(2 : Int) ^ 53 := by omega
        exact_mod_cast this
      obtain ⟨v, hv, hlo, hhi⟩ := rnd_between g63.neg g53.neg n63 n53 h1 h2
      have hv' : rnd (n : ℚ) = fin v := by
        rcases hv with hv | ⟨-, rfl⟩
        · exact hv
        · norm_num at hhi
      have h0 : (n : ℚ) < 0 := by
        have : n < 0 := by omega
        exact_mod_cast this
      obtain ⟨m, hm⟩ := rndPos_int (q := -(n : ℚ)) (by rw [e53]; linarith)
      have hv2 := hv'
      unfold rnd at hv2
      simp only at hv2
      rw [if_neg h0.ne, if_neg h0.not_gt] at hv2
      split at hv2
      · cases hv2
      · split at hv2
        · cases hv2
        · cases hv2
          rw [hm] at hv' hlo hhi
          refine ⟨-m, by rw [hv']; push_cast; rfl, by exact_mod_cast hlo, ?_⟩
          have : -m ≤ -(2 : Int) ^ 53 := by exact_mod_cast hhi
          omega

theorem integer_text {n : Int} (h : isI64 n = true) :
    parseLeaf L source "number".toList (showInt n) = .ok (.integer n) := by
  have hdot : '.' ∉ showInt n := by
    intro hm
    rcases mem_showInt hm with h | h
    · exact absurd h (by decide)
    · revert h; decide
  rw [parseLeaf_number]
  unfold parseNumber
  rw [if_neg hdot, parseI64_showInt h]

/-- C140, exactly, for integers: those are found that are `f64` numbers, and the largest one. -/
theorem C140_integer (hL : IntegerText L) {n : Int} (h : isI64 n = true) :
    FoundBy L source "number".toList (showInt n) ↔ F64.ofInt n = .fin n ∨ n = 2 ^ 63 - 1 := by
  have hn : n.natAbs ≤ 2 ^ 63 := by
    simp only [isI64, Bool.and_eq_true, decide_eq_true_eq] at h
    omega
  obtain ⟨m, hm, hlo, hhi⟩ := ofInt_int hn
  have hq := qLeaf_number (showInt_number n) follow_nil.toFollowBlank
  rw [List.append_nil] at hq
  obtain ⟨w, hw, hc⟩ := C75_integer_exact hL n hm (by simp)
  rw [foundBy_iff (integer_text h) hq hw, hc, hm]
  show Except.ok (decide (n = max (-2 ^ 63) (min (2 ^ 63 - 1) ((m : ℚ).num)))) = Except.ok true ↔ _
  simp only [isI64, Bool.and_eq_true, decide_eq_true_eq] at h
  rw [Rat.num_intCast]
  simp only [Except.ok.injEq, decide_eq_true_eq, F64.fin.injEq, Int.cast_inj]
  have hmax : n = 2 ^ 63 - 1 → m = 2 ^ 63 := by
    rintro rfl
    have : F64.ofInt (2 ^ 63 - 1) = .fin ((2 ^ 63 : Int) : ℚ) := by decide +kernel
    rw [this] at hm
    exact (Int.cast_inj.1 (F64.fin.inj hm)).symm
  rw [min_def, max_def]
  constructor
  · intro e
    split at e <;> (try split at e) <;> omega
  · intro e
    split <;> (try split) <;> omega

/-- C140: integers up to `2^53` are found; beyond, most are not. -/
theorem C140_integer_small (hL : IntegerText L) {n : Int} (h : n.natAbs ≤ 2 ^ 53) :
    FoundBy L source "number".toList (showInt n) :=
  (C140_integer hL (by simp [isI64]; omega)).2 (.inl (F64.ofInt_exact h))

/-- C140 is false: the integer `9007199254740993` is not found by itself. -/
theorem C140_integer_lost (hL : IntegerText L) : ¬ FoundBy L source "number".toList (showInt 9007199254740993) := by
  rw [C140_integer hL (by decide)]
  rintro (h | h)
  · revert h; decide +kernel
  · revert h; decide

theorem sub_self_fin (q : ℚ) : ((F64.fin q).sub (.fin q)).abs.lt F64.epsilon = true := by
  have h : (F64.fin q).sub (.fin q) = .fin 0 := by
    by_cases hq : q = 0
    · subst hq; rfl
    · show (F64.fin q).add (if q = 0 then negZero else fin (-q)) = _
      rw [if_neg hq]
      show rnd (q + -q) = _
      rw [add_neg_cancel]
      rfl
  rw [h]
  decide +kernel

theorem far_apart {p q : ℚ} (hp : OnGrid p) (bp : |p| < pow2 1024) (h : (0 < q ∧ q + 1 ≤ p) ∨ (q < 0 ∧ p ≤ q - 1)) :
    ((F64.fin p).sub (.fin q)).abs.lt F64.epsilon = false := by
  have g1 : OnGrid (1 : ℚ) := by
    have := pow2_grid (e := 0) (by omega)
    rwa [show pow2 0 = 1 from by rw [pow2_eq]; norm_num] at this
  have b1 : |(1 : ℚ)| < pow2 1024 := by
    rw [abs_one, show (1 : ℚ) = pow2 0 from by rw [pow2_eq]; norm_num]
    exact pow2_lt.2 (by omega)
  have n1 : |(-1 : ℚ)| < pow2 1024 := by rw [abs_neg]; exact b1
  have hq : q ≠ 0 := by rcases h with h | h <;> [exact h.1.ne'; exact h.1.ne]
  have hs : (F64.fin p).sub (.fin q) = rnd (p + -q) := by
    show (F64.fin p).add (if q = 0 then negZero else fin (-q)) = _
    rw [if_neg hq]
    rfl
  have he : pow2 (-52) < 1 := by
    rw [show (1 : ℚ) = pow2 0 from by rw [pow2_eq]; norm_num]
    exact pow2_lt.2 (by omega)
  have key : ∀ x : ℚ, 1 ≤ |x| → (F64.fin x).abs.lt F64.epsilon = false := by
    intro x hx
    have : (F64.fin x).abs = .fin |x| := by
      show F64.fin (if x < 0 then -x else x) = _
      by_cases hc : x < 0
      · rw [if_pos hc, abs_of_neg hc]
      · rw [if_neg hc, abs_of_nonneg (not_lt.1 hc)]
    rw [this]
    show (some ((compare (1 : Nat) 1).then (ratCmp |x| (pow2 (-52)))) == some Ordering.lt) = false
    have hg : ratCmp |x| (pow2 (-52)) = .gt := ratCmp_gt.2 (lt_of_lt_of_le he hx)
    rw [hg]
    rfl
  rw [hs]
  rcases h with ⟨h0, h1⟩ | ⟨h0, h1⟩
  · obtain ⟨v, hv, hlo, -⟩ := rnd_between g1 hp b1 bp (q := p + -q) (by linarith) (by linarith)
    rcases hv with hv | ⟨-, rfl⟩
    · rw [hv]
      exact key v (by rw [abs_of_nonneg (by linarith)]; exact hlo)
    · linarith
  · obtain ⟨v, hv, -, hhi⟩ := rnd_between hp g1.neg bp n1 (q := p + -q) (by linarith) (by linarith)
    rcases hv with hv | ⟨-, rfl⟩
    · rw [hv]
      exact key v (by rw [abs_of_nonpos (by linarith)]; linarith)
    · linarith

theorem float_text {t : Str} {f : F64} (hd : '.' ∈ t) (hf : L.parseF64 t = some f) :
    parseLeaf L source "number".toList t = .ok (.float f) := by
  rw [parseLeaf_number]
  unfold parseNumber
  rw [if_pos hd, hf]

/-- C140, exactly, for floats: they are found unless they are whole numbers beyond `2^63`, which the query
replaces by the largest or smallest integer. -/
theorem C140_float {t : Str} {f : F64} (ht : IsNumberText t) (hd : '.' ∈ t) (hf : L.parseF64 t = some f)
    (hfin : FiniteFloat f) :
    FoundBy L source "number".toList t ↔ ∀ n : Int, f = .fin n → n.natAbs ≤ 2 ^ 63 := by
  have hq := qLeaf_number ht follow_nil.toFollowBlank
  rw [List.append_nil] at hq
  rw [foundBy_iff (float_text hd hf) hq (w' := .number f) (by simp [readQValue, readF64, hf])]
  show compareField L.env (.float f) .equal (convertNumber f) = .ok true ↔ _
  rcases hfin with rfl | ⟨q, rfl, hg, hb⟩
  · refine ⟨fun _ n h => (by cases h), fun _ => ?_⟩
    show Except.ok ((F64.negZero.sub (F64.ofInt 0)).abs.lt F64.epsilon) = _
    exact congrArg Except.ok (by decide +kernel)
  · unfold convertNumber
    by_cases hden : q.den = 1
    · simp only [if_pos hden]
      obtain ⟨n, rfl⟩ : ∃ n : Int, q = n := ⟨q.num, ((Rat.den_eq_one_iff q).1 hden).symm⟩
      rw [Rat.num_intCast]
      show Except.ok ((F64.sub (.fin n) (F64.ofInt (max (-2 ^ 63) (min (2 ^ 63 - 1) n)))).abs.lt F64.epsilon) = _ ↔ _
      have hall : (∀ m : Int, F64.fin (n : ℚ) = .fin m → m.natAbs ≤ 2 ^ 63) ↔ n.natAbs ≤ 2 ^ 63 := by
        constructor
        · exact fun h => h n rfl
        · intro h m hm
          rw [← Int.cast_inj.1 (F64.fin.inj hm)]
          exact h
      rw [hall]
      have hmin : F64.ofInt (-2 ^ 63) = .fin ((-2 ^ 63 : Int) : ℚ) := by decide +kernel
      have hmax : F64.ofInt (2 ^ 63 - 1) = .fin ((2 ^ 63 : Int) : ℚ) := by decide +kernel
      by_cases h1 : n < -2 ^ 63
      · rw [show max (-2 ^ 63) (min (2 ^ 63 - 1) n) = -2 ^ 63 by omega, hmin, far_apart hg hb (.inr ⟨by norm_num, by
          have : n ≤ -2 ^ 63 - 1 := by omega
          exact_mod_cast this⟩)]
        simp only [Except.ok.injEq, Bool.false_eq_true, false_iff]
        omega
      · by_cases h2 : 2 ^ 63 < n
        · rw [show max (-2 ^ 63) (min (2 ^ 63 - 1) n) = 2 ^ 63 - 1 by omega, hmax, far_apart hg hb (.inl ⟨by norm_num, by
            have : (2 : Int) ^ 63 + 1 ≤ n := by omega
            exact_mod_cast this⟩)]
          simp only [Except.ok.injEq, Bool.false_eq_true, false_iff]
          omega
        · have : F64.ofInt (max (-2 ^ 63) (min (2 ^ 63 - 1) n)) = .fin n := by
            by_cases h3 : n = 2 ^ 63
            · subst h3
              exact hmax
            · rw [show max (-2 ^ 63) (min (2 ^ 63 - 1) n) = n by omega]
              exact rnd_grid hg hb
          rw [this, sub_self_fin]
          simp only [true_iff]
          omega
    · simp only [if_neg hden]
      show Except.ok ((F64.sub (.fin q) (.fin q)).abs.lt F64.epsilon) = _ ↔ _
      rw [sub_self_fin]
      simp only [true_iff]
      intro n hn
      rw [F64.fin.inj hn] at hden
      simp at hden

/-- C140: a number too large for a float is not found. -/
theorem C140_float_infinite {t : Str} {b : Bool} (ht : IsNumberText t) (hd : '.' ∈ t)
    (hf : L.parseF64 t = some (.inf b)) : ¬ FoundBy L source "number".toList t := by
  have hq := qLeaf_number ht follow_nil.toFollowBlank
  rw [List.append_nil] at hq
  rw [foundBy_iff (float_text hd hf) hq (w' := .number (.inf b)) (by simp [readQValue, readF64, hf])]
  show compareField L.env (.float (.inf b)) .equal (.float (.inf b)) = .ok true → False
  cases b <;> (intro h; revert h; show Except.ok _ = _ → _; decide +kernel)

/-! ## Amounts -/

/-- C140, exactly, for amounts: they are found exactly if the nearest float, made decimal again, is the
same amount. -/
theorem C140_currency {t c : Str} (ht : IsNumberText t) (hc : IsCode c) {d : Decimal} {f : F64}
    (hd : parseDecimal t = some d) (hf : L.parseF64 t = some f) (hk : L.knownCurrency c = true) :
    FoundBy L source "currency".toList (t ++ ' ' :: c) ↔ ∃ x, L.env.decOfF64 f = some x ∧ x.val = d.val := by
  have hq := qLeaf_currency (r := []) ht hc
  rw [List.append_nil] at hq
  have hp : parseLeaf L source "currency".toList (t ++ ' ' :: c) = .ok (.currency d c) := by
    have hs : ' ' ∉ t := by
      intro hm
      obtain ⟨sg, ds, fr, rfl, h1, h2, h3⟩ := ht
      simp only [List.mem_append] at hm
      rcases hm with (hm | hm) | hm
      · rcases h1 with rfl | rfl
        · cases hm
        · exact absurd hm (by decide)
      · exact absurd (h2.2 _ hm) (by decide)
      · rcases h3 with rfl | ⟨fs, rfl, h3⟩
        · cases hm
        · rcases List.mem_cons.1 hm with hm | hm
          · exact absurd hm (by decide)
          · exact absurd (h3.2 _ hm) (by decide)
    have hb : ' ' ∉ c := fun hm => absurd (hc.2.1 _ hm) (by decide)
    rw [parseLeaf_currency]
    unfold parseCurrency
    rw [splitChar_append _ hs, splitChar_none hb]
    simp only [hd, hk, if_true]
  rw [foundBy_iff hp hq (w' := .currency f c) (by simp [readQValue, readF64, hf])]
  show compareCurrency L.env (.currency d c) .equal (.currency f c) = .ok true ↔ _
  unfold compareCurrency
  simp only [ne_eq, not_true_eq_false, if_false]
  cases L.env.decOfF64 f with
  | none => simp
  | some x =>
    show Except.ok (d.cmp x == .eq) = .ok true ↔ _
    simp only [Except.ok.injEq, beq_iff_eq, Decimal.cmp, ratCmp_eq, Option.some.injEq, exists_eq_left']
    exact eq_comm

/-! ## Dates -/

/-- C140: dates without a time of day are found. -/
theorem C140_date (he : Chrono L.env) {y m d : Str} (hy : IsDigitsN 4 y) (hm : IsDigitsN 2 m) (hd : IsDigitsN 2 d)
    (hv : Civil.valid ⟨digitsVal y, digitsVal m, digitsVal d⟩ = true) :
    FoundBy L source "date".toList (y ++ '-' :: m ++ '-' :: d) := by
  have hq := qLeaf_dateTime (t := y ++ '-' :: m ++ '-' :: d) ⟨_, ⟨y, m, d, hy, hm, hd, rfl⟩, .inl rfl⟩ follow_nil
  rw [List.append_nil] at hq
  have h2 := parseCivil_digits hy hm hd []
  rw [List.append_nil, if_pos ⟨rfl, hv⟩] at h2
  have hp : parseLeaf L source "date".toList (y ++ '-' :: m ++ '-' :: d) =
      .ok (.dateTime (localDateTime (Civil.toDays ⟨digitsVal y, digitsVal m, digitsVal d⟩) 0 L.localOffset)) := by
    unfold parseLeaf
    rw [if_neg (by decide), if_neg (by decide), if_neg (by decide), if_neg (by decide), if_neg (by decide), if_pos rfl]
    unfold parseDate
    rw [h2]
  rw [foundBy_iff hp hq (by rw [readQValue])]
  obtain ⟨b, h3, h4⟩ := ((C124_days_partial L.env he hy hm hd
    (localDateTime (Civil.toDays ⟨digitsVal y, digitsVal m, digitsVal d⟩) 0 L.localOffset)).1 hv).equal
  show compareField _ (.dateTime _) .equal (.dateTime _) = _
  rw [h3, h4.2]
  rw [show (localDateTime (Civil.toDays ⟨digitsVal y, digitsVal m, digitsVal d⟩) 0 L.localOffset).localDay =
    Civil.toDays ⟨digitsVal y, digitsVal m, digitsVal d⟩ by
      unfold localDateTime DateTime.localDay
      dsimp only
      omega, civilOf_toDays (civil_proper hv)]

theorem parseDateTime_ok {raw : Str} {v : ParsedValue} (h : parseDateTime L raw = .ok v) : ∃ x, v = .dateTime x := by
  unfold parseDateTime at h
  split at h
  · split at h
    · cases h
    · split at h
      · cases h
      · split at h
        · cases h
        · cases h
          exact ⟨_, rfl⟩
  · cases h

/-- C140 is false: a date with a time of day is never found by itself. -/
theorem C140_moment (he : Chrono L.env) {d t z : Str} (hd : IsDate d) (ht : IsTime t)
    (hz : z = [] ∨ ∃ w, w ≠ [] ∧ (∀ c ∈ w, qAlpha c = true) ∧ z = ' ' :: w) :
    ¬ FoundBy L source "datetime".toList (d ++ t ++ z) := by
  rintro ⟨v, w, w', h1, h2, h3, h4⟩
  have hq := qLeaf_dateTime (t := d ++ t ++ z) ⟨d, hd, .inr ⟨t, ht, by
    rcases hz with rfl | ⟨w, hw, hw', rfl⟩
    · exact .inl (by simp)
    · exact .inr ⟨w, hw, hw', rfl⟩⟩⟩ follow_nil
  rw [List.append_nil, h2] at hq
  cases hq
  rw [readQValue] at h3
  cases h3
  have hp : parseLeaf L source "datetime".toList (d ++ t ++ z) = parseDateTime L (d ++ t ++ z) := by
    unfold parseLeaf
    rw [if_neg (by decide), if_neg (by decide), if_neg (by decide), if_neg (by decide), if_neg (by decide),
      if_neg (by decide), if_pos rfl]
  rw [hp] at h1
  obtain ⟨x, rfl⟩ := parseDateTime_ok h1
  have := C124_never L.env he hd ht z x .equal
  rw [show compareField L.env (toFieldValue L.cases (.dateTime x)) .equal (convertValue (.dateTime (d ++ t ++ z))) =
    compareField L.env (.dateTime x) .equal (.dateTime (d ++ t ++ z)) from rfl, this] at h4
  cases h4

/-! ## References -/

theorem ident_no_dot {a : Str} (h : IsIdent a) : '.' ∉ a := by
  obtain ⟨c, cs, rfl, h1, h2⟩ := h
  intro hm
  rcases List.mem_cons.1 hm with rfl | hm
  · exact absurd h1 (by decide)
  · exact absurd (h2 _ hm) (by decide)

/-- C140, exactly, for references to entities: they are found if normalising leaves them as they are, up to
case. -/
theorem C140_reference {a b : Str} (ha : IsIdent a) (hb : IsIdent b) :
    FoundBy L source "reference".toList (a ++ '.' :: b) ↔ SameText (L.cases.composeEntityId a b) (a ++ '.' :: b) := by
  have hq := qLeaf_reference (t := a ++ '.' :: b) ⟨a, b, ha, hb, .inl rfl⟩ follow_nil.toFollowBlank
  rw [List.append_nil] at hq
  have hp : parseLeaf L source "reference".toList (a ++ '.' :: b) = .ok (.entityRef a b) := by
    rw [parseLeaf_reference]
    unfold parseReference
    rw [splitChar_append _ (ident_no_dot ha), splitChar_none (ident_no_dot hb)]
  rw [foundBy_iff hp hq (by rw [readQValue]), ← eqIgnoreAsciiCase_iff]
  show compareReference (.reference (.entity (L.cases.composeEntityId a b))) .equal (.reference (a ++ '.' :: b)) = _ ↔ _
  unfold compareReference
  simp [ReferenceValue.display]

/-- C140, exactly, for references to fields. -/
theorem C140_field_reference {a b c : Str} (ha : IsIdent a) (hb : IsIdent b) (hc : IsIdent c) :
    FoundBy L source "reference".toList (a ++ '.' :: b ++ '.' :: c) ↔
      SameText (L.cases.composeEntityId a b) (a ++ '.' :: b) := by
  have hq := qLeaf_reference (t := a ++ '.' :: b ++ '.' :: c) ⟨a, b, ha, hb, .inr ⟨c, hc, rfl⟩⟩ follow_nil.toFollowBlank
  rw [List.append_nil] at hq
  have hp : parseLeaf L source "reference".toList (a ++ '.' :: b ++ '.' :: c) = .ok (.fieldRef a b c) := by
    rw [parseLeaf_reference]
    unfold parseReference
    rw [List.append_assoc, List.cons_append, splitChar_append _ (ident_no_dot ha), splitChar_append _ (ident_no_dot hb),
      splitChar_none (ident_no_dot hc)]
  rw [foundBy_iff hp hq (by rw [readQValue]), sameText_iff]
  show compareReference (.reference (.field (L.cases.composeEntityId a b) c)) .equal
    (.reference (a ++ '.' :: b ++ '.' :: c)) = _ ↔ _
  unfold compareReference
  simp only [ReferenceValue.display, ne_eq, not_true_eq_false, false_and, if_false, if_true, Except.ok.injEq,
    eqIgnoreAsciiCase, beq_iff_eq]
  unfold asciiLower
  rw [List.map_append, List.map_append]
  exact List.append_left_inj _

/-- C140: references in normal form are found. -/
theorem C140_reference_normal (hL : RegularCase L.cases) {a b : Str} (ha : IsIdent a) (hb : IsIdent b)
    (h : IsSnake L.cases (a ++ '.' :: b)) : FoundBy L source "reference".toList (a ++ '.' :: b) := by
  rw [C140_reference ha hb, compose_parts hL h]
  exact sameText_refl _

/-- C140 is false: `person.john2` becomes `person.john_2` when it is read, and is not found by itself. -/
theorem C140_reference_lost : ¬ FoundBy exLang source "reference".toList "person.john2".toList := by
  have h := C140_reference (L := exLang) (source := source) (a := "person".toList) (b := "john2".toList)
    ⟨'p', "erson".toList, rfl, by decide, by decide⟩ ⟨'j', "ohn2".toList, rfl, by decide, by decide⟩
  rw [show "person.john2".toList = "person".toList ++ '.' :: "john2".toList by decide, h]
  intro hs
  have hl := sameText_length hs
  revert hl
  decide +kernel

/-! ## Paths -/

theorem lower_mark {c d : Char} (hd : d.toNat < 65) : c.toLower = d.toLower ↔ c = d := by
  rw [toLower_eq_iff]
  unfold SameLetter
  constructor
  · rintro (h | h | h)
    · exact h
    · omega
    · omega
  · exact .inl

theorem lower_slash {c : Char} : c.toLower = '/' ↔ c = '/' := lower_mark (d := '/') (by decide)
theorem lower_dot {c : Char} : c.toLower = '.' ↔ c = '.' := lower_mark (d := '.') (by decide)

theorem splitChar_lower (s : Str) : splitChar '/' (asciiLower s) = (splitChar '/' s).map asciiLower := by
  induction s with
  | nil => rfl
  | cons c s ih =>
    show splitChar '/' (c.toLower :: asciiLower s) = _
    unfold splitChar
    by_cases hc : c = '/'
    · rw [if_pos (lower_slash.2 hc), if_pos hc, ih]
      rfl
    · rw [if_neg (fun h => hc (lower_slash.1 h)), if_neg hc, ih]
      cases splitChar '/' s <;> rfl

theorem lower_nil {p : Str} : asciiLower p = [] ↔ p = [] := by
  unfold asciiLower
  exact List.map_eq_nil_iff

theorem lower_one {p : Str} : asciiLower p = ['.'] ↔ p = ['.'] := by
  unfold asciiLower
  constructor
  · intro h
    obtain ⟨a, l, rfl, ha, hl⟩ := List.map_eq_cons_iff.1 h
    rw [lower_dot.1 ha, List.map_eq_nil_iff.1 hl]
  · rintro rfl
    rfl

theorem lower_two {p : Str} : asciiLower p = ['.', '.'] ↔ p = ['.', '.'] := by
  constructor
  · intro h
    obtain ⟨a, l, rfl, ha, hl⟩ := List.map_eq_cons_iff.1 h
    rw [lower_dot.1 ha, lower_one.1 hl]
  · rintro rfl
    rfl

/-- A component in lower case. -/
def lowerComp : PathComp → PathComp
  | .normal n => .normal (asciiLower n)
  | c => c

theorem piece_lower (p : Str) : pieceComp (asciiLower p) = (pieceComp p).map lowerComp := by
  unfold pieceComp
  simp only [lower_nil, lower_one, lower_two]
  split
  · rfl
  · split
    · rfl
    · split <;> rfl

theorem pieces_lower (ps : List Str) : (ps.map asciiLower).filterMap pieceComp = (ps.filterMap pieceComp).map lowerComp := by
  rw [List.filterMap_map, List.map_filterMap]
  congr 1
  funext p
  exact piece_lower p

theorem components_lower (s : Str) : pathComponents (asciiLower s) = (pathComponents s).map lowerComp := by
  cases s with
  | nil => rfl
  | cons c s =>
    have hsp := splitChar_lower (c :: s)
    by_cases hc : c = '/'
    · subst hc
      show PathComp.rootDir :: (splitChar '/' (asciiLower ('/' :: s))).filterMap pieceComp = _
      rw [hsp, pieces_lower]
      rfl
    · have h1 : ∀ (d : Char) (x : Str), d ≠ '/' → pathComponents (d :: x) = (match splitChar '/' (d :: x) with
        | first :: rest => (if first = ['.'] then [PathComp.curDir] else (pieceComp first).toList) ++ rest.filterMap pieceComp
        | [] => []) := by
        intro d x hd
        unfold pathComponents
        split
        · next h => cases h
        · next h => cases h; exact absurd rfl hd
        · rfl
      rw [show asciiLower (c :: s) = c.toLower :: asciiLower s from rfl, h1 _ _ (fun h => hc (lower_slash.1 h)), h1 _ _ hc,
        show c.toLower :: asciiLower s = asciiLower (c :: s) from rfl, hsp]
      cases splitChar '/' (c :: s) with
      | nil => rfl
      | cons f r =>
        show (if asciiLower f = ['.'] then [PathComp.curDir] else (pieceComp (asciiLower f)).toList) ++
          (r.map asciiLower).filterMap pieceComp = _
        rw [pieces_lower, List.map_append]
        simp only [lower_one, piece_lower]
        split
        · rfl
        · cases pieceComp f <;> rfl

/-- How much deeper a path leads. -/
def netDepth : List PathComp → Int
  | [] => 0
  | .normal _ :: cs => 1 + netDepth cs
  | .parentDir :: cs => -1 + netDepth cs
  | _ :: cs => netDepth cs

theorem netDepth_lower (cs : List PathComp) : netDepth (cs.map lowerComp) = netDepth cs := by
  induction cs with
  | nil => rfl
  | cons c cs ih => cases c <;> simp [lowerComp, netDepth, ih]

theorem place_length {cs : List PathComp} (h : PathComp.rootDir ∉ cs) (loc : List Str) (hl : cs.length ≤ loc.length) :
    ((lexicalPlace loc cs).length : Int) = loc.length + netDepth cs := by
  induction cs generalizing loc with
  | nil => simp [lexicalPlace, netDepth]
  | cons c cs ih =>
    have h' : PathComp.rootDir ∉ cs := fun hm => h (List.mem_cons_of_mem _ hm)
    simp only [List.length_cons] at hl
    cases c with
    | rootDir => exact absurd (List.mem_cons_self) h
    | curDir => exact ih h' loc (by omega)
    | parentDir =>
      show ((lexicalPlace loc.dropLast cs).length : Int) = _
      rw [ih h' _ (by rw [List.length_dropLast]; omega), List.length_dropLast, netDepth]
      omega
    | normal n =>
      show ((lexicalPlace (loc ++ [n]) cs).length : Int) = _
      rw [ih h' _ (by rw [List.length_append]; omega), List.length_append, netDepth]
      simp
      omega

theorem relative_components {s : Str} (h : s.head? ≠ some '/') : PathComp.rootDir ∉ pathComponents s := by
  obtain ⟨pre, r, h1, h2, h3⟩ := components_shape s
  rw [h1]
  intro hm
  rcases List.mem_append.1 hm with hm | hm
  · rcases h3 with rfl | rfl | ⟨rfl, hh⟩
    · cases hm
    · exact absurd hm (by decide)
    · exact h hh
  · rcases h2 _ hm with h | ⟨n, h, -⟩ <;> cases h

/-- A relative path that leads where another path leads from a deeper directory. -/
theorem net_of_place {p s : Str} {dirs : List Str} (hs : s.head? ≠ some '/')
    (h : ∀ ws, lexicalPlace ws (pathComponents p) = lexicalPlace (ws ++ dirs) (pathComponents s)) :
    p.head? ≠ some '/' ∧ netDepth (pathComponents p) = dirs.length + netDepth (pathComponents s) := by
  have hr := relative_components hs
  have hp : p.head? ≠ some '/' := by
    intro hp
    cases p with
    | nil => cases hp
    | cons c p =>
      cases hp
      have key : ∀ ws, lexicalPlace ws (pathComponents ('/' :: p)) =
          lexicalPlace [] ((splitChar '/' ('/' :: p)).filterMap pieceComp) := fun ws => rfl
      have e := (h (List.replicate (pathComponents s).length [])).symm.trans
        ((key _).trans ((key (List.replicate ((pathComponents s).length + 1) [])).symm.trans (h _)))
      have e := congrArg (fun l => (l.length : Int)) e
      rw [place_length hr _ (by simp), place_length hr _ (by simp; omega)] at e
      simp at e
  refine ⟨hp, ?_⟩
  have e := congrArg (fun l => (l.length : Int))
    (h (List.replicate ((pathComponents s).length + (pathComponents p).length) []))
  rw [place_length (relative_components hp) _ (by simp), place_length hr _ (by simp; omega)] at e
  simp at e
  omega

/-- The pieces of a path in normal form. -/
def NormalPieces (ps : List Str) : Prop :=
  ps = [[], []] ∨ (∃ ns, ns ≠ [] ∧ (∀ n ∈ ns, ValidName n) ∧ ps = [] :: ns) ∨
    (∃ ns, ns ≠ [] ∧ (∀ n ∈ ns, ValidName n) ∧ ps = ['.'] :: ns) ∨ ps = [['.'], ['.']] ∨
    ∃ (k : Nat) (ns : List Str), (∀ n ∈ ns, ValidName n) ∧ ps = List.replicate (k + 1) ['.', '.'] ++ ns

theorem normalPath_iff {s : Str} : NormalPath s ↔ NormalPieces (splitChar '/' s) := by
  constructor
  · intro h
    cases h with
    | @absolute ns hn =>
      cases ns with
      | nil => exact .inl rfl
      | cons n ns =>
        refine .inr (.inl ⟨n :: ns, by simp, hn, ?_⟩)
        show splitChar '/' ([] ++ '/' :: joinWith ['/'] (n :: ns)) = _
        rw [splitChar_append _ (by simp), splitChar_join (by simp) fun m hm => (hn m hm).noSlash]
    | @inside ns hne hn =>
      refine .inr (.inr (.inl ⟨ns, hne, hn, ?_⟩))
      show splitChar '/' (['.'] ++ '/' :: joinWith ['/'] ns) = _
      rw [splitChar_append _ (by decide), splitChar_join hne fun m hm => (hn m hm).noSlash]
    | here => exact .inr (.inr (.inr (.inl (by decide))))
    | @outside k ns hn =>
      refine .inr (.inr (.inr (.inr ⟨k, ns, hn, ?_⟩)))
      refine splitChar_join (by simp) fun m hm => ?_
      rcases List.mem_append.1 hm with hm | hm
      · rw [List.eq_of_mem_replicate hm]; decide
      · exact (hn m hm).noSlash
  · intro h
    have hj := joinWith_splitChar '/' s
    rcases h with h | ⟨ns, hne, hn, h⟩ | ⟨ns, hne, hn, h⟩ | h | ⟨k, ns, hn, h⟩
    · rw [h] at hj
      rw [← hj]
      exact .absolute (ns := []) (by simp)
    · rw [h] at hj
      rw [← hj]
      cases ns with
      | nil => exact absurd rfl hne
      | cons n ns => exact .absolute hn
    · rw [h] at hj
      rw [← hj]
      cases ns with
      | nil => exact absurd rfl hne
      | cons n ns => exact .inside (by simp) hn
    · rw [h] at hj
      rw [← hj]
      exact .here
    · rw [h] at hj
      rw [← hj]
      exact .outside hn

theorem validName_lower {n : Str} : ValidName (asciiLower n) ↔ ValidName n := by
  have hs : '/' ∈ asciiLower n ↔ '/' ∈ n := by
    unfold asciiLower
    rw [List.mem_map]
    exact ⟨fun ⟨c, h1, h2⟩ => lower_slash.1 h2 ▸ h1, fun h => ⟨'/', h, rfl⟩⟩
  constructor
  · rintro ⟨h1, h2, h3, h4⟩
    exact ⟨fun h => h1 (lower_nil.2 h), fun h => h2 (hs.2 h), fun h => h3 (lower_one.2 h), fun h => h4 (lower_two.2 h)⟩
  · rintro ⟨h1, h2, h3, h4⟩
    exact ⟨fun h => h1 (lower_nil.1 h), fun h => h2 (hs.1 h), fun h => h3 (lower_one.1 h), fun h => h4 (lower_two.1 h)⟩

theorem validNames_lower {ns : List Str} : (∀ n ∈ ns.map asciiLower, ValidName n) ↔ ∀ n ∈ ns, ValidName n := by
  constructor
  · exact fun h n hn => validName_lower.1 (h _ (List.mem_map.2 ⟨n, hn, rfl⟩))
  · intro h m hm
    obtain ⟨n, hn, rfl⟩ := List.mem_map.1 hm
    exact validName_lower.2 (h n hn)

theorem normalPieces_lower {ps : List Str} : NormalPieces (ps.map asciiLower) ↔ NormalPieces ps := by
  constructor
  · rintro (h | ⟨ns, hne, hn, h⟩ | ⟨ns, hne, hn, h⟩ | h | ⟨k, ns, hn, h⟩)
    · obtain ⟨a, l, rfl, ha, hl⟩ := List.map_eq_cons_iff.1 h
      obtain ⟨b, l, rfl, hb, hl⟩ := List.map_eq_cons_iff.1 hl
      rw [lower_nil.1 ha, lower_nil.1 hb, List.map_eq_nil_iff.1 hl]
      exact .inl rfl
    · obtain ⟨a, l, rfl, ha, rfl⟩ := List.map_eq_cons_iff.1 h
      exact .inr (.inl ⟨l, fun h => hne (by rw [h]; rfl), validNames_lower.1 hn, by rw [lower_nil.1 ha]⟩)
    · obtain ⟨a, l, rfl, ha, rfl⟩ := List.map_eq_cons_iff.1 h
      exact .inr (.inr (.inl ⟨l, fun h => hne (by rw [h]; rfl), validNames_lower.1 hn, by rw [lower_one.1 ha]⟩))
    · obtain ⟨a, l, rfl, ha, hl⟩ := List.map_eq_cons_iff.1 h
      obtain ⟨b, l, rfl, hb, hl⟩ := List.map_eq_cons_iff.1 hl
      rw [lower_one.1 ha, lower_one.1 hb, List.map_eq_nil_iff.1 hl]
      exact .inr (.inr (.inr (.inl rfl)))
    · obtain ⟨a, b, rfl, ha, rfl⟩ := List.map_eq_append_iff.1 h
      refine .inr (.inr (.inr (.inr ⟨k, b, validNames_lower.1 hn, ?_⟩)))
      congr 1
      rw [List.eq_replicate_iff]
      have hlen := congrArg List.length ha
      simp only [List.length_map, List.length_replicate] at hlen
      refine ⟨hlen, fun x hx => ?_⟩
      have : asciiLower x ∈ List.replicate (k + 1) ['.', '.'] := ha ▸ List.mem_map.2 ⟨x, hx, rfl⟩
      exact lower_two.1 (List.eq_of_mem_replicate this)
  · rintro (rfl | ⟨ns, hne, hn, rfl⟩ | ⟨ns, hne, hn, rfl⟩ | rfl | ⟨k, ns, hn, rfl⟩)
    · exact .inl rfl
    · exact .inr (.inl ⟨_, fun h => hne (List.map_eq_nil_iff.1 h), validNames_lower.2 hn, rfl⟩)
    · exact .inr (.inr (.inl ⟨_, fun h => hne (List.map_eq_nil_iff.1 h), validNames_lower.2 hn, rfl⟩))
    · exact .inr (.inr (.inr (.inl rfl)))
    · refine .inr (.inr (.inr (.inr ⟨k, _, validNames_lower.2 hn, ?_⟩)))
      rw [List.map_append, List.map_replicate]
      rfl

theorem normalPath_same {p t : Str} (h : SameText p t) (hp : NormalPath p) : NormalPath t := by
  rw [normalPath_iff] at hp ⊢
  rw [← normalPieces_lower, ← splitChar_lower] at hp ⊢
  rwa [← sameText_iff.1 h]

theorem clean_names (ns : List Str) (out : List PathComp) :
    (ns.map PathComp.normal).foldl cleanStep out = (ns.map PathComp.normal).reverse ++ out := by
  induction ns generalizing out with
  | nil => rfl
  | cons n ns ih =>
    rw [List.map_cons, List.foldl_cons, ih, List.reverse_cons, List.append_assoc]
    rfl

theorem clean_parents (k j : Nat) : (List.replicate k PathComp.parentDir).foldl cleanStep (List.replicate j .parentDir) =
    List.replicate (k + j) .parentDir := by
  induction k generalizing j with
  | zero => simp
  | succ k ih =>
    rw [List.replicate_succ, List.foldl_cons]
    have : cleanStep (List.replicate j PathComp.parentDir) .parentDir = List.replicate (j + 1) .parentDir := by
      cases j <;> rfl
    rw [this, ih, show k + (j + 1) = k + 1 + j by omega]

/-- A path in normal form is stored as it is written. -/
theorem stored_normal {s : Str} (h : NormalPath s) (hq : '"' ∉ s) (he : ∀ x, s ≠ x ++ "path".toList) (hs : parentComps source = some [] ∨ s.head? = some '/') :
    parsePath ("path\"".toList ++ s ++ ['"']) source = .ok (.path s) := by
  unfold parsePath
  rw [parsePath_literal (source := []) hq he]
  dsimp only
  have hres : resolvePath s source = cleanComps (pathComponents s) := by
    unfold resolvePath
    by_cases hh : startsWith s ['/'] = true
    · simp only [if_pos hh]
    · simp only [if_neg hh]
      rcases hs with hs | hs
      · rw [hs]; rfl
      · exfalso
        apply hh
        cases s with
        | nil => cases hs
        | cons c s => cases hs; exact (startsWith_iff _ _).2 ⟨s, rfl⟩
  rw [hres]
  cases h with
  | @absolute ns hn =>
    rw [pathComponents_placeText hn]
    have hc : cleanComps (.rootDir :: ns.map .normal) = .rootDir :: ns.map .normal := by
      unfold cleanComps
      rw [List.foldl_cons, clean_names, List.reverse_append, List.reverse_reverse]
      rfl
    rw [hc]
    show Except.ok (ParsedValue.path ('/' :: joinWith ['/'] ((ns.map PathComp.normal).map compText))) = _
    rw [compText_normals]
    rfl
  | @inside ns hne hn =>
    have := components_dot (normal_plain hn)
    rw [compText_normals] at this
    rw [show "./".toList ++ joinWith ['/'] ns = '.' :: '/' :: joinWith ['/'] ns from rfl, this]
    have hc : cleanComps (.curDir :: ns.map .normal) = ns.map .normal := by
      unfold cleanComps
      rw [List.foldl_cons, clean_names]
      show List.reverse (_ ++ []) = _
      rw [List.append_nil, List.reverse_reverse]
    rw [hc]
    cases ns with
    | nil => exact absurd rfl hne
    | cons n ns =>
      show Except.ok (ParsedValue.path ('.' :: '/' :: joinWith ['/'] (((n :: ns).map PathComp.normal).map compText))) = _
      rw [compText_normals]
  | here => rfl
  | @outside k ns hn =>
    have hm : (List.replicate (k + 1) PathComp.parentDir ++ ns.map PathComp.normal).map compText =
        List.replicate (k + 1) "..".toList ++ ns := by
      rw [List.map_append, compText_normals, List.map_replicate]
      rfl
    have hpl : ∀ c ∈ List.replicate (k + 1) PathComp.parentDir ++ ns.map PathComp.normal, Plain c := by
      intro c hc
      rcases List.mem_append.1 hc with hc | hc
      · exact .inl (List.eq_of_mem_replicate hc)
      · exact normal_plain hn c hc
    have := components_plain hpl
    rw [hm] at this
    rw [this]
    unfold cleanComps
    rw [List.foldl_append]
    have h0 := clean_parents (k + 1) 0
    rw [List.replicate_zero] at h0
    rw [h0, clean_names, List.reverse_append, List.reverse_reverse, List.reverse_replicate]
    show Except.ok (ParsedValue.path (cleanText (List.replicate (k + 1) PathComp.parentDir ++ ns.map PathComp.normal))) = _
    unfold cleanText
    rw [if_neg (by simp), showComps_plain hpl, hm]

theorem normal_head {s : Str} (h : NormalPath s) : s.head? = some '/' ∨
    ∃ f r, splitChar '/' s = f :: r ∧ (f = ['.'] ∨ f = ['.', '.']) := by
  rcases normalPath_iff.1 h with h | ⟨ns, hne, hn, h⟩ | ⟨ns, hne, hn, h⟩ | h | ⟨k, ns, hn, h⟩
  · have hj := joinWith_splitChar '/' s
    rw [h] at hj
    exact .inl (by rw [← hj]; rfl)
  · have hj := joinWith_splitChar '/' s
    rw [h] at hj
    cases ns with
    | nil => exact absurd rfl hne
    | cons n ns => exact .inl (by rw [← hj]; rfl)
  · exact .inr ⟨_, _, h, .inl rfl⟩
  · exact .inr ⟨_, _, h, .inl rfl⟩
  · exact .inr ⟨_, _, h, .inr rfl⟩

theorem splitChar_prefix {u : Str} (hu : '/' ∉ u) {t f : Str} {r : List Str} (h : splitChar '/' t = f :: r) :
    splitChar '/' (u ++ t) = (u ++ f) :: r := by
  induction u with
  | nil => exact h
  | cons c u ih =>
    simp only [List.mem_cons, not_or] at hu
    rw [List.cons_append, splitChar, if_neg (fun h => hu.1 h.symm), ih hu.2]
    rfl

theorem mem_blank {s : Str} {c : Char} (h : c ∈ s.takeWhile qWs) : qWs c = true := by
  induction s with
  | nil => cases h
  | cons d s ih =>
    rw [List.takeWhile_cons] at h
    split at h
    · next hd =>
      rcases List.mem_cons.1 h with rfl | h
      · exact hd
      · exact ih h
    · cases h

/-- White space in front of a path in normal form makes its first component a name. -/
theorem net_blank {u t : Str} (hu : u ≠ []) (hw : ∀ c ∈ u, qWs c = true) (h : NormalPath t) (hr : t.head? ≠ some '/') :
    netDepth (pathComponents t) < netDepth (pathComponents (u ++ t)) := by
  have key : ∀ (x f : Str) (r : List Str), x.head? ≠ some '/' → splitChar '/' x = f :: r → x ≠ [] → pathComponents x =
      (if f = ['.'] then [PathComp.curDir] else (pieceComp f).toList) ++ r.filterMap pieceComp := by
    intro x f r hx hs hne
    unfold pathComponents
    split
    · exact absurd rfl hne
    · exact absurd rfl hx
    · rw [hs]
  have hus : '/' ∉ u := fun hm => absurd (hw _ hm) (by decide)
  rcases normal_head h with h | ⟨f, r, hs, hf⟩
  · exact absurd h hr
  · have ht : t ≠ [] := by
      rintro rfl
      cases hs
      rcases hf with h | h <;> cases h
    rw [key t f r hr hs ht]
    cases u with
    | nil => exact absurd rfl hu
    | cons c u =>
      have hc := hw c (by simp)
      have hd : c ≠ '.' := by rintro rfl; exact absurd hc (by decide)
      have hsl : c ≠ '/' := by rintro rfl; exact absurd hc (by decide)
      rw [key (c :: u ++ t) (c :: u ++ f) r (by simpa using hsl) (splitChar_prefix hus hs) (by simp),
        if_neg (c := c :: u ++ f = ['.']) (by rw [List.cons_append]; intro h; exact hd (List.cons.inj h).1)]
      have hp : pieceComp (c :: u ++ f) = some (.normal (c :: u ++ f)) := by
        unfold pieceComp
        rw [if_neg (by simp), if_neg (by rw [List.cons_append]; intro h; exact hd (List.cons.inj h).1),
          if_neg (by rw [List.cons_append]; intro h; exact hd (List.cons.inj h).1)]
      rw [hp]
      rcases hf with rfl | rfl
      · show netDepth (r.filterMap pieceComp) < 1 + netDepth (r.filterMap pieceComp)
        omega
      · show -1 + netDepth (r.filterMap pieceComp) < 1 + netDepth (r.filterMap pieceComp)
        omega

/-- C140, exactly, for paths: they are found if they are written in normal form and are absolute or in a source
file directly in the workspace. Missing: paths that end with `path` (`C88_ending`). -/
theorem C140_path_partial {dirs : List Str} {name : Str} (hv : ∀ n ∈ dirs ++ [name], ValidName n) {s : Str}
    (hq : '"' ∉ s) (he : ∀ x, s ≠ x ++ "path".toList) :
    FoundBy L (joinWith ['/'] (dirs ++ [name])) "path".toList ("path".toList ++ '"' :: s ++ ['"']) ↔
      NormalPath s ∧ (dirs = [] ∨ s.head? = some '/') := by
  obtain ⟨p, h1, h2, h3⟩ := C88_place_partial hv hq he
  have key : FoundBy L (joinWith ['/'] (dirs ++ [name])) "path".toList ("path".toList ++ '"' :: s ++ ['"']) ↔
      SameText p (s.dropWhile qWs) := by
    rw [foundBy_iff (v := .path p) (by rw [parseLeaf_path]; exact h1) (qLeaf_tagged_path hq) rfl]
    exact compare_texts (fv := .path p) rfl (.inr (.inr rfl))
  rw [key]
  constructor
  · intro hsame
    have hn := normalPath_same hsame h2
    by_cases hh : s.head? = some '/'
    · refine ⟨?_, .inr hh⟩
      rwa [dropWhile_none (fun c hc => by rw [hh] at hc; cases hc; decide)] at hn
    · obtain ⟨hp, hnet⟩ := net_of_place hh h3
      have hnt : netDepth (pathComponents (s.dropWhile qWs)) = netDepth (pathComponents p) := by
        rw [← netDepth_lower, ← components_lower, ← sameText_iff.1 hsame, components_lower, netDepth_lower]
      have hth : (s.dropWhile qWs).head? ≠ some '/' := by
        intro ht
        apply hp
        have := sameText_iff.1 hsame
        cases htt : s.dropWhile qWs with
        | nil => rw [htt] at ht; cases ht
        | cons c x =>
          rw [htt] at ht this
          cases ht
          obtain ⟨a, l, rfl, ha, -⟩ := List.map_eq_cons_iff.1 this
          rw [lower_slash.1 ha]
          rfl
      have hsplit : s = s.takeWhile qWs ++ s.dropWhile qWs := List.takeWhile_append_dropWhile.symm
      by_cases hu : s.takeWhile qWs = []
      · rw [hu, List.nil_append] at hsplit
        rw [← hsplit] at hn hnt
        refine ⟨hn, .inl ?_⟩
        rw [← List.length_eq_zero_iff]
        omega
      · exfalso
        have := net_blank hu (fun c hc => mem_blank hc) hn hth
        rw [← hsplit] at this
        omega
  · rintro ⟨hn, hd⟩
    have hw : s.dropWhile qWs = s := dropWhile_none (fun c hc => by
      rcases normal_head hn with h | ⟨f, r, hs, hf⟩
      · rw [h] at hc; cases hc; decide
      · have hj := joinWith_splitChar '/' s
        rw [hs] at hj
        rw [← hj] at hc
        rcases hf with rfl | rfl <;> cases r <;> (cases hc; decide))
    have hst := stored_normal (source := joinWith ['/'] (dirs ++ [name])) hn hq he (by
      rcases hd with rfl | h
      · exact .inl (parentComps_source hv)
      · exact .inr h)
    rw [hst] at h1
    cases h1
    rw [hw]
    exact sameText_refl _

/-! ## Lists -/

theorem parseLeaf_not_list {kind text : Str} {v : ParsedValue} (h : parseLeaf L source kind text = .ok v)
    (l : List ParsedValue) : v ≠ .list l := by
  rintro rfl
  revert h
  unfold parseLeaf parseBoolean parseString parseNumber parseCurrency parseReference parseDate parsePath parseEnum
  dsimp only
  repeat' split
  all_goals first
    | (intro h; obtain ⟨x, hx⟩ := parseDateTime_ok h; cases hx)
    | (intro h; cases h)

/-- C140: a list is found by the list of the same literals if every item is found by its literal. Missing: lists
in lists, which are never found (`C140_nested`). -/
theorem C140_list_partial {items : List (Str × Str)} (h : ∀ p ∈ items, FoundBy L source p.1 p.2) :
    ∃ vs ws ws', vs.length = items.length ∧ ws.length = items.length ∧
      (∀ p ∈ items.zip vs, parseLeaf L source p.1.1 p.1.2 = .ok p.2) ∧
      (∀ p ∈ items.zip ws, qLeaf p.1.2 = some (p.2, [])) ∧ readQValue L (.list ws) = .ok (.list ws') ∧
      compareField L.env (toFieldValue L.cases (.list vs)) .equal (convertValue (.list ws')) = .ok true := by
  have key : ∃ vs ws ws', vs.length = items.length ∧ ws.length = items.length ∧
      (∀ p ∈ items.zip vs, parseLeaf L source p.1.1 p.1.2 = .ok p.2) ∧
      (∀ p ∈ items.zip ws, qLeaf p.1.2 = some (p.2, [])) ∧ readQValues L ws = .ok ws' ∧
      (toFieldValues L.cases vs).length = (convertValues ws').length ∧
      ∀ p ∈ (toFieldValues L.cases vs).zip (convertValues ws'),
        (∀ l, p.1 ≠ .list l) ∧ compareField L.env p.1 .equal p.2 = .ok true := by
    induction items with
    | nil => exact ⟨[], [], [], rfl, rfl, by simp, by simp, rfl, rfl, by simp [toFieldValues]⟩
    | cons q items ih =>
      obtain ⟨vs, ws, ws', h1, h2, h3, h4, h5, h6, h7⟩ := ih fun p hp => h p (List.mem_cons_of_mem _ hp)
      obtain ⟨v, w, w', e1, e2, e3, e4⟩ := h q (by simp)
      refine ⟨v :: vs, w :: ws, w' :: ws', by simp [h1], by simp [h2], ?_, ?_, by simp [readQValues, e3, h5],
        by simp [toFieldValues, convertValues, h6], ?_⟩
      · intro p hp
        rcases List.mem_cons.1 hp with rfl | hp
        · exact e1
        · exact h3 p hp
      · intro p hp
        rcases List.mem_cons.1 hp with rfl | hp
        · exact e2
        · exact h4 p hp
      · intro p hp
        rw [toFieldValues, convertValues] at hp
        rcases List.mem_cons.1 hp with rfl | hp
        · refine ⟨fun l hl => ?_, e4⟩
          cases v <;> first | exact parseLeaf_not_list e1 _ rfl | cases hl
        · exact h7 p hp
  obtain ⟨vs, ws, ws', h1, h2, h3, h4, h5, h6, h7⟩ := key
  refine ⟨vs, ws, ws', h1, h2, h3, h4, by rw [readQValue, h5], ?_⟩
  rw [toFieldValue, convertValue, C27_equal_partial]
  exact ⟨h6, h7⟩

/-- C140 is false: the empty list cannot be written in a query. -/
theorem C140_empty_list (n : Nat) : qValue n "[]".toList = none := by
  have hq : ∀ m, qValue m [']'] = none := by
    intro m
    cases m with
    | zero => rfl
    | succ m =>
      have hl : qLeaf [']'] = none := by decide +kernel
      rw [qValue, hl]
      rfl
  cases n with
  | zero => rfl
  | succ n =>
    rw [qValue, show "[]".toList = '[' :: [']'] from rfl, qLeaf_bracket]
    have : qList (qValue n) ('[' :: [']']) = none := by
      rw [qList, if_pos rfl, show qSkip [']'] = [']'] from rfl, hq]
    rw [this]

/-- C140 is false: a list with a list in it equals no list. -/
theorem C140_nested (pre post l : List ParsedValue) (w : List ParsedQueryValue) :
    compareField L.env (toFieldValue L.cases (.list (pre ++ .list l :: post))) .equal (convertValue (.list w)) ≠ .ok true := by
  have : ∀ a b, toFieldValues L.cases (a ++ b) = toFieldValues L.cases a ++ toFieldValues L.cases b := by
    intro a b
    induction a with
    | nil => rfl
    | cons x a ih => rw [List.cons_append, toFieldValues, toFieldValues, ih, List.cons_append]
  rw [toFieldValue, convertValue, this, toFieldValues, toFieldValue]
  exact C27_nested _ _ _ _ _

/-! ## Queries -/

theorem qLeaf_show {w : QValue} (hw : ValidValue w) (hl : ∀ l, w ≠ .list l) : qLeaf (showQValue w) = some (w, []) := by
  have h := qValue_show w hw _ (Nat.lt_succ_self _) [] follow_nil
  rw [List.append_nil, qValue] at h
  cases hq : qLeaf (showQValue w) with
  | some x =>
    rw [hq] at h
    exact h
  | none =>
    rw [hq] at h
    cases hx : qList (qValue (showQValue w).length) (showQValue w) with
    | none => rw [hx] at h; cases h
    | some y =>
      rw [hx] at h
      have h := (Prod.mk.inj (Option.some.inj h)).1
      exact absurd h.symm (hl _)

/-- C140, from the source text to the result of the query: the entity of a block with a field written `f` is in
the result of `from t | where f == w`, with `w` as it is written in the block, exactly if the literal finds
itself. Missing: names that are not in snake case (`C49_camel`). -/
theorem C140_found_partial (hL : RegularCase L.cases) {n nf : Node} {e : Entity} {pre post : List Node} {f kind : Str}
    {v : ParsedValue} {w : QValue} {w' : ParsedQueryValue} (he : toEntity L source n = .ok e)
    (hn : entityFields n = pre ++ nf :: post) (hf : fieldName nf = some f) (hfirst : ∀ m ∈ pre, fieldName m ≠ some f)
    (hv : fieldValue L source nf = .ok v) (hleaf : parseLeaf L source kind (showQValue w) = .ok v)
    (hs : IsSnake L.cases f) (hfi : IsIdent f) (hts : IsSnake L.cases e.entityType) (hti : IsIdent e.entityType)
    (hw : ValidValue w) (hl : ∀ l, w ≠ .list l) (hw' : readQValue L w = .ok w') {ops : List GOp} (hin : e ∈ accepted ops)
    (rt : Runtime) {r : QueryResult}
    (h : runQuery L rt (Graph.run ops) (showQuery (oneCondition e.entityType (.regular f) .equal w)) = .ok r) :
    ∃ es, r = .entities es ∧ (e ∈ es ↔ FoundBy L source kind (showQValue w)) := by
  obtain ⟨es, h1, h2⟩ := C49_found_partial hL he hn hf hfirst hv hs hfi hts hti hw hw' hin rt h
  exact ⟨es, h1, by rw [h2, foundBy_iff hleaf (qLeaf_show hw hl) hw']⟩

/-! ## Examples -/

/-- A language in which whole numbers, one half and dates can be read. -/
def exFoundLang : Lang :=
  { exNumberLang with
    env := { exEnv with parseDateTime := readDateTime, parseDate := parseCivil }
    parseF64 := fun s => if s = "0.5".toList then some (.fin (1 / 2)) else exNumberLang.parseF64 s }

theorem exFoundLang_law : IntegerText exFoundLang := ⟨fun n => by
  show (if showInt n = "0.5".toList then _ else exNumberLang.parseF64 (showInt n)) = _
  rw [if_neg, exNumberLang_law.1]
  intro h
  have hm : '.' ∈ showInt n := by rw [h]; decide
  rcases mem_showInt hm with h | h
  · exact absurd h (by decide)
  · exact absurd h (by decide)⟩

example : Chrono exFoundLang.env := ⟨rfl, rfl⟩
example : FoundBy exFoundLang source "string".toList "\"Bob\"".toList := (C140_string (s := "Bob".toList) (by decide)).2 (by decide)
example : ¬ FoundBy exFoundLang source "string".toList "\" Bob\"".toList :=
  fun h => absurd ((C140_string (s := " Bob".toList) (by decide)).1 h ' ' rfl) (by decide)
example : FoundBy exFoundLang source "enum".toList "enum\"open\"".toList :=
  (C140_enum (s := "open".toList) (by decide)).2 ⟨by decide, fun x h => absurd (congrArg List.getLast? h) (by simp)⟩
example : ¬ FoundBy exFoundLang source "enum".toList "enum\"renum\"".toList :=
  fun h => ((C140_enum (s := "renum".toList) (by decide)).1 h).2 "r".toList rfl
example : FoundBy exFoundLang source "number".toList (showInt 42) :=
  C140_integer_small exFoundLang_law (by decide)
example : FoundBy exFoundLang source "number".toList "0.5".toList := by
  have e : pow2 (-1) = 1 / 2 := by decide +kernel
  have hg : OnGrid (1 / 2 : ℚ) := e ▸ pow2_grid (by omega)
  have hb : |(1 / 2 : ℚ)| < pow2 1024 := by
    rw [abs_of_nonneg (by norm_num), ← e]
    exact pow2_lt.2 (by omega)
  refine (C140_float (t := "0.5".toList) (f := .fin (1 / 2)) ⟨[], "0".toList, ".5".toList, rfl, .inl rfl, ⟨by decide, by decide⟩,
    .inr ⟨"5".toList, rfl, by decide, by decide⟩⟩ (by decide)
    (by decide +kernel) (.inr ⟨_, rfl, hg, hb⟩)).2 fun n h => ?_
  exfalso
  have h := congrArg Rat.den (F64.fin.inj h)
  rw [Rat.den_intCast] at h
  revert h
  decide +kernel
example : FoundBy exFoundLang source "currency".toList "3 EUR".toList :=
  (C140_currency (t := "3".toList) (c := "EUR".toList) (f := .fin 3) (d := ⟨3, 0⟩)
    ⟨[], "3".toList, [], rfl, .inl rfl, ⟨by decide, by decide⟩, .inl rfl⟩
    ⟨by decide, by decide, by decide, by decide⟩ (by decide +kernel) (by decide +kernel) (by decide)).2
    ⟨⟨3, 0⟩, by decide +kernel, rfl⟩
example : FoundBy exFoundLang source "date".toList "2024-02-29".toList :=
  C140_date ⟨rfl, rfl⟩ (y := "2024".toList) (m := "02".toList) (d := "29".toList) ⟨rfl, by decide⟩ ⟨rfl, by decide⟩
    ⟨rfl, by decide⟩ (by decide)
example : ¬ FoundBy exFoundLang source "datetime".toList "2024-02-29 at 10:30 UTC".toList :=
  C140_moment (d := "2024-02-29".toList) (t := " at 10:30".toList) (z := " UTC".toList) ⟨rfl, rfl⟩
    ⟨"2024".toList, "02".toList, "29".toList, ⟨rfl, by decide⟩, ⟨rfl, by decide⟩, ⟨rfl, by decide⟩, rfl⟩
    ⟨"10".toList, "30".toList, ⟨rfl, by decide⟩, ⟨rfl, by decide⟩, rfl⟩
    (.inr ⟨"UTC".toList, by decide, by decide, rfl⟩)
example : FoundBy exFoundLang "a.firm".toList "path".toList "path\"./docs/x.txt\"".toList :=
  (C140_path_partial (dirs := []) (name := "a.firm".toList) (s := "./docs/x.txt".toList)
    (by intro n hn; simp only [List.nil_append, List.mem_singleton] at hn; subst hn; exact ⟨by decide, by decide, by decide, by decide⟩)
    (by decide) (fun x h => absurd (congrArg List.getLast? h) (by simp))).2
    ⟨.inside (ns := ["docs".toList, "x.txt".toList]) (by simp) (by
      intro n hn
      simp only [List.mem_cons, List.not_mem_nil, or_false] at hn
      rcases hn with rfl | rfl <;> exact ⟨by decide, by decide, by decide, by decide⟩), .inl rfl⟩
example : ¬ FoundBy exFoundLang "people/a.firm".toList "path".toList "path\"./docs/x.txt\"".toList :=
  fun h => by
    have := ((C140_path_partial (dirs := ["people".toList]) (name := "a.firm".toList) (s := "./docs/x.txt".toList)
      (by intro n hn
          simp only [List.mem_append, List.mem_singleton] at hn
          rcases hn with rfl | rfl <;> exact ⟨by decide, by decide, by decide, by decide⟩)
      (by decide) (fun x h => absurd (congrArg List.getLast? h) (by simp))).1 h).2
    rcases this with h | h
    · cases h
    · cases h

example : ∃ es, runQuery exLang exRt (Graph.run [.add exSnakeEntity, .build])
    (showQuery (oneCondition "person".toList (.regular "name".toList) .equal (.string "Bob".toList))) = .ok (.entities es) ∧
    exSnakeEntity ∈ es := by
  have hr : runQuery exLang exRt (Graph.run [.add exSnakeEntity, .build])
      (showQuery (oneCondition "person".toList (.regular "name".toList) .equal (.string "Bob".toList))) =
        .ok (.entities [exSnakeEntity]) := by decide +kernel
  have hfound : FoundBy exLang [] "string".toList (showQValue (.string "Bob".toList)) :=
    (C140_string (s := "Bob".toList) (by decide)).2 (by decide)
  obtain ⟨es, h1, h2⟩ := C140_found_partial (L := exLang) (source := []) asciiTable_regular (n := exSnakeNode)
    (nf := exFieldNode "name" "string" "\"Bob\"") (e := exSnakeEntity) (pre := []) (post := []) (f := "name".toList)
    (kind := "string".toList) (v := .string "Bob".toList) (w := .string "Bob".toList) (w' := .string "Bob".toList)
    rfl rfl rfl (by simp) rfl (by rw [parseLeaf_string]; exact parseString_quoted (s := "Bob".toList) (by decide)) ((C47_unchanged asciiTable_regular _).mp (by decide))
    ⟨'n', "ame".toList, rfl, by decide, by decide⟩ ((C47_unchanged asciiTable_regular _).mp (by decide))
    ⟨'p', "erson".toList, rfl, by decide, by decide⟩ ⟨by decide, .inl (by decide)⟩ (by intro l h; cases h) rfl (by decide) exRt hr
  cases h1
  exact ⟨_, hr, h2.2 hfound⟩

end Firm
