import Verif.Props.QueryText

/-!
# Properties of the literals of the query language (C74–C77)
-/

namespace Firm
open Spec

/-! ## C74: string literals -/

/-- C74: a quoted text denotes the characters between its quotes. Missing for the full claim: texts
that start with white space (`C74_leading`, `C74_blank`). -/
theorem C74_literal_partial {q : Char} (hq : q = '"' ∨ q = '\'') {s r : Str} (hs : q ∉ s)
    (hw : ∀ c, s.head? = some c → qWs c = false) : qString (q :: s ++ q :: r) = some (s, r) := by
  rcases hq with rfl | rfl
  · simpa [qString] using qQuoted_show (q := '"') (r := r) (by decide) hw hs
  · simpa [qString] using qQuoted_show (q := '\'') (r := r) (by decide) hw hs

/-- C74, exactly: a quoted text denotes the characters between its quotes without the white space at
their beginning. White space further inside and at the end is kept. -/
theorem C74_leading {q : Char} (hq : q = '"' ∨ q = '\'') {s r : Str} (hs : q ∉ s) :
    qString (q :: s ++ q :: r) = some (s.dropWhile qWs, r) := by
  have hqw : qWs q = false := by rcases hq with rfl | rfl <;> decide
  have hsk : ∀ (s : Str), qSkip (s ++ q :: r) = s.dropWhile qWs ++ q :: r := by
    intro s
    induction s with
    | nil => exact qSkip_of hqw
    | cons c s ih =>
      rw [List.cons_append, List.dropWhile_cons]
      split
      · next h => rw [qSkip_cons_ws h, ih]
      · next h => rw [qSkip_of (by simpa using h)]; rfl
  have hquo : qQuoted q (s ++ q :: r) = some (s.dropWhile qWs, r) := by
    have h1 := qQuoted_show (q := q) (r := r) hqw (stops_dropWhile qWs s)
      (fun h => hs ((List.dropWhile_suffix _).subset h))
    unfold qQuoted at h1 ⊢
    rwa [hsk s, ← qSkip_stops (s := s.dropWhile qWs ++ q :: r)]
    rw [← hsk s]
    exact stops_dropWhile qWs _
  rcases hq with rfl | rfl
  · simpa [qString] using hquo
  · simpa [qString] using hquo

/-- C74 is false: `" x"` denotes `x`. -/
theorem C74_blank : qString "\" x\"".toList = some ("x".toList, []) := by decide

/-- C74: no query text at all denotes a string that starts with white space, or one with both kinds
of quotes. -/
theorem C74_unwritable {s : Str} {q : QTree} (h : qQuery s = some q) {c : QCond}
    {more : List (Combinator × QCond)} (ho : QOp.where c more ∈ q.operations) {t : Str}
    (hv : c.value = .string t) : (∀ d, t.head? = some d → qWs d = false) ∧ ('"' ∉ t ∨ '\'' ∉ t) := by
  have hval := (C73_valid h).2.1 _ ho
  have := hval.1.2
  rw [hv] at this
  exact this

example : qString "'it''s'".toList = some ("it".toList, "'s'".toList) := by decide
example : qString "\"a b \" |".toList = some ("a b ".toList, " |".toList) :=
  C74_literal_partial (q := '"') (.inl rfl) (s := "a b ".toList) (r := " |".toList) (by decide)
    (by decide)

/-! ## C75: number literals -/

/-- `str::parse::<f64>` on the text of an integer is the nearest `f64` (Rust's documented behaviour). -/
structure IntegerText (L : Lang) : Prop where
  reads : ∀ n : Int, L.parseF64 (showInt n) = some (F64.ofInt n)

theorem showInt_number (n : Int) : IsNumberText (showInt n) := by
  unfold showInt
  split
  · exact ⟨['-'], showNat n.natAbs, [], by simp, .inr rfl, ⟨showNat_ne_nil _, showNat_digits _⟩,
      .inl rfl⟩
  · exact ⟨[], showNat n.natAbs, [], by simp, .inl rfl, ⟨showNat_ne_nil _, showNat_digits _⟩,
      .inl rfl⟩

/-- The query `from t | where f op v`. -/
def oneCondition (t : Str) (f : QField) (op : FilterOperator) (v : QValue) : QTree :=
  ⟨.type t, [.where ⟨f, op, v⟩ []], none⟩

theorem oneCondition_parse (L : Lang) {t : Str} {f : QField} {op : FilterOperator} {v : QValue}
    {w : ParsedQueryValue} (ht : IsIdent t) (hf : ValidField f) (hv : ValidValue v)
    (hr : readQValue L v = .ok w) :
    parseQuery L (showQuery (oneCondition t f op v)) =
      .ok ⟨.type t, [.where [⟨f, op, w⟩] .and], none⟩ := by
  have hvalid : ValidTree (oneCondition t f op v) := by
    refine ⟨ht, ?_, fun a h => by cases h⟩
    intro o ho
    simp only [oneCondition, List.mem_singleton] at ho
    subst ho
    exact ⟨⟨hf, hv⟩, fun m h => by cases h⟩
  unfold parseQuery
  rw [qQuery_show hvalid]
  simp [oneCondition, collectResults, readOp, readCond, hr, readCombinator]

/-- C75: an integer written in a condition denotes that integer. Missing for the full claim: integers
beyond `2^53`, which are rounded (`C75_rounded`). -/
theorem C75_integer_partial {L : Lang} (hL : IntegerText L) {t : Str} {f : QField}
    {op : FilterOperator} (ht : IsIdent t) (hf : ValidField f) {n : Int} (hn : n.natAbs ≤ 2 ^ 53) :
    ∃ p, parseQuery L (showQuery (oneCondition t f op (.number (showInt n)))) = .ok p ∧
      (convertQuery L.cases p).operations =
        [.where ⟨[⟨convertField L.cases f, op, .integer n⟩], .and⟩] := by
  have hr : readQValue L (.number (showInt n)) = .ok (.number (.fin n)) := by
    simp [readQValue, readF64, hL.reads, F64.ofInt_exact hn]
  refine ⟨_, oneCondition_parse L ht hf (showInt_number n) hr, ?_⟩
  have : convertValue (.number (.fin (n : ℚ))) = .integer n := by
    simp only [convertValue, convertNumber, Rat.den_intCast, if_true, Rat.num_intCast]
    congr 1
    omega
  simp [convertQuery, convertOp, convertCond, this]

/-- C75, exactly: an integer written in a condition is read as the nearest `f64`, whatever its size,
and that is compared as an `i64` (clamped to its range). -/
theorem C75_integer_exact {L : Lang} (hL : IntegerText L) (n : Int) {v : ℚ}
    (hv : F64.ofInt n = .fin v) (hd : v.den = 1) :
    ∃ w, readQValue L (.number (showInt n)) = .ok w ∧
      convertValue w = .integer (max (-2 ^ 63) (min (2 ^ 63 - 1) v.num)) := by
  refine ⟨.number (.fin v), by simp [readQValue, readF64, hL.reads, hv], ?_⟩
  simp [convertValue, convertNumber, hd]

/-- C75 is false: `9007199254740993` denotes `9007199254740992`. -/
theorem C75_rounded {L : Lang} (hL : IntegerText L) :
    ∃ w, readQValue L (.number (showInt 9007199254740993)) = .ok w ∧
      convertValue w = .integer 9007199254740992 := by
  have h : F64.ofInt 9007199254740993 = .fin 9007199254740992 := by decide +kernel
  obtain ⟨w, h1, h2⟩ := C75_integer_exact hL 9007199254740993 h (by decide +kernel)
  exact ⟨w, h1, by rw [h2]; exact congrArg FilterValue.integer (by decide +kernel)⟩

/-- C75: the number of `limit` is read exactly, if it fits into 64 bits, and the query is rejected
otherwise. -/
theorem C75_limit (L : Lang) {t : Str} (ht : IsIdent t) (n : Nat) :
    parseQuery L (showQuery ⟨.type t, [.limit (showNat n)], none⟩) =
      if n < 2 ^ 64 then .ok ⟨.type t, [.limit n], none⟩ else .error .invalidNumber := by
  have hvalid : ValidTree ⟨.type t, [.limit (showNat n)], none⟩ := by
    refine ⟨ht, ?_, fun a h => by cases h⟩
    intro o ho
    simp only [List.mem_singleton] at ho
    subst ho
    exact ⟨[], showNat n, [], by simp, .inl rfl, ⟨showNat_ne_nil _, showNat_digits _⟩, .inl rfl⟩
  unfold parseQuery
  rw [qQuery_show hvalid]
  simp only [collectResults, readOp, readUsize, parseNat_showNat]
  by_cases h : n < 2 ^ 64
  · simp only [if_pos h]
  · simp only [if_neg h]

/-- C75: a limit with a sign or a fraction is rejected. -/
theorem C75_limit_whole (L : Lang) {t u : Str} (ht : IsIdent t) (hu : IsNumberText u)
    (h : '-' ∈ u ∨ '.' ∈ u) :
    parseQuery L (showQuery ⟨.type t, [.limit u], none⟩) = .error .invalidNumber := by
  have hvalid : ValidTree ⟨.type t, [.limit u], none⟩ := by
    refine ⟨ht, ?_, fun a h => by cases h⟩
    intro o ho
    simp only [List.mem_singleton] at ho
    subst ho
    exact hu
  have hn : parseNat u = none := by
    unfold parseNat
    rw [if_neg]
    intro hall
    simp only [Bool.and_eq_true, List.all_eq_true] at hall
    rcases h with h | h
    · have := hall.2 _ h; revert this; decide
    · have := hall.2 _ h; revert this; decide
  unfold parseQuery
  rw [qQuery_show hvalid]
  simp [collectResults, readOp, readUsize, hn]

/-- A language whose number reader meets the law. -/
def exNumberLang : Lang := { exLang with parseF64 := fun s => (parseSigned s).map F64.ofInt }

theorem exNumberLang_law : IntegerText exNumberLang :=
  ⟨fun n => by simp [exNumberLang, parseSigned_showInt]⟩

example : ∃ p, parseQuery exNumberLang (showQuery (oneCondition "task".toList
      (.regular "age".toList) .greaterThan (.number (showInt (-42))))) = .ok p ∧
      (convertQuery exNumberLang.cases p).operations =
        [.where ⟨[⟨convertField exNumberLang.cases (.regular "age".toList), .greaterThan,
          .integer (-42)⟩], .and⟩] :=
  C75_integer_partial exNumberLang_law (f := .regular "age".toList)
    ⟨'t', "ask".toList, rfl, by decide, by decide⟩ ⟨'a', "ge".toList, rfl, by decide, by decide⟩
    (by decide)
example : showQuery ⟨.type "task".toList, [.limit (showNat 5)], none⟩ = "from task | limit 5".toList :=
  by decide
example : parseQuery exLang (showQuery ⟨.type "task".toList, [.limit (showNat (2 ^ 64))], none⟩) =
    .error .invalidNumber := by
  rw [C75_limit exLang (t := "task".toList) ⟨'t', "ask".toList, rfl, by decide, by decide⟩,
    if_neg (by omega)]
example : parseQuery exLang (showQuery ⟨.type "task".toList, [.limit "1.5".toList], none⟩) =
    .error .invalidNumber :=
  C75_limit_whole exLang ⟨'t', "ask".toList, rfl, by decide, by decide⟩
    ⟨[], ['1'], ['.', '5'], rfl, .inl rfl, ⟨by decide, by decide⟩,
      .inr ⟨['5'], rfl, by decide, by decide⟩⟩ (.inr (by decide))

/-! ## C76: metadata fields -/

/-- C76, exactly: `@id` is the id, and every other name after `@` means the type. Missing for the
full claim: rejecting unknown names (`C76_unknown`). -/
theorem C76_metadata_partial (T : CaseTable) (n : Str) :
    (n = "id".toList → convertField T (.metadata n) = .metadata .id) ∧
    (n = "type".toList → convertField T (.metadata n) = .metadata .type) ∧
    (n ≠ "id".toList → convertField T (.metadata n) = convertField T (.metadata "type".toList)) := by
  refine ⟨fun h => by subst h; rfl, fun h => by subst h; rfl, fun h => ?_⟩
  simp only [convertField, if_neg h]
  rfl

/-- C76 is false: a query on an unknown field, say `@name`, is accepted and filters by type. -/
theorem C76_unknown (L : Lang) {t n : Str} (ht : IsIdent t) (hn : IsIdent n)
    (hid : n ≠ "id".toList) (op : FilterOperator) (b : Bool) :
    ∃ p, parseQuery L (showQuery (oneCondition t (.metadata n) op (.boolean b))) = .ok p ∧
      (convertQuery L.cases p).operations =
        [.where ⟨[⟨.metadata .type, op, .boolean b⟩], .and⟩] := by
  refine ⟨_, oneCondition_parse L ht hn trivial rfl, ?_⟩
  simp only [convertQuery, convertOp, convertCond, convertValue, convertField, if_neg hid,
    List.map_cons, List.map_nil]

example : showQuery (oneCondition "task".toList (.metadata "name".toList) .equal (.boolean true)) =
    "from task | where @name == true".toList := by decide

/-! ## C77: a further condition after a value -/

/-- A time of day without a zone. -/
def IsZoneless : QValue → Prop
  | .dateTime s => ∃ d t, IsDate d ∧ IsTime t ∧ s = d ++ t
  | _ => False

theorem followBlank_word (k : Combinator) (r : Str) :
    FollowBlank (' ' :: (showQCombinator k ++ ' ' :: r)) where
  ident := stops_cons (by decide)
  dot := stops_cons (by decide)
  minus := stops_cons (by decide)
  code := by
    rw [qSkip_space]
    cases k
    · show qCode (qSkip ('a' :: 'n' :: 'd' :: ' ' :: r)) = none
      rw [qSkip_of (by decide)]
      unfold qCode
      rw [if_pos]
      have : (qLitI "and".toList ('a' :: 'n' :: 'd' :: ' ' :: r)).isSome = true := by
        rw [qLitI_isSome]; rfl
      rw [this]; rfl
    · show qCode (qSkip ('o' :: 'r' :: ' ' :: r)) = none
      rw [qSkip_of (by decide)]
      unfold qCode
      rw [if_pos]
      have : (qLitI "or".toList ('o' :: 'r' :: ' ' :: r)).isSome = true := by
        rw [qLitI_isSome]; rfl
      rw [this, Bool.or_true]
  time := by
    cases k
    · show qTime (' ' :: 'a' :: 'n' :: 'd' :: ' ' :: r) = none
      simp [qTime, qLit, List.isPrefixOf]
    · show qTime (' ' :: 'o' :: 'r' :: ' ' :: r) = none
      simp [qTime, qLit, List.isPrefixOf]

theorem qDateTime_blank {t r : Str} (h : IsDateTime t) (hz : ¬ IsZoneless (.dateTime t))
    (hr : FollowBlank r) : qDateTime (t ++ r) = some (t, r) := by
  obtain ⟨d, hd, rfl | ⟨tt, htt, rfl | ⟨z, hz1, hz2, rfl⟩⟩⟩ := h
  · unfold qDateTime
    rw [qDate_show hd]
    simp only [hr.time]
  · exact absurd ⟨d, tt, hd, htt, rfl⟩ hz
  · have e : d ++ tt ++ ' ' :: z ++ r = d ++ (tt ++ (' ' :: z ++ r)) := by simp
    rw [e]
    unfold qDateTime
    rw [qDate_show hd]
    simp only [qTime_show htt, qZone_show hz1 hz2 hr.alpha]

theorem qValue_blank {v : QValue} (h : ValidValue v) (hz : ¬ IsZoneless v) {n : Nat}
    (hn : (showQValue v).length < n) {r : Str} (hr : FollowBlank r) :
    qValue n (showQValue v ++ r) = some (v, r) := by
  obtain ⟨n, rfl⟩ : ∃ m, n = m + 1 := ⟨n - 1, by omega⟩
  cases v with
  | string s => rw [showQValue, qValue, qLeaf_string h]
  | number t => rw [showQValue, qValue, qLeaf_number h hr]
  | boolean b => rw [showQValue, qValue, qLeaf_boolean hr]
  | currency t c => rw [showQValue, qValue, qLeaf_currency h.1 h.2]
  | dateTime t =>
    rw [showQValue, qValue]
    unfold qLeaf
    rw [qCurrency_date h, qDateTime_blank h hz hr]
  | reference t => rw [showQValue, qValue, qLeaf_reference h hr]
  | path s => rw [showQValue, qValue, qLeaf_path h]
  | enum s => rw [showQValue, qValue, qLeaf_enum h]
  | list vs =>
    have h1 := qValue_show (.list vs) h (n + 1) hn [] follow_nil
    cases vs with
    | nil => exact absurd rfl h.1
    | cons v vs =>
      have hlen : (showQValue v).length < n ∧ (showQItems vs).length < n := by
        simp only [showQValue, List.length_append, List.length_cons] at hn
        constructor <;> omega
      have hv : ValidValue v := h.2.1
      have hf : Follow (showQItems vs ++ ']' :: r) := by
        cases vs with
        | nil => exact follow_sep (.inr rfl)
        | cons w ws => exact follow_sep (.inl rfl)
      have h1 := qValue_show v hv n hlen.1 (showQItems vs ++ ']' :: r) hf
      have h2 := qItems_show vs h.2.2 n hlen.2 r (showQItems vs ++ ']' :: r).length (by simp)
      have e : showQValue (.list (v :: vs)) ++ r =
          '[' :: (showQValue v ++ (showQItems vs ++ ']' :: r)) := by
        simp [showQValue]
      rw [e, qValue, qLeaf_bracket]
      simp only [qList, if_true]
      rw [qSkip_stops (value_stops hv _), h1]
      simp only [h2]
      rw [qSkip_of (by decide)]
      simp

/-- C77: after a condition, a blank and a combinator start the next condition. Missing for the full
claim: conditions whose value is a time of day without a zone (`C77_time`). -/
theorem C77_blank_partial {c c' : QCond} {k : Combinator} (hc : ValidCond c) (hc' : ValidCond c')
    (hz : ¬ IsZoneless c.value) {n : Nat} (hn : (showQCond c).length < n)
    (hn' : (showQCond c').length < n) {r : Str} (hr : OpEnd r) :
    qOperation n ("where ".toList ++ showQCond c ++ ' ' :: showQCombinator k ++ ' ' :: showQCond c' ++ r)
      = some (.where c [(k, c')], r) := by
  have hval : ∀ c : QCond, (showQValue c.value).length ≤ (showQCond c).length := by
    intro c
    simp only [showQCond, List.length_append, List.length_cons]
    omega
  have h1 : qCond n (showQCond c ++ (' ' :: (showQCombinator k ++ ' ' :: (showQCond c' ++ r)))) =
      some (c, ' ' :: (showQCombinator k ++ ' ' :: (showQCond c' ++ r))) := by
    generalize ht : (' ' :: (showQCombinator k ++ ' ' :: (showQCond c' ++ r))) = t
    have hb : FollowBlank t := ht ▸ followBlank_word k _
    obtain ⟨f, op, v⟩ := c
    have e : showQCond ⟨f, op, v⟩ ++ t =
        showQField f ++ (' ' :: (showQOperator op ++ ' ' :: (showQValue v ++ t))) := by
      simp [showQCond]
    rw [e]
    unfold qCond
    rw [qField_show hc.1 (stops_cons (by decide))]
    simp only
    rw [qSkip_space, qSkip_stops (operator_stops op _), qOperator_show]
    simp only
    rw [qSkip_space, qSkip_stops (value_stops hc.2 _),
      qValue_blank hc.2 hz (by have : _ ≤ _ := hval ⟨f, op, v⟩; dsimp only at this hz ⊢; omega) hb]
  have h2 : qMore n (qSkip (' ' :: (showQCombinator k ++ ' ' :: (showQCond c' ++ r)))) =
      some ((k, c'), r) := by
    have hs : Stops qWs (showQCombinator k ++ ' ' :: (showQCond c' ++ r)) := by
      cases k <;> exact stops_cons (by decide)
    rw [qSkip_space, qSkip_stops hs]
    unfold qMore
    rw [qCombinator_show]
    simp only
    rw [qSkip_space, qSkip_stops (cond_stops hc' _),
      qCond_show hc' (by have := hval c'; omega) hr.follow]
  have h3 : ∀ m, qMany (qMore n) m r = ([], r) := by
    intro m
    cases m with
    | zero => rfl
    | succ m => rw [qMany, qMore_end hr n]
  have e : "where ".toList ++ showQCond c ++ ' ' :: showQCombinator k ++ ' ' :: showQCond c' ++ r =
      "where".toList ++ (' ' :: (showQCond c ++
        (' ' :: (showQCombinator k ++ ' ' :: (showQCond c' ++ r))))) := by
    rw [show "where ".toList = "where".toList ++ [' '] from rfl]
    simp only [List.append_assoc, List.cons_append, List.nil_append]
  rw [e]
  unfold qOperation qWhere
  rw [qLit_append]
  simp only
  rw [qSkip_space, qSkip_stops (cond_stops hc _), h1]
  simp only [List.length_cons]
  rw [qMany, h2]
  simp only [h3]

example : qOperation 100 "where a == core.x and b == 1 | count".toList =
    some (.where ⟨.regular "a".toList, .equal, .reference "core.x".toList⟩
      [(.and, ⟨.regular "b".toList, .equal, .number "1".toList⟩)], " | count".toList) :=
  C77_blank_partial (c := ⟨.regular "a".toList, .equal, .reference "core.x".toList⟩) (k := .and)
    (c' := ⟨.regular "b".toList, .equal, .number "1".toList⟩) (r := " | count".toList)
    ⟨⟨'a', [], rfl, by decide, by decide⟩, "core".toList, "x".toList,
      ⟨'c', "ore".toList, rfl, by decide, by decide⟩, ⟨'x', [], rfl, by decide, by decide⟩, .inl rfl⟩
    ⟨⟨'b', [], rfl, by decide, by decide⟩, showInt_number 1⟩
    (by intro h; cases h) (by decide) (by decide) (.inr ⟨_, rfl⟩)

/-- C77 is false: after a time without a zone, the combinator is taken for the zone and the query is
rejected. -/
theorem C77_time :
    qQuery "from task | where due > 2025-01-15 at 14:30 and done == true".toList = none ∧
    (qQuery "from task | where done == true and due > 2025-01-15 at 14:30".toList).isSome = true ∧
    (qQuery "from task | where due > 2025-01-15 at 14:30  and done == true".toList).isSome = true := by
  refine ⟨?_, ?_, ?_⟩
  · exact Option.isNone_iff_eq_none.mp (by decide +kernel)
  · decide +kernel
  · decide +kernel

end Firm
