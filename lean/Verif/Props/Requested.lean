import Verif.Props.Dates

/-!
# C155: the moments that the server takes
-/

namespace Firm
open Spec

/-! ## The specification -/

/-- The fraction of a second: nothing, or a dot and any number of digits, of which nine count. -/
def Spec.FractionText (s : Str) (nanos : Nat) : Prop :=
  (s = [] ∧ nanos = 0) ∨
  ∃ ds, ds ≠ [] ∧ (∀ c ∈ ds, isDigit c = true) ∧ s = '.' :: ds ∧ nanos = digitsVal (ds.take 9) * 10 ^ (9 - ds.length)

/-- The zone: `Z`, or hours and minutes east or west of it, in seconds. -/
def Spec.ZoneText (s : Str) (offset : Int) : Prop :=
  ((s = ['Z'] ∨ s = ['z']) ∧ offset = 0) ∨
  ∃ c h m, (c = '+' ∨ c = '-' ∨ c = '−') ∧ IsDigitsN 2 h ∧ IsDigitsN 2 m ∧ digitsVal m < 60 ∧
    s = c :: (h ++ ':' :: m) ∧
    offset = (if c = '+' then 1 else -1) * ((digitsVal h * 3600 + digitsVal m * 60 : Nat) : Int)

/-- The text of a moment of RFC 3339: the moment is in the zone that is written, where the calendar shows the written
date and the clock the written time; second 60 is a leap second, which chrono keeps as a second more of nanoseconds. -/
def Spec.Rfc3339Text (s : Str) (d : DateTime) : Prop :=
  ∃ (y mo da h mi x fr z : Str) (t : Char) (n : Nat),
    s = y ++ '-' :: (mo ++ '-' :: (da ++ t :: (h ++ ':' :: (mi ++ ':' :: (x ++ (fr ++ z)))))) ∧
    IsDigitsN 4 y ∧ IsDigitsN 2 mo ∧ IsDigitsN 2 da ∧ (t = 'T' ∨ t = 't' ∨ t = ' ') ∧
    IsDigitsN 2 h ∧ IsDigitsN 2 mi ∧ IsDigitsN 2 x ∧ FractionText fr n ∧ ZoneText z d.offset ∧
    digitsVal h < 24 ∧ digitsVal mi < 60 ∧ digitsVal x ≤ 60 ∧ -86400 < d.offset ∧ d.offset < 86400 ∧
    d.civil = ⟨digitsVal y, digitsVal mo, digitsVal da⟩ ∧
    d.clock = digitsVal h * 3600 + digitsVal mi * 60 + min (digitsVal x) 59 ∧
    d.nanos = n + (if digitsVal x = 60 then 10 ^ 9 else 0)

/-! ## Scanning -/

theorem scanExact_iff {k n : Nat} {s r : Str} :
    scanExact k s = some (n, r) ↔ ∃ ds, IsDigitsN k ds ∧ s = ds ++ r ∧ n = digitsVal ds := by
  constructor
  · intro h
    unfold scanExact at h
    split at h
    · next hc =>
      cases h
      exact ⟨s.take k, ⟨hc.1, List.all_eq_true.1 hc.2⟩, (List.take_append_drop k s).symm, rfl⟩
    · cases h
  · rintro ⟨ds, ⟨hl, hd⟩, rfl, rfl⟩
    exact scanExact_append hl hd r

theorem scanChar_iff {c : Char} {s r : Str} : scanChar c s = some r ↔ s = c :: r := by
  cases s with
  | nil => simp [scanChar]
  | cons d s =>
    rw [scanChar]
    by_cases h : d = c
    · simp [h]
    · simp [h]

theorem scanT_iff {s r : Str} : scanT s = some r ↔ ∃ t, (t = 'T' ∨ t = 't' ∨ t = ' ') ∧ s = t :: r := by
  cases s with
  | nil => simp [scanT]
  | cons d s =>
    rw [scanT]
    by_cases h : d = 'T' ∨ d = 't' ∨ d = ' '
    · rw [if_pos h]
      constructor
      · intro e; cases e; exact ⟨d, h, rfl⟩
      · rintro ⟨t, -, e⟩; cases e; rfl
    · rw [if_neg h]
      constructor
      · intro e; cases e
      · rintro ⟨t, ht, e⟩; cases e; exact absurd ht h

theorem takeWhile_take {p : Char → Bool} (k : Nat) (s : Str) : (s.take k).takeWhile p = (s.takeWhile p).take k := by
  induction s generalizing k with
  | nil => simp
  | cons c s ih =>
    cases k with
    | zero => simp
    | succ k =>
      rw [List.take_succ_cons, List.takeWhile_cons, List.takeWhile_cons]
      split
      · rw [List.take_succ_cons, ih]
      · simp

theorem digits_front (s : Str) : ∃ a b, s = a ++ b ∧ (∀ c ∈ a, isDigit c = true) ∧
    ∀ c, b.head? = some c → isDigit c = false := by
  induction s with
  | nil => exact ⟨[], [], rfl, nofun, nofun⟩
  | cons c s ih =>
    by_cases hc : isDigit c = true
    · obtain ⟨a, b, rfl, ha, hb⟩ := ih
      exact ⟨c :: a, b, rfl, List.forall_mem_cons.2 ⟨hc, ha⟩, hb⟩
    · exact ⟨[], c :: s, rfl, nofun, fun d hd => by cases hd; simpa using hc⟩

theorem scanFraction_dot {a b : Str} (hne : a ≠ []) (ha : ∀ c ∈ a, isDigit c = true)
    (hb : ∀ c, b.head? = some c → isDigit c = false) :
    scanFraction ('.' :: (a ++ b)) = some (digitsVal (a.take 9) * 10 ^ (9 - a.length), b) := by
  simp only [scanFraction, scanNum]
  rw [takeWhile_take, (span_stop ha hb).1]
  have he : ¬ (a.take 9).isEmpty = true := by
    cases a with
    | nil => exact absurd rfl hne
    | cons c a => simp
  rw [if_neg he]
  simp only [Option.map_some]
  have hlen : (a.take 9).length ≤ a.length := by rw [List.length_take]; omega
  have hdrop : (a ++ b).drop (a.take 9).length = a.drop (a.take 9).length ++ b := by
    rw [List.drop_append_of_le_length hlen]
  rw [hdrop, (span_stop (fun c hc => ha c (List.mem_of_mem_drop hc)) hb).2]
  rw [show 9 - ((a ++ b).length - (a.drop (a.take 9).length ++ b).length) = 9 - a.length by
    simp only [List.length_append, List.length_drop, List.length_take]
    omega]

theorem scanFraction_nodot {s : Str} (h : ∀ c, s.head? = some c → c ≠ '.') : scanFraction s = some (0, s) := by
  unfold scanFraction
  split
  · exact absurd rfl (h '.' rfl)
  · rfl

theorem scanFraction_some {s r : Str} {n : Nat} (h : scanFraction s = some (n, r)) :
    ∃ fr, s = fr ++ r ∧ FractionText fr n := by
  by_cases hd : ∃ t, s = '.' :: t
  · obtain ⟨t, rfl⟩ := hd
    obtain ⟨a, b, rfl, ha, hb⟩ := digits_front t
    by_cases hne : a = []
    · subst hne
      have : scanNum 9 b = none := by
        unfold scanNum
        rw [takeWhile_take, show b.takeWhile isDigit = [] from (span_stop (a := []) (r := b) nofun hb).1]
        rfl
      simp only [scanFraction, List.nil_append, this, Option.map_none] at h
      cases h
    · rw [scanFraction_dot hne ha hb] at h
      cases h
      exact ⟨'.' :: a, rfl, .inr ⟨a, hne, ha, rfl, rfl⟩⟩
  · rw [scanFraction_nodot (by
      intro c hc e
      subst e
      cases s with
      | nil => cases hc
      | cons x s => cases hc; exact hd ⟨s, rfl⟩)] at h
    cases h
    exact ⟨[], rfl, .inl ⟨rfl, rfl⟩⟩

theorem scanFraction_of {fr z : Str} {n : Nat} (hf : FractionText fr n) (hz : Ends z) :
    scanFraction (fr ++ z) = some (n, z) := by
  rcases hf with ⟨rfl, rfl⟩ | ⟨ds, hne, hd, rfl, rfl⟩
  · exact scanFraction_nodot (fun c hc => (hz c hc).2)
  · exact scanFraction_dot hne hd (fun c hc => (hz c hc).1)

theorem zone_ends {z : Str} {o : Int} (h : ZoneText z o) : Ends z := by
  intro c hc
  rcases h with ⟨rfl | rfl, -⟩ | ⟨x, h, m, hx, -, -, -, rfl, -⟩
  · cases hc; decide
  · cases hc; decide
  · cases hc
    rcases hx with rfl | rfl | rfl <;> decide

theorem scanZone_iff {s : Str} {o : Int} : scanZone (scanChar ':') s = some (o, []) ↔ ZoneText s o := by
  cases s with
  | nil =>
    constructor
    · intro h; cases h
    · rintro (⟨h | h, -⟩ | ⟨c, h, m, -, -, -, -, h', -⟩)
      · cases h
      · cases h
      · cases h'
  | cons c s =>
    rw [scanZone]
    by_cases hz : c = 'Z' ∨ c = 'z'
    · rw [if_pos hz]
      constructor
      · intro h
        cases h
        exact .inl ⟨hz.imp (fun h => by rw [h]) (fun h => by rw [h]), rfl⟩
      · rintro (⟨h | h, rfl⟩ | ⟨x, h, m, hx, -, -, -, h', -⟩)
        · cases h; rfl
        · cases h; rfl
        · cases h'
          rcases hz with rfl | rfl <;> rcases hx with hx | hx | hx <;> exact absurd hx (by decide)
    · rw [if_neg hz]
      by_cases hs : c = '+' ∨ c = '-' ∨ c = '−'
      · rw [if_pos hs]
        constructor
        · intro h
          obtain ⟨⟨hv, r1⟩, h1, h⟩ := Option.bind_eq_some_iff.1 h
          obtain ⟨r2, h2, h⟩ := Option.bind_eq_some_iff.1 h
          obtain ⟨⟨mv, r3⟩, h3, h⟩ := Option.bind_eq_some_iff.1 h
          split at h
          · next hlt =>
            obtain ⟨a, ha, rfl, rfl⟩ := scanExact_iff.1 h1
            cases scanChar_iff.1 h2
            obtain ⟨b, hb, rfl, rfl⟩ := scanExact_iff.1 h3
            simp only [Option.some.injEq, Prod.mk.injEq] at h
            obtain ⟨rfl, rfl⟩ := h
            exact .inr ⟨c, a, b, hs, ha, hb, hlt, by rw [List.append_nil], rfl⟩
          · cases h
        · rintro (⟨h | h, -⟩ | ⟨x, a, b, -, ha, hb, hlt, h, rfl⟩)
          · cases h; exact absurd (.inl rfl) hz
          · cases h; exact absurd (.inr rfl) hz
          · cases h
            rw [scanExact_append ha.1 ha.2]
            simp only [Option.bind_some, scanChar_iff.2 rfl]
            have := scanExact_append hb.1 hb.2 []
            rw [List.append_nil] at this
            rw [this]
            simp only [Option.bind_some]
            rw [if_pos hlt]
      · rw [if_neg hs]
        constructor
        · intro h; cases h
        · rintro (⟨h | h, -⟩ | ⟨x, a, b, hx, -, -, -, h, -⟩)
          · cases h; exact absurd (.inl rfl) hz
          · cases h; exact absurd (.inr rfl) hz
          · cases h; exact absurd hx hs

theorem civil_range {n : Int} (h1 : -800000 ≤ n) (h2 : n ≤ 3000000) : (civilOf n).valid = true := by
  have hp := civilOf_proper n
  obtain ⟨y, mp, k, a1, a2, a3, a4, a5⟩ := proper_shape hp
  rw [toDays_civilOf] at a3
  have hy : (civilOf n).year = y + (if mp < 10 then 0 else 1) := by rw [a2]
  have hb : -262142 ≤ (civilOf n).year ∧ (civilOf n).year ≤ 262142 := by
    rw [hy]
    split <;> omega
  obtain ⟨p1, p2, p3, p4⟩ := hp
  unfold Civil.valid
  simp only [Bool.and_eq_true, decide_eq_true_eq]
  exact ⟨⟨⟨⟨⟨by omega, by omega⟩, p1⟩, p2⟩, p3⟩, p4⟩

theorem days_range {c : Civil} (hp : Proper c) (hc : 0 ≤ c.year ∧ c.year ≤ 9999) :
    -730000 ≤ c.toDays ∧ c.toDays ≤ 2990000 := by
  obtain ⟨y, mp, k, a1, a2, a3, a4, a5⟩ := proper_shape hp
  have hy : c.year = y + (if mp < 10 then 0 else 1) := by rw [a2]
  rw [a3]
  split at hy <;> omega

/-- A date and a time of the years 0 to 9999 are read as the moment for which the calendar and the clock show them. -/
theorem stamp_iff {c : Civil} {h mi x n : Nat} {o : Int} {d : DateTime} (hc : 0 ≤ c.year ∧ c.year ≤ 9999) :
    Stamp.toDateTime ⟨c, h, mi, x, n, o⟩ = some d ↔
      h < 24 ∧ mi < 60 ∧ x ≤ 60 ∧ -86400 < d.offset ∧ d.offset < 86400 ∧ d.civil = c ∧
      d.clock = h * 3600 + mi * 60 + min x 59 ∧ d.nanos = n + (if x = 60 then 10 ^ 9 else 0) ∧ d.offset = o := by
  unfold Stamp.toDateTime
  dsimp only
  constructor
  · intro e
    split at e
    · next hall =>
      obtain ⟨v, h1, h2, h3, h4, h5, -⟩ := hall
      have hd := Option.some.inj e
      have hsecs : d.secs = c.toDays * 86400 + ((h * 3600 + mi * 60 + min x 59 : Nat) : Int) - o := by rw [← hd]
      have hoff : d.offset = o := by rw [← hd]
      have hn : d.nanos = n + (if x = 60 then 10 ^ 9 else 0) := by rw [← hd]
      refine ⟨h1, h2, h3, by rw [hoff]; exact h4, by rw [hoff]; exact h5, ?_, ?_, hn, hoff⟩
      · have : d.localDay = c.toDays := by
          unfold DateTime.localDay
          rw [hsecs, hoff]
          omega
        unfold DateTime.civil
        rw [this, civilOf_toDays (civil_proper v)]
      · unfold DateTime.clock
        rw [hsecs, hoff]
        omega
    · cases e
  · rintro ⟨h1, h2, h3, h4, h5, h6, h7, h8, rfl⟩
    have hp : Proper c := by rw [← h6]; exact civilOf_proper _
    have hday : c.toDays = d.localDay := by rw [← h6]; exact toDays_civilOf _
    have hr := days_range hp hc
    have hclock : (d.clock : Int) = (d.secs + d.offset) % 86400 := by unfold DateTime.clock; omega
    have hl : d.localDay = (d.secs + d.offset) / 86400 := rfl
    have hsecs : c.toDays * 86400 + ((h * 3600 + mi * 60 + min x 59 : Nat) : Int) - d.offset = d.secs := by
      rw [← h7, hday, hclock, hl]
      omega
    rw [hsecs, ← h8]
    have hv : c.valid = true := by
      rw [← civilOf_toDays hp]
      exact civil_range (by omega) (by omega)
    rw [if_pos ⟨hv, h1, h2, h3, h4, h5, civil_range (by omega) (by omega)⟩]

theorem digitVal_le {c : Char} (h : isDigit c = true) : digitVal c ≤ 9 := by
  unfold isDigit at h
  unfold digitVal
  simp only [Bool.and_eq_true, decide_eq_true_eq] at h
  omega

theorem digitsVal_four {y : Str} (h : IsDigitsN 4 y) : digitsVal y ≤ 9999 := by
  obtain ⟨hl, hd⟩ := h
  match y, hl with
  | [a, b, c, d], _ =>
    have ha := digitVal_le (hd a (by simp))
    have hb := digitVal_le (hd b (by simp))
    have hc := digitVal_le (hd c (by simp))
    have hd := digitVal_le (hd d (by simp))
    simp only [digitsVal, List.foldl_cons, List.foldl_nil]
    omega

theorem year_four {y : Str} (h : IsDigitsN 4 y) {m d : Nat} :
    0 ≤ (⟨digitsVal y, m, d⟩ : Civil).year ∧ (⟨digitsVal y, m, d⟩ : Civil).year ≤ 9999 := by
  have := digitsVal_four h
  dsimp only
  omega

/-! ## What is read -/

/-- C155: `DateTime::parse_from_rfc3339` reads exactly the texts of RFC 3339, as the moments they describe. -/
theorem C155_reads (s : Str) (d : DateTime) : readRfc3339 s = some d ↔ Rfc3339Text s d := by
  constructor
  · intro h
    unfold readRfc3339 at h
    obtain ⟨⟨yv, s1⟩, e1, q1⟩ := Option.bind_eq_some_iff.1 h
    obtain ⟨s2, e2, q2⟩ := Option.bind_eq_some_iff.1 q1
    obtain ⟨⟨mv, s3⟩, e3, q3⟩ := Option.bind_eq_some_iff.1 q2
    obtain ⟨s4, e4, q4⟩ := Option.bind_eq_some_iff.1 q3
    obtain ⟨⟨dv, s5⟩, e5, q5⟩ := Option.bind_eq_some_iff.1 q4
    obtain ⟨s6, e6, q6⟩ := Option.bind_eq_some_iff.1 q5
    obtain ⟨⟨hv, s7⟩, e7, q7⟩ := Option.bind_eq_some_iff.1 q6
    obtain ⟨s8, e8, q8⟩ := Option.bind_eq_some_iff.1 q7
    obtain ⟨⟨iv, s9⟩, e9, q9⟩ := Option.bind_eq_some_iff.1 q8
    obtain ⟨s10, e10, q10⟩ := Option.bind_eq_some_iff.1 q9
    obtain ⟨⟨xv, s11⟩, e11, q11⟩ := Option.bind_eq_some_iff.1 q10
    obtain ⟨⟨nv, s12⟩, e12, q12⟩ := Option.bind_eq_some_iff.1 q11
    obtain ⟨⟨ov, s13⟩, e13, q13⟩ := Option.bind_eq_some_iff.1 q12
    dsimp only at e1 e2 e3 e4 e5 e6 e7 e8 e9 e10 e11 e12 e13 q13
    clear q1 q2 q3 q4 q5 q6 q7 q8 q9 q10 q11 q12
    split at q13
    · next hnil =>
      subst hnil
      obtain ⟨y, hy, rfl, rfl⟩ := scanExact_iff.1 e1
      cases scanChar_iff.1 e2
      obtain ⟨mo, hmo, rfl, rfl⟩ := scanExact_iff.1 e3
      cases scanChar_iff.1 e4
      obtain ⟨da, hda, rfl, rfl⟩ := scanExact_iff.1 e5
      obtain ⟨t, ht, rfl⟩ := scanT_iff.1 e6
      obtain ⟨hh, hhh, rfl, rfl⟩ := scanExact_iff.1 e7
      cases scanChar_iff.1 e8
      obtain ⟨mi, hmi, rfl, rfl⟩ := scanExact_iff.1 e9
      cases scanChar_iff.1 e10
      obtain ⟨x, hx, rfl, rfl⟩ := scanExact_iff.1 e11
      obtain ⟨fr, rfl, hfr⟩ := scanFraction_some e12
      have hz := scanZone_iff.1 e13
      obtain ⟨c1, c2, c3, c4, c5, c6, c7, c8, rfl⟩ := (stamp_iff (c := ⟨digitsVal y, digitsVal mo, digitsVal da⟩) (year_four hy)).1 q13
      exact ⟨y, mo, da, hh, mi, x, fr, s12, t, nv, rfl, hy, hmo, hda, ht, hhh, hmi, hx, hfr, hz, c1, c2, c3, c4, c5, c6,
        c7, c8⟩
    · cases q13
  · rintro ⟨y, mo, da, hh, mi, x, fr, z, t, n, rfl, hy, hmo, hda, ht, hhh, hmi, hx, hfr, hz, c1, c2, c3, c4, c5, c6, c7, c8⟩
    unfold readRfc3339
    rw [scanExact_append hy.1 hy.2]
    simp only [Option.bind_some, scanChar_iff.2 rfl]
    rw [scanExact_append hmo.1 hmo.2]
    simp only [Option.bind_some, scanChar_iff.2 rfl]
    rw [scanExact_append hda.1 hda.2]
    simp only [Option.bind_some]
    rw [scanT_iff.2 ⟨t, ht, rfl⟩]
    simp only [Option.bind_some]
    rw [scanExact_append hhh.1 hhh.2]
    simp only [Option.bind_some, scanChar_iff.2 rfl]
    rw [scanExact_append hmi.1 hmi.2]
    simp only [Option.bind_some, scanChar_iff.2 rfl]
    rw [scanExact_append hx.1 hx.2]
    simp only [Option.bind_some]
    rw [scanFraction_of hfr (zone_ends hz)]
    simp only [Option.bind_some]
    rw [scanZone_iff.2 hz]
    simp only [Option.bind_some, if_true]
    exact (stamp_iff (year_four hy)).2 ⟨c1, c2, c3, c4, c5, c6, c7, c8, rfl⟩

/-- C155: so does `add_entity`, for a field of this type. -/
theorem C155_request (H : Host) (hH : H.parseRfc3339 = readRfc3339) (target : List PathComp) (types : List (Str × Str))
    (name s : Str) (d : DateTime) :
    jsonToFieldValue H target types name .dateTime (.string s) = some (.dateTime d) ↔ Rfc3339Text s d := by
  rw [← C155_reads]
  show (H.parseRfc3339 s).map FieldValue.dateTime = _ ↔ _
  rw [hH]
  cases readRfc3339 s <;> simp

/-- The place of the characters of a text of RFC 3339: the eleventh separates date and time, a digit follows. -/
theorem rfc_places {a r : Str} {d : DateTime} (hl : a.length = 10) (h : Rfc3339Text (a ++ r) d) :
    ∃ t c r', (t = 'T' ∨ t = 't' ∨ t = ' ') ∧ isDigit c = true ∧ r = t :: c :: r' := by
  obtain ⟨y, mo, da, hh, mi, x, fr, z, t, n, e, hy, hmo, hda, ht, hhh, -⟩ := h
  have e' : a ++ r = (y ++ '-' :: (mo ++ '-' :: da)) ++ (t :: (hh ++ ':' :: (mi ++ ':' :: (x ++ (fr ++ z))))) := by
    rw [e]; simp only [List.append_assoc, List.cons_append]
  have hlen : (y ++ '-' :: (mo ++ '-' :: da)).length = 10 := by
    simp only [List.length_append, List.length_cons, hy.1, hmo.1, hda.1]
  obtain ⟨-, hr⟩ := List.append_inj e' (by rw [hl, hlen])
  match hh, hhh with
  | [c, c'], hd => exact ⟨t, c, _, ht, hd.2 c (by simp), hr⟩

/-- C155: a date alone, and a moment as source files write it, are refused, whatever time and zone follow. -/
theorem C155_source_format (H : Host) (hH : H.parseRfc3339 = readRfc3339) (target : List PathComp)
    (types : List (Str × Str)) (name : Str) {day : Str} (hd : IsDate day) (r : Str) :
    jsonToFieldValue H target types name .dateTime (.string day) = none ∧
    jsonToFieldValue H target types name .dateTime (.string (day ++ " at ".toList ++ r)) = none := by
  have hl : day.length = 10 := by
    obtain ⟨y, m, d, hy, hm, hd, rfl⟩ := hd
    simp only [List.length_append, List.length_cons, hy.1, hm.1, hd.1]
  have key : ∀ t : Str, (∀ d, ¬ Rfc3339Text t d) →
      jsonToFieldValue H target types name .dateTime (.string t) = none := by
    intro t ht
    show (H.parseRfc3339 t).map FieldValue.dateTime = none
    rw [hH]
    cases hr : readRfc3339 t with
    | none => rfl
    | some d => exact absurd ((C155_reads t d).1 hr) (ht d)
  constructor
  · refine key _ fun d h => ?_
    rw [← List.append_nil day] at h
    obtain ⟨t, c, r', -, -, e⟩ := rfc_places hl h
    cases e
  · refine key _ fun d h => ?_
    rw [List.append_assoc] at h
    obtain ⟨t, c, r', -, hc, e⟩ := rfc_places hl h
    cases e
    exact absurd hc (by decide)

/-! ## What the file keeps -/

/-- C155: a moment that the server takes is read back from the file, in which it is then written, cut to whole minutes
of the clock and whole hours of the zone. -/
theorem C155_file {L : Lang} {o : GeneratorOptions} {source : Str} {s : Str} {d : DateTime} (h : Rfc3339Text s d) :
    ReadsAs L o source (.dateTime d) (.dateTime (truncated d)) := by
  obtain ⟨y, mo, da, hh, mi, x, fr, z, t, n, e, hy, hmo, hda, ht, hhh, hmi, hx, hfr, hz, c1, c2, c3, c4, c5, c6, c7, c8⟩ := h
  have hyear : (civilOf ((d.secs + d.offset) / 86400)).year = digitsVal y := congrArg Civil.year c6
  have := digitsVal_four hy
  exact C52_reads_as d c4 c5 (by omega) (by omega)

/-- C155, partial: a moment given with a zone of whole hours, without seconds, is the moment that the file gives back.
Missing: other moments, which are accepted and changed (`C155_zone`, `C155_seconds`). -/
theorem C155_kept_partial {L : Lang} {o : GeneratorOptions} {source : Str} {s : Str} {d : DateTime}
    (h : Rfc3339Text s d) : ReadsBack L o source (.dateTime d) ↔
      d.nanos = 0 ∧ d.clock % 60 = 0 ∧ d.offset % 3600 = 0 := by
  obtain ⟨y, mo, da, hh, mi, x, fr, z, t, n, e, hy, hmo, hda, ht, hhh, hmi, hx, hfr, hz, c1, c2, c3, c4, c5, c6, c7, c8⟩ := h
  have hyear : (civilOf ((d.secs + d.offset) / 86400)).year = digitsVal y := congrArg Civil.year c6
  have := digitsVal_four hy
  rw [C52_same_partial d c4 c5 (by omega) (by omega)]
  unfold DateTime.clock
  constructor
  · rintro ⟨h1, h2, h3⟩; exact ⟨h1, by omega, h3⟩
  · rintro ⟨h1, h2, h3⟩; exact ⟨h1, by omega, h3⟩

/-- C155: what is written with a zone of hours and minutes east of UTC comes back later than it was given, by these
minutes, if no seconds are given; west of UTC, earlier. -/
theorem C155_zone {L : Lang} {o : GeneratorOptions} {source : Str} {s : Str} {d : DateTime} (h : Rfc3339Text s d)
    (hs : d.clock % 60 = 0) : ∃ d', ReadsAs L o source (.dateTime d) (.dateTime d') ∧
      (0 ≤ d.offset → d'.secs = d.secs + d.offset % 3600) ∧
      (d.offset ≤ 0 → d'.secs = d.secs - (-d.offset) % 3600) := by
  refine ⟨truncated d, C155_file h, ?_⟩
  have hc : (d.secs + d.offset) % 60 = 0 := by unfold DateTime.clock at hs; omega
  unfold truncated
  constructor
  · intro ho
    dsimp only
    rw [Int.tdiv_eq_ediv_of_nonneg ho]
    omega
  · intro ho
    dsimp only
    have : Int.tdiv d.offset 3600 = - ((-d.offset) / 3600) := by
      rw [← Int.tdiv_eq_ediv_of_nonneg (by omega), Int.neg_tdiv, Int.neg_neg]
    rw [this]
    omega

/-- C155: the seconds are lost: the moment comes back earlier by them. -/
theorem C155_seconds {L : Lang} {o : GeneratorOptions} {source : Str} {s : Str} {d : DateTime} (h : Rfc3339Text s d)
    (ho : d.offset % 3600 = 0) : ∃ d', ReadsAs L o source (.dateTime d) (.dateTime d') ∧
      d'.secs = d.secs - (d.clock % 60 : Nat) ∧ d'.nanos = 0 := by
  refine ⟨truncated d, C155_file h, ?_⟩
  have ht : Int.tdiv d.offset 3600 * 3600 = d.offset := by
    rw [← Int.ediv_mul_cancel (Int.dvd_of_emod_eq_zero ho), Int.mul_tdiv_cancel _ (by decide)]
  refine ⟨?_, rfl⟩
  unfold truncated DateTime.clock
  dsimp only
  rw [ht]
  omega

/-- The example of the error message, and three texts that are changed or strange: a zone of half hours, seconds, a
leap second before a space instead of `T`. -/
example : (∃ d, Rfc3339Text "2025-01-15T17:00:00+03:00".toList d ∧ d.nanos = 0 ∧ d.clock % 60 = 0 ∧ d.offset % 3600 = 0) ∧
    (∃ d, Rfc3339Text "2025-01-15T17:00:00+05:30".toList d ∧ d.clock % 60 = 0 ∧ d.offset = 19800) ∧
    (∃ d, Rfc3339Text "2025-01-15T17:00:30.5Z".toList d ∧ d.offset % 3600 = 0 ∧ d.clock % 60 = 30) ∧
    (∃ d, Rfc3339Text "2016-12-31 23:59:60z".toList d ∧ d.nanos = 10 ^ 9) := by
  refine ⟨⟨⟨1736949600, 0, 10800⟩, (C155_reads _ _).1 (by decide +kernel), by decide +kernel, by decide +kernel, by decide⟩,
    ⟨⟨1736940600, 0, 19800⟩, (C155_reads _ _).1 (by decide +kernel), by decide +kernel, by decide⟩,
    ⟨⟨1736960430, 500000000, 0⟩, (C155_reads _ _).1 (by decide +kernel), by decide, by decide +kernel⟩,
    ⟨⟨1483228799, 1000000000, 0⟩, (C155_reads _ _).1 (by decide +kernel), by decide⟩⟩

end Firm
