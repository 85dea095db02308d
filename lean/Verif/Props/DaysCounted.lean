import Verif.Props.Found
import Verif.Props.Moments
import Verif.Props.Requested

/-!
# Dates follow the calendar (C164)

The day numbers that dates are compared and kept by, against the calendar itself: which dates there are, which date
comes after which, and which of two is earlier.
-/

namespace Firm
open Spec

/-! ## Specification -/

/-- Every fourth year is a leap year, but of the hundredth ones only every fourth. -/
def Spec.LeapYear (y : Int) : Prop := 4 ∣ y ∧ (100 ∣ y → 400 ∣ y)

/-- The months of the year with their lengths. -/
inductive Spec.MonthLength (y : Int) : Nat → Nat → Prop
  | january : MonthLength y 1 31
  | february : ¬ LeapYear y → MonthLength y 2 28
  | leapFebruary : LeapYear y → MonthLength y 2 29
  | march : MonthLength y 3 31
  | april : MonthLength y 4 30
  | may : MonthLength y 5 31
  | june : MonthLength y 6 30
  | july : MonthLength y 7 31
  | august : MonthLength y 8 31
  | september : MonthLength y 9 30
  | october : MonthLength y 10 31
  | november : MonthLength y 11 30
  | december : MonthLength y 12 31

/-- A date there is. -/
def Spec.RealDate (c : Civil) : Prop := ∃ n, MonthLength c.year c.month n ∧ 1 ≤ c.day ∧ c.day ≤ n

/-- The date after a date. -/
inductive Spec.NextDate : Civil → Civil → Prop
  | day {y : Int} {m n d : Nat} : MonthLength y m n → d < n → NextDate ⟨y, m, d⟩ ⟨y, m, d + 1⟩
  | month {y : Int} {m n : Nat} : MonthLength y m n → m < 12 → NextDate ⟨y, m, n⟩ ⟨y, m + 1, 1⟩
  | year {y : Int} : NextDate ⟨y, 12, 31⟩ ⟨y + 1, 1, 1⟩

/-- The date so many days after a date. -/
inductive Spec.DaysAfter : Nat → Civil → Civil → Prop
  | same (c : Civil) : DaysAfter 0 c c
  | next {n : Nat} {a b c : Civil} : DaysAfter n a b → NextDate b c → DaysAfter (n + 1) a c

/-- The earlier one of two dates: by the year, in the same year by the month, in the same month by the day. -/
def Spec.EarlierDate (a b : Civil) : Prop :=
  a.year < b.year ∨ (a.year = b.year ∧ (a.month < b.month ∨ (a.month = b.month ∧ a.day < b.day)))

/-- The first day that is counted. -/
def Spec.firstOf1970 : Civil := ⟨1970, 1, 1⟩

/-! ## The model's calendar -/

theorem isLeap_leapYear (y : Int) : isLeap y = true ↔ LeapYear y := by
  rw [isLeap_iff]
  unfold LeapYear
  omega

theorem monthLength_iff (y : Int) (m n : Nat) :
    MonthLength y m n ↔ 1 ≤ m ∧ m ≤ 12 ∧ n = daysInMonth y m := by
  constructor
  · intro h
    cases h with
    | february h =>
      refine ⟨by decide, by decide, ?_⟩
      unfold daysInMonth
      rw [if_pos rfl, if_neg (by rw [isLeap_leapYear]; exact h)]
    | leapFebruary h =>
      refine ⟨by decide, by decide, ?_⟩
      unfold daysInMonth
      rw [if_pos rfl, if_pos ((isLeap_leapYear y).2 h)]
    | _ => exact ⟨by decide, by decide, rfl⟩
  · rintro ⟨h1, h2, rfl⟩
    have : m = 1 ∨ m = 2 ∨ m = 3 ∨ m = 4 ∨ m = 5 ∨ m = 6 ∨ m = 7 ∨ m = 8 ∨ m = 9 ∨ m = 10 ∨ m = 11 ∨ m = 12 := by
      omega
    rcases this with rfl | rfl | rfl | rfl | rfl | rfl | rfl | rfl | rfl | rfl | rfl | rfl
    · exact .january
    · by_cases h : LeapYear y
      · have : daysInMonth y 2 = 29 := by
          unfold daysInMonth
          rw [if_pos rfl, if_pos ((isLeap_leapYear y).2 h)]
        rw [this]
        exact .leapFebruary h
      · have : daysInMonth y 2 = 28 := by
          unfold daysInMonth
          rw [if_pos rfl, if_neg (by rw [isLeap_leapYear]; exact h)]
        rw [this]
        exact .february h
    · exact .march
    · exact .april
    · exact .may
    · exact .june
    · exact .july
    · exact .august
    · exact .september
    · exact .october
    · exact .november
    · exact .december

theorem realDate_proper (c : Civil) : RealDate c ↔ Proper c := by
  unfold RealDate Proper
  constructor
  · rintro ⟨n, h, h1, h2⟩
    obtain ⟨a, b, rfl⟩ := (monthLength_iff _ _ _).1 h
    exact ⟨a, b, h1, h2⟩
  · rintro ⟨a, b, h1, h2⟩
    exact ⟨_, (monthLength_iff _ _ _).2 ⟨a, b, rfl⟩, h1, h2⟩

theorem monthLength_pos {y : Int} {m n : Nat} (h : MonthLength y m n) : 28 ≤ n := by
  cases h <;> decide

theorem nextDate_real {a b : Civil} (h : NextDate a b) (ha : RealDate a) : RealDate b := by
  cases h with
  | day h hd => exact ⟨_, h, by dsimp only; omega, by dsimp only; omega⟩
  | @month y m n h hm =>
    obtain ⟨h1, h2, -⟩ := (monthLength_iff _ _ _).1 h
    have hl := (monthLength_iff y (m + 1) _).2 ⟨by omega, by omega, rfl⟩
    have := monthLength_pos hl
    exact ⟨_, hl, by dsimp only; omega, by dsimp only; omega⟩
  | year => exact ⟨_, .january, by dsimp only; omega, by dsimp only; omega⟩

theorem nextDate_toDays {a b : Civil} (h : NextDate a b) : b.toDays = a.toDays + 1 := by
  cases h with
  | day h hd => unfold Civil.toDays; dsimp only; omega
  | @month y m n h hm =>
    cases h with
    | february h =>
      unfold LeapYear at h
      simp only [Civil.toDays, daysBefore]
      norm_num
      omega
    | leapFebruary h =>
      unfold LeapYear at h
      simp only [Civil.toDays, daysBefore]
      norm_num
      omega
    | december => omega
    | _ => simp only [Civil.toDays, daysBefore]; norm_num; omega
  | year => simp only [Civil.toDays, daysBefore]; norm_num; omega

theorem nextDate_exists {a : Civil} (ha : RealDate a) : ∃ b, NextDate a b := by
  obtain ⟨y, m, d⟩ := a
  obtain ⟨n, h, h1, h2⟩ := ha
  dsimp only at h h1 h2
  by_cases hd : d < n
  · exact ⟨_, .day h hd⟩
  · have hdn : d = n := by omega
    subst hdn
    by_cases hm : m < 12
    · exact ⟨_, .month h hm⟩
    · have := ((monthLength_iff _ _ _).1 h).2.1
      have hm12 : m = 12 := by omega
      subst hm12
      cases h
      exact ⟨_, .year⟩

theorem nextDate_earlier {a b : Civil} (h : NextDate a b) : EarlierDate a b := by
  unfold EarlierDate
  cases h <;> dsimp only <;> omega

theorem earlierDate_trans {a b c : Civil} (h : EarlierDate a b) (h' : EarlierDate b c) : EarlierDate a c := by
  unfold EarlierDate at *
  omega

theorem daysAfter_earlier {n : Nat} {a b : Civil} (h : DaysAfter (n + 1) a b) : EarlierDate a b := by
  induction n generalizing b with
  | zero =>
    cases h with
    | next h h' =>
      cases h
      exact nextDate_earlier h'
  | succ n ih =>
    cases h with
    | next h h' => exact earlierDate_trans (ih h) (nextDate_earlier h')

/-! ## The property -/

/-- C164: the next date is the next day, and no other date is. -/
theorem C164_next {a b : Civil} (ha : RealDate a) (hb : RealDate b) :
    b.toDays = a.toDays + 1 ↔ NextDate a b := by
  constructor
  · intro h
    obtain ⟨c, hc⟩ := nextDate_exists ha
    have : b = c := toDays_inj ((realDate_proper _).1 hb) ((realDate_proper _).1 (nextDate_real hc ha))
      (by rw [h, nextDate_toDays hc])
    rw [this]
    exact hc
  · exact nextDate_toDays

/-- C164: the difference of the day numbers of two dates is the number of days between them. -/
theorem C164_apart {a b : Civil} (ha : RealDate a) (hb : RealDate b) (n : Nat) :
    b.toDays = a.toDays + n ↔ DaysAfter n a b := by
  induction n generalizing b with
  | zero =>
    constructor
    · intro h
      rw [toDays_inj ((realDate_proper _).1 hb) ((realDate_proper _).1 ha) (by simpa using h)]
      exact .same a
    · intro h
      cases h
      simp
  | succ n ih =>
    constructor
    · intro h
      have hp : RealDate (civilOf (a.toDays + n)) := (realDate_proper _).2 (civilOf_proper _)
      refine .next ((ih hp).1 (toDays_civilOf _)) ((C164_next hp hb).1 ?_)
      rw [toDays_civilOf, h]
      omega
    · intro h
      cases h with
      | next h h' =>
        rename_i c
        have hc : RealDate c := by
          clear ih h' hb
          induction h with
          | same => exact ha
          | next _ h ih => exact nextDate_real h (ih ha)
        rw [nextDate_toDays h', (ih hc).2 h]
        omega

/-- C164: the numbers count the days since 1970-01-01, and the ones until then if they are negative; every number
is that of one date. -/
theorem C164_counted (k : Int) : ∃ c, RealDate c ∧ c.toDays = k ∧ (∀ c', RealDate c' → c'.toDays = k → c' = c) ∧
    (0 ≤ k → DaysAfter k.toNat firstOf1970 c) ∧ (k ≤ 0 → DaysAfter (-k).toNat c firstOf1970) := by
  have hf : RealDate firstOf1970 := ⟨_, .january, by decide, by decide⟩
  have h0 : firstOf1970.toDays = 0 := by decide
  have hp : RealDate (civilOf k) := (realDate_proper _).2 (civilOf_proper _)
  refine ⟨civilOf k, hp, toDays_civilOf k, fun c' h h' => ?_, fun h => ?_, fun h => ?_⟩
  · exact toDays_inj ((realDate_proper _).1 h) (civilOf_proper _) (by rw [h', toDays_civilOf])
  · rw [← C164_apart hf hp, toDays_civilOf, h0]
    omega
  · rw [← C164_apart hp hf, toDays_civilOf, h0]
    omega

/-- C164: the smaller day number is that of the earlier date. -/
theorem C164_earlier {a b : Civil} (ha : RealDate a) (hb : RealDate b) :
    a.toDays < b.toDays ↔ EarlierDate a b := by
  have key : ∀ {a b : Civil}, RealDate a → RealDate b → a.toDays < b.toDays → EarlierDate a b := by
    intro a b ha hb h
    refine daysAfter_earlier (n := (b.toDays - a.toDays - 1).toNat) ((C164_apart ha hb _).1 ?_)
    omega
  refine ⟨key ha hb, fun h => ?_⟩
  rcases Int.lt_trichotomy a.toDays b.toDays with hlt | heq | hgt
  · exact hlt
  · have := toDays_inj ((realDate_proper _).1 ha) ((realDate_proper _).1 hb) heq
    subst this
    unfold EarlierDate at h
    omega
  · have := key hb ha hgt
    unfold EarlierDate at h this
    omega

/-- The date that is written with these digits. -/
def Spec.writtenDate (y m d : Str) : Civil := ⟨digitsVal y, digitsVal m, digitsVal d⟩

theorem writtenDate_valid {y m d : Str} (hy : IsDigitsN 4 y) :
    Civil.valid (writtenDate y m d) = true ↔ RealDate (writtenDate y m d) := by
  rw [realDate_proper]
  refine ⟨civil_proper, fun ⟨h1, h2, h3, h4⟩ => ?_⟩
  have := digitsVal_four hy
  unfold Civil.valid
  simp only [Bool.and_eq_true, decide_eq_true_eq]
  refine ⟨⟨⟨⟨⟨?_, ?_⟩, h1⟩, h2⟩, h3⟩, h4⟩ <;> (unfold writtenDate; dsimp only; omega)

/-- C164: a date in a file is accepted if there is such a date, and is the midnight of its day where the program
runs; it is refused if there is none. -/
theorem C164_file (L : Lang) (source : Str) {y m d : Str} (hy : IsDigitsN 4 y) (hm : IsDigitsN 2 m)
    (hd : IsDigitsN 2 d) :
    (RealDate (writtenDate y m d) → ∃ x, parseLeaf L source "date".toList (y ++ '-' :: m ++ '-' :: d) =
      .ok (.dateTime x) ∧ civilOf x.localDay = writtenDate y m d ∧ (x.secs + x.offset) % 86400 = 0 ∧ x.nanos = 0) ∧
    (¬ RealDate (writtenDate y m d) → parseLeaf L source "date".toList (y ++ '-' :: m ++ '-' :: d) =
      .error (.invalidDate (y ++ '-' :: m ++ '-' :: d))) := by
  have h2 := parseCivil_digits hy hm hd []
  rw [List.append_nil] at h2
  have hp : parseLeaf L source "date".toList (y ++ '-' :: m ++ '-' :: d) =
      parseDate L (y ++ '-' :: m ++ '-' :: d) := by
    unfold parseLeaf
    rw [if_neg (by decide), if_neg (by decide), if_neg (by decide), if_neg (by decide), if_neg (by decide),
      if_pos rfl]
  rw [hp]
  unfold parseDate
  constructor
  · intro h
    have hv := (writtenDate_valid hy).2 h
    rw [if_pos ⟨rfl, hv⟩] at h2
    rw [h2]
    refine ⟨_, rfl, ?_, ?_, rfl⟩
    · rw [show (localDateTime (Civil.toDays ⟨digitsVal y, digitsVal m, digitsVal d⟩) 0 L.localOffset).localDay =
        Civil.toDays (writtenDate y m d) by
          unfold localDateTime DateTime.localDay writtenDate
          dsimp only
          omega, civilOf_toDays (civil_proper hv)]
    · unfold localDateTime
      dsimp only
      omega
  · intro h
    have hv : ¬ Civil.valid (writtenDate y m d) = true := fun h' => h ((writtenDate_valid hy).1 h')
    rw [if_neg (fun h' => hv h'.2)] at h2
    rw [h2]

/-- C164, part: a condition with a date asks whether the day that a moment falls on is earlier than, the same as or
later than that date in the calendar; one with a date there is not fails. Missing: dates with a time of day
(`C124`). -/
theorem C164_where_partial (env : Env) (he : Chrono env) {y m d : Str} (hy : IsDigitsN 4 y) (hm : IsDigitsN 2 m)
    (hd : IsDigitsN 2 d) (x : DateTime) :
    (RealDate (writtenDate y m d) →
      AnswersOrder (fun op => compareField env (.dateTime x) op (.dateTime (y ++ '-' :: m ++ '-' :: d)))
        (EarlierDate (civilOf x.localDay) (writtenDate y m d)) (civilOf x.localDay = writtenDate y m d)
        (EarlierDate (writtenDate y m d) (civilOf x.localDay))) ∧
    (¬ RealDate (writtenDate y m d) → ∀ op,
      compareField env (.dateTime x) op (.dateTime (y ++ '-' :: m ++ '-' :: d)) =
        .error (.invalidDateFormat (y ++ '-' :: m ++ '-' :: d))) := by
  have h := C124_days_partial env he hy hm hd x
  have hc : RealDate (civilOf x.localDay) := (realDate_proper _).2 (civilOf_proper _)
  constructor
  · intro hr
    refine AnswersOrder.congr (h.1 ((writtenDate_valid hy).2 hr)) ?_ Iff.rfl ?_
    · rw [← C164_earlier hc hr, toDays_civilOf]; rfl
    · rw [← C164_earlier hr hc, toDays_civilOf]; rfl
  · intro hr op
    refine h.2 ?_ op
    rw [Bool.eq_false_iff]
    exact fun h' => hr ((writtenDate_valid hy).1 h')

/-- Dates and moments without a zone, as written in a file: the kind of the literal, the text, the date and the
minutes since midnight. -/
inductive Spec.WrittenMoment : Str → Str → Civil → Nat → Prop
  | day {y m d : Str} : IsDigitsN 4 y → IsDigitsN 2 m → IsDigitsN 2 d → RealDate (writtenDate y m d) →
      WrittenMoment "date".toList (y ++ '-' :: m ++ '-' :: d) (writtenDate y m d) 0
  | time {y m d hh mm : Str} : IsDigitsN 4 y → IsDigitsN 2 m → IsDigitsN 2 d → RealDate (writtenDate y m d) →
      IsDigitsN 2 hh → IsDigitsN 2 mm → digitsVal hh < 24 → digitsVal mm < 60 →
      WrittenMoment "datetime".toList (y ++ '-' :: m ++ '-' :: d ++ " at ".toList ++ (hh ++ ':' :: mm))
        (writtenDate y m d) (digitsVal hh * 60 + digitsVal mm)

theorem parseTime_digits {hh mm : Str} (h : IsDigitsN 2 hh) (h' : IsDigitsN 2 mm) (hl : digitsVal hh < 24)
    (hl' : digitsVal mm < 60) : parseTime (hh ++ ':' :: mm) = some (digitsVal hh * 60 + digitsVal mm) := by
  unfold parseTime
  rw [scanItem_digits h]
  simp only [Option.bind_some, scanChar, if_true]
  have := scanItem_digits h' []
  rw [List.append_nil] at this
  rw [this]
  simp only [Option.bind_some]
  rw [if_pos ⟨trivial, hl, hl'⟩]

theorem writtenMoment_read (L : Lang) (source : Str) {k t : Str} {c : Civil} {p : Nat}
    (h : WrittenMoment k t c p) : RealDate c ∧ p < 1440 ∧
      parseLeaf L source k t = .ok (.dateTime (localDateTime c.toDays p L.localOffset)) := by
  cases h with
  | @day y m d hy hm hd hr =>
    refine ⟨hr, by decide, ?_⟩
    have h2 := parseCivil_digits hy hm hd []
    rw [List.append_nil, if_pos ⟨rfl, (writtenDate_valid hy).2 hr⟩] at h2
    unfold parseLeaf
    rw [if_neg (by decide), if_neg (by decide), if_neg (by decide), if_neg (by decide), if_neg (by decide),
      if_pos rfl]
    unfold parseDate
    rw [h2]
    rfl
  | @time y m d hh mm hy hm hd hr h1 h2 h3 h4 =>
    refine ⟨hr, by omega, ?_⟩
    have hc := parseCivil_digits hy hm hd []
    rw [List.append_nil, if_pos ⟨rfl, (writtenDate_valid hy).2 hr⟩] at hc
    rw [parseLeaf_dateTime, C91_accepted L (.here hc (parseTime_digits h1 h2 h3 h4))]
    rfl

/-- C164: dates and moments of files are sorted as the calendar and the clock have them. -/
theorem C164_sorted (L : Lang) (source source' : Str) {k t k' t' : Str} {a b : Civil} {p q : Nat}
    (h : WrittenMoment k t a p) (h' : WrittenMoment k' t' b q) : ∃ x x',
      parseLeaf L source k t = .ok (.dateTime x) ∧ parseLeaf L source' k' t' = .ok (.dateTime x') ∧
      (compareFieldValues L.env (.dateTime x) (.dateTime x') = .lt ↔ EarlierDate a b ∨ (a = b ∧ p < q)) ∧
      (compareFieldValues L.env (.dateTime x) (.dateTime x') = .eq ↔ a = b ∧ p = q) ∧
      (compareFieldValues L.env (.dateTime x) (.dateTime x') = .gt ↔ EarlierDate b a ∨ (a = b ∧ q < p)) := by
  obtain ⟨ha, hp, h⟩ := writtenMoment_read L source h
  obtain ⟨hb, hq, h'⟩ := writtenMoment_read L source' h'
  refine ⟨_, _, h, h', ?_⟩
  have he : a = b ↔ a.toDays = b.toDays :=
    ⟨fun h => by rw [h], toDays_inj ((realDate_proper _).1 ha) ((realDate_proper _).1 hb)⟩
  rw [← C164_earlier ha hb, ← C164_earlier hb ha, he]
  show (DateTime.cmp _ _ = _ ↔ _) ∧ (DateTime.cmp _ _ = _ ↔ _) ∧ (DateTime.cmp _ _ = _ ↔ _)
  unfold DateTime.cmp localDateTime
  simp only [show compare (0 : Nat) 0 = .eq from rfl, Ordering.then_eq]
  rw [Int.compare_eq_lt, compare_eq_iff_eq, Int.compare_eq_gt]
  refine ⟨?_, ?_, ?_⟩ <;> omega

/-! ## The hypotheses can be met -/

example : NextDate ⟨2024, 2, 28⟩ ⟨2024, 2, 29⟩ := .day (.leapFebruary (by unfold LeapYear; decide)) (by decide)
example : NextDate ⟨1900, 2, 28⟩ ⟨1900, 3, 1⟩ := .month (.february (by unfold LeapYear; decide)) (by decide)
example : RealDate ⟨2024, 2, 29⟩ := (realDate_proper _).2 (by unfold Proper; decide)
example : ¬ RealDate ⟨2023, 2, 29⟩ := by rw [realDate_proper]; unfold Proper; decide
example : DaysAfter 366 ⟨2024, 1, 1⟩ ⟨2025, 1, 1⟩ :=
  (C164_apart ((realDate_proper _).2 (by unfold Proper; decide)) ((realDate_proper _).2 (by unfold Proper; decide))
    366).1 (by decide)
example : WrittenMoment "date".toList "2024-02-29".toList ⟨2024, 2, 29⟩ 0 :=
  .day (y := "2024".toList) (m := "02".toList) (d := "29".toList) ⟨by decide, by decide⟩ ⟨by decide, by decide⟩
    ⟨by decide, by decide⟩ ((realDate_proper _).2 (by unfold Proper; decide))
example : WrittenMoment "datetime".toList "2024-02-29 at 09:30".toList ⟨2024, 2, 29⟩ 570 :=
  .time (y := "2024".toList) (m := "02".toList) (d := "29".toList) (hh := "09".toList) (mm := "30".toList)
    ⟨by decide, by decide⟩ ⟨by decide, by decide⟩ ⟨by decide, by decide⟩
    ((realDate_proper _).2 (by unfold Proper; decide)) ⟨by decide, by decide⟩ ⟨by decide, by decide⟩ (by decide)
    (by decide)

end Firm
