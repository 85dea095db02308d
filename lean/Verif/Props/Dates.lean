import Verif.Spec.Dates
import Verif.Lemmas.Dates
import Verif.Props.Moments
import Verif.Props.Shown
import Verif.Props.Saved
import Verif.Props.QueryText

/-!
# Dates outside of source files (C123–C125)
-/

namespace Firm

open Spec

theorem Spec.Holdable.nanos_lt {d : DateTime} (h : Holdable d) : d.nanos < 2 * 10 ^ 9 := by
  rcases h.nanos with h | h <;> omega

theorem clock_lt (d : DateTime) : d.clock < 86400 := by unfold DateTime.clock; omega

theorem civilOf_small (n : Int) : (civilOf n).month < 100 ∧ (civilOf n).day < 100 := by
  have h1 := civilOf_month n
  have h2 := civilOf_day n
  have h3 := daysInMonth_le (civilOf n).year (civilOf n).month
  omega

theorem ends_zone (o : Int) : Ends (showZone o) := by
  intro c hc
  unfold showZone showMinutes at hc
  split at hc
  · injection hc with hc; subst hc; decide
  · injection hc with hc
    subst hc
    split <;> decide

/-- The parts of a date are put together to the date. -/
theorem stamp_parts {d : DateTime} (h : Holdable d) (hm : WholeMinutes d) :
    Stamp.toDateTime ⟨d.civil, d.clock / 3600, d.clock / 60 % 60, d.clock % 60 + leapOf d.nanos,
      d.nanos - leapOf d.nanos * 10 ^ 9, d.offset⟩ = some d := by
  have hc := clock_lt d
  have hw : d.offset % 60 = 0 := hm
  have hl := leapOf_le d.nanos
  have hclock : (d.clock : Int) = (d.secs + d.offset) % 86400 := by unfold DateTime.clock; omega
  have h60 : (d.clock : Int) % 60 = d.secs % 60 := by omega
  have hday : d.civil.toDays = (d.secs + d.offset) / 86400 := toDays_civilOf _
  have hleap : (leapOf d.nanos = 0 ∧ d.nanos < 10 ^ 9) ∨
      (leapOf d.nanos = 1 ∧ 10 ^ 9 ≤ d.nanos ∧ d.clock % 60 = 59) := by
    unfold leapOf
    rcases h.nanos with h | h
    · left; rw [if_neg (by omega)]; exact ⟨rfl, h⟩
    · by_cases hn : 10 ^ 9 ≤ d.nanos
      · right; rw [if_pos hn]; exact ⟨rfl, hn, by omega⟩
      · left; rw [if_neg hn]; exact ⟨rfl, by omega⟩
  unfold Stamp.toDateTime
  simp only
  have hmin : min (d.clock % 60 + leapOf d.nanos) 59 = d.clock % 60 := by omega
  have hsecs : d.civil.toDays * 86400 + ((d.clock / 3600 * 3600 + d.clock / 60 % 60 * 60 +
      min (d.clock % 60 + leapOf d.nanos) 59 : Nat) : Int) - d.offset = d.secs := by
    rw [hmin, hday]; omega
  rw [hsecs]
  have hoff := h.offset
  rw [if_pos ⟨h.here, by omega, by omega, by omega, hoff.1, hoff.2, h.utc⟩]
  have hn : d.nanos - leapOf d.nanos * 10 ^ 9 + (if d.clock % 60 + leapOf d.nanos = 60 then 10 ^ 9 else 0) =
      d.nanos := by
    rcases hleap with ⟨h1, h2⟩ | ⟨h1, h2, h3⟩
    · rw [if_neg (by omega), h1]; omega
    · rw [if_pos (by omega), h1]; omega
  rw [hn]

theorem zone_value {o : Int} (hm : o % 60 = 0) :
    (if decide (o < 0) then -1 else 1) * (((o.natAbs + 30) / 60 * 60 : Nat) : Int) = o := by
  by_cases hn : o < 0
  · rw [if_pos (by simpa using hn)]; omega
  · rw [if_neg (by simpa using hn)]; omega

theorem zone_small {o : Int} (h : -86400 < o ∧ o < 86400) : (o.natAbs + 30) / 60 < 6000 := by omega

theorem scanRelaxed_show {o : Int} (h : -86400 < o ∧ o < 86400) (hm : o % 60 = 0) :
    scanRelaxedZone (showZone o) = some (o, []) := by
  by_cases h0 : o = 0
  · subst h0; rfl
  · unfold showZone
    rw [if_neg h0]
    unfold scanRelaxedZone
    rw [if_neg, scanZone_minutes (fun m hm => colonOrSpace_pad2 m hm) _ (zone_small h), zone_value hm]
    unfold showMinutes
    intro hc
    unfold eqIgnoreAsciiCase asciiLower at hc
    rw [beq_iff_eq] at hc
    have := congrArg List.head? hc
    revert this
    split <;> · intro h; exact absurd h (by simp)

theorem trimStart_zone (o : Int) : trimStart (showZone o) = showZone o := by
  unfold showZone showMinutes
  split
  · rfl
  · split
    · exact trimStart_sign (Or.inl rfl)
    · exact trimStart_sign (Or.inr rfl)

/-- C123: a date is read from its text as it was. -/
theorem C123_read {d : DateTime} (h : Holdable d) (hm : WholeMinutes d) :
    readDateTime d.rfc3339 = some d := by
  have hs := civilOf_small d.localDay
  unfold readDateTime DateTime.rfc3339
  rw [scanDate_show (c := d.civil) hs.1 hs.2]
  simp only [Option.bind_some, scanT, true_or, if_true]
  rw [scanTime_show (clock_lt d) h.nanos_lt (ends_zone d.offset)]
  simp only [Option.bind_some]
  rw [trimStart_zone, scanRelaxed_show h.offset hm]
  simp only [Option.bind_some]
  rw [if_pos (by rfl)]
  exact stamp_parts h hm

theorem scanZone_offset {sep : Str → Option Str} {s r : Str} {o : Int} (h : scanZone sep s = some (o, r)) :
    o % 60 = 0 := by
  cases s with
  | nil => cases h
  | cons c s =>
    rw [scanZone] at h
    split at h
    · injection h with h; injection h with h _; subst h; rfl
    · split at h
      · obtain ⟨x, _, h⟩ := Option.bind_eq_some_iff.1 h
        obtain ⟨y, _, h⟩ := Option.bind_eq_some_iff.1 h
        obtain ⟨z, _, h⟩ := Option.bind_eq_some_iff.1 h
        split at h
        · injection h with h
          injection h with h _
          rw [← h]
          split <;> omega
        · cases h
      · cases h

theorem toDateTime_offset {p : Stamp} {d : DateTime} (h : p.toDateTime = some d) : d.offset = p.offset := by
  unfold Stamp.toDateTime at h
  dsimp only at h
  split at h
  · injection h with h; rw [← h]
  · cases h

/-- C123: whatever text is read, the offset is in whole minutes; so a date with any other offset is not read
as it was. -/
theorem C123_whole_minutes {s : Str} {d : DateTime} (h : readDateTime s = some d) : WholeMinutes d := by
  unfold readDateTime at h
  obtain ⟨c, _, h⟩ := Option.bind_eq_some_iff.1 h
  obtain ⟨s1, _, h⟩ := Option.bind_eq_some_iff.1 h
  obtain ⟨t, _, h⟩ := Option.bind_eq_some_iff.1 h
  obtain ⟨z, hz, h⟩ := Option.bind_eq_some_iff.1 h
  split at h
  · have ho := toDateTime_offset h
    unfold WholeMinutes
    rw [ho]
    unfold scanRelaxedZone at hz
    split at hz
    · injection hz with hz; rw [← hz]; rfl
    · exact scanZone_offset (r := z.2) (o := z.1) hz
  · cases h

/-! ## Dates of the calendar -/

/-- A date of the calendar of any year. -/
def Spec.Proper (c : Civil) : Prop :=
  1 ≤ c.month ∧ c.month ≤ 12 ∧ 1 ≤ c.day ∧ c.day ≤ daysInMonth c.year c.month

/-- The year, month and day counted from March. -/
theorem proper_shape {c : Civil} (h : Proper c) : ∃ (y : Int) (mp k : Nat), mp ≤ 11 ∧
    c = ⟨y + (if mp < 10 then 0 else 1), if mp < 10 then mp + 3 else mp - 9, k + 1⟩ ∧
    c.toDays = 365 * y + y / 4 - y / 100 + y / 400 + (daysBefore mp + k : Nat) - 719468 ∧
    (mp ≠ 11 → daysBefore mp + k < daysBefore (mp + 1)) ∧
    (daysBefore mp + k ≤ 364 ∨ (daysBefore mp + k = 365 ∧ isLeap (y + 1) = true)) := by
  obtain ⟨year, month, day⟩ := c
  obtain ⟨h1, h2, h3, h4⟩ := h
  simp only at h1 h2 h3 h4
  have key : ∀ (y : Int) (mp : Nat), mp ≤ 11 → year = y + (if mp < 10 then 0 else 1) →
      month = (if mp < 10 then mp + 3 else mp - 9) → ∃ (y : Int) (mp k : Nat), mp ≤ 11 ∧
    (⟨year, month, day⟩ : Civil) =
      ⟨y + (if mp < 10 then 0 else 1), if mp < 10 then mp + 3 else mp - 9, k + 1⟩ ∧
    (⟨year, month, day⟩ : Civil).toDays =
      365 * y + y / 4 - y / 100 + y / 400 + (daysBefore mp + k : Nat) - 719468 ∧
    (mp ≠ 11 → daysBefore mp + k < daysBefore (mp + 1)) ∧
    (daysBefore mp + k ≤ 364 ∨ (daysBefore mp + k = 365 ∧ isLeap (y + 1) = true)) := fun y mp hmp hy hmo =>
    ⟨y, mp, day - 1, hmp, by rw [hy, hmo]; congr 1; omega, by
      unfold Civil.toDays
      simp only
      by_cases h10 : mp < 10
      · rw [if_pos h10] at hy hmo
        rw [if_neg (show ¬ month ≤ 2 by omega), if_neg (show ¬ month ≤ 2 by omega), hy, hmo,
          Nat.add_sub_cancel]
        simp only [Int.add_zero]
        omega
      · rw [if_neg h10] at hy hmo
        rw [if_pos (show month ≤ 2 by omega), if_pos (show month ≤ 2 by omega), hy, hmo,
          show mp - 9 + 9 = mp by omega, Int.add_sub_cancel]
        omega, by
      intro hne
      have := daysBefore_lt (show mp < 11 by omega) year
      rw [← hmo] at this
      omega, by
      by_cases h11 : mp = 11
      · subst h11
        have hy' : year = y + 1 := hy
        have hmo' : month = 2 := hmo
        rw [hmo', daysInMonth, if_pos rfl, hy'] at h4
        have hb : daysBefore 11 = 337 := by decide
        rw [hb]
        split at h4
        · rename_i hl
          by_cases h29 : day = 29
          · right; exact ⟨by omega, hl⟩
          · left; omega
        · left; omega
      · left
        have := daysBefore_lt (show mp < 11 by omega) year
        rw [← hmo] at this
        have hb : daysBefore (mp + 1) ≤ 337 := by unfold daysBefore; omega
        omega⟩
  by_cases hm : month ≤ 2
  · refine key (year - 1) (month + 9) (by omega) ?_ ?_
    · rw [if_neg (by omega)]; omega
    · rw [if_neg (by omega)]; omega
  · refine key year (month - 3) (by omega) ?_ ?_
    · rw [if_pos (by omega)]; omega
    · rw [if_pos (by omega)]; omega

/-- Days before a year that begins in March. -/
def yearDays (y : Int) : Int := 365 * y + y / 4 - y / 100 + y / 400

theorem yearDays_succ (y : Int) : yearDays y + 365 ≤ yearDays (y + 1) := by
  unfold yearDays
  have h4 : (y + 1) / 4 = y / 4 ∨ ((y + 1) / 4 = y / 4 + 1) := by omega
  have h100 : (y + 1) / 100 = y / 100 ∨ ((y + 1) / 100 = y / 100 + 1 ∧ (y + 1) % 100 = 0) := by omega
  have h400 : y / 400 ≤ (y + 1) / 400 := by omega
  rcases h100 with h | ⟨h, hm⟩
  · rcases h4 with h' | h' <;> omega
  · have : (y + 1) / 4 = y / 4 + 1 := by omega
    omega

theorem yearDays_leap {y : Int} (h : isLeap (y + 1) = true) : yearDays y + 366 ≤ yearDays (y + 1) := by
  unfold yearDays
  rw [isLeap_iff] at h
  have h4 : (y + 1) / 4 = y / 4 + 1 := by omega
  rcases h.2 with h' | h'
  · have : (y + 1) / 100 = y / 100 := by omega
    have : y / 400 ≤ (y + 1) / 400 := by omega
    omega
  · have : (y + 1) / 400 = y / 400 + 1 := by omega
    have : (y + 1) / 100 ≤ y / 100 + 1 := by omega
    omega

theorem yearDays_mono (y : Int) : ∀ n : Nat, yearDays y ≤ yearDays (y + n)
  | 0 => by simp
  | n + 1 => by
    have := yearDays_mono y n
    have := yearDays_succ (y + n)
    rw [show y + ((n + 1 : Nat) : Int) = y + n + 1 by omega]
    omega

theorem yearDays_lt {y y' : Int} {k k' : Nat} (hlt : y < y')
    (h : k ≤ 364 ∨ (k = 365 ∧ isLeap (y + 1) = true)) : yearDays y + k < yearDays y' + k' := by
  have hm := yearDays_mono (y + 1) (y' - (y + 1)).toNat
  rw [show y + 1 + ((y' - (y + 1)).toNat : Int) = y' by omega] at hm
  rcases h with h | ⟨h, hl⟩
  · have := yearDays_succ y
    omega
  · have := yearDays_leap hl
    omega

/-- Different dates have different day numbers. -/
theorem toDays_inj {c c' : Civil} (h : Proper c) (h' : Proper c') (e : c.toDays = c'.toDays) : c = c' := by
  obtain ⟨y, mp, k, a1, a2, a3, a4, a5⟩ := proper_shape h
  obtain ⟨y', mp', k', b1, b2, b3, b4, b5⟩ := proper_shape h'
  rw [a3, b3] at e
  have e' : yearDays y + (daysBefore mp + k : Nat) = yearDays y' + (daysBefore mp' + k' : Nat) := by
    unfold yearDays; omega
  have hy : y = y' := by
    rcases Int.lt_trichotomy y y' with hlt | heq | hgt
    · have := yearDays_lt (k' := daysBefore mp' + k') hlt a5
      omega
    · exact heq
    · have := yearDays_lt (k' := daysBefore mp + k) hgt b5
      omega
  subst hy
  have hd : daysBefore mp + k = daysBefore mp' + k' := by omega
  have hmp : mp = mp' := by
    unfold daysBefore at *
    omega
  subst hmp
  have : k = k' := by omega
  subst this
  rw [a2, b2]

theorem civilOf_proper (n : Int) : Proper (civilOf n) :=
  ⟨(civilOf_month n).1, (civilOf_month n).2, (civilOf_day n).1, (civilOf_day n).2⟩

/-- A date is the date of its day number. -/
theorem civilOf_toDays {c : Civil} (h : Proper c) : civilOf c.toDays = c :=
  toDays_inj (civilOf_proper _) h (toDays_civilOf _)

theorem civil_proper {c : Civil} (h : c.valid = true) : Proper c := by
  unfold Civil.valid at h
  simp only [Bool.and_eq_true, decide_eq_true_eq] at h
  exact ⟨h.1.1.1.2, h.1.1.2, h.1.2, h.2⟩

theorem parseCivil_valid {s : Str} {day : Int} (h : parseCivil s = some day) :
    (civilOf day).valid = true := by
  unfold parseCivil at h
  obtain ⟨y, _, h⟩ := Option.bind_eq_some_iff.1 h
  obtain ⟨_, _, h⟩ := Option.bind_eq_some_iff.1 h
  obtain ⟨m, _, h⟩ := Option.bind_eq_some_iff.1 h
  obtain ⟨_, _, h⟩ := Option.bind_eq_some_iff.1 h
  obtain ⟨d, _, h⟩ := Option.bind_eq_some_iff.1 h
  dsimp only at h
  split at h
  · rename_i hv
    injection h with h
    rw [← h, civilOf_toDays (civil_proper hv.2)]
    exact hv.2
  · cases h

theorem parseTime_lt {s : Str} {m : Nat} (h : parseTime s = some m) : m < 1440 := by
  unfold parseTime at h
  obtain ⟨x, _, h⟩ := Option.bind_eq_some_iff.1 h
  obtain ⟨_, _, h⟩ := Option.bind_eq_some_iff.1 h
  obtain ⟨y, _, h⟩ := Option.bind_eq_some_iff.1 h
  split at h
  · injection h with h; omega
  · cases h

theorem moment_holdable {day o : Int} {m : Nat} (hd : (civilOf day).valid = true) (hm : m < 1440)
    (ho : -86400 < o ∧ o < 86400) (hu : (civilOf ((moment day m o).secs / 86400)).valid = true) :
    Holdable (moment day m o) := by
  refine ⟨.inl (show (0 : Nat) < 10 ^ 9 by decide), ho, ?_, hu⟩
  have : (moment day m o).localDay = day := by
    unfold DateTime.localDay moment
    dsimp only
    omega
  rw [this]; exact hd

/-- C123: the dates of source files are such dates, if the time zone of the machine is one in whole minutes
(and the instant is in chrono's range). -/
theorem C123_files (L : Lang) (hl : L.localOffset % 60 = 0)
    (hb : -86400 < L.localOffset ∧ L.localOffset < 86400) {s : Str} {d : DateTime}
    (h : MomentText L s d ∨ parseDate L s = .ok (.dateTime d))
    (hu : (civilOf (d.secs / 86400)).valid = true) : Holdable d ∧ WholeMinutes d := by
  rcases h with h | h
  · cases h with
    | here ha ht => exact ⟨moment_holdable (parseCivil_valid ha) (parseTime_lt ht) hb hu, hl⟩
    | utc ha ht => exact ⟨moment_holdable (parseCivil_valid ha) (parseTime_lt ht) (by decide) hu, rfl⟩
    | zone ha ht hz h1 h2 =>
      exact ⟨moment_holdable (parseCivil_valid ha) (parseTime_lt ht) (by omega) hu,
        show _ * 3600 % 60 = (0 : Int) by omega⟩
  · unfold parseDate at h
    split at h
    · cases h
    · rename_i day hday
      injection h with h
      injection h with h
      subst h
      exact ⟨moment_holdable (m := 0) (parseCivil_valid hday) (by omega) hb hu, hl⟩

/-- C123: so they survive in a saved graph, and in printed JSON. -/
theorem C123_kept (C : Codec) (hw : C.dateText = DateTime.rfc3339) (hr : C.readDate = readDateTime)
    {d : DateTime} (h : Holdable d) (hm : WholeMinutes d) : Kept C (.dateTime d) := by
  change C.readDate (C.dateText d) = some d
  rw [hw, hr]
  exact C123_read h hm

/-- C123 needs whole minutes: the date that release builds read from the literal of `C91_wraps` is loaded
16 seconds off. -/
theorem C123_seconds (L : Lang) (h : L.env.overflowChecks = false) :
    ∃ d, parseDateTime L "2024-01-01 at 12:00 UTC1193047".toList = .ok (.dateTime d) ∧ Holdable d ∧
      readDateTime d.rfc3339 = some ⟨d.secs - 16, 0, d.offset + 16⟩ :=
  ⟨_, (C91_wraps L).2 h, ⟨.inl (by decide), by decide, by decide +kernel, by decide +kernel⟩,
    by decide +kernel⟩

example : Holdable ⟨1714564799, 1500000000, 7200⟩ ∧ WholeMinutes ⟨1714564799, 1500000000, 7200⟩ ∧
    DateTime.rfc3339 ⟨1714564799, 1500000000, 7200⟩ = "2024-05-01T13:59:60.500+02:00".toList :=
  ⟨⟨.inr (by decide), by decide, by decide +kernel, by decide +kernel⟩, by unfold WholeMinutes; decide,
    by decide +kernel⟩

example : DateTime.rfc3339 ⟨-377705116800, 123456, -19800⟩ = "-10000-12-31T18:30:00.000123456-05:30".toList ∧
    DateTime.rfc3339 ⟨0, 1000, 0⟩ = "1970-01-01T00:00:00.000001Z".toList := by decide +kernel

example : readDateTime "2024-5-1 7:03 : 9utc".toList = some ⟨1714546989, 0, 0⟩ := by decide +kernel

/-! ## C124: date literals of queries -/

/-- Dates of filters are read by `chrono`. -/
structure Spec.Chrono (env : Env) : Prop where
  dateTime : env.parseDateTime = readDateTime
  date : env.parseDate = parseCivil

theorem scanYear_digits {y : Str} (hy : IsDigitsN 4 y) (b : Str) :
    scanYear (y ++ b) = some ((digitsVal y : Int), b) := by
  obtain ⟨hl, hd⟩ := hy
  cases y with
  | nil => cases hl
  | cons c y =>
    have hc := hd c List.mem_cons_self
    unfold scanYear
    rw [List.cons_append, trimStart_digit hc]
    have n1 : c ≠ '-' := digit_ne hc (by decide)
    have n2 : c ≠ '+' := digit_ne hc (by decide)
    split
    · rename_i heq; injection heq with h; exact absurd h n1
    · rename_i heq; injection heq with h; exact absurd h n2
    · rw [← List.cons_append, scanNum_append hd (by simp) (Or.inl hl), Option.map_some]

theorem scanItem_digits {m : Str} (hm : IsDigitsN 2 m) (b : Str) :
    scanItem 2 (m ++ b) = some (digitsVal m, b) := by
  obtain ⟨hl, hd⟩ := hm
  cases m with
  | nil => cases hl
  | cons c m =>
    unfold scanItem
    rw [List.cons_append, trimStart_digit (hd c List.mem_cons_self), ← List.cons_append,
      scanNum_append hd (by simp) (Or.inl hl)]

theorem scanDate_digits {y m d : Str} (hy : IsDigitsN 4 y) (hm : IsDigitsN 2 m) (hd : IsDigitsN 2 d)
    (b : Str) : scanDate (y ++ '-' :: m ++ '-' :: d ++ b) =
      some (⟨digitsVal y, digitsVal m, digitsVal d⟩, b) := by
  unfold scanDate
  simp only [List.append_assoc, List.cons_append]
  rw [scanYear_digits hy]
  simp only [Option.bind_some]
  rw [trimStart_sign (Or.inl rfl)]
  simp only [scanChar, if_true, Option.bind_some]
  rw [scanItem_digits hm]
  simp only [Option.bind_some]
  rw [trimStart_sign (Or.inl rfl)]
  simp only [if_true, Option.bind_some]
  rw [scanItem_digits hd]
  rfl

theorem parseCivil_digits {y m d : Str} (hy : IsDigitsN 4 y) (hm : IsDigitsN 2 m) (hd : IsDigitsN 2 d)
    (b : Str) : parseCivil (y ++ '-' :: m ++ '-' :: d ++ b) =
      if b = [] ∧ Civil.valid ⟨digitsVal y, digitsVal m, digitsVal d⟩ then
        some (Civil.toDays ⟨digitsVal y, digitsVal m, digitsVal d⟩) else none := by
  unfold parseCivil
  simp only [List.append_assoc, List.cons_append]
  rw [scanYear_digits hy]
  simp only [Option.bind_some, scanChar, if_true]
  rw [scanItem_digits hm]
  simp only [Option.bind_some, if_true]
  rw [scanItem_digits hd]
  rfl

/-- C124 is false: no literal with a time of day is understood by the filter, neither as a date and time nor
as a date; comparing any date with it fails. -/
theorem C124_never (env : Env) (he : Chrono env) {d t : Str} (hd : IsDate d) (ht : IsTime t) (z : Str)
    (x : DateTime) (op : FilterOperator) :
    compareField env (.dateTime x) op (.dateTime (d ++ t ++ z)) =
      .error (.invalidDateFormat (d ++ t ++ z)) := by
  obtain ⟨y, m, dd, hy, hm, hdd, rfl⟩ := hd
  obtain ⟨hh, mm, -, -, rfl⟩ := ht
  refine (C26_exceptions env _ op _).2 _ rfl ?_
  unfold Unreadable
  rw [he.dateTime, he.date]
  constructor
  · unfold readDateTime
    rw [List.append_assoc (_ ++ _), scanDate_digits hy hm hdd]
    simp only [Option.bind_some]
    rw [show (" at ".toList ++ hh ++ ':' :: mm) ++ z = ' ' :: ('a' :: 't' :: ' ' :: (hh ++ ':' :: mm ++ z)) by
      simp]
    rw [scanT, if_pos (by decide)]
    simp only [Option.bind_some]
    have : scanTime ('a' :: 't' :: ' ' :: (hh ++ ':' :: mm ++ z)) = none := by
      unfold scanTime scanItem scanNum
      rfl
    rw [this]
    rfl
  · rw [List.append_assoc (_ ++ _), parseCivil_digits hy hm hdd, if_neg]
    rintro ⟨h, -⟩
    have := congrArg List.length h
    simp at this

/-- C124 is false: one entity with a date in the field, and a `where` with such a condition, whatever other
conditions stand beside it, fails. -/
theorem C124_query (env : Env) (he : Chrono env) {d t : Str} (hd : IsDate d) (ht : IsTime t) (z : Str)
    {f : FieldId} {op : FilterOperator} {conds : List FilterCondition}
    (hc : ⟨.regular f, op, .dateTime (d ++ t ++ z)⟩ ∈ conds) (k : Combinator) {es : List Entity} {e : Entity}
    {x : DateTime} (hmem : e ∈ es) (hf : e.getField f = some (.dateTime x)) :
    ∃ err, filterEntities env ⟨conds, k⟩ es = .error err := by
  cases h : filterEntities env ⟨conds, k⟩ es with
  | error err => exact ⟨err, rfl⟩
  | ok r =>
    obtain ⟨h1, -⟩ := (filterEntities_ok _ _ _ _).1 h
    obtain ⟨b, hb⟩ := h1 e hmem
    have hall : ∀ c ∈ conds, ∃ r, c.matches env e = .ok r := by
      cases k with
      | and => exact ((C21_meaning env conds e b).1.1 hb).1
      | or => exact ((C21_meaning env conds e b).2.1 hb).1
    obtain ⟨r', hr⟩ := hall _ hc
    simp only [FilterCondition.matches, FilterCondition.matchesField, hf] at hr
    rw [C124_never env he hd ht z x op] at hr
    cases hr

/-- C124: a literal without a time of day stands for that day, if there is such a day. -/
theorem C124_days_partial (env : Env) (he : Chrono env) {y m d : Str} (hy : IsDigitsN 4 y)
    (hm : IsDigitsN 2 m) (hd : IsDigitsN 2 d) (x : DateTime) :
    (Civil.valid ⟨digitsVal y, digitsVal m, digitsVal d⟩ = true →
      AnswersOrder (fun op => compareField env (.dateTime x) op (.dateTime (y ++ '-' :: m ++ '-' :: d)))
        (x.localDay < Civil.toDays ⟨digitsVal y, digitsVal m, digitsVal d⟩)
        (civilOf x.localDay = ⟨digitsVal y, digitsVal m, digitsVal d⟩)
        (Civil.toDays ⟨digitsVal y, digitsVal m, digitsVal d⟩ < x.localDay)) ∧
    (Civil.valid ⟨digitsVal y, digitsVal m, digitsVal d⟩ = false → ∀ op,
      compareField env (.dateTime x) op (.dateTime (y ++ '-' :: m ++ '-' :: d)) =
        .error (.invalidDateFormat (y ++ '-' :: m ++ '-' :: d))) := by
  have h1 : env.parseDateTime (y ++ '-' :: m ++ '-' :: d) = none := by
    rw [he.dateTime]
    unfold readDateTime
    have := scanDate_digits hy hm hd []
    rw [List.append_nil] at this
    rw [this]
    rfl
  have h2 := parseCivil_digits hy hm hd []
  rw [List.append_nil] at h2
  constructor
  · intro hv
    rw [if_pos ⟨rfl, hv⟩] at h2
    have h2' : env.parseDate (y ++ '-' :: m ++ '-' :: d) =
        some (Civil.toDays ⟨digitsVal y, digitsVal m, digitsVal d⟩) := by rw [he.date]; exact h2
    refine AnswersOrder.congr (C28_local_day env x _ _ h1 h2') ?_ ?_ ?_
    · unfold DateTime.localDay; omega
    · constructor
      · intro h
        rw [show x.localDay = Civil.toDays ⟨digitsVal y, digitsVal m, digitsVal d⟩ by
          unfold DateTime.localDay; omega, civilOf_toDays (civil_proper hv)]
      · intro h
        have := toDays_civilOf x.localDay
        rw [h] at this
        unfold DateTime.localDay at this
        omega
    · unfold DateTime.localDay; omega
  · intro hv op
    refine (C26_exceptions env _ op _).2 _ rfl ⟨h1, ?_⟩
    rw [he.date, h2, if_neg (by rw [hv]; simp)]

/-! ## C125: printed dates given back -/

/-- C125: a filter with a printed date compares with that date, in nanoseconds. -/
theorem C125_filter (env : Env) (he : Chrono env) {d : DateTime} (h : Holdable d) (hm : WholeMinutes d)
    (hd : d.nanos < 1000000000) (x : DateTime) (hx : x.nanos < 1000000000) :
    AnswersOrder (fun op => compareField env (.dateTime x) op (.dateTime d.rfc3339))
      (instantNs x < instantNs d) (instantNs x = instantNs d) (instantNs d < instantNs x) :=
  C23_dateTime env x d _ (by rw [he.dateTime]; exact C123_read h hm) hx hd

theorem zone_colon {o : Int} (h : -86400 < o ∧ o < 86400) (hm : o % 60 = 0) :
    scanZone (scanChar ':') (showZone o) = some (o, []) := by
  by_cases h0 : o = 0
  · subst h0; rfl
  · unfold showZone
    rw [if_neg h0, scanZone_minutes (fun m _ => by rw [scanChar, if_pos rfl]) _ (zone_small h), zone_value hm]

theorem char_self (c : Char) (s : Str) : scanChar c (c :: s) = some s := by
  rw [scanChar, if_pos rfl]

theorem readRfc3339_parts {y mo da h m x n : Nat} (hy : y ≤ 9999) (hmo : mo < 100) (hda : da < 100)
    (hh : h < 100) (hm : m < 100) (hx : x < 100) (hn : n < 10 ^ 9) {z : Str} {o : Int} (hb : Ends z)
    (hz : scanZone (scanChar ':') z = some (o, [])) :
    readRfc3339 (pad4 y ++ '-' :: (pad2 mo ++ '-' :: (pad2 da ++ 'T' :: (pad2 h ++ ':' :: (pad2 m ++ ':' ::
      (pad2 x ++ (showFraction n ++ z))))))) = Stamp.toDateTime ⟨⟨y, mo, da⟩, h, m, x, n, o⟩ := by
  obtain ⟨p1, p2, -, p4⟩ := pad4_spec y
  unfold readRfc3339
  rw [scanExact_append (p4 (by omega)) p1, p2]
  simp only [Option.bind_some, char_self]
  rw [scanExact_pad2 hmo]
  simp only [Option.bind_some, char_self]
  rw [scanExact_pad2 hda]
  simp only [Option.bind_some, scanT, true_or, if_true]
  rw [scanExact_pad2 hh]
  simp only [Option.bind_some, char_self]
  rw [scanExact_pad2 hm]
  simp only [Option.bind_some, char_self]
  rw [scanExact_pad2 hx]
  simp only [Option.bind_some]
  rw [scanFraction_show hn hb]
  simp only [Option.bind_some]
  rw [hz]
  simp only [Option.bind_some, if_true]

/-- The strict reading of a printed date of the years 0 to 9999. -/
theorem readRfc3339_show {d : DateTime} (h : Holdable d) (hm : WholeMinutes d)
    (hy : 0 ≤ d.civil.year ∧ d.civil.year ≤ 9999) : readRfc3339 d.rfc3339 = some d := by
  have hs : d.civil.month < 100 ∧ d.civil.day < 100 := civilOf_small d.localDay
  have hyear : showYear d.civil.year = pad4 d.civil.year.toNat := by unfold showYear; rw [if_pos hy]
  have hl := leapOf_le d.nanos
  have hc := clock_lt d
  have hshow : d.rfc3339 = pad4 d.civil.year.toNat ++ '-' :: (pad2 d.civil.month ++ '-' :: (pad2 d.civil.day ++
      'T' :: (pad2 (d.clock / 3600) ++ ':' :: (pad2 (d.clock / 60 % 60) ++ ':' ::
        (pad2 (d.clock % 60 + leapOf d.nanos) ++ (showFraction (d.nanos - leapOf d.nanos * 10 ^ 9) ++
          showZone d.offset)))))) := by
    unfold DateTime.rfc3339 Civil.show
    rw [showClock_eq, hyear]
    simp only [List.append_assoc, List.cons_append]
  rw [hshow, readRfc3339_parts (by omega) hs.1 hs.2 (by omega) (by omega) (by omega) (leapOf_nanos h.nanos_lt)
    (ends_zone d.offset) (zone_colon h.offset hm),
    show ((d.civil.year.toNat : Nat) : Int) = d.civil.year by omega]
  exact stamp_parts h hm

/-- C125: a printed date of the years 0 to 9999 is read by `add_entity` as it was. -/
theorem C125_request_partial (H : Host) (hH : H.parseRfc3339 = readRfc3339) {d : DateTime}
    (h : Holdable d) (hm : WholeMinutes d) (hy : 0 ≤ d.civil.year ∧ d.civil.year ≤ 9999)
    (target : List PathComp) (types : List (Str × Str)) (name : Str) :
    jsonToFieldValue H target types name .dateTime (.string d.rfc3339) = some (.dateTime d) := by
  change (H.parseRfc3339 d.rfc3339).map FieldValue.dateTime = _
  rw [hH, readRfc3339_show h hm hy]
  rfl

/-- C125 is false for other years: their printed dates are refused. -/
theorem C125_years (H : Host) (hH : H.parseRfc3339 = readRfc3339) {d : DateTime}
    (hy : ¬ (0 ≤ d.civil.year ∧ d.civil.year ≤ 9999)) (target : List PathComp) (types : List (Str × Str))
    (name : Str) : jsonToFieldValue H target types name .dateTime (.string d.rfc3339) = none := by
  change (H.parseRfc3339 d.rfc3339).map FieldValue.dateTime = _
  rw [hH]
  have key : readRfc3339 d.rfc3339 = none := by
    unfold readRfc3339 DateTime.rfc3339 Civil.show showYear
    rw [if_neg hy]
    have : ∀ (c : Char) (s : Str), isDigit c = false → scanExact 4 (c :: s) = none := by
      intro c s hc
      unfold scanExact
      rw [if_neg]
      rintro ⟨-, h⟩
      rw [List.take_succ_cons, List.all_cons, hc] at h
      cases h
    simp only [List.cons_append, List.append_assoc]
    rw [this _ _ (by split <;> rfl)]
    rfl
  rw [key]
  rfl

example : ∃ H : Host, H.parseRfc3339 = readRfc3339 := ⟨{ exHost with parseRfc3339 := readRfc3339 }, rfl⟩

example : Chrono { exEnv with parseDateTime := readDateTime, parseDate := parseCivil } := ⟨rfl, rfl⟩

example : IsDate "2025-01-15".toList ∧ IsTime " at 09:00".toList :=
  ⟨⟨"2025".toList, "01".toList, "15".toList, ⟨rfl, by decide⟩, ⟨rfl, by decide⟩, ⟨rfl, by decide⟩, rfl⟩,
    ⟨"09".toList, "00".toList, ⟨rfl, by decide⟩, ⟨rfl, by decide⟩, rfl⟩⟩

example : ∃ d, Holdable d ∧ WholeMinutes d ∧ 0 ≤ d.civil.year ∧ d.civil.year ≤ 9999 :=
  ⟨⟨1714564799, 500, -19800⟩, ⟨.inl (by decide), by decide, by decide +kernel, by decide +kernel⟩,
    by unfold WholeMinutes; decide, by decide +kernel, by decide +kernel⟩

example : ∃ d : DateTime, ¬ (0 ≤ d.civil.year ∧ d.civil.year ≤ 9999) :=
  ⟨⟨-100000000000, 0, 0⟩, by decide +kernel⟩

/-! ## C119: shown dates -/

/-- The offset behind a shown date. -/
theorem showOffset_inj {o p : Int} (ho : -86400 < o ∧ o < 86400) (hp : -86400 < p ∧ p < 86400)
    (h : showOffset o = showOffset p) : o = p := by
  have key : ∀ q : Int, -86400 < q ∧ q < 86400 → ∃ (c : Char) (r : Str), showOffset q = c :: r ∧
      (c = '-' ↔ q < 0) ∧
      (scanExact 2 r).map (·.1) = some (q.natAbs / 60 / 60) ∧
      (scanExact 2 (r.drop 3)).map (·.1) = some (q.natAbs / 60 % 60) ∧
      ((q.natAbs % 60 = 0 ∧ r.drop 5 = []) ∨ (scanExact 2 (r.drop 6)).map (·.1) = some (q.natAbs % 60)) := by
    intro q hq
    refine ⟨_, _, rfl, ?_, ?_, ?_, ?_⟩
    · by_cases hn : q < 0
      · simp [hn]
      · simp [hn]
    · change (scanExact 2 ((pad2 (q.natAbs / 60 / 60) ++ _) ++ _)).map (·.1) = _
      rw [List.append_assoc, scanExact_pad2 (by omega)]; rfl
    · change (scanExact 2 (pad2 (q.natAbs / 60 % 60) ++ _)).map (·.1) = _
      rw [scanExact_pad2 (by omega)]; rfl
    · by_cases hz : q.natAbs % 60 = 0
      · left
        refine ⟨hz, ?_⟩
        rw [if_pos hz]; rfl
      · right
        rw [if_neg hz]
        change (scanExact 2 (pad2 (q.natAbs % 60))).map (·.1) = _
        have := scanExact_pad2 (n := q.natAbs % 60) (by omega) []
        rw [List.append_nil] at this
        rw [this]; rfl
  obtain ⟨c, r, e1, a1, a2, a3, a4⟩ := key o ho
  obtain ⟨c', r', e2, b1, b2, b3, b4⟩ := key p hp
  rw [e1, e2] at h
  injection h with hc hr
  subst hc hr
  rw [a2] at b2
  rw [a3] at b3
  injection b2 with b2
  injection b3 with b3
  have hs : o.natAbs % 60 = p.natAbs % 60 := by
    have nil6 : r.drop 5 = [] → (scanExact 2 (r.drop 6)).map (·.1) = none := by
      intro h
      have : r.drop 6 = [] := by
        rw [show (6 : Nat) = 5 + 1 from rfl, ← List.drop_drop, h]; rfl
      rw [this]; rfl
    rcases a4 with ⟨h1, h2⟩ | h1
    · rcases b4 with ⟨h3, _⟩ | h3
      · omega
      · rw [nil6 h2] at h3; cases h3
    · rcases b4 with ⟨_, h4⟩ | h3
      · rw [nil6 h4] at h1; cases h1
      · rw [h1] at h3; injection h3
  have hsign : o < 0 ↔ p < 0 := a1.symm.trans b1
  omega

theorem leapOf_zero {n : Nat} (h : n < 10 ^ 9) : leapOf n = 0 := by unfold leapOf; rw [if_neg (by omega)]

/-- C119: different dates are shown differently, so that this need not be assumed of the library. -/
theorem C119_dates {d e : DateTime} (hd : Dated d) (he : Dated e) (h : d.display = e.display) : d = e := by
  obtain ⟨d1, d2⟩ := hd
  obtain ⟨e1, e2⟩ := he
  have ends : ∀ o, Ends (' ' :: showOffset o) := by
    intro o c hc; injection hc with hc; subst hc; decide
  have key : ∀ x : DateTime, x.nanos < 10 ^ 9 → ∃ r, scanDate x.display = some (x.civil, ' ' :: r) ∧
      scanTime r = some ((x.clock / 3600, x.clock / 60 % 60, x.clock % 60, x.nanos), ' ' :: showOffset x.offset) := by
    intro x hx
    have hs := civilOf_small x.localDay
    refine ⟨_, scanDate_show (c := x.civil) hs.1 hs.2 _, ?_⟩
    rw [scanTime_show (clock_lt x) (by omega) (ends x.offset), leapOf_zero hx]
    simp
  obtain ⟨r, r1, r2⟩ := key d d1
  obtain ⟨s, s1, s2⟩ := key e e1
  rw [h, s1] at r1
  injection r1 with r1
  injection r1 with hcivil r1
  injection r1 with _ r1
  subst r1
  rw [s2] at r2
  injection r2 with r2
  injection r2 with r2 r3
  injection r3 with _ r3
  injection r2 with h1 r2
  injection r2 with h2 r2
  injection r2 with h3 h4
  have ho := showOffset_inj e2 d2 r3
  have hday : e.localDay = d.localDay := by
    rw [← toDays_civilOf e.localDay, ← toDays_civilOf d.localDay]
    exact congrArg Civil.toDays hcivil
  have hclock : e.clock = d.clock := by omega
  unfold DateTime.localDay at hday
  unfold DateTime.clock at hclock
  obtain ⟨s, n, o⟩ := d
  obtain ⟨s', n', o'⟩ := e
  simp only at *
  subst ho h4
  congr 1
  omega

example : Dated ⟨1714564799, 500, -19801⟩ ∧
    DateTime.display ⟨1714564799, 500, -19801⟩ = "2024-05-01 06:29:58.000000500 -05:30:01".toList :=
  ⟨⟨by decide, by decide, by decide⟩, by decide +kernel⟩

end Firm
