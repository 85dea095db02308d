import Verif.Model.Text

/-!
# Dates and times of day as text

`chrono` 0.4.43 as used by `/repo/firm_lang/src/parser/dsl/parsed_value.rs` and
`/repo/firm_lang/src/generate/from_value.rs`: the formats `%Y-%m-%d` and `%H:%M` in both directions.
-/

namespace Firm

/-- A calendar date (proleptic Gregorian). -/
structure Civil where
  year : Int
  month : Nat
  day : Nat
  deriving DecidableEq, Repr, Inhabited

/-- Leap year of the Gregorian calendar. -/
def isLeap (y : Int) : Bool := y % 4 == 0 && (y % 100 != 0 || y % 400 == 0)

/-- Days in a month. -/
def daysInMonth (y : Int) (m : Nat) : Nat :=
  if m = 2 then (if isLeap y then 29 else 28)
  else if m = 4 ∨ m = 6 ∨ m = 9 ∨ m = 11 then 30 else 31

/-- Days before the first day of March-based month `mp` (0 = March, …, 11 = February). -/
def daysBefore (mp : Nat) : Nat := (153 * mp + 2) / 5

/-- Day number (1970-01-01 is 0) of a date. Years start in March for the computation. -/
def Civil.toDays (c : Civil) : Int :=
  let y := if c.month ≤ 2 then c.year - 1 else c.year
  let mp := if c.month ≤ 2 then c.month + 9 else c.month - 3
  365 * y + y / 4 - y / 100 + y / 400 + daysBefore mp + (c.day : Int) - 719469

/-- Date of a day number (inverse of `Civil.toDays`): 400-year, 100-year and 4-year cycles, then years,
all starting in March. -/
def civilOf (n : Int) : Civil :=
  let z := n + 719468
  let doe := (z % 146097).toNat
  let c := min (doe / 36524) 3
  let q := (doe - 36524 * c) / 1461
  let r := doe - 36524 * c - 1461 * q
  let a := min (r / 365) 3
  let doy := r - 365 * a
  let mp := (5 * doy + 2) / 153
  let m := if mp < 10 then mp + 3 else mp - 9
  ⟨z / 146097 * 400 + (100 * c + 4 * q + a : Nat) + (if m ≤ 2 then 1 else 0), m, doy - daysBefore mp + 1⟩

/-- `NaiveDate::from_ymd_opt`: the date exists and its year is in chrono's range. -/
def Civil.valid (c : Civil) : Bool :=
  decide (-262143 ≤ c.year) && decide (c.year ≤ 262142) &&
  decide (1 ≤ c.month) && decide (c.month ≤ 12) &&
  decide (1 ≤ c.day) && decide (c.day ≤ daysInMonth c.year c.month)

/-! ## Formatting -/

/-- Two digits, zero-padded. -/
def pad2 (n : Nat) : Str := [digitChar (n / 10), digitChar (n % 10)]

/-- Four digits, zero-padded (more if needed, as in `{:04}`). -/
def pad4 (n : Nat) : Str :=
  if n < 10000 then pad2 (n / 100) ++ pad2 (n % 100) else showNat n

/-- `%Y`: four digits for the years 0–9999, otherwise with an explicit sign (`{:+05}`). -/
def showYear (y : Int) : Str :=
  if 0 ≤ y ∧ y ≤ 9999 then pad4 y.toNat
  else (if y < 0 then '-' else '+') :: pad4 y.natAbs

/-- `%Y-%m-%d`. -/
def Civil.show (c : Civil) : Str := showYear c.year ++ '-' :: pad2 c.month ++ '-' :: pad2 c.day

/-- `%H:%M` of a number of minutes since midnight. -/
def showTime (minutes : Nat) : Str := pad2 (minutes / 60) ++ ':' :: pad2 (minutes % 60)

/-! ## Parsing -/

/-- `scan::number` of chrono: at least one and at most `max` digits; value and rest. -/
def scanNum (max : Nat) (s : Str) : Option (Nat × Str) :=
  let ds := (s.take max).takeWhile isDigit
  if ds.isEmpty then none else some (digitsVal ds, s.drop ds.length)

/-- A numeric item: white space is skipped first. -/
def scanItem (max : Nat) (s : Str) : Option (Nat × Str) := scanNum max (trimStart s)

/-- The item `%Y`: after an explicit sign any number of digits, else at most four. -/
def scanYear (s : Str) : Option (Int × Str) :=
  match trimStart s with
  | '-' :: r => (scanNum r.length r).map fun p => (-(p.1 : Int), p.2)
  | '+' :: r => (scanNum r.length r).map fun p => ((p.1 : Int), p.2)
  | r => (scanNum 4 r).map fun p => ((p.1 : Int), p.2)

/-- A literal item: exactly this character. -/
def scanChar (c : Char) : Str → Option Str
  | [] => none
  | d :: s => if d = c then some s else none

/-- `NaiveDate::parse_from_str(s, "%Y-%m-%d")`, as a day number. -/
def parseCivil (s : Str) : Option Int :=
  (scanYear s).bind fun y =>
  (scanChar '-' y.2).bind fun s =>
  (scanItem 2 s).bind fun m =>
  (scanChar '-' m.2).bind fun s =>
  (scanItem 2 s).bind fun d =>
    let c : Civil := ⟨y.1, m.1, d.1⟩
    if d.2 = [] ∧ c.valid then some c.toDays else none

/-- `NaiveTime::parse_from_str(s, "%H:%M")`, in minutes; the fall-back format `%k:%M` accepts the
same texts. -/
def parseTime (s : Str) : Option Nat :=
  (scanItem 2 s).bind fun h =>
  (scanChar ':' h.2).bind fun s =>
  (scanItem 2 s).bind fun m =>
    if m.2 = [] ∧ h.1 < 24 ∧ m.1 < 60 then some (h.1 * 60 + m.1) else none

end Firm
