import Verif.Model.Dates

/-!
# Specification of dates that the program can hold
-/

namespace Firm.Spec

/-- A date of `chrono`: the offset is less than a day, the date is in range both here and in UTC, and a leap
second ends a minute. -/
structure Holdable (d : DateTime) : Prop where
  nanos : d.nanos < 10 ^ 9 ∨ (d.nanos < 2 * 10 ^ 9 ∧ d.secs % 60 = 59)
  offset : -86400 < d.offset ∧ d.offset < 86400
  here : (civilOf d.localDay).valid = true
  utc : (civilOf (d.secs / 86400)).valid = true

/-- The offset is in whole minutes, as all offsets of files, of requests and of today's time zones are. -/
def WholeMinutes (d : DateTime) : Prop := d.offset % 60 = 0

end Firm.Spec
