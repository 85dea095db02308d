import Verif.Model.Calendar
import Verif.Model.Basic

/-!
# Dates and times as text outside of source files

`chrono` 0.4.43 as used by the derived `Serialize` and `Deserialize` of `FieldValue`
(/repo/firm_core/src/field.rs:59-72), by `Display` (field.rs:93), by
`filter_str.parse::<DateTime<FixedOffset>>()` (/repo/firm_core/src/graph/query/filter/datetime.rs:30) and by
`DateTime::parse_from_rfc3339` (/repo/firm_mcp/src/tools/add_entity.rs:343).
-/

namespace Firm

/-! ## Writing -/

/-- `k` digits, zero-padded. -/
def padNum : Nat → Nat → Str
  | 0, _ => []
  | k + 1, n => padNum k (n / 10) ++ [digitChar (n % 10)]

/-- The local date — `naive_local().date()`. -/
def DateTime.civil (d : DateTime) : Civil := civilOf d.localDay

/-- Seconds since local midnight. -/
def DateTime.clock (d : DateTime) : Nat := ((d.secs + d.offset) % 86400).toNat

/-- Fraction of a second: nothing, milli-, micro- or nanoseconds (`SecondsFormat::AutoSi`). -/
def showFraction (n : Nat) : Str :=
  if n = 0 then []
  else if n % 1000000 = 0 then '.' :: padNum 3 (n / 1000000)
  else if n % 1000 = 0 then '.' :: padNum 6 (n / 1000)
  else '.' :: padNum 9 n

/-- Time of day; a leap second counts as second 60. -/
def showClock (clock nanos : Nat) : Str :=
  let leap := if 10 ^ 9 ≤ nanos then 1 else 0
  pad2 (clock / 3600) ++ ':' :: (pad2 (clock / 60 % 60) ++ ':' :: (pad2 (clock % 60 + leap) ++
    showFraction (nanos - leap * 10 ^ 9)))

/-- An offset with its sign, in hours and minutes. -/
def showMinutes (negative : Bool) (m : Nat) : Str :=
  (if negative then '-' else '+') :: (pad2 (m / 60) ++ ':' :: pad2 (m % 60))

/-- The offset in `write_rfc3339`: `Z` for UTC, otherwise rounded to minutes. -/
def showZone (offset : Int) : Str :=
  if offset = 0 then ['Z'] else showMinutes (decide (offset < 0)) ((offset.natAbs + 30) / 60)

/-- `DateTime::serialize`: `write_rfc3339` with `SecondsFormat::AutoSi` and `Z` for UTC. -/
def DateTime.rfc3339 (d : DateTime) : Str :=
  d.civil.show ++ 'T' :: (showClock d.clock d.nanos ++ showZone d.offset)

/-- `Display` of an offset: seconds only if there are any. -/
def showOffset (offset : Int) : Str :=
  showMinutes (decide (offset < 0)) (offset.natAbs / 60) ++
    (if offset.natAbs % 60 = 0 then [] else ':' :: pad2 (offset.natAbs % 60))

/-- `Display` of a date and time. -/
def DateTime.display (d : DateTime) : Str :=
  d.civil.show ++ ' ' :: (showClock d.clock d.nanos ++ ' ' :: showOffset d.offset)

/-! ## Reading -/

/-- `scan::nanosecond` behind a dot: up to nine digits count, further ones are skipped. -/
def scanFraction : Str → Option (Nat × Str)
  | '.' :: s => (scanNum 9 s).map fun p => (p.1 * 10 ^ (9 - (s.length - p.2.length)), p.2.dropWhile isDigit)
  | s => some (0, s)

/-- Exactly `k` digits. -/
def scanExact (k : Nat) (s : Str) : Option (Nat × Str) :=
  if (s.take k).length = k ∧ (s.take k).all isDigit then some (digitsVal (s.take k), s.drop k) else none

/-- `scan::timezone_offset` with `Z` and with the Unicode minus allowed; `sep` is what may stand between
hours and minutes. -/
def scanZone (sep : Str → Option Str) : Str → Option (Int × Str)
  | [] => none
  | c :: s =>
    if c = 'Z' ∨ c = 'z' then some (0, s)
    else if c = '+' ∨ c = '-' ∨ c = '−' then
      (scanExact 2 s).bind fun h =>
      (sep h.2).bind fun s =>
      (scanExact 2 s).bind fun m =>
        if m.1 < 60 then
          some ((if c = '+' then 1 else -1) * ((h.1 * 3600 + m.1 * 60 : Nat) : Int), m.2)
        else none
    else none

/-- `scan::colon_or_space`. -/
def colonOrSpace (s : Str) : Option Str := some (s.dropWhile fun c => c == ':' || isWs c)

/-- The character between date and time. -/
def scanT : Str → Option Str
  | [] => none
  | c :: s => if c = 'T' ∨ c = 't' ∨ c = ' ' then some s else none

/-- The fields read so far. -/
structure Stamp where
  civil : Civil
  hour : Nat
  minute : Nat
  second : Nat
  nanos : Nat
  offset : Int
  deriving DecidableEq, Repr, Inhabited

/-- `Parsed::to_datetime`: all fields are in range, and so is the instant. -/
def Stamp.toDateTime (p : Stamp) : Option DateTime :=
  let clock := p.hour * 3600 + p.minute * 60 + min p.second 59
  let secs := p.civil.toDays * 86400 + clock - p.offset
  if p.civil.valid ∧ p.hour < 24 ∧ p.minute < 60 ∧ p.second ≤ 60 ∧ -86400 < p.offset ∧ p.offset < 86400 ∧
      (civilOf (secs / 86400)).valid then
    some ⟨secs, p.nanos + (if p.second = 60 then 10 ^ 9 else 0), p.offset⟩
  else none

/-- `DATE_ITEMS` of `parse_rfc3339_relaxed`. -/
def scanDate (s : Str) : Option (Civil × Str) :=
  (scanYear s).bind fun y =>
  (scanChar '-' (trimStart y.2)).bind fun s =>
  (scanItem 2 s).bind fun m =>
  (scanChar '-' (trimStart m.2)).bind fun s =>
  (scanItem 2 s).map fun d => (⟨y.1, m.1, d.1⟩, d.2)

/-- `TIME_ITEMS` of `parse_rfc3339_relaxed` without the white space at the end: hour, minute, second,
nanoseconds. -/
def scanTime (s : Str) : Option ((Nat × Nat × Nat × Nat) × Str) :=
  (scanItem 2 s).bind fun h =>
  (scanChar ':' (trimStart h.2)).bind fun s =>
  (scanItem 2 s).bind fun m =>
  (scanChar ':' (trimStart m.2)).bind fun s =>
  (scanItem 2 s).bind fun x =>
  (scanFraction x.2).map fun n => ((h.1, m.1, x.1, n.1), n.2)

/-- The offset in `parse_rfc3339_relaxed`: `UTC` in any case of its letters, or `scan::timezone_offset`. -/
def scanRelaxedZone (s : Str) : Option (Int × Str) :=
  if eqIgnoreAsciiCase (s.take 3) "UTC".toList then some (0, s.drop 3) else scanZone colonOrSpace s

/-- `DateTime::<FixedOffset>::from_str`, also used by `Deserialize`. -/
def readDateTime (s : Str) : Option DateTime :=
  (scanDate s).bind fun c =>
  (scanT c.2).bind fun s =>
  (scanTime s).bind fun t =>
  (scanRelaxedZone (trimStart t.2)).bind fun z =>
    if trimStart z.2 = [] then
      Stamp.toDateTime ⟨c.1, t.1.1, t.1.2.1, t.1.2.2.1, t.1.2.2.2, z.1⟩
    else none

/-- `DateTime::parse_from_rfc3339`. -/
def readRfc3339 (s : Str) : Option DateTime :=
  (scanExact 4 s).bind fun y =>
  (scanChar '-' y.2).bind fun s =>
  (scanExact 2 s).bind fun m =>
  (scanChar '-' m.2).bind fun s =>
  (scanExact 2 s).bind fun d =>
  (scanT d.2).bind fun s =>
  (scanExact 2 s).bind fun h =>
  (scanChar ':' h.2).bind fun s =>
  (scanExact 2 s).bind fun mi =>
  (scanChar ':' mi.2).bind fun s =>
  (scanExact 2 s).bind fun x =>
  (scanFraction x.2).bind fun n =>
  (scanZone (scanChar ':') n.2).bind fun z =>
    if z.2 = [] then Stamp.toDateTime ⟨⟨y.1, m.1, d.1⟩, h.1, mi.1, x.1, n.1, z.1⟩ else none

end Firm
