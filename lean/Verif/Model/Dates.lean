import Verif.Model.RowScan
/-
Model of the date and timestamp parsers.
Source: /repo/src/schema/type_parsers.cpp
`int`/`int32_t`/`int64_t` values are unbounded here; C21_in_range / C22_in_range show they fit.
-/
namespace Vroom

/-- `is_leap_year` (type_parsers.cpp:8-10). -/
def isLeapYear (year : Nat) : Bool := (year % 4 = 0 ∧ year % 100 ≠ 0) ∨ year % 400 = 0

/-- `days_in_month` table (type_parsers.cpp:13). -/
def daysInMonthTable : List Nat := [0, 31, 28, 31, 30, 31, 30, 31, 31, 30, 31, 30, 31]

/-- `get_days_in_month` (type_parsers.cpp:16-21); callers pass `1 ≤ month ≤ 12`. -/
def getDaysInMonth (year month : Nat) : Nat :=
  if month = 2 ∧ isLeapYear year then 29 else daysInMonthTable.getD month 0

/-- `leap_years_before` (type_parsers.cpp:25-30). -/
def leapYearsBefore (year : Nat) : Nat :=
  if year ≤ 1 then 0
  else
    let y := year - 1
    y / 4 - y / 100 + y / 400

/-- `days_from_epoch_to_year` (type_parsers.cpp:34-40). -/
def daysFromEpochToYear (year : Nat) : Int :=
  ((year : Int) - 1970) * 365 + ((leapYearsBefore year : Int) - 477)

/-- Digit accumulation loops (type_parsers.cpp:60-74): `none` = return false. -/
def digitsNat (acc : Nat) : Bytes → Option Nat
  | [] => some acc
  | b :: bs => if b < 48 ∨ b > 57 then none else digitsNat (acc * 10 + (b.toNat - 48)) bs

/-- Sum of the lengths of months `1 .. month-1` (type_parsers.cpp:90-92). -/
def monthsBefore (year month : Nat) : Nat :=
  ((List.range (month - 1)).map (fun i => getDaysInMonth year (i + 1))).sum

/-- `parse_date` (type_parsers.cpp:43-99). `none` = returns false. -/
def parseDate : Bytes → Option Int
  | [y1, y2, y3, y4, s1, m1, m2, s2, d1, d2] =>
    if s1 ≠ 45 ∧ s1 ≠ 47 then none
    else if s2 ≠ s1 then none
    else do
      let year ← digitsNat 0 [y1, y2, y3, y4]
      let month ← digitsNat 0 [m1, m2]
      let day ← digitsNat 0 [d1, d2]
      if month < 1 ∨ month > 12 then none
      else if day < 1 ∨ day > getDaysInMonth year month then none
      else some (daysFromEpochToYear year + (monthsBefore year month : Int) + ((day : Int) - 1))
  | _ => none

/-- `'0' <= c && c <= '9'` (type_parsers.cpp:126, 136-149, 240-249). -/
def isDigitB (b : UInt8) : Bool := decide (48 ≤ b) && decide (b ≤ 57)

/-- `parse_timezone` on the suffix from `start_pos` (type_parsers.cpp:104-166); the caller guarantees a
non-empty suffix. `none` = returns false. -/
def parseTimezone : Bytes → Option Int
  | [] => none
  | first :: rest =>
    if first = 90 then some 0
    else if first ≠ 43 ∧ first ≠ 45 then none
    else
      match rest with
      | h1 :: h2 :: r => do
        let tzHour ← digitsNat 0 [h1, h2]
        let minute : Option Nat :=
          match r with
          | [] => some 0
          | c :: r' =>
            -- skip the colon, then two digits, or one digit (error), or anything else (ignored)
            let q := if c = 58 then r' else c :: r'
            match q with
            | m1 :: m2 :: _ =>
              if isDigitB m1 ∧ isDigitB m2 then some ((m1.toNat - 48) * 10 + (m2.toNat - 48))
              else if isDigitB m1 then none else some 0
            | [m1] => if isDigitB m1 then none else some 0
            | [] => some 0
        let tzMinute ← minute
        if tzHour > 14 ∨ tzMinute > 59 then none
        else
          let v : Int := tzHour * 60 + tzMinute
          some (if first = 45 then -v else v)
      | _ => none

/-- Fraction loop with `digits < 6` (type_parsers.cpp:239-255), then padding to six digits. -/
def fracLoop : Nat → Nat → Bytes → Option Nat
  | 0, frac, _ => some frac
  | k + 1, frac, [] => some (frac * 10 ^ (k + 1))
  | k + 1, frac, b :: bs => if isDigitB b then fracLoop k (frac * 10 + (b.toNat - 48)) bs else none

/-- The bytes that start a time zone (type_parsers.cpp:232). -/
def isZoneStart (b : UInt8) : Bool := b == 90 || b == 43 || b == 45

/-- Fraction part of the suffix after position 19 (type_parsers.cpp:221-261): microseconds and the suffix from
`tz_start`. -/
def fracPart : Bytes → Option (Nat × Bytes)
  | [] => some (0, [])
  | c :: fr =>
    if c = 46 then
      (fracLoop 6 0 (fr.takeWhile (fun b => !isZoneStart b))).map (fun m => (m, fr.dropWhile (fun b => !isZoneStart b)))
    else some (0, c :: fr)

/-- Zone part (type_parsers.cpp:263-269). -/
def zonePart (tz : Bytes) : Option Int := if tz.length = 0 then some 0 else parseTimezone tz

/-- `parse_timestamp` (type_parsers.cpp:179-281). `none` = returns false. -/
def parseTimestamp : Bytes → Option Int
  | y1 :: y2 :: y3 :: y4 :: s1 :: m1 :: m2 :: s2 :: d1 :: d2 :: tee :: h1 :: h2 :: c1 :: n1 :: n2 :: c2 :: e1 :: e2 :: rest => do
    let days ← parseDate [y1, y2, y3, y4, s1, m1, m2, s2, d1, d2]
    if tee ≠ 84 ∧ tee ≠ 32 then none
    else if c1 ≠ 58 ∨ c2 ≠ 58 then none
    else
      let hour ← digitsNat 0 [h1, h2]
      let minute ← digitsNat 0 [n1, n2]
      let second ← digitsNat 0 [e1, e2]
      if hour > 23 ∨ minute > 59 ∨ second > 59 then none
      else
        let (micros, tz) ← fracPart rest
        let off ← zonePart tz
        some (days * 24 * 60 * 60 * 1000000 + (hour : Int) * 60 * 60 * 1000000 + (minute : Int) * 60 * 1000000
          + (second : Int) * 1000000 + (micros : Int) - off * 60 * 1000000)
  | _ => none

end Vroom
