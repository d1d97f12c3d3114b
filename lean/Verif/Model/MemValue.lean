import Verif.Model.MemScan
import Verif.Model.Atoi
import Verif.Model.Dates
import Verif.Model.Delta
/-
The value parsers once more, with every load, every array index and every signed operation checked.
Sources: /repo/src/parser/simd_atoi-inl.h, /repo/src/schema/type_parsers.cpp.

`none` is undefined behaviour: a load outside the value, an index outside an array, a vector larger than the buffer it is
loaded from or stored to, or a signed operation whose exact result does not fit.  `some none` is `return false`.
A `std::string_view` is the list of its bytes, so `value[i]` is checked against `value.size()`.
-/
namespace Vroom.Mem
open Vroom

/-- The result of an `int` (32-bit) operation with exact value `x` (the `int` operations of type_parsers.cpp:13-281). -/
def int32? (x : Int) : Option Int := if -(2 ^ 31) ≤ x ∧ x < 2 ^ 31 then some x else none

/-- `if (!f(…, out)) return false;`, then the rest (type_parsers.cpp:60-74, 190-215). -/
def orFalse {α β : Type} (x : Option (Option α)) (f : α → Option (Option β)) : Option (Option β) :=
  match x with
  | none => none
  | some none => some none
  | some (some a) => f a

/-! ### Integers (simd_atoi-inl.h) -/

/-- `for (i = 0; i < len; ++i) { c = p[i] - '0'; if (c > 9) return false; result = result * 10 + c; }` (simd_atoi-inl.h:28-34, 47-53). -/
def scalarDigitsM (p : Bytes) (len : Nat) (acc : UInt64) (i : Nat) : Option (Option UInt64) :=
  if i < len then
    (ld p i).bind fun b => if b - 48 > 9 then some none else scalarDigitsM p len (acc * 10 + (b - 48).toUInt64) (i + 1)
  else some (some acc)
termination_by len - i

/-- `invalid_bytes[i] != 0` for `i < len` (simd_atoi-inl.h:79-83); the array holds what `hn::Store` has written. -/
def anyInvalidM (flags : List Bool) (len i : Nat) : Option Bool :=
  if i < len then (flags[i]?).bind fun f => if f then some true else anyInvalidM flags len (i + 1)
  else some false
termination_by len - i

/-- The combination loop (simd_atoi-inl.h:86-91). -/
def combineDigitsM (p : Bytes) (len : Nat) (acc : UInt64) (i : Nat) : Option UInt64 :=
  if i < len then (ld p i).bind fun b => combineDigitsM p len (acc * 10 + (b - 48).toUInt64) (i + 1) else some acc
termination_by len - i

/-- `ParseUint64SimdImpl` (simd_atoi-inl.h:20-92): `buf[64]` is zero-filled, then gets `len` bytes; `hn::Load` reads and `hn::Store`
writes `lanes` bytes of arrays of 64. -/
def parseUint64M (lanes : Nat) (p : Bytes) (len : Nat) : Option (Option UInt64) :=
  if len = 0 ∨ len > 16 then some none
  else if len ≤ 8 then scalarDigitsM p len 0 0
  else if lanes < 16 then scalarDigitsM p len 0 0
  else
    (ldVec p 0 (min len 64)).bind fun src =>
    (ldVec (src ++ List.replicate (64 - src.length) 0) 0 lanes).bind fun chunk =>
    if 64 < lanes then none
    else
      (anyInvalidM (chunk.map fun b => decide (b < 48) || decide (b > 57)) len 0).bind fun bad =>
        if bad then some none else (combineDigitsM p len 0 0).map some

/-- The sign (simd_atoi-inl.h:98-111, 131-144), `len ≠ 0`: `some none` is `return false`, otherwise `negative`, `p`, `len`. -/
def takeSignM (p : Bytes) (len : Nat) : Option (Option (Bool × Bytes × Nat)) :=
  (ld p 0).bind fun c =>
    if c = 45 then (if len - 1 = 0 then some none else some (some (true, p.drop 1, len - 1)))
    else if c = 43 then (if len - 1 = 0 then some none else some (some (false, p.drop 1, len - 1)))
    else some (some (false, p, len))

/-- The range checks and the final negation (simd_atoi-inl.h:119-125, 166-172), `lim = 2^(N-1)`; after them the cast is exact except that
`lim` itself becomes `-lim`, whose negation does not fit. -/
def finishSignedM (lim : Nat) (negative : Bool) (result : UInt64) : Option (Option Int) :=
  if result.toNat > lim - 1 ∧ negative = false then some none
  else if result.toNat > lim ∧ negative = true then some none
  else
    let cast : Int := if result.toNat = lim then -(lim : Int) else result.toNat
    if negative then (if -cast < (lim : Int) ∧ -(lim : Int) ≤ -cast then some (some (-cast)) else none)
    else some (some cast)

/-- `ParseInt32SimdImpl` (simd_atoi-inl.h:95-125). -/
def parseInt32M (lanes : Nat) (p : Bytes) (len : Nat) : Option (Option Int) :=
  if len = 0 ∨ len > 11 then some none
  else orFalse (takeSignM p len) fun s =>
    orFalse (parseUint64M lanes s.2.1 s.2.2) fun r => finishSignedM 2147483648 s.1 r

/-- The checked loop for more than 16 digits (simd_atoi-inl.h:151-161); the last argument is `len - i`. -/
def checkedDigitsM (p : Bytes) (acc : UInt64) (i : Nat) : Nat → Option (Option UInt64)
  | 0 => some (some acc)
  | k + 1 =>
    (ld p i).bind fun b =>
      if b - 48 > 9 then some none
      else if acc > (18446744073709551615 - (b - 48).toUInt64) / 10 then some none
      else checkedDigitsM p (acc * 10 + (b - 48).toUInt64) (i + 1) k

/-- `ParseInt64SimdImpl` (simd_atoi-inl.h:128-172). -/
def parseInt64M (lanes : Nat) (p : Bytes) (len : Nat) : Option (Option Int) :=
  if len = 0 ∨ len > 20 then some none
  else orFalse (takeSignM p len) fun s =>
    orFalse (if s.2.2 > 16 then checkedDigitsM s.2.1 0 0 s.2.2 else parseUint64M lanes s.2.1 s.2.2) fun r =>
      finishSignedM 9223372036854775808 s.1 r

/-! ### Dates (type_parsers.cpp) -/

/-- `days_in_month[month]`, an array of 13 (type_parsers.cpp:13-21). -/
def getDaysInMonthM (year month : Int) : Option Int :=
  if month = 2 ∧ ((year.tmod 4 = 0 ∧ year.tmod 100 ≠ 0) ∨ year.tmod 400 = 0) then some 29
  else if month < 0 then none else ((daysInMonthTable[month.toNat]?).map fun (n : Nat) => (n : Int))

/-- `leap_years_before` (type_parsers.cpp:25-30), in `int`. -/
def leapYearsBeforeM (year : Int) : Option Int :=
  if year ≤ 1 then some 0
  else
    (int32? (year - 1)).bind fun y =>
    (int32? (y.tdiv 4 - y.tdiv 100)).bind fun a => int32? (a + y.tdiv 400)

/-- `days_from_epoch_to_year` (type_parsers.cpp:34-40), in `int`. -/
def daysFromEpochToYearM (year : Int) : Option Int :=
  (leapYearsBeforeM year).bind fun l =>
  (int32? (l - 477)).bind fun d =>
  (int32? (year - 1970)).bind fun a =>
  (int32? (a * 365)).bind fun b => int32? (b + d)

/-- A digit loop over `value[i]`, `i` up to `stop` (type_parsers.cpp:60-74, 199-213, 126-130). -/
def digitsM (v : Bytes) (stop : Nat) (acc : Int) (i : Nat) : Option (Option Int) :=
  if i < stop then
    (ld v i).bind fun c =>
      if c < 48 ∨ c > 57 then some none
      else
        (int32? (acc * 10)).bind fun a =>
        (int32? (a + ((c.toNat : Int) - 48))).bind fun a => digitsM v stop a (i + 1)
  else some (some acc)
termination_by stop - i

/-- `for (m = 1; m < month; ++m) days += get_days_in_month(year, m)` (type_parsers.cpp:90-92). -/
def monthsLoopM (year : Int) (month : Nat) (days : Int) (m : Nat) : Option Int :=
  if m < month then
    (getDaysInMonthM year m).bind fun n => (int32? (days + n)).bind fun d => monthsLoopM year month d (m + 1)
  else some days
termination_by month - m

/-- What follows the digits in `parse_date` (type_parsers.cpp:76-98). -/
def dateValueM (year month day : Int) : Option (Option Int) :=
  if month < 1 ∨ month > 12 then some none
  else (getDaysInMonthM year month).bind fun maxDay =>
    if day < 1 ∨ day > maxDay then some none
    else
      (daysFromEpochToYearM year).bind fun days =>
      (monthsLoopM year month.toNat days 1).bind fun days =>
      (int32? (day - 1)).bind fun d1 =>
      (int32? (days + d1)).map some

/-- `parse_date` (type_parsers.cpp:43-99). -/
def parseDateM (v : Bytes) : Option (Option Int) :=
  if v.length ≠ 10 then some none
  else
    (ld v 4).bind fun sep =>
    if sep ≠ 45 ∧ sep ≠ 47 then some none
    else (ld v 7).bind fun s2 =>
    if s2 ≠ sep then some none
    else
      orFalse (digitsM v 4 0 0) fun year =>
      orFalse (digitsM v 7 0 5) fun month =>
      orFalse (digitsM v 10 0 8) fun day => dateValueM year month day

/-! ### Timestamps (type_parsers.cpp) -/

/-- `value[i] >= '0' && value[i] <= '9'`: the second load only if the first comparison holds (type_parsers.cpp:136-149, 240-249). -/
def digitAtM (v : Bytes) (i : Nat) : Option Bool := (ld v i).map isDigitB

/-- The minutes of a time zone at `pos` (type_parsers.cpp:136-149), after the colon. -/
def zoneMinuteM (v : Bytes) (pos : Nat) : Option (Option Int) :=
  (if pos + 2 ≤ v.length then (digitAtM v pos).bind fun a => if a then digitAtM v (pos + 1) else some false else some false).bind fun two =>
    if two then
      (ld v pos).bind fun c => (ld v (pos + 1)).bind fun d =>
      (int32? ((c.toNat : Int) - 48)).bind fun x => (int32? (x * 10)).bind fun x =>
      (int32? ((d.toNat : Int) - 48)).bind fun y => (int32? (x + y)).map some
    else
      (if pos < v.length then digitAtM v pos else some false).map fun one => if one then none else some 0

/-- `tz_hour > 14 || …` and the offset (type_parsers.cpp:152-162). -/
def zoneValueM (first : UInt8) (tzHour tzMinute : Int) : Option (Option Int) :=
  if tzHour > 14 ∨ tzMinute > 59 then some none
  else
    (int32? (tzHour * 60)).bind fun a => (int32? (a + tzMinute)).bind fun o =>
      if first = 45 then (int32? (-o)).map some else some (some o)

/-- `parse_timezone` (type_parsers.cpp:104-166). -/
def parseTimezoneM (v : Bytes) (start : Nat) : Option (Option Int) :=
  if start ≥ v.length then some none
  else (ld v start).bind fun first =>
    if first = 90 then some (some 0)
    else if first ≠ 43 ∧ first ≠ 45 then some none
    else if start + 1 + 2 > v.length then some none
    else orFalse (digitsM v (start + 3) 0 (start + 1)) fun tzHour =>
      orFalse (if start + 3 < v.length then
          (ld v (start + 3)).bind fun c => zoneMinuteM v (if c = 58 then start + 4 else start + 3)
        else some (some 0)) fun tzMinute => zoneValueM first tzHour tzMinute

/-- The search for the end of the fraction (type_parsers.cpp:229-236): `frac_end`. -/
def fracEndM (v : Bytes) (i : Nat) : Option Nat :=
  if i < v.length then (ld v i).bind fun c => if isZoneStart c then some i else fracEndM v (i + 1)
  else some v.length
termination_by v.length - i

/-- The padding loop (type_parsers.cpp:252-255), in `int64_t`; `k = 6 - digits`. -/
def padM (frac : Int) : Nat → Option Int
  | 0 => some frac
  | k + 1 => (int64? (frac * 10)).bind fun f => padM f k

/-- The fraction loop (type_parsers.cpp:240-249), in `int64_t`; `k = 6 - digits`. -/
def fracLoopM (v : Bytes) (fin : Nat) (frac : Int) (i : Nat) : Nat → Option (Option Int)
  | 0 => some (some frac)
  | k + 1 =>
    if i < fin then
      (ld v i).bind fun c =>
        if isDigitB c then
          (int64? (frac * 10)).bind fun a => (int64? (a + ((c.toNat : Int) - 48))).bind fun f => fracLoopM v fin f (i + 1) k
        else some none
    else (padM frac (k + 1)).map some

/-- Fraction: microseconds and `tz_start` (type_parsers.cpp:220-260).  `frac_end` is at least 20, so `tz_start` ends up as `frac_end`. -/
def fracPartM (v : Bytes) : Option (Option (Int × Nat)) :=
  (if v.length > 19 then (ld v 19).map (· == 46) else some false).bind fun dot =>
    if dot then
      (fracEndM v 20).bind fun fin => (fracLoopM v fin 0 20 6).map fun f => f.map fun f => (f, fin)
    else some (some (0, 19))

/-- The final sum in `int64_t` (type_parsers.cpp:271-278), products from left to right. -/
def stampM (days hour minute second micros off : Int) : Option Int :=
  ((((int64? (days * 24)).bind fun a => int64? (a * 60)).bind fun a => int64? (a * 60)).bind fun a => int64? (a * 1000000)).bind fun a =>
  (((int64? (hour * 60)).bind fun b => int64? (b * 60)).bind fun b => int64? (b * 1000000)).bind fun b =>
  ((int64? (minute * 60)).bind fun c => int64? (c * 1000000)).bind fun c =>
  (int64? (second * 1000000)).bind fun e =>
  ((((int64? (a + b)).bind fun s => int64? (s + c)).bind fun s => int64? (s + e)).bind fun s => int64? (s + micros)).bind fun s =>
  ((int64? (off * 60)).bind fun o => int64? (o * 1000000)).bind fun o => int64? (s - o)

/-- Fraction, zone and sum (type_parsers.cpp:216-280). -/
def stampTailM (v : Bytes) (days hour minute second : Int) : Option (Option Int) :=
  orFalse (fracPartM v) fun f =>
    orFalse (if f.2 < v.length then parseTimezoneM v f.2 else some (some 0)) fun off =>
      (stampM days hour minute second f.1 off).map some

/-- The time of day (type_parsers.cpp:190-215). -/
def stampTimeM (v : Bytes) (days : Int) : Option (Option Int) :=
  (ld v 10).bind fun tee =>
  if tee ≠ 84 ∧ tee ≠ 32 then some none
  else (ld v 13).bind fun c1 =>
  (if c1 ≠ 58 then some true else (ld v 16).map fun c2 => decide (c2 ≠ 58)).bind fun badColon =>
  if badColon then some none
  else
    orFalse (digitsM v 13 0 11) fun hour =>
    orFalse (digitsM v 16 0 14) fun minute =>
    orFalse (digitsM v 19 0 17) fun second =>
      if hour > 23 ∨ minute > 59 ∨ second > 59 then some none else stampTailM v days hour minute second

/-- `parse_timestamp` (type_parsers.cpp:179-281). -/
def parseTimestampM (v : Bytes) : Option (Option Int) :=
  if v.length < 19 then some none else orFalse (parseDateM (v.take 10)) fun days => stampTimeM v days

end Vroom.Mem
