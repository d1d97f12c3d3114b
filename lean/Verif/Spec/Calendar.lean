import Verif.Spec.Decimal
/-
Specification of the proleptic Gregorian calendar by its successor function, and of date/timestamp
texts by their renderings.
-/
namespace Vroom.Spec

structure Date where
  year : Nat
  month : Nat
  day : Nat
deriving DecidableEq, Repr

/-- Gregorian leap rule. -/
def Leap (y : Nat) : Prop := (y % 4 = 0 ∧ y % 100 ≠ 0) ∨ y % 400 = 0

instance (y : Nat) : Decidable (Leap y) := inferInstanceAs (Decidable (_ ∨ _))

/-- Length of a month. -/
def monthLength (y : Nat) : Nat → Nat
  | 1 => 31 | 2 => if Leap y then 29 else 28 | 3 => 31 | 4 => 30 | 5 => 31 | 6 => 30
  | 7 => 31 | 8 => 31 | 9 => 30 | 10 => 31 | 11 => 30 | 12 => 31
  | _ => 0

/-- A date of the calendar. -/
def Date.Valid (t : Date) : Prop := 1 ≤ t.month ∧ t.month ≤ 12 ∧ 1 ≤ t.day ∧ t.day ≤ monthLength t.year t.month

/-- The next day. -/
def Date.next (t : Date) : Date :=
  if t.day < monthLength t.year t.month then { t with day := t.day + 1 }
  else if t.month < 12 then { t with month := t.month + 1, day := 1 }
  else { year := t.year + 1, month := 1, day := 1 }

/-- `n` days after `t`. -/
def Date.after (t : Date) : Nat → Date
  | 0 => t
  | n + 1 => (t.after n).next

/-- ASCII digit. -/
def dig (n : Nat) : UInt8 := UInt8.ofNat (48 + n)
/-- Two digits. -/
def show2 (n : Nat) : List UInt8 := [dig (n / 10), dig (n % 10)]
/-- Four digits. -/
def show4 (n : Nat) : List UInt8 := [dig (n / 1000), dig (n / 100 % 10), dig (n / 10 % 10), dig (n % 10)]

/-- `YYYY-MM-DD` with the given separator. -/
def Date.text (t : Date) (sep : UInt8) : List UInt8 := show4 t.year ++ [sep] ++ show2 t.month ++ [sep] ++ show2 t.day

/-- Time zone suffix. -/
inductive Zone where
  | none
  | utc
  /-- `±HH`, `±HHMM` or `±HH:MM` -/
  | offset (neg : Bool) (hh : Nat) (mm : Option (Bool × Nat))
deriving DecidableEq, Repr

/-- Text of a zone; the flag of `mm` says whether a colon is written. -/
def Zone.text : Zone → List UInt8
  | .none => []
  | .utc => [90]
  | .offset neg hh mm => [if neg then 45 else 43] ++ show2 hh ++
      match mm with
      | Option.none => []
      | some (colon, m) => (if colon then [58] else []) ++ show2 m

/-- Minutes east of UTC. -/
def Zone.minutes : Zone → Int
  | .none => 0
  | .utc => 0
  | .offset neg hh mm =>
    let v : Int := hh * 60 + (match mm with | Option.none => 0 | some (_, m) => (m : Int))
    if neg then -v else v

/-- Zone fields in range (hours up to 14 are accepted). -/
def Zone.Valid : Zone → Prop
  | .offset _ hh mm => hh ≤ 14 ∧ ∀ c m, mm = some (c, m) → m ≤ 59
  | _ => True

structure Stamp where
  date : Date
  /-- `T` or space -/
  tee : UInt8
  hour : Nat
  minute : Nat
  second : Nat
  /-- digits after the dot, if there is one -/
  frac : Option (List UInt8)
  zone : Zone
deriving Repr

/-- Well-formed timestamp. -/
structure Stamp.Valid (t : Stamp) : Prop where
  date : t.date.Valid
  year : t.date.year ≤ 9999
  tee : t.tee = 84 ∨ t.tee = 32
  hour : t.hour ≤ 23
  minute : t.minute ≤ 59
  second : t.second ≤ 59
  frac : ∀ ds, t.frac = some ds → ∀ d ∈ ds, IsDigit d
  zone : t.zone.Valid

/-- Text of the fraction, with its dot. -/
def fracText : Option (List UInt8) → List UInt8
  | none => []
  | some ds => 46 :: ds

/-- Text of a timestamp. -/
def Stamp.text (t : Stamp) (sep : UInt8) : List UInt8 :=
  t.date.text sep ++ [t.tee] ++ show2 t.hour ++ [58] ++ show2 t.minute ++ [58] ++ show2 t.second ++
    fracText t.frac ++ t.zone.text

/-- Microseconds denoted by the fraction digits (truncated to six). -/
def fracMicros (ds : List UInt8) : Nat := decValue ((ds ++ List.replicate 6 48).take 6)

/-- Microseconds of the optional fraction. -/
def fracValue : Option (List UInt8) → Nat
  | none => 0
  | some ds => fracMicros ds

/-- Microseconds from the start of the day in UTC. -/
def Stamp.timeMicros (t : Stamp) : Int :=
  (t.hour * 3600 + t.minute * 60 + t.second) * 1000000 + (fracValue t.frac : Int)
    - t.zone.minutes * 60 * 1000000

end Vroom.Spec
