import Verif.Spec.Calendar
/-
The timestamp texts that are accepted, as a grammar: what may follow `YYYY-MM-DD?HH:MM:SS`.
-/
namespace Vroom.Spec

/-- Fraction of a second, with the microseconds it denotes: nothing, or a dot and up to six digits; after six digits anything without `Z`, `+` and `-`. -/
inductive FracSuffix : List UInt8 → Nat → Prop
  | none : FracSuffix [] 0
  | digits (ds junk : List UInt8) : (∀ d ∈ ds, IsDigit d) → (ds.length = 6 ∨ (junk = [] ∧ ds.length ≤ 6)) → (∀ b ∈ junk, b ≠ 90 ∧ b ≠ 43 ∧ b ≠ 45) →
      FracSuffix (46 :: (ds ++ junk)) (fracMicros ds)

/-- Text after the hours of a zone, with the minutes it denotes. -/
inductive ZoneMinutes : List UInt8 → Nat → Prop
  | none : ZoneMinutes [] 0
  | colon : ZoneMinutes [58] 0
  | digits (colon : Bool) (m : Nat) (junk : List UInt8) : m ≤ 99 → ZoneMinutes ((if colon then [58] else []) ++ (show2 m ++ junk)) m
  | other (colon : Bool) (c : UInt8) (junk : List UInt8) : ¬ IsDigit c → (colon = false → c ≠ 58) → ZoneMinutes ((if colon then [58] else []) ++ c :: junk) 0

/-- Zone, with its minutes east of UTC: nothing, `Z` and anything, or a sign, two digits for the hours and the rest. -/
inductive ZoneSuffix : List UInt8 → Int → Prop
  | none : ZoneSuffix [] 0
  | utc (junk : List UInt8) : ZoneSuffix (90 :: junk) 0
  | offset (neg : Bool) (hh mm : Nat) (tail : List UInt8) : hh ≤ 14 → mm ≤ 59 → ZoneMinutes tail mm →
      ZoneSuffix ((if neg then 45 else 43) :: (show2 hh ++ tail)) (if neg then -(hh * 60 + mm : Int) else hh * 60 + mm)

/-- `s` is a timestamp on date `t` (written with separator `sep`), at `micros` microseconds of the day in its zone, `off` minutes east of UTC. -/
inductive StampText : List UInt8 → Date → UInt8 → Nat → Int → Prop
  | mk (t : Date) (sep tee : UInt8) (hh mm ss : Nat) (f : List UInt8) (micros : Nat) (z : List UInt8) (off : Int) :
      (sep = 45 ∨ sep = 47) → t.Valid → t.year ≤ 9999 → (tee = 84 ∨ tee = 32) → hh ≤ 23 → mm ≤ 59 → ss ≤ 59 → FracSuffix f micros → ZoneSuffix z off →
      StampText (t.text sep ++ [tee] ++ show2 hh ++ [58] ++ show2 mm ++ [58] ++ show2 ss ++ (f ++ z)) t sep ((hh * 3600 + mm * 60 + ss) * 1000000 + micros) off

end Vroom.Spec
