import Verif.Spec.Decimal
/-
What the type of a cell means, independent of the code.
-/
namespace Vroom.Spec

/-- White space: space, tab, LF, VT, FF, CR. -/
def whiteSpace (c : UInt8) : Bool := c == 32 || c == 9 || c == 10 || c == 11 || c == 12 || c == 13

/-- `t` is `s` without the white space around it. -/
def Stripped (white : UInt8 → Bool) (s t : List UInt8) : Prop :=
  ∃ a b, s = a ++ t ++ b ∧ (∀ c ∈ a, white c = true) ∧ (∀ c ∈ b, white c = true) ∧
    (∀ c, t.head? = some c → white c = false) ∧ (∀ c, t.getLast? = some c → white c = false)

/-- An optional sign. -/
def OptSign (s : List UInt8) : Prop := s = [] ∨ s = [43] ∨ s = [45]

/-- Digits only. -/
def Digits (s : List UInt8) : Prop := ∀ d ∈ s, IsDigit d

/-- A fraction: a point and possibly digits. -/
def Fraction (s : List UInt8) : Prop := ∃ ds, s = 46 :: ds ∧ Digits ds

/-- An exponent: `e` or `E`, an optional sign and at least one digit. -/
def Exponent (s : List UInt8) : Prop := ∃ e sg ds, s = e :: (sg ++ ds) ∧ (e = 101 ∨ e = 69) ∧ OptSign sg ∧ ds ≠ [] ∧ Digits ds

/-- A decimal number written with a point or an exponent (or both), with at least one digit before the exponent. -/
def DecLit (s : List UInt8) : Prop :=
  ∃ sg ip fr ex, s = sg ++ (ip ++ (fr ++ ex)) ∧ OptSign sg ∧ Digits ip ∧ (fr = [] ∨ Fraction fr) ∧ (ex = [] ∨ Exponent ex) ∧
    (ip ≠ [] ∨ 2 ≤ fr.length) ∧ (fr ≠ [] ∨ ex ≠ [])

/-- Two, four digits. -/
def Digits2 (s : List UInt8) : Prop := s.length = 2 ∧ Digits s
def Digits4 (s : List UInt8) : Prop := s.length = 4 ∧ Digits s

/-- A date as written: `YYYY-MM-DD`, `YYYY/MM/DD`, `DD-MM-YYYY` or `DD/MM/YYYY`. -/
def DateText (s : List UInt8) : Prop :=
  ∃ sep x y z, (sep = 45 ∨ sep = 47) ∧ s = x ++ (sep :: (y ++ (sep :: z))) ∧ Digits2 y ∧
    ((Digits4 x ∧ Digits2 z) ∨ (Digits2 x ∧ Digits4 z))

/-- A time as written: `HH:MM` or `HH:MM:SS`. -/
def TimeText (s : List UInt8) : Prop :=
  ∃ h m, Digits2 h ∧ Digits2 m ∧ (s = h ++ (58 :: m) ∨ ∃ sec, Digits2 sec ∧ s = h ++ (58 :: (m ++ (58 :: sec))))

/-- A truth value as written: `true`, `false`, `TRUE`, `FALSE`, `True`, `False`. -/
def BoolText (s : List UInt8) : Prop :=
  s = [116, 114, 117, 101] ∨ s = [102, 97, 108, 115, 101] ∨ s = [84, 82, 85, 69] ∨ s = [70, 65, 76, 83, 69] ∨
    s = [84, 114, 117, 101] ∨ s = [70, 97, 108, 115, 101]

/-- A zone as written: nothing, `Z`, or a sign and text. -/
def ZoneText (s : List UInt8) : Prop :=
  s = [] ∨ s = [90] ∨ ∃ c h m, (c = 43 ∨ c = 45) ∧ Digits2 h ∧ Digits2 m ∧ s = c :: (h ++ (58 :: m))

end Vroom.Spec
