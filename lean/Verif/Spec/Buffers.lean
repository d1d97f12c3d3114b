import Verif.Model.Buffers
/-
Specifications for column storage: plain lists.
-/
namespace Vroom

/-- Bit `i` of a byte string, least significant bit first (Arrow's bitmap order). -/
def bitAt (d : List UInt8) (i : Nat) : Bool :=
  match d[i / 8]? with
  | some b => b.toNat.testBit (i % 8)
  | none => false

/-- `BitmapHist b flags`: some history of calls produced `b`; `flags` are the flags appended since the
last `clear`, in order. -/
inductive BitmapHist : NullBitmap → List Bool → Prop
  | new : BitmapHist {} []
  | push {b fs} (v : Bool) : BitmapHist b fs → BitmapHist (b.push v) (fs ++ [v])
  | append {b o fs gs} : BitmapHist b fs → BitmapHist o gs → BitmapHist (b.appendFrom o) (fs ++ gs)
  | finalize {b fs} : BitmapHist b fs → BitmapHist b.finalize fs
  | clear {b fs} : BitmapHist b fs → BitmapHist b.clear []

/-- History of a fixed-width column: `xs` are the appended cells since the last `clear`. -/
inductive NumHist (T : Type) (dflt : T) : NumColumn T → List (Option T) → Prop
  | new : NumHist T dflt {} []
  | append {c xs} (v : T) : NumHist T dflt c xs → NumHist T dflt (c.append v) (xs ++ [some v])
  | appendNull {c xs} : NumHist T dflt c xs → NumHist T dflt (c.appendNull dflt) (xs ++ [none])
  | merge {c o xs ys} : NumHist T dflt c xs → NumHist T dflt o ys → NumHist T dflt (c.mergeFrom o) (xs ++ ys)
  | clear {c xs} : NumHist T dflt c xs → NumHist T dflt c.clear []

/-- What a reader of the column sees at row `i`. -/
def NumColumn.read {T} (c : NumColumn T) (i : Nat) : Option T := if c.nulls.isValid i then c.values[i]? else none

/-- History of a string column. -/
inductive StrHist : StrColumn → List (Option (List UInt8)) → Prop
  | new : StrHist {} []
  | append {c xs} (s : List UInt8) : StrHist c xs → StrHist (c.append s) (xs ++ [some s])
  | appendNull {c xs} : StrHist c xs → StrHist c.appendNull (xs ++ [none])
  | merge {c o xs ys} : StrHist c xs → StrHist o ys → StrHist (c.mergeFrom o) (xs ++ ys)
  | clear {c xs} : StrHist c xs → StrHist c.clear []

/-- What a reader of the string column sees at row `i`. -/
def StrColumn.read (c : StrColumn) (i : Nat) : Option (List UInt8) :=
  if c.nulls.isValid i then some (c.values.get i) else none

/-- Total number of string bytes in a column. -/
def strBytes (xs : List (Option (List UInt8))) : Nat := (xs.map (fun o => (o.getD []).length)).sum

end Vroom
