import Verif.Spec.ParquetTable
import Verif.Spec.Statistics
import Verif.Model.ColumnChunk
import Verif.Spec.HybridCut
/-
C95: what a reader can make of a column chunk record.  The only names of the model used are those of the inputs (`ChunkEnv`, the five kinds) and of the record itself.
-/
namespace Vroom.Spec
open Vroom Parquet

/-- The values given to one of the five column functions. -/
inductive ColValues where
  | int32 (vs : List Int32)
  | int64 (vs : List Int64)
  | float64 (bits : List UInt64)
  | string (vs : List (List UInt8))
  | bool (vs : List Bool)

/-- Column functions are called with a null bitmap that is empty or has one entry for each value. -/
def ColValues.Fits (c : ColValues) (nulls : List Bool) : Prop :=
  nulls = [] ∨ nulls.length = match c with
    | .int32 vs => vs.length | .int64 vs => vs.length | .float64 vs => vs.length | .string vs => vs.length | .bool vs => vs.length

/-- The column meant: `true` in the bitmap is a null; numbers by their two's complement or IEEE bits. -/
def ColValues.cells (c : ColValues) (nulls : List Bool) : List (Option Val) :=
  match c with
  | .int32 vs => (bitmapCells vs nulls).map (·.map (fun v => .num v.toUInt32.toNat))
  | .int64 vs => (bitmapCells vs nulls).map (·.map (fun v => .num v.toUInt64.toNat))
  | .float64 vs => (bitmapCells vs nulls).map (·.map (fun v => .num v.toNat))
  | .string vs => (bitmapCells vs nulls).map (·.map .bytes)
  | .bool vs => (bitmapCells vs nulls).map (·.map .bool)

/-- Number of the physical type in parquet.thrift. -/
def ColValues.ptype : ColValues → Int
  | .int32 _ => 1 | .int64 _ => 2 | .float64 _ => 5 | .string _ => 6 | .bool _ => 0

/-- Strings are below 4 GiB (their lengths are written in four bytes). -/
def ColValues.Small : ColValues → Prop
  | .string vs => ∀ s ∈ vs, s.length < 2 ^ 32
  | _ => True

/-- Calling the column function of the type. -/
def ColValues.write (c : ColValues) (E : ChunkEnv) (hmin hmax : UInt64 → UInt64 → UInt64) (lanes : Nat) (pool : List UInt8) (nulls : List Bool)
    (pre : Option ColStats) : Option (ChunkRecord × List UInt8) :=
  match c with
  | .int32 vs => writeColumn (int32Kind lanes) E pool vs nulls pre
  | .int64 vs => writeColumn (int64Kind lanes) E pool vs nulls pre
  | .float64 vs => writeColumn (float64Kind hmin hmax lanes) E pool vs nulls pre
  | .string vs => writeColumn stringKind E pool vs nulls pre
  | .bool vs => writeColumn boolKind E pool vs nulls pre

/-- `k` PLAIN values of a physical type and the bytes after them. -/
def plainRest (ptype : Int) (k : Nat) (bs : List UInt8) : Option (List Val × List UInt8) :=
  if ptype = 1 then (plainFixed 4 k bs).map (fun p => (p.1.map .num, p.2))
  else if ptype = 2 then (plainFixed 8 k bs).map (fun p => (p.1.map .num, p.2))
  else if ptype = 6 then (plainByteArrays k bs).map (fun p => (p.1.map .bytes, p.2))
  else none

/-- Reading an uncompressed record: a dictionary of `k` values in front if it says so; definition levels if `levels`; then the values. -/
def readRecord (ptype : Int) (levels : Bool) (k : Nat) (r : ChunkRecord) : Option (List (Option Val)) :=
  if r.usesDictionary then
    match plainRest ptype k r.data with
    | none => none
    | some (dict, rest) => pageRows levels ptype 8 (some dict) r.numValues rest
  else pageRows levels ptype 0 none r.numValues r.data

/-- The bytes of a PLAIN record without levels, decompressed: the record is compressed if it is smaller than the size it gives for its values. -/
def inflateRecord (dec : Int → List UInt8 → Option (List UInt8)) (codec : Compression) (r : ChunkRecord) : Option ChunkRecord :=
  if r.data.length < r.totalUncompressed then (dec (producedFormat codec) r.data).map (fun b => { r with data := b }) else some r

/-- The position of each value among the distinct values in order of first appearance. -/
def ranks (vs : List Val) : List UInt32 := vs.map (fun v => UInt32.ofNat (vs.eraseDups.idxOf v))

/-- What the streaming hybrid encoder gets right (C29): no short piece in front of a long run displaces what follows, or only zeros follow. -/
def Undisplaced (l : List UInt32) : Prop := ∀ e, displacedFrom l = some e → ∀ v ∈ l.drop e, v = 0

/-- The definition levels of a null bitmap. -/
def levelsOf (nulls : List Bool) : List UInt32 := nulls.map (fun isNull => if isNull then 0 else 1)

end Vroom.Spec
