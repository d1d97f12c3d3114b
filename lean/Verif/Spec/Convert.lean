import Verif.Spec.ParquetTable
import Verif.Model.Convert
/-
Tables as lists of chunks, for the statements about conversion (C34, C52, C56).
-/
namespace Vroom.Parquet
open Vroom

/-- `ColsAre n schema cols cells`: one builder of the right type for each schema column, each holding `n`
cells, namely `cells`. -/
inductive ColsAre (n : Nat) : List ColSchema → List ArrowColumn → List (List (Option Val)) → Prop
  | nil : ColsAre n [] [] []
  | cons {cs col rows css cols rowss} : ColHist col rows → col.type = stored cs.type → rows.length = n →
      ColsAre n css cols rowss → ColsAre n (cs :: css) (col :: cols) (rows :: rowss)

/-- A sequence of chunks (or of row groups) with the cells in them. -/
inductive ChunksAre (schema : List ColSchema) : List (List ArrowColumn) → List (List (List (Option Val))) → Prop
  | nil : ChunksAre schema [] []
  | cons {c cells cs cellss} (n : Nat) : ColsAre n schema c cells → ChunksAre schema cs cellss →
      ChunksAre schema (c :: cs) (cells :: cellss)

/-- Column `j` of a table given by chunks. -/
def tableColumn (chunks : List (List (List (Option Val)))) (j : Nat) : List (Option Val) :=
  (chunks.map (fun c => c.getD j [])).flatten

/-- Number of rows of a chunk: the length of its first column. -/
def chunkRows (cells : List (List (Option Val))) : Nat := (cells.getD 0 []).length

end Vroom.Parquet

namespace Vroom.Parquet
open Vroom

/-- The value a typed column holds for one read cell (`none`: a missing value). Numbers are two's
complement bit patterns; what a text means for a type is `storeText` (C17-C22). -/
def cellVal (lanes : Nat) (floatBits : Bytes → Option UInt64) (t : DataType) : Option Bytes → Option Val
  | none => none
  | some v =>
    match storeText lanes (fun v => (floatBits v).isSome) t v with
    | .int i => some (.num (if t = .int32 ∨ t = .date then (i % 2 ^ 32).toNat else (i % 2 ^ 64).toNat))
    | .bool b => some (.bool b)
    | .float x => (floatBits x).map (fun b => .num b.toNat)
    | .text x => some (.bytes x)
    | _ => none

/-- What an independent reader finds in a Parquet file: one nullable column for each name, of the physical type for its column type; in each column the values of the table's
column, by the rules of the type; and so many rows in all. -/
def Holds (dec : Int → List UInt8 → Option (List UInt8)) (lanes : Nat) (floatBits : Bytes → Option UInt64) (file : List UInt8)
    (names : List (List UInt8)) (types : List DataType) (table : List (List (Option (List UInt8)))) (rows : Nat) : Prop :=
  ∃ gs, readFile dec file = some ((names.zip types).map (fun c => (c.1, (toParquetType c.2).toInt, true)), gs) ∧
    (∀ j t, types[j]? = some t → tableColumn (gs.map (·.columns)) j = (table.getD j []).map (cellVal lanes floatBits (stored t))) ∧
    (gs.map (·.numRows)).sum = rows

/-- A bound of the size of the metadata at the end of a file with so many row groups. -/
def footerBound (groups : Nat) (names : List (List UInt8)) : Nat := (groups + 1) * (400 + 265 * names.length + (names.map List.length).sum)

end Vroom.Parquet
