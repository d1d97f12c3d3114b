import Verif.Spec.ParquetFile
import Verif.Spec.Buffers
import Verif.Model.ParquetFile
/-
What a table is, for the statement of the file round trip: columns with the cells that were put into
them, whatever the sequence of appends and merges.
-/
namespace Vroom.Parquet
open Vroom

/-- Bytes of all strings of a column. -/
def totalBytes (xs : List (Option (List UInt8))) : Nat := (xs.map (fun s => (s.getD []).length)).sum

/-- `ColHist col cells`: `col` was built by some history of appends, null appends, merges and clears,
and `cells` are the values a user put into it.  String columns hold less than 4 GiB (beyond that the
32-bit offsets wrap, see C25).  Null rows hold a filler: 0, or a quiet NaN in float columns
(fast_arrow_context.h:103-246). -/
inductive ColHist : ArrowColumn → List (Option Val) → Prop
  | int32 {c xs} (h : NumHist UInt32 0 c xs) : ColHist (.int32 c) (xs.map (·.map (fun v => .num v.toNat)))
  | int64 {c xs} (h : NumHist UInt64 0 c xs) : ColHist (.int64 c) (xs.map (·.map (fun v => .num v.toNat)))
  | float64 {c xs} (h : NumHist UInt64 quietNaN c xs) : ColHist (.float64 c) (xs.map (·.map (fun v => .num v.toNat)))
  | date {c xs} (h : NumHist UInt32 0 c xs) : ColHist (.date c) (xs.map (·.map (fun v => .num v.toNat)))
  | timestamp {c xs} (h : NumHist UInt64 0 c xs) : ColHist (.timestamp c) (xs.map (·.map (fun v => .num v.toNat)))
  | bool {c xs} (h : NumHist UInt8 0 c xs) : ColHist (.bool c) (xs.map (·.map (fun v => .bool (v != 0))))
  | string {c xs} (h : StrHist c xs) (hb : totalBytes xs < 2 ^ 32) : ColHist (.string c) (xs.map (·.map .bytes))

/-- The codec number of parquet.thrift for the format a compressor of compression.cpp produces:
`LZ4_compress_default` produces a raw LZ4 block (LZ4_RAW = 7). -/
def producedFormat : Compression → Int
  | .none => 0 | .snappy => 1 | .gzip => 2 | .zstd => 6 | .lz4 => 7

/-- Assumption on the compressor: whatever comes out of it smaller than its input (less than 2 GiB) is
non-empty and decompresses to the input in the produced format.  C86 proves it of compression.cpp from contracts of the libraries alone. -/
def CodecOk (env : WEnv) (dec : Int → List UInt8 → Option (List UInt8)) : Prop :=
  ∀ raw, raw.length < 2 ^ 31 → (env.compress env.compression raw).length < raw.length →
    env.compress env.compression raw ≠ [] ∧
      dec (producedFormat env.compression) (env.compress env.compression raw) = some raw

/-- The uncompressed data page of a column (levels, then values) and the uncompressed dictionary page. -/
def rawDataPage (env : WEnv) (cs : ColSchema) (col : ArrowColumn) : List UInt8 :=
  (if cs.nullable then encodeDefLevelsArrow col.nulls 1 col.nulls.nullCountFast else []) ++
    ((encodeValues env col).map (·.bytes)).getD []

def rawDictPage : ArrowColumn → List UInt8
  | .string c => (encodeStrings (createDictionary c.rows).1).getD []
  | _ => []

/-- Both pages are below 2 GiB (their sizes are recorded as `int32_t`). -/
def PagesSmall (env : WEnv) (cs : ColSchema) (col : ArrowColumn) : Prop :=
  (rawDataPage env cs col).length < 2 ^ 31 ∧ (rawDictPage col).length < 2 ^ 31

/-- The writer decides for the dictionary page and for the data page separately whether to keep the
compressed bytes, but records one codec for both.  This says the decisions are the same. -/
def PagesAgree (env : WEnv) (cs : ColSchema) (col : ArrowColumn) : Prop :=
  ∀ v, encodeValues env col = some v → v.dict ≠ none →
    (compressPage env (rawDictPage col)).2.2.2 = (compressPage env (rawDataPage env cs col)).2.2.2

/-- The bytes of a column chunk as handed to the file writer: dictionary page (if any), data page. -/
def dictBytes (e : EncodedColumn) : List UInt8 :=
  match e.usesDictionary, e.dictHeader, e.dictContent with
  | true, some h, some c => h ++ c
  | _, _, _ => []

def chunkBytes (e : EncodedColumn) : List UInt8 := dictBytes e ++ (e.header ++ e.content)

/-- The class of builder a schema column is stored in: columns without a type (`NA`, `UNKNOWN`: no value was
seen when the type was inferred) are stored as text. -/
def stored : DataType → DataType
  | .na | .unknown => .string
  | t => t

/-- Bytes of all byte strings of a column. -/
def valBytes (xs : List (Option Val)) : Nat :=
  (xs.map (fun x => match x with | some (.bytes b) => b.length | _ => 0)).sum

/-- A column of a row group of `n` rows: the builder `col` for schema column `cs` holds `rows`. -/
structure ColOk (env : WEnv) (n : Nat) (cs : ColSchema) (col : ArrowColumn) (rows : List (Option Val)) : Prop where
  hist : ColHist col rows
  type : col.type = stored cs.type
  size : rows.length = n
  nulls : cs.nullable = true ∨ none ∉ rows
  small : PagesSmall env cs col
  agree : PagesAgree env cs col

/-- The columns of a row group, one for each schema column. -/
inductive ColsOk (env : WEnv) (n : Nat) : List ColSchema → List ArrowColumn → List (List (Option Val)) → Prop
  | nil : ColsOk env n [] [] []
  | cons {cs col rows css cols rowss} : ColOk env n cs col rows → ColsOk env n css cols rowss →
      ColsOk env n (cs :: css) (col :: cols) (rows :: rowss)

/-- A row group of a table: the builders, and the cells put into them. -/
structure TableGroup where
  cols : List ArrowColumn
  numRows : Nat
  cells : List (List (Option Val))

/-- A use of the API: `write` once for each row group. -/
def writeAll (env : WEnv) (p : PWriter) : List (List ArrowColumn) → Option PWriter
  | [] => some p
  | t :: ts => (p.write env t).bind (fun p => writeAll env p ts)

/-- A chunk flagged as dictionary encoded has both parts of its dictionary page (every chunk produced by
the column encoder does, `encoded_dictComplete`). -/
def DictComplete (c : EncodedColumn) : Prop := c.usesDictionary = true → c.dictHeader.isSome ∧ c.dictContent.isSome

/-- The column metadata recorded in row groups, in file order. -/
def recorded (rgs : List RowGroup) : List ColumnMetaData := rgs.flatMap (fun rg => rg.columns.filterMap (·.metaData))

/-- `Tiled file s chunks e`: the recorded chunks fill the file from `s` to `e` one after the other: each
recorded extent holds exactly the bytes of its chunk, the dictionary page offset (present exactly when
there is a dictionary page) is its start, and the data page offset is where its data page is. -/
inductive Tiled (file : List UInt8) : Nat → List (ColumnMetaData × EncodedColumn) → Nat → Prop
  | nil (s : Nat) : Tiled file s [] s
  | cons {s e : Nat} {m : ColumnMetaData} {c : EncodedColumn} {rest} :
      m.totalCompressed.toInt = ((chunkBytes c).length : Int) →
      (file.drop s).take (chunkBytes c).length = chunkBytes c →
      m.dictPageOffset.map Int64.toInt = (if c.usesDictionary then some (s : Int) else none) →
      m.dataPageOffset.toInt = ((s + (dictBytes c).length : Nat) : Int) →
      (file.drop (s + (dictBytes c).length)).take (c.header ++ c.content).length = c.header ++ c.content →
      Tiled file (s + (chunkBytes c).length) rest e → Tiled file s ((m, c) :: rest) e

end Vroom.Parquet
