import Verif.Model.Thrift
import Verif.Model.Dictionary
/-
Model of the Parquet file writer: /repo/src/writer/parquet_file.cpp (Arrow path),
/repo/src/writer/encoded_row_group.h, /repo/include/libvroom/options.h:39-53.
The file is the list of bytes written so far (stream errors are not checked by the code and not
modelled).  `current_offset` and the counters are kept as naturals and cast to `int64_t` where the
metadata is built; every `static_cast<int32_t>` is kept.  Columns of a row group are encoded by pool
tasks writing to separate slots (parquet_file.cpp:598-639), modelled as a map.
-/
namespace Vroom

/-- `enum class Compression` (types.h:83). -/
inductive Compression where
  | none | zstd | snappy | lz4 | gzip
deriving DecidableEq, Repr

/-- `to_parquet_codec` (parquet_file.cpp:91-106) with the numbers of parquet_types.h:42-51. -/
def toParquetCodec : Compression → Int32
  | .none => 0 | .gzip => 2 | .snappy => 1 | .zstd => 6 | .lz4 => 5

/-- `to_parquet_type` (parquet_file.cpp:71-89) with the numbers of parquet_types.h:13-22. -/
def toParquetType : DataType → Int32
  | .bool => 0 | .int32 => 1 | .int64 => 2 | .date => 1 | .timestamp => 2 | .float64 => 5
  | _ => 6

/-- `ColumnSchema` (types.h:128-135), the members used by the writer. -/
structure ColSchema where
  name : List UInt8
  type : DataType
  nullable : Bool := true
deriving DecidableEq, Repr

/-- The seven `ArrowColumnBuilder` classes (arrow_column_builder.h:68-581).  Numbers are kept as bit
patterns: `int32_t` as `UInt32`, `int64_t` and `double` as `UInt64`, booleans as bytes. -/
inductive ArrowColumn where
  | int32 (c : NumColumn UInt32)
  | int64 (c : NumColumn UInt64)
  | float64 (c : NumColumn UInt64)
  | bool (c : NumColumn UInt8)
  | date (c : NumColumn UInt32)
  | timestamp (c : NumColumn UInt64)
  | string (c : StrColumn)

/-- Bits of `std::numeric_limits<double>::quiet_NaN()` (fast_arrow_context.h:177, 182; C++ library). -/
def quietNaN : UInt64 := 0x7FF8000000000000

namespace ArrowColumn
/-- `type()` (arrow_column_builder.h:70, 144, 217, 290, 364, 437, 510). -/
def type : ArrowColumn → DataType
  | int32 _ => .int32 | int64 _ => .int64 | float64 _ => .float64 | bool _ => .bool
  | date _ => .date | timestamp _ => .timestamp | string _ => .string
/-- `size()` (arrow_column_builder.h:71, 145, 218, 291, 365, 438, 511). -/
def size : ArrowColumn → Nat
  | int32 c => c.size | int64 c => c.size | float64 c => c.size | bool c => c.size
  | date c => c.size | timestamp c => c.size | string c => c.size
/-- `null_bitmap()` (arrow_column_builder.h:83, 157, 230, 303, 377, 450, 524). -/
def nulls : ArrowColumn → NullBitmap
  | int32 c => c.nulls | int64 c => c.nulls | float64 c => c.nulls | bool c => c.nulls
  | date c => c.nulls | timestamp c => c.nulls | string c => c.nulls
end ArrowColumn

/-- What the writer is run with: `options.compression`, `options.enable_dictionary`, the external
compressor `compress(data, codec, level)` (compression.cpp:51-155) and the floating-point comparison of
the dictionary heuristic. -/
structure WEnv where
  compression : Compression
  enableDictionary : Bool
  compress : Compression → List UInt8 → List UInt8
  ratioLt : StrColumn → Bool

/-- `EncodedColumn` (encoded_row_group.h:16-36). `dictionary_size` and `dictionary_compressed_size` are
never read. -/
structure EncodedColumn where
  header : List UInt8
  content : List UInt8
  numValues : Int64
  nullCount : Int64
  uncompressed : Int64
  compressed : Int64
  statistics : Option PStatistics := none
  codec : Int32
  dataType : DataType
  name : List UInt8
  isNullable : Bool
  dictHeader : Option (List UInt8) := none
  dictContent : Option (List UInt8) := none
  usesDictionary : Bool := false
  dictUncompressed : Int64 := 0

/-- The pattern used for both kinds of pages (parquet_file.cpp:463-476, 491-494 and 538-553, 573-576):
compress unless the codec is NONE, keep the result only if it is smaller.  Returns the two `int32_t`
sizes, the bytes to store and whether compression was kept. -/
def compressPage (env : WEnv) (raw : List UInt8) : Int32 × Int32 × List UInt8 × Bool :=
  if env.compression ≠ .none then
    let comp := env.compress env.compression raw
    if comp.length < raw.length then
      (Int32.ofNat raw.length, Int32.ofNat comp.length, if comp.isEmpty then raw else comp, true)
    else (Int32.ofNat raw.length, Int32.ofNat raw.length, raw, false)
  else (Int32.ofNat raw.length, Int32.ofNat raw.length, raw, false)

/-- Result of encoding the values: page bytes, encoding number, dictionary page if any
(header, content, uncompressed size) (parquet_file.cpp:435-550: the fields of the encoded column that are filled there). -/
structure ValuesEnc where
  bytes : List UInt8
  encoding : Int32
  dict : Option (List UInt8 × List UInt8 × Int64)

/-- The dictionary branch (parquet_file.cpp:446-509). -/
def encodeDictColumn (env : WEnv) (c : StrColumn) : Option ValuesEnc :=
  let (entries, indices) := createDictionary c.rows
  match encodeStrings entries with
  | none => none
  | some raw =>
    let (unc, comp, content, _) := compressPage env raw
    let hdr : PageHeader :=
      { type := 2, uncompressed := unc, compressed := comp,
        dictPage := some { numValues := Int32.ofNat entries.length, encoding := 0 } }
    some { bytes := encodeDictionaryIndices indices c.nulls (dictBitWidth entries.length), encoding := 8,
           dict := some ((hdr.write {}).buf, content, unc.toInt64) }

/-- The `switch` on the column type (parquet_file.cpp:435-550); encodings PLAIN = 0,
RLE_DICTIONARY = 8 (parquet_types.h:29-39). -/
def encodeValues (env : WEnv) (col : ArrowColumn) : Option ValuesEnc :=
  let plain := fun (o : Option (List UInt8)) => o.map (fun bs => ({ bytes := bs, encoding := 0, dict := none } : ValuesEnc))
  match col with
  | .string c =>
    if env.enableDictionary ∧ c.values.size > 0 ∧ shouldUseDictionary (cardinality c.rows) (env.ratioLt c) then
      encodeDictColumn env c
    else plain (encodeByteArrayArrow c.values c.nulls)
  | .int32 c => plain (encodeFixedArrow 4 le4 c.values c.nulls)
  | .int64 c => plain (encodeFixedArrow 8 le8 c.values c.nulls)
  | .date c => plain (encodeFixedArrow 4 le4 c.values c.nulls)
  | .timestamp c => plain (encodeFixedArrow 8 le8 c.values c.nulls)
  | .float64 c => plain (encodeFixedArrow 8 le8 c.values c.nulls)
  | .bool c => plain (encodeBoolArrow c.values c.nulls)

/-- `encode_column_arrow` (parquet_file.cpp:369-594).  `none`: a buffer overflow in an encoder. -/
def encodeColumnArrow (env : WEnv) (cs : ColSchema) (col : ArrowColumn) : Option EncodedColumn :=
  let nullCount := col.nulls.nullCountFast
  let levels := if cs.nullable then encodeDefLevelsArrow col.nulls 1 nullCount else []
  match encodeValues env col with
  | none => none
  | some v =>
    let page := levels ++ v.bytes
    let (unc, comp, content, kept) := compressPage env page
    let hdr : PageHeader :=
      { type := 0, uncompressed := unc, compressed := comp,
        dataPage := some { numValues := Int32.ofNat col.size, encoding := v.encoding, defEncoding := 3, repEncoding := 3 } }
    some { header := (hdr.write {}).buf, content := content, numValues := Int64.ofNat col.size,
           nullCount := Int64.ofNat nullCount, uncompressed := unc.toInt64, compressed := comp.toInt64,
           codec := if kept then toParquetCodec env.compression else 0,
           dataType := col.type, name := cs.name, isNullable := cs.nullable,
           dictHeader := v.dict.map (·.1), dictContent := v.dict.map (·.2.1), usesDictionary := v.dict.isSome,
           dictUncompressed := (v.dict.map (·.2.2)).getD 0 }

/-- `EncodedRowGroup` (encoded_row_group.h:40-51); the two totals are not used by the writer. -/
structure EncodedRowGroup where
  columns : List EncodedColumn
  numRows : Int64

/-- `encode_row_group` (parquet_file.cpp:598-639); `schema[i]` past the end of the schema is undefined
and `none` here. -/
def encodeRowGroup (env : WEnv) (schema : List ColSchema) (cols : List ArrowColumn) : Option EncodedRowGroup :=
  if schema.length < cols.length then none
  else match (schema.zip cols).mapM (fun p => encodeColumnArrow env p.1 p.2) with
    | none => none
    | some es => some { columns := es, numRows := match cols with | [] => 0 | c :: _ => Int64.ofNat c.size }

/-- `ParquetWriter::Impl` (parquet_file.cpp:642-664); `file` is the content of the file on disk. -/
structure PWriter where
  file : List UInt8 := []
  offset : Nat := 0
  schema : List ColSchema := []
  rowGroups : List RowGroup := []
  totalRows : Int64 := 0
  isOpen : Bool := false

namespace PWriter

/-- "PAR1" (parquet_file.cpp:21). -/
def magic : List UInt8 := [80, 65, 82, 49]

/-- `write_bytes` (parquet_file.cpp:686-689). -/
def writeBytes (p : PWriter) (bs : List UInt8) : PWriter :=
  { p with file := p.file ++ bs, offset := p.offset + bs.length }

/-- `ParquetWriter::open` (parquet_file.cpp:931-944), successful case: opening truncates the file; the
position counter, the row groups and the row total are *not* reset. -/
def openFile (p : PWriter) : PWriter := { ({ p with file := [] } : PWriter).writeBytes magic with isOpen := true }

/-- One column of `write_encoded_row_group` (parquet_file.cpp:702-763). -/
def writeColumn (p : PWriter) (col : EncodedColumn) : PWriter × ColumnMetaData :=
  let (p, dictOff, written, unc) :=
    match col.usesDictionary, col.dictHeader, col.dictContent with
    | true, some h, some c =>
      ((p.writeBytes h).writeBytes c, some (Int64.ofNat p.offset), Int64.ofNat (h.length + c.length),
        Int64.ofNat h.length + col.dictUncompressed)
    | _, _, _ => (p, none, 0, 0)
  let dataOff := Int64.ofNat p.offset
  let p := (p.writeBytes col.header).writeBytes col.content
  let written := written + Int64.ofNat (col.header.length + col.content.length)
  let unc := unc + (Int64.ofNat col.header.length + col.uncompressed)
  (p, { type := toParquetType col.dataType,
        encodings := if col.usesDictionary then [0, 8, 3] else [0, 3],
        path := [col.name], codec := col.codec, numValues := col.numValues, totalUncompressed := unc,
        totalCompressed := written, dataPageOffset := dataOff,
        dictPageOffset := if col.usesDictionary then dictOff else none, statistics := col.statistics })

/-- The loop over the columns (parquet_file.cpp:702-763). -/
def writeColumns (p : PWriter) : List EncodedColumn → PWriter × List ColumnMetaData
  | [] => (p, [])
  | c :: cs =>
    let (p, m) := p.writeColumn c
    let (p, ms) := p.writeColumns cs
    (p, m :: ms)

/-- `write_encoded_row_group` (parquet_file.cpp:695-771). -/
def writeEncoded (p : PWriter) (g : EncodedRowGroup) : PWriter :=
  let fileOffset := Int64.ofNat p.offset
  let (p, metas) := p.writeColumns g.columns
  let rg : RowGroup :=
    { columns := metas.map (fun m => { metaData := some m }),
      totalByteSize := metas.foldl (fun a m => a + m.totalUncompressed) 0,
      numRows := g.numRows, fileOffset := some fileOffset,
      totalCompressed := some (metas.foldl (fun a m => a + m.totalCompressed) 0) }
  { p with totalRows := p.totalRows + g.numRows, rowGroups := p.rowGroups ++ [rg] }

/-- `ParquetWriter::write` (parquet_file.cpp:950-969) on an open writer; also what the pipeline does
with each submitted row group, in order (parquet_file.cpp:984-995, 1001-1026).  `none`: overflow. -/
def write (env : WEnv) (p : PWriter) (cols : List ArrowColumn) : Option PWriter :=
  if cols.isEmpty then some p
  else (encodeRowGroup env p.schema cols).map p.writeEncoded

/-- The schema elements built in `close` (parquet_file.cpp:1064-1093). -/
def schemaElements (schema : List ColSchema) : List SchemaElement :=
  { name := "schema".toUTF8.toList, numChildren := some (Int32.ofNat schema.length) } ::
  schema.map (fun c =>
    { type := some (toParquetType c.type), repetition := some (if c.nullable then 1 else 0), name := c.name,
      convertedType := if c.type = .string then some 0 else none })

/-- The metadata built in `close` (parquet_file.cpp:1057-1098). -/
def metadata (p : PWriter) : FileMetaData :=
  { version := 1, numRows := p.totalRows, rowGroups := p.rowGroups, schema := schemaElements p.schema,
    createdBy := some "vroom (C++ CSV to Parquet converter)".toUTF8.toList, columnOrders := some p.schema.length }

/-- `ParquetWriter::close` (parquet_file.cpp:1052-1114). -/
def close (p : PWriter) : PWriter :=
  if p.isOpen then
    let md := (p.metadata.write {}).buf
    let p := p.writeBytes md
    let p := p.writeBytes (le4 (UInt32.ofNat md.length))
    let p := p.writeBytes magic
    { p with isOpen := false }
  else p

end PWriter
end Vroom
