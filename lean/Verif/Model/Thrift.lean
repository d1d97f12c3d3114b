import Verif.Model.Encoding
import Verif.Model.Types
/-
Model of the Thrift compact writer and of the serialisation of the Parquet metadata structures.
Sources: /repo/src/writer/thrift_compact.cpp, /repo/src/writer/thrift_compact.h,
/repo/src/writer/parquet_types.cpp, /repo/src/writer/parquet_types.h
Simplification: `write_bool` and `write_double` (never called by parquet_types.cpp) are not modelled,
enumerations are represented by their `int32_t` value, `std::string` by its bytes.
-/
namespace Vroom

/-- Members of `ThriftCompactWriter` (thrift_compact.h:68-70). -/
structure TW where
  buf : List UInt8 := []
  last : Int16 := 0
  stack : List Int16 := []
deriving DecidableEq, Repr

namespace TW

/-- Type identifiers (thrift_compact.h:53-64). -/
def tTrue : UInt8 := 1
/-- thrift_compact.h:54. -/
def tFalse : UInt8 := 2
/-- thrift_compact.h:57. -/
def tI32 : UInt8 := 5
/-- thrift_compact.h:58. -/
def tI64 : UInt8 := 6
/-- thrift_compact.h:60. -/
def tBinary : UInt8 := 8
/-- thrift_compact.h:61. -/
def tList : UInt8 := 9
/-- thrift_compact.h:64. -/
def tStruct : UInt8 := 12

/-- `buffer_.push_back` / `buffer_.insert(end, …)` (thrift_compact.cpp:32, 43, 76, 86). -/
def put (w : TW) (bs : List UInt8) : TW := { w with buf := w.buf ++ bs }

/-- `write_struct_begin` (thrift_compact.cpp:11-15). -/
def structBegin (w : TW) : TW := { w with stack := w.last :: w.stack, last := 0 }

/-- `write_field_stop` (thrift_compact.cpp:42-44). -/
def fieldStop (w : TW) : TW := w.put [0]

/-- `write_struct_end` (thrift_compact.cpp:17-25). -/
def structEnd (w : TW) : TW :=
  let w := w.fieldStop
  match w.stack with
  | [] => w
  | l :: s => { w with last := l, stack := s }

/-- `write_varint` (thrift_compact.cpp:108-115). -/
def varint (w : TW) (v : UInt64) : TW := w.put (writeVarint v)

/-- `write_signed_varint` (thrift_compact.cpp:117-119). -/
def signedVarint (w : TW) (v : Int64) : TW := w.put (writeSignedVarint v)

/-- `write_field_begin` (thrift_compact.cpp:27-40).  The subtraction is done in `int` and narrowed to
`int16_t`, i.e. modulo 2^16. -/
def fieldBegin (w : TW) (id : Int16) (ty : UInt8) : TW :=
  let delta := id - w.last
  let w := if 0 < delta ∧ delta ≤ 15 then w.put [(delta.toUInt16.toUInt8 <<< 4) ||| ty]
           else (w.put [ty]).signedVarint id.toInt64
  { w with last := id }

/-- `write_i32` (thrift_compact.cpp:57-59). -/
def i32 (w : TW) (v : Int32) : TW := w.signedVarint v.toInt64

/-- `write_i64` (thrift_compact.cpp:61-63). -/
def i64 (w : TW) (v : Int64) : TW := w.signedVarint v

/-- `write_string` / `write_binary` (thrift_compact.cpp:74-87). -/
def bin (w : TW) (bs : List UInt8) : TW := (w.varint (UInt64.ofNat bs.length)).put bs

/-- `write_list_begin` (thrift_compact.cpp:89-98) with `size = static_cast<int32_t>(n)`. -/
def listBegin (w : TW) (ty : UInt8) (n : Nat) : TW :=
  let size := Int32.ofNat n
  if size < 15 then w.put [(size.toUInt32.toUInt8 <<< 4) ||| ty]
  else (w.put [0xF0 ||| ty]).varint size.toInt64.toUInt64

/-- The pattern `if (x.has_value()) { … }` (parquet_types.cpp:10, 16, 22, 28). -/
def opt {α : Type} (w : TW) (x : Option α) (f : TW → α → TW) : TW :=
  match x with
  | none => w
  | some a => f w a

end TW

/-! ### Metadata structures (parquet_types.h:74-210) -/

/-- `Statistics` (parquet_types.h:74-83). -/
structure PStatistics where
  max : Option (List UInt8) := none
  min : Option (List UInt8) := none
  nullCount : Option Int64 := none
  distinctCount : Option Int64 := none
  maxValue : Option (List UInt8) := none
  minValue : Option (List UInt8) := none
deriving DecidableEq, Repr

/-- `SchemaElement` (parquet_types.h:86-95). -/
structure SchemaElement where
  type : Option Int32 := none
  typeLength : Option Int32 := none
  repetition : Option Int32 := none
  name : List UInt8
  numChildren : Option Int32 := none
  convertedType : Option Int32 := none
deriving DecidableEq, Repr

/-- `DataPageHeader` (parquet_types.h:98-106). -/
structure DataPageHeader where
  numValues : Int32
  encoding : Int32
  defEncoding : Int32
  repEncoding : Int32
  statistics : Option PStatistics := none
deriving DecidableEq, Repr

/-- `DictionaryPageHeader` (parquet_types.h:109-115). -/
structure DictPageHeader where
  numValues : Int32
  encoding : Int32
  isSorted : Option Bool := none
deriving DecidableEq, Repr

/-- `PageHeader` (parquet_types.h:132-141). -/
structure PageHeader where
  type : Int32
  uncompressed : Int32
  compressed : Int32
  crc : Option Int32 := none
  dataPage : Option DataPageHeader := none
  dictPage : Option DictPageHeader := none
deriving DecidableEq, Repr

/-- `KeyValue` (parquet_types.h:144-149). -/
structure KeyValue where
  key : List UInt8
  value : Option (List UInt8) := none
deriving DecidableEq, Repr

/-- `ColumnMetaData` (parquet_types.h:152-165). -/
structure ColumnMetaData where
  type : Int32
  encodings : List Int32
  path : List (List UInt8)
  codec : Int32
  numValues : Int64
  totalUncompressed : Int64
  totalCompressed : Int64
  dataPageOffset : Int64
  dictPageOffset : Option Int64 := none
  statistics : Option PStatistics := none
deriving DecidableEq, Repr

/-- `ColumnChunk` (parquet_types.h:168-174). -/
structure ColumnChunk where
  filePath : Option (List UInt8) := none
  fileOffset : Int64 := 0
  metaData : Option ColumnMetaData := none
deriving DecidableEq, Repr

/-- `RowGroup` (parquet_types.h:177-185). -/
structure RowGroup where
  columns : List ColumnChunk
  totalByteSize : Int64
  numRows : Int64
  fileOffset : Option Int64 := none
  totalCompressed : Option Int64 := none
deriving DecidableEq, Repr

/-- `FileMetaData` (parquet_types.h:200-210); `column_orders` holds structs without content, so only
their number is kept (parquet_types.h:188-197). -/
structure FileMetaData where
  version : Int32
  schema : List SchemaElement
  numRows : Int64
  rowGroups : List RowGroup
  keyValues : Option (List KeyValue) := none
  createdBy : Option (List UInt8) := none
  columnOrders : Option Nat := none
deriving DecidableEq, Repr

open TW

/-- `Statistics::write` (parquet_types.cpp:6-46). -/
def PStatistics.write (s : PStatistics) (w : TW) : TW :=
  let w := w.structBegin
  let w := w.opt s.max (fun w v => (w.fieldBegin 1 tBinary).bin v)
  let w := w.opt s.min (fun w v => (w.fieldBegin 2 tBinary).bin v)
  let w := w.opt s.nullCount (fun w v => (w.fieldBegin 3 tI64).i64 v)
  let w := w.opt s.distinctCount (fun w v => (w.fieldBegin 4 tI64).i64 v)
  let w := w.opt s.maxValue (fun w v => (w.fieldBegin 5 tBinary).bin v)
  let w := w.opt s.minValue (fun w v => (w.fieldBegin 6 tBinary).bin v)
  w.structEnd

/-- `SchemaElement::write` (parquet_types.cpp:48-86). -/
def SchemaElement.write (e : SchemaElement) (w : TW) : TW :=
  let w := w.structBegin
  let w := w.opt e.type (fun w v => (w.fieldBegin 1 tI32).i32 v)
  let w := w.opt e.typeLength (fun w v => (w.fieldBegin 2 tI32).i32 v)
  let w := w.opt e.repetition (fun w v => (w.fieldBegin 3 tI32).i32 v)
  let w := (w.fieldBegin 4 tBinary).bin e.name
  let w := w.opt e.numChildren (fun w v => (w.fieldBegin 5 tI32).i32 v)
  let w := w.opt e.convertedType (fun w v => (w.fieldBegin 6 tI32).i32 v)
  w.structEnd

/-- `DataPageHeader::write` (parquet_types.cpp:88-114). -/
def DataPageHeader.write (h : DataPageHeader) (w : TW) : TW :=
  let w := w.structBegin
  let w := (w.fieldBegin 1 tI32).i32 h.numValues
  let w := (w.fieldBegin 2 tI32).i32 h.encoding
  let w := (w.fieldBegin 3 tI32).i32 h.defEncoding
  let w := (w.fieldBegin 4 tI32).i32 h.repEncoding
  let w := w.opt h.statistics (fun w s => s.write (w.fieldBegin 5 tStruct))
  w.structEnd

/-- `DictionaryPageHeader::write` (parquet_types.cpp:116-134). -/
def DictPageHeader.write (h : DictPageHeader) (w : TW) : TW :=
  let w := w.structBegin
  let w := (w.fieldBegin 1 tI32).i32 h.numValues
  let w := (w.fieldBegin 2 tI32).i32 h.encoding
  let w := w.opt h.isSorted (fun w b => w.fieldBegin 3 (if b then tTrue else tFalse))
  w.structEnd

/-- `PageHeader::write` (parquet_types.cpp:178-212). -/
def PageHeader.write (h : PageHeader) (w : TW) : TW :=
  let w := w.structBegin
  let w := (w.fieldBegin 1 tI32).i32 h.type
  let w := (w.fieldBegin 2 tI32).i32 h.uncompressed
  let w := (w.fieldBegin 3 tI32).i32 h.compressed
  let w := w.opt h.crc (fun w v => (w.fieldBegin 4 tI32).i32 v)
  let w := w.opt h.dataPage (fun w d => d.write (w.fieldBegin 5 tStruct))
  let w := w.opt h.dictPage (fun w d => d.write (w.fieldBegin 7 tStruct))
  w.structEnd

/-- `KeyValue::write` (parquet_types.cpp:214-228). -/
def KeyValue.write (k : KeyValue) (w : TW) : TW :=
  let w := w.structBegin
  let w := (w.fieldBegin 1 tBinary).bin k.key
  let w := w.opt k.value (fun w v => (w.fieldBegin 2 tBinary).bin v)
  w.structEnd

/-- `ColumnMetaData::write` (parquet_types.cpp:230-287). -/
def ColumnMetaData.write (m : ColumnMetaData) (w : TW) : TW :=
  let w := w.structBegin
  let w := (w.fieldBegin 1 tI32).i32 m.type
  let w := (w.fieldBegin 2 tList).listBegin tI32 m.encodings.length
  let w := m.encodings.foldl (fun w e => w.i32 e) w
  let w := (w.fieldBegin 3 tList).listBegin tBinary m.path.length
  let w := m.path.foldl (fun w p => w.bin p) w
  let w := (w.fieldBegin 4 tI32).i32 m.codec
  let w := (w.fieldBegin 5 tI64).i64 m.numValues
  let w := (w.fieldBegin 6 tI64).i64 m.totalUncompressed
  let w := (w.fieldBegin 7 tI64).i64 m.totalCompressed
  let w := (w.fieldBegin 9 tI64).i64 m.dataPageOffset
  let w := w.opt m.dictPageOffset (fun w v => (w.fieldBegin 11 tI64).i64 v)
  let w := w.opt m.statistics (fun w s => s.write (w.fieldBegin 12 tStruct))
  w.structEnd

/-- `ColumnChunk::write` (parquet_types.cpp:289-309). -/
def ColumnChunk.write (c : ColumnChunk) (w : TW) : TW :=
  let w := w.structBegin
  let w := w.opt c.filePath (fun w v => (w.fieldBegin 1 tBinary).bin v)
  let w := (w.fieldBegin 2 tI64).i64 c.fileOffset
  let w := w.opt c.metaData (fun w m => m.write (w.fieldBegin 3 tStruct))
  w.structEnd

/-- `RowGroup::write` (parquet_types.cpp:311-343). -/
def RowGroup.write (g : RowGroup) (w : TW) : TW :=
  let w := w.structBegin
  let w := (w.fieldBegin 1 tList).listBegin tStruct g.columns.length
  let w := g.columns.foldl (fun w c => c.write w) w
  let w := (w.fieldBegin 2 tI64).i64 g.totalByteSize
  let w := (w.fieldBegin 3 tI64).i64 g.numRows
  let w := w.opt g.fileOffset (fun w v => (w.fieldBegin 5 tI64).i64 v)
  let w := w.opt g.totalCompressed (fun w v => (w.fieldBegin 6 tI64).i64 v)
  w.structEnd

/-- `TypeDefinedOrder::write` (parquet_types.cpp:345-348). -/
def typeDefinedOrderWrite (w : TW) : TW := w.structBegin.structEnd

/-- `ColumnOrder::write` (parquet_types.cpp:350-356). -/
def columnOrderWrite (w : TW) : TW :=
  (typeDefinedOrderWrite (w.structBegin.fieldBegin 1 tStruct)).structEnd

/-- `FileMetaData::write` (parquet_types.cpp:358-415). -/
def FileMetaData.write (m : FileMetaData) (w : TW) : TW :=
  let w := w.structBegin
  let w := (w.fieldBegin 1 tI32).i32 m.version
  let w := (w.fieldBegin 2 tList).listBegin tStruct m.schema.length
  let w := m.schema.foldl (fun w e => e.write w) w
  let w := (w.fieldBegin 3 tI64).i64 m.numRows
  let w := (w.fieldBegin 4 tList).listBegin tStruct m.rowGroups.length
  let w := m.rowGroups.foldl (fun w g => g.write w) w
  let w := w.opt m.keyValues (fun w kvs =>
    kvs.foldl (fun w k => k.write w) ((w.fieldBegin 5 tList).listBegin tStruct kvs.length))
  let w := w.opt m.createdBy (fun w v => (w.fieldBegin 6 tBinary).bin v)
  let w := w.opt m.columnOrders (fun w n =>
    (List.replicate n ()).foldl (fun w _ => columnOrderWrite w) ((w.fieldBegin 7 tList).listBegin tStruct n))
  w.structEnd

end Vroom
