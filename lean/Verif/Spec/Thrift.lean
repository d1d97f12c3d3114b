import Verif.Spec.Parquet
import Verif.Model.Thrift
/-
The Thrift compact protocol as a reader sees it
(https://github.com/apache/thrift/blob/master/doc/specs/thrift-compact-protocol.md), and the Parquet
metadata structures as Thrift values with the field numbers of parquet.thrift.  The reader is written
independently of the writer.
-/
namespace Vroom.Thrift
open Vroom Vroom.Parquet

/-- Thrift values. -/
inductive TVal where
  | bool (b : Bool)
  | i32 (v : Int)
  | i64 (v : Int)
  | bin (bs : List UInt8)
  | list (elem : Nat) (vs : List TVal)
  | struct (fs : List (Int16 × TVal))

/-- Reading: the first argument bounds the recursion, it is set to a multiple of the input length by
`parse`.  A field header is one byte, the low nibble is the type; the high nibble is the difference of
the field number to the previous one (modulo 2^16), 0 meaning that the number follows as a zigzag
varint; type 0 ends the structure.  Booleans have their value in the type.  A list header has the
element type in the low nibble and the size in the high nibble, 15 meaning that it follows as varint. -/
def readVal : Nat → Nat → List UInt8 → Option (TVal × List UInt8)
  | 0, _, _ => none
  | n + 1, ty, bs =>
    if ty = 1 then some (.bool true, bs)
    else if ty = 2 then some (.bool false, bs)
    else if ty = 5 then (readVarint bs).map (fun p => (.i32 (unzigzag p.1), p.2))
    else if ty = 6 then (readVarint bs).map (fun p => (.i64 (unzigzag p.1), p.2))
    else if ty = 8 then
      match readVarint bs with
      | none => none
      | some (len, bs) => if bs.length < len then none else some (.bin (bs.take len), bs.drop len)
    else if ty = 9 then
      match bs with
      | [] => none
      | h :: bs =>
        let elem := h.toNat % 16
        match (if h.toNat / 16 = 15 then readVarint bs else some (h.toNat / 16, bs)) with
        | none => none
        | some (count, bs) => (readElems n elem count bs).map (fun p => (.list elem p.1, p.2))
    else if ty = 12 then (readFields n 0 bs).map (fun p => (.struct p.1, p.2))
    else none
where
  /-- `count` values of one type. -/
  readElems : Nat → Nat → Nat → List UInt8 → Option (List TVal × List UInt8)
    | 0, _, _, _ => none
    | _ + 1, _, 0, bs => some ([], bs)
    | n + 1, elem, count + 1, bs =>
      match readVal n elem bs with
      | none => none
      | some (v, bs) => (readElems n elem count bs).map (fun p => (v :: p.1, p.2))
  /-- The fields of a structure up to its stop byte; the second argument is the previous number. -/
  readFields : Nat → Int16 → List UInt8 → Option (List (Int16 × TVal) × List UInt8)
    | 0, _, _ => none
    | n + 1, last, bs =>
      match bs with
      | [] => none
      | h :: bs =>
        if h = 0 then some ([], bs)
        else
          let ty := h.toNat % 16
          match (if h.toNat / 16 = 0 then (readVarint bs).map (fun p => (Int16.ofInt (unzigzag p.1), p.2))
                 else some (last + Int16.ofNat (h.toNat / 16), bs)) with
          | none => none
          | some (id, bs) =>
            match readVal n ty bs with
            | none => none
            | some (v, bs) => (readFields n id bs).map (fun p => ((id, v) :: p.1, p.2))

/-- Read one structure from the front of a byte string. -/
def parse (bs : List UInt8) : Option (TVal × List UInt8) := readVal (2 * bs.length + 2) 12 bs

/-! ### parquet.thrift -/

/-- An optional field. -/
def fld {α : Type} (id : Int16) (x : Option α) (f : α → TVal) : List (Int16 × TVal) :=
  match x with
  | none => []
  | some a => [(id, f a)]

def i32 (v : Int32) : TVal := .i32 v.toInt
def i64 (v : Int64) : TVal := .i64 v.toInt

def statistics (s : PStatistics) : TVal := .struct <|
  fld 1 s.max .bin ++ fld 2 s.min .bin ++ fld 3 s.nullCount i64 ++ fld 4 s.distinctCount i64
    ++ fld 5 s.maxValue .bin ++ fld 6 s.minValue .bin

def schemaElement (e : SchemaElement) : TVal := .struct <|
  fld 1 e.type i32 ++ fld 2 e.typeLength i32 ++ fld 3 e.repetition i32 ++ [(4, .bin e.name)]
    ++ fld 5 e.numChildren i32 ++ fld 6 e.convertedType i32

def dataPageHeader (h : DataPageHeader) : TVal := .struct <|
  [(1, i32 h.numValues), (2, i32 h.encoding), (3, i32 h.defEncoding), (4, i32 h.repEncoding)]
    ++ fld 5 h.statistics statistics

def dictPageHeader (h : DictPageHeader) : TVal := .struct <|
  [(1, i32 h.numValues), (2, i32 h.encoding)] ++ fld 3 h.isSorted .bool

def pageHeader (h : PageHeader) : TVal := .struct <|
  [(1, i32 h.type), (2, i32 h.uncompressed), (3, i32 h.compressed)] ++ fld 4 h.crc i32
    ++ fld 5 h.dataPage dataPageHeader ++ fld 7 h.dictPage dictPageHeader

def keyValue (k : KeyValue) : TVal := .struct <| [(1, .bin k.key)] ++ fld 2 k.value .bin

def columnMetaData (m : ColumnMetaData) : TVal := .struct <|
  [(1, i32 m.type), (2, .list 5 (m.encodings.map i32)), (3, .list 8 (m.path.map .bin)), (4, i32 m.codec),
   (5, i64 m.numValues), (6, i64 m.totalUncompressed), (7, i64 m.totalCompressed), (9, i64 m.dataPageOffset)]
    ++ fld 11 m.dictPageOffset i64 ++ fld 12 m.statistics statistics

def columnChunk (c : ColumnChunk) : TVal := .struct <|
  fld 1 c.filePath .bin ++ [(2, i64 c.fileOffset)] ++ fld 3 c.metaData columnMetaData

def rowGroup (g : RowGroup) : TVal := .struct <|
  [(1, .list 12 (g.columns.map columnChunk)), (2, i64 g.totalByteSize), (3, i64 g.numRows)]
    ++ fld 5 g.fileOffset i64 ++ fld 6 g.totalCompressed i64

/-- The union `ColumnOrder` with its only variant `TYPE_ORDER`. -/
def columnOrder : TVal := .struct [(1, .struct [])]

def fileMetaData (m : FileMetaData) : TVal := .struct <|
  [(1, i32 m.version), (2, .list 12 (m.schema.map schemaElement)), (3, i64 m.numRows),
   (4, .list 12 (m.rowGroups.map rowGroup))]
    ++ fld 5 m.keyValues (fun kvs => .list 12 (kvs.map keyValue)) ++ fld 6 m.createdBy .bin
    ++ fld 7 m.columnOrders (fun n => .list 12 (List.replicate n columnOrder))

end Vroom.Thrift
