import Verif.Model.Dictionary
import Verif.Model.Compression
import Verif.Model.PageStats
import Verif.Model.Types
/-
The `std::vector` writer: pages, column chunks and row groups.
Source: /repo/src/writer/page_writer.cpp, /repo/src/writer/column_writer.cpp, /repo/src/writer/row_group.cpp
(functions with external linkage and no caller in the library; the `static` helpers of page_writer.cpp:230-258 are never called, even there).
`none` means that the C++ has no defined result: a bitmap entry beyond the end is read, or an exception is thrown.
-/
namespace Vroom

/-- The options of the column functions (column_writer.cpp:57-62): codec, level, whether dictionaries are wanted, and the two
floating-point comparisons of the dictionary analysis as functions of the number of distinct values and the number of values:
`ratio < ratio_threshold` (dictionary.cpp:38-46) and `ratio < ratio_threshold * 0.5` (dictionary.cpp:183-188, 249-254). -/
structure ChunkEnv where
  libs : Libs
  codec : Compression
  level : Int
  enableDictionary : Bool
  ratioLt : Nat → Nat → Bool
  strictLt : Nat → Nat → Bool

/-- The end of all page functions (page_writer.cpp:71-83, 102-111, 128-137, 153-162, 217-226): compress, keep what is smaller.
`pool` is the thread's compression buffer. -/
def shrinkPage (E : ChunkEnv) (pool page : List UInt8) : Option (List UInt8 × List UInt8) :=
  if E.codec = .none then some (page, pool)
  else
    match compressInto E.libs E.level E.codec pool page with
    | none => none
    | some (out, pool') => if out.length < page.length then some (out, pool') else some (page, pool')

/-- Definition levels, only if there are nulls (page_writer.cpp:54-65, 184-195; hybrid_rle.cpp:230-239). -/
def pageLevels (nulls : List Bool) : List UInt8 :=
  if nulls.any id then encodeDefLevelsHybrid nulls 1 (nulls.count true) else []

/-- `write_data_page` (page_writer.cpp:49-84); `num_values` and `encoding` are not used. -/
def writeDataPage (E : ChunkEnv) (pool data : List UInt8) (nulls : List Bool) : Option (List UInt8 × List UInt8) :=
  shrinkPage E pool (pageLevels nulls ++ data)

/-- `write_dictionary_page` (page_writer.cpp:87-112) -/
def writeStringDictPage (E : ChunkEnv) (pool : List UInt8) (dict : List (List UInt8)) : Option (List UInt8 × List UInt8) :=
  shrinkPage E pool (dict.flatMap lenPrefixed)

/-- `write_int32_dictionary_page` (page_writer.cpp:115-138) -/
def writeInt32DictPage (E : ChunkEnv) (pool : List UInt8) (dict : List Int32) : Option (List UInt8 × List UInt8) :=
  shrinkPage E pool (dict.flatMap (fun v => le4 v.toUInt32))

/-- `write_int64_dictionary_page` (page_writer.cpp:141-163) -/
def writeInt64DictPage (E : ChunkEnv) (pool : List UInt8) (dict : List Int64) : Option (List UInt8 × List UInt8) :=
  shrinkPage E pool (dict.flatMap (fun v => le8 v.toUInt64))

/-- `bits_required_internal` (page_writer.cpp:166-175); the loop is that of `bits_required`. -/
def bitsRequiredInternal (v : UInt32) : Nat := if v = 0 then 1 else bitsRequired v

/-- The rows a loop over `values` sees: `null_bitmap.empty() || !null_bitmap[i]` (column_writer.cpp:115-119, 192-196, 241-245, 363-367, dictionary.cpp:24-28, 104-122,
170-174, 202-221, page_writer.cpp:207-211).  A bitmap that is present but shorter than the values is read beyond its end. -/
def loopRows {T : Type} (values : List T) (nulls : List Bool) : Option (List (T × Bool)) :=
  if nulls = [] then some (values.map (fun v => (v, true)))
  else if nulls.length < values.length then none
  else some (values.zip (nulls.map (fun b => !b)))

/-- The rows that are not null (page_writer.cpp:207-211). -/
def keptRows {T : Type} (rows : List (T × Bool)) : List T := (rows.filter (·.2)).map (·.1)

/-- Bit width of the indices (page_writer.cpp:198-199). -/
def indexWidth (dictSize : Nat) : Nat := if dictSize > 0 then bitsRequiredInternal (UInt32.ofNat (dictSize - 1)) else 1

/-- `write_dictionary_data_page` (page_writer.cpp:178-227) -/
def writeDictDataPage (E : ChunkEnv) (pool : List UInt8) (indices : List Int32) (nulls : List Bool) (dictSize : Nat) : Option (List UInt8 × List UInt8) :=
  match loopRows indices nulls with
  | none => none
  | some rows =>
    let w := indexWidth dictSize
    shrinkPage E pool (pageLevels nulls ++ UInt8.ofNat w :: encodeHybridRle w ((keptRows rows).map Int32.toUInt32))

/-- `ColumnChunkData` (column_writer.cpp:44-54); counters as natural numbers; `Encoding::PLAIN = 0`, `Encoding::DICTIONARY = 4` (types.h:103-109). -/
structure ChunkRecord where
  data : List UInt8 := []
  totalCompressed : Nat := 0
  totalUncompressed : Nat := 0
  numValues : Nat := 0
  nullCount : Nat := 0
  type : DataType
  statistics : ColStats := {}
  usesDictionary : Bool := false
  encoding : Nat := 0
deriving DecidableEq, Repr

/-- What differs between the five column functions (column_writer.cpp:57-396). -/
structure ColKind (T : Type) where
  type : DataType
  /-- `null_count` and statistics when the caller gives none -/
  computed : List T → List Bool → Nat × ColStats
  /-- whether `reserve(values.size() - null_count)` is called -/
  reserves : Bool
  /-- whether the analysis (of the number of distinct values and the number of values) asks for a dictionary -/
  useDict : ChunkEnv → Nat → Nat → Bool
  /-- the dictionary page -/
  dictPage : ChunkEnv → List UInt8 → List T → Option (List UInt8 × List UInt8)
  /-- the PLAIN values of the kept rows, from the values, the bitmap and the kept rows -/
  plain : List T → List Bool → List T → Option (List UInt8)

/-- The null count and the statistics of the record (column_writer.cpp:66-82, 144-159, 222-237, 279-288, 343-358): the caller's, if given, as they are. -/
def chunkStats {T : Type} (k : ColKind T) (values : List T) (nulls : List Bool) : Option ColStats → Nat × ColStats
  | some s => (s.nullCount, s)
  | none => k.computed values nulls

/-- `write_int32_column`, `write_int64_column`, `write_float64_column`, `write_string_column`, `write_bool_column` (column_writer.cpp:57-396).
`pre` are the caller's statistics; `page_size` is not used; `size_t` arithmetic in `reserve` wraps and the call throws if there are fewer values than nulls. -/
def writeColumn {T : Type} [BEq T] (k : ColKind T) (E : ChunkEnv) (pool : List UInt8) (values : List T) (nulls : List Bool) (pre : Option ColStats) :
    Option (ChunkRecord × List UInt8) :=
  let st := chunkStats k values nulls pre
  let r : ChunkRecord := { type := k.type, numValues := values.length, nullCount := st.1, statistics := st.2 }
  match loopRows values nulls with
  | none => none
  | some rows =>
    if E.enableDictionary && !values.isEmpty && k.useDict E (cardinality rows) values.length then
      let d := createDictionary rows
      match k.dictPage E pool d.1 with
      | none => none
      | some (dictPage, pool1) =>
        match writeDictDataPage E pool1 d.2 nulls d.1.length with
        | none => none
        | some (dataPage, pool2) =>
          some ({ r with data := dictPage ++ dataPage, totalCompressed := (dictPage ++ dataPage).length, totalUncompressed := (dictPage ++ dataPage).length,
                         usesDictionary := true, encoding := 4 }, pool2)
    else if k.reserves && decide (values.length < st.1) then none
    else
      match k.plain values nulls (keptRows rows) with
      | none => none
      | some encoded =>
        match writeDataPage E pool encoded nulls with
        | none => none
        | some (page, pool1) => some ({ r with data := page, totalCompressed := page.length, totalUncompressed := encoded.length, encoding := 0 }, pool1)

/-- The statistics copied from a `Statistics` object (column_writer.cpp:75-81, 152-158, 230-236, 351-357). -/
def statsOut {α : Type} (inj : α → StatVal) (s : Stats α) : Nat × ColStats :=
  (s.nulls, { hasNull := decide (0 < s.nulls), nullCount := s.nulls, min := if s.has then inj s.min else .none, max := if s.has then inj s.max else .none })

/-- `analyze_int32_dictionary`, `analyze_int64_dictionary` (dictionary.cpp:158-192, 225-258). -/
def intDictWanted (strictLt : Bool) (card : Nat) : Bool := if card ≤ 16 then true else decide (card ≤ 256) && strictLt

/-- `write_int32_column` (column_writer.cpp:57-132); `lanes` is Highway's vector length. -/
def int32Kind (lanes : Nat) : ColKind Int32 where
  type := .int32
  computed := fun vs ns => statsOut (fun v => .i32 (Int32.ofInt v)) (Stats.updateBatchNullsInt (intOps lanes) (Stats.new 0) (vs.map Int32.toInt) ns)
  reserves := true
  useDict := fun E card total => intDictWanted (E.strictLt card total) card
  dictPage := writeInt32DictPage
  plain := fun _ _ kept => encodeFixedLegacy 4 (fun (v : Int32) => le4 v.toUInt32) kept []

/-- `write_int64_column` (column_writer.cpp:136-210) -/
def int64Kind (lanes : Nat) : ColKind Int64 where
  type := .int64
  computed := fun vs ns => statsOut (fun v => .i64 (Int64.ofInt v)) (Stats.updateBatchNullsInt (intOps lanes) (Stats.new 0) (vs.map Int64.toInt) ns)
  reserves := true
  useDict := fun E card total => intDictWanted (E.strictLt card total) card
  dictPage := writeInt64DictPage
  plain := fun _ _ kept => encodeFixedLegacy 8 (fun (v : Int64) => le8 v.toUInt64) kept []

/-- `write_float64_column` (column_writer.cpp:214-267), both overloads; doubles by their bits; never a dictionary. -/
def float64Kind (hmin hmax : UInt64 → UInt64 → UInt64) (lanes : Nat) : ColKind UInt64 where
  type := .float64
  computed := fun vs ns => statsOut (fun v => .f64 v) (Stats.updateBatchNullsFloat (f64Ops hmin hmax lanes) (Stats.new 0) vs ns)
  reserves := true
  useDict := fun _ _ _ => false
  dictPage := fun _ _ _ => none
  plain := fun _ _ kept => encodeFixedLegacy 8 le8 kept []

/-- `write_string_column` (column_writer.cpp:270-331): without the caller's statistics the nulls of the bitmap are counted and the statistics stay empty;
`encode_byte_array_plain` skips nulls itself. -/
def stringKind : ColKind (List UInt8) where
  type := .string
  computed := fun _ ns => (ns.count true, {})
  reserves := false
  useDict := fun E card total => shouldUseDictionary card (E.ratioLt card total)
  dictPage := writeStringDictPage
  plain := fun vs ns _ => encodeByteArrayLegacy vs ns

/-- `write_bool_column` (column_writer.cpp:335-396), both overloads; never a dictionary. -/
def boolKind : ColKind Bool where
  type := .bool
  computed := fun vs ns =>
    let s := BoolStats.updateBatchNulls {} vs ns
    (s.nulls, { hasNull := decide (0 < s.nulls), nullCount := s.nulls, min := if s.has then .bool s.min else .none, max := if s.has then .bool s.max else .none })
  reserves := true
  useDict := fun _ _ _ => false
  dictPage := fun _ _ _ => none
  plain := fun _ _ kept => packBools (List.replicate ((kept.length + 7) / 8) 0) 0 kept

/-- `RowGroupMetadata` (row_group.cpp:7-12). -/
structure RowGroupMeta where
  totalByteSize : Nat := 0
  numRows : Nat := 0
  offsets : List Nat := []
  sizes : List Nat := []
deriving DecidableEq, Repr

/-- `build_row_group` (row_group.cpp:16-41): `sizes` are the row counts of the column builders; the column loop does not write (the source calls it a placeholder). -/
def buildRowGroup (sizes : List Nat) (output : List UInt8) : RowGroupMeta × List UInt8 :=
  match sizes with
  | [] => ({}, output)
  | first :: _ =>
    sizes.foldl (fun (s : RowGroupMeta × List UInt8) _ =>
      let start := s.2.length
      let size := s.2.length - start
      ({ s.1 with offsets := s.1.offsets ++ [start], sizes := s.1.sizes ++ [size], totalByteSize := s.1.totalByteSize + size }, s.2))
      ({ numRows := first }, output)

end Vroom
