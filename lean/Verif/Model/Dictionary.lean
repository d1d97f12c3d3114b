import Verif.Model.Plain
/-
Model of dictionary encoding: /repo/src/writer/dictionary.cpp, /repo/src/encoding/plain.cpp:546-655,
/repo/src/writer/parquet_file.cpp:446-509.
-/
namespace Vroom

/-- Loop state of `create_*_dictionary*` (dictionary.cpp:97-155, 196-222, 262-288): the entries, the
hash map from value to index (as an association list), and the indices, `-1` for null. -/
structure DictState (T : Type) where
  dict : List T := []
  map : List (T × Int32) := []
  indices : List Int32 := []

/-- One iteration (dictionary.cpp:136-152). -/
def DictState.step {T : Type} [BEq T] (s : DictState T) (row : T × Bool) : DictState T :=
  if row.2 = false then { s with indices := s.indices ++ [-1] }
  else match s.map.lookup row.1 with
    | some i => { s with indices := s.indices ++ [i] }
    | none =>
      let i := Int32.ofNat s.dict.length
      { dict := s.dict ++ [row.1], map := (row.1, i) :: s.map, indices := s.indices ++ [i] }

/-- `create_string_dictionary`, `create_string_dictionary_arrow`, `create_int32_dictionary`,
`create_int64_dictionary`: `rows` are the values with their validity (dictionary.cpp:97-155, 196-222, 262-288). -/
def createDictionary {T : Type} [BEq T] (rows : List (T × Bool)) : List T × List Int32 :=
  let s := rows.foldl DictState.step {}
  (s.dict, s.indices)

/-- The rows of an Arrow string column as the loops read them (dictionary.cpp:60-70, 136-152). -/
def StrColumn.rows (c : StrColumn) : List (List UInt8 × Bool) :=
  (List.range c.values.size).map (fun i => (c.values.get i, c.nulls.isValid i))

/-- `unique_values.size()` (dictionary.cpp:60-70): distinct valid values. -/
def cardinality {T : Type} [BEq T] (rows : List (T × Bool)) : Nat :=
  (rows.foldl (fun (acc : List T) r => if r.2 then (if acc.contains r.1 then acc else r.1 :: acc) else acc) []).length

/-- `should_use_dictionary` (dictionary.cpp:73-89); `ratioLt` is the result of the floating-point
comparison `ratio < ratio_threshold`. -/
def shouldUseDictionary (card : Nat) (ratioLt : Bool) : Bool :=
  if card ≤ 16 then true
  else if card ≤ 256 ∧ ratioLt then true
  else if card ≤ 512 ∧ ratioLt then true
  else if card ≤ 2048 ∧ ratioLt then true
  else false

/-- `encode_dictionary_indices` (plain.cpp:570-655).  A negative `non_null_count` would wrap; see
`encodeFixedArrow`. -/
def encodeDictionaryIndices (indices : List Int32) (nulls : NullBitmap) (w : UInt8) : List UInt8 :=
  if indices.isEmpty then []
  else if indices.length = nulls.nullCountFast then []
  else w :: rleLoop w.toNat
    ((indices.zipIdx.filter (fun p => nulls.isValid p.2)).map (fun p => p.1.toUInt32))

/-- Bit width chosen by the writer (parquet_file.cpp:500-505). -/
def dictBitWidth (dictSize : Nat) : UInt8 :=
  let w := bitsRequired (if dictSize = 0 then 0 else UInt32.ofNat (dictSize - 1))
  if w = 0 then 1 else UInt8.ofNat w

end Vroom
