import Verif.Spec.Thrift
/-
A Parquet reader, written from the format description (parquet.thrift, "File format" and "Encodings"),
independently of the writer.  It covers what a flat table with one data page per column chunk needs.
External decompressors are a parameter `dec : codec → bytes → bytes`.
-/
namespace Vroom.Parquet
open Vroom.Thrift

/-- Field `id` of a structure. -/
def field (v : TVal) (id : Int16) : Option TVal :=
  match v with
  | .struct fs => fs.lookup id
  | _ => none

def asInt : TVal → Option Int
  | .i32 v => some v
  | .i64 v => some v
  | _ => none

def asBin : TVal → Option (List UInt8)
  | .bin b => some b
  | _ => none

def asList : TVal → Option (List TVal)
  | .list _ l => some l
  | _ => none

/-- Required integer field. -/
def int (v : TVal) (id : Int16) : Option Int := (field v id).bind asInt

/-- Required non-negative integer field. -/
def nat (v : TVal) (id : Int16) : Option Nat :=
  match int v id with
  | some n => if 0 ≤ n then some n.toNat else none
  | none => none

/-- Values as a reader sees them: fixed-width numbers as bit patterns, booleans, byte strings. -/
inductive Val where
  | num (bits : Nat)
  | bool (b : Bool)
  | bytes (bs : List UInt8)
deriving DecidableEq, Repr

/-- A page: its header, its body after decompression, and the number of bytes it occupies. -/
structure Page where
  header : TVal
  body : List UInt8
  size : Nat

/-- Read the page at position `off`: header, then `compressed_page_size` (field 3) bytes, which
decompress with the chunk's codec (0 = none) to `uncompressed_page_size` (field 2) bytes. -/
def readPage (dec : Int → List UInt8 → Option (List UInt8)) (codec : Int) (file : List UInt8) (off : Nat) : Option Page := do
  let (hdr, rest) ← parse (file.drop off)
  let comp ← nat hdr 3
  let unc ← nat hdr 2
  if rest.length < comp then none
  let body ← if codec = 0 then some (rest.take comp) else dec codec (rest.take comp)
  if body.length ≠ unc then none
  return { header := hdr, body := body, size := (file.drop off).length - rest.length + comp }

/-- `n` PLAIN values of a physical type: BOOLEAN 0, INT32 1, INT64 2, DOUBLE 5, BYTE_ARRAY 6. -/
def plainValues (ptype : Int) (n : Nat) (bs : List UInt8) : Option (List Val) :=
  if ptype = 0 then (if bs.length < (n + 7) / 8 then none else some ((plainBools n bs).map .bool))
  else if ptype = 1 then (plainFixed 4 n bs).map (fun p => p.1.map .num)
  else if ptype = 2 ∨ ptype = 5 then (plainFixed 8 n bs).map (fun p => p.1.map .num)
  else if ptype = 6 then (plainByteArrays n bs).map (fun p => p.1.map .bytes)
  else none

/-- Values of a data page: encoding PLAIN 0 or RLE_DICTIONARY 8. -/
def pageValues (ptype enc : Int) (dict : Option (List Val)) (n : Nat) (bs : List UInt8) : Option (List Val) :=
  if enc = 0 then plainValues ptype n bs
  else if enc = 8 then dict.bind (fun d => dictData d n bs)
  else none

/-- Put the values at the rows whose definition level is 1. -/
def spread : List Nat → List Val → Option (List (Option Val))
  | [], [] => some []
  | [], _ :: _ => none
  | 0 :: ls, vs => (spread ls vs).map (none :: ·)
  | (_ + 1) :: ls, v :: vs => (spread ls vs).map (some v :: ·)
  | (_ + 1) :: _, [] => none

/-- Rows of a data page body: definition levels first if the column is OPTIONAL (a page without rows
has none), then the values of the defined rows. -/
def pageRows (optional : Bool) (ptype enc : Int) (dict : Option (List Val)) (n : Nat) (body : List UInt8) :
    Option (List (Option Val)) :=
  if n = 0 then some []
  else if optional then do
    let (levels, rest) ← defLevels 1 n body
    let vals ← pageValues ptype enc dict (levels.count 1) rest
    spread levels vals
  else (pageValues ptype enc dict n body).map (·.map some)

/-- Read a column chunk given its ColumnMetaData.  Fields: type 1, codec 4, num_values 5,
total_compressed_size 7, data_page_offset 9, dictionary_page_offset 11.  Page header fields: type 1
(data 0, dictionary 2), data page header 5 (num_values 1, encoding 2, definition level encoding 3 which
must be RLE = 3), dictionary page header 7 (num_values 1, encoding 2).  The pages must fill exactly the
recorded extent, the dictionary page first. -/
def readChunk (dec : Int → List UInt8 → Option (List UInt8)) (file : List UInt8) (optional : Bool) (md : TVal) :
    Option (List (Option Val)) := do
  let ptype ← int md 1
  let codec ← int md 4
  let n ← nat md 5
  let total ← nat md 7
  let dataOff ← nat md 9
  let (dict, start) ←
    match field md 11 with
    | none => some (none, dataOff)
    | some o => do
      let off ← asInt o
      let page ← readPage dec codec file off.toNat
      if (← int page.header 1) ≠ 2 then none
      let ph ← field page.header 7
      let k ← nat ph 1
      if (← int ph 2) ≠ 0 then none
      let vals ← plainValues ptype k page.body
      if off.toNat + page.size ≠ dataOff then none
      some (some vals, off.toNat)
  let page ← readPage dec codec file dataOff
  if (← int page.header 1) ≠ 0 then none
  let ph ← field page.header 5
  if (← nat ph 1) ≠ n then none
  if (← int ph 3) ≠ 3 then none
  if dataOff + page.size ≠ start + total then none
  pageRows optional ptype (← int ph 2) dict n page.body

/-- A decoded row group: number of rows and the columns. -/
structure Group where
  numRows : Nat
  columns : List (List (Option Val))
deriving DecidableEq, Repr

/-- Leaf columns of the schema as (name, physical type, optional?). -/
def leaf (e : TVal) : Option (List UInt8 × Int × Bool) := do
  let name ← (field e 4).bind asBin
  let ptype ← int e 1
  let rep ← int e 3
  return (name, ptype, rep = 1)

/-- Read a row group: columns 1, num_rows 3; each column chunk has its metadata in field 3; its type and
path must agree with the schema. -/
def readGroup (dec : Int → List UInt8 → Option (List UInt8)) (file : List UInt8) (leaves : List (List UInt8 × Int × Bool))
    (g : TVal) : Option Group := do
  let n ← nat g 3
  let chunks ← (field g 1).bind asList
  if chunks.length ≠ leaves.length then none
  let cols ← (leaves.zip chunks).mapM (fun (lc : (List UInt8 × Int × Bool) × TVal) => do
    let md ← field lc.2 3
    if int md 1 ≠ some lc.1.2.1 then none
    let path ← (field md 3).bind asList
    if path.map asBin ≠ [some lc.1.1] then none
    let rows ← readChunk dec file lc.1.2.2 md
    if rows.length ≠ n then none
    return rows)
  return { numRows := n, columns := cols }

/-- Read a whole file: magic at both ends, footer length before the last magic, footer metadata before
it; schema 2 (root first), num_rows 3, row_groups 4. -/
def readFile (dec : Int → List UInt8 → Option (List UInt8)) (file : List UInt8) :
    Option (List (List UInt8 × Int × Bool) × List Group) := do
  let magic : List UInt8 := [80, 65, 82, 49]
  if file.length < 12 ∨ file.take 4 ≠ magic ∨ file.drop (file.length - 4) ≠ magic then none
  let len := leNat ((file.drop (file.length - 8)).take 4)
  if file.length < 12 + len then none
  let (md, rest) ← parse ((file.drop (file.length - 8 - len)).take len)
  if rest ≠ [] then none
  let schema ← (field md 2).bind asList
  match schema with
  | [] => none
  | root :: elems =>
    if nat root 5 ≠ some elems.length then none
    let leaves ← elems.mapM leaf
    let groups ← (field md 4).bind asList
    let gs ← groups.mapM (readGroup dec file leaves)
    if nat md 3 ≠ some (gs.map (·.numRows)).sum then none
    return (leaves, gs)

end Vroom.Parquet
