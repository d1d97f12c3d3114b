import Verif.Model.RowScan
/-
Model of the line splitter of the public API.
Sources: /repo/src/parser/split_fields.cpp:24-220, /repo/src/parser/split_fields-inl.h:21-322
(the "into" versions differ only in where the vector lives; 24-109 spells out inline what
PostProcessFieldInline does).
-/
namespace Vroom

/-- A `FieldView` (types.h): the viewed bytes and `quoted`. -/
structure FieldView where
  bytes : Bytes
  quoted : Bool
deriving DecidableEq, Repr

/-- Space or tab (split_fields.cpp:61-66, 100-105, 144-151). -/
def isBlank (c : UInt8) : Bool := c == 32 || c == 9
/-- LF or CR (split_fields.cpp:72, 86, 186, 199). -/
def isEolByte (c : UInt8) : Bool := c == LF || c == CR

/-- The two trimming loops (split_fields.cpp:58-66, 97-104; split_fields-inl.h:29-39). -/
def trimBlanks (s : Bytes) : Bytes := ((s.dropWhile isBlank).reverse.dropWhile isBlank).reverse

/-- The "remove trailing newline" loop (split_fields.cpp:83-86). -/
def dropEolEnd (s : Bytes) : Bytes := (s.reverse.dropWhile isEolByte).reverse

/-- `PostProcessField` (split_fields.cpp:136-155, split_fields-inl.h:21-40). -/
def postProcess (q : UInt8) (raw : Bytes) : FieldView :=
  if raw.length ≥ 2 ∧ raw.head? = some q ∧ raw.getLast? = some q then ⟨trimBlanks ((raw.drop 1).dropLast), true⟩
  else ⟨trimBlanks raw, false⟩

/-- The byte loop (split_fields.cpp:36-76, 168-189; also the tail loop of split_fields-inl.h:146-173) and
the last field (77-86).  `cur` is `data[field_start .. i)`; yields the raw fields. -/
def splitScalarGo (sep q : UInt8) (inq : Bool) (cur : Bytes) : Bytes → List Bytes
  | [] => [dropEolEnd cur]
  | c :: rest =>
    if c = q then
      match rest with
      | c' :: rest' =>
        if inq ∧ c' = q then splitScalarGo sep q inq (cur ++ [c, c']) rest'
        else splitScalarGo sep q (!inq) (cur ++ [c]) (c' :: rest')
      | [] => splitScalarGo sep q (!inq) (cur ++ [c]) []
    else if !inq then
      if c = sep then cur :: splitScalarGo sep q inq [] rest
      else if isEolByte c then [dropEolEnd (cur ++ c :: rest)]
      else splitScalarGo sep q inq (cur ++ [c]) rest
    else splitScalarGo sep q inq (cur ++ [c]) rest
termination_by r => r.length

/-- `split_fields_scalar` (split_fields.cpp:24-109) and `split_fields_scalar_into` (158-204). -/
def splitScalar (sep q : UInt8) (data : Bytes) : List FieldView :=
  if data.length = 0 then [] else (splitScalarGo sep q false [] data).map (postProcess q)

/-- `data[a .. b)` (split_fields-inl.h:110-141: a pointer and a length). -/
def between (data : Bytes) (a b : Nat) : Bytes := (data.drop a).take (b - a)

theorem clearLowest_lt (m : U64) (h : m ≠ 0#64) : (m &&& (m - 1#64)).toNat < m.toNat := by
  have h0 : m.toNat ≠ 0 := fun hz => h (BitVec.eq_of_toNat_eq (by simpa using hz))
  have h1 : (m - 1#64).toNat = m.toNat - 1 := by
    rw [BitVec.toNat_sub]
    have := m.isLt
    simp only [BitVec.toNat_ofNat]
    omega
  rw [BitVec.toNat_and, h1]
  have := Nat.and_le_right (n := m.toNat) (m := m.toNat - 1)
  omega

/-- The extraction loop over `valid_ends` (split_fields-inl.h:110-141): fields so far, `field_start`, and
whether a line end was met (`return fields`). -/
def simdExtract (data : Bytes) (pos : Nat) (m : U64) (fs : Nat) (acc : List Bytes) : List Bytes × Nat × Bool :=
  if h : m = 0#64 then (acc, fs, false)
  else
    let p := pos + m.ctz.toNat
    if data[p]? = some LF ∨ data[p]? = some CR then (acc ++ [between data fs p], fs, true)
    else simdExtract data pos (m &&& (m - 1#64)) (p + 1) (acc ++ [between data fs p])
termination_by m.toNat
decreasing_by exact clearLowest_lt m h

/-- `valid_ends` of one block (split_fields-inl.h:70-107) and the carried quote state. -/
def splitBlockMask (cpu : Cpu) (sep q : UInt8) (blk : Bytes) (prev : U64) : U64 × U64 :=
  let sepMask := blockMask cpu.lanes sep blk
  let eolMask := blockMask cpu.lanes LF blk ||| blockMask cpu.lanes CR blk
  let r := findQuoteMask cpu.pf.run (blockMask cpu.lanes q blk) prev
  ((sepMask ||| eolMask) &&& ~~~ r.1, r.2)

/-- The block loop and the tail (split_fields-inl.h:67-188). -/
def splitSimdGo (cpu : Cpu) (sep q : UInt8) (data : Bytes) (prev : U64) (pos fs : Nat) (acc : List Bytes) : List Bytes :=
  if pos + 64 ≤ data.length then
    let r := splitBlockMask cpu sep q ((data.drop pos).take 64) prev
    match simdExtract data pos r.1 fs acc with
    | (acc', _, true) => acc'
    | (acc', fs', false) => splitSimdGo cpu sep q data r.2 (pos + 64) fs' acc'
  else acc ++ splitScalarGo sep q (prev ≠ 0#64) (between data fs pos) (data.drop pos)
termination_by data.length - pos

/-- `split_fields_simd` (split_fields.cpp:112-115). -/
def splitSimd (cpu : Cpu) (sep q : UInt8) (data : Bytes) : List FieldView :=
  if data.length = 0 then [] else (splitSimdGo cpu sep q data 0#64 0 0 []).map (postProcess q)

/-- `split_fields` (split_fields.cpp:119-125). -/
def splitFieldsApi (cpu : Cpu) (sep q : UInt8) (data : Bytes) : List FieldView :=
  if data.length ≥ 64 then splitSimd cpu sep q data else splitScalar sep q data

end Vroom
