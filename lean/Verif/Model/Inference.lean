import Verif.Model.Types
import Verif.Model.Reader
import Verif.Model.Dates
/-
Model of type inference.
Source: /repo/src/schema/type_inference.cpp
-/
namespace Vroom

/-- Options read by type inference (options.h:14-30) and the external float test. -/
structure InferCfg where
  cpu : Cpu
  sep : UInt8
  quote : UInt8
  hasHeader : Bool
  nullValues : Bytes
  trueValues : Bytes
  falseValues : Bytes
  /-- "fast_float::from_chars consumes the whole field" (type_inference.cpp:95-100); external library -/
  isFloat : Bytes → Bool

/-- Search loop over a comma-separated list (type_inference.cpp:17-27, 30-40, 42-52); `rest` is the list from
`start`. -/
def listHas (v : Bytes) (rest : Bytes) : Bool :=
  if rest.length = 0 then false
  else
    let e := findComma rest
    if v = rest.take e then true else listHas v (rest.drop (e + 1))
termination_by rest.length
decreasing_by simp; omega

/-- 32-bit range loop (type_inference.cpp:77-86): `none` = overflow. -/
def fits32 : Nat → Bytes → Option Nat
  | val, [] => some val
  | val, b :: bs =>
    let val := val * 10 + (b.toNat - 48)
    if val > 2147483647 then none else fits32 val bs

/-- Integer classification (type_inference.cpp:54-93): `none` = not an integer. -/
def inferInt (v : Bytes) : Option DataType :=
  let signed := v.head? = some 45 ∨ v.head? = some 43
  let ds := if signed then v.drop 1 else v
  if ds ≠ [] ∧ ds.all isDigitB then
    if v.length ≤ 10 then
      match fits32 0 ds with
      | some val => if v.head? ≠ some 45 ∨ val ≤ 2147483648 then some .int32 else some .int64
      | none => some .int64
    else some .int64
  else none

/-- Date shape test (type_inference.cpp:102-114). -/
def dateShape : Bytes → Bool
  | [y1, y2, y3, y4, s1, m1, m2, s2, d1, d2] =>
    (s1 == 45 || s1 == 47) && s2 == s1 && [y1, y2, y3, y4, m1, m2, d1, d2].all isDigitB
  | _ => false

/-- Timestamp shape test (type_inference.cpp:116-133). -/
def timestampShape : Bytes → Bool
  | _ :: _ :: _ :: _ :: s1 :: _ :: _ :: s2 :: _ :: _ :: tee :: h1 :: h2 :: c1 :: n1 :: n2 :: c2 :: e1 :: e2 :: _ =>
    (s1 == 45 || s1 == 47) && s2 == s1 && (tee == 84 || tee == 32) && c1 == 58 && c2 == 58 &&
      [h1, h2, n1, n2, e1, e2].all isDigitB
  | _ => false

/-- `TypeInference::infer_field` (type_inference.cpp:10-137). -/
def inferField (cfg : InferCfg) (v : Bytes) : DataType :=
  if v = [] then .na
  else if listHas v cfg.nullValues then .na
  else if listHas v cfg.trueValues then .bool
  else if listHas v cfg.falseValues then .bool
  else match inferInt v with
    | some t => t
    | none =>
      if cfg.isFloat v then .float64
      else if dateShape v then .date
      else if timestampShape v then .timestamp
      else .string

/-- Removal of trailing blanks (type_inference.cpp:178-181, 194-197, 210-213). -/
def trimRight (f : Bytes) : Bytes := (f.reverse.dropWhile (fun b => b == 32 || b == 9)).reverse

/-- Field loop over one sampled row (type_inference.cpp:168-215). The moved-from `current_field` after a
newline is taken to be empty (libstdc++/libc++ behaviour). -/
def sampleRow (sep q : UInt8) (inq : Bool) (cur : Bytes) (fields : List Bytes) : Bytes → List Bytes
  | [] => if cur ≠ [] then fields ++ [trimRight cur] else fields
  | c :: rest =>
    if c = LF ∨ c = CR then fields ++ [trimRight cur]
    else if c = q then
      match rest with
      | d :: rest' =>
        if inq ∧ d = q then sampleRow sep q inq (cur ++ [q]) fields rest'
        else sampleRow sep q (!inq) cur fields (d :: rest')
      | [] => sampleRow sep q (!inq) cur fields []
    else if c = sep ∧ inq = false then sampleRow sep q inq [] (fields ++ [trimRight cur]) rest
    else if cur = [] ∧ inq = false ∧ (c = 32 ∨ c = 9) then sampleRow sep q inq cur fields rest
    else sampleRow sep q inq (cur ++ [c]) fields rest
termination_by l => l.length
decreasing_by all_goals (simp; try omega)

/-- Column update for one row (type_inference.cpp:217-221). -/
def updateTypes (cfg : InferCfg) (types : List DataType) (fields : List Bytes) : List DataType :=
  types.mapIdx (fun col t => match fields[col]? with | some f => widerType t (inferField cfg f) | none => t)

/-- Row sampling loop (type_inference.cpp:158-225). Fuel `size + 1` suffices (each round advances). -/
def sampleLoop (cfg : InferCfg) (data : Bytes) (maxRows : Nat) : Nat → Nat → Nat → List DataType → List DataType
  | 0, _, _, types => types
  | fuel + 1, offset, rows, types =>
    if offset < data.length ∧ rows < maxRows then
      let rowEnd := findRowEnd cfg.cpu cfg.quote data offset
      if rowEnd - offset = 0 then sampleLoop cfg data maxRows fuel (offset + 1) rows types
      else
        let fields := sampleRow cfg.sep cfg.quote false [] [] ((data.drop offset).take (rowEnd - offset))
        sampleLoop cfg data maxRows fuel rowEnd (rows + 1) (updateTypes cfg types fields)
    else types

/-- `TypeInference::infer_from_sample` (type_inference.cpp:139-235). -/
def inferFromSample (cfg : InferCfg) (data : Bytes) (nCols maxRows : Nat) : List DataType :=
  let types := List.replicate nCols DataType.unknown
  if data.length = 0 ∨ nCols = 0 then types
  else
    let offset := if cfg.hasHeader then findRowEnd cfg.cpu cfg.quote data 0 else 0
    (sampleLoop cfg data maxRows (data.length + 1) offset 0 types).map
      (fun t => if t = .unknown then .string else t)

/-- How `CsvReader::open` calls it: on the data after the header row
(csv_reader.cpp:302-305, 374-384, identically 420-…). -/
def openInfer (cfg : InferCfg) (file : Bytes) (nCols maxRows : Nat) : List DataType :=
  let headerEnd := if cfg.hasHeader then findRowEnd cfg.cpu cfg.quote file 0 else 0
  inferFromSample cfg (file.drop headerEnd) nCols maxRows

end Vroom
