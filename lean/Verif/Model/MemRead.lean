import Verif.Model.MemScan
import Verif.Model.Open
/-
Memory-level model of reading: the field iterator, the row loops, opening a file and the parallel read, with
every load checked.
Sources: /repo/include/libvroom/split_fields.h, /repo/src/reader/csv_reader.cpp, /repo/src/parser/line_parser.cpp,
/repo/src/schema/type_inference.cpp.

A pointer is the part of the allocation at and after it (`p.drop n` is `p + n`); offsets are never negative in the
code modelled here.  `none` is a load outside the allocation, a shift by 64, a size that wraps below zero, or (only
where a definition says so) a loop that has not ended.
-/
namespace Vroom.Mem
open Vroom

/-- `SplitFields` (split_fields.h:156-164). -/
structure It where
  v : Bytes
  rem : Nat
  finished : Bool := false
  cache : U64 := 0#64

/-- Scalar loop of `scan_quoted_field` (split_fields.h:228-240); `i` counts from `v_`. -/
def quotedTailM (D : Dial) (p : Bytes) (rem : Nat) (inField : Bool) (i : Nat) : Option Nat :=
  if i < rem then
    (ld p i).bind fun c =>
      let inField := if c = D.quote then !inField else inField
      if !inField && eofEol D c then some i else quotedTailM D p rem inField (i + 1)
  else some rem
termination_by rem - i

/-- `scan_quoted_field` (split_fields.h:189-241). -/
def quotedM (t : Target) (D : Dial) (p : Bytes) (rem : Nat) (cache : U64) (notInField : Bool) (total : Nat) : Option (Nat × U64) :=
  if rem - total > 64 then
    (blockMaskM t p total D.sep).bind fun sepMask =>
    (blockMaskM t p total D.eol).bind fun eolMask =>
    (blockMaskM t p total D.quote).bind fun quoteMask =>
    let endMask := sepMask ||| eolMask
    let nq := t.pf.run quoteMask
    let nq := if notInField then ~~~nq else nq
    let notInField' : Bool := nq &&& (1#64 <<< 63) ≠ 0#64
    let endMask := endMask &&& nq
    if endMask ≠ 0#64 then
      let pos := endMask.ctz.toNat
      some (total + pos, if pos = 63 then 0#64 else endMask >>> (pos + 1))
    else quotedM t D p rem cache notInField' (total + 64)
  else (quotedTailM D p rem (!notInField) total).map fun n => (n, cache)
termination_by rem - total

/-- Scalar loop of `scan_unquoted_field` (split_fields.h:270-278). -/
def unquotedTailM (D : Dial) (p : Bytes) (rem : Nat) (i : Nat) : Option Nat :=
  if i < rem then (ld p i).bind fun c => if eofEol D c then some i else unquotedTailM D p rem (i + 1)
  else some rem
termination_by rem - i

/-- `scan_unquoted_field` (split_fields.h:243-279); the vectors loaded by `scan_for_two_chars` are loaded twice here. -/
def unquotedM (t : Target) (D : Dial) (p : Bytes) (rem : Nat) (cache : U64) (total : Nat) : Option (Nat × U64) :=
  if rem - total > 64 then
    (blockMaskM t p total D.sep).bind fun sepMask =>
    (blockMaskM t p total D.eol).bind fun eolMask =>
    let endMask := sepMask ||| eolMask
    if endMask ≠ 0#64 then
      let pos := endMask.ctz.toNat
      some (total + pos, if pos = 63 then 0#64 else endMask >>> (pos + 1))
    else unquotedM t D p rem cache (total + 64)
  else (unquotedTailM D p rem total).map fun n => (n, cache)
termination_by rem - total

/-- A field view: pointer, length, `needs_escaping` (split_fields.h:98-119: the out parameters of `next`). -/
structure View where
  p : Bytes
  len : Nat
  needs : Bool

/-- `v_[pos]`, then `v_ += pos + 1; remaining_ -= pos + 1` (split_fields.h:104-119, 136-149, 168-177). -/
def It.emitM (s : It) (D : Dial) (pos : Nat) (needs : Bool) (cache : U64) : Option (Option (View × It)) :=
  (ld s.v pos).bind fun c =>
    if s.rem < pos + 1 then none
    else some (some (⟨s.v, pos, needs⟩, ⟨s.v.drop (pos + 1), s.rem - (pos + 1), c == D.eol, cache⟩))

/-- `SplitFields::next` (split_fields.h:98-150): `some none` is `false`. -/
def It.nextM (t : Target) (D : Dial) (s : It) (stale : Bool) : Option (Option (View × It)) :=
  if s.finished then some none
  else if s.cache ≠ 0#64 then
    let pos := s.cache.ctz.toNat
    if pos + 1 ≥ 64 then none
    else
      (if D.quote ≠ 0 ∧ s.rem > 0 then (ld s.v 0).map (· == D.quote) else some false).bind fun needs =>
        s.emitM D pos needs (s.cache >>> (pos + 1))
  else if s.rem = 0 then some (some (⟨s.v, 0, stale⟩, ⟨s.v, 0, true, s.cache⟩))
  else
    (if D.quote ≠ 0 then (ld s.v 0).map (· == D.quote) else some false).bind fun needs =>
      (if needs then quotedM t D s.v s.rem s.cache true 0 else unquotedM t D s.v s.rem s.cache 0).bind fun r =>
        if r.1 ≥ s.rem then some (some (⟨s.v, s.rem, needs⟩, ⟨s.v.drop s.rem, 0, true, r.2⟩))
        else s.emitM D r.1 needs r.2

/-- The caller's loop over the fields (csv_reader.cpp:208-237, 783-812): the views, and the iterator at the end.
`none` also for more than `fuel` calls. -/
def It.collectM (t : Target) (D : Dial) : Nat → It → Bool → Option (List View × It)
  | 0, _, _ => none
  | fuel + 1, s, stale =>
    (s.nextM t D stale).bind fun r =>
      match r with
      | none => some ([], s)
      | some (f, s') => (It.collectM t D fuel s' f.needs).map (fun r => (f :: r.1, r.2))

/-- `field_len > 0 && field_data[field_len - 1] == '\r'` (csv_reader.cpp:210-212, 785-787). -/
def stripCRM (p : Bytes) (len : Nat) : Option Nat :=
  if len > 0 then (ld p (len - 1)).map fun c => if c = CR then len - 1 else len else some len

/-- The body of the field loop for a column that exists (csv_reader.cpp:209-235, 784-810): the null check and the
append read the whole view. -/
def cellM (nc : NullChecker) (q : UInt8) (w : View) : Option Cell :=
  (stripCRM w.p w.len).bind fun len =>
  (ldVec w.p 0 len).bind fun f =>
  if nc.isNull f then some .null
  else if w.needs then
    (if len ≥ 2 then
      (ld w.p 0).bind fun a => if a = q then (ld w.p (len - 1)).map (· == q) else some false
    else some false).bind fun outer =>
      if outer then (ldVec w.p 1 (len - 2)).map fun v => .text (unescapeQuotes v q)
      else some (.text (unescapeQuotes f q))
  else some (.text f)

/-- `fieldStep` on views; a surplus field is only looked at for its trailing CR (csv_reader.cpp:209-219). -/
def fieldsM (nc : NullChecker) (q : UInt8) (n : Nat) (cols : Cols) (idx : Nat) : List View → Option (Cols × Nat)
  | [] => some (cols, idx)
  | w :: ws =>
    if idx ≥ n then (stripCRM w.p w.len).bind fun _ => fieldsM nc q n cols (idx + 1) ws
    else (cellM nc q w).bind fun c => fieldsM nc q n (Cols.push cols idx c) (idx + 1) ws

/-- Skip empty lines (csv_reader.cpp:179-194, 754-769). -/
def skipBlankM (p : Bytes) (size i : Nat) : Option Nat :=
  if i < size then
    (ld p i).bind fun c =>
      if c = LF then skipBlankM p size (i + 1)
      else if c = CR then
        (peekEq p size (i + 1) LF).bind fun nl => skipBlankM p size (if nl then i + 2 else i + 1)
      else some i
  else some i
termination_by size - i
decreasing_by all_goals (try split) <;> omega

/-- Row loop (csv_reader.cpp:178-247, 753-821). `none` also for more than `fuel` rows. -/
def parseRowsM (t : Target) (cfg : ReadCfg) (p : Bytes) (size : Nat) : Nat → Cols → Nat → Nat → Option (Cols × Nat)
  | 0, _, _, _ => none
  | fuel + 1, cols, rows, offset =>
    if offset < size then
      (skipBlankM p size offset).bind fun offset =>
        if offset ≥ size then some (cols, rows)
        else
          (It.collectM t cfg.dial (size - offset + 2) ⟨p.drop offset, size - offset, false, 0#64⟩ cfg.junk).bind fun r =>
            (fieldsM cfg.nc cfg.quote cols.length cols 0 r.1).bind fun st =>
              parseRowsM t cfg p size fuel (fillNulls cols.length st.1 st.2) (rows + 1) (offset + (size - offset - r.2.rem))
    else some (cols, rows)

/-- First half of the partial-row skip (csv_reader.cpp:135-149): `in_quote`, offset. -/
def skipToCloseM (p : Bytes) (size : Nat) (q : UInt8) (i : Nat) : Option (Bool × Nat) :=
  if i < size then
    (ld p i).bind fun c =>
      if c = q then (peekEq p size (i + 1) q).bind fun esc => if esc then skipToCloseM p size q (i + 2) else some (false, i + 1)
      else skipToCloseM p size q (i + 1)
  else some (true, i)
termination_by size - i

/-- Second half (csv_reader.cpp:152-169). -/
def skipPartialRowM (p : Bytes) (size : Nat) (q : UInt8) (inq : Bool) (i : Nat) : Option Nat :=
  if i < size then
    (ld p i).bind fun c =>
      if c = q then
        (if inq then peekEq p size (i + 1) q else some false).bind fun esc =>
          if esc then skipPartialRowM p size q inq (i + 2) else skipPartialRowM p size q (!inq) (i + 1)
      else if inq = false ∧ (c = LF ∨ c = CR) then
        if c = CR then (peekEq p size (i + 1) LF).map fun nl => if nl then i + 2 else i + 1
        else some (i + 1)
      else skipPartialRowM p size q inq (i + 1)
  else some i
termination_by size - i

/-- `parse_chunk_with_state` (csv_reader.cpp:113-252). -/
def parseChunkM (t : Target) (cfg : ReadCfg) (n : Nat) (startInside : Bool) (p : Bytes) (size : Nat) : Option (Cols × Nat) :=
  let cols : Cols := List.replicate n []
  if size = 0 ∨ n = 0 then some (cols, 0)
  else
    (if startInside then
      (skipToCloseM p size cfg.quote 0).bind fun r => skipPartialRowM p size cfg.quote r.1 r.2
    else some 0).bind fun offset => parseRowsM t cfg p size (size + 1) cols 0 offset

/-- `read_all_serial` (csv_reader.cpp:716-828): `data` and `size` of the whole file, rows from `dataStart`. -/
def readSerialM (t : Target) (cfg : ReadCfg) (n : Nat) (m : Bytes) (size dataStart : Nat) : Option ReadResult :=
  if n = 0 then some { chunks := [], totalRows := 0, rowCount := 0 }
  else
    (parseRowsM t cfg m size (size - dataStart + 1) (List.replicate n []) 0 dataStart).map (fun r =>
      { chunks := [r.1], totalRows := ((r.1[0]?).getD []).length, rowCount := ((r.1[0]?).getD []).length })

/-- The loop that looks for a row end past a stuck target (csv_reader.cpp:556-560). -/
def unstickM (rowEnd : Nat → Option Nat) (size chunkSize : Nat) : Nat → Nat → Nat → Option Nat
  | 0, _, _ => none
  | fuel + 1, target, chunkEnd =>
    if chunkEnd = target ∧ chunkEnd < size then
      let target' := min (target + chunkSize) size
      (rowEnd target').bind fun e => unstickM rowEnd size chunkSize fuel target' e
    else some chunkEnd

/-- The chunk boundary loop of `read_all` (csv_reader.cpp:539-566). -/
def chunkRangesGoM (rowEnd : Nat → Option Nat) (size chunkSize : Nat) : Nat → Nat → Option (List (Nat × Nat))
  | 0, _ => none
  | fuel + 1, offset =>
    if offset < size then
      let target := min (offset + chunkSize) size
      (if target ≥ size then some size
        else (rowEnd target).bind fun e => unstickM rowEnd size chunkSize (size + 1) target e).bind fun chunkEnd =>
          (chunkRangesGoM rowEnd size chunkSize fuel chunkEnd).map ((offset, chunkEnd) :: ·)
    else some []

/-- `data + start_offset, end_offset - start_offset` (csv_reader.cpp:608-609, 679-680). -/
def sliceM (m : Bytes) (r : Nat × Nat) : Option (Bytes × Nat) := if r.1 ≤ r.2 ∧ r.1 ≤ m.length then some (m.drop r.1, r.2 - r.1) else none

/-- Phases 1-4 of `read_all` (csv_reader.cpp:591-712) on byte ranges of the file. -/
def readChunksM (t : Target) (cfg : ReadCfg) (n : Nat) (m : Bytes) (ranges : List (Nat × Nat)) : Option ReadResult :=
  (ranges.mapM (fun r => (sliceM m r).bind fun x => analyzeDualM t x.1 x.2 cfg.quote)).bind fun as =>
  let use := linkStates false as
  ((ranges.zip use).mapM (fun x => (sliceM m x.1).bind fun y => parseChunkM t cfg n x.2 y.1 y.2)).map fun parsed =>
    { chunks := parsed.map Prod.fst, totalRows := (parsed.map Prod.snd).sum, rowCount := totalRowCount use as }

/-- `read_all` (csv_reader.cpp:516-713) for a given chunk size and parallel threshold. -/
def readAllM (t : Target) (cfg : ReadCfg) (n threshold chunkSize : Nat) (m : Bytes) (size dataStart : Nat) : Option ReadResult :=
  if n = 0 then some { chunks := [], totalRows := 0, rowCount := 0 }
  else if size - dataStart < threshold then readSerialM t cfg n m size dataStart
  else
    (chunkRangesGoM (findRowEndM t m size cfg.quote) size chunkSize (size + 1) dataStart).bind fun ranges =>
      if ranges.length ≤ 1 then readSerialM t cfg n m size dataStart
      else readChunksM t cfg n m ranges

/-- Character loop of `parse_header` (line_parser.cpp:44-91). -/
def headerGoM (p : Bytes) (size : Nat) (sep q : UInt8) (inq : Bool) (cur : Bytes) (hs : List Bytes) (i : Nat) : Option (List Bytes) :=
  if i < size then
    (ld p i).bind fun c =>
      if inq = false ∧ (c = LF ∨ c = CR) then some (hs ++ [trimRight cur])
      else if c = q then
        (if inq then peekEq p size (i + 1) q else some false).bind fun esc =>
          if esc then headerGoM p size sep q inq (cur ++ [q]) hs (i + 2)
          else headerGoM p size sep q (!inq) cur hs (i + 1)
      else if c = sep ∧ inq = false then headerGoM p size sep q inq [] (hs ++ [trimRight cur]) (i + 1)
      else if cur = [] ∧ inq = false ∧ (c = 32 ∨ c = 9) then headerGoM p size sep q inq cur hs (i + 1)
      else headerGoM p size sep q inq (cur ++ [c]) hs (i + 1)
  else some (if cur ≠ [] ∨ hs = [] then hs ++ [trimRight cur] else hs)
termination_by size - i

/-- `LineParser::parse_header` (line_parser.cpp:33-94). -/
def parseHeaderM (p : Bytes) (size : Nat) (sep q : UInt8) : Option (List Bytes) :=
  if size = 0 then some [] else headerGoM p size sep q false [] [] 0

/-- Counting loop for files without header (csv_reader.cpp:343-356). -/
def countColsM (p : Bytes) (size : Nat) (sep q : UInt8) (inq : Bool) (n : Nat) (i : Nat) : Option Nat :=
  if i < size then
    (ld p i).bind fun c =>
      if c = q then
        (if inq then peekEq p size (i + 1) q else some false).bind fun esc =>
          if esc then countColsM p size sep q inq n (i + 2)
          else countColsM p size sep q (!inq) n (i + 1)
      else if c = sep ∧ inq = false then countColsM p size sep q inq (n + 1) (i + 1)
      else countColsM p size sep q inq n (i + 1)
  else some n
termination_by size - i

/-- Field loop over one sampled row, `i` from the row's start to `rowEnd` (type_inference.cpp:168-215). -/
def sampleRowM (p : Bytes) (rowEnd : Nat) (sep q : UInt8) (inq : Bool) (cur : Bytes) (fields : List Bytes) (i : Nat) : Option (List Bytes) :=
  if i < rowEnd then
    (ld p i).bind fun c =>
      if c = LF ∨ c = CR then some (fields ++ [trimRight cur])
      else if c = q then
        (if inq then peekEq p rowEnd (i + 1) q else some false).bind fun esc =>
          if esc then sampleRowM p rowEnd sep q inq (cur ++ [q]) fields (i + 2)
          else sampleRowM p rowEnd sep q (!inq) cur fields (i + 1)
      else if c = sep ∧ inq = false then sampleRowM p rowEnd sep q inq [] (fields ++ [trimRight cur]) (i + 1)
      else if cur = [] ∧ inq = false ∧ (c = 32 ∨ c = 9) then sampleRowM p rowEnd sep q inq cur fields (i + 1)
      else sampleRowM p rowEnd sep q inq (cur ++ [c]) fields (i + 1)
  else some (if cur ≠ [] then fields ++ [trimRight cur] else fields)
termination_by rowEnd - i

/-- `value[i]` of `infer_field`'s date test (type_inference.cpp:102-114): the operands of `&&` from left to right. -/
def dateShapeM (v : Bytes) : Option Bool :=
  if v.length ≠ 10 then some false
  else
    (ld v 4).bind fun s1 =>
    if (s1 == 45 || s1 == 47) = false then some false
    else (ld v 7).bind fun s2 =>
    if (s2 == s1) = false then some false
    else ([0, 1, 2, 3, 5, 6, 8, 9].mapM (ld v)).map fun ds => ds.all isDigitB

/-- The timestamp test (type_inference.cpp:116-133). -/
def timestampShapeM (v : Bytes) : Option Bool :=
  if v.length < 19 then some false
  else
    (ld v 4).bind fun s1 => (ld v 7).bind fun s2 => (ld v 10).bind fun tee => (ld v 13).bind fun c1 => (ld v 16).bind fun c2 =>
    if ((s1 == 45 || s1 == 47) && s2 == s1 && (tee == 84 || tee == 32) && c1 == 58 && c2 == 58) = false then some false
    else ([11, 12, 14, 15, 17, 18].mapM (ld v)).map fun ds => ds.all isDigitB

/-- `TypeInference::infer_field` (type_inference.cpp:10-137); the list search and the integer loop index from 0 to
`value.size()` by iteration and are taken over unchanged. -/
def inferFieldM (cfg : InferCfg) (v : Bytes) : Option DataType :=
  if v = [] then some .na
  else if listHas v cfg.nullValues then some .na
  else if listHas v cfg.trueValues then some .bool
  else if listHas v cfg.falseValues then some .bool
  else match inferInt v with
    | some t => some t
    | none =>
      if cfg.isFloat v then some .float64
      else (dateShapeM v).bind fun d =>
        if d then some .date
        else (timestampShapeM v).map fun s => if s then .timestamp else .string

/-- Column update for one row (type_inference.cpp:217-221). -/
def updateTypesM (cfg : InferCfg) : List DataType → List Bytes → Option (List DataType)
  | [], _ => some []
  | ts, [] => some ts
  | t :: ts, f :: fs => (inferFieldM cfg f).bind fun x => (updateTypesM cfg ts fs).map fun r => widerType t x :: r

/-- Row sampling loop (type_inference.cpp:158-225). -/
def sampleLoopM (t : Target) (cfg : InferCfg) (p : Bytes) (size maxRows : Nat) : Nat → Nat → Nat → List DataType → Option (List DataType)
  | 0, _, _, types => some types
  | fuel + 1, offset, rows, types =>
    if offset < size ∧ rows < maxRows then
      (findRowEndM t p size cfg.quote offset).bind fun rowEnd =>
        if rowEnd - offset = 0 then sampleLoopM t cfg p size maxRows fuel (offset + 1) rows types
        else
          (sampleRowM p rowEnd cfg.sep cfg.quote false [] [] offset).bind fun fields =>
            (updateTypesM cfg types fields).bind fun types =>
              sampleLoopM t cfg p size maxRows fuel rowEnd (rows + 1) types
    else some types

/-- `TypeInference::infer_from_sample` (type_inference.cpp:139-235). -/
def inferFromSampleM (t : Target) (cfg : InferCfg) (p : Bytes) (size nCols maxRows : Nat) : Option (List DataType) :=
  let types := List.replicate nCols DataType.unknown
  if size = 0 ∨ nCols = 0 then some types
  else
    (if cfg.hasHeader then findRowEndM t p size cfg.quote 0 else some 0).bind fun offset =>
      (sampleLoopM t cfg p size maxRows (size + 1) offset 0 types).map fun ts =>
        ts.map (fun t => if t = .unknown then .string else t)

/-- `CsvReader::open` after mapping, and `open_from_buffer` (csv_reader.cpp:290-388, 394-498); `m` is the mapping or
the buffer the reader owns, `size` its reported size. `infer_from_sample` gets `data + header_end_offset` and
`size - header_end_offset`, a wrap of which is a fault here. -/
def openDataM (t : Target) (cfg : InferCfg) (sampleRows : Nat) (st : ReaderState) (m : Bytes) (size : Nat) : Option (Option OpenErr × ReaderState) :=
  let st := { st with data := m.take size }
  if size = 0 then some (some .emptyFile, st)
  else
    (findRowEndM t m size cfg.quote 0).bind fun rowEnd =>
    if cfg.hasHeader then
      let st := { st with dataStart := rowEnd }
      (parseHeaderM m rowEnd cfg.sep cfg.quote).bind fun names =>
      let chk := checkHeader st.collector names
      let st := { st with collector := chk.2 }
      if chk.1 then some (some .emptyHeader, st)
      else
        let schema := st.schema ++ names.map (fun n => { name := n, type := .string })
        if size < st.dataStart then none
        else (inferFromSampleM t cfg (m.drop st.dataStart) (size - st.dataStart) schema.length sampleRows).map fun types =>
          (none, { st with schema := assignTypes schema types })
    else
      (countColsM m rowEnd cfg.sep cfg.quote false 1 0).bind fun n =>
      let schema := st.schema ++ (List.range n).map (fun i => { name := genericName i, type := .string })
      (inferFromSampleM t cfg m size schema.length sampleRows).map fun types =>
        (none, { st with dataStart := 0, schema := assignTypes schema types })

end Vroom.Mem
