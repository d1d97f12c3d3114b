import Verif.Model.RowScan
import Verif.Spec.Fields
/-
Model of the streaming field iterator `SplitFields`.
Source: /repo/include/libvroom/split_fields.h:90-280, /repo/src/parser/split_fields_iter-inl.h
The pair `(v_, remaining_)` is the suffix `rest`.
-/
namespace Vroom

/-- The three bytes the iterator is configured with (split_fields.h:92-96). -/
abbrev Dial := Spec.Marks

/-- Iterator state (split_fields.h:156-164); `cache` is `previous_valid_ends_`. -/
structure SF where
  rest : Bytes
  finished : Bool := false
  cache : U64 := 0#64
deriving DecidableEq, Repr

/-- `eof_eol` (split_fields.h:166). -/
def eofEol (D : Dial) (c : UInt8) : Bool := c == D.sep || c == D.eol

/-- Scalar fallback loop of `scan_quoted_field` (split_fields.h:228-240): index of the first
unquoted end, or the length. -/
def scanQuotedScalar (D : Dial) (inField : Bool) : Bytes → Nat
  | [] => 0
  | c :: rest =>
    let inField := if c = D.quote then !inField else inField
    if !inField && eofEol D c then 0 else 1 + scanQuotedScalar D inField rest

/-- `scan_quoted_field` (split_fields.h:189-241) from `total_idx = total`; `rest` is
`v_ + total_idx`.  Returns the position and the new `previous_valid_ends_`. -/
def scanQuoted (cpu : Cpu) (D : Dial) (cache : U64) (notInField : Bool) (total : Nat) (rest : Bytes) : Nat × U64 :=
  if rest.length > 64 then
    let blk := rest.take 64
    let sepMask := blockMask cpu.lanes D.sep blk
    let eolMask := blockMask cpu.lanes D.eol blk
    let quoteMask := blockMask cpu.lanes D.quote blk
    let endMask := sepMask ||| eolMask
    let nq := cpu.pf.run quoteMask
    let nq := if notInField then ~~~nq else nq
    let notInField' : Bool := nq &&& (1#64 <<< 63) ≠ 0#64
    let endMask := endMask &&& nq
    if endMask ≠ 0#64 then
      let pos := endMask.ctz.toNat
      (total + pos, if pos = 63 then 0#64 else endMask >>> (pos + 1))
    else scanQuoted cpu D cache notInField' (total + 64) (rest.drop 64)
  else (total + scanQuotedScalar D (!notInField) rest, cache)
termination_by rest.length
decreasing_by simp; omega

/-- Scalar fallback loop of `scan_unquoted_field` (split_fields.h:270-278). -/
def scanUnquotedScalar (D : Dial) : Bytes → Nat
  | [] => 0
  | c :: rest => if eofEol D c then 0 else 1 + scanUnquotedScalar D rest

/-- `scan_unquoted_field` (split_fields.h:243-279). `scan_for_two_chars` yields the union of the
two comparison masks (split_fields_iter-inl.h:61-99). Note that quotes are not looked at. -/
def scanUnquoted (cpu : Cpu) (D : Dial) (cache : U64) (total : Nat) (rest : Bytes) : Nat × U64 :=
  if rest.length > 64 then
    let blk := rest.take 64
    let endMask := blockMask cpu.lanes D.sep blk ||| blockMask cpu.lanes D.eol blk
    if endMask ≠ 0#64 then
      let pos := endMask.ctz.toNat
      (total + pos, if pos = 63 then 0#64 else endMask >>> (pos + 1))
    else scanUnquoted cpu D cache (total + 64) (rest.drop 64)
  else (total + scanUnquotedScalar D rest, cache)
termination_by rest.length
decreasing_by simp; omega

/-- Outcome of `next()`: `done` = returned false; `ub` = read at or past `v_ + remaining_`, or a
shift by 64; `field` = returned true with the out-parameters (split_fields.h:98-150). -/
inductive NextRes where
  | done
  | ub
  | field (f : Bytes) (needsEscaping : Bool) (s : SF)
deriving DecidableEq, Repr

/-- `finish_eol` / the ordinary return (split_fields.h:168-177, 110-118, 141-149). -/
def SF.emit (s : SF) (D : Dial) (pos : Nat) (needs : Bool) (cache : U64) : NextRes :=
  match s.rest[pos]? with
  | none => .ub
  | some c => .field (s.rest.take pos) needs
      { rest := s.rest.drop (pos + 1), finished := c == D.eol, cache := cache }

/-- `SplitFields::next` (split_fields.h:98-150). `stale` is the value of the caller's
`needs_escaping` variable before the call: the code leaves it untouched when `remaining_ == 0`
(line 119-121). -/
def SF.next (cpu : Cpu) (D : Dial) (s : SF) (stale : Bool) : NextRes :=
  if s.finished then .done
  else if s.cache ≠ 0#64 then
    let pos := s.cache.ctz.toNat
    if pos + 1 ≥ 64 then .ub
    else
      let needs := D.quote ≠ 0 && s.rest.head? == some D.quote
      s.emit D pos needs (s.cache >>> (pos + 1))
  else
    match s.rest with
    | [] => .field [] stale { rest := [], finished := true, cache := s.cache }
    | c :: _ =>
      let needs := D.quote ≠ 0 && c == D.quote
      let r := if needs then scanQuoted cpu D s.cache true 0 s.rest else scanUnquoted cpu D s.cache 0 s.rest
      if r.1 ≥ s.rest.length then
        .field s.rest needs { rest := [], finished := true, cache := r.2 }
      else s.emit D r.1 needs r.2

/-- The caller's loop `while (iter.next(...))` (csv_reader.cpp:208, 783), collecting the fields and
the unread suffix.  `none` = undefined behaviour or more than `fuel` calls. -/
def SF.collect (cpu : Cpu) (D : Dial) : Nat → SF → Bool → Option (List (Bytes × Bool) × Bytes)
  | 0, _, _ => none
  | fuel + 1, s, stale =>
    match s.next cpu D stale with
    | .done => some ([], s.rest)
    | .ub => none
    | .field f needs s' => (SF.collect cpu D fuel s' needs).map (fun r => ((f, needs) :: r.1, r.2))

/-- One row: construct the iterator on the remaining data and drain it
(csv_reader.cpp:199-246, 774-820).  `needs_escaping` is uninitialised before the first call; its
value (`junk`) is a parameter. -/
def splitRow (cpu : Cpu) (D : Dial) (junk : Bool) (data : Bytes) : Option (List (Bytes × Bool) × Bytes) :=
  SF.collect cpu D (data.length + 2) { rest := data } junk

end Vroom
