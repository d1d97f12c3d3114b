import Verif.Model.MemLine
import Verif.Model.Detect
/-
Memory-level model of dialect detection: the loops of /repo/src/dialect.cpp with their indices, every load checked.  `p` is the memory behind the
pointer a function is given (`p.drop k` is the pointer moved by `k`), `len` the length passed along; `none` is a load outside the memory.  Loads through
a `std::string_view` are checked against the view itself.
-/
namespace Vroom.Mem
open Vroom

/-- `while (i < len && (buf[i] == ' ' || buf[i] == '\t')) i++;` (dialect.cpp:730-732, 1077-1079). -/
def blankRunM (p : Bytes) (len i : Nat) : Option Nat :=
  if i < len then (ld p i).bind fun c => if c == 32 || c == 9 then blankRunM p len (i + 1) else some i else some i
termination_by len - i

/-- `is_comment_line` (dialect.cpp:723-747). -/
def isCommentM (o : DetectOptions) (p : Bytes) (len : Nat) : Option Bool :=
  if o.commentChars.isEmpty || len == 0 then some false
  else (blankRunM p len 0).bind fun i => if i ≥ len then some false else (ld p i).map fun c => o.commentChars.contains c

/-- `if (row_end > row_start) { if (!is_comment_line(…)) rows.emplace_back(…); }` (dialect.cpp:788-794, 803-808). -/
def pushRowM (o : DetectOptions) (p : Bytes) (rows : List (Nat × Nat)) (s e : Nat) : Option (List (Nat × Nat)) :=
  if s < e then (isCommentM o (p.drop s) (e - s)).map fun b => if !b then rows ++ [(s, e)] else rows else some rows

/-- `row_end > row_start && buf[row_end - 1] == '\r'` (dialect.cpp:784-787). -/
def rowEndM (p : Bytes) (rs i : Nat) : Option Nat := if i > rs then (ld p (i - 1)).map fun c => if c == 13 then i - 1 else i else some i

/-- `i + 1 < len && buf[i + 1] == c` (dialect.cpp:773-774, 798, 850). -/
def nextIsM (p : Bytes) (len i : Nat) (c : UInt8) : Option Bool := peekEq p len (i + 1) c

/-- The loop of `find_rows` (dialect.cpp:759-813): the rows and the start of the unfinished one. -/
def findRowsGoM (o : DetectOptions) (d : Dialect) (p : Bytes) (len i : Nat) (inQ : Bool) (rs : Nat) (rows : List (Nat × Nat)) : Option (List (Nat × Nat) × Nat) :=
  if i < len then
    (ld p i).bind fun c =>
      if d.escapes c ∧ i + 1 < len then findRowsGoM o d p len (i + 2) inQ rs rows
      else if d.quotes c then
        (if d.doubleQuote then nextIsM p len i d.quote else some false).bind fun esc =>
          if esc then findRowsGoM o d p len (i + 2) inQ rs rows else findRowsGoM o d p len (i + 1) (!inQ) rs rows
      else if inQ = false then
        if c = 10 then
          (rowEndM p rs i).bind fun e =>
          (pushRowM o p rows rs e).bind fun rows =>
            if rows.length ≥ o.maxRows then some (rows, i + 1) else findRowsGoM o d p len (i + 1) inQ (i + 1) rows
        else if c = 13 then
          (nextIsM p len i 10).bind fun nl =>
            if nl then findRowsGoM o d p len (i + 1) inQ rs rows
            else
              (pushRowM o p rows rs i).bind fun rows =>
                if rows.length ≥ o.maxRows then some (rows, i + 1) else findRowsGoM o d p len (i + 1) inQ (i + 1) rows
        else findRowsGoM o d p len (i + 1) inQ rs rows
      else findRowsGoM o d p len (i + 1) inQ rs rows
  else some (rows, rs)
termination_by len - i

/-- `find_rows` (dialect.cpp:749-823). -/
def findRowsM (o : DetectOptions) (d : Dialect) (p : Bytes) (len : Nat) : Option (List (Nat × Nat)) :=
  if len = 0 then some []
  else
    (findRowsGoM o d p len 0 false 0 []).bind fun r =>
      if r.2 < len ∧ r.1.length < o.maxRows then
        (isCommentM o (p.drop r.2) (len - r.2)).map fun b => if !b then r.1 ++ [(r.2, len)] else r.1
      else some r.1

/-- The splitting loop of `extract_fields` (dialect.cpp:837-863): offset and length of each field; `i - field_start` must not wrap. -/
def extractGoM (d : Dialect) (p : Bytes) (len : Nat) (inQ : Bool) (fs : Nat) (acc : List (Nat × Nat)) (i : Nat) : Option (List (Nat × Nat)) :=
  if i < len then
    (ld p i).bind fun c =>
      if d.escapes c ∧ i + 1 < len then extractGoM d p len inQ fs acc (i + 2)
      else if d.quotes c then
        (if d.doubleQuote then nextIsM p len i d.quote else some false).bind fun esc =>
          if esc then extractGoM d p len inQ fs acc (i + 2) else extractGoM d p len (!inQ) fs acc (i + 1)
      else if inQ = false ∧ c = d.delimiter then
        if fs ≤ i then extractGoM d p len inQ (i + 1) (acc ++ [(fs, i - fs)]) (i + 1) else none
      else extractGoM d p len inQ fs acc (i + 1)
  else if fs ≤ len then some (acc ++ [(fs, len - fs)]) else none
termination_by len - i

/-- Quote removal (dialect.cpp:865-871): `field.front()` and `field.back()` are loads. -/
def stripQuotesM (d : Dialect) (p : Bytes) (v : Nat × Nat) : Option (Nat × Nat) :=
  if v.2 ≥ 2 ∧ d.quote ≠ 0 then
    (ld p v.1).bind fun a => if a = d.quote then (ld p (v.1 + v.2 - 1)).map fun b => if b = d.quote then (v.1 + 1, v.2 - 2) else v else some v
  else some v

/-- `extract_fields` (dialect.cpp:825-873). -/
def extractFieldsM (d : Dialect) (p : Bytes) (len : Nat) : Option (List (Nat × Nat)) :=
  if len = 0 then some [] else (extractGoM d p len false 0 [] 0).bind fun vs => vs.mapM (stripQuotesM d p)

/-- A `std::string_view(data + off, n)` that is looked at: its bytes must be in the memory (dialect.cpp:860, 866, 871). -/
def viewM (p : Bytes) (v : Nat × Nat) : Option Bytes := if v.1 + v.2 ≤ p.length then some ((p.drop v.1).take v.2) else none

/-- Rows and fields of a buffer (dialect.cpp:531-544, 566-596, 675-683): `extract_fields(dialect, buf + start, end - start)`. -/
def allFieldsM (o : DetectOptions) (d : Dialect) (p : Bytes) (len : Nat) : Option (List (List Bytes)) :=
  (findRowsM o d p len).bind fun rows => rows.mapM fun r =>
    if r.1 ≤ r.2 then (extractFieldsM d (p.drop r.1) (r.2 - r.1)).bind fun vs => vs.mapM (viewM (p.drop r.1)) else none

/-- The two trimming loops on a view: `front`/`remove_prefix`, `back`/`remove_suffix` (dialect.cpp:878-883), `start` and `end` (37-44, 74-80). -/
def trimViewM (pr : UInt8 → Bool) (v : Bytes) : Option Bytes :=
  (trimFrontM pr v 0 v.length).bind fun r => (trimBackM pr v r.1 r.2).bind fun n => viewM v (r.1, n)

/-- `if (cell[0] == '+' || cell[0] == '-') i++;` for a cell that is not empty (dialect.cpp:50-54, 118-119, 899-900, 917-918). -/
def signM (v : Bytes) : Option Nat := (ld v 0).map fun c => if c == 43 || c == 45 then 1 else 0

/-- `while (i < cell.size() && isdigit(cell[i])) i++;` (dialect.cpp:56-61, 122-125, 133-136, 151-152, 903-907, 926-929, 935-938, 948-951). -/
def digitRunM (v : Bytes) (i : Nat) : Option Nat :=
  if i < v.length then (ld v i).bind fun c => if isDigitC c then digitRunM v (i + 1) else some i else some i
termination_by v.length - i

/-- The integer test (dialect.cpp:897-911; also 49-63). -/
def intScanM (v : Bytes) : Option Bool :=
  (signM v).bind fun i => if i < v.length then (digitRunM v i).map fun e => e == v.length else some false

/-- `i < size && (cell[i] == a || cell[i] == b)` (dialect.cpp:128, 139, 143, 932, 941, 944). -/
def charM (v : Bytes) (i : Nat) (a b : UInt8) : Option Bool := if i < v.length then (ld v i).map fun c => c == a || c == b else some false

/-- The float test (dialect.cpp:914-958; also 111-157). -/
def floatScanM (v : Bytes) : Option Bool :=
  (signM v).bind fun s =>
  (digitRunM v s).bind fun i =>
  (charM v i 46 46).bind fun dot =>
  (if dot then digitRunM v (i + 1) else some i).bind fun j =>
  (charM v j 101 69).bind fun ex =>
  (if ex then (charM v (j + 1) 43 45).bind fun g =>
      let k := if g then j + 2 else j + 1
      (digitRunM v k).map fun e => (decide (k < e), e)
    else some (true, j)).map fun r =>
      r.1 && (decide (s < i) || (dot && decide (i + 1 < j))) && (dot || ex) && r.2 == v.length

/-- `isdigit(cell[i]) && …` over a list of tests, from left to right, stopping at the first that fails (dialect.cpp:965-985, 993-1004). -/
def chainM (v : Bytes) : List (Nat × (UInt8 → Bool)) → Option Bool
  | [] => some true
  | (i, t) :: rest => (ld v i).bind fun c => if t c then chainM v rest else some false

/-- `isdigit` at each of the indices (dialect.cpp:965-985). -/
def dg (l : List Nat) : List (Nat × (UInt8 → Bool)) := l.map fun i => (i, isDigitC)

/-- The date patterns (dialect.cpp:960-991); `cell[7] == cell[4]` loads both. -/
def dateScanM (v : Bytes) : Option Bool :=
  if v.length ≥ 8 ∧ v.length ≤ 10 then
    (if v.length = 10 then
      (chainM v (dg [0, 1, 2, 3] ++ [(4, fun c => c == 45 || c == 47)] ++ dg [5, 6])).bind fun a =>
        if a then (ld v 7).bind fun x => (ld v 4).bind fun y => if x = y then chainM v (dg [8, 9]) else some false else some false
     else some false).bind fun ymd =>
    (if v.length = 10 then
      (chainM v (dg [0, 1] ++ [(2, fun c => c == 45 || c == 47)] ++ dg [3, 4])).bind fun a =>
        if a then (ld v 5).bind fun x => (ld v 2).bind fun y => if x = y then chainM v (dg [6, 7, 8, 9]) else some false else some false
     else some false).map fun dmy => ymd || dmy
  else some false

/-- The time patterns (dialect.cpp:993-1005). -/
def timeScanM (v : Bytes) : Option Bool :=
  if v.length = 5 ∨ v.length = 8 then
    (chainM v (dg [0, 1] ++ [(2, (· == 58))] ++ dg [3, 4])).bind fun a =>
      if a then if v.length = 5 then some true else chainM v ((5, (· == 58)) :: dg [6, 7]) else some false
  else some false

/-- `infer_cell_type` (dialect.cpp:876-1038).  `find`, `substr`, `remove_suffix` and the string comparisons are library calls on the view. -/
def inferGoM : Nat → Bytes → Option CellType
  | fuel, v =>
    (trimViewM isSpaceLocale v).bind fun cell =>
    if cell.isEmpty then some .EMPTY
    else if boolScan cell then some .BOOLEAN
    else
      (intScanM cell).bind fun b => if b then some .INTEGER else
      (floatScanM cell).bind fun b => if b then some .FLOAT else
      (dateScanM cell).bind fun b => if b then some .DATE else
      (timeScanM cell).bind fun b => if b then some .TIME else
      match fuel with
      | 0 => some .STRING
      | fuel + 1 =>
        if cell.length ≥ 16 then
          match sepPos cell with
          | some p =>
            if p ≥ 8 then
              let time := dropZone (cell.drop (p + 1))
              (inferGoM fuel (cell.take p)).bind fun a =>
                if a = .DATE then
                  (inferGoM fuel time).map fun b => if b = .TIME ∨ time.length ≥ 5 then .DATETIME else .STRING
                else some .STRING
            else some .STRING
          | none => some .STRING
        else some .STRING

/-- `infer_cell_type` (dialect.cpp:876-1038). -/
def inferCellTypeM (v : Bytes) : Option CellType := inferGoM v.length v

/-- `could_be_integer` (dialect.cpp:31-64). -/
def couldBeIntegerM (v : Bytes) : Option Bool :=
  if v.length = 0 then some false
  else (trimViewM isBlankC v).bind fun t => if t.isEmpty then some false else intScanM t

/-- `to_lower(ptr[i]) == …` at the given indices, from left to right (dialect.cpp:91-107). -/
def lowerChain (off : Nat) (l : List UInt8) : List (Nat × (UInt8 → Bool)) := l.mapIdx fun k x => (off + k, fun c => lowerC c == x)

/-- The special values (dialect.cpp:87-109). -/
def specialM (t : Bytes) : Option Bool :=
  if t.length ≥ 3 then
    (if t.length = 3 then chainM t (lowerChain 0 [110, 97, 110]) else some false).bind fun nan =>
      if nan then some true
      else
        (signM t).bind fun off =>
          if t.length - off ≥ 3 then
            (chainM t (lowerChain off [105, 110, 102])).bind fun inf =>
              if inf then
                if t.length - off = 3 then some true
                else if t.length - off = 8 then chainM t (lowerChain (off + 3) [105, 110, 105, 116, 121]) else some false
              else some false
          else some false
  else some false

/-- `could_be_float` (dialect.cpp:67-158). -/
def couldBeFloatM (v : Bytes) : Option Bool :=
  if v.length = 0 then some false
  else (trimViewM isBlankC v).bind fun t =>
    if t.isEmpty then some false else (specialM t).bind fun s => if s then some true else floatScanM t

/-- One cell of `compute_type_score` (dialect.cpp:603-634, 162-174): counted as typed? -/
def typedCellM (v : Bytes) : Option Bool :=
  (couldBeIntegerM v).bind fun a => if a then some true else
  (couldBeFloatM v).bind fun b => if b then some true else
  (inferCellTypeM v).map fun c => decide (c ≠ .STRING)

/-- The loop of `detect_line_ending` (dialect.cpp:647-660): (has_crlf, has_lf, has_cr). -/
def lineEndingGoM (p : Bytes) (len : Nat) (s : Bool × Bool × Bool) (i : Nat) : Option (Bool × Bool × Bool) :=
  if i < len then
    (ld p i).bind fun c =>
      if c = 13 then
        (peekEq p len (i + 1) 10).bind fun nl =>
          if nl then lineEndingGoM p len (true, s.2.1, s.2.2) (i + 2) else lineEndingGoM p len (s.1, s.2.1, true) (i + 1)
      else if c = 10 then lineEndingGoM p len (s.1, true, s.2.2) (i + 1)
      else lineEndingGoM p len s (i + 1)
  else some s
termination_by len - i

/-- The loop of `detect_escape_pattern` (dialect.cpp:427-439). -/
def escapePairsM (q e : UInt8) (p : Bytes) (len : Nat) (a b : Nat) (i : Nat) : Option (Nat × Nat) :=
  if i + 1 < len then
    (ld p i).bind fun c => (ld p (i + 1)).bind fun c' =>
      escapePairsM q e p len ((if e != q && c == e && c' == q then 1 else 0) + a) ((if c == q && c' == q then 1 else 0) + b) (i + 1)
  else some (a, b)
termination_by len - i

/-- `while (offset < len && buf[offset] != '\n' && buf[offset] != '\r') offset++;` and the line ending (dialect.cpp:1105-1121). -/
def skipLineM (p : Bytes) (len i : Nat) : Option Nat :=
  if i < len then
    (ld p i).bind fun c =>
      if c = 13 then (peekEq p len (i + 1) 10).map fun nl => if nl then i + 2 else i + 1
      else if c = 10 then some (i + 1)
      else skipLineM p len (i + 1)
  else some i
termination_by len - i

/-- The loop of `skip_comment_lines` (dialect.cpp:1074-1122); `none` also for more than `fuel` lines. -/
def skipCommentsM (chars : List UInt8) (p : Bytes) (len : Nat) : Nat → Nat → UInt8 → Nat → Option (Nat × UInt8 × Nat)
  | 0, _, _, _ => none
  | fuel + 1, offset, cc, lines =>
    if offset < len then
      (blankRunM p len offset).bind fun i =>
        if i ≥ len then some (i, cc, lines)
        else
          (ld p i).bind fun c =>
            if !chars.contains c then some (offset, cc, lines)
            else (skipLineM p len i).bind fun j => skipCommentsM chars p len fuel j (if cc == 0 then c else cc) (lines + 1)
    else some (offset, cc, lines)

/-- `skip_comment_lines` (dialect.cpp:1063-1126). -/
def skipCommentLinesM (o : DetectOptions) (p : Bytes) (len : Nat) : Option (Nat × UInt8 × Nat) :=
  if len = 0 ∨ o.commentChars.isEmpty then some (0, 0, 0) else skipCommentsM o.commentChars p len (len + 1) 0 0 0

/-- The search for the first newline (dialect.cpp:287-293). -/
def firstNewlineM (p : Bytes) (n i : Nat) : Option (Option Nat) :=
  if i < n then (ld p i).bind fun c => if c = 10 then some (some i) else firstNewlineM p n (i + 1) else some none
termination_by n - i

/-- How much of the data is looked at (dialect.cpp:283-317). -/
def sampleLenM (o : DetectOptions) (p : Bytes) (len : Nat) : Option Nat :=
  (firstNewlineM p (min len o.sampleSize) 0).map fun first =>
    let cap := 1024 * 1024
    let eff :=
      match first with
      | some i => let needed := (i + 1) * (o.minRows + 1); if needed > o.sampleSize then min needed cap else o.sampleSize
      | none => if len > o.sampleSize then min (o.sampleSize * 4) cap else o.sampleSize
    min len eff

/-- `compute_type_score` on the rows after the first (dialect.cpp:562-639): the cells are looked at one by one. -/
def typeScoreM (rows : List (List Bytes)) : Option Rat :=
  let cells := rows.flatten
  if cells.length = 0 then some 0
  else (cells.mapM typedCellM).map fun bs => max (1 / 10000000000) (((bs.filter id).length : Rat) / cells.length)

/-- `detect_escape_pattern` (dialect.cpp:420-448). -/
def escapeSignalM (q e : UInt8) (p : Bytes) (len : Nat) : Option Int :=
  (escapePairsM q e p len 0 0 0).map fun r => if r.1 > 0 ∧ r.2 = 0 then r.1 else if r.2 > 0 ∧ r.1 = 0 then -r.2 else 0

/-- The factor for the escape pattern (dialect.cpp:501-521). -/
def boostM (d : Dialect) (p : Bytes) (len : Nat) (s : Rat) : Option Rat :=
  if d.quote ≠ 0 then
    let e := if d.doubleQuote then 0 else d.escape
    if e ≠ 0 then
      (escapeSignalM d.quote e p len).map fun sig =>
        if sig > 0 ∧ d.doubleQuote = false then s * (12 / 10)
        else if sig < 0 ∧ d.doubleQuote then s * (12 / 10) else s
    else if d.doubleQuote then
      (escapeSignalM d.quote d.quote p len).map fun sig => if sig < 0 then s * (11 / 10) else s
    else some s
  else some s

/-- `score_dialect`, `compute_pattern_score`, `compute_type_score` (dialect.cpp:450-524, 526-639).  `sq` and `modal` as in `detectFns`. -/
def scoreDialectM (sq : Rat → Rat) (modal : List Nat → Nat) (o : DetectOptions) (p : Bytes) (len : Nat) (d : Dialect) : Option DialectCandidate :=
  (findRowsM o d p len).bind fun rows =>
    if rows.length < o.minRows then some { dialect := d }
    else
      (allFieldsM o d p len).bind fun fields =>
        let counts := fields.map List.length
        if counts = [] then some { dialect := d }
        else
          (typeScoreM (if fields.length > 1 then fields.drop 1 else fields)).bind fun ty =>
          (boostM d p len (combineScore sq (patternScore counts) (modal counts) ty)).map fun s =>
            { dialect := d, score := s, columns := modal counts }

/-- `detect_header` (dialect.cpp:673-720). -/
def detectHeaderM (o : DetectOptions) (d : Dialect) (p : Bytes) (len : Nat) : Option Bool :=
  (allFieldsM o d p len).bind fun rows =>
    match rows with
    | h :: r :: _ =>
      if h.isEmpty || r.isEmpty then some false
      else
        (h.mapM inferCellTypeM).bind fun ht =>
        (r.mapM inferCellTypeM).map fun rt =>
          let strings := ((h.zip ht).filter (fun x => x.2 == .STRING && !x.1.isEmpty)).length
          let nonEmpty := (h.filter (fun f => !f.isEmpty)).length
          let dataTyped := (rt.filter (fun t : CellType => t != .STRING && t != .EMPTY)).length
          let ratio : Rat := if nonEmpty > 0 then (strings : Rat) / nonEmpty else 0
          decide (ratio > 1 / 2) && (decide (dataTyped > 0) || strings == h.length)
    | _ => some false

/-- `detect_line_ending` (dialect.cpp:641-671). -/
def detectLineEndingM (p : Bytes) (len : Nat) : Option LineEnding :=
  (lineEndingGoM p len (false, false, false) 0).map fun r =>
    if r.1.toNat + r.2.1.toNat + r.2.2.toNat > 1 then .MIXED
    else if r.1 then .CRLF
    else if r.2.1 then .LF
    else if r.2.2 then .CR
    else .UNKNOWN

/-- `DialectDetector::detect` (dialect.cpp:257-362): `data_buf = buf + comment_offset`, `len - comment_offset` must not wrap. -/
def detectM (sq : Rat → Rat) (modal : List Nat → Nat) (sort : List DialectCandidate → List DialectCandidate) (o : DetectOptions) (p : Bytes) (len : Nat) : Option DetectResult :=
  if len = 0 then some { warning := .emptyInput }
  else
    (skipCommentLinesM o p len).bind fun c =>
      if c.1 ≤ len then
        if len - c.1 = 0 then some { comment := c.2.1, commentLines := c.2.2, warning := .onlyComments }
        else
          let q := p.drop c.1
          (sampleLenM o q (len - c.1)).bind fun n =>
          (detectLineEndingM q n).bind fun le =>
          ((generateCandidates o).mapM (scoreDialectM sq modal o q n)).bind fun scored =>
            let cands := sort scored
            let fail : DetectResult := { comment := c.2.1, commentLines := c.2.2, lineEnding := le, candidates := cands, warning := .undetected }
            match cands with
            | [] => some fail
            | best :: others =>
              if best.score > 0 then
                let d := { best.dialect with comment := c.2.1 }
                (detectHeaderM o d q n).bind fun hh =>
                (findRowsM o d q n).map fun rows =>
                  { dialect := d, lineEnding := le, confidence := best.score, hasHeader := hh, columns := best.columns, rows := rows.length,
                    warning := match others with
                      | [] => .none
                      | second :: _ => if second.score > 9 / 10 * best.score then .ambiguous else .none,
                    comment := c.2.1, commentLines := c.2.2, candidates := cands }
              else some fail
      else none

end Vroom.Mem
