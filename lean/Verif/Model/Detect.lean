import Verif.Model.Dialect
/-
Model of cell typing, scoring and detection of dialects.
Source: /repo/src/dialect.cpp, /repo/include/libvroom/dialect.h.
Scores are exact rationals where the code has `double`; `isspace` and `isdigit` are those of the C locale.
-/
namespace Vroom

/-- `DialectDetector::CellType` (dialect.h:231). -/
inductive CellType where
  | EMPTY | INTEGER | FLOAT | DATE | DATETIME | TIME | BOOLEAN | STRING
deriving DecidableEq, Repr

/-- `std::isspace` in the C locale (C library; called in dialect.cpp:878, 881). -/
def isSpaceLocale (c : UInt8) : Bool := c == 32 || (decide (9 ≤ c) && decide (c ≤ 13))

/-- `std::isdigit` (C library; called in dialect.cpp:900-1014). -/
def isDigitC (c : UInt8) : Bool := decide (48 ≤ c) && decide (c ≤ 57)

/-- Remove the bytes satisfying `p` from both ends (the two `while` loops of dialect.cpp:878-883, 38-44, 75-80). -/
def trimBy (p : UInt8 → Bool) (s : List UInt8) : List UInt8 := ((s.dropWhile p).reverse.dropWhile p).reverse

/-- Skip one sign (dialect.cpp:898-899, 917-918). -/
def skipSign : List UInt8 → List UInt8
  | c :: r => if c == 43 || c == 45 then r else c :: r
  | [] => []

/-- The integer test of `infer_cell_type` (dialect.cpp:896-911): optional sign, then a digit, then digits only. -/
def intScan (cell : List UInt8) : Bool :=
  let r := skipSign cell
  !r.isEmpty && r.all isDigitC

/-- The decimal part (dialect.cpp:931-938): whether there is a dot, whether digits follow it, and the rest. -/
def fracSplit (r : List UInt8) : Bool × Bool × List UInt8 :=
  match r with
  | c :: r' => if c == 46 then (true, !(r'.takeWhile isDigitC).isEmpty, r'.dropWhile isDigitC) else (false, false, c :: r')
  | [] => (false, false, [])

/-- The exponent part (dialect.cpp:941-953): whether there is one, whether it is valid, and the rest. -/
def expPart (r : List UInt8) : Bool × Bool × List UInt8 :=
  match r with
  | c :: r' =>
    if c == 101 || c == 69 then
      (true, !((skipSign r').takeWhile isDigitC).isEmpty, (skipSign r').dropWhile isDigitC)
    else (false, true, c :: r')
  | [] => (false, true, [])

/-- The float test of `infer_cell_type` (dialect.cpp:914-958), also the regular-float scan of `could_be_float`
(dialect.cpp:111-157), which returns false as soon as the exponent has no digits. -/
def floatScan (cell : List UInt8) : Bool :=
  let r := skipSign cell
  let ip := r.takeWhile isDigitC
  let f := fracSplit (r.dropWhile isDigitC)
  let e := expPart f.2.2
  e.2.1 && (!ip.isEmpty || f.2.1) && (f.1 || e.1) && e.2.2.isEmpty

/-- `cell` spells one of the six accepted truth values (dialect.cpp:890-893). -/
def boolScan (cell : List UInt8) : Bool :=
  cell == [116, 114, 117, 101] || cell == [102, 97, 108, 115, 101] || cell == [84, 82, 85, 69] || cell == [70, 65, 76, 83, 69] ||
    cell == [84, 114, 117, 101] || cell == [70, 97, 108, 115, 101]

/-- The date patterns (dialect.cpp:960-991). -/
def dateScan (cell : List UInt8) : Bool :=
  match cell with
  | [a0, a1, a2, a3, a4, a5, a6, a7, a8, a9] =>
    (isDigitC a0 && isDigitC a1 && isDigitC a2 && isDigitC a3 && (a4 == 45 || a4 == 47) && isDigitC a5 && isDigitC a6 && a7 == a4 &&
      isDigitC a8 && isDigitC a9) ||
    (isDigitC a0 && isDigitC a1 && (a2 == 45 || a2 == 47) && isDigitC a3 && isDigitC a4 && a5 == a2 && isDigitC a6 && isDigitC a7 &&
      isDigitC a8 && isDigitC a9)
  | _ => false

/-- The time patterns (dialect.cpp:993-1005). -/
def timeScan (cell : List UInt8) : Bool :=
  match cell with
  | [a0, a1, a2, a3, a4] => isDigitC a0 && isDigitC a1 && a2 == 58 && isDigitC a3 && isDigitC a4
  | [a0, a1, a2, a3, a4, a5, a6, a7] =>
    isDigitC a0 && isDigitC a1 && a2 == 58 && isDigitC a3 && isDigitC a4 && a5 == 58 && isDigitC a6 && isDigitC a7
  | _ => false

/-- The separator of a date and a time: the first `T`, else the first space (dialect.cpp:1009-1012). -/
def sepPos (cell : List UInt8) : Option Nat :=
  match cell.findIdx? (· == 84) with
  | some i => some i
  | none => cell.findIdx? (· == 32)

/-- Removal of a time zone (dialect.cpp:1017-1028). -/
def dropZone (t : List UInt8) : List UInt8 :=
  let t := if t.getLast? == some 90 then t.dropLast else t
  match t.findIdx? (· == 43), t.findIdx? (· == 45) with
  | some p, m => if p > 0 then t.take p else
      match m with
      | some m => if m > 5 then t.take m else t
      | none => t
  | none, some m => if m > 5 then t.take m else t
  | none, none => t

/-- `infer_cell_type` (dialect.cpp:876-1038).  The code calls itself on the two parts of a date-time, which are shorter than the
cell; `fuel` bounds that recursion. -/
def inferGo : Nat → List UInt8 → CellType
  | fuel, cell =>
    let cell := trimBy isSpaceLocale cell
    if cell.isEmpty then .EMPTY
    else if boolScan cell then .BOOLEAN
    else if intScan cell then .INTEGER
    else if floatScan cell then .FLOAT
    else if dateScan cell then .DATE
    else if timeScan cell then .TIME
    else
      match fuel with
      | 0 => .STRING
      | fuel + 1 =>
        if cell.length ≥ 16 then
          match sepPos cell with
          | some p =>
            if p ≥ 8 then
              let time := dropZone (cell.drop (p + 1))
              if inferGo fuel (cell.take p) == .DATE && (inferGo fuel time == .TIME || decide (time.length ≥ 5)) then .DATETIME
              else .STRING
            else .STRING
          | none => .STRING
        else .STRING

/-- `infer_cell_type` (dialect.cpp:876-1038). -/
def inferCellType (cell : List UInt8) : CellType := inferGo cell.length cell

/-- Space or tab (dialect.cpp:38, 43, 75, 78). -/
def isBlankC (c : UInt8) : Bool := c == 32 || c == 9

/-- `could_be_integer` (dialect.cpp:31-64). -/
def couldBeInteger (s : List UInt8) : Bool :=
  let t := trimBy isBlankC s
  !t.isEmpty && intScan t

/-- `to_lower` (dialect.cpp:89). -/
def lowerC (c : UInt8) : UInt8 := if 65 ≤ c && c ≤ 90 then c + 32 else c

/-- The special values of `could_be_float` (dialect.cpp:87-109). -/
def specialScan (t : List UInt8) : Bool :=
  decide (t.length ≥ 3) &&
    (t.map lowerC == [110, 97, 110] ||
      (let u := (skipSign t).map lowerC
       u == [105, 110, 102] || u == [105, 110, 102, 105, 110, 105, 116, 121]))

/-- `could_be_float` (dialect.cpp:67-158). -/
def couldBeFloat (s : List UInt8) : Bool :=
  let t := trimBy isBlankC s
  !t.isEmpty && (specialScan t || floatScan t)

/-- The cells of `compute_type_score` that count as typed (dialect.cpp:603-634, with `validate_batch`, 159-174). -/
def typedCells (cells : List (List UInt8)) : Nat :=
  let ints := (cells.filter couldBeInteger).length
  let floats := (cells.filter (fun f => !couldBeInteger f && couldBeFloat f)).length
  let other := cells.length - ints - floats
  ints + floats +
    (if other > 0 then
      (cells.filter (fun f => !(couldBeInteger f || couldBeFloat f) && inferCellType f != .STRING)).length
     else 0)

/-- `compute_type_score` on the rows after the first (dialect.cpp:562-639); the caller drops the first row. -/
def typeScore (rows : List (List (List UInt8))) : Rat :=
  let cells := rows.flatten
  if cells.length = 0 then 0 else max (1 / 10000000000) ((typedCells cells : Rat) / cells.length)

/-- The largest number of rows with equal field count (dialect.cpp:548-557). -/
def modalFreq (counts : List Nat) : Nat := (counts.map (fun c => counts.count c)).foldl max 0

/-- The result of `compute_pattern_score` once there are enough rows (dialect.cpp:559). -/
def patternScore (counts : List Nat) : Rat := (modalFreq counts : Rat) / counts.length

/-- The combination of the scores (dialect.cpp:481-521); `sq` stands for `std::sqrt`. -/
def combineScore (sq : Rat → Rat) (p : Rat) (columns : Nat) (t : Rat) : Rat :=
  if p > 9 / 10 ∧ columns > 1 then p * max (6 / 10) (sq (max (1 / 10) t))
  else if p > 8 / 10 ∧ columns > 1 then p * sq (max (1 / 10) t)
  else p * t

/-- The scoring of dialect.cpp.  `modal` is the pick among the most frequent field counts, which depends on the iteration order of
an `unordered_map` (dialect.cpp:464-475). -/
def detectFns (sq : Rat → Rat) (modal : List Nat → Nat) : ScoreFns where
  pattern := patternScore
  modal := modal
  types := typeScore
  combine := combineScore sq

/-- `detect_header` (dialect.cpp:673-720) on the rows of the sample.  A ratio above one half is `2 * strings > nonempty`. -/
def headerOf (rows : List (List (List UInt8))) : Bool :=
  match rows with
  | h :: d :: _ =>
    if h.isEmpty || d.isEmpty then false
    else
      let strings := (h.filter (fun f => inferCellType f == .STRING && !f.isEmpty)).length
      let nonEmpty := (h.filter (fun f => !f.isEmpty)).length
      let dataTyped := (d.filter (fun f => inferCellType f != .STRING && inferCellType f != .EMPTY)).length
      let ratio : Rat := if nonEmpty > 0 then (strings : Rat) / nonEmpty else 0
      decide (ratio > 1 / 2) && (decide (dataTyped > 0) || strings == h.length)
  | _ => false

/-- `detect_header` (dialect.cpp:673-720). -/
def detectHeader (o : DetectOptions) (d : Dialect) (buf : List UInt8) : Bool := headerOf (allFields o d buf)

/-- The warnings of `detect` (dialect.cpp:261, 279, 354, 358). -/
inductive DetectWarning where
  | none | emptyInput | onlyComments | ambiguous | undetected
deriving DecidableEq, Repr

/-- `DetectionResult` (dialect.h:182-201). -/
structure DetectResult where
  dialect : Dialect := {}
  lineEnding : LineEnding := .UNKNOWN
  confidence : Rat := 0
  hasHeader : Bool := false
  columns : Nat := 0
  rows : Nat := 0
  warning : DetectWarning := .none
  comment : UInt8 := 0
  commentLines : Nat := 0
  candidates : List DialectCandidate := []

/-- The sample `detect` looks at (dialect.cpp:265-317). -/
def sampleOf (o : DetectOptions) (buf : List UInt8) : List UInt8 :=
  let data := buf.drop (skipCommentLines o buf).1
  data.take (sampleLen o data)

/-- `DetectionResult::success` (dialect.h:200). -/
def DetectResult.success (r : DetectResult) : Bool := decide (r.confidence > 1 / 2)

/-- `detect` (dialect.cpp:257-362).  `sort` stands for `std::sort` with `DialectCandidate::operator<`. -/
def detect (A : ScoreFns) (sort : List DialectCandidate → List DialectCandidate) (o : DetectOptions) (buf : List UInt8) : DetectResult :=
  if buf.isEmpty then { warning := .emptyInput }
  else
    let c := skipCommentLines o buf
    let data := buf.drop c.1
    if data.isEmpty then { comment := c.2.1, commentLines := c.2.2, warning := .onlyComments }
    else
      let s := data.take (sampleLen o data)
      let cands := sort (scoredCandidates A o s)
      match cands with
      | [] => { comment := c.2.1, commentLines := c.2.2, lineEnding := detectLineEnding s, candidates := cands, warning := .undetected }
      | best :: others =>
        if best.score > 0 then
          let d := { best.dialect with comment := c.2.1 }
          { dialect := d, lineEnding := detectLineEnding s, confidence := best.score, hasHeader := detectHeader o d s,
            columns := best.columns, rows := (findRows o d s).length,
            warning := match others with
              | [] => .none
              | second :: _ => if second.score > 9 / 10 * best.score then .ambiguous else .none,
            comment := c.2.1, commentLines := c.2.2, candidates := cands }
        else { comment := c.2.1, commentLines := c.2.2, lineEnding := detectLineEnding s, candidates := cands, warning := .undetected }

/-- `detect_file` on a readable file (dialect.cpp:364-378): only the first `sample_size` bytes are looked at. -/
def detectFile (A : ScoreFns) (sort : List DialectCandidate → List DialectCandidate) (o : DetectOptions) (content : List UInt8) : DetectResult :=
  detect A sort o (content.take o.sampleSize)

end Vroom
