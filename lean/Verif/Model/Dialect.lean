/-
Model of dialect detection.
Sources: /repo/include/libvroom/dialect.h, /repo/src/dialect.cpp.
Scores are exact rationals where the code has `double`.  `char` and `uint8_t` are both bytes.
-/
namespace Vroom

/-- `Dialect` (dialect.h:35-48), without the informational line ending. -/
structure Dialect where
  delimiter : UInt8 := 44
  quote : UInt8 := 34
  escape : UInt8 := 34
  doubleQuote : Bool := true
  comment : UInt8 := 0
deriving DecidableEq, Repr

/-- `DetectionOptions` (dialect.h:114-135), as far as used here. -/
structure DetectOptions where
  sampleSize : Nat := 10240
  minRows : Nat := 2
  maxRows : Nat := 100
  delimiters : List UInt8 := [44, 59, 9, 124, 58]
  quoteChars : List UInt8 := [34, 39]
  escapeChars : List UInt8 := [92]
  commentChars : List UInt8 := [35]

/-- `DialectCandidate` (dialect.h:140-146). -/
structure DialectCandidate where
  dialect : Dialect
  score : Rat := 0
  columns : Nat := 0

/-- `DialectCandidate::operator<`: `a` ranks before `b` (dialect.h:147-176). -/
def DialectCandidate.before (a b : DialectCandidate) : Bool :=
  let epsilon : Rat := 1 / 1000000000
  let diff := a.score - b.score
  if diff > epsilon then true
  else if diff < -epsilon then false
  else if a.columns ≠ b.columns then decide (a.columns > b.columns)
  else if a.dialect.quote ≠ b.dialect.quote then decide (a.dialect.quote = 34)
  else if a.dialect.doubleQuote ≠ b.dialect.doubleQuote then a.dialect.doubleQuote
  else if a.dialect.delimiter ≠ b.dialect.delimiter then decide (a.dialect.delimiter = 44)
  else false

/-- `generate_candidates` (dialect.cpp:380-418). -/
def generateCandidates (o : DetectOptions) : List Dialect :=
  o.delimiters.flatMap (fun delim =>
    o.quoteChars.flatMap (fun q =>
      { delimiter := delim, quote := q, escape := q, doubleQuote := true } ::
        (o.escapeChars.filter (· != q)).map (fun e => { delimiter := delim, quote := q, escape := e, doubleQuote := false })) ++
    [{ delimiter := delim, quote := 0, escape := 0, doubleQuote := false }])

/-- Is `c` an active escape character: `!double_quote && escape_char != 0 && c == escape_char` (dialect.cpp:765-766, 843-844). -/
def Dialect.escapes (d : Dialect) (c : UInt8) : Bool := !d.doubleQuote && d.escape != 0 && c == d.escape

/-- Is `c` an active quote character (dialect.cpp:773-774, 849-850). -/
def Dialect.quotes (d : Dialect) (c : UInt8) : Bool := d.quote != 0 && c == d.quote

/-- `is_comment_line` (dialect.cpp:723-747). -/
def isCommentLine (o : DetectOptions) (row : List UInt8) : Bool :=
  if o.commentChars.isEmpty || row.isEmpty then false
  else
    match row.dropWhile (fun c => c == 32 || c == 9) with
    | [] => false
    | c :: _ => o.commentChars.contains c

/-- Record a row unless it is empty or a comment (dialect.cpp:788-796, 799-809). -/
def pushRow (o : DetectOptions) (buf : List UInt8) (rows : List (Nat × Nat)) (s e : Nat) : List (Nat × Nat) :=
  if s < e then
    if !isCommentLine o ((buf.drop s).take (e - s)) then rows ++ [(s, e)] else rows
  else rows

/-- The loop of `find_rows` (dialect.cpp:759-820): `rest` is the buffer from position `i` on, `prev` the byte before it.
Returns the rows and the start of the unfinished row. -/
def findRowsLoop (o : DetectOptions) (d : Dialect) (buf : List UInt8) :
    List UInt8 → Nat → UInt8 → Bool → Nat → List (Nat × Nat) → List (Nat × Nat) × Nat
  | [], _, _, _, rs, rows => (rows, rs)
  | [c], i, prev, inQ, rs, rows =>
    if d.quotes c then (rows, rs)
    else if !inQ then
      if c == 10 then
        let e := if i > rs && prev == 13 then i - 1 else i
        (pushRow o buf rows rs e, i + 1)
      else if c == 13 then (pushRow o buf rows rs i, i + 1)
      else (rows, rs)
    else (rows, rs)
  | c :: c' :: rest, i, prev, inQ, rs, rows =>
    if d.escapes c then findRowsLoop o d buf rest (i + 2) c' inQ rs rows
    else if d.quotes c then
      if d.doubleQuote && c' == d.quote then findRowsLoop o d buf rest (i + 2) c' inQ rs rows
      else findRowsLoop o d buf (c' :: rest) (i + 1) c (!inQ) rs rows
    else if !inQ then
      if c == 10 then
        let e := if i > rs && prev == 13 then i - 1 else i
        let rows := pushRow o buf rows rs e
        if rows.length ≥ o.maxRows then (rows, i + 1) else findRowsLoop o d buf (c' :: rest) (i + 1) c inQ (i + 1) rows
      else if c == 13 && c' != 10 then
        let rows := pushRow o buf rows rs i
        if rows.length ≥ o.maxRows then (rows, i + 1) else findRowsLoop o d buf (c' :: rest) (i + 1) c inQ (i + 1) rows
      else findRowsLoop o d buf (c' :: rest) (i + 1) c inQ rs rows
    else findRowsLoop o d buf (c' :: rest) (i + 1) c inQ rs rows

/-- `find_rows` (dialect.cpp:749-823). -/
def findRows (o : DetectOptions) (d : Dialect) (buf : List UInt8) : List (Nat × Nat) :=
  let r := findRowsLoop o d buf buf 0 0 false 0 []
  if r.2 < buf.length && r.1.length < o.maxRows then
    if !isCommentLine o (buf.drop r.2) then r.1 ++ [(r.2, buf.length)] else r.1
  else r.1

/-- The splitting loop of `extract_fields` (dialect.cpp:837-860); `cur` is the field so far. -/
def extractLoop (d : Dialect) : List UInt8 → Bool → List UInt8 → List (List UInt8)
  | [], _, cur => [cur]
  | [c], inQ, cur =>
    if d.quotes c then [cur ++ [c]]
    else if !inQ && c == d.delimiter then [cur, []]
    else [cur ++ [c]]
  | c :: c' :: rest, inQ, cur =>
    if d.escapes c then extractLoop d rest inQ (cur ++ [c, c'])
    else if d.quotes c then
      if d.doubleQuote && c' == d.quote then extractLoop d rest inQ (cur ++ [c, c'])
      else extractLoop d (c' :: rest) (!inQ) (cur ++ [c])
    else if !inQ && c == d.delimiter then cur :: extractLoop d (c' :: rest) inQ []
    else extractLoop d (c' :: rest) inQ (cur ++ [c])

/-- Quote removal at the end of `extract_fields` (dialect.cpp:865-871). -/
def stripQuotes (d : Dialect) (f : List UInt8) : List UInt8 :=
  if f.length ≥ 2 && d.quote != 0 && f.head? == some d.quote && f.getLast? == some d.quote then (f.drop 1).dropLast else f

/-- `extract_fields` (dialect.cpp:825-873). -/
def extractFields (d : Dialect) (row : List UInt8) : List (List UInt8) :=
  if row.isEmpty then [] else (extractLoop d row false []).map (stripQuotes d)

/-- Skip to the end of a line and over its terminator (dialect.cpp:1105-1121): number of bytes. -/
def skipLine : List UInt8 → Nat
  | [] => 0
  | 13 :: 10 :: _ => 2
  | c :: rest => if c == 13 || c == 10 then 1 else skipLine rest + 1

/-- Blanks at the start (dialect.cpp:727-733, 1077-1083). -/
def blanks (l : List UInt8) : Nat := (l.takeWhile (fun c => c == 32 || c == 9)).length

theorem skipLine_pos : ∀ l : List UInt8, l ≠ [] → 0 < skipLine l := by
  intro l hl
  cases l with
  | nil => exact absurd rfl hl
  | cons c rest => rw [skipLine.eq_def]; split <;> (try split) <;> first | omega | simp_all

/-- The loop of `skip_comment_lines` (dialect.cpp:1074-1122): offset, comment character and number of lines;
`rest` is the buffer from `offset` on. -/
def skipCommentsLoop (chars : List UInt8) (rest : List UInt8) (offset : Nat) (cc : UInt8) (lines : Nat) : Nat × UInt8 × Nat :=
  if rest = [] then (offset, cc, lines)
  else
    let n := blanks rest
    match h : rest.drop n with
    | [] => (offset + n, cc, lines)
    | c :: t =>
      if !chars.contains c then (offset, cc, lines)
      else
        let k := n + skipLine (c :: t)
        skipCommentsLoop chars (rest.drop k) (offset + k) (if cc == 0 then c else cc) (lines + 1)
termination_by rest.length
decreasing_by
  have h1 := skipLine_pos (c :: t) (by simp)
  have h2 : (rest.drop n).length = t.length + 1 := by rw [h]; rfl
  simp only [List.length_drop] at h2 ⊢
  omega

/-- `skip_comment_lines` (dialect.cpp:1063-1126). -/
def skipCommentLines (o : DetectOptions) (buf : List UInt8) : Nat × UInt8 × Nat :=
  if buf.isEmpty || o.commentChars.isEmpty then (0, 0, 0) else skipCommentsLoop o.commentChars buf 0 0 0

/-- `Dialect::LineEnding` (dialect.h:42). -/
inductive LineEnding where | LF | CRLF | CR | MIXED | UNKNOWN
deriving DecidableEq, Repr

/-- The loop of `detect_line_ending` (dialect.cpp:643-658): (has_crlf, has_lf, has_cr). -/
def lineEndingLoop : List UInt8 → Bool × Bool × Bool → Bool × Bool × Bool
  | [], s => s
  | 13 :: 10 :: rest, (_, lf, cr) => lineEndingLoop rest (true, lf, cr)
  | c :: rest, (crlf, lf, cr) =>
    if c == 13 then lineEndingLoop rest (crlf, lf, true)
    else if c == 10 then lineEndingLoop rest (crlf, true, cr)
    else lineEndingLoop rest (crlf, lf, cr)

/-- `detect_line_ending` (dialect.cpp:641-671). -/
def detectLineEnding (buf : List UInt8) : LineEnding :=
  let r := lineEndingLoop buf (false, false, false)
  let count := r.1.toNat + r.2.1.toNat + r.2.2.toNat
  if count > 1 then .MIXED
  else if r.1 then .CRLF
  else if r.2.1 then .LF
  else if r.2.2 then .CR
  else .UNKNOWN

/-- The counting loop of `detect_escape_pattern` (dialect.cpp:427-439): (escape char + quote, quote + quote). -/
def escapePairs (q e : UInt8) : List UInt8 → Nat × Nat
  | c :: c' :: rest =>
    let r := escapePairs q e (c' :: rest)
    ((if e != q && c == e && c' == q then 1 else 0) + r.1, (if c == q && c' == q then 1 else 0) + r.2)
  | _ => (0, 0)

/-- `detect_escape_pattern` (dialect.cpp:420-448). -/
def escapeSignal (q e : UInt8) (buf : List UInt8) : Int :=
  let r := escapePairs q e buf
  if r.1 > 0 ∧ r.2 = 0 then r.1 else if r.2 > 0 ∧ r.1 = 0 then -r.2 else 0

/-- The parts of the scoring that are a matter of arithmetic and cell types: pattern score and modal column count as
functions of the row field counts (dialect.cpp:459-479, 544-559), the type score as a function of the fields
(562-639), and the combination (482-499).  They may be anything. -/
structure ScoreFns where
  pattern : List Nat → Rat
  modal : List Nat → Nat
  types : List (List (List UInt8)) → Rat
  combine : Rat → Nat → Rat → Rat

/-- The fields of all rows (dialect.cpp:450-458, 526-540). -/
def allFields (o : DetectOptions) (d : Dialect) (buf : List UInt8) : List (List (List UInt8)) :=
  (findRows o d buf).map (fun r => extractFields d ((buf.drop r.1).take (r.2 - r.1)))

/-- `score_dialect` with `compute_pattern_score` and `compute_type_score` (dialect.cpp:450-524, 526-639). -/
def scoreDialect (A : ScoreFns) (o : DetectOptions) (d : Dialect) (buf : List UInt8) : DialectCandidate :=
  let fields := allFields o d buf
  let counts := fields.map List.length
  if fields.length < o.minRows ∨ counts = [] then { dialect := d }
  else
    let s := A.combine (A.pattern counts) (A.modal counts) (A.types (if fields.length > 1 then fields.drop 1 else fields))
    let s :=
      if d.quote ≠ 0 then
        let e := if d.doubleQuote then 0 else d.escape
        if e ≠ 0 then
          let sig := escapeSignal d.quote e buf
          if sig > 0 ∧ d.doubleQuote = false then s * (12 / 10)
          else if sig < 0 ∧ d.doubleQuote then s * (12 / 10) else s
        else if d.doubleQuote then
          if escapeSignal d.quote d.quote buf < 0 then s * (11 / 10) else s
        else s
      else s
    { dialect := d, score := s, columns := A.modal counts }

/-- The candidates as sorted by `detect` (dialect.cpp:322-332). -/
def scoredCandidates (A : ScoreFns) (o : DetectOptions) (buf : List UInt8) : List DialectCandidate :=
  (generateCandidates o).map (fun d => scoreDialect A o d buf)

/-- How much of the data after the comments `detect` looks at (dialect.cpp:283-317). -/
def sampleLen (o : DetectOptions) (data : List UInt8) : Nat :=
  let cap := 1024 * 1024
  let first := (data.take o.sampleSize).findIdx? (· == 10)
  let eff :=
    match first with
    | some i => let needed := (i + 1) * (o.minRows + 1); if needed > o.sampleSize then min needed cap else o.sampleSize
    | none => if data.length > o.sampleSize then min (o.sampleSize * 4) cap else o.sampleSize
  min data.length eff

end Vroom
