import Verif.Model.Errors
import Verif.Model.Cli
/-
Model of the texts made from parse errors: /repo/src/error.cpp, `ParseException` (/repo/include/libvroom/error.h:472-509)
and `ConversionResult::error_summary` (/repo/include/libvroom/vroom.h:66-98).  An `ostringstream` is the text written so
far; `size_t` in decimal is `toString`.
-/
namespace Vroom

/-- `ErrorCode` (error.h:37-68). -/
inductive ErrCode where
  | none | unclosedQuote | invalidQuoteEscape | quoteInUnquotedField | inconsistentFieldCount | fieldTooLarge | mixedLineEndings
  | invalidUtf8 | nullByte | emptyHeader | duplicateColumnNames | ambiguousSeparator | fileTooLarge | indexAllocationOverflow
  | ioError | internalError
deriving DecidableEq, Repr

/-- `error_code_to_string` (error.cpp:7-46). -/
def ErrCode.name : ErrCode → Bytes
  | .none => asc "NONE"
  | .unclosedQuote => asc "UNCLOSED_QUOTE"
  | .invalidQuoteEscape => asc "INVALID_QUOTE_ESCAPE"
  | .quoteInUnquotedField => asc "QUOTE_IN_UNQUOTED_FIELD"
  | .inconsistentFieldCount => asc "INCONSISTENT_FIELD_COUNT"
  | .fieldTooLarge => asc "FIELD_TOO_LARGE"
  | .mixedLineEndings => asc "MIXED_LINE_ENDINGS"
  | .invalidUtf8 => asc "INVALID_UTF8"
  | .nullByte => asc "NULL_BYTE"
  | .emptyHeader => asc "EMPTY_HEADER"
  | .duplicateColumnNames => asc "DUPLICATE_COLUMN_NAMES"
  | .ambiguousSeparator => asc "AMBIGUOUS_SEPARATOR"
  | .fileTooLarge => asc "FILE_TOO_LARGE"
  | .indexAllocationOverflow => asc "INDEX_ALLOCATION_OVERFLOW"
  | .ioError => asc "IO_ERROR"
  | .internalError => asc "INTERNAL_ERROR"

/-- `error_severity_to_string` (error.cpp:48-62). -/
def Severity.name : Severity → Bytes
  | .warning => asc "WARNING"
  | .recoverable => asc "ERROR"
  | .fatal => asc "FATAL"

/-- `ParseError` with all its fields (error.h:117-152). -/
structure Diag where
  code : ErrCode
  severity : Severity
  line : Nat
  column : Nat
  offset : Nat
  message : Bytes
  context : Bytes := []
deriving DecidableEq, Repr

/-- `ParseError::to_string` (error.cpp:80-91). -/
def Diag.text (e : Diag) : Bytes :=
  asc "[" ++ e.severity.name ++ asc "] " ++ e.code.name ++ asc " at line " ++ asc (toString e.line) ++ asc ", column " ++
    asc (toString e.column) ++ asc " (byte " ++ asc (toString e.offset) ++ asc "): " ++ e.message ++
    (if e.context ≠ [] then asc "\n  Context: " ++ e.context else [])

/-- The counting loop (error.cpp:101-115, vroom.h:69-82): warnings, errors, fatal. -/
def severityCounts : List Diag → Nat × Nat × Nat
  | [] => (0, 0, 0)
  | e :: es =>
    let (w, r, f) := severityCounts es
    match e.severity with
    | .warning => (w + 1, r, f)
    | .recoverable => (w, r + 1, f)
    | .fatal => (w, r, f + 1)

/-- The first line of the summary (error.cpp:117-125). -/
def summaryHead (es : List Diag) : Bytes :=
  let (w, r, f) := severityCounts es
  asc "Total errors: " ++ asc (toString es.length) ++
    (if w > 0 then asc " (Warnings: " ++ asc (toString w) else []) ++
    (if r > 0 then asc ", Errors: " ++ asc (toString r) else []) ++
    (if f > 0 then asc ", Fatal: " ++ asc (toString f) else []) ++
    (if w > 0 ∨ r > 0 ∨ f > 0 then asc ")" else [])

/-- `ErrorCollector::summary` (error.cpp:93-140) of the recorded errors and the number of suppressed ones. -/
def summaryText (es : List Diag) (suppressed : Nat) : Bytes :=
  if es = [] ∧ suppressed = 0 then asc "No errors"
  else
    summaryHead es ++
    (if suppressed > 0 then asc "\nError limit reached: " ++ asc (toString suppressed) ++ asc " additional error" ++
      (if suppressed = 1 then [] else asc "s") ++ asc " suppressed" else []) ++
    (if es ≠ [] then asc "\n\nDetails:\n" ++ (es.map (fun e => e.text ++ [LF])).flatten else [])

/-- `what()` of a `ParseException` made from a list of errors (error.cpp:142-154, error.h:485-486); from a single error
it is the message (error.h:478-479). -/
def exceptionText (es : List Diag) : Bytes :=
  match es with
  | [] => asc "Parse error"
  | [e] => e.message
  | es => asc "Multiple parse errors (" ++ asc (toString es.length) ++ asc "):\n" ++
      (es.map (fun e => asc "  - " ++ e.text ++ [LF])).flatten

/-- `ConversionResult::error_summary` (vroom.h:66-98). -/
def errorSummary (es : List Diag) : Bytes :=
  if es = [] then asc "No errors"
  else
    let (w, r, f) := severityCounts es
    let t := if f > 0 then asc (toString f) ++ asc " fatal" else []
    let t := if r > 0 then (if t ≠ [] then t ++ asc ", " else t) ++ asc (toString r) ++ asc " errors" else t
    if w > 0 then (if t ≠ [] then t ++ asc ", " else t) ++ asc (toString w) ++ asc " warnings" else t

end Vroom
