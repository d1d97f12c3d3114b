import Verif.Spec.Cli
import Verif.Model.CliArgs
/-
Specification of the command line: documented options with their values, in any order, and what they mean.
-/
namespace Vroom
open Spec

/-- One item of a command line. `long` chooses the long form of the name. Numbers are digit strings; a delimiter is given by one character or by
its name; a path does not begin with a minus sign. -/
inductive Item where
  | rows (long : Bool) (digits : List UInt8)
  | threads (long : Bool) (digits : List UInt8)
  | delimiter (long : Bool) (c : UInt8)
  | delimiterTab | delimiterComma | delimiterSemicolon | delimiterPipe | delimiterColon
  | quote (long : Bool) (c : UInt8)
  | noHeader
  | progress (long : Bool)
  | verbose (long : Bool)
  | strict
  | permissive
  | maxErrors (digits : List UInt8)
  | columns (long : Bool) (spec : List UInt8)
  | file (path : List UInt8)
deriving DecidableEq

/-- The arguments an item consists of. -/
def Item.args : Item → List (List UInt8)
  | .rows long ds => [asc (if long then "--rows" else "-n"), ds]
  | .threads long ds => [asc (if long then "--threads" else "-j"), ds]
  | .delimiter long c => [asc (if long then "--delimiter" else "-d"), [c]]
  | .delimiterTab => [asc "-d", asc "tab"]
  | .delimiterComma => [asc "-d", asc "comma"]
  | .delimiterSemicolon => [asc "-d", asc "semicolon"]
  | .delimiterPipe => [asc "-d", asc "pipe"]
  | .delimiterColon => [asc "-d", asc "colon"]
  | .quote long c => [asc (if long then "--quote" else "-q"), [c]]
  | .noHeader => [asc "--no-header"]
  | .progress long => [asc (if long then "--progress" else "-p")]
  | .verbose long => [asc (if long then "--verbose" else "-v")]
  | .strict => [asc "--strict"]
  | .permissive => [asc "--permissive"]
  | .maxErrors ds => [asc "--max-errors", ds]
  | .columns long s => [asc (if long then "--columns" else "-c"), s]
  | .file p => [p]

/-- Values as documented. -/
def Item.Valid : Item → Prop
  | .rows _ ds | .threads _ ds | .maxErrors ds => allDigits ds ∧ decValue ds < 2 ^ 64
  | .columns _ s => s ≠ []
  | .file p => p ≠ [] ∧ p.head? ≠ some 45
  | _ => True

/-- What an item says about one setting. -/
def Item.rows? : Item → Option Nat | .rows _ ds => some (decValue ds) | _ => none
def Item.threads? : Item → Option Nat | .threads _ ds => some (decValue ds) | _ => none
def Item.delimiter? : Item → Option UInt8
  | .delimiter _ c => some c
  | .delimiterTab => some 9
  | .delimiterComma => some 44
  | .delimiterSemicolon => some 59
  | .delimiterPipe => some 124
  | .delimiterColon => some 58
  | _ => none
def Item.quote? : Item → Option UInt8 | .quote _ c => some c | _ => none
def Item.noHeader? : Item → Option Unit | .noHeader => some () | _ => none
def Item.progress? : Item → Option Unit | .progress _ => some () | _ => none
def Item.verbose? : Item → Option Unit | .verbose _ => some () | _ => none
def Item.mode? : Item → Option ErrMode | .strict => some .failFast | .permissive => some .permissive | _ => none
def Item.maxErrors? : Item → Option Nat | .maxErrors ds => some (decValue ds) | _ => none
def Item.columns? : Item → Option (List UInt8) | .columns _ s => some s | _ => none
def Item.file? : Item → Option (List UInt8) | .file p => some p | _ => none

/-- The last item that sets something wins. -/
def lastOf {ι α : Type} (items : List ι) (f : ι → Option α) (default : α) : α := ((items.filterMap f).getLast?).getD default

/-- The settings a command line means: each setting is given by the last item about it; the input is the first path; giving an error limit
turns error collection on unless `--strict` or `--permissive` says how. -/
def settings (items : List Item) : CliOpts :=
  { input := (items.filterMap Item.file?).headD []
    delimiter := lastOf items Item.delimiter? 44
    quote := lastOf items Item.quote? 34
    hasHeader := (items.filterMap Item.noHeader?).isEmpty
    threads := lastOf items Item.threads? 0
    rows := lastOf items Item.rows? 10
    progress := !(items.filterMap Item.progress?).isEmpty
    verbose := !(items.filterMap Item.verbose?).isEmpty
    mode := lastOf items Item.mode? (if (items.filterMap Item.maxErrors?).isEmpty then .disabled else .permissive)
    maxErrors := lastOf items Item.maxErrors? 10000
    columns := (items.filterMap Item.columns?).headD [] }

/-- No setting is given twice. -/
def NoRepeat (items : List Item) : Prop :=
  (items.filterMap Item.rows?).length ≤ 1 ∧ (items.filterMap Item.threads?).length ≤ 1 ∧ (items.filterMap Item.delimiter?).length ≤ 1 ∧
  (items.filterMap Item.quote?).length ≤ 1 ∧ (items.filterMap Item.mode?).length ≤ 1 ∧ (items.filterMap Item.maxErrors?).length ≤ 1 ∧
  (items.filterMap Item.columns?).length ≤ 1 ∧ (items.filterMap Item.file?).length ≤ 1

/-! ### convert -/

/-- One item of the command line of `convert`. -/
inductive ConvItem where
  | output (long : Bool) (path : List UInt8)
  | compression (long : Bool) (c : Compression)
  | rowGroup (long : Bool) (digits : List UInt8)
  | threads (long : Bool) (digits : List UInt8)
  | delimiter (long : Bool) (c : UInt8)
  | quote (long : Bool) (c : UInt8)
  | noHeader
  | strict
  | permissive
  | maxErrors (digits : List UInt8)
  | progress (long : Bool)
  | verbose (long : Bool)
  | file (path : List UInt8)
deriving DecidableEq

/-- The name of a compression. -/
def compressionName : Compression → List UInt8
  | .zstd => asc "zstd"
  | .snappy => asc "snappy"
  | .lz4 => asc "lz4"
  | .gzip => asc "gzip"
  | .none => asc "none"

/-- The arguments an item consists of. -/
def ConvItem.args : ConvItem → List (List UInt8)
  | .output long p => [asc (if long then "--output" else "-o"), p]
  | .compression long c => [asc (if long then "--compression" else "-c"), compressionName c]
  | .rowGroup long ds => [asc (if long then "--row-group" else "-r"), ds]
  | .threads long ds => [asc (if long then "--threads" else "-j"), ds]
  | .delimiter long c => [asc (if long then "--delimiter" else "-d"), [c]]
  | .quote long c => [asc (if long then "--quote" else "-q"), [c]]
  | .noHeader => [asc "--no-header"]
  | .strict => [asc "--strict"]
  | .permissive => [asc "--permissive"]
  | .maxErrors ds => [asc "--max-errors", ds]
  | .progress long => [asc (if long then "--progress" else "-p")]
  | .verbose long => [asc (if long then "--verbose" else "-v")]
  | .file p => [p]

/-- Values as documented. -/
def ConvItem.Valid : ConvItem → Prop
  | .output _ p => p ≠ []
  | .rowGroup _ ds | .threads _ ds | .maxErrors ds => allDigits ds ∧ decValue ds < 2 ^ 64
  | .file p => p ≠ [] ∧ p.head? ≠ some 45 ∧ p ≠ asc "convert"
  | _ => True

def ConvItem.output? : ConvItem → Option (List UInt8) | .output _ p => some p | _ => none
def ConvItem.compression? : ConvItem → Option Compression | .compression _ c => some c | _ => none
def ConvItem.rowGroup? : ConvItem → Option Nat | .rowGroup _ ds => some (decValue ds) | _ => none
def ConvItem.threads? : ConvItem → Option Nat | .threads _ ds => some (decValue ds) | _ => none
def ConvItem.delimiter? : ConvItem → Option UInt8 | .delimiter _ c => some c | _ => none
def ConvItem.quote? : ConvItem → Option UInt8 | .quote _ c => some c | _ => none
def ConvItem.noHeader? : ConvItem → Option Unit | .noHeader => some () | _ => none
def ConvItem.mode? : ConvItem → Option ErrMode | .strict => some .failFast | .permissive => some .permissive | _ => none
def ConvItem.maxErrors? : ConvItem → Option Nat | .maxErrors ds => some (decValue ds) | _ => none
def ConvItem.progress? : ConvItem → Option Unit | .progress _ => some () | _ => none
def ConvItem.verbose? : ConvItem → Option Unit | .verbose _ => some () | _ => none
def ConvItem.file? : ConvItem → Option (List UInt8) | .file p => some p | _ => none

/-- The settings such a command line means. -/
def convSettings (items : List ConvItem) : ConvOpts :=
  { common :=
      { input := (items.filterMap ConvItem.file?).headD []
        delimiter := lastOf items ConvItem.delimiter? 44
        quote := lastOf items ConvItem.quote? 34
        hasHeader := (items.filterMap ConvItem.noHeader?).isEmpty
        threads := lastOf items ConvItem.threads? 0
        rows := 10
        progress := !(items.filterMap ConvItem.progress?).isEmpty
        verbose := !(items.filterMap ConvItem.verbose?).isEmpty
        mode := lastOf items ConvItem.mode? (if (items.filterMap ConvItem.maxErrors?).isEmpty then .disabled else .permissive)
        maxErrors := lastOf items ConvItem.maxErrors? 10000
        columns := [] }
    output := lastOf items ConvItem.output? []
    compression := compressionName (lastOf items ConvItem.compression? .zstd)
    rowGroup := lastOf items ConvItem.rowGroup? 1000000 }

/-- The options the library is called with when the user asked for the settings `s` (and, for a conversion, the compression `c`) on the machine `m`. -/
structure Follows (m : Machine) (s : CliOpts) (c : Compression) (fo : FileOpts) : Prop where
  sep : fo.infer.sep = s.delimiter
  quote : fo.infer.quote = s.quote
  hasHeader : fo.infer.hasHeader = s.hasHeader
  nulls : fo.infer.nullValues = asc "NA,null,NULL,"
  trues : fo.infer.trueValues = asc "true,TRUE,True,yes,YES,Yes"
  falses : fo.infer.falseValues = asc "false,FALSE,False,no,NO,No"
  threads : fo.nThreads = if s.threads = 0 then m.autoThreads else s.threads
  sample : fo.sampleRows = 1000
  mode : fo.mode = s.mode
  maxErrors : fo.maxErrors = s.maxErrors
  compression : fo.env.compression = c
  dictionary : fo.env.enableDictionary = false
  machine : fo.infer.cpu = m.cpu ∧ fo.infer.isFloat = m.isFloat ∧ fo.junk = m.junk ∧ fo.lanes = m.lanes ∧ fo.floatBits = m.floatBits ∧
    fo.env.compress = m.compress ∧ fo.env.ratioLt = m.ratioLt

/-- Where the data of a command comes from: the file named, or standard input if none is. -/
def source (stdin : List UInt8) (files : Files) (s : CliOpts) : CliInput :=
  if s.input = [] ∨ s.input = asc "-" ∨ s.input = asc "/dev/stdin" then .stdin stdin else files s.input

/-- The command with the settings that concern it; `select` needs `-c`. -/
def CmdName.command (cmd : CmdName) (s : CliOpts) : Option CliCmd :=
  match cmd with
  | .count => some .count
  | .head => some (.head s.rows)
  | .pretty => some (.pretty s.rows)
  | .select => if s.columns = [] then none else some (.select s.columns)
  | .info => some (.info (if s.input = [] ∨ s.input = asc "-" ∨ s.input = asc "/dev/stdin" then asc "<stdin>" else s.input))

end Vroom
