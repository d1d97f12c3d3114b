import Verif.Model.Cli
/-
The command line of the tool, /repo/src/cli.cpp: `main`, `parseCommonOptions`, the argument loop of `cmd_convert`.
Arguments are byte strings without the program name.
-/
namespace Vroom

/-- `isspace` in the C locale (C library, used by `stoul` in cli.cpp:286). -/
def isSpaceC (c : UInt8) : Bool := c == 32 || (9 ≤ c && c ≤ 13)

/-- Digits of `strtoul`, base 10: the value of the leading digits, `none` if there are none (C library, used by `stoul` in cli.cpp:286). -/
def leadDigits (s : Bytes) : Option Nat :=
  let ds := s.takeWhile (fun c => decide (48 ≤ c ∧ c ≤ 57))
  if ds = [] then none else some (decDigits ds)

/-- `std::stoul` (C library semantics): leading white space, a sign, then digits; what follows is ignored; a negative number wraps.
`none`: an exception (no digits, or out of range), which nobody catches (called in cli.cpp:286, 292, 338, 392, 398, 422). -/
def stoul (s : Bytes) : Option Nat :=
  let s := s.dropWhile isSpaceC
  let neg := s.head? = some 45
  let s := if s.head? = some 45 ∨ s.head? = some 43 then s.tail else s
  match leadDigits s with
  | none => none
  | some n => if n ≥ 2 ^ 64 then none else if neg then some ((2 ^ 64 - n) % 2 ^ 64) else some n

/-- `CommonOptions` (cli.cpp:261-274). -/
structure CliOpts where
  input : Bytes := []
  delimiter : UInt8 := 44
  quote : UInt8 := 34
  hasHeader : Bool := true
  threads : Nat := 0
  rows : Nat := 10
  progress : Bool := false
  verbose : Bool := false
  mode : ErrMode := .disabled
  maxErrors : Nat := 10000
  columns : Bytes := []
deriving DecidableEq, Repr

/-- The comparisons of an argument with the known option names, in order (cli.cpp:281-351). -/
inductive Opt where
  | rows | threads | delimiter | quote | noHeader | progress | verbose | strict | permissive | maxErrors | columns | help | other
deriving DecidableEq, Repr

/-- The `strcmp` tests of cli.cpp:281-351. -/
def optOf (arg : Bytes) : Opt :=
  if arg = asc "-n" ∨ arg = asc "--rows" then .rows
  else if arg = asc "-j" ∨ arg = asc "-t" ∨ arg = asc "--threads" then .threads
  else if arg = asc "-d" ∨ arg = asc "--delimiter" then .delimiter
  else if arg = asc "-q" ∨ arg = asc "--quote" then .quote
  else if arg = asc "--no-header" ∨ arg = asc "-H" then .noHeader
  else if arg = asc "-p" ∨ arg = asc "--progress" then .progress
  else if arg = asc "-v" ∨ arg = asc "--verbose" then .verbose
  else if arg = asc "--strict" then .strict
  else if arg = asc "--permissive" then .permissive
  else if arg = asc "--max-errors" then .maxErrors
  else if arg = asc "-c" ∨ arg = asc "--columns" then .columns
  else if arg = asc "-h" ∨ arg = asc "--help" then .help
  else .other

/-- The value of `-d` (cli.cpp:299-319); `none`: an error message and exit code 1. -/
def delimiterArg (s : Bytes) : Option UInt8 :=
  if s = asc "\\t" ∨ s = asc "tab" then some 9
  else if s = asc "comma" then some 44
  else if s = asc "semicolon" then some 59
  else if s = asc "pipe" then some 124
  else if s = asc "colon" then some 58
  else match s with
    | [c] => some c
    | _ => none

/-- `argv[i][0]`: the terminating zero for an empty argument (cli.cpp:322, 404, 410). -/
def firstChar (s : Bytes) : UInt8 := s.headD 0

/-- `--max-errors N` also leaves the disabled mode (cli.cpp:335-342). -/
def CliOpts.withMaxErrors (o : CliOpts) (n : Nat) : CliOpts :=
  { o with maxErrors := n, mode := if o.mode = .disabled then .permissive else o.mode }

/-- How argument parsing ends: settings; an error message and exit code 1; the usage text and exit code 0; an uncaught
exception of `stoul` (cli.cpp:277-359, 374-440). -/
inductive Parsed (α : Type) where
  | ok (o : α)
  | fail
  | help
  | abort
deriving DecidableEq, Repr

/-- `parseCommonOptions` (cli.cpp:277-359). An unknown option ends the loop; the callers only test for a negative result, so
the settings found up to there are used. -/
def parseCommon (o : CliOpts) : List Bytes → Parsed CliOpts
  | [] => .ok o
  | arg :: rest =>
    match optOf arg with
    | .rows => match rest with
      | [] => .fail
      | v :: rest => match stoul v with
        | none => .abort
        | some n => parseCommon { o with rows := n } rest
    | .threads => match rest with
      | [] => .fail
      | v :: rest => match stoul v with
        | none => .abort
        | some n => parseCommon { o with threads := n } rest
    | .delimiter => match rest with
      | [] => .fail
      | v :: rest => match delimiterArg v with
        | none => .fail
        | some c => parseCommon { o with delimiter := c } rest
    | .quote => match rest with
      | [] => .fail
      | v :: rest => parseCommon { o with quote := firstChar v } rest
    | .noHeader => parseCommon { o with hasHeader := false } rest
    | .progress => parseCommon { o with progress := true } rest
    | .verbose => parseCommon { o with verbose := true } rest
    | .strict => parseCommon { o with mode := .failFast } rest
    | .permissive => parseCommon { o with mode := .permissive } rest
    | .maxErrors => match rest with
      | [] => .fail
      | v :: rest => match stoul v with
        | none => .abort
        | some n => parseCommon (o.withMaxErrors n) rest
    | .columns =>
      if o.columns = [] then
        match rest with
        | [] => .fail
        | v :: rest => parseCommon { o with columns := v } rest
      else .ok o
    | .help => .help
    | .other =>
      if firstChar arg ≠ 45 ∧ o.input = [] then parseCommon { o with input := arg } rest
      else if firstChar arg = 45 then .ok o
      else parseCommon o rest

/-! ### The arguments of `convert` -/

/-- Option names of `cmd_convert`, in order (cli.cpp:377-440). -/
inductive ConvOpt where
  | output | compression | rowGroup | threads | delimiter | quote | noHeader | strict | permissive | maxErrors | progress | verbose | help
  | command | other
deriving DecidableEq, Repr

/-- The `strcmp` tests of cli.cpp:377-440. -/
def convOptOf (arg : Bytes) : ConvOpt :=
  if arg = asc "-o" ∨ arg = asc "--output" then .output
  else if arg = asc "-c" ∨ arg = asc "--compression" then .compression
  else if arg = asc "-r" ∨ arg = asc "--row-group" then .rowGroup
  else if arg = asc "-j" ∨ arg = asc "--threads" then .threads
  else if arg = asc "-d" ∨ arg = asc "--delimiter" then .delimiter
  else if arg = asc "-q" ∨ arg = asc "--quote" then .quote
  else if arg = asc "--no-header" then .noHeader
  else if arg = asc "--strict" then .strict
  else if arg = asc "--permissive" then .permissive
  else if arg = asc "--max-errors" then .maxErrors
  else if arg = asc "-p" ∨ arg = asc "--progress" then .progress
  else if arg = asc "-v" ∨ arg = asc "--verbose" then .verbose
  else if arg = asc "-h" ∨ arg = asc "--help" then .help
  else if arg = asc "convert" then .command
  else .other

/-- Local variables of `cmd_convert` (cli.cpp:368-371). -/
structure ConvOpts where
  common : CliOpts := {}
  output : Bytes := []
  compression : Bytes := asc "zstd"
  rowGroup : Nat := 1000000
deriving DecidableEq, Repr

/-- The argument loop of `cmd_convert` (cli.cpp:374-440). -/
def parseConvert (o : ConvOpts) : List Bytes → Parsed ConvOpts
  | [] => .ok o
  | arg :: rest =>
    match convOptOf arg with
    | .output => match rest with
      | [] => .fail
      | v :: rest => parseConvert { o with output := v } rest
    | .compression => match rest with
      | [] => .fail
      | v :: rest => parseConvert { o with compression := v } rest
    | .rowGroup => match rest with
      | [] => .fail
      | v :: rest => match stoul v with
        | none => .abort
        | some n => parseConvert { o with rowGroup := n } rest
    | .threads => match rest with
      | [] => .fail
      | v :: rest => match stoul v with
        | none => .abort
        | some n => parseConvert { o with common := { o.common with threads := n } } rest
    | .delimiter => match rest with
      | [] => .fail
      | v :: rest => parseConvert { o with common := { o.common with delimiter := firstChar v } } rest
    | .quote => match rest with
      | [] => .fail
      | v :: rest => parseConvert { o with common := { o.common with quote := firstChar v } } rest
    | .noHeader => parseConvert { o with common := { o.common with hasHeader := false } } rest
    | .strict => parseConvert { o with common := { o.common with mode := .failFast } } rest
    | .permissive => parseConvert { o with common := { o.common with mode := .permissive } } rest
    | .maxErrors => match rest with
      | [] => .fail
      | v :: rest => match stoul v with
        | none => .abort
        | some n => parseConvert { o with common := o.common.withMaxErrors n } rest
    | .progress => parseConvert { o with common := { o.common with progress := true } } rest
    | .verbose => parseConvert { o with common := { o.common with verbose := true } } rest
    | .help => .help
    | .command => parseConvert o rest
    | .other =>
      if firstChar arg ≠ 45 ∧ o.common.input = [] then parseConvert { o with common := { o.common with input := arg } } rest
      else .fail

/-- The names of `-c` (cli.cpp:478-490). -/
def compressionArg (s : Bytes) : Option Compression :=
  if s = asc "zstd" then some .zstd
  else if s = asc "snappy" then some .snappy
  else if s = asc "lz4" then some .lz4
  else if s = asc "gzip" then some .gzip
  else if s = asc "none" then some .none
  else none

/-- What `cmd_convert` does with its arguments before the conversion (cli.cpp:374-490): run it with these settings, or end with an exit code. -/
inductive ConvPlan where
  | run (o : ConvOpts) (c : Compression)
  | exit (code : Nat)
  | abort
deriving DecidableEq, Repr

/-- `cmd_convert` up to the conversion, cli.cpp:374-490. -/
def convertPlan (args : List Bytes) : ConvPlan :=
  match parseConvert {} args with
  | .fail => .exit 1
  | .help => .exit 0
  | .abort => .abort
  | .ok o =>
    if o.common.input = [] then .exit 1
    else if o.output = [] then .exit 1
    else match compressionArg o.compression with
      | none => .exit 1
      | some c => .run o c

/-- Exit code of `cmd_convert` after the conversion (cli.cpp:511-542); `hadErrors`: `result.parse_errors` is not empty. -/
def convertExit (mode : ErrMode) (r : ConvResult) (hadErrors : Bool) : Nat :=
  if r.ok = false then 1
  else if hadErrors = true ∧ mode = .failFast then 1
  else 0

/-! ### `main` -/

/-- "NA,null,NULL,", "true,TRUE,…", "false,FALSE,…" (options.h:20-22) -/
def nullDefault : Bytes := asc "NA,null,NULL,"
/-- `true_values`, options.h:21. -/
def trueDefault : Bytes := asc "true,TRUE,True,yes,YES,Yes"
/-- `false_values`, options.h:22. -/
def falseDefault : Bytes := asc "false,FALSE,False,no,NO,No"

/-- The machine and the libraries: formatted output, number recognition, SIMD width, number of threads chosen for 0, compressors,
what lies behind the input buffer (see `ReadCfg.junk`), and the usage and version texts (not code of /repo: what cli.cpp:459-1138 depends on besides arguments and input). -/
structure Machine where
  L : Libc
  cpu : Cpu
  lanes : Nat
  isFloat : Bytes → Bool
  floatBits : Bytes → Option UInt64
  autoThreads : Nat
  junk : Bool
  compress : Compression → List UInt8 → List UInt8
  ratioLt : StrColumn → Bool
  usage : Bytes
  version : Bytes

/-- The options passed to the library (cli.cpp:463-476, 562-570 and the same lines in the other commands; options.h:14-50;
for `convert` also the compression). -/
def Machine.fileOpts (m : Machine) (o : CliOpts) (c : Compression) : FileOpts :=
  { infer := { cpu := m.cpu, sep := o.delimiter, quote := o.quote, hasHeader := o.hasHeader, nullValues := nullDefault,
               trueValues := trueDefault, falseValues := falseDefault, isFloat := m.isFloat }
    nThreads := if o.threads > 0 then o.threads else m.autoThreads
    sampleRows := 1000, mode := o.mode, maxErrors := o.maxErrors, junk := m.junk, lanes := m.lanes, floatBits := m.floatBits
    env := { compression := c, enableDictionary := false, compress := m.compress, ratioLt := m.ratioLt } }

/-- A file system: a path gives the bytes of a readable file, or the message of the failing `open` (not code of /repo: the file system, as mmap_source.cpp:22-57 sees it). -/
abbrev Files := Bytes → CliInput

/-- `opts.input_path.empty() || isStdinInput(…)` (cli.cpp:94-96, 575). -/
def isStdin (path : Bytes) : Bool := path = [] ∨ path = asc "-" ∨ path = asc "/dev/stdin"

/-- Where the bytes come from (cli.cpp:575-579, 646-649, 749-765, 868-871, 1004-1012). -/
def inputOf (stdin : Bytes) (files : Files) (path : Bytes) : CliInput := if isStdin path then .stdin stdin else files path

/-- Commands that read a CSV input (cli.cpp:1163-1218). -/
inductive CmdName where
  | count | head | info | select | pretty
deriving DecidableEq, Repr

/-- What a command does with its settings (cli.cpp:551-1138). -/
def CmdName.exec (cmd : CmdName) (m : Machine) (stdin : Bytes) (files : Files) (o : CliOpts) : Option CliOut :=
  let input := inputOf stdin files o.input
  let fo := m.fileOpts o .zstd
  match cmd with
  | .count => CliCmd.count.run m.L fo input
  | .head => (CliCmd.head o.rows).run m.L fo input
  | .pretty => (CliCmd.pretty o.rows).run m.L fo input
  | .info => (CliCmd.info (if isStdin o.input then asc "<stdin>" else o.input)).run m.L fo input
  | .select => if o.columns = [] then some (.exit 1 []) else (CliCmd.select o.columns).run m.L fo input

/-- A command with its arguments (the first lines of `cmd_count` etc.) (cli.cpp:551-573, 618-645, 729-748, 837-867, 979-1003). -/
def CmdName.main (cmd : CmdName) (m : Machine) (stdin : Bytes) (files : Files) (args : List Bytes) : Option CliOut :=
  match parseCommon {} args with
  | .fail => some (.exit 1 [])
  | .help => some (.exit 0 m.usage)
  | .abort => some .abort
  | .ok o => cmd.exec m stdin files o

/-- What `main` does (cli.cpp:1163-1218): end, run a command, or convert. -/
inductive MainPlan where
  | out (o : CliOut)
  | command (c : CmdName) (args : List Bytes)
  | convert (p : ConvPlan)

/-- `main`, cli.cpp:1159-1218. -/
def mainPlan (m : Machine) : List Bytes → MainPlan
  | [] => .out (.exit 1 m.usage)
  | cmd :: args =>
    if cmd = asc "help" ∨ cmd = asc "--help" ∨ cmd = asc "-h" then .out (.exit 0 m.usage)
    else if cmd = asc "version" ∨ cmd = asc "--version" ∨ cmd = asc "-V" then .out (.exit 0 m.version)
    else if cmd = asc "convert" then .convert (convertPlan (cmd :: args))
    else if cmd = asc "count" then .command .count args
    else if cmd = asc "head" then .command .head args
    else if cmd = asc "info" then .command .info args
    else if cmd = asc "select" then .command .select args
    else if cmd = asc "pretty" then .command .pretty args
    else if cmd = asc "tail" then .out (.exit 1 [])
    else if cmd = asc "sample" then .out (.exit 1 [])
    else if firstChar cmd ≠ 45 ∧ (46 : UInt8) ∈ cmd then .convert (convertPlan (cmd :: args))
    else .out (.exit 1 m.usage)

/-- The program without `convert`: exit code and standard output (`none`: undefined behaviour, C17, or a conversion) (cli.cpp:1159-1218). -/
def vroom (m : Machine) (stdin : Bytes) (files : Files) (args : List Bytes) : Option CliOut :=
  match mainPlan m args with
  | .out o => some o
  | .command c rest => c.main m stdin files rest
  | .convert _ => none

/-- A run of `vroom convert` that got as far as the conversion of the file at the input path, whose content is `data`: exit code, and the bytes of the output file, if it
was written (cli.cpp:505-543). -/
inductive VroomConverts (m : Machine) (w : ConvWorld) (data : Bytes) (args : List Bytes) : Nat → Option (List UInt8) → Prop
  | mk {o c r out} (hadErrors : Bool) : mainPlan m args = .convert (.run o c) → ConvertedFile (m.fileOpts o.common c) w data r out →
      (r.ok = true → hadErrors = !((openData (m.fileOpts o.common c).infer 1000 (ReaderState.new o.common.mode o.common.maxErrors) data).2.collector.errors).isEmpty) →
      VroomConverts m w data args (convertExit o.common.mode r hadErrors) out

end Vroom
