import Verif.Model.Convert
import Verif.Model.Open
import Verif.Model.Chunking
/-
`convert_csv_to_parquet` from the input file on (/repo/src/reader/csv_reader.cpp:831-1136): the reader is created
and opened (schema, data start), the table is read with the code's own thresholds, and the result is written.
-/
namespace Vroom

/-- Options of a conversion and the facts about the machine it runs on (options.h:14-70): CSV options, number of
worker threads (after auto-detection, csv_reader.cpp:267-276), sampled rows, error mode and limit, the Parquet
options, and the external float parser. -/
structure FileOpts where
  infer : InferCfg
  nThreads : Nat
  sampleRows : Nat := 1000
  mode : ErrMode
  maxErrors : Nat
  junk : Bool := false
  lanes : Nat
  floatBits : Bytes → Option UInt64
  env : WEnv

/-- The reader's configuration (csv_reader.cpp:744-776). -/
def FileOpts.read (o : FileOpts) : ReadCfg :=
  { cpu := o.infer.cpu, sep := o.infer.sep, quote := o.infer.quote, nullValues := o.infer.nullValues, junk := o.junk }

/-- What the second half of the conversion depends on, after `open` (csv_reader.cpp:529-537, 958). -/
def FileOpts.conv (o : FileOpts) (st : ReaderState) (file : Bytes) : ConvCfg :=
  { read := o.read, threshold := 1024 * 1024,
    chunkSize := calculateChunkSize (file.length - st.dataStart) st.schema.length o.nThreads,
    lanes := o.lanes, floatBits := o.floatBits, schema := st.schema, env := o.env, target := targetRowGroupSize }

/-- Messages of a failing `open` (csv_reader.cpp:297, 317). -/
def OpenErr.msg : OpenErr → List UInt8
  | .emptyFile => "Empty file".toUTF8.toList
  | .emptyHeader => "Header row is empty".toUTF8.toList

/-- A conversion of an input file with the bytes `file`: the result, and the bytes of the output file if there is one.
`unmapped`: the input cannot be mapped (csv_reader.cpp:283-287; the message is `w.openErr`); `rejected`: `open` refuses the content;
`opened`: everything else, see `Converted`. -/
inductive ConvertedFile (o : FileOpts) (w : ConvWorld) (file : Bytes) : ConvResult → Option (List UInt8) → Prop
  | unmapped (m : List UInt8) : w.openErr = some m → ConvertedFile o w file { error := m } none
  | rejected {e st} : w.openErr = none → openData o.infer o.sampleRows (ReaderState.new o.mode o.maxErrors) file = (some e, st) →
      ConvertedFile o w file { error := e.msg } none
  | opened {st r out} : w.openErr = none → openData o.infer o.sampleRows (ReaderState.new o.mode o.maxErrors) file = (none, st) →
      Converted (o.conv st file) w file st.dataStart r out → ConvertedFile o w file r out

end Vroom
