import Verif.Spec.Cli
import Verif.Spec.WindowRow
/-
A CSV file the reader handles, with the exact condition on separators and line ends in quotes (`FileClear`) in place of an order of quoted and unquoted fields.
-/
namespace Vroom.Spec
open Parquet

/-- `data` is a CSV file with these column names and rows, in a sane dialect; its rows are clear, and if there is 1 MiB of data or more no nominal chunk end is inside quotes. -/
structure ClearCsv (o : FileOpts) (data : List UInt8) (names : List (List UInt8)) (rows : List WRow) : Prop where
  input : CsvInput o data names rows
  sane : ReadSane o.infer.marks
  fields : ∀ r ∈ rows, r.fields ≠ []
  wf : ∀ r ∈ rows, ∀ f ∈ r.fields, f.WF o.infer.marks
  clear : FileClear o.infer.marks rows
  cuts : 2 ^ 20 ≤ (renderFile o.infer.marks rows).length →
    TargetsOutside o.read data (data.length - (renderFile o.infer.marks rows).length)
      (calculateChunkSize (renderFile o.infer.marks rows).length names.length o.nThreads)

end Vroom.Spec
