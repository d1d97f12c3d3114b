import Verif.Props.QuoteParity
import Verif.Props.RowScan
import Verif.Props.Reader
import Verif.Props.Pool
import Verif.Props.ReaderSkip
import Verif.Props.Types
import Verif.Props.Atoi
import Verif.Props.Dates
import Verif.Props.DatesExact
import Verif.Props.Inference
import Verif.Props.Errors
import Verif.Props.Queue
import Verif.Props.Buffers
import Verif.Props.Encoding
import Verif.Props.Plain
import Verif.Props.Dictionary
import Verif.Props.Delta
import Verif.Spec.DeltaGap
import Verif.Props.DeltaExact
import Verif.Props.DeltaWide
import Verif.Props.Thrift
import Verif.Props.ParquetPage
import Verif.Props.ParquetFile
import Verif.Props.Convert
import Verif.Props.EndToEnd
import Verif.Props.SplitLine
import Verif.Props.Open
import Verif.Props.Statistics
import Verif.Props.Legacy
import Verif.Props.Dialect
import Verif.Lemmas.PageSize
import Verif.Props.ReaderBounds
import Verif.Props.WriterApi
import Verif.Props.ChunkSize
import Verif.Lemmas.Batches
import Verif.Props.ConvertFile
import Verif.Props.Cli
import Verif.Props.CliFile
import Verif.Props.CliArgs
import Verif.Props.Python
import Verif.Props.PythonExact
import Verif.Props.PyLife
import Verif.Props.LineParser
import Verif.Props.Diagnostics
import Verif.Props.Displayed
import Verif.Props.DisplayedFloat
import Verif.Props.CellType
import Verif.Props.Detect
import Verif.Props.DetectQuoted
import Verif.Props.DialectText
import Verif.Props.DetectReport
import Verif.Props.MemSafe
import Verif.Props.ReaderLife
import Verif.Props.BufLife
import Verif.Props.AnyInput
import Verif.Props.AnyConvert
import Verif.Model.MemValue
import Verif.Lemmas.MemValue
import Verif.Lemmas.MemDates
import Verif.Props.MemValue
import Verif.Props.LegacyInt
import Verif.Model.FindChunks
import Verif.Props.FindChunks
import Verif.Props.Tightened
import Verif.Spec.Race
import Verif.Model.Race
import Verif.Lemmas.Race
import Verif.Lemmas.Conc
import Verif.Props.Race
import Verif.Spec.Codec
import Verif.Model.Compression
import Verif.Props.Compression
import Verif.Lemmas.ConcProgress
import Verif.Props.ConcProgress
import Verif.Lemmas.CpuFree
import Verif.Props.CpuFree
import Verif.Model.LoadFile
import Verif.Props.LoadFile
import Verif.Model.Disk
import Verif.Props.Disk
import Verif.Props.Determinism
import Verif.Props.Threads
import Verif.Model.PageStats
import Verif.Props.PageStats
import Verif.Spec.WindowRow
import Verif.Lemmas.WindowRow
import Verif.Props.WindowRow
import Verif.Props.ClearFile
import Verif.Model.ArrowIpc
import Verif.Props.ArrowIpc
import Verif.Spec.HybridCut
import Verif.Lemmas.HybridCut
import Verif.Props.HybridCut
import Verif.Model.Unchecked
import Verif.Props.Unchecked
import Verif.Spec.ClearCsv
import Verif.Lemmas.ClearGroups
import Verif.Props.ClearPar
import Verif.Lemmas.CutInside
import Verif.Props.CutInside
import Verif.Props.HeadExact
import Verif.Props.CountPar
import Verif.Model.ColumnChunk
import Verif.Spec.ColumnChunk
import Verif.Lemmas.ColumnChunk
import Verif.Props.ColumnChunk
import Verif.Props.ColumnChunkMore
import Verif.Spec.StampText
import Verif.Spec.Kept
import Verif.Props.StampText
import Verif.Props.InferExact
import Verif.Model.MemLine
import Verif.Lemmas.MemLine
import Verif.Props.MemLine
import Verif.Model.MemDialect
import Verif.Lemmas.MemDialect
import Verif.Lemmas.MemDialect2
import Verif.Lemmas.MemDialect3
import Verif.Lemmas.MemDialect4
import Verif.Props.MemDialect
import Verif.Lemmas.StatsNan
import Verif.Props.StatsNan
import Verif.Spec.QuoteAll
import Verif.Props.QuoteAll
import Verif.Spec.Sample
import Verif.Props.Sample
import Verif.Props.Integers
