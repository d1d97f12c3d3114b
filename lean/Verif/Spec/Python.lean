import Verif.Model.Python
/-
What the arguments of the Python functions mean.
-/
namespace Vroom

/-- The names of the error modes in the Python documentation; none given means `disabled`. -/
inductive PyMode : Option (List UInt8) → ErrMode → Prop
  | default : PyMode none .disabled
  | disabled : PyMode (some (asc "disabled")) .disabled
  | failFast : PyMode (some (asc "fail_fast")) .failFast
  | strict : PyMode (some (asc "strict")) .failFast
  | permissive : PyMode (some (asc "permissive")) .permissive
  | bestEffort : PyMode (some (asc "best_effort")) .bestEffort

/-- The names of the codecs; none given means zstd. -/
inductive PyCodec : Option (List UInt8) → Compression → Prop
  | default : PyCodec none .zstd
  | zstd : PyCodec (some (asc "zstd")) .zstd
  | snappy : PyCodec (some (asc "snappy")) .snappy
  | lz4 : PyCodec (some (asc "lz4")) .lz4
  | gzip : PyCodec (some (asc "gzip")) .gzip
  | none : PyCodec (some (asc "none")) .none

/-- The library options `fo` follow the arguments: what is given is used, what is not given has its documented default; asking for a number of errors switches error
collection on. -/
structure PyFollows (m : Machine) (a : PyArgs) (mode : ErrMode) (codec : Compression) (fo : FileOpts) : Prop where
  sep : fo.infer.sep = match a.separator with | some c => c | none => 44
  quote : fo.infer.quote = match a.quote with | some c => c | none => 34
  hasHeader : fo.infer.hasHeader = a.hasHeader
  nulls : fo.infer.nullValues = asc "NA,null,NULL,"
  trues : fo.infer.trueValues = asc "true,TRUE,True,yes,YES,Yes"
  falses : fo.infer.falseValues = asc "false,FALSE,False,no,NO,No"
  threads : fo.nThreads = match a.numThreads with | none | some 0 => m.autoThreads | some (n + 1) => n + 1
  sample : fo.sampleRows = 1000
  mode : fo.mode = if a.maxErrors ≠ none ∧ mode = .disabled then .permissive else mode
  maxErrors : fo.maxErrors = match a.maxErrors with | some n => n | none => 10000
  codec : fo.env.compression = codec
  dictionary : fo.env.enableDictionary = false
  machine : fo.infer.cpu = m.cpu ∧ fo.infer.isFloat = m.isFloat ∧ fo.junk = m.junk ∧ fo.lanes = m.lanes ∧ fo.floatBits = m.floatBits ∧
    fo.env.compress = m.compress ∧ fo.env.ratioLt = m.ratioLt

end Vroom
