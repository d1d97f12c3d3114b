import Verif.Model.ParquetFile
/-
/repo/src/writer/compression.cpp.  The libraries are parameters (`Libs`); buffers are byte lists of their size, and a library that
writes more than the buffer holds is `none` (undefined behaviour).
-/
namespace Vroom

/-- The calls of the libraries.  `none` = failure (ZSTD_isError; deflate not Z_STREAM_END; LZ4 result 0) (not code of /repo: ZSTD, zlib, snappy, LZ4 as called in compression.cpp:51-383). -/
structure Libs where
  /-- ZSTD_compressBound -/
  zstdBound : Nat → Nat
  /-- ZSTD_compress: level, capacity, input -/
  zstd : Int → Nat → List UInt8 → Option (List UInt8)
  /-- deflateInit2 accepts the level -/
  gzipInit : Int → Bool
  /-- deflateBound: level, size -/
  gzipBound : Int → Nat → Nat
  /-- deflate(Z_FINISH): level, avail_out, the avail_in bytes -/
  gzip : Int → Nat → List UInt8 → Option (List UInt8)
  /-- snappy::MaxCompressedLength -/
  snappyMax : Nat → Nat
  /-- snappy::RawCompress -/
  snappy : List UInt8 → List UInt8
  /-- LZ4_compressBound (0 above LZ4_MAX_INPUT_SIZE) -/
  lz4Bound : Nat → Nat
  /-- LZ4_compress_default: capacity, input -/
  lz4 : Nat → List UInt8 → Option (List UInt8)
  /-- VROOM_HAVE_SNAPPY -/
  haveSnappy : Bool
  /-- VROOM_HAVE_LZ4 -/
  haveLz4 : Bool

/-- A library writes `out` to the start of a buffer; `none` if that is beyond its end (not code of /repo: the effect of the library calls in compression.cpp:68, 99, 116, 135). -/
def storeAt (buffer out : List UInt8) : Option (List UInt8) :=
  if out.length ≤ buffer.length then some (out ++ buffer.drop out.length) else none

/-- `std::vector<uint8_t>::resize` (C++ library; called in compression.cpp:39, 66, 95, 113, 133). -/
def resizeTo (b : List UInt8) (n : Nat) : List UInt8 := b.take n ++ List.replicate (n - b.length) 0

/-- `static_cast<uInt>(size)` (compression.cpp:93, 202, 303: zlib's uInt has 32 bits). -/
def toUInt (n : Nat) : Nat := n % 2 ^ 32

/-- `compress` (compression.cpp:51-155).  The empty output vector is resized, the library writes to it, it is cut to the written size. -/
def compress (L : Libs) (level : Int) (codec : Compression) (data : List UInt8) : Option (List UInt8) :=
  if data.length = 0 then some []
  else
    match codec with
    | .none => some data
    | .zstd =>
      let maxSize := L.zstdBound data.length
      let output := resizeTo [] maxSize
      match L.zstd level maxSize data with
      | none => some data
      | some out => (storeAt output out).map (fun b => resizeTo b out.length)
    | .gzip =>
      if L.gzipInit level = false then some data
      else
        let output := resizeTo [] (L.gzipBound level data.length)
        match L.gzip level (toUInt output.length) (data.take (toUInt data.length)) with
        | none => some data
        | some out => (storeAt output out).map (fun b => resizeTo b out.length)
    | .snappy =>
      if L.haveSnappy then
        let output := resizeTo [] (L.snappyMax data.length)
        (storeAt output (L.snappy data)).map (fun b => resizeTo b (L.snappy data).length)
      else some data
    | .lz4 =>
      if L.haveLz4 then
        if data.length > 2147483647 then some data
        else
          let maxSize := L.lz4Bound data.length
          let output := resizeTo [] maxSize
          match L.lz4 maxSize data with
          | none => some data
          | some out => (storeAt output out).map (fun b => resizeTo b out.length)
      else some data

/-- `CompressionBufferPool::get_buffer` (compression.cpp:34-41): the thread's buffer, with what an earlier call left in it. -/
def getBuffer (pool : List UInt8) (minSize : Nat) : List UInt8 := resizeTo pool minSize

/-- `compress_into` (compression.cpp:159-264).  Returns the output vector (its earlier content is replaced) and the thread's pool buffer. -/
def compressInto (L : Libs) (level : Int) (codec : Compression) (pool data : List UInt8) : Option (List UInt8 × List UInt8) :=
  if data.length = 0 then some ([], pool)
  else
    match codec with
    | .none => some (data, pool)
    | .zstd =>
      let maxSize := L.zstdBound data.length
      let buffer := getBuffer pool maxSize
      match L.zstd level maxSize data with
      | none => some (data, buffer)
      | some out => (storeAt buffer out).map (fun b => (b.take out.length, b))
    | .gzip =>
      if L.gzipInit level = false then some (data, pool)
      else
        let maxSize := L.gzipBound level data.length
        let buffer := getBuffer pool maxSize
        match L.gzip level (toUInt buffer.length) (data.take (toUInt data.length)) with
        | none => some (data, buffer)
        | some out => (storeAt buffer out).map (fun b => (b.take out.length, b))
    | .snappy =>
      if L.haveSnappy then
        let buffer := getBuffer pool (L.snappyMax data.length)
        (storeAt buffer (L.snappy data)).map (fun b => (b.take (L.snappy data).length, b))
      else some (data, pool)
    | .lz4 =>
      if L.haveLz4 then
        if data.length > 2147483647 then some (data, pool)
        else
          let maxSize := L.lz4Bound data.length
          let buffer := getBuffer pool maxSize
          match L.lz4 maxSize data with
          | none => some (data, buffer)
          | some out => (storeAt buffer out).map (fun b => (b.take out.length, b))
      else some (data, pool)

/-- `compress_into_buffer` (compression.cpp:268-347).  `output` is what the caller's buffer of `output_capacity` bytes holds before;
the result is the returned size and the buffer afterwards (a failing library leaves it as it was: a simplification, it may leave anything). -/
def compressIntoBuffer (L : Libs) (level : Int) (codec : Compression) (output data : List UInt8) : Option (Nat × List UInt8) :=
  if data.length = 0 then some (0, output)
  else
    match codec with
    | .none => if output.length ≥ data.length then (storeAt output data).map (fun b => (data.length, b)) else some (0, output)
    | .zstd =>
      match L.zstd level output.length data with
      | none => some (0, output)
      | some out => (storeAt output out).map (fun b => (out.length, b))
    | .gzip =>
      if L.gzipInit level = false then some (0, output)
      else
        match L.gzip level (toUInt output.length) (data.take (toUInt data.length)) with
        | none => some (0, output)
        | some out => (storeAt output out).map (fun b => (out.length, b))
    | .snappy =>
      if L.haveSnappy then
        if output.length < L.snappyMax data.length then some (0, output)
        else (storeAt output (L.snappy data)).map (fun b => ((L.snappy data).length, b))
      else some (0, output)
    | .lz4 =>
      if L.haveLz4 then
        if data.length > 2147483647 ∨ output.length > 2147483647 then some (0, output)
        else
          match L.lz4 output.length data with
          | none => some (0, output)
          | some out => (storeAt output out).map (fun b => (out.length, b))
      else some (0, output)

/-- `max_compressed_size` (compression.cpp:350-383). -/
def maxCompressedSize (L : Libs) (codec : Compression) (n : Nat) : Nat :=
  match codec with
  | .none => n
  | .zstd => L.zstdBound n
  | .gzip => n + (n / 16384 + 1) * 5 + 18
  | .snappy => if L.haveSnappy then L.snappyMax n else n
  | .lz4 => if L.haveLz4 then (if n > 2147483647 then n else L.lz4Bound n) else n

/-- The compressor the Parquet writer uses (parquet_file.cpp:466, 559): `compress` with `options.compression_level`. -/
def Libs.writerEnv (L : Libs) (level : Int) (codec : Compression) (enableDictionary : Bool) (ratioLt : StrColumn → Bool) : WEnv :=
  { compression := codec, enableDictionary := enableDictionary,
    compress := fun c raw => (compress L level c raw).getD [], ratioLt := ratioLt }

end Vroom
