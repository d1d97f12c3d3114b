# DESIGN

Formal model of jimhester/libvroom (C++ CSV reader / Parquet writer) in Lean 4.

## Layout

* `lean/Verif/Model/*.lean`  – executable definitions, each citing the file and lines it models.
* `lean/Verif/Spec/*.lean`   – small specifications, independent of the model.
* `lean/Verif/Lemmas/*.lean` – helper lemmas.
* `lean/Verif/Props/*.lean`  – the property theorems, named in MANIFEST.json, with non-vacuity examples.

## Plan per property

| id | plan |
|---|---|
| C01 Quote mask is the running quote parity | BitVec 64 model of find_quote_mask / portable / CLMUL (carry-less product bit formula) / bit loop; positional spec = parity of quote bits; proved by bit extensionality and induction over block list. |
| C02 Row counting counts exactly the unquoted row ends | Suffix-recursive model of the 64-byte block loop + scalar tail and of count_rows_scalar; spec = filter of positions by quote parity; induction on length. |
| C03 Row-end search finds the first unquoted row end | Model of prefix/blocks/tail of the row-end search and scalar version; spec = least position; induction. |
| C04 One-pass dual-state chunk analysis equals two single-state passes | Model of the dual-state loop; theorem: equals the pair of single-state analyses and the parity. |
| C05 Chunk analyses link to the whole-file answer | Homomorphism of the analysis over list append, lifted to any list of chunks; linking fold as in phase 2. |
| C06 Chunk ranges tile the data | Model of the boundary loop of read_all with an arbitrary row-end oracle satisfying its contract; tiling invariant. |
| C07 Parallel read equals serial read | Model of parse_chunk_with_state and serial loop over bytes; equality when cuts are true row starts, for every clear file exactly when cuts are outside quotes (an iff, Props/CutInside); negation witness for a quoted newline at a cut. |
| C08 Every column has one value per row | Invariant on the row loop: every column length = rows parsed. |
| C09 Reported row count equals rows delivered | Negation witness for the parallel count; exact value of the parallel count in terms of blank lines and line ends; equality for the serial path and under well-formedness. |
| C10 Read result is independent of thread scheduling | Task-slot model: any permutation of task completions fills the same result vector. |
| C11 Line splitting: SIMD and scalar agree, and nothing is lost | Model of both splitters; spec: fields joined by separator; induction over blocks. |
| C12 Streaming field iterator yields the CSV fields of each row | Model of SplitFields with cached bits; spec = quote-parity field cut; negation witness for cached bits; exact description by 64-byte windows (`WindowRow`) and an iff for well-formed rows (`WindowClear`). |
| C13 Quoted values round-trip | unescape after escape is identity; tables through the iterator and the row loop; exact condition for files read serially (`FileClear`, an iff) and in parallel (no chunk starts inside quotes, an iff); a table with every value in quotes is always clear, so arbitrary texts come back (`C13_quote_all`). |
| C14 Null detection is exact membership | Model of NullChecker construction and lookup; spec = membership in split list. |
| C15 Header names round-trip | Model of parse_header; round trip. |
| C16 Type widening is an order-independent join | Finite table lifted to lists by induction. |
| C17 Inferred type can hold the sampled values | infer_field model; per-type soundness; negation witnesses; exact condition `Kept` (Spec/Kept) for every sample and option list (C17_exact). |
| C18 Every data row can influence the inferred schema sample | Model of infer_from_sample row skipping; negation witness; exact types for every written file, quoted fields included (`Spec/Sample.lean`, `C18_written`). |
| C19 32-bit integer parsing is exact | Model of the SIMD and scalar integer parsers over BitVec; exactness vs. decimal value. |
| C20 64-bit integer parsing is exact | Same, 64-bit. |
| C21 Dates map to proleptic Gregorian day numbers | Model of date code over Int; spec by iterating calendar successor; `Props/DatesExact` gives the exact set of inputs for which successive dates get successive numbers. |
| C22 Timestamps map to exact microseconds | Model of timestamp code; spec by fields; grammar of exactly the accepted texts (Spec/StampText, C22_exact). |
| C23 Validity bitmap behaves as a list of flags | State machine refinement to List Bool. |
| C24 Column builders behave as lists of optional values | State machine refinement to List (Option a). |
| C25 String buffer returns the appended strings | Model with 32-bit offsets; refinement under total size bound, negation past it. |
| C26 Varint and zigzag codecs round-trip | Round trip with independent decoder. |
| C27 PLAIN encoding round-trips | Round trip with independent decoder. |
| C28 Definition levels round-trip | Round trip with independent RLE/bit-packed decoder. |
| C29 RLE/bit-packed hybrid encoders decode to the input | Spec decoder `hybrid`; induction over the loop of rle.cpp; for the streaming encoder of hybrid_rle.cpp the pieces it cuts are specified (Spec/HybridCut), its output proved equal to them, and an iff for when values come back. |
| C30 Dictionary encoding round-trips | First-occurrence dictionary model; lookup theorem. |
| C31 Delta encoding round-trips | Round trip with independent decoder; exact outcome with the number of padding bytes missing from the last miniblock (Spec/DeltaGap) and the bits lost in slots wider than the accumulator (Spec/DeltaSlots); negation witness where the code deviates. |
| C32 Thrift metadata parses back | Writer state machine with field-id stack vs independent reader; induction on value trees. |
| C33 Parquet file layout is consistent | Byte-log model of the writer; offsets index the log. |
| C34 All rows are written, in order | Model of batching; concatenation theorem. |
| C35 Recorded codec matches the page bytes | Compressor as parameter with inverse; theorem for single-page chunks, negation for dictionary chunks. |
| C36 Hand-off queue delivers everything once, in order | Labelled transition system for queue with mutex-atomic steps; invariant popped ++ queue = pushed. |
| C37 Hand-off queue is bounded | Invariant. |
| C38 Pipeline cannot deadlock and terminates after close | Progress theorem and measure. |
| C39 Column statistics are exact | Model over linearly ordered values; fold theorem; lanes. |
| C40 Error collector keeps an exact account | State machine invariant. |
| C41 Error mode decides when to stop | Decision logic; negation witness with limit 0. |
| C42 Merging collectors preserves the account and the order | Merge theorems. |
| C43 Copy-on-write buffers are isolated | Heap model with reference counts; isolation by invariant. |
| C44 Chunked storage is a sequence | Refinement to list. |
| C45 Legacy column statistics survive merging | Negation witness for strings/bools; positive for others. |
| C46 Dialect candidates are ranked by a consistent order | Negation witness; positive part: irreflexive, asymmetric. |
| C47 Dialect row and field splitting respect quotes | Model of find_rows/extract_fields; slices in bounds. |
| C48 Leading comment skipping removes exactly leading comment lines | Model + spec of first non-comment line. |
| C49 Line-ending detection | Model + spec. |
| C50 Chunk size stays within its limits | Arithmetic. |
| C51 Arrow export is memory-consistent | Export model over column model. |
| C52 Conversion errors are reported | Decision model of conversion. |
| C53 A written Parquet file reads back as the table | Independent reader of complete file bytes (Spec/ParquetFile, Spec/ParquetTable, Thrift reader of Spec/Thrift); composition of C26–C35. |
| C54 A closed Parquet writer can be opened again | Negation witness; only the first open is right. |
| C55 The file schema records the logical column types | Exact characterisation of the schema map; negation witness for DATE/TIMESTAMP. |
| C56 CSV to Parquet conversion preserves the table | Composition: reader (C06–C10) → typed columns (C19–C27) → row groups (C34) → pipeline (C36–C38) → file (C53). |
| C57 Header problems are reported exactly | Error list of open() as a function of the written header; negation witness for the data rows. |
| C58 Opening a file gives its schema and splits header from data | State machine model of the reader; open on a fresh reader; negation witness on a used reader. |
| C59 Files without header get numbered columns | Same model, header off. |
| C60 Everything delivered comes from the file | Sublist invariant over the chunk parser and the chunk tiling, for arbitrary bytes. |
| C61 Calls on a Parquet writer that is not open change nothing | State machine of the public calls incl. the ofstream fail bit; induction over call histories; negation witness for opening twice. |
| C62 Converting a CSV file gives a Parquet file with the same table | `open` (C57–C59) decides schema and data start, then C56 with the code's own thresholds, chunk size (C50, C63) and row group size; all side conditions of C56 about sizes discharged from the 32 MiB row limit. Tables of integers followed from text to number, inferred types included (`C62_integers_partial`). |
| C63 Chunks are about as large as asked for | Row-end search from a position outside quotes stays within a row (induction on rows); negation: from inside quotes it runs to the end of the file. |
| C64 head, count and info print the table of the file | Model of the commands over the reader model; rows printed chunk by chunk equal rows of the table (induction over chunks), then C58/C13/C62's reading theorem; negation: a missing file whose path contains "Empty file". |
| C65 Printed rows read back as the same cells | The printed line is a written row of Spec/Csv; then the reader theorem C13. Exact condition below the threshold (C65_iff) and above it (C65_big_iff). Negation for a lone empty cell and for the splitter bug of C12. |
| C66 pretty draws an aligned table | Specification of the drawing by lines; equality with the printed bytes; length of every line. Negation: line ends and UTF-8 in cells. |
| C67 select prints exactly the columns asked for | Relation "word picks column" as specification; induction over the comma-separated words. Negation: numeric names, huge indices. |
| C68 Command line options mean what the help text says | Documented options as data (`Item`), their arguments and meaning as specification; induction over the list against the argument loop. Negations for dropped, repeated and unchecked arguments. |
| C69 The exit status of convert tells whether the output can be used | The argument loop of convert against the same kind of specification, composed with C62. |
| C70 Python: read_csv and the Arrow stream | Export of columns to the C data interface, Table, stream callbacks; a separate Arrow consumer (Spec/Arrow) reads the batch back; composed with C64's typed columns; `Lemmas/FirstChunk` says which rows the first chunk holds, hence exactly when the batch is right. |
| C71 Python: lifetime of exported data | State machine of the reference count, release callbacks and private allocations; invariant over all operation sequences. |
| C72 Python: to_parquet, to_arrow_ipc | Arguments to options against a separate specification, composed with C62. |
| C73 The line parser gives every column one value per line | The character loop against the texts of C15's header parser, by induction over the line. |
| C74 Error texts lose nothing | The texts as byte lists; injectivity by cutting at separators that cannot occur in the parts. |
| C75 Printed cells denote the stored values | Decimal texts denote their integers; composed with C19-C22; gmtime/strftime under a calendar contract; floats by counting texts. |
| C76 The type guessed for a cell | The hand-written scanners (trim, integer, float, date, time, date-time) against grammars written as existential statements (Spec/CellType); soundness and completeness of each. |
| C77 Dialect detection finds the dialect of a clean table | The whole of `detect` with exact rationals; sqrt, the modal count and the sort are parameters with contracts; the score of the right candidate is above, those of the others below, a bound; with quoted fields (`Props/DetectQuoted`), the right candidate is compared with each of the others. |
| C78 When a header is reported | `detect_header` against a counting specification. |
| C79 Descriptions and validity of dialects | Injectivity of the description by cutting at separators; the two validity checks against character classes. |
| C80 Reading stays inside the data | The scanners, the field iterator, the row loops, `open` and `read_all` once more over a memory in which every load is checked; refinement: each equals the list model on the first `size` bytes. |
| C81 Lifetime of the reader's data | State machine: live descriptors, mappings and heap blocks, one reader, any sequence of calls and system answers; invariant relating ownership to what is live; the read itself is the memory-level one of C80. |
| C82 Commands on arbitrary bytes | No new model: openData/readAll/typed/commands composed on arbitrary bytes; undefinedness characterised exactly (an integer column whose text is the minimum of its type), the printed text stated from the table that was read. |
| C83 Conversion of arbitrary bytes | No new model: ConvertedFile composed with open/read on arbitrary bytes (as C82), row-group sizes bounded by the input, C53 for the bytes of the file; a successful run of the pipeline constructed for every list of row groups. |
| C84 Value parsing without undefined behaviour | Model/MemValue: the parsers again with every load, index and signed operation checked (none = undefined behaviour); proved equal to the list models of C19-C22 by induction on the loops with bounds on the intermediate values. |
| C85 No data races | Spec/Race: executions, happens-before, data race. Model/Race: all threads of reading and converting with what they touch at each point and their synchronisation. Proof by a token discipline (Lemmas/Race: reading needs one token of the object, writing all; tokens travel with synchronisation), for all interleavings; witnesses for the two failure paths. |
| C86 Compressing keeps the data | Model of compression.cpp with buffers as byte lists (a write past the end is undefined) and the libraries as parameters with contracts (Spec/Codec); case analysis over codecs; discharges the compressor assumption of C35/C53/C56/C62. |
| C87 Never stuck | The transition system of C85; a second invariant; from every state satisfying both a run to the end is constructed (inductions over futures, tasks, queue entries, row groups). |
| C88 Results do not depend on the CPU | No new model: masks and prefix-xor are equal as functions for all CPUs (C01, block masks), then congruence by induction through every loop, the reader, the conversion, the program and the bindings. |
| C89 Loading a file or standard input | Model of io_util.cpp over devices (bytes, reported size, read error) and an allocator; memory as byte lists with checked writes. |
| C90 A conversion that is interrupted | Output stream with a buffer over a device with limited room (Model/Disk), on top of the writer model; invariant over all hand-overs; every writer call extends the file. |
| C91 A disk that is full | The same stream: `close` leaves the first `cap` bytes; the results are those of the run without faults because the code never looks at the state of the stream. |
| C92 The output of a conversion is determined by its input | Two runs of the conversion model compared: a successful run reports what the sequential functions compute (C52), which do not depend on the schedule; CPU by C88, thread count by the threshold of the reader and by the clamps of the chunk size. |
| C93 Statistics of pages add up to those of the column | Model of writer/statistics.cpp; one proof for all value types over an interface (comparison, add, merge), induction over pages. |
| C94 Arrow IPC output never pretends to have written data | State machine of ArrowIpcWriter over a disk; invariant over all call sequences; witnesses for close and a second open. |
| C95 A column chunk record determines the column it was made from | Model of the five column functions, their pages and build_row_group; reader of records as specification; iff for when the column is recovered (from C28/C29 exact), definedness, statistics through C39, compressed records through C86; two columns with one record as witness against the full claim. |
| C96 Line splitting, chunk search and dialect detection stay inside the buffer | The loops of split_fields, parse_line, find_chunks and of all of dialect.cpp with their indices and checked loads; refinement to the list models of C05, C11, C46-C49, C76-C78 by induction on the remaining length; hence `some` for all buffers. Witness for vectors wider than 64 bytes. |

## Trusted base

1. **Lean 4.33.0's kernel.** Every theorem is a kernel-checked term. `decide +kernel` is used only on closed examples and
   counter-examples (kernel reduction, no compiled code). No own axioms, no compiled evaluation.
2. **Axioms.** Only Lean's standard `propext`, `Quot.sound`, `Classical.choice`. The table at the end of this file,
   generated by `tools/axioms.py` from `#print axioms`, gives the list for each theorem of MANIFEST.json.
3. **The model is faithful to the C++.** This is by reading: each definition cites file and lines. Standing conventions:
   * Bytes are `UInt8`; `size_t`/`uint64_t` values used as indices, lengths and counters are `Nat` (no wrap at 2^64), except where
     the code depends on the wrap (masks are `BitVec 64`, parsed integers `UInt64`/`Int64`/`Int32`, string offsets wrap at 2^32,
     page and row counts at 2^31). Undefined behaviour is a separate outcome (`Outcome.ub`) of the integer parsers, and an
     out-of-range access is `none` in the encoders and writers; theorems show these are not met, or say when they are.
   * Little-endian stores (`memcpy` of integers), IEEE bit patterns of floats as opaque words.
   * A moved-from `std::string`/`std::vector` is empty. `std::sort` is any sorted permutation. `std::unordered_map` iteration order is arbitrary.
   * Mutexes and condition variables: critical sections are atomic steps; spurious wake-ups allowed; the scheduler is arbitrary.
4. **Parameters with contracts** (theorems hold for every choice): fast_float (`isFloat`, `floatBits`), the compressors
   (zstd/snappy/lz4/gzip, `LibsOk` in Spec/Codec: what a library reports as success fits its room, is not empty and decompresses to the input; `CodecOk`, the assumption of the file theorems, follows by C86), the floating-point dictionary ratio test, the vector lane count (bounded by
   64 bytes for `ParseUint64`), gmtime/strftime (`LibcCalendar`, C75 only), the shape of `ostream << double` (`ShortFloats`, C75 only), the dialect scoring arithmetic (C47-C49: arbitrary; C77: exact rationals, `std::sqrt` any function keeping [0,1], the most frequent field count any maximiser, the sort any
   permutation that puts a unique best candidate first - C46 shows the precondition of std::sort is not met), Highway's double Min/Max on NaN.

## What is modelled

| /repo | model |
|---|---|
| src/parser/quote_parity{-inl.h,.cpp} | Model/QuoteParity |
| src/parser/simd_chunk_finder.cpp, chunk_finder.cpp | Model/RowScan, Model/Chunking, Model/FindChunks |
| src/parser/split_fields{-inl.h,.cpp} | Model/SplitLine |
| include/libvroom/split_fields.h, split_fields_iter{-inl.h,.cpp} | Model/SplitFields |
| src/parser/line_parser.cpp | Model/Open (header), Model/LineParser |
| src/parser/simd_atoi{-inl.h,.cpp}, include/libvroom/simd_atoi.h, fast_column_context.h (integer parser) | Model/Atoi |
| src/schema/type_parsers.cpp | Model/Dates, Model/Append |
| src/schema/type_inference.cpp, include/libvroom/types.h | Model/Inference, Model/Types |
| src/reader/csv_reader.cpp: open, chunking, parse_chunk_with_state, serial path, pool, convert | Model/Open, Chunking, Reader, Pool, Convert |
| include/libvroom/arrow_buffer.h, arrow_column_builder.h, fast_arrow_context.h, arrow_export.h | Model/Buffers, Append, Plain |
| src/encoding/{plain,rle,hybrid_rle,delta_bitpacked,delta_length}.cpp | Model/Plain, Encoding, Delta |
| src/writer/dictionary.cpp | Model/Dictionary |
| src/writer/thrift_compact.{h,cpp}, parquet_types.{h,cpp} | Model/Thrift |
| src/writer/parquet_file.cpp (Arrow path), encoded_row_group{,_queue}.h | Model/ParquetFile, Queue |
| include/libvroom/error.h, src/error.cpp | Model/Errors, Model/Diagnostics |
| include/libvroom/statistics.h, src/simd/statistics_simd.cpp | Model/Statistics |
| src/columns/{cow_buffer.h,column_builder.cpp}, include/libvroom/data_chunk.h | Model/Legacy |
| src/dialect.cpp, include/libvroom/dialect.h | Model/Dialect, Detect (cell types, scores, header, detect), DialectText |
| src/cli.cpp | Model/Cli (commands, output), Model/CliArgs (arguments, main) |
| python/src/bindings.cpp | Model/Python (read_csv, Table, to_parquet, to_arrow_ipc), Model/PyLife (ownership) |
| simd_chunk_finder.cpp, split_fields.h, split_fields_iter-inl.h, csv_reader.cpp, line_parser.cpp, type_inference.cpp, memory level | Model/MemScan, MemRead |
| simd_atoi-inl.h, type_parsers.cpp, memory and arithmetic level | Model/MemValue |
| split_fields.cpp, split_fields-inl.h, line_parser.cpp, chunk_finder.cpp, memory level | Model/MemLine |
| dialect.cpp, memory level | Model/MemDialect |
| csv_reader.cpp, parquet_file.cpp, encoded_row_group_queue.h, compression.cpp: which thread touches what, synchronisation | Model/Race |
| src/writer/compression.cpp | Model/Compression |
| src/io_util.cpp, AlignedBuffer::allocate | Model/LoadFile |
| src/writer/arrow_ipc_writer.cpp, to_arrow_ipc of bindings.cpp | Model/ArrowIpc |
| src/writer/page_writer.cpp, column_writer.cpp, row_group.cpp | Model/ColumnChunk |
| src/writer/statistics.cpp | Model/PageStats |
| `std::ofstream` of parquet_file.cpp (buffer, badbit, device with limited room) | Model/Disk |
| src/reader/mmap_source.cpp, include/libvroom/io_util.h (AlignedBuffer), csv_reader.cpp: ownership | Model/ReaderLife |

## What is not modelled

* The operating system beyond the answers of open/fstat/mmap (C81): files that change while mapped, write errors other than a full device (C91), the loss of written but unsynced pages in a power failure, allocation failure.
* Of src/cli.cpp: progress display, `--help`/`--version` texts, error messages on stderr, `-t` beyond its effect on chunking; a FIFO as input (its size is 0, so it is treated as an empty file). Of python/src/bindings.cpp: pybind11's argument conversion, the texts of exceptions, the schema structures' own release callbacks, Python's reference counts. The fuzz targets.
* encode_column/write_column of parquet_file.cpp (static and never called), except their level and value encoders.
* The codec libraries called by compression.cpp (parameters); rounding in the dialect's floating-point scores (exact rationals instead).
* SIMD instruction selection: vector operations are modelled by their lane-wise meaning, for an arbitrary lane count.
* The C++ memory model itself: C85 shows that interleaved executions have no data race (failure paths excepted), which by the C++ guarantee for race-free programs justifies
  the interleaving models used elsewhere. What each thread touches is read off the code (Model/Race); the internals of `BS::thread_pool`, `std::future` and the allocator are trusted.

## Findings (theorems refuting a property of the code)

* C06: the row counts of `find_chunks` need not add up to the rows of the buffer, and `ends_in_quote` is always false.
* C07/C09: parallel reading differs from serial reading when a chunk boundary falls inside quotes or beside a lone CR; the row count differs
  with blank lines or without final newline.
* C12: SplitFields keeps a quote mask computed with the wrong start state: separators in quoted fields may split.
* C17/C18: inferred types under which the sampled values read as null (also `+5` in a column of floating-point numbers, since `fast_float` refuses a plus sign: C17_plus_among_floats_lost); with a header the first data row is not sampled, and a line end inside quotes hides the later columns of its row from the sampling (C18_hidden_by_line_end: the hidden text is then stored as null).
* C19/C20: negating the integer minimum is undefined behaviour; the scalar parser wraps at 20 digits; the legacy parser accepts `--1`.
* C21: year 0 dates are misnumbered. C22: text after the time zone is ignored.
* C23: resize/set leave stale null counts. C25: string offsets wrap at 4 GiB. `push_back_unchecked` of the string buffer stores zero bytes instead of the text (`C25_unchecked_refuted`).
* C28/C29/C31: legacy definition levels, streaming hybrid encoder, delta encoders produce streams a conforming reader decodes differently.
* C35: dictionary and data page may be compressed differently under one recorded codec: unreadable file; LZ4 is recorded under the wrong codec number.
* C38/C52: a failed submit leaves the writer thread running; an exception with an empty message counts as success with missing rows.
* C39/C45: double statistics with NaN; string and boolean statistics are not merged.
* C41: fail-fast with max_errors = 0 does not stop. C43: a retained pointer writes through to later copies.
* C46: the comparator given to std::sort is not a strict weak order. C47–C49: quotes in comment lines, blank files, quotes ignored in
  line-ending detection.
* C54/C58: reopening a writer or reader keeps old state. C55: DATE/TIMESTAMP lost in the schema. C57: malformed rows are never reported.
* C63: if the nominal end of a chunk falls inside quotes in a file without quoted line breaks, the chunk takes the whole rest of the file (no parallelism, no size limit).
* C61: `open` on a writer that is already open answers success, but the stream's fail bit is set and everything written afterwards is lost.
* C64: a missing file whose path contains the words "Empty file" is counted as an empty file with exit status 0. C65: the output of head does not read back
  when a row is one empty cell, or because of C12. C66: a cell with a line end breaks the drawing; cutting splits UTF-8 sequences.
* C67: a column whose name is a number cannot be selected by name; a 20-digit index ends the program with an uncaught exception.
* C68: an unknown option, a second `-c`, `-d;` or `-` silently drops the rest of the command line; numbers are not checked (`-n -1`, `-n 5x`, `-n x`);
  `-d tab` means the letter t for convert only; a second input file is ignored; a file named `convert` cannot be converted.
* C70: `read_csv` of a file read in several chunks exports the first chunk's columns under the total row count (reads beyond the buffers; certain as soon as a non-blank row begins beyond 4 MiB); a column name is
  cut at a zero byte; `error_mode="disabled"` with `max_errors` is permissive. C71: a column moved out of an exported batch dangles once the batch is released.
  C72: `num_threads` and `row_group_size` of `to_parquet` have no effect.
* C73: `parse_line` returns the number of columns, not of fields; its idea of null differs from the reader's (empty text, quoted NA), and an empty last field
  is null or text depending on the line end. C74: an exception with one error does not say where; the summary's parentheses do not match without warnings.
  C75: fractions of seconds are not printed, times before 1970 are rounded up, and different floating point numbers are printed alike.
* C76: any text of six characters may follow a date for the cell to be a date-time; no calendar is consulted; `nan` and `inf` are numbers for the scores but strings for a cell.
  C77: `"Doe, John",x` over `"Roe, Jane",y` and `"Poe, Ann",z` is reported as three unquoted columns; a CSV file whose rows begin with date and time (`2020-01-02 10:00,abc`) is detected as one column with confidence 1; the confidence, documented as at most 1, can be 1.1;
  `detect_file` and `detect` differ for rows beyond the sample; `max_rows = 0` lets one row through. C78: rows are not compared: a table of strings always has a header.
  C79: `is_valid` rejects the unquoted dialects that detection itself produces.
* C80: the vector loops assume vectors of at most 64 bytes; with wider ones (SVE, RVV) they load beyond the data.
  C81: after a failed `open` the earlier file is unmapped, but `read_all` still reads through the old pointer; after a refused one it returns rows under the earlier schema; a
  MmapSource whose file could not be mapped reports a size with a null pointer.
* C82: every command, even `count`, on a CSV whose integer column holds the minimum of its type (`x` / `1` / `-9223372036854775808`) reaches a signed negation that overflows:
  undefined behaviour. This is the only way to undefined behaviour (C82_undefined_iff).
* C84: with vectors of more than 64 bytes integer parsing overruns two 64-byte stack arrays from 9 digits on; the smallest integer overflows (C19, C20).
* C85: if a pool task throws (out of memory) while another runs, the caller destroys the vector the other writes to; the writer thread sets its error flag before storing the error text, and a caller that sees the flag destroys the string being assigned.
* C86: gzip compresses only the size modulo 4 GiB of larger data and reports success; `compress_into_buffer` does not leave the uncompressed data in the buffer on failure, as its comment says.
* C89: `read_stdin_to_ptr` tests `std::cin.bad()`, which reading through `rdbuf()` never sets: a read error is taken for the end of the input (`vroom count < directory` prints 0 and succeeds; a broken-off stdin is processed as if complete); files reporting size 0 with content (procfs) load as empty; `size + padding` can wrap.
* C90: the writer truncates the output path at `open` and appends; a crash loses the former output (`C90_former_output_lost`) and can leave a file a Parquet reader accepts as an empty table when a text cell holds a footer (`C90_torn_readable_refuted`).
* C91: stream errors are never looked at, so a conversion onto a full disk reports success and exits with 0 with a truncated file (`C91_success_refuted`, `C91_exit_refuted`).
* C93: the serialised bound of an empty text is the same as that of no value (`C93_empty_text_refuted`); merged pages and one accumulator may report different zeros (`C93_zero_refuted`).
* C94: `ArrowIpcWriter::close` reports success although nothing was ever written: the documented calls leave an empty file and destroy the former one; a second `open` reports success without opening.
* C95: two different columns can give the same column chunk record (the level encoder displaces short pieces in front of long runs); NaN is counted as a null without levels; string statistics stay empty; statistics of the caller are recorded unchecked and can make the function throw; a short bitmap is read beyond its end; `build_row_group` writes nothing.
* C96: with vectors of more than 64 lanes `split_fields` writes beyond its eight bytes for a mask (`C96_wide_vectors_refuted`).

## Axioms per theorem (generated by tools/axioms.py)

**none**: C16_assoc, C16_can_promote, C16_comm, C16_idem, C16_string_absorbs, C16_unknown_not_comm, C20_scalar_wraps, C25_unchecked_overrun, C45_bool_merge_refuted, C45_string_drained_refuted, C45_string_merge_refuted, C47_comment_quote_refuted, C54_first_open_partial, C77_max_rows_refuted, C81_unmapped_size, C94_convert_refuses

**propext**: C16_fold_is_join, C16_order_independent, C16_wider_is_join, C17_bool_texts, C18_quoting_irrelevant, C19_legacy_double_minus, C19_legacy_rejects_min, C21_epoch, C22_trailing_text_accepted, C36_exhausted, C36_fifo, C36_prefix, C36_refused_after_close, C38_enabled, C38_submit_failure_leaves_thread_running, C41_never, C41_zero_limit_fails, C43_retained_exact, C43_retained_pointer_refuted, C44_iterate_before_finalize, C49_kinds_partial, C49_uniform, C51_release_idempotent, C55_logical_types_refuted, C55_schema_partial, C66_newline_refuted, C67_huge_index_refuted, C67_numeric_name_refuted, C68_convert_delimiter_refuted, C68_dropped_refuted, C68_file_named_convert_refuted, C68_numbers_refuted, C68_second_file_refuted, C68_unknown_option_refuted, C70_name_refuted, C71_moved_refuted, C72_arrow_ipc, C74_no_errors, C74_parentheses_refuted, C75_bool_reread, C75_fraction_refuted, C76_calendar_refuted, C76_nan_refuted, C79_description, C79_named, C79_unquoted_refuted, C79_validate_iff, C86_failure_comment_refuted, C89_empty_without_padding, C89_no_size_refuted, C89_stdin_error_refuted, C93_empty_text_refuted, C93_zero_refuted, C94_close_refuted, C94_second_open_refuted

**propext, Classical.choice, Quot.sound**: C01_carried_state, C01_clmul_eq_portable, C01_quote_mask_is_parity, C01_scalar_eq_simd, C02_analyze_chunk, C02_count_rows, C02_simd_eq_scalar, C03_find_row_end, C03_progress, C03_simd_eq_scalar, C04_dual_eq_two_passes, C04_dual_spec, C05_linked_states, C05_total_count, C06_chunks_concat, C06_find_chunks, C06_find_chunks_single, C06_ranges_tile, C07_clear_iff, C07_clear_partial, C07_full_fails, C07_no_quoted_line_ends, C07_parallel_eq_serial_partial, C07_parallel_iff, C07_partial_row_skipped, C08_chunk_rectangular, C08_read_rectangular, C08_row_padding, C08_serial_rectangular, C09_clear_iff, C09_count_exact, C09_full_fails, C09_parallel_partial, C09_serial, C10_deterministic, C10_progress, C10_schedule_independent, C10_terminates, C11_simd_eq_scalar, C11_split, C11_two_lines_differ, C11_written, C11_written_stripped, C12_clear_of_order, C12_exact, C12_iff, C12_no_loss, C12_rows_partial, C13_open_clear, C13_quote_all, C13_quoted_table_roundtrip, C13_read_big_iff, C13_read_clear, C13_read_cuts, C13_read_iff, C13_serial_clear, C13_serial_iff, C13_serial_table_partial, C14_cell_null, C14_null_iff_member, C15_last_empty_name, C15_parse_header, C15_roundtrip, C17_bool_among_ints_lost, C17_bool_partial, C17_date_among_timestamps_lost, C17_date_partial, C17_exact, C17_int32, C17_int64_partial, C17_int_column_partial, C17_plus_among_floats_lost, C18_full_fails, C18_header_skips_first_row, C18_integers, C18_no_header, C18_quote_all, C18_written, C18_written_no_header, C19_exact_if_wrapping, C19_from_chars, C19_full_fails, C19_legacy_int32_partial, C19_parse_int32, C19_scalar_eq_simd, C20_full_fails, C20_legacy_int64_partial, C20_parse_int64, C20_parsers_agree, C20_scalar_partial, C21_accepts_iff, C21_covers, C21_day_numbers, C21_exact, C21_exact_covers, C21_in_range, C21_successive, C21_successive_iff, C22_accepted, C22_exact, C22_in_range, C22_value, C23_bitmap_is_list, C23_exported_bytes, C23_in_bounds, C23_set, C24_numeric, C24_string, C25_get, C26_signed_roundtrip, C26_varint_roundtrip, C26_varint_size, C26_zigzag_roundtrip, C27_bool, C27_byte_arrays, C27_fixed_arrow, C27_int32, C27_int64, C27_legacy_bool, C27_legacy_byte_arrays, C27_legacy_fixed, C28_def_levels, C28_legacy_exact, C28_legacy_iff, C28_legacy_no_nulls, C28_levels_rle, C29_bits_required, C29_hybrid_encoder_partial, C29_hybrid_exact, C29_hybrid_iff, C29_rle_roundtrip, C30_analysis, C30_create_dictionary, C30_dictionary_roundtrip, C31_delta_length_iff, C31_delta_length_partial, C31_int32_delta_iff, C31_int32_delta_partial, C31_int64_defined_iff, C31_int64_delta_exact, C31_int64_delta_partial, C31_int64_delta_unpadded_partial, C31_int64_exact, C31_int64_iff, C32_any_field_ids, C32_file_metadata, C32_page_header, C33_layout, C34_batch_sizes, C34_groups_are_slices, C34_rows, C35_codec_partial, C38_no_lost_wakeup, C38_not_both_blocked, C38_progress, C39_double_bounds_spreading, C39_double_bounds_x86, C39_double_counts, C39_double_exact, C39_double_partial, C39_double_x86_partial, C39_int, C39_int_agree, C39_string, C39_string_agree, C40_account, C40_limit, C40_no_invention, C41_mode_set, C41_stop, C42_merge_sorted, C42_no_loss, C44_sequence, C45_double, C45_int, C45_null_count, C45_string_partial, C46_asymmetric, C46_escape_evidence, C46_irreflexive, C46_sort_precondition_refuted, C46_tolerance_refuted, C46_transitive_partial, C47_fields, C47_rows, C47_rows_disjoint, C47_table, C50_chunk_size_bounds, C51_numeric, C51_string, C53_file_roundtrip, C53_file_roundtrip_sized, C56_csv_to_parquet_partial, C57_header_errors, C57_header_errors_explicit, C58_open_partial, C59_open_no_header, C60_chunk_from_text, C60_no_amplification, C60_read_from_text, C60_serial_from_text, C62_convert_any_size_partial, C62_convert_clear_partial, C62_convert_file_partial, C62_convert_headerless_partial, C62_convert_quote_free_partial, C62_integers_partial, C62_quote_all_partial, C63_boundary_in_quotes_takes_rest, C63_chunk_bound_partial, C63_chunks_not_short, C64_count_clear_partial, C64_count_file_partial, C64_head, C64_head_clear_partial, C64_head_file_partial, C64_info_file_partial, C65_big_iff, C65_iff, C65_reads_back_partial, C66_pretty_drawn, C66_pretty_file_partial, C66_utf8_refuted, C67_bad_spec_partial, C67_in_range, C67_resolve, C67_select, C67_select_file_partial, C69_convert_clear_partial, C69_convert_file_partial, C70_batch, C70_batch_invalid, C70_beyond_4MiB, C70_column, C70_exact, C70_fields, C70_first_mebibyte, C70_large_file, C70_large_file_refuted, C70_raises, C70_read_csv_partial, C70_tall_refuted, C71_moved_partial, C71_no_leak, C71_table_freed, C72_clear_partial, C72_file_partial, C73_last_line, C73_null_iff_member, C73_rectangular, C73_written_line, C74_error_summary, C74_error_text, C74_exception_partial, C74_first_line, C74_summary, C75_date_reread, C75_denotes, C75_float_refuted, C75_float_reread_refuted, C75_int32_reread, C75_int64_reread, C75_timestamp_reread_partial, C76_boolean, C76_date, C76_datetime, C76_datetime_shape, C76_datetime_text_refuted, C76_empty, C76_float, C76_integer, C76_numeric, C76_time, C77_candidate, C77_clean, C77_common, C77_confidence, C77_confidence_refuted, C77_dated_rows_refuted, C77_file, C77_file_refuted, C77_quoted, C77_quoted_comma_refuted, C77_quoted_common, C77_report_comments, C77_report_warning, C78_compare_refuted, C78_header, C78_numbers, C78_strings, C79_factories, C79_sane, C79_valid, C79_validate, C80_chunk, C80_open, C80_padding, C80_read_all, C80_scan, C80_serial, C80_session, C81_careful, C81_no_fault, C81_open_answers, C81_released, C82_count_partial, C82_defined, C82_ends, C82_head_partial, C82_info_partial, C82_no_minimum, C82_open_columns, C82_pretty_partial, C82_program, C82_read, C82_select_partial, C82_undefined_iff, C83_command_partial, C83_convert_partial, C83_python_partial, C83_succeeds_partial, C84_date, C84_int32_partial, C84_int64_partial, C84_integers_local, C84_timestamp, C85_error_text_races, C85_exception_races, C85_full_fails, C85_no_data_race_partial, C86_codec_contract, C86_compress_into, C86_compress_partial, C86_file_roundtrip, C86_full_fails, C86_gzip_truncates, C86_into_buffer, C86_max_size_suffices, C87_never_stuck, C88_convert, C88_fields, C88_program, C88_program_convert, C88_python, C88_reader, C88_scanning, C88_tasks, C88_values, C92_program, C92_same_bytes, C92_same_bytes_16MiB, C92_threads_clear_partial, C92_threads_table_partial, C93_pages, C95_defined, C95_dictionary, C95_full_fails, C95_no_nulls, C95_read_iff, C95_statistics, C96_cell_type, C96_detect, C96_detect_fields, C96_detect_nothing_behind, C96_find_chunks, C96_split_fields, C96_split_written

**propext, Quot.sound**: C01_one_mask_per_block, C06_find_chunks_refuted, C07_lone_cr_fails, C09_no_final_newline_fails, C11_blanks_inside_quotes_lost, C11_split_unique, C12_full_fails, C13_unescape_escape, C17_bad_date_fails, C17_bool_int_mix_fails, C17_date_timestamp_mix_fails, C17_full_fails, C17_long_int_fails, C17_yes_fails, C18_hidden_by_line_end, C18_value_lost, C21_full_fails, C23_resize_set_fails, C23_resize_stale, C25_offsets, C25_unchecked_refuted, C25_wraps_at_4GiB, C27_legacy_fixed_no_bitmap, C27_strings, C28_legacy_encoder_wrong, C28_wraps_at_2_31, C29_hybrid_encoder_pads_mid_stream, C29_width_zero, C31_delta_length_not_padded, C31_last_miniblock_not_padded, C31_wide_deltas_lose_bits, C35_dictionary_codec_refuted, C35_lz4_refuted, C37_bounded, C37_in_flight, C38_failure_prefix, C38_success_complete, C38_terminates, C38_written_prefix, C39_bool, C39_double_all_nan_refuted, C39_double_min_lost_refuted, C39_double_nan_counted_refuted, C40_fatal, C40_first_errors, C41_fatal_stops, C42_exists, C43_isolated, C43_retained_alone, C43_shares, C44_builder, C48_blank_refuted, C48_none, C48_rest, C48_skip, C49_quoted_refuted, C50_chunk_size_value, C52_empty_message_refuted, C52_failed_output_looks_complete, C52_ok_means_done_partial, C54_reopen_refuted, C57_malformed_rows_unreported, C58_leading_blank_line, C58_reopen_refuted, C61_closed_is_final, C61_open_twice_refuted, C61_orderly_use, C63_full_fails, C64_missing_empty_file_refuted, C64_stdin_eq_file, C64_unreadable_partial, C65_lone_empty_refuted, C65_own_output_refuted, C66_pretty_aligned, C68_any_order, C68_options, C68_program, C69_convert_program, C69_exit_code, C69_exit_zero, C70_disabled_refuted, C71_freed_once, C71_readable_partial, C72_ignored_refuted, C72_outcome_partial, C72_refused, C73_count_refuted, C73_empty, C73_reader_differs_refuted, C74_exception_refuted, C80_wide_vectors_refuted, C81_buffers, C81_failed_open_refuted, C81_refused_open_stale, C81_source, C82_minimum_refuted, C83_refused, C84_minimum_refuted, C84_wide_vectors_refuted, C89_directory_counts, C89_load, C89_load_short, C89_load_whole, C89_padding_refuted, C89_program_truncated, C89_stdin, C90_any_prefix, C90_append_only, C90_former_output_lost, C90_killed, C90_torn_readable_refuted, C90_torn_unreadable_partial, C91_enough_room, C91_exit_refuted, C91_full, C91_silent, C91_success_refuted, C92_read_16MiB, C92_threads_16MiB, C92_threads_chunk, C92_threads_large, C92_threads_small, C93_serialize, C94_nothing_written, C95_caller_statistics_refuted, C95_nan_null_refuted, C95_row_group_empty, C95_short_bitmap, C95_string_statistics_refuted, C96_parse_header, C96_parse_line, C96_wide_vectors_refuted

