{"id": "C01", "title": "Quote mask is the running quote parity", "statement": "For a stream of 64-byte blocks, the mask produced for each block marks exactly the bytes at which the number of quote bytes seen so far in the whole stream (including that byte) is odd; the carry-less-multiply path, the portable path and the bit-loop path return the same mask and carry the same state, including over a final partial block.", "quantifier": "every sequence of 64-bit quote masks of any length, both initial states", "why_tests_cant": "2^64 masks per block and unbounded block sequences with carried state", "anchors": ["src/parser/quote_parity.cpp:find_quote_mask,scalar_find_quote_mask,portable_prefix_xorsum_inclusive", "src/parser/quote_parity-inl.h"]}
{"id": "C02", "title": "Row counting counts exactly the unquoted row ends", "statement": "Counting rows of a buffer returns the number of row terminators (LF, CRLF as one, lone CR) outside quotes, and the offset just past the last of them; the SIMD path (any size) and the byte-at-a-time path give the same answer.", "quantifier": "every byte buffer of any length, every quote byte other than CR/LF", "why_tests_cant": "the answer depends on quote parity carried over arbitrarily many blocks and on terminators that straddle 64-byte block edges", "anchors": ["src/parser/simd_chunk_finder.cpp:AnalyzeChunkSimdImpl,count_rows_simd,count_rows_scalar", "src/parser/chunk_finder.cpp:count_rows"]}
{"id": "C03", "title": "Row-end search finds the first unquoted row end", "statement": "Asking for the end of the row containing position s returns the offset just past the first row terminator at or after s that is outside quotes counted from s, or the buffer size if there is none; small-buffer and SIMD paths agree.", "quantifier": "every buffer, every start position inside it, every quote byte other than CR/LF", "why_tests_cant": "alignment of s, CRLF and doubled quotes across the alignment edge give unboundedly many shapes", "anchors": ["src/parser/simd_chunk_finder.cpp:FindRowEndSimdImpl,find_row_end_scalar", "src/parser/chunk_finder.cpp:find_row_end"]}
{"id": "C04", "title": "One-pass dual-state chunk analysis equals two single-state passes", "statement": "The speculative analysis of a chunk returns, for both possible starting quote states at once, the row count and last row end that a pass started in that state would return, and reports whether the chunk flips the quote state.", "quantifier": "every chunk content and length, both starting states", "why_tests_cant": "speculation is only sound if it is right for every content and both states", "anchors": ["src/parser/simd_chunk_finder.cpp:AnalyzeChunkDualStateSimdImpl,analyze_chunk_dual_state_simd"]}
{"id": "C05", "title": "Chunk analyses link to the whole-file answer", "statement": "Splitting a buffer at arbitrary cut points, analysing every chunk independently for both quote states and linking left to right yields the true quote state at each cut and, when no cut separates a CR from its LF, row counts that add up to the count of the whole buffer.", "quantifier": "every buffer, every list of cut points", "why_tests_cant": "the number of splittings grows exponentially; correctness is a homomorphism law", "anchors": ["src/reader/csv_reader.cpp:read_all (phase 1/2)", "src/parser/simd_chunk_finder.cpp"]}
{"id": "C06", "title": "Chunk ranges tile the data", "statement": "The byte ranges handed to parallel parsing are non-empty, consecutive, start at the first data byte and end at the last one: no byte is given to two chunks or to none, whatever the thread count.", "quantifier": "every file size, column count, thread count and content", "why_tests_cant": "the boundary search jumps to data-dependent positions", "anchors": ["src/reader/csv_reader.cpp:read_all", "include/libvroom/options.h:calculate_chunk_size", "src/parser/chunk_finder.cpp:find_chunks"]}
{"id": "C07", "title": "Parallel read equals serial read", "statement": "Reading a file in parallel chunks gives the same column contents, in the same order, as reading it serially.", "quantifier": "every file content, chunk boundary choice and thread count", "why_tests_cant": "depends on where boundaries fall relative to quoted newlines", "anchors": ["src/reader/csv_reader.cpp:read_all,read_all_serial,parse_chunk_with_state"]}
{"id": "C08", "title": "Every column has one value per row", "statement": "After a read, in every chunk all columns have the same length, equal to the number of parsed rows, whatever the number of fields on each row (short rows are padded with nulls, extra fields dropped).", "quantifier": "every byte content, every column count", "why_tests_cant": "ragged rows, blank lines and stray quotes occur in unbounded combinations", "anchors": ["src/reader/csv_reader.cpp:parse_chunk_with_state,read_all_serial"]}
{"id": "C09", "title": "Reported row count equals rows delivered", "statement": "The number of rows reported by the reader after a read equals the number of rows in the columns it returned.", "quantifier": "every file content (blank lines, missing final newline, lone CR) and both read paths", "why_tests_cant": "the parallel path derives the count from newline analysis, not from parsing", "anchors": ["src/reader/csv_reader.cpp:read_all,row_count"]}
{"id": "C10", "title": "Read result is independent of thread scheduling", "statement": "The chunks delivered by a parallel read are a function of the data and the boundaries only: any order in which worker tasks start, interleave and finish gives the same ordered result.", "quantifier": "every schedule of the worker tasks", "why_tests_cant": "schedules cannot be enumerated by testing", "anchors": ["src/reader/csv_reader.cpp:read_all"]}
{"id": "C11", "title": "Line splitting: SIMD and scalar agree, and nothing is lost", "statement": "Splitting one line into raw fields cuts exactly at the unquoted separators: joining the raw fields with the separator gives the line back, no field contains an unquoted separator, and the vectorised and scalar splitters return the same list.", "quantifier": "every line without row terminator, of any length", "why_tests_cant": "separators and quotes straddle block edges at any position", "anchors": ["src/parser/split_fields.cpp", "src/parser/split_fields-inl.h"]}
{"id": "C12", "title": "Streaming field iterator yields the CSV fields of each row", "statement": "Iterating the fields of a buffer yields each field of each row cut at unquoted separators and newlines, independently of how far the field is from the end of the buffer.", "quantifier": "every buffer and every position in it", "why_tests_cant": "the fast path is taken only when more than 64 bytes remain and caches bits across calls", "anchors": ["include/libvroom/split_fields.h:SplitFields"]}
{"id": "C13", "title": "Quoted values round-trip", "statement": "Writing any string as a quoted CSV field (doubling inner quotes) and reading it back gives the same string.", "quantifier": "every byte string (separators, quotes, CR, LF included)", "why_tests_cant": "all strings", "anchors": ["src/reader/csv_reader.cpp:unescape_quotes,parse_chunk_with_state", "src/parser/line_parser.cpp"]}
{"id": "C14", "title": "Null detection is exact membership", "statement": "A raw field is read as null exactly when it is one of the configured null spellings (comma-separated list), with the empty field null by default; a quoted field is compared with its quotes.", "quantifier": "every null-value configuration string, every field", "why_tests_cant": "configuration and field both range over all strings; a length pre-filter is used", "anchors": ["src/reader/csv_reader.cpp:NullChecker", "src/parser/line_parser.cpp:init_null_values,is_null_value"]}
{"id": "C15", "title": "Header names round-trip", "statement": "Parsing a header line made of quoted names gives back these names in order, one per column.", "quantifier": "every non-empty list of names without surrounding blanks", "why_tests_cant": "names may contain separators, quotes and newlines", "anchors": ["src/parser/line_parser.cpp:parse_header"]}
{"id": "C16", "title": "Type widening is an order-independent join", "statement": "The type given to a column from several values does not depend on the order in which the values are seen: widening is commutative, associative and idempotent on inferred types, STRING absorbs everything, and the result is an upper bound.", "quantifier": "all type triples and all lists of types", "why_tests_cant": "lists of any length", "anchors": ["include/libvroom/types.h:wider_type,can_promote"]}
{"id": "C17", "title": "Inferred type can hold the sampled values", "statement": "A value from which an integer, date or boolean type was inferred is read as a non-null value when its column has that type.", "quantifier": "every field content and every true/false/null configuration", "why_tests_cant": "fields are arbitrary strings; inference and parsing are written separately", "anchors": ["src/schema/type_inference.cpp:infer_field", "include/libvroom/fast_arrow_context.h", "src/schema/type_parsers.cpp"]}
{"id": "C18", "title": "Every data row can influence the inferred schema sample", "statement": "The sample used for type inference starts at the first data row.", "quantifier": "every file with a header", "why_tests_cant": "an off-by-one row skip changes types only for data-dependent files", "anchors": ["src/schema/type_inference.cpp:infer_from_sample", "src/reader/csv_reader.cpp:open"]}
{"id": "C19", "title": "32-bit integer parsing is exact", "statement": "Parsing a field as a 32-bit integer succeeds exactly when it is an optional sign and decimal digits denoting a number in range (within the accepted length), and returns that number.", "quantifier": "every byte string", "why_tests_cant": "all digit strings, SWAR arithmetic on 8/16 bytes", "anchors": ["include/libvroom/simd_atoi.h", "src/parser/simd_atoi-inl.h"]}
{"id": "C20", "title": "64-bit integer parsing is exact", "statement": "Same for 64-bit integers: no accepted field yields a wrapped value.", "quantifier": "every byte string", "why_tests_cant": "overflow detection on all 17-20 digit strings", "anchors": ["include/libvroom/simd_atoi.h", "src/parser/simd_atoi-inl.h"]}
{"id": "C21", "title": "Dates map to proleptic Gregorian day numbers", "statement": "A parsed date is the number of days from 1970-01-01 in the Gregorian calendar; invalid months and days are rejected; successive calendar days get successive numbers.", "quantifier": "every 10-byte string / every valid calendar date", "why_tests_cant": "all year/month/day combinations; leap rules", "anchors": ["src/schema/type_parsers.cpp:parse_date,days_from_epoch_to_year,days_in_month"]}
{"id": "C22", "title": "Timestamps map to exact microseconds", "statement": "A parsed timestamp equals days*86400e6 + time of day + fraction minus zone offset, and out-of-range fields are rejected.", "quantifier": "every string", "why_tests_cant": "optional fraction and zone in all combinations", "anchors": ["src/schema/type_parsers.cpp:parse_timestamp,parse_timezone"]}
{"id": "C23", "title": "Validity bitmap behaves as a list of flags", "statement": "After any sequence of appends of valid/null/merged bitmaps, element i is reported valid exactly when the i-th append was valid, size and null count are exact, and the exported bytes encode the same flags.", "quantifier": "every operation history", "why_tests_cant": "lazy allocation makes the representation depend on when the first null arrives", "anchors": ["include/libvroom/arrow_buffer.h:NullBitmap"]}
{"id": "C24", "title": "Column builders behave as lists of optional values", "statement": "After any history of appends, null appends and merges, a column holds exactly the appended values in order, merging concatenates, and null count equals the number of nulls.", "quantifier": "every operation history on any number of builders", "why_tests_cant": "histories are unbounded", "anchors": ["include/libvroom/arrow_column_builder.h", "include/libvroom/fast_arrow_context.h", "include/libvroom/arrow_buffer.h"]}
{"id": "C25", "title": "String buffer returns the appended strings", "statement": "Element i of a string column is the i-th appended string, offsets are monotone and merging concatenates, as long as total bytes stay below 2^32.", "quantifier": "every history", "why_tests_cant": "unbounded histories; 32-bit offsets wrap", "anchors": ["include/libvroom/arrow_buffer.h:StringBuffer"]}
{"id": "C26", "title": "Varint and zigzag codecs round-trip", "statement": "Decoding (by the Parquet/Thrift rule) what the varint writers emit returns the written unsigned or signed integer and consumes exactly the emitted bytes.", "quantifier": "every 32/64-bit value, any following bytes", "why_tests_cant": "2^64 values", "anchors": ["src/encoding/rle.cpp:write_varint", "src/encoding/delta_bitpacked.cpp:write_uvarint,zigzag_encode", "src/writer/thrift_compact.cpp"]}
{"id": "C27", "title": "PLAIN encoding round-trips", "statement": "Decoding a PLAIN data page by the Parquet rule returns the non-null values of the column in order, for integers, doubles (as bits), booleans and byte arrays.", "quantifier": "every column content", "why_tests_cant": "lists of any length", "anchors": ["src/encoding/plain.cpp"]}
{"id": "C28", "title": "Definition levels round-trip", "statement": "Decoding the definition-level section by the Parquet RLE/bit-packing rule returns exactly one level per row, 1 for values and 0 for nulls, with a correct length prefix.", "quantifier": "every validity pattern of any length", "why_tests_cant": "all bit patterns and tail lengths", "anchors": ["src/encoding/plain.cpp:encode_def_levels_hybrid_arrow", "src/encoding/rle.cpp:encode_definition_levels_rle"]}
{"id": "C29", "title": "RLE/bit-packed hybrid encoders decode to the input", "statement": "Decoding the output of the RLE/bit-packed encoders by the Parquet rule returns the encoded values.", "quantifier": "every value list, bit width and run structure", "why_tests_cant": "runs mix in unbounded patterns", "anchors": ["src/encoding/rle.cpp:RleEncoder", "src/encoding/hybrid_rle.cpp:HybridRleEncoder"]}
{"id": "C30", "title": "Dictionary encoding round-trips", "statement": "Looking the decoded indices up in the decoded dictionary page returns the non-null strings of the column in order; dictionary entries are distinct and each is used.", "quantifier": "every string column", "why_tests_cant": "all multisets/orders of strings", "anchors": ["src/writer/dictionary.cpp", "src/encoding/plain.cpp:encode_dictionary_indices,encode_dictionary_page_strings"]}
{"id": "C31", "title": "Delta encoding round-trips", "statement": "Decoding a DELTA_BINARY_PACKED page by the Parquet rule returns the encoded integers; DELTA_LENGTH_BYTE_ARRAY returns the strings.", "quantifier": "every integer list / string list", "why_tests_cant": "all lists, all deltas", "anchors": ["src/encoding/delta_bitpacked.cpp", "src/encoding/delta_length.cpp"]}
{"id": "C32", "title": "Thrift metadata parses back", "statement": "A standard Thrift compact reader applied to the emitted metadata recovers the same field ids, types and values and ends exactly at the struct's stop byte.", "quantifier": "every metadata value (nested structs, lists, any field-id sequence)", "why_tests_cant": "unbounded nesting and field-id gaps (short/long header forms)", "anchors": ["src/writer/thrift_compact.cpp", "src/writer/parquet_types.cpp"]}
{"id": "C33", "title": "Parquet file layout is consistent", "statement": "In the written file, the footer length and magic are where the format requires, and each column chunk's recorded page offsets and sizes delimit exactly the bytes written for that chunk, in order and without overlap.", "quantifier": "every sequence of row groups and column page sizes", "why_tests_cant": "offsets accumulate over unbounded histories", "anchors": ["src/writer/parquet_file.cpp:Impl::write_encoded_row_group,close"]}
{"id": "C34", "title": "All rows are written, in order", "statement": "Converting a table to Parquet writes row groups whose concatenation is the table: row counts add up, order is preserved, batching of chunks loses or duplicates nothing.", "quantifier": "every list of chunk sizes, with and without string columns", "why_tests_cant": "batch thresholds interact with arbitrary chunk sizes", "anchors": ["src/reader/csv_reader.cpp:convert_csv_to_parquet", "src/writer/parquet_file.cpp:submit_row_group,finish_pipeline"]}
{"id": "C35", "title": "Recorded codec matches the page bytes", "statement": "For each column chunk, every page decodes with the codec recorded for the chunk and to the recorded uncompressed size.", "quantifier": "every page content and every compressor outcome", "why_tests_cant": "depends on which pages shrink under compression", "anchors": ["src/writer/parquet_file.cpp:encode_column_arrow"]}
{"id": "C36", "title": "Hand-off queue delivers everything once, in order", "statement": "Row groups pushed by the producer are popped by the consumer exactly once, in push order, under every interleaving of threads, spurious wake-ups and close.", "quantifier": "every interleaving", "why_tests_cant": "schedules cannot be enumerated", "anchors": ["src/writer/encoded_row_group_queue.h"]}
{"id": "C37", "title": "Hand-off queue is bounded", "statement": "The queue never holds more than its capacity.", "quantifier": "every interleaving", "why_tests_cant": "schedules cannot be enumerated", "anchors": ["src/writer/encoded_row_group_queue.h"]}
{"id": "C38", "title": "Pipeline cannot deadlock and terminates after close", "statement": "In every reachable state of producer, consumer and closer that is not finished, some thread can make progress; after close, the consumer drains the queue and then stops, and pushes are refused.", "quantifier": "every interleaving", "why_tests_cant": "schedules cannot be enumerated", "anchors": ["src/writer/encoded_row_group_queue.h", "src/writer/parquet_file.cpp"]}
{"id": "C39", "title": "Column statistics are exact", "statement": "Reported min and max are values of the column bounding all its non-null values, the null count is exact; batch (SIMD) and per-value updates agree; merging statistics equals computing them on the concatenation.", "quantifier": "every list of optional values and every split", "why_tests_cant": "lists of any length; lane reductions", "anchors": ["include/libvroom/statistics.h", "src/simd/statistics_simd.cpp", "src/writer/statistics.cpp"]}
{"id": "C40", "title": "Error collector keeps an exact account", "statement": "Stored errors never exceed the limit, stored plus suppressed equals reported, stored errors are the first ones in order, and a fatal error is never forgotten.", "quantifier": "every history of reports, limit and mode", "why_tests_cant": "unbounded histories", "anchors": ["include/libvroom/error.h:ErrorCollector"]}
{"id": "C41", "title": "Error mode decides when to stop", "statement": "Fail-fast stops after the first error, permissive only after a fatal one, best-effort never; disabled never stops.", "quantifier": "every history of reports and limit", "why_tests_cant": "limit and mode interact", "anchors": ["include/libvroom/error.h:should_stop"]}
{"id": "C42", "title": "Merging collectors preserves the account and the order", "statement": "Merging per-thread collectors keeps every error up to the limit, the suppressed total and the fatal flag, and the sorted merge is ordered by byte offset.", "quantifier": "every list of collectors", "why_tests_cant": "unbounded", "anchors": ["include/libvroom/error.h:merge_from,merge_sorted,sort_by_offset"]}
{"id": "C43", "title": "Copy-on-write buffers are isolated", "statement": "Mutating a buffer through one handle is never visible through another handle, while copies share storage until then.", "quantifier": "every history of copies, mutations, resets", "why_tests_cant": "aliasing histories are unbounded", "anchors": ["src/columns/cow_buffer.h"]}
{"id": "C44", "title": "Chunked storage is a sequence", "statement": "Chunked storage iterates exactly the appended values in order after any history of appends and merges, whatever the chunk sizes.", "quantifier": "every history", "why_tests_cant": "chunk boundaries fall anywhere", "anchors": ["include/libvroom/data_chunk.h"]}
{"id": "C45", "title": "Legacy column statistics survive merging", "statement": "After merging builders, reported min/max cover the values of both.", "quantifier": "every pair of builder histories", "why_tests_cant": "histories are unbounded; string and bool builders keep separate incremental state", "anchors": ["src/columns/column_builder.cpp"]}
{"id": "C46", "title": "Dialect candidates are ranked by a consistent order", "statement": "The ranking used to sort dialect candidates is a strict weak order, so that the best candidate is well defined and the sort is defined behaviour.", "quantifier": "all triples of candidates", "why_tests_cant": "comparison uses a tolerance", "anchors": ["include/libvroom/dialect.h:DialectCandidate::operator<", "src/dialect.cpp:detect"]}
{"id": "C47", "title": "Dialect row and field splitting respect quotes", "statement": "Row extraction and field extraction used by detection return disjoint in-bounds slices and never cut inside quotes.", "quantifier": "every sample buffer and dialect", "why_tests_cant": "all buffers", "anchors": ["src/dialect.cpp:find_rows,extract_fields"]}
{"id": "C48", "title": "Leading comment skipping removes exactly leading comment lines", "statement": "Skipping comments steps over exactly the leading lines whose first non-blank byte is a comment character, counts them, reports the first one's character, and returns the offset of the first other line (the end of the text if only blanks follow).", "quantifier": "every buffer and comment byte", "why_tests_cant": "all buffers", "anchors": ["src/dialect.cpp:skip_comment_lines,is_comment_line"]}
{"id": "C49", "title": "Line-ending detection", "statement": "The reported line-ending style reflects which terminators occur outside quotes.", "quantifier": "every buffer", "why_tests_cant": "all buffers", "anchors": ["src/dialect.cpp:detect_line_ending"]}
{"id": "C50", "title": "Chunk size stays within its limits", "statement": "The computed chunk size is always between 1 MiB and 4 MiB (or the data size rule), positive for every input, without division by zero.", "quantifier": "every file size, column count, thread count", "why_tests_cant": "corner values of unsigned arithmetic", "anchors": ["include/libvroom/options.h:calculate_chunk_size"]}
{"id": "C51", "title": "Arrow export is memory-consistent", "statement": "The exported Arrow array has the length, null count and buffers of the column, a null validity pointer only when there are no nulls, and releasing it twice is harmless.", "quantifier": "every column content", "why_tests_cant": "all contents; release order", "anchors": ["include/libvroom/arrow_column_builder.h:export_to_arrow", "include/libvroom/arrow_export.h"]}
{"id": "C52", "title": "Conversion errors are reported", "statement": "A conversion whose input cannot be opened, is cancelled, or stopped by a fatal error never reports success.", "quantifier": "every outcome of open, read, progress callback and write", "why_tests_cant": "fault combinations", "anchors": ["src/reader/csv_reader.cpp:convert_csv_to_parquet"]}
{"id": "C53", "title": "A written Parquet file reads back as the table", "statement": "A table written through the Parquet writer and closed, read by any conforming Parquet reader, gives back the column names, physical types and nullability and every cell of every row group, nulls included.", "quantifier": "every schema, every builder history, every sequence of row groups, every compressor outcome", "why_tests_cant": "joins encodings, definition levels, dictionary, compression, offsets and footer over unbounded tables", "anchors": ["src/writer/parquet_file.cpp:ParquetWriter::write,close,encode_column_arrow,Impl::write_encoded_row_group"]}
{"id": "C54", "title": "A closed Parquet writer can be opened again", "statement": "After close, opening the writer on a second path and writing to it produces a file that contains exactly the second table.", "quantifier": "every pair of tables written with one writer object", "why_tests_cant": "depends on which state survives close", "anchors": ["src/writer/parquet_file.cpp:ParquetWriter::open,close"]}
{"id": "C55", "title": "The file schema records the logical column types", "statement": "Columns of different types are distinguishable from the schema in the written file: strings, dates and timestamps are marked as such.", "quantifier": "every pair of column schemas", "why_tests_cant": "a unit test sees only the types it writes", "anchors": ["src/writer/parquet_file.cpp:ParquetWriter::close,to_parquet_type"]}
{"id": "C56", "title": "CSV to Parquet conversion preserves the table", "statement": "When a conversion reports success, reading the output file with a conforming Parquet reader gives, column by column and in row order, exactly the values of the CSV rows converted by the rules of each column's type, missing values as nulls, with nothing lost, repeated or reordered.", "quantifier": "every CSV text, chunk size, SIMD width, pipeline schedule, compressor and dictionary setting", "why_tests_cant": "the whole path: chunking, parallel parsing, typing, batching, pipelined writing, encoding, file layout; over unbounded inputs and interleavings", "anchors": ["src/reader/csv_reader.cpp:convert_csv_to_parquet,read_all", "src/writer/parquet_file.cpp:ParquetWriter"]}
{"id": "C57", "title": "Header problems are reported exactly", "statement": "With error handling on, opening a file fails because of its header exactly when the header is a single empty name and errors are not ignored; the errors listed are, up to the limit, that fatal error and one warning per column whose non-empty name was used by an earlier column, in column order. With error handling off nothing is listed. A row that does not fit the header is reported too.", "quantifier": "every header row of quoted or bare names, error mode and error limit", "why_tests_cant": "names repeat in any pattern and the error limit cuts anywhere", "anchors": ["src/reader/csv_reader.cpp:open", "include/libvroom/error.h"]}
{"id": "C58", "title": "Opening a file gives its schema and splits header from data", "statement": "After a successful open the schema lists exactly the columns of that file's header, nullable, with the types inferred from that file, and the data read afterwards is exactly the rows after the header row, whatever was opened before.", "quantifier": "every written file with header, LF or CRLF, quoted names with line breaks; every earlier use of the reader", "why_tests_cant": "quoted line breaks can sit at any offset of any SIMD block", "anchors": ["src/reader/csv_reader.cpp:open", "src/parser/line_parser.cpp"]}
{"id": "C59", "title": "Files without header get numbered columns", "statement": "Opening a file without header names the columns V1..Vn, where n is the number of fields of the first row, and keeps the first row as data.", "quantifier": "every written file", "why_tests_cant": "separators inside quotes anywhere in the first row must not count", "anchors": ["src/reader/csv_reader.cpp:open"]}
{"id": "C60", "title": "Everything delivered comes from the file", "statement": "Whatever the bytes of the file are, reading ends with a result in which the cell texts, taken row by row, are a subsequence of the file's data bytes, in order: no byte is invented, repeated or moved, and neither the number of rows nor the total size of the texts exceeds the size of the data.", "quantifier": "every byte sequence (well-formed or not), data start, chunk size, SIMD width, number of columns", "why_tests_cant": "malformed inputs are unbounded; a stale or overlapping chunk would only show on some of them", "anchors": ["src/reader/csv_reader.cpp:read_all,read_all_serial,parse_chunk_with_state"]}
{"id": "C61", "title": "Calls on a Parquet writer that is not open change nothing", "statement": "On a writer that was never opened or has been closed, every sequence of calls other than open leaves the file alone, write answers failure, close and destruction succeed; a use in order (schema, open, writes, close, then anything but open) answers success up to the close and its file stays final. After an open that answered success, what is written appears in the file.", "quantifier": "every sequence of public calls, every table", "why_tests_cant": "call histories are unbounded", "anchors": ["src/writer/parquet_file.cpp:ParquetWriter::open,write,close,~ParquetWriter,set_schema"]}
{"id": "C62", "title": "Converting a CSV file gives a Parquet file with the same table", "statement": "If a conversion of a CSV file reports success, the output file is a Parquet file in which an independent reader finds the columns named by the header (or V1, V2, ...), with the inferred types, and in each column the values of the CSV rows in order, converted by the rules of the type, with nulls for null spellings and missing fields, and as many rows as the CSV file has non-blank lines of data.", "quantifier": "every CSV file, option setting, number of threads, SIMD width, schedule of the write pipeline", "why_tests_cant": "the composition of schema detection, chunked parallel parsing, type conversion, row grouping, page encoding and a concurrent writer must be right for all files and schedules at once", "anchors": ["src/reader/csv_reader.cpp:convert_csv_to_parquet,CsvReader::open,CsvReader::read_all", "src/writer/parquet_file.cpp:ParquetWriter"]}
{"id": "C63", "title": "Chunks are about as large as asked for", "statement": "When a file is split for parallel parsing, every chunk but the last is longer than the chunk size, so the number of chunks is bounded by the file size over the chunk size, and no chunk of a written file is longer than the chunk size plus one row.", "quantifier": "every file, chunk size, SIMD width; rows with quotes anywhere", "why_tests_cant": "whether a boundary falls inside quotes depends on every byte before it", "anchors": ["src/reader/csv_reader.cpp:read_all", "src/parser/chunk_finder.cpp:find_row_end"]}
{"id": "C64", "title": "head, count and info print the table of the file", "statement": "On a CSV file, `vroom count` prints the number of its non-blank data rows, `vroom info` its size, that number and the columns with their inferred types, and `vroom head -n N` the column names and the first N rows, each cell converted to its column's type and shown as text; the output is the same when the data comes from standard input; a file that cannot be opened gives exit status 1 and no output.", "quantifier": "every CSV file, delimiter, quote character, number N, number of threads, SIMD width", "why_tests_cant": "chunk boundaries, types and row limits interact for all sizes; the printed rows must not depend on how the file was cut", "anchors": ["src/cli.cpp:cmd_head,cmd_count,cmd_info,open_reader"]}
{"id": "C65", "title": "Printed rows read back as the same cells", "statement": "What `vroom head` and `vroom select` print is CSV that the library reads back as the same texts, empty texts as null.", "quantifier": "every table of texts with any bytes, delimiter and quote character", "why_tests_cant": "cells may hold delimiters, quotes and line ends in any combination", "anchors": ["src/cli.cpp:output_row,needs_quoting", "src/parser/split_fields_iter-inl.h"]}
{"id": "C66", "title": "pretty draws an aligned table", "statement": "`vroom pretty -n N` draws the column names and the first N rows as a table in which all lines have the same length, every column is as wide as its widest cell but at most 40 bytes, and longer cells are cut and marked by dots.", "quantifier": "every table, ragged or not, and every cell text", "why_tests_cant": "widths depend on all cells of a column", "anchors": ["src/cli.cpp:cmd_pretty"]}
{"id": "C67", "title": "select prints exactly the columns asked for", "statement": "`vroom select -c` with words separated by commas prints, for every row, the cells of the columns the words mean (a number is an index counted from 0, anything else a name, the first column of that name), in the order asked for; if a word means no column, or there is none, it prints nothing and fails. No access is out of range.", "quantifier": "every list of column names, every specification text, every table", "why_tests_cant": "specifications and column names are unbounded texts", "anchors": ["src/cli.cpp:resolve_columns,cmd_select"]}
{"id": "C68", "title": "Command line options mean what the help text says, in any order", "statement": "A command line made of documented options runs the command with the settings the options name; if no setting is given twice the order does not matter; the last of two settings of the same kind wins.", "quantifier": "every list of documented options, short and long forms", "why_tests_cant": "the orders and mixtures of options are unbounded", "anchors": ["src/cli.cpp:main,parse_common_options"]}
{"id": "C69", "title": "The exit status of convert tells whether the output can be used", "statement": "`vroom convert` exits with 0 only if the conversion succeeded (and, with --strict, nothing was reported); then the output file holds the table of the CSV file. It exits with 1 only if the conversion failed or --strict was given and something was reported.", "quantifier": "every list of documented options, every CSV file, schedule and number of threads", "why_tests_cant": "the composition of argument parsing with the whole conversion", "anchors": ["src/cli.cpp:cmd_convert,main"]}
{"id": "C70", "title": "Python: read_csv and the Arrow stream of a table", "statement": "vroom_csv.read_csv(path, ...) raises exactly when the error mode is unknown, the file cannot be opened or its content is refused; otherwise the Table has the column names and the number of rows of the CSV text, and its Arrow stream delivers to any Arrow consumer a schema with the columns' names and types and one batch whose values are the fields of the text converted to those types.", "quantifier": "every argument combination, every CSV text, every machine", "why_tests_cant": "The batch is a set of raw pointers and counts that only a consumer of the Arrow C interface interprets; tests read a few small files through one consumer, and files with more than one chunk behave differently.", "anchors": ["python/src/bindings.cpp: read_csv, Table, table_stream_get_schema, table_stream_get_next", "include/libvroom/arrow_column_builder.h: export_to_arrow, export_schema", "include/libvroom/arrow_c_data.h"]}
{"id": "C71", "title": "Python: lifetime of exported Arrow data", "statement": "Whatever order a Python program and an Arrow consumer drop the table, pull batches, move columns out of batches and release streams, batches and columns: data not yet released stays readable, nothing is freed twice, and once everything is dropped and released everything is freed.", "quantifier": "every sequence of operations of any length, any number of streams, batches and columns", "why_tests_cant": "Lifetime errors show up only in particular orders of releases, and then as reads of freed memory that usually still succeed in a test.", "anchors": ["python/src/bindings.cpp: TableStreamPrivate, StructArrayPrivate, release_struct_array, table_stream_get_next, table_stream_release, __arrow_c_stream__", "include/libvroom/arrow_export.h: ArrowColumnPrivate, release_arrow_array"]}
{"id": "C72", "title": "Python: to_parquet and to_arrow_ipc", "statement": "vroom_csv.to_parquet raises exactly when the compression or error mode is unknown or the conversion fails; when it returns, the output file holds the columns and values of the CSV text with the compression asked for. to_arrow_ipc reports that it is not implemented and writes nothing.", "quantifier": "every argument combination, input text and I/O outcome", "why_tests_cant": "The exception is derived from a result object by string tests at the end of a long pipeline; tests check single files and default arguments.", "anchors": ["python/src/bindings.cpp: to_parquet, to_arrow_ipc", "src/writer/arrow_ipc_writer.cpp: convert_csv_to_arrow_ipc", "src/reader/csv_reader.cpp: convert_csv_to_parquet"]}
{"id": "C73", "title": "The line parser gives every column one value per line", "statement": "LineParser::parse_line appends exactly one value to every column builder for every line that is not empty and returns the number of columns; on a line as a CSV writer writes it, column j receives field j without the blanks around it (null if that text is one of the null spellings), columns beyond the fields receive null and fields beyond the columns are ignored.", "quantifier": "every byte sequence as line, every number of columns, every null list, separator and quote", "why_tests_cant": "Columns of different lengths appear only for particular combinations of quotes, blanks, missing fields and line ends.", "anchors": ["src/parser/line_parser.cpp: LineParser::parse_line, init_null_values, is_null_value", "include/libvroom/vroom.h: LineParser"]}
{"id": "C74", "title": "Error texts lose nothing", "statement": "The text of a parse error determines its code, severity, line, column, byte offset, message and context; the summary of an error collector determines the recorded errors in order and the number of suppressed ones and says 'No errors' exactly if there are none; the text of an exception determines its errors; the short summary of a conversion counts the errors of each severity.", "quantifier": "every list of errors with messages and contexts of one line, every number of suppressed errors", "why_tests_cant": "Two different lists of errors with the same text are found only by looking for them; positions and counts are unbounded.", "anchors": ["src/error.cpp: ParseError::to_string, ErrorCollector::summary, ParseException::format_errors", "include/libvroom/vroom.h: ConversionResult::error_summary"]}
{"id": "C75", "title": "Printed cells denote the stored values", "statement": "The text that head, select and pretty print for an integer cell is an integer literal denoting the stored value, and reading the printed text of an integer, floating point number, truth value, date or time gives the stored value back.", "quantifier": "every stored bit pattern of every type", "why_tests_cant": "The values of a 64-bit column cannot be enumerated; boundaries between calendar days and around the epoch are easily missed.", "anchors": ["src/cli.cpp: getColumnValueAsString", "src/parser/simd_atoi-inl.h", "src/schema/type_parsers.cpp"]}
{"id": "C76", "title": "The type of a cell is a function of its text, and a total one", "statement": "`infer_cell_type` calls a cell empty exactly if it is all white space; a truth value, integer, float, date or time exactly if, without the white space around it, it is one of the six words, an optional sign and digits, a decimal number with a point or exponent, one of the four date forms or one of the two time forms. A date followed by `T` or a space, a time, an optional fraction and an optional zone is a date-time; conversely a date-time starts with a date, a separator and at least five bytes. What the scoring of dialects takes for numbers are the same integers and floats and the special values.", "quantifier": "all byte strings", "why_tests_cant": "the forms are unbounded in length and overlap (signs, dates, exponents), so that a test of examples cannot show that the order of the checks does not matter", "anchors": ["src/dialect.cpp:infer_cell_type, could_be_integer, could_be_float", "include/libvroom/dialect.h:DialectDetector::CellType"]}
{"id": "C77", "title": "Dialect detection reports a candidate, and finds the dialect of a clean table", "statement": "Whatever the input, `detect` reports either nothing (confidence 0, default dialect, no rows, no columns) or one of the candidate dialects with the comment character found, and then at least `min_rows` rows were read with it; the confidence is at most 1.2. If after leading comment lines the input is a table of two or more plain fields per row, separated by a candidate delimiter, that fits the sample, has enough rows and whose data rows do not mostly look like single values (for commas, semicolons and bars: do not start with a date), then that delimiter, quoting by doubled double quotes, the number of columns and of rows are reported, with a confidence of at least 0.6.", "quantifier": "all inputs, options, orders in which equal counts and equally good candidates are visited, and square roots within [0, 1]", "why_tests_cant": "detection ranks 25 candidates by scores over all rows and cells of any input; tests try a few files", "anchors": ["src/dialect.cpp:DialectDetector::detect, detect_file, score_dialect, compute_pattern_score, compute_type_score", "include/libvroom/dialect.h:DetectionResult, DialectCandidate"]}
{"id": "C78", "title": "A header is reported exactly if the first row looks like one", "statement": "`has_header` holds exactly if the sample has two rows, more than half of the non-empty cells of the first are strings, and the second row holds a typed cell or all cells of the first are strings. In particular a first row without strings is never a header, and one of strings always is.", "quantifier": "all inputs and dialects", "why_tests_cant": "the rule depends on the types of all cells of two rows of any width", "anchors": ["src/dialect.cpp:DialectDetector::detect_header"]}
{"id": "C79", "title": "The description of a dialect determines it; valid dialects are accepted", "statement": "`Dialect::to_string` gives different texts for dialects that differ in delimiter, quote, escaping style, escape character (unless quotes are doubled) or comment character, whatever bytes these are. `is_valid` accepts exactly dialects with a printable or tab delimiter, a printable quote and the two different; `validate` does not throw for these; the predefined dialects are valid.", "quantifier": "all dialects (any bytes)", "why_tests_cant": "there are 2^33 dialects, and the special spellings could collide with the default one", "anchors": ["src/dialect.cpp:Dialect::to_string", "include/libvroom/dialect.h:Dialect::is_valid, validate, csv, tsv, semicolon, pipe"]}
{"id": "C80", "title": "Opening and reading never look outside the data", "statement": "Opening a reader on any bytes and reading them, serially or in chunks, loads no byte outside the `size` bytes the reader was given; nothing after them has any influence on the result; no shift count or remaining length goes out of range. The same holds for the row scanners, the chunk analysis and the parsing of one chunk by themselves, whatever state they start in.", "quantifier": "all contents, sizes, separators, quotes, column numbers, sample sizes, chunk sizes, starting states; vectors of any width dividing 64 bytes", "why_tests_cant": "an over-read by a few bytes inside a page or a heap block is invisible to tests, and appears only for particular lengths modulo 64 and particular bytes at the very end", "anchors": ["src/parser/simd_chunk_finder.cpp:find_row_end_simd, count_rows_simd, analyze_chunk_simd, analyze_chunk_dual_state_simd", "include/libvroom/split_fields.h:SplitFields", "src/reader/csv_reader.cpp:CsvReader::open, read_all_serial, parse_chunk_with_state", "src/schema/type_inference.cpp:TypeInference::infer_from_sample"]}
{"id": "C81", "title": "What a reader reads is there, and is given back", "statement": "Whatever sequence of `open`, `open_from_buffer` and `read_all` calls a program makes on a reader, with whatever outcomes: if the last opening call succeeded, `read_all` touches only live memory and reads exactly the bytes of that file or buffer, and may be repeated. When the reader (or a MmapSource) is destroyed, every file descriptor, mapping and buffer it took is released exactly once. Buffers may be allocated, moved and dropped in any order without sharing, double release or leak, and keep their content followed by zeroed padding.", "quantifier": "all sequences of calls of any length, all file contents and failures of the operating system, any state of the rest of the process", "why_tests_cant": "a dangling pointer or leak shows only in particular orders of failures and retries, and a read of unmapped memory may still succeed in a test", "anchors": ["src/reader/mmap_source.cpp:MmapSource::open, close", "include/libvroom/io_util.h:AlignedBuffer", "src/reader/csv_reader.cpp:CsvReader::open, open_from_buffer, read_all"]}
{"id": "C82", "title": "Every input gives the commands a defined, faithful outcome", "statement": "Whatever bytes the input holds (unbalanced quotes, ragged rows, binary data) and whatever the command line: `count`, `head`, `pretty`, `info` and `select` end with exit status 0 or 1 (or, only for `select` with a column number of 2^64 or more or for an unparsable numeric option, by an uncaught exception), never in undefined behaviour; every file that `open` accepts can be read, has at least one column, and has a value of every column in every row; and what the command prints is exactly the table read.", "quantifier": "all byte strings as input, all command lines, all settings, thread counts and SIMD widths", "why_tests_cant": "the space of malformed inputs cannot be enumerated, and undefined behaviour need not show in a test run", "anchors": ["src/cli.cpp:cmd_count, cmd_head, cmd_pretty, cmd_info, cmd_select", "src/reader/csv_reader.cpp:CsvReader::open, read_all", "src/schema/type_parsers.cpp"]}
{"id": "C83", "title": "Conversion of any bytes is faithful to what was read", "statement": "Whatever bytes the input file holds (unbalanced quotes, ragged rows, binary data): if a conversion to Parquet reports success, an independent reader finds in the output file exactly the column names and types that `open` found and the values that `read_all` delivers for that input, in order, converted by the rules of each type. If `open` refuses the input there is no output and its message is returned. Every input that can be opened can be converted: unless something outside fails (mapping, callback, output file, a write) the conversion succeeds.", "quantifier": "all byte strings as input, all settings, thread counts, SIMD widths, pipeline schedules and compressors", "why_tests_cant": "the space of malformed inputs and schedules cannot be enumerated", "anchors": ["src/reader/csv_reader.cpp:convert_csv_to_parquet", "src/writer/parquet_file.cpp:ParquetWriter", "src/cli.cpp:cmd_convert", "python/src/bindings.cpp:to_parquet"]}
{"id": "C84", "title": "Parsing a value is free of undefined behaviour", "statement": "Parsing the text of a cell as an integer, a date or a timestamp never reads a byte outside the text, never indexes a table out of bounds and never overflows a signed operation, whatever the bytes and their number; the answer depends only on the bytes of the value, not on what lies behind it in memory.", "quantifier": "all byte strings, all lengths, all SIMD vector sizes", "why_tests_cant": "one out-of-bounds read or overflow for one byte string among all is enough, and usually has no visible effect in a test", "anchors": ["src/parser/simd_atoi-inl.h:ParseUint64SimdImpl", "src/parser/simd_atoi-inl.h:ParseInt32SimdImpl", "src/parser/simd_atoi-inl.h:ParseInt64SimdImpl", "src/schema/type_parsers.cpp:parse_date", "src/schema/type_parsers.cpp:parse_timezone", "src/schema/type_parsers.cpp:parse_timestamp"]}
{"id": "C85", "title": "Reading and converting has no data races", "statement": "While a file is read on several threads and converted by the encoding pool and the writer thread, any two accesses of different threads to the same object, of which at least one is a write, are ordered by the synchronisation of the program (task hand-over, futures, the queue's mutex, the error flag, thread start and join), in every schedule, including schedules in which writing fails.", "quantifier": "all numbers of chunks, columns, row groups and threads, all interleavings, all failures of the writer", "why_tests_cant": "a data race shows only under particular timings and hardware; absence of an observed race proves nothing", "anchors": ["src/reader/csv_reader.cpp:read_all", "src/reader/csv_reader.cpp:convert_csv_to_parquet", "src/writer/parquet_file.cpp:encode_row_group", "src/writer/parquet_file.cpp:start_pipeline", "src/writer/parquet_file.cpp:submit_row_group", "src/writer/parquet_file.cpp:finish_pipeline", "src/writer/encoded_row_group_queue.h:EncodedRowGroupQueue"]}
{"id": "C86", "title": "Compressing keeps the data", "statement": "For every codec and level, compressing data never writes outside its buffer and yields either the data itself or bytes from which a reader of that codec's format recovers the data; a failed compression is never mistaken for a successful one; the buffer reused by a thread has no influence on the result; compressing into a caller's buffer touches only the bytes it reports.", "quantifier": "all data, codecs, levels, build configurations, library behaviours within their contracts, all earlier uses of the thread's buffer", "why_tests_cant": "depends on sizes beyond 4 GiB, on failures of the libraries and on what earlier calls left in the buffer", "anchors": ["src/writer/compression.cpp:compress", "src/writer/compression.cpp:compress_into", "src/writer/compression.cpp:compress_into_buffer", "src/writer/compression.cpp:max_compressed_size", "src/writer/parquet_file.cpp:encode_column_arrow"]}
{"id": "C87", "title": "Reading and converting never gets stuck", "statement": "However the threads have been scheduled and whatever has failed so far, the call that reads or converts can still come to its end: no deadlock and no state without a way out; if nothing has failed it can end successfully.", "quantifier": "all numbers of chunks, columns, row groups and threads, all interleavings, all failures of tasks and of the writer thread", "why_tests_cant": "a deadlock may need one particular interleaving of the pool, the writer thread and the caller", "anchors": ["src/reader/csv_reader.cpp:read_all", "src/reader/csv_reader.cpp:convert_csv_to_parquet", "src/writer/parquet_file.cpp:encode_row_group", "src/writer/parquet_file.cpp:submit_row_group", "src/writer/parquet_file.cpp:finish_pipeline", "src/writer/encoded_row_group_queue.h:EncodedRowGroupQueue"]}
{"id": "C88", "title": "Results do not depend on the CPU", "statement": "For every input, option and command, counting, scanning, splitting, reading, inferring types, converting, the command line program and the Python functions give the same results whatever vector width and carry-less multiplication the run-time dispatch finds, and whatever uninitialised memory contains.", "quantifier": "all inputs and options, all pairs of CPUs (vector widths dividing 64 for the scanners, any width for the integer parser), both prefix-xor implementations, all contents of the reader's uninitialised variable", "why_tests_cant": "tests run on one CPU", "anchors": ["src/parser/simd_chunk_finder.cpp", "src/parser/quote_parity-inl.h", "src/parser/split_fields-inl.h", "include/libvroom/split_fields.h:SplitFields", "src/parser/simd_atoi-inl.h", "src/reader/csv_reader.cpp", "src/cli.cpp"]}
{"id": "C89", "title": "Loading a file or standard input", "statement": "Loading gives a buffer that holds exactly the bytes of the file (or of standard input) followed by the requested zero padding, or throws; memory outside the allocation is never written.", "quantifier": "all contents, sizes, paddings, short reads and read errors, all answers of the allocator", "why_tests_cant": "needs devices that fail in the middle, files that shrink, sizes near 2^64", "anchors": ["src/io_util.cpp:load_file_to_ptr", "src/io_util.cpp:read_stdin_to_ptr", "include/libvroom/io_util.h:AlignedBuffer::allocate", "src/cli.cpp:main"]}
{"id": "C90", "title": "A conversion that is interrupted", "statement": "Whenever the process is killed during a conversion, the output path holds the first bytes of the complete file and nothing else; a reader never takes a torn file for a complete one.", "quantifier": "all inputs, options and schedules, every crash point, every way the stream hands its buffer to the device", "why_tests_cant": "needs a crash at every byte of every run", "anchors": ["src/writer/parquet_file.cpp:write_bytes", "src/writer/parquet_file.cpp:open", "src/writer/parquet_file.cpp:close"]}
{"id": "C91", "title": "A disk that is full", "statement": "A conversion that reports success has left its complete file on the disk.", "quantifier": "all inputs, options and schedules, every amount of free space, every way the stream hands its buffer to the device", "why_tests_cant": "needs a device that is full at every possible byte", "anchors": ["src/writer/parquet_file.cpp:write_bytes", "src/writer/parquet_file.cpp:close", "src/reader/csv_reader.cpp:convert_csv_to_parquet", "src/cli.cpp:cmd_convert"]}
{"id": "C92", "title": "The output of a conversion is determined by its input", "statement": "Two successful conversions of the same bytes with the same options leave the same bytes in the output and report the same, whatever the scheduling, the CPU and the contents of uninitialised memory; the number of threads makes no difference to inputs below 1 MiB, and above it the files hold the same table.", "quantifier": "all inputs and options, every pair of schedules, CPUs, memory contents and thread counts", "why_tests_cant": "a test compares a few runs on one machine", "anchors": ["src/reader/csv_reader.cpp:convert_csv_to_parquet", "src/writer/parquet_file.cpp", "src/cli.cpp:cmd_convert"]}
{"id": "C93", "title": "Statistics of pages add up to those of the column", "statement": "Accumulating statistics page by page and merging them reports the whole column: its nulls and a smallest and a largest value (NaN counting as null); the serialised bounds determine the values.", "quantifier": "all value types, all columns, all ways to cut them into pages", "why_tests_cant": "needs every column and every partition", "anchors": ["src/writer/statistics.cpp:merge_statistics", "src/writer/statistics.cpp:serialize_statistic", "src/writer/statistics.cpp:StatisticsAccumulator"]}
{"id": "C94", "title": "Arrow IPC output never pretends to have written data", "statement": "If convert_csv_to_arrow_ipc, to_arrow_ipc or a writer object reports success for writing, closing or opening, the file at the given path is an Arrow file with that data; if they report failure, no file is changed.", "quantifier": "all inputs, options, paths, contents of the disk, and all sequences of calls on a writer object", "why_tests_cant": "needs every sequence of calls and every former content of the files", "anchors": ["src/writer/arrow_ipc_writer.cpp", "include/libvroom/arrow_ipc_writer.h", "python/src/bindings.cpp:to_arrow_ipc"]}
{"id": "C95", "title": "A column chunk record determines the column it was made from", "statement": "For every vector of values, every fitting null bitmap and all options, write_int32_column, write_int64_column, write_float64_column, write_string_column and write_bool_column return, and from the ColumnChunkData record (bytes, counts, flags) a Parquet reader recovers the column; null count and statistics describe it; build_row_group records where the column data is.", "quantifier": "all values, null bitmaps, codecs, levels, dictionary options, caller statistics and vector lengths of the CPU", "why_tests_cant": "needs all lengths and null patterns: the failures depend on how runs of equal levels and dictionary positions line up", "anchors": ["src/writer/column_writer.cpp", "src/writer/page_writer.cpp", "src/writer/row_group.cpp"]}
{"id": "C96", "title": "Line splitting, chunk search and dialect detection stay inside the buffer", "statement": "For every buffer and length, split_fields, split_fields_into, parse_line, parse_header, find_chunks and DialectDetector::detect read only the bytes they were given, whatever follows in memory, and the views and offsets they return lie inside these bytes.", "quantifier": "all buffers, lengths, memory behind the buffer, separators, quote characters, options, and vector lengths of the CPU that divide 64", "why_tests_cant": "an over-read by one byte shows only when the allocation ends right there; needs all lengths and all endings (inside quotes, between CR and LF, inside a block)", "anchors": ["src/parser/split_fields.cpp", "src/parser/split_fields-inl.h", "src/parser/line_parser.cpp", "src/parser/chunk_finder.cpp", "src/dialect.cpp"]}
