{
 "claims": [
  {
   "property": "C01",
   "status": "proved",
   "theorems": [
    "Vroom.C01_quote_mask_is_parity",
    "Vroom.C01_one_mask_per_block",
    "Vroom.C01_carried_state",
    "Vroom.C01_clmul_eq_portable",
    "Vroom.C01_scalar_eq_simd"
   ],
   "note": "All three mask implementations, any number of 64-byte blocks and a final partial block."
  },
  {
   "property": "C02",
   "status": "proved",
   "theorems": [
    "Vroom.C02_count_rows",
    "Vroom.C02_simd_eq_scalar",
    "Vroom.C02_analyze_chunk"
   ],
   "note": "SIMD block loop + tail and scalar loop, any buffer."
  },
  {
   "property": "C03",
   "status": "proved",
   "theorems": [
    "Vroom.C03_find_row_end",
    "Vroom.C03_simd_eq_scalar",
    "Vroom.C03_progress"
   ],
   "note": "Any buffer and start position; includes strict progress."
  },
  {
   "property": "C04",
   "status": "proved",
   "theorems": [
    "Vroom.C04_dual_eq_two_passes",
    "Vroom.C04_dual_spec"
   ],
   "note": "Dual-state analysis equals both single-state analyses and the specification."
  },
  {
   "property": "C05",
   "status": "proved",
   "theorems": [
    "Vroom.C05_linked_states",
    "Vroom.C05_total_count"
   ],
   "note": "Any list of chunks; total count requires no cut between CR and LF, as the property says."
  },
  {
   "property": "C06",
   "status": "proved",
   "theorems": [
    "Vroom.C06_find_chunks",
    "Vroom.C06_find_chunks_single",
    "Vroom.C06_find_chunks_refuted",
    "Vroom.C06_ranges_tile",
    "Vroom.C06_chunks_concat"
   ],
   "note": "Any data, any chunk size; find_chunks too (C06_find_chunks: ranges tile, row counts are those of the chunk alone). Beyond the property: the counts need not add up and ends_in_quote is always false (C06_find_chunks_refuted)."
  },
  {
   "property": "C07",
   "status": "partial",
   "theorems": [
    "Vroom.C07_clear_partial",
    "Vroom.C07_clear_iff",
    "Vroom.C07_parallel_iff",
    "Vroom.C07_parallel_eq_serial_partial",
    "Vroom.C07_no_quoted_line_ends",
    "Vroom.C07_full_fails",
    "Vroom.C07_lone_cr_fails",
    "Vroom.C07_partial_row_skipped"
   ],
   "note": "The full property is false of the code (C07_full_fails, C07_lone_cr_fails: quoted LF or lone CR at a cut). For every file that is clear (the exact condition under which the serial read delivers the table, C13_serial_iff) parallel and serial reads agree exactly when no chunk starts inside quotes (C07_clear_iff, C07_parallel_iff; C07_clear_partial gives the row totals too), unconditionally for tables without quoted line ends (C07_no_quoted_line_ends); the partial-row skip is characterised for every byte content (C07_partial_row_skipped)."
  },
  {
   "property": "C08",
   "status": "proved",
   "theorems": [
    "Vroom.C08_chunk_rectangular",
    "Vroom.C08_row_padding",
    "Vroom.C08_serial_rectangular",
    "Vroom.C08_read_rectangular"
   ],
   "note": "Every chunk, every input: all columns as long as the parsed row count."
  },
  {
   "property": "C09",
   "status": "partial",
   "theorems": [
    "Vroom.C09_count_exact",
    "Vroom.C09_clear_iff",
    "Vroom.C09_serial",
    "Vroom.C09_full_fails",
    "Vroom.C09_no_final_newline_fails",
    "Vroom.C09_parallel_partial"
   ],
   "note": "C09_count_exact gives the reported count for every content of the file, chunk size and threshold (line ends outside quotes in a parallel read, rows delivered in a serial one). For clear files C09_clear_iff says exactly when it equals the rows delivered; the property is false for blank lines or a missing final newline (C09_full_fails, C09_no_final_newline_fails)."
  },
  {
   "property": "C10",
   "status": "proved",
   "theorems": [
    "Vroom.C10_schedule_independent",
    "Vroom.C10_deterministic",
    "Vroom.C10_terminates",
    "Vroom.C10_progress"
   ],
   "note": "Labelled transition system of the worker pool; every interleaving gives the sequential result, terminates and cannot get stuck."
  },
  {
   "property": "C11",
   "status": "proved",
   "theorems": [
    "Vroom.C11_split_unique",
    "Vroom.C11_simd_eq_scalar",
    "Vroom.C11_split",
    "Vroom.C11_written",
    "Vroom.C11_two_lines_differ",
    "Vroom.C11_blanks_inside_quotes_lost",
    "Vroom.C11_written_stripped"
   ],
   "note": "One-line buffers, any separator/quote satisfying SplitSane, any block width. Buffers holding more than one line are excluded from the agreement: C11_two_lines_differ refutes it there; C11_blanks_inside_quotes_lost records that blanks inside quotes are trimmed."
  },
  {
   "property": "C12",
   "status": "partial",
   "theorems": [
    "Vroom.C12_no_loss",
    "Vroom.C12_rows_partial",
    "Vroom.C12_full_fails",
    "Vroom.C12_exact",
    "Vroom.C12_iff",
    "Vroom.C12_clear_of_order"
   ],
   "note": "No byte is lost for any input. C12_exact describes the fields cut for every input; C12_iff: a row of well-formed fields is cut into its fields exactly when no separator or line end inside quotes lies in a 64-byte window opened by an unquoted field. C12_full_fails: the unrestricted property is false of the code."
  },
  {
   "property": "C13",
   "status": "partial",
   "theorems": [
    "Vroom.C13_open_clear",
    "Vroom.C13_read_clear",
    "Vroom.C13_read_iff",
    "Vroom.C13_read_big_iff",
    "Vroom.C13_read_cuts",
    "Vroom.C13_quote_all",
    "Vroom.C13_unescape_escape",
    "Vroom.C13_serial_table_partial",
    "Vroom.C13_quoted_table_roundtrip",
    "Vroom.C13_serial_clear",
    "Vroom.C13_serial_iff"
   ],
   "note": "Unescape/escape round trip for all strings; a table of arbitrary texts written with every value in quotes is read back exactly through open and read_all (C13_quote_all: any texts below 1 MiB, texts without line ends at any size); for files of written rows C13_serial_iff and C13_read_iff give the exact condition (FileClear) under which open and read deliver the table below 1 MiB, C13_read_big_iff the exact condition for clear files above (no chunk starts inside quotes). Partial because the code violates the property for files that are not clear (C12 defect)."
  },
  {
   "property": "C14",
   "status": "proved",
   "theorems": [
    "Vroom.C14_null_iff_member",
    "Vroom.C14_cell_null"
   ],
   "note": "NullChecker construction and lookup equal membership in the comma-separated list."
  },
  {
   "property": "C15",
   "status": "proved",
   "theorems": [
    "Vroom.C15_parse_header",
    "Vroom.C15_roundtrip",
    "Vroom.C15_last_empty_name"
   ],
   "note": "Header rows of bare and quoted names ended by LF/CRLF. Blanks around bare names and at the end of quoted names are removed (columnName); a last empty name at end of file is dropped (C15_last_empty_name)."
  },
  {
   "property": "C16",
   "status": "proved",
   "theorems": [
    "Vroom.C16_wider_is_join",
    "Vroom.C16_comm",
    "Vroom.C16_assoc",
    "Vroom.C16_idem",
    "Vroom.C16_string_absorbs",
    "Vroom.C16_fold_is_join",
    "Vroom.C16_order_independent",
    "Vroom.C16_can_promote",
    "Vroom.C16_unknown_not_comm"
   ],
   "note": "Widening is the least upper bound in the type order; hence commutative, associative, idempotent, order independent over any list of inferred types (UNKNOWN, which inference never returns, excluded: C16_unknown_not_comm)."
  },
  {
   "property": "C17",
   "status": "partial",
   "theorems": [
    "Vroom.C17_exact",
    "Vroom.C17_bool_among_ints_lost",
    "Vroom.C17_date_among_timestamps_lost",
    "Vroom.C17_plus_among_floats_lost",
    "Vroom.C17_int32",
    "Vroom.C17_int64_partial",
    "Vroom.C17_bool_partial",
    "Vroom.C17_date_partial",
    "Vroom.C17_int_column_partial",
    "Vroom.C17_yes_fails",
    "Vroom.C17_full_fails",
    "Vroom.C17_long_int_fails",
    "Vroom.C17_bad_date_fails",
    "Vroom.C17_bool_int_mix_fails",
    "Vroom.C17_date_timestamp_mix_fails",
    "Vroom.C17_bool_texts"
   ],
   "note": "The property is false of the code: 'Yes'/'No', 20-digit integers, impossible dates, bool+int and date+timestamp mixes and '+5' among floats are inferred a type under which they read as null (C17_full_fails and witnesses). C17_exact says, for every option lists and every sample, exactly which sampled values are kept; the three _lost theorems say which mixtures always lose values. Proved: INT32 always exact; INT64, BOOL, DATE and integer columns under the stated restrictions."
  },
  {
   "property": "C18",
   "status": "partial",
   "theorems": [
    "Vroom.C18_no_header",
    "Vroom.C18_header_skips_first_row",
    "Vroom.C18_full_fails",
    "Vroom.C18_value_lost",
    "Vroom.C18_integers",
    "Vroom.C18_written",
    "Vroom.C18_written_no_header",
    "Vroom.C18_quoting_irrelevant",
    "Vroom.C18_quote_all",
    "Vroom.C18_hidden_by_line_end"
   ],
   "note": "False of the code when has_header is set: the first data row is skipped by inference (C18_full_fails). C18_written and C18_written_no_header give the inferred types exactly for every written file (quoted fields with any content, LF or CRLF): the sample is the sampledCells of the sampled rows; a line end in quotes hides the rest of its row (C18_hidden_by_line_end); quoting does not change the types (C18_quoting_irrelevant, C18_quote_all); tables of integers become INT32 columns (C18_integers)."
  },
  {
   "property": "C19",
   "status": "partial",
   "theorems": [
    "Vroom.C19_parse_int32",
    "Vroom.C19_exact_if_wrapping",
    "Vroom.C19_full_fails",
    "Vroom.C19_scalar_eq_simd",
    "Vroom.C19_legacy_double_minus",
    "Vroom.C19_legacy_rejects_min",
    "Vroom.C19_from_chars",
    "Vroom.C19_legacy_int32_partial"
   ],
   "note": "Complete characterisation for every byte string and vector width; the only deviation is undefined behaviour (negating INT32_MIN) on '-2147483648' (C19_full_fails). Exact if signed negation wraps (C19_exact_if_wrapping). Legacy header parser characterised exactly (C19_legacy_int32_partial); it accepts '--\u2026' (C19_legacy_double_minus)."
  },
  {
   "property": "C20",
   "status": "partial",
   "theorems": [
    "Vroom.C20_parse_int64",
    "Vroom.C20_full_fails",
    "Vroom.C20_scalar_partial",
    "Vroom.C20_scalar_wraps",
    "Vroom.C20_legacy_int64_partial",
    "Vroom.C20_parsers_agree"
   ],
   "note": "Complete characterisation; UB only on the literal -2^63 (C20_full_fails). The scalar reference parser wraps at 20 digits (C20_scalar_wraps), exact up to 19 (C20_scalar_partial). Legacy parser characterised exactly (C20_legacy_int64_partial)."
  },
  {
   "property": "C21",
   "status": "partial",
   "theorems": [
    "Vroom.C21_accepts_iff",
    "Vroom.C21_day_numbers",
    "Vroom.C21_covers",
    "Vroom.C21_successive",
    "Vroom.C21_epoch",
    "Vroom.C21_full_fails",
    "Vroom.C21_in_range",
    "Vroom.C21_exact",
    "Vroom.C21_exact_covers",
    "Vroom.C21_successive_iff"
   ],
   "note": "C21_accepts_iff: accepted texts; C21_exact (with C21_exact_covers: all accepted texts): the number stored for every four-digit date, right exactly from year 1 on; C21_successive_iff: neighbouring days get neighbouring numbers except at 0000-12-31. Partial because the code is wrong in year 0, whose days all get one too many (C21_full_fails)."
  },
  {
   "property": "C22",
   "status": "proved",
   "theorems": [
    "Vroom.C22_value",
    "Vroom.C22_accepted",
    "Vroom.C22_in_range",
    "Vroom.C22_trailing_text_accepted",
    "Vroom.C22_exact"
   ],
   "note": "C22_exact: a text is accepted with value v exactly when it belongs to the grammar StampText and v is its instant. Value formula for every well-formed text, range of every accepted text, no 64-bit overflow; the parser additionally ignores text after the zone (C22_trailing_text_accepted)."
  },
  {
   "property": "C23",
   "status": "proved",
   "theorems": [
    "Vroom.C23_bitmap_is_list",
    "Vroom.C23_exported_bytes",
    "Vroom.C23_in_bounds",
    "Vroom.C23_resize_set_fails",
    "Vroom.C23_resize_stale",
    "Vroom.C23_set"
   ],
   "note": "All histories of push/append_from/finalize/clear; findings for the unused resize/set pair (C23_resize_set_fails, C23_resize_stale). Self-append excluded (the C++ loop would not end)."
  },
  {
   "property": "C24",
   "status": "proved",
   "theorems": [
    "Vroom.C24_numeric",
    "Vroom.C24_string"
   ],
   "note": "Six fixed-width builders (one generic model) and the string builder; merge with a different builder."
  },
  {
   "property": "C25",
   "status": "partial",
   "theorems": [
    "Vroom.C25_offsets",
    "Vroom.C25_wraps_at_4GiB",
    "Vroom.C25_get",
    "Vroom.C25_unchecked_refuted",
    "Vroom.C25_unchecked_overrun"
   ],
   "note": "Proved for push_back, push_back_empty and merges below 2^32 bytes; above, offsets wrap (C25_wraps_at_4GiB). Refuted for push_back_unchecked, which stores zeros for every text (C25_unchecked_refuted) or writes out of bounds (C25_unchecked_overrun); nothing in the library calls it."
  },
  {
   "property": "C26",
   "status": "proved",
   "theorems": [
    "Vroom.C26_varint_roundtrip",
    "Vroom.C26_varint_size",
    "Vroom.C26_zigzag_roundtrip",
    "Vroom.C26_signed_roundtrip"
   ],
   "note": "All 64-bit values, with any following bytes; byte count also characterised."
  },
  {
   "property": "C27",
   "status": "proved",
   "theorems": [
    "Vroom.C27_fixed_arrow",
    "Vroom.C27_int32",
    "Vroom.C27_int64",
    "Vroom.C27_bool",
    "Vroom.C27_strings",
    "Vroom.C27_byte_arrays",
    "Vroom.C27_legacy_fixed",
    "Vroom.C27_legacy_fixed_no_bitmap",
    "Vroom.C27_legacy_bool",
    "Vroom.C27_legacy_byte_arrays"
   ],
   "note": "Arrow encoders (fixed width, bool, byte arrays) after any column history, allocation shown exact; legacy vector encoders too. String columns below 2^32 bytes (offset width)."
  },
  {
   "property": "C28",
   "status": "partial",
   "theorems": [
    "Vroom.C28_def_levels",
    "Vroom.C28_wraps_at_2_31",
    "Vroom.C28_legacy_encoder_wrong",
    "Vroom.C28_legacy_no_nulls",
    "Vroom.C28_legacy_exact",
    "Vroom.C28_legacy_iff",
    "Vroom.C28_levels_rle"
   ],
   "note": "Arrow path proved for every bitmap history with fewer than 2^31 rows (page row counts are i32). The legacy vector<bool> path is refuted (C28_legacy_encoder_wrong); C28_legacy_iff says exactly for which columns it is right."
  },
  {
   "property": "C29",
   "status": "partial",
   "theorems": [
    "Vroom.C29_rle_roundtrip",
    "Vroom.C29_width_zero",
    "Vroom.C29_hybrid_encoder_pads_mid_stream",
    "Vroom.C29_hybrid_encoder_partial",
    "Vroom.C29_bits_required",
    "Vroom.C29_hybrid_exact",
    "Vroom.C29_hybrid_iff"
   ],
   "note": "rle.cpp / plain.cpp encoders proved for all inputs. For the streaming encoder of hybrid_rle.cpp, C29_hybrid_exact gives what a reader sees for every input and C29_hybrid_iff exactly when it is the input; refuted otherwise (C29_hybrid_encoder_pads_mid_stream)."
  },
  {
   "property": "C30",
   "status": "proved",
   "theorems": [
    "Vroom.C30_create_dictionary",
    "Vroom.C30_dictionary_roundtrip",
    "Vroom.C30_analysis"
   ],
   "note": "Dictionary creation, dictionary page, index page, bit width, analysis; any column history (< 2^31 rows, < 2^32 string bytes). Floating-point ratio comparison is a parameter."
  },
  {
   "property": "C31",
   "status": "partial",
   "theorems": [
    "Vroom.C31_int64_delta_partial",
    "Vroom.C31_int64_delta_unpadded_partial",
    "Vroom.C31_int32_delta_partial",
    "Vroom.C31_delta_length_partial",
    "Vroom.C31_last_miniblock_not_padded",
    "Vroom.C31_wide_deltas_lose_bits",
    "Vroom.C31_delta_length_not_padded",
    "Vroom.C31_int64_delta_exact",
    "Vroom.C31_int32_delta_iff",
    "Vroom.C31_delta_length_iff",
    "Vroom.C31_int64_defined_iff",
    "Vroom.C31_int64_exact",
    "Vroom.C31_int64_iff"
   ],
   "note": "Exact for every column: C31_int32_delta_iff (int32, all lengths), C31_int64_exact / C31_int64_iff (int64, all values: which columns are defined, C31_int64_defined_iff; what a reader sees, with the bits lost in wide slots; exactly when it sees the values) and C31_delta_length_iff (strings). A Parquet reader gets the values but swallows Spec.missingPadding bytes of what follows (or fails), so the section is right exactly when that number is 0. An unpadded reader always gets int32 values and strings back. Partial because the general claim is false: last miniblock not padded (C31_last_miniblock_not_padded, C31_delta_length_not_padded), wide int64 differences lose bits (C31_wide_deltas_lose_bits). The Parquet writer does not call these encoders."
  },
  {
   "property": "C32",
   "status": "proved",
   "theorems": [
    "Vroom.C32_file_metadata",
    "Vroom.C32_page_header",
    "Vroom.C32_any_field_ids"
   ],
   "note": "FileMetaData (with schema elements, row groups, column chunks, statistics, column orders) and page headers written by the Thrift compact writer parse, with an independent Thrift reader, to exactly the written values, for every value with byte strings < 2^64 and lists < 2^31. write_bool, write_double and DataPageHeaderV2 are never used by the writer and are not modelled."
  },
  {
   "property": "C33",
   "status": "proved",
   "theorems": [
    "Vroom.C33_layout"
   ],
   "note": "For every list of encoded row groups (arbitrary page bytes) written between open and close of a fresh writer; file below 2^63 bytes. That the footer parses to the recorded metadata is C32; the reader using these offsets is C53. Stream errors are not checked by the code and not modelled."
  },
  {
   "property": "C34",
   "status": "proved",
   "theorems": [
    "Vroom.C34_groups_are_slices",
    "Vroom.C34_rows",
    "Vroom.C34_batch_sizes"
   ],
   "note": "Row groups handed to the writer contain the table, for every chunk list and target size; batch sizes reach the target except the last."
  },
  {
   "property": "C35",
   "status": "partial",
   "theorems": [
    "Vroom.C35_codec_partial",
    "Vroom.C35_dictionary_codec_refuted",
    "Vroom.C35_lz4_refuted"
   ],
   "note": "Proved for every column, compressor and page content under: codec not LZ4, and dictionary page and data page agree on whether compression was kept (always the case with the default options, pagesAgree_of_options). Both exclusions are necessary: C35_dictionary_codec_refuted gives an unreadable file, C35_lz4_refuted shows that LZ4 pages are always mislabelled."
  },
  {
   "property": "C36",
   "status": "proved",
   "theorems": [
    "Vroom.C36_fifo",
    "Vroom.C36_prefix",
    "Vroom.C36_exhausted",
    "Vroom.C36_refused_after_close"
   ],
   "note": "Any number of threads, any capacity, every interleaving incl. spurious wake-ups."
  },
  {
   "property": "C37",
   "status": "proved",
   "theorems": [
    "Vroom.C37_bounded",
    "Vroom.C37_in_flight"
   ],
   "note": "Every reachable state."
  },
  {
   "property": "C38",
   "status": "proved",
   "theorems": [
    "Vroom.C38_no_lost_wakeup",
    "Vroom.C38_not_both_blocked",
    "Vroom.C38_enabled",
    "Vroom.C38_progress",
    "Vroom.C38_terminates",
    "Vroom.C38_success_complete",
    "Vroom.C38_failure_prefix",
    "Vroom.C38_written_prefix",
    "Vroom.C38_submit_failure_leaves_thread_running"
   ],
   "note": "No lost wake-up for any number of producers/consumers; the converter/writer pipeline cannot deadlock, terminates with an explicit step bound, success = everything written. Finding: after a failed write submit_row_group's error path drops a joinable thread (C38_submit_failure_leaves_thread_running)."
  },
  {
   "property": "C39",
   "status": "partial",
   "theorems": [
    "Vroom.C39_int",
    "Vroom.C39_string",
    "Vroom.C39_double_partial",
    "Vroom.C39_double_x86_partial",
    "Vroom.C39_bool",
    "Vroom.C39_int_agree",
    "Vroom.C39_string_agree",
    "Vroom.C39_double_nan_counted_refuted",
    "Vroom.C39_double_all_nan_refuted",
    "Vroom.C39_double_min_lost_refuted",
    "Vroom.C39_double_counts",
    "Vroom.C39_double_exact",
    "Vroom.C39_double_bounds_x86",
    "Vroom.C39_double_bounds_spreading"
   ],
   "note": "Proved for every history of public calls (new, update, update_null, update_batch, update_batch_with_nulls, merge, reset): integers with vectorised batches of any lane count, strings, booleans. Doubles: the report is right exactly when no NaN came in a batch without bitmap since the last reset (C39_double_exact, iff, any processor); the counts for every history (C39_double_counts); on x86 the bounds are always numbers that were seen (C39_double_bounds_x86), and where the vector minimum spreads NaN they are always right (C39_double_bounds_spreading). Partial because the code refutes the rest (three refutations). Two integer or string objects that saw the same cells in any way report the same. The separate helpers of writer/statistics.cpp are C93."
  },
  {
   "property": "C40",
   "status": "proved",
   "theorems": [
    "Vroom.C40_account",
    "Vroom.C40_limit",
    "Vroom.C40_fatal",
    "Vroom.C40_no_invention",
    "Vroom.C40_first_errors"
   ],
   "note": "All histories of add/merge/clear/sort/set_max/set_mode."
  },
  {
   "property": "C41",
   "status": "partial",
   "theorems": [
    "Vroom.C41_stop",
    "Vroom.C41_zero_limit_fails",
    "Vroom.C41_fatal_stops",
    "Vroom.C41_never",
    "Vroom.C41_mode_set"
   ],
   "note": "Exact stop condition for every history with limits >= 1; with max_errors=0 fail-fast does not stop on a non-fatal error (C41_zero_limit_fails)."
  },
  {
   "property": "C42",
   "status": "proved",
   "theorems": [
    "Vroom.C42_merge_sorted",
    "Vroom.C42_no_loss",
    "Vroom.C42_exists"
   ],
   "note": "std::sort modelled as any sorted permutation."
  },
  {
   "property": "C43",
   "status": "proved",
   "theorems": [
    "Vroom.C43_isolated",
    "Vroom.C43_shares",
    "Vroom.C43_retained_pointer_refuted",
    "Vroom.C43_retained_exact",
    "Vroom.C43_retained_alone"
   ],
   "note": "Refinement of every program over copy-on-write buffers to independent variables. A pointer kept across a later copy escapes the protection (C43_retained_pointer_refuted): C43_retained_exact says exactly which variables see a write through it, C43_retained_alone that an unshared variable is safe."
  },
  {
   "property": "C44",
   "status": "proved",
   "theorems": [
    "Vroom.C44_sequence",
    "Vroom.C44_iterate_before_finalize",
    "Vroom.C44_builder"
   ],
   "note": "Storage (size, empty, iterators) and the builders read-back with its lazy cache, for every history of appends, direct writes, reads, finalizations and merges in either role."
  },
  {
   "property": "C45",
   "status": "partial",
   "theorems": [
    "Vroom.C45_int",
    "Vroom.C45_double",
    "Vroom.C45_string_partial",
    "Vroom.C45_null_count",
    "Vroom.C45_string_merge_refuted",
    "Vroom.C45_string_drained_refuted",
    "Vroom.C45_bool_merge_refuted"
   ],
   "note": "Integers, dates, timestamps, doubles: proved for every history including merges. Strings and booleans: only without merges or direct writes; refuted with merges (the incremental statistics are not merged)."
  },
  {
   "property": "C46",
   "status": "partial",
   "theorems": [
    "Vroom.C46_irreflexive",
    "Vroom.C46_asymmetric",
    "Vroom.C46_transitive_partial",
    "Vroom.C46_tolerance_refuted",
    "Vroom.C46_sort_precondition_refuted",
    "Vroom.C46_escape_evidence"
   ],
   "note": "Model of operator<, candidate generation and scoring (scoring arithmetic arbitrary). Irreflexive, asymmetric, transitive for scores equal or further apart than 1e-9. Refuted: close scores give a cycle; and for EVERY text without apostrophe and backslash the 25 default candidates contain a tied with b, b tied with c, a before c, so the comparator passed to std::sort is not a strict weak order."
  },
  {
   "property": "C47",
   "status": "proved",
   "theorems": [
    "Vroom.C47_fields",
    "Vroom.C47_rows",
    "Vroom.C47_rows_disjoint",
    "Vroom.C47_table",
    "Vroom.C47_comment_quote_refuted"
   ],
   "note": "For every dialect with distinct special bytes, every buffer and every row limit >= 1: rows = non-empty non-comment lines cut only at unquoted line ends, disjoint and in bounds; fields = pieces between unquoted delimiters; a written table is sampled back field by field. Finding: a quote byte in a comment line swallows the following rows."
  },
  {
   "property": "C48",
   "status": "proved",
   "theorems": [
    "Vroom.C48_skip",
    "Vroom.C48_none",
    "Vroom.C48_rest",
    "Vroom.C48_blank_refuted"
   ],
   "note": "Every buffer, every comment character set without NUL. Finding: an all-blank file is reported as only comments."
  },
  {
   "property": "C49",
   "status": "partial",
   "theorems": [
    "Vroom.C49_kinds_partial",
    "Vroom.C49_uniform",
    "Vroom.C49_quoted_refuted"
   ],
   "note": "The reported style is exactly determined by the terminators occurring anywhere in the text; uniform files get their terminator. Missing/refuted: quotes are ignored, so a quoted LF in a CRLF file gives MIXED."
  },
  {
   "property": "C50",
   "status": "proved",
   "theorems": [
    "Vroom.C50_chunk_size_bounds",
    "Vroom.C50_chunk_size_value"
   ],
   "note": "All data sizes, thread counts and column counts."
  },
  {
   "property": "C51",
   "status": "proved",
   "theorems": [
    "Vroom.C51_numeric",
    "Vroom.C51_string",
    "Vroom.C51_release_idempotent"
   ],
   "note": "Buffers are the column's storage by reference; lifetime of the column is the caller's duty. Arrow int32 offsets need < 2^31 bytes."
  },
  {
   "property": "C52",
   "status": "partial",
   "theorems": [
    "Vroom.C52_ok_means_done_partial",
    "Vroom.C52_empty_message_refuted",
    "Vroom.C52_failed_output_looks_complete"
   ],
   "note": "ok() implies input opened and read, not cancelled, output opened, all row groups written and file closed, for every schedule and failure, provided failing steps carry a non-empty message. Refuted without that proviso (C52_empty_message_refuted); a failed conversion leaves a well-formed shorter file (C52_failed_output_looks_complete)."
  },
  {
   "property": "C53",
   "status": "proved",
   "theorems": [
    "Vroom.C53_file_roundtrip_sized",
    "Vroom.C53_file_roundtrip"
   ],
   "note": "Independent reader (Spec/ParquetFile.lean) on the complete bytes of the file. Size limits are those of the format fields; C53_file_roundtrip_sized derives the footer and file limits from a bound on groups, columns and names. LZ4 and disagreeing page decisions excluded as in C35; non-nullable columns must hold no nulls. Column encoding by pool tasks is a map; compressors are parameters with contract CodecOk."
  },
  {
   "property": "C54",
   "status": "partial",
   "theorems": [
    "Vroom.C54_reopen_refuted",
    "Vroom.C54_first_open_partial"
   ],
   "note": "Refuted by C54_reopen_refuted: offset, row groups and row total survive close/open. Only the first open is right."
  },
  {
   "property": "C55",
   "status": "partial",
   "theorems": [
    "Vroom.C55_schema_partial",
    "Vroom.C55_logical_types_refuted"
   ],
   "note": "Exact characterisation of what the schema distinguishes; DATE and TIMESTAMP are lost (C55_logical_types_refuted)."
  },
  {
   "property": "C56",
   "status": "partial",
   "theorems": [
    "Vroom.C56_csv_to_parquet_partial"
   ],
   "note": "End to end: success implies the output file reads back as the typed CSV table, for every written table and any file size; limited are the bytes per chunk and the texts in columns of unknown type (so that pages stay below 2 GiB). Missing: chunk boundaries inside quotes (where parallel reading is wrong, C07), LZ4 and disagreeing page codecs (C35), texts with integer-minimum UB (C17), footer of 4 GiB or more."
  },
  {
   "property": "C57",
   "status": "partial",
   "theorems": [
    "Vroom.C57_header_errors",
    "Vroom.C57_malformed_rows_unreported",
    "Vroom.C57_header_errors_explicit"
   ],
   "note": "Header part proved for all written headers, modes and limits; the last sentence is refuted: rows are never checked (C57_malformed_rows_unreported)."
  },
  {
   "property": "C58",
   "status": "partial",
   "theorems": [
    "Vroom.C58_open_partial",
    "Vroom.C58_reopen_refuted",
    "Vroom.C58_leading_blank_line"
   ],
   "note": "Proved for a fresh reader. Refuted for a reader used before: columns are appended to the old schema (C58_reopen_refuted)."
  },
  {
   "property": "C59",
   "status": "proved",
   "theorems": [
    "Vroom.C59_open_no_header"
   ],
   "note": "Fresh reader, any written first row."
  },
  {
   "property": "C60",
   "status": "proved",
   "theorems": [
    "Vroom.C60_chunk_from_text",
    "Vroom.C60_serial_from_text",
    "Vroom.C60_read_from_text",
    "Vroom.C60_no_amplification"
   ],
   "note": "For arbitrary bytes and both read paths."
  },
  {
   "property": "C61",
   "status": "partial",
   "theorems": [
    "Vroom.C61_closed_is_final",
    "Vroom.C61_orderly_use",
    "Vroom.C61_open_twice_refuted"
   ],
   "note": "Closed-writer behaviour and orderly use proved for all call sequences; the last sentence is refuted by C61_open_twice_refuted (open on an open writer)."
  },
  {
   "property": "C62",
   "status": "partial",
   "theorems": [
    "Vroom.C62_convert_clear_partial",
    "Vroom.C62_convert_any_size_partial",
    "Vroom.C62_convert_file_partial",
    "Vroom.C62_convert_headerless_partial",
    "Vroom.C62_convert_quote_free_partial",
    "Vroom.C62_integers_partial",
    "Vroom.C62_quote_all_partial"
   ],
   "note": "From the CSV bytes to the Parquet bytes through open, read_all, type conversion, row groups and the concurrent writer, with the constants of the code, for files of any size, with or without header, under the exact condition on quoted fields (FileClear): C62_convert_any_size_partial; C62_quote_all_partial for arbitrary texts all written in quotes; C62_integers_partial from integer texts to the same integers in the file, types included. Missing: rows above 32 MiB; nominal chunk ends inside quotes in files of 1 MiB or more (parallel reading is wrong there, C07); texts above 4 KiB in columns without inferred type; integer minimum (C17); LZ4 and dictionaries with compression (C35)."
  },
  {
   "property": "C63",
   "status": "partial",
   "theorems": [
    "Vroom.C63_chunks_not_short",
    "Vroom.C63_chunk_bound_partial",
    "Vroom.C63_boundary_in_quotes_takes_rest",
    "Vroom.C63_full_fails"
   ],
   "note": "Bound on the number of chunks and lower bound for any bytes; upper bound when nominal ends are outside quotes; refuted otherwise (C63_full_fails, C63_boundary_in_quotes_takes_rest)."
  },
  {
   "property": "C64",
   "status": "partial",
   "theorems": [
    "Vroom.C64_count_clear_partial",
    "Vroom.C64_head_clear_partial",
    "Vroom.C64_head",
    "Vroom.C64_unreadable_partial",
    "Vroom.C64_missing_empty_file_refuted",
    "Vroom.C64_stdin_eq_file",
    "Vroom.C64_count_file_partial",
    "Vroom.C64_info_file_partial",
    "Vroom.C64_head_file_partial"
   ],
   "note": "count, info, head on every written CSV file (conditions of C62 on rows and cuts), stdin = file, unreadable files. Missing: stray quotes and the files on which reading itself is wrong (C07, C12); false for paths containing \"Empty file\" (C64_missing_empty_file_refuted)."
  },
  {
   "property": "C65",
   "status": "partial",
   "theorems": [
    "Vroom.C65_reads_back_partial",
    "Vroom.C65_lone_empty_refuted",
    "Vroom.C65_own_output_refuted",
    "Vroom.C65_iff",
    "Vroom.C65_big_iff"
   ],
   "note": "C65_iff gives the exact condition for files below the parallel threshold (printed rows read back iff every row is window-clear and no row is one empty text), C65_big_iff the one above it; the full property is false outside (C65_lone_empty_refuted, C65_own_output_refuted)."
  },
  {
   "property": "C66",
   "status": "proved",
   "theorems": [
    "Vroom.C66_pretty_drawn",
    "Vroom.C66_pretty_aligned",
    "Vroom.C66_newline_refuted",
    "Vroom.C66_utf8_refuted",
    "Vroom.C66_pretty_file_partial"
   ],
   "note": "The drawing and its alignment for every table (bytes as width); composed with reading for written CSV files in C66_pretty_file_partial. Limits: C66_newline_refuted, C66_utf8_refuted."
  },
  {
   "property": "C67",
   "status": "proved",
   "theorems": [
    "Vroom.C67_select",
    "Vroom.C67_resolve",
    "Vroom.C67_in_range",
    "Vroom.C67_numeric_name_refuted",
    "Vroom.C67_huge_index_refuted",
    "Vroom.C67_select_file_partial",
    "Vroom.C67_bad_spec_partial"
   ],
   "note": "Selection, resolution of words (iff) and range for every specification and list of names; composed with reading in the _partial theorems. Limits refuted: numeric names, 20-digit indices."
  },
  {
   "property": "C68",
   "status": "proved",
   "theorems": [
    "Vroom.C68_options",
    "Vroom.C68_any_order",
    "Vroom.C68_program",
    "Vroom.C68_unknown_option_refuted",
    "Vroom.C68_dropped_refuted",
    "Vroom.C68_second_file_refuted",
    "Vroom.C68_numbers_refuted",
    "Vroom.C68_convert_delimiter_refuted",
    "Vroom.C68_file_named_convert_refuted"
   ],
   "note": "For command lines made of documented options (any order, short and long forms, at most one -c). What happens to other command lines is shown by the refuted theorems."
  },
  {
   "property": "C69",
   "status": "partial",
   "theorems": [
    "Vroom.C69_convert_clear_partial",
    "Vroom.C69_convert_program",
    "Vroom.C69_exit_zero",
    "Vroom.C69_exit_code",
    "Vroom.C69_convert_file_partial"
   ],
   "note": "Exit status exactly characterised for documented options; composed with C62, whose conditions apply. Missing: what C62 misses."
  },
  {
   "property": "C70",
   "status": "partial",
   "theorems": [
    "Vroom.C70_column",
    "Vroom.C70_fields",
    "Vroom.C70_batch",
    "Vroom.C70_batch_invalid",
    "Vroom.C70_read_csv_partial",
    "Vroom.C70_large_file",
    "Vroom.C70_large_file_refuted",
    "Vroom.C70_name_refuted",
    "Vroom.C70_raises",
    "Vroom.C70_disabled_refuted",
    "Vroom.C70_exact",
    "Vroom.C70_first_mebibyte",
    "Vroom.C70_beyond_4MiB",
    "Vroom.C70_tall_refuted"
   ],
   "note": "C70_exact covers CSV texts of any size (conditions of C64): names, row count and schema are right, and the batch, as read by an independent Arrow consumer, is the table if all non-blank rows begin in the first chunk and invalid otherwise; right if they begin in the first MiB (C70_first_mebibyte), invalid if one begins beyond 4 MiB (C70_beyond_4MiB, C70_tall_refuted). When it raises is exact for all inputs. Refuted besides: names with a zero byte are cut, error_mode=\"disabled\" with max_errors is not disabled."
  },
  {
   "property": "C71",
   "status": "partial",
   "theorems": [
    "Vroom.C71_readable_partial",
    "Vroom.C71_freed_once",
    "Vroom.C71_table_freed",
    "Vroom.C71_no_leak",
    "Vroom.C71_moved_partial",
    "Vroom.C71_moved_refuted"
   ],
   "note": "All sequences of operations. Proved for batches and columns still in their batch; nothing freed twice, nothing leaked. Refuted: a column moved out of a batch (allowed by the Arrow specification) dangles after the batch is released."
  },
  {
   "property": "C72",
   "status": "partial",
   "theorems": [
    "Vroom.C72_clear_partial",
    "Vroom.C72_outcome_partial",
    "Vroom.C72_refused",
    "Vroom.C72_ignored_refuted",
    "Vroom.C72_file_partial",
    "Vroom.C72_arrow_ipc"
   ],
   "note": "Exact outcome and content of the file (conditions of C62). Refuted: num_threads and row_group_size have no effect."
  },
  {
   "property": "C73",
   "status": "proved",
   "theorems": [
    "Vroom.C73_null_iff_member",
    "Vroom.C73_rectangular",
    "Vroom.C73_empty",
    "Vroom.C73_written_line",
    "Vroom.C73_last_line",
    "Vroom.C73_count_refuted",
    "Vroom.C73_reader_differs_refuted"
   ],
   "note": "All statements hold for every line; the findings (returned count is the number of columns, disagreement with the reader about null) are refuted theorems."
  },
  {
   "property": "C74",
   "status": "partial",
   "theorems": [
    "Vroom.C74_error_text",
    "Vroom.C74_no_errors",
    "Vroom.C74_summary",
    "Vroom.C74_exception_partial",
    "Vroom.C74_exception_refuted",
    "Vroom.C74_error_summary",
    "Vroom.C74_first_line",
    "Vroom.C74_parentheses_refuted"
   ],
   "note": "Single-line messages and contexts (a message with a line end can imitate a context). For exceptions only lists of two or more errors: with one error the text is only the message (C74_exception_refuted)."
  },
  {
   "property": "C75",
   "status": "partial",
   "theorems": [
    "Vroom.C75_denotes",
    "Vroom.C75_int32_reread",
    "Vroom.C75_int64_reread",
    "Vroom.C75_date_reread",
    "Vroom.C75_timestamp_reread_partial",
    "Vroom.C75_fraction_refuted",
    "Vroom.C75_bool_reread",
    "Vroom.C75_float_refuted",
    "Vroom.C75_float_reread_refuted"
   ],
   "note": "Integers (except the minimum, C19/C20), truth values, dates and whole-second times of the years 1000-9999 under a contract for gmtime/strftime. Refuted: fractions of a second are lost (C75_fraction_refuted); different floating point numbers are printed alike, whatever the library does within the six-digit format (C75_float_refuted, C75_float_reread_refuted)."
  },
  {
   "property": "C76",
   "status": "proved",
   "theorems": [
    "Vroom.C76_empty",
    "Vroom.C76_boolean",
    "Vroom.C76_integer",
    "Vroom.C76_float",
    "Vroom.C76_date",
    "Vroom.C76_time",
    "Vroom.C76_datetime_shape",
    "Vroom.C76_datetime",
    "Vroom.C76_datetime_text_refuted",
    "Vroom.C76_calendar_refuted",
    "Vroom.C76_nan_refuted",
    "Vroom.C76_numeric"
   ],
   "note": "Cell typing modelled byte for byte (C locale isspace/isdigit). Findings: any text of six bytes may follow a date (C76_datetime_text_refuted), no calendar check (C76_calendar_refuted), nan/inf typed differently by the two functions (C76_nan_refuted)."
  },
  {
   "property": "C77",
   "status": "partial",
   "theorems": [
    "Vroom.C77_candidate",
    "Vroom.C77_confidence",
    "Vroom.C77_file",
    "Vroom.C77_clean",
    "Vroom.C77_common",
    "Vroom.C77_dated_rows_refuted",
    "Vroom.C77_confidence_refuted",
    "Vroom.C77_file_refuted",
    "Vroom.C77_max_rows_refuted",
    "Vroom.C77_quoted",
    "Vroom.C77_quoted_common",
    "Vroom.C77_quoted_comma_refuted",
    "Vroom.C77_report_comments",
    "Vroom.C77_report_warning"
   ],
   "note": "Scores are exact rationals instead of doubles; sqrt, the pick among equally frequent counts and std::sort are parameters with contracts (Spec/Detect). C77_clean covers unquoted fields; C77_quoted bare and quoted fields, also with quoted delimiters and line ends, given that no cut ignoring the quotes looks better; C77_quoted_common discharges that for quoted fields without delimiters and line ends; the confidence is exact. Recognition of every regular quoted table is refuted (C77_quoted_comma_refuted), and so are the documented range [0,1] of the confidence, agreement of detect and detect_file, and recognition of tables whose rows start with a date and time."
  },
  {
   "property": "C78",
   "status": "proved",
   "theorems": [
    "Vroom.C78_header",
    "Vroom.C78_numbers",
    "Vroom.C78_strings",
    "Vroom.C78_compare_refuted"
   ],
   "note": "Exact rule. Finding: the rows are not compared, so the first row of a table of strings is reported as header (C78_compare_refuted)."
  },
  {
   "property": "C79",
   "status": "proved",
   "theorems": [
    "Vroom.C79_validate_iff",
    "Vroom.C79_named",
    "Vroom.C79_description",
    "Vroom.C79_valid",
    "Vroom.C79_validate",
    "Vroom.C79_factories",
    "Vroom.C79_unquoted_refuted",
    "Vroom.C79_sane"
   ],
   "note": "Finding: is_valid rejects dialects without quote, which detection itself generates and validate accepts (C79_unquoted_refuted)."
  },
  {
   "property": "C80",
   "status": "proved",
   "theorems": [
    "Vroom.C80_scan",
    "Vroom.C80_open",
    "Vroom.C80_serial",
    "Vroom.C80_chunk",
    "Vroom.C80_read_all",
    "Vroom.C80_session",
    "Vroom.C80_padding",
    "Vroom.C80_wide_vectors_refuted"
   ],
   "note": "Memory-level model (checked loads) of the scanners, the field iterator, the row loops, open and read_all, shown equal to the list model on the first size bytes. The value parsers are treated in C84, the line splitter, find_chunks and the detector in C96; the encoders only append to vectors, except for the PLAIN encoders (writes through a pointer, C27). Finding: with vectors wider than 64 bytes the loops over-read (C80_wide_vectors_refuted)."
  },
  {
   "property": "C81",
   "status": "proved",
   "theorems": [
    "Vroom.C81_buffers",
    "Vroom.C81_careful",
    "Vroom.C81_no_fault",
    "Vroom.C81_released",
    "Vroom.C81_open_answers",
    "Vroom.C81_source",
    "Vroom.C81_failed_open_refuted",
    "Vroom.C81_refused_open_stale",
    "Vroom.C81_unmapped_size"
   ],
   "note": "Proved for programs that read only after a successful opening call. Findings: reading after a failed open touches unmapped memory (C81_failed_open_refuted); reading after a refused open succeeds with the earlier schema (C81_refused_open_stale); C81_unmapped_size."
  },
  {
   "property": "C82",
   "status": "partial",
   "theorems": [
    "Vroom.C82_open_columns",
    "Vroom.C82_undefined_iff",
    "Vroom.C82_read",
    "Vroom.C82_count_partial",
    "Vroom.C82_head_partial",
    "Vroom.C82_pretty_partial",
    "Vroom.C82_info_partial",
    "Vroom.C82_select_partial",
    "Vroom.C82_no_minimum",
    "Vroom.C82_defined",
    "Vroom.C82_ends",
    "Vroom.C82_program",
    "Vroom.C82_minimum_refuted"
   ],
   "note": "For every byte string: what open accepts can be read, with at least one column and a value in every cell (C82_open_columns, C82_read); a command is undefined exactly if an integer column holds a literal of the minimum of its type (C82_undefined_iff; witness C82_minimum_refuted; impossible without a minus sign, C82_no_minimum); otherwise it prints exactly the table read (C82_count/head/pretty/info/select) and ends with 0, 1 or an uncaught exception (C82_ends, C82_program for all command lines). The five printing theorems are partial: inputs below 4 GiB. The full property is false: undefined behaviour on the minimum."
  },
  {
   "property": "C83",
   "status": "partial",
   "theorems": [
    "Vroom.C83_convert_partial",
    "Vroom.C83_refused",
    "Vroom.C83_succeeds_partial",
    "Vroom.C83_command_partial",
    "Vroom.C83_python_partial"
   ],
   "note": "For arbitrary bytes: success means the output holds the table read (C83_convert_partial, C83_command_partial, C83_python_partial), refused inputs give no output (C83_refused), and every opened input can be converted (C83_succeeds_partial). Missing: integer columns holding the minimum of their type (undefined behaviour, C17); files above 120 MiB with a chunk above 36 MiB or long texts in columns without inferred type; LZ4 and dictionary with compression (C35); metadata of 4 GiB or more."
  },
  {
   "property": "C84",
   "status": "partial",
   "theorems": [
    "Vroom.C84_int32_partial",
    "Vroom.C84_int64_partial",
    "Vroom.C84_integers_local",
    "Vroom.C84_date",
    "Vroom.C84_timestamp",
    "Vroom.C84_minimum_refuted",
    "Vroom.C84_wide_vectors_refuted"
   ],
   "note": "Dates and timestamps: never undefined, on any string (C84_date, C84_timestamp). Integers: with vectors of at most 64 bytes undefined exactly for the literals of the smallest number (C84_int32_partial, C84_int64_partial). The full claim C84_full is false of the code: C84_minimum_refuted, and C84_wide_vectors_refuted for vectors of more than 64 bytes."
  },
  {
   "property": "C85",
   "status": "partial",
   "theorems": [
    "Vroom.C85_no_data_race_partial",
    "Vroom.C85_exception_races",
    "Vroom.C85_error_text_races",
    "Vroom.C85_full_fails"
   ],
   "note": "Race-free in every interleaving for every number of chunks, columns, row groups and threads, including failures of the writer thread up to the return of submit_row_group (C85_no_data_race_partial). Missing because false of the code: a pool task that throws (C85_exception_races), and the destruction of the writer after a failed submit (C85_error_text_races); C85_full_fails."
  },
  {
   "property": "C86",
   "status": "partial",
   "theorems": [
    "Vroom.C86_compress_partial",
    "Vroom.C86_compress_into",
    "Vroom.C86_codec_contract",
    "Vroom.C86_file_roundtrip",
    "Vroom.C86_into_buffer",
    "Vroom.C86_gzip_truncates",
    "Vroom.C86_full_fails",
    "Vroom.C86_failure_comment_refuted",
    "Vroom.C86_max_size_suffices"
   ],
   "note": "For data below 4 GiB, all codecs, levels, builds and library failures (C86_compress_partial, C86_compress_into, C86_into_buffer, C86_max_size_suffices); discharges the compressor assumption of C35/C53/C56/C62 (C86_codec_contract, C86_file_roundtrip). The full claim is false: gzip silently truncates at 4 GiB (C86_gzip_truncates, C86_full_fails)."
  },
  {
   "property": "C87",
   "status": "proved",
   "theorems": [
    "Vroom.C87_never_stuck"
   ],
   "note": "All interleavings and failures: some continuation ends the call, a successful one if nothing has failed (C87_never_stuck)."
  },
  {
   "property": "C88",
   "status": "proved",
   "theorems": [
    "Vroom.C88_scanning",
    "Vroom.C88_values",
    "Vroom.C88_fields",
    "Vroom.C88_reader",
    "Vroom.C88_tasks",
    "Vroom.C88_convert",
    "Vroom.C88_program",
    "Vroom.C88_program_convert",
    "Vroom.C88_python"
   ],
   "note": "All scanning, splitting, reading, conversion, program and Python results are equal for any two CPUs and any value of the uninitialised flag. Vector widths that do not divide 64 are excluded (C80 shows what widths above 64 do); libraries and the number of threads are kept fixed."
  },
  {
   "property": "C89",
   "status": "partial",
   "theorems": [
    "Vroom.C89_load",
    "Vroom.C89_load_whole",
    "Vroom.C89_load_short",
    "Vroom.C89_stdin",
    "Vroom.C89_stdin_error_refuted",
    "Vroom.C89_program_truncated",
    "Vroom.C89_directory_counts",
    "Vroom.C89_no_size_refuted",
    "Vroom.C89_padding_refuted",
    "Vroom.C89_empty_without_padding"
   ],
   "note": "Files: exact bytes or exception, if the reported size is right and size + padding fits 64 bits; refuted for files reporting size 0 and for huge paddings (undefined behaviour). Standard input: exact bytes if it does not break off; a read error is not reported (refuted, also for the program)."
  },
  {
   "property": "C90",
   "status": "partial",
   "theorems": [
    "Vroom.C90_append_only",
    "Vroom.C90_killed",
    "Vroom.C90_torn_unreadable_partial",
    "Vroom.C90_any_prefix",
    "Vroom.C90_torn_readable_refuted",
    "Vroom.C90_former_output_lost"
   ],
   "note": "The file only grows, and every crash image is a prefix of the complete file (proved for all runs, crash points and buffer hand-overs); that a torn file is never readable is proved when the marker PAR1 occurs at the two ends only, and refuted in general (C90_torn_readable_refuted: a cell holding a footer); the former output is lost at open (C90_former_output_lost)."
  },
  {
   "property": "C91",
   "status": "partial",
   "theorems": [
    "Vroom.C91_enough_room",
    "Vroom.C91_full",
    "Vroom.C91_silent",
    "Vroom.C91_success_refuted",
    "Vroom.C91_exit_refuted"
   ],
   "note": "With enough room the file is complete; with less, its first bytes are on the device and the result is unchanged: the property is false of the code (C91_success_refuted for every successful conversion, C91_exit_refuted for the program, exit code 0)."
  },
  {
   "property": "C92",
   "status": "partial",
   "theorems": [
    "Vroom.C92_threads_clear_partial",
    "Vroom.C92_same_bytes",
    "Vroom.C92_threads_small",
    "Vroom.C92_program",
    "Vroom.C92_threads_table_partial",
    "Vroom.C92_threads_chunk",
    "Vroom.C92_threads_16MiB",
    "Vroom.C92_threads_large",
    "Vroom.C92_same_bytes_16MiB",
    "Vroom.C92_read_16MiB"
   ],
   "note": "Same options: same bytes and same report for every pair of schedules, CPUs and contents of uninitialised memory, for the library and for the program. Any two thread counts: the same bytes for every input of at most 16 MiB, of any content (C92_threads_16MiB, C92_same_bytes_16MiB), for every input of at least 64 MiB per thread (C92_threads_large), and whenever the chunk size comes out the same (C92_threads_chunk). In between the chunks and with them the row groups depend on the thread count; the same table is then proved for clear files whose chunk ends are outside quotes for both (C92_threads_clear_partial) and for quote-free tables (C92_threads_table_partial); it is false in general (C07_full_fails)."
  },
  {
   "property": "C93",
   "status": "partial",
   "theorems": [
    "Vroom.C93_pages",
    "Vroom.C93_serialize",
    "Vroom.C93_empty_text_refuted",
    "Vroom.C93_zero_refuted"
   ],
   "note": "Accumulate-and-merge proved for all value types and all partitions into pages; the serialised bounds are injective within a type except that the empty text serialises like no value (C93_empty_text_refuted)."
  },
  {
   "property": "C94",
   "status": "partial",
   "theorems": [
    "Vroom.C94_convert_refuses",
    "Vroom.C94_nothing_written",
    "Vroom.C94_close_refuted",
    "Vroom.C94_second_open_refuted"
   ],
   "note": "Failure part proved: conversion functions always report failure and change nothing; over all call sequences no write succeeds and nothing is reported written (C94_convert_refuses, C94_nothing_written). Refuted: close reports success over an empty file that replaced the former one (C94_close_refuted); a second open (C94_second_open_refuted)."
  },
  {
   "property": "C95",
   "status": "partial",
   "theorems": [
    "Vroom.C95_read_iff",
    "Vroom.C95_defined",
    "Vroom.C95_no_nulls",
    "Vroom.C95_statistics",
    "Vroom.C95_dictionary",
    "Vroom.C95_short_bitmap",
    "Vroom.C95_row_group_empty",
    "Vroom.C95_nan_null_refuted",
    "Vroom.C95_string_statistics_refuted",
    "Vroom.C95_caller_statistics_refuted",
    "Vroom.C95_full_fails"
   ],
   "note": "Proved for all values, bitmaps, options: definedness (C95_defined), exact condition for recovery without compression (C95_read_iff), recovery with any codec without nulls and dictionary (C95_no_nulls), null counts and statistics (C95_statistics), layout of build_row_group. The full claim is refuted: C95_full_fails (two columns, one record), C95_nan_null_refuted, C95_string_statistics_refuted, C95_caller_statistics_refuted, C95_short_bitmap, C95_row_group_empty."
  },
  {
   "property": "C96",
   "status": "proved",
   "theorems": [
    "Vroom.C96_detect",
    "Vroom.C96_detect_nothing_behind",
    "Vroom.C96_detect_fields",
    "Vroom.C96_cell_type",
    "Vroom.C96_split_fields",
    "Vroom.C96_split_written",
    "Vroom.C96_parse_line",
    "Vroom.C96_parse_header",
    "Vroom.C96_find_chunks",
    "Vroom.C96_wide_vectors_refuted"
   ],
   "note": "Memory-level models (every load checked) equal the list models on the first len bytes, for all bytes and lengths; returned views, rows and chunks lie inside. Vector widths that do not divide 64 are excluded, and C96_wide_vectors_refuted shows what widths above 64 do. find_chunks: quote other than CR and LF. std::sort, sqrt and the pick among equally frequent column counts are parameters."
  }
 ]
}