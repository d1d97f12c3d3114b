{
 "countRows: threshold off by one (harmless: both paths agree)": {
  "claim": "none",
  "note": "equivalent program: C02 proves both paths equal"
 },
 "rowEndLoop: row end between CR and LF (block loop)": {
  "claim": "none",
  "note": "equivalent program: the end mask never marks a CR that is followed by LF, so the branch is dead"
 },
 "findRowEnd: unsigned underflow removed (harmless)": {
  "claim": "none",
  "note": "equivalent program"
 },
 "skipToClose: doubled quote taken as the closing quote in the partial row skip": {
  "claim": "none",
  "tightened": [
   "C07_partial_row_skipped"
  ],
  "note": "equivalent by quote parity, but it showed that the partial row skip was not characterised on its own: theorem added"
 },
 "skipPartialRow: LF of a CRLF left at the start of the chunk": {
  "claim": "where a chunk starts",
  "tightened": [
   "C07_partial_row_skipped"
  ],
  "note": "not observable through the rows (a blank row is skipped), but the skip itself is now pinned down: the edited definition fails the added theorem"
 },
 "shouldUseDictionary: threshold (harmless for C30)": {
  "claim": "none",
  "note": "heuristic only; round trip holds whichever way it decides"
 },
 "close: writer stays open after close": {
  "claim": "a closed writer is final",
  "tightened": [
   "C61_closed_is_final",
   "C61_orderly_use"
  ],
  "note": "survived before C61 was stated; the calls on a closed writer are now modelled and C61_orderly_use fails on the edit"
 },
 "infoOut: info counts the header": {
  "tightened": [
   "C64_info_file_partial"
  ],
  "note": "the theorem now states every printed line (infoOut_lines)"
 },
 "Machine.fileOpts: delimiter not passed on": {
  "tightened": [
   "C68_program",
   "C69_exit_zero",
   "C69_exit_code",
   "C69_convert_file_partial"
  ],
  "note": "the claims now go through the specification Follows, which names every option; rerun: killed by follows_iff"
 },
 "Machine.fileOpts: --no-header not passed on": {
  "tightened": [
   "C68_program",
   "C69_exit_zero",
   "C69_exit_code",
   "C69_convert_file_partial"
  ],
  "note": "the claims now go through the specification Follows, which names every option; rerun: killed by follows_iff"
 },
 "Machine.fileOpts: -t not passed on": {
  "tightened": [
   "C68_program",
   "C69_exit_zero",
   "C69_exit_code",
   "C69_convert_file_partial"
  ],
  "note": "the claims now go through the specification Follows, which names every option; rerun: killed by follows_iff"
 },
 "Machine.fileOpts: compression not passed on": {
  "tightened": [
   "C68_program",
   "C69_exit_zero",
   "C69_exit_code",
   "C69_convert_file_partial"
  ],
  "note": "the claims now go through the specification Follows, which names every option; rerun: killed by follows_iff"
 },
 "isStdin: no file does not mean standard input": {
  "tightened": [
   "C68_program"
  ],
  "note": "the input is now the specification's source; rerun: killed by isStdin_iff"
 },
 "CmdName.exec: -n ignored by head": {
  "tightened": [
   "C68_program"
  ],
  "note": "the command run is now the specification's CmdName.command; rerun: killed by C68_program"
 },
 "summaryHead: wrong count printed for warnings": {
  "tightened": [
   "C74_first_line"
  ],
  "note": "no theorem spoke of the first line of the summary; added C74_first_line, which fixes it byte for byte"
 },
 "detect: ambiguity never reported": {
  "tightened": [
   "C77_report_warning"
  ],
  "note": "no theorem spoke of the warning; added, rerun: killed"
 },
 "detect: comment lines not reported": {
  "tightened": [
   "C77_report_comments",
   "C77_report_warning"
  ],
  "note": "no theorem spoke of the reported comment lines; added, rerun: killed"
 },
 "detect: comment character not reported": {
  "tightened": [
   "C77_report_comments"
  ],
  "note": "added, rerun: killed"
 },
 "detect: no warning for empty input": {
  "tightened": [
   "C77_report_warning"
  ],
  "note": "added, rerun: killed"
 },
 "Dialect.validates: equal delimiter and quote accepted": {
  "tightened": [
   "C79_validate_iff"
  ],
  "note": "the old theorem only went one way; added the equivalence, rerun: killed"
 },
 "Dialect.tsv: tsv uses space": {
  "tightened": [
   "C79_named"
  ],
  "note": "the predefined dialects were only shown valid; now fixed, rerun: killed"
 },
 "Buf.free: (destructor or move: pointer kept, unobservable)": {
  "claim": "none",
  "note": "equivalent program: free() is only called by the destructor and by move assignment, which overwrites the pointer"
 },
 "wrapSub: (equivalent) truncated instead of wrapping": {
  "claim": "none",
  "note": "equivalent program: with a start past the end, either value leads to the serial read, because no range is cut"
 },
 "fromChars: from_chars rejects the minimum": {
  "tightened": [
   "C19_from_chars"
  ],
  "note": "survived at first; the theorem named was added or strengthened and now fails for this edit"
 },
 "parseIntFast: fast path ignores the sign": {
  "tightened": [
   "C19_legacy_int32_partial",
   "C20_legacy_int64_partial"
  ],
  "note": "survived at first; the theorem named was added or strengthened and now fails for this edit"
 },
 "set: set polarity swapped": {
  "tightened": [
   "C23_set"
  ],
  "note": "survived at first; the theorem named was added or strengthened and now fails for this edit"
 },
 "chunkRowCount: row counted twice": {
  "tightened": [
   "C06_find_chunks"
  ],
  "note": "survived at first; the theorem named was added or strengthened and now fails for this edit"
 },
 "chunkRowCount: empty row stops the count": {
  "tightened": [
   "C06_find_chunks"
  ],
  "note": "survived at first; the theorem named was added or strengthened and now fails for this edit"
 },
 "encodeDefinitionLevelsRle: levels swapped": {
  "tightened": [
   "C28_levels_rle"
  ],
  "note": "survived at first; the theorem named was added or strengthened and now fails for this edit"
 },
 "isBlank: tab not trimmed": {
  "tightened": [
   "C11_written_stripped"
  ],
  "note": "survived at first; the theorem named was added or strengthened and now fails for this edit"
 },
 "flushRle: repeat count not reset": {
  "note": "equivalent program: every caller sets the count before it is used again"
 },
 "flushBuffered: one repeated value written twice": {
  "note": "equivalent program: the branch is unreachable"
 },
 "trueTokens: \"0\" reads as true": {
  "tightened": [
   "C17_bool_texts"
  ],
  "note": "survived at first; the theorem named was added or strengthened and now fails for this edit"
 },
 "falseTokens: NO not recognised": {
  "tightened": [
   "C17_bool_texts"
  ],
  "note": "survived at first; the theorem named was added or strengthened and now fails for this edit"
 },
 "escapeSignal: mixed evidence counts": {
  "tightened": [
   "C46_escape_evidence"
  ],
  "note": "survived at first; the theorem named was added or strengthened and now fails for this edit"
 },
 "setMode: mode not set": {
  "tightened": [
   "C41_mode_set"
  ],
  "note": "survived at first; the theorem named was added or strengthened and now fails for this edit"
 },
 "sampleLen: sample longer than the data": {
  "note": "equivalent program: take of more than the length"
 },
 "duplicateErr: duplicate column not named": {
  "tightened": [
   "C57_header_errors_explicit"
  ],
  "note": "survived at first; the theorem named was added or strengthened and now fails for this edit"
 },
 "quietNaN: infinity instead of NaN in null slots": {
  "note": "the value under a null is not observable through the table or the file"
 },
 "splitFieldsApi: (equivalent) SIMD for short lines": {
  "note": "equivalent program"
 },
 "taskMay: encoding modifies the column builder (own to the task, no race)": {
  "note": "no race: each builder belongs to one task"
 },
 "nothing: no row groups: equivalent, the pipeline path also ends": {
  "claim": "none",
  "note": "C87 and C85 stay true of the edited program: with no row groups the pipeline path ends as well, and skipping it for seven groups neither races nor blocks. What is written for a given number of groups is the business of C52/C62, whose model (Model/Convert) is separate."
 },
 "int64Kind: dictionary always wanted": {
  "tightened": [
   "C95_dictionary"
  ],
  "note": "survived at first: C95_dictionary (when a dictionary is written) was added"
 },
 "inferInt: one below the 32-bit minimum is int32": {
  "claim": "none",
  "note": "equivalent: a signed field of at most ten characters has at most nine digits, and the digit loop already stops above 2147483647, so the second comparison is never decisive"
 },
 "typeScore: untyped cells count as typed": {
  "tightened": [
   "C77_clean",
   "C77_common",
   "C77_quoted",
   "C77_quoted_common"
  ],
  "note": "survived at first: these theorems only bounded the confidence from below; they now state it exactly (Spec.tableConfidence)"
 },
 "viewM: only the begin of a view is checked (the model itself no longer checks)": {
  "claim": "none",
  "note": "not an edit of the program: it removes a check of the measuring instrument itself (the code builds a string_view without checking); a weaker instrument reports fewer violations, and the claim about the program stays true"
 },
 "writeRetained: write reaches every buffer": {
  "tightened": [
   "C43_retained_exact",
   "C43_retained_alone"
  ],
  "note": "survived at first: only a two-variable witness mentioned writes through kept pointers; now who sees such a write is stated exactly, for every state"
 },
 "afterRead: a single chunk is not cached": {
  "claim": "none",
  "note": "claim still true of the edited program: the cache is not observable, a read that finds it empty computes the same values"
 }
}