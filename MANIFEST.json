{
 "claims": [
  {
   "property": "C01",
   "status": "proved",
   "theorems": [
    "Clever.Props.C01_exact",
    "Clever.Props.C01_any_limit",
    "Clever.Props.C01_excel_round_trip"
   ],
   "note": "C01_exact: a table is read back if and only if its cells have no NUL and fit the field size limit, the quotes counted (doubled quotes once); otherwise reading raises, the field-size error if there is no NUL. C01_any_limit: for any limit what is read back is the table or the field-size error, never something else."
  },
  {
   "property": "C02",
   "status": "partial",
   "theorems": [
    "Clever.Props.C02_exact_partial",
    "Clever.Props.C02_any_limit_partial",
    "Clever.Props.C02_round_trip_partial",
    "Clever.Props.C02_strict_violated",
    "Clever.Props.C02_newline_escapechar_violated",
    "Clever.Props.C02_strict_iff_partial"
   ],
   "note": "Round trip for every non-strict dialect with non-newline characters, exactly for the tables without NUL whose cells fit the field size limit with their quotes (C02_exact_partial); fails for strict=True and for a newline escapechar (witnesses). In strict mode exactly the tables in which nothing is quoted come back (C02_strict_iff_partial). C02_any_limit_partial: for any limit what is read back is the table or the field-size error."
  },
  {
   "property": "C03",
   "status": "partial",
   "theorems": [
    "Clever.Props.C03_exact_partial",
    "Clever.Props.C03_exact",
    "Clever.Props.C03_iff",
    "Clever.Props.C03_quote_violated",
    "Clever.Props.C03_round_trip_partial",
    "Clever.Props.C03_writer_refuses",
    "Clever.Props.C03_no_delimiter"
   ],
   "note": "Violated when an escapechar is set and a cell contains a double quote (witness). C03_exact gives what is read for every table that the writer accepts (the escapechar is kept in front of double quotes), C03_iff exactly when that is the table; with the exact reasons for which the writer refuses a row."
  },
  {
   "property": "C04",
   "status": "proved",
   "theorems": [
    "Clever.Props.C04_unquoted_is_split",
    "Clever.Props.C04_splitOn_spec",
    "Clever.Props.C04_textLines_spec",
    "Clever.Props.C04_limit_error"
   ],
   "note": "For every delimiter character (newlines included), strict or not; pieces within the field size limit, otherwise the limit error."
  },
  {
   "property": "C05",
   "status": "proved",
   "theorems": [
    "Clever.Props.C05_quote_parity",
    "Clever.Props.C05_quote_parity_flags",
    "Clever.Props.C05_limited",
    "Clever.Props.C05_cells_cut",
    "Clever.Props.C05_records_cut"
   ],
   "note": "No assumption on delimiter/quotechar is needed. Cells of an unterminated last record follow the code (see C13)."
  },
  {
   "property": "C06",
   "status": "proved",
   "theorems": [
    "Clever.Props.C06_error_reasons",
    "Clever.Props.C06_no_newline_error",
    "Clever.Props.C06_success"
   ],
   "note": "All dialects incl. escapechar and strict; field-limit errors require a text longer than the limit (exact condition without escapechar: C05_limited)."
  },
  {
   "property": "C07",
   "status": "proved",
   "theorems": [
    "Clever.Props.C07_cells_bounded"
   ],
   "note": "Limits below zero count as zero (no character can be stored)."
  },
  {
   "property": "C08",
   "status": "proved",
   "theorems": [
    "Clever.Props.C08_consumes",
    "Clever.Props.C08_rows_le_lines",
    "Clever.Props.C08_iteration",
    "Clever.Props.C08_incremental"
   ],
   "note": ""
  },
  {
   "property": "C09",
   "status": "proved",
   "theorems": [
    "Clever.Props.C09_compositional",
    "Clever.Props.C09_text"
   ],
   "note": "Record boundary is defined by what has been consumed, not by the parser state."
  },
  {
   "property": "C10",
   "status": "proved",
   "theorems": [
    "Clever.Props.C10_same_cells",
    "Clever.Props.C10_no_quotechar"
   ],
   "note": ""
  },
  {
   "property": "C11",
   "status": "partial",
   "theorems": [
    "Clever.Props.C11_exact",
    "Clever.Props.C11_no_record_dropped_violated",
    "Clever.Props.C11_no_record_dropped_partial"
   ],
   "note": "False as stated: a last line ending in the escapechar at the start of a cell is dropped. Proved for all other inputs, and exactly: a text ending in the escapechar has as many records as with an ordinary character instead, unless that character would be a cell on its own, when the last record is dropped (C11_exact)."
  },
  {
   "property": "C12",
   "status": "partial",
   "theorems": [
    "Clever.Props.C12_strict_accepts_quoted_violated",
    "Clever.Props.C12_strict_result_partial",
    "Clever.Props.C12_strict_unquoted_partial",
    "Clever.Props.C12_escape_iff",
    "Clever.Props.C12_no_quotechar_iff",
    "Clever.Props.C12_bare_quote_partial",
    "Clever.Props.C12_iff"
   ],
   "note": "False as stated: strict mode rejects correctly closed quotes. Exactly: strict mode accepts a text iff it has no quote that is not escaped, its last record is not open at the end because of an escapechar, and non-strict mode accepts it (C12_escape_iff; C12_iff without an escapechar, C12_no_quotechar_iff without a quotechar). Strict mode only adds errors; unquoted data are not affected."
  },
  {
   "property": "C13",
   "status": "partial",
   "theorems": [
    "Clever.Props.C13_open_cell_violated",
    "Clever.Props.C13_open_cell_partial",
    "Clever.Props.C13_exact",
    "Clever.Props.C13_iff"
   ],
   "note": "False as stated: a content ending in a quote loses it; with an escapechar a newline can be added. Without escapechar: the exact value (C13_exact), and the content is kept iff it does not end in a quote (C13_iff)."
  },
  {
   "property": "C14",
   "status": "proved",
   "theorems": [
    "Clever.Props.C14_parser_in_bounds",
    "Clever.Props.C14_parser_refines",
    "Clever.Props.C14_parser_buffer_bound",
    "Clever.Props.C14_base_abstraction_in_bounds",
    "Clever.Props.C14_merge_in_bounds"
   ],
   "note": "Buffer-level models of Parser_iternext, base_abstraction and c_merge_with_quotechar; allocation failure is the subject of C79, sizes that of C112."
  },
  {
   "property": "C15",
   "status": "proved",
   "theorems": [
    "Clever.Props.C15_line_num",
    "Clever.Props.C15_initial"
   ],
   "note": ""
  },
  {
   "property": "C16",
   "status": "proved",
   "theorems": [
    "Clever.Props.C16_iter_is_harmless",
    "Clever.Props.C16_rows_in_order",
    "Clever.Props.C16_sequence_restarts"
   ],
   "note": "For streams; for sequences iter() restarts (also proved)."
  },
  {
   "property": "C17",
   "status": "partial",
   "theorems": [
    "Clever.Props.C17_iff",
    "Clever.Props.C17_heap_model_agrees",
    "Clever.Props.C17_fmtparams_violated",
    "Clever.Props.C17_failed_construction_violated",
    "Clever.Props.C17_unchanged_partial"
   ],
   "note": "Violated: format parameters are assigned to the caller's SimpleDialect. C17_iff says exactly when an existing dialect object is left alone: it is not the argument, or each of the four keys that is given already has the given value."
  },
  {
   "property": "C18",
   "status": "proved",
   "theorems": [
    "Clever.Props.C18_lt_spec",
    "Clever.Props.C18_strict_total_order",
    "Clever.Props.C18_comma_then_semicolon",
    "Clever.Props.C18_derived_operators"
   ],
   "note": ""
  },
  {
   "property": "C19",
   "status": "proved",
   "theorems": [
    "Clever.Props.C19_serialize_round_trip",
    "Clever.Props.C19_valid_iff"
   ],
   "note": "json.dumps/json.loads; the recursion limit allows one level; surrogate code points are not representable."
  },
  {
   "property": "C20",
   "status": "partial",
   "theorems": [
    "Clever.Props.C20_conversion_violated",
    "Clever.Props.C20_conversion_partial",
    "Clever.Props.C20_from_to_partial"
   ],
   "note": "Violated for every dialect: the csv dialect has no attribute strict. The three characters survive."
  },
  {
   "property": "C21",
   "status": "partial",
   "theorems": [
    "Clever.Props.C21_letters_violated",
    "Clever.Props.C21_no_quote_violated",
    "Clever.Props.C21_well_formed_partial",
    "Clever.Props.C21_closed_quotes_partial"
   ],
   "note": "False as stated: NUL letters for an unclosed block with a doubled quote, and data NULs count as quotes without quotechar (witnesses). Everything else holds for all data and dialects."
  },
  {
   "property": "C22",
   "status": "proved",
   "theorems": [
    "Clever.Props.C22_patterns_agree",
    "Clever.Props.C22_cell_counts"
   ],
   "note": "Exact row patterns C(DC)^(n-1), for data on which the parser raises no field-limit error."
  },
  {
   "property": "C23",
   "status": "proved",
   "theorems": [
    "Clever.Props.C23_newline_convention"
   ],
   "note": "Arbitrary stretches of text, arbitrary nonempty newline runs between them, any run at the end."
  },
  {
   "property": "C24",
   "status": "partial",
   "theorems": [
    "Clever.Props.C24_score_formula",
    "Clever.Props.C24_range_partial",
    "Clever.Props.C24_order_violated",
    "Clever.Props.C24_order_of_patterns_partial",
    "Clever.Props.C24_order_of_patterns_exact_partial",
    "Clever.Props.C24_order_of_rows_partial"
   ],
   "note": "False in floating point arithmetic: with three different row patterns the score depends on the order of the rows (C24_order_violated). Proved: the score is positive, at most the double nearest to rows / distinct patterns, equal to the exact formula up to one rounding per distinct pattern and three more, and independent of the order for at most two distinct patterns or unchanged first occurrences."
  },
  {
   "property": "C25",
   "status": "proved",
   "theorems": [
    "Clever.Props.C25_type_score_range",
    "Clever.Props.C25_compute_type_score_range",
    "Clever.Props.C25_type_score_value"
   ],
   "note": "Range of type_score and of compute_type_score (with any cache contents), and the exact value, with division rounded to double precision."
  },
  {
   "property": "C26",
   "status": "proved",
   "theorems": [
    "Clever.Props.C26_cache_transparent",
    "Clever.Props.C26_type_score_transparent",
    "Clever.Props.C26_dialect_sequence",
    "Clever.Props.C26_cache_bounded"
   ],
   "note": "LRU cache with any capacity (0, bounded, unbounded), any history; functools.lru_cache is modelled from its documentation."
  },
  {
   "property": "C27",
   "status": "proved",
   "theorems": [
    "Clever.Props.C27_whitespace_ignored",
    "Clever.Props.C27_whitespace_only",
    "Clever.Props.C27_empty_iff"
   ],
   "note": "For all whitespace tables; whitespace only iff type empty."
  },
  {
   "property": "C28",
   "status": "proved",
   "theorems": [
    "Clever.Props.C28_time_test",
    "Clever.Props.C28_time_type"
   ],
   "note": "For all character tables that agree with ASCII; exact language of the time test and of the detected type 'time'."
  },
  {
   "property": "C29",
   "status": "partial",
   "theorems": [
    "Clever.Props.C29_hour_offset_violated",
    "Clever.Props.C29_offset_partial"
   ],
   "note": "False of the code: a time stamp with an hour-only offset never has a known type (proved for all such stamps); offsets hhmm and hh:mm are recognised."
  },
  {
   "property": "C30",
   "status": "partial",
   "theorems": [
    "Clever.Props.C30_candidates_iff",
    "Clever.Props.C30_nodup",
    "Clever.Props.C30_all_empty",
    "Clever.Props.C30_masked_filter",
    "Clever.Props.C30_from_text_partial",
    "Clever.Props.C30_placeholder_violated"
   ],
   "note": "C30_candidates_iff gives the exact set of candidates; no duplicates and the all-empty dialect are proved. False in one detail: the text from which delimiters are drawn has its URLs replaced by the letter U, so with U requested as delimiter a candidate delimiter need not occur in the text (C30_placeholder_violated); C30_from_text_partial proves the claim when U is not requested."
  },
  {
   "property": "C31",
   "status": "partial",
   "theorems": [
    "Clever.Props.C31_computes",
    "Clever.Props.C31_empty",
    "Clever.Props.C31_violated",
    "Clever.Props.C31_no_escape_partial"
   ],
   "note": "C31_computes gives the exact meaning of the scan. As stated the property is false (C31_violated: the state 'escaped' is never left, so every quote after the first escape character is ignored); C31_no_escape_partial proves it for texts in which no quote follows an escape character."
  },
  {
   "property": "C32",
   "status": "proved",
   "theorems": [
    "Clever.Props.C32_skip",
    "Clever.Props.C32_detect",
    "Clever.Props.C32_scores"
   ],
   "note": "Without skipping more type scores are computed, which may raise where skip=True does not; the theorems say that whenever skip=False returns, skip=True returns the same."
  },
  {
   "property": "C33",
   "status": "proved",
   "theorems": [
    "Clever.Props.C33_best",
    "Clever.Props.C33_scored_in_order"
   ],
   "note": "Scores are double precision numbers with unbounded exponent."
  },
  {
   "property": "C34",
   "status": "proved",
   "theorems": [
    "Clever.Props.C34_tie_breaker",
    "Clever.Props.C34_detected_is_best"
   ],
   "note": ""
  },
  {
   "property": "C35",
   "status": "partial",
   "theorems": [
    "Clever.Props.C35_one_escapechar_partial",
    "Clever.Props.C35_only_reduce_partial",
    "Clever.Props.C35_not_four_partial",
    "Clever.Props.C35_violated"
   ],
   "note": "Violated for ties of four dialects with two different escapechars (C35_violated); proved for ties with at most one escapechar, for set orders that agree on dialects, and for ties of other sizes."
  },
  {
   "property": "C36",
   "status": "partial",
   "theorems": [
    "Clever.Props.C36_symmetric_partial",
    "Clever.Props.C36_differ_partial",
    "Clever.Props.C36_violated",
    "Clever.Props.C36_iff_partial",
    "Clever.Props.C36_no_quotechar_partial",
    "Clever.Props.C36_failing_partial"
   ],
   "note": "Violated (C36_violated): for two dialects that differ only in their non-empty escapechars the answer can depend on the order. Proved in all other cases (C36_symmetric_partial, C36_differ_partial). In the remaining case it is said exactly when the order matters: C36_iff_partial for parsed tables with a quotechar, C36_no_quotechar_partial without one, C36_failing_partial for texts that one of the dialects cannot parse."
  },
  {
   "property": "C37",
   "status": "partial",
   "theorems": [
    "Clever.Props.C37_iff",
    "Clever.Props.C37_restored_partial",
    "Clever.Props.C37_on_error_partial",
    "Clever.Props.C37_violated"
   ],
   "note": "Violated when detection raises (C37_violated). Exactly: the limit is kept iff detection returns or the limit was already len(sample)+1 (C37_iff)."
  },
  {
   "property": "C38",
   "status": "partial",
   "theorems": [
    "Clever.Props.C38_iff",
    "Clever.Props.C38_skip",
    "Clever.Props.C38_no_parse_error_partial",
    "Clever.Props.C38_no_brace_partial",
    "Clever.Props.C38_cause_partial",
    "Clever.Props.C38_violated"
   ],
   "note": "Violated for JSON-like cells (C38_violated). Exactly when it raises on NUL-free samples, with and without skipping (C38_iff); no parse error, only ValueError or RecursionError from json.loads; skipping can hide an exception but not cause one (C38_skip)."
  },
  {
   "property": "C39",
   "status": "proved",
   "theorems": [
    "Clever.Props.C39_requested_delimiters"
   ],
   "note": ""
  },
  {
   "property": "C40",
   "status": "proved",
   "theorems": [
    "Clever.Props.C40_valid"
   ],
   "note": "For requested delimiters of at most one character, as in the property's quantifier."
  },
  {
   "property": "C41",
   "status": "partial",
   "theorems": [
    "Clever.Props.C41_consistency_partial",
    "Clever.Props.C41_auto_partial",
    "Clever.Props.C41_attribute_partial",
    "Clever.Props.C41_normal_is_auto_partial",
    "Clever.Props.C41_names_partial",
    "Clever.Props.C41_violated"
   ],
   "note": "Violated for method='normal' (C41_violated), which falls through to the consistency measure; proved for the other methods and for the attribute method_."
  },
  {
   "property": "C42",
   "status": "partial",
   "theorems": [
    "Clever.Props.C42_unquoted_partial",
    "Clever.Props.C42_single_column_partial",
    "Clever.Props.C42_same_length_partial",
    "Clever.Props.C42_iff_partial",
    "Clever.Props.C42_violated",
    "Clever.Props.C42_nested_violated"
   ],
   "note": "False of the code for rows ending with the delimiter (C42_violated) and for quotechars inside quoted cells (C42_nested_violated). Proved for dialects without quotechar, for single columns, and otherwise when no quotechar is inside a quoted cell: then the parsed rows have equal length if and only if all or none of the lines end with the delimiter (C42_iff_partial)."
  },
  {
   "property": "C43",
   "status": "proved",
   "theorems": [
    "Clever.Props.C43_no_escapechar",
    "Clever.Props.C43_escape_excludes"
   ],
   "note": "For character tables that agree with ASCII."
  },
  {
   "property": "C44",
   "status": "partial",
   "theorems": [
    "Clever.Props.C44_vote_partial",
    "Clever.Props.C44_bounded_partial",
    "Clever.Props.C44_next_row_partial",
    "Clever.Props.C44_violated"
   ],
   "note": "has_header equals a small majority-vote specification on the rows (C44_vote_partial). The claimed bound of max_rows_to_check + 2 rows is off by one: the next row is read too, so an error in it matters (C44_violated); proved when there is no such error, and for one more row unconditionally."
  },
  {
   "property": "C45",
   "status": "partial",
   "theorems": [
    "Clever.Props.C45_no_result_partial",
    "Clever.Props.C45_rows_partial",
    "Clever.Props.C45_accepts_partial",
    "Clever.Props.C45_violated",
    "Clever.Props.C45_cr_violated",
    "Clever.Props.C45_iff",
    "Clever.Props.C45_detected"
   ],
   "note": "False for samples with lone carriage returns (C45_violated). Proved for samples whose carriage returns are followed by line feeds; for dialects without quotechar and escapechar exactly which samples are rejected (C45_iff, C45_detected)."
  },
  {
   "property": "C46",
   "status": "partial",
   "theorems": [
    "Clever.Props.C46_exact",
    "Clever.Props.C46_rows_partial",
    "Clever.Props.C46_constructor",
    "Clever.Props.C46_cells_partial",
    "Clever.Props.C46_header_partial",
    "Clever.Props.C46_violated"
   ],
   "note": "One dictionary per non-empty row after the header, for every source, dialect, field name argument and exception. C46_exact gives the dictionary for all field names, also repeated ones, and every restkey; violated when restkey is a field name and a row has surplus cells (the cell is overwritten)."
  },
  {
   "property": "C47",
   "status": "partial",
   "theorems": [
    "Clever.Props.C47_constructor",
    "Clever.Props.C47_known_partial",
    "Clever.Props.C47_raise_partial",
    "Clever.Props.C47_ignore",
    "Clever.Props.C47_header",
    "Clever.Props.C47_writerows",
    "Clever.Props.C47_default",
    "Clever.Props.C47_violated",
    "Clever.Props.C47_exact",
    "Clever.Props.C47_spelling_violated"
   ],
   "note": "Known fields, 'ignore' in any letter case, the header and writerows are proved. C47_exact: keys are refused if and only if extrasaction is 'raise' in lower case and a key is unknown. Violated for every other spelling that the constructor accepts (C47_spelling_violated)."
  },
  {
   "property": "C48",
   "status": "partial",
   "theorems": [
    "Clever.Props.C48_exact_partial",
    "Clever.Props.C48_round_trip_partial",
    "Clever.Props.C48_violated"
   ],
   "note": "Proved for lists and iterators, in every encoding that represents the file's characters; C48_exact_partial: the dictionaries are always written, and read back if and only if keys and values have no NUL and fit field_size_limit with their quotes; otherwise reading raises (C48_violated)."
  },
  {
   "property": "C49",
   "status": "partial",
   "theorems": [
    "Clever.Props.C49_exact_partial",
    "Clever.Props.C49_round_trip_partial",
    "Clever.Props.C49_violated"
   ],
   "note": "With and without transpose; C49_exact_partial: the table is always written, and read back if and only if its strings have no NUL and fit field_size_limit with their quotes; violated for strings with a NUL character."
  },
  {
   "property": "C50",
   "status": "partial",
   "theorems": [
    "Clever.Props.C50_iff",
    "Clever.Props.C50_ragged_partial",
    "Clever.Props.C50_empty_partial",
    "Clever.Props.C50_transpose_partial",
    "Clever.Props.C50_violated",
    "Clever.Props.C50_iterator_violated"
   ],
   "note": "C50_iff: write_table is sure to leave all files alone if and only if the table is an empty list, or transpose is off and the rows differ in length. Violated with transpose=True (zip truncates a ragged table, the file is overwritten) and for an iterator without rows (the file is truncated)."
  },
  {
   "property": "C51",
   "status": "proved",
   "theorems": [
    "Clever.Props.C51_table_given",
    "Clever.Props.C51_dicts_given",
    "Clever.Props.C51_table_detected",
    "Clever.Props.C51_dicts_detected",
    "Clever.Props.C51_no_result_iff",
    "Clever.Props.C51_read_is_stream"
   ],
   "note": "Given dialect, detection on the requested prefix, rows of the whole text, NoDetectionResult exactly if detection gives None, reading equals streaming; assuming a readable, decodable file and no I/O faults."
  },
  {
   "property": "C52",
   "status": "partial",
   "theorems": [
    "Clever.Props.C52_stdout_partial",
    "Clever.Props.C52_file_partial",
    "Clever.Props.C52_in_place_partial",
    "Clever.Props.C52_completes",
    "Clever.Props.C52_violated"
   ],
   "note": "Proved for standard output, another file, and in place, with arbitrary faults: if the command reports no failure the output reads (excel) as the rows of the input under the detected dialect exactly if each cell with its quotes fits the field size limit, and otherwise its reading stops with the field-size error. C52_completes: without faults the command does finish. C52_violated: at the field size limit the added quotes make the output unreadable. Missing: nothing else; the property is false at the limit."
  },
  {
   "property": "C53",
   "status": "proved",
   "theorems": [
    "Clever.Props.C53_text",
    "Clever.Props.C53_stdout",
    "Clever.Props.C53_in_place"
   ],
   "note": "Any successful excel reading of a standardized text is written as the same text; to stdout and in place (exit code 0, no change)."
  },
  {
   "property": "C54",
   "status": "proved",
   "theorems": [
    "Clever.Props.C54_zero",
    "Clever.Props.C54_two",
    "Clever.Props.C54_one",
    "Clever.Props.C54_failure",
    "Clever.Props.C54_failure_same_device"
   ],
   "note": "Exit codes 0, 1, 2 and every failure at every operation; across file systems a failure during the final copy leaves the complete output in the temporary file (the property excludes the final move)."
  },
  {
   "property": "C55",
   "status": "proved",
   "theorems": [
    "Clever.Props.C55_bad_args",
    "Clever.Props.C55_run",
    "Clever.Props.C55_in_place_zero"
   ],
   "note": "Bad arguments; order, stopping and exit codes for every list of jobs and every outcome; exceptions are passed on."
  },
  {
   "property": "C56",
   "status": "partial",
   "theorems": [
    "Clever.Props.C56_padded",
    "Clever.Props.C56_view",
    "Clever.Props.C56_stdout_partial",
    "Clever.Props.C56_in_place_partial",
    "Clever.Props.C56_twice_partial",
    "Clever.Props.C56_violated",
    "Clever.Props.C56_write_table_violated"
   ],
   "note": "view --transpose shows the padded transpose of every table that is not empty (C56_padded, C56_view). standardize --transpose transposes rectangular tables, and of ragged ones the columns that every row has; transposing twice gives a rectangular table back. False in general: zip drops cells of ragged tables in standardize and write_table (C56_violated, C56_write_table_violated)."
  },
  {
   "property": "C57",
   "status": "partial",
   "theorems": [
    "Clever.Props.C57_iff",
    "Clever.Props.C57_code",
    "Clever.Props.C57_command",
    "Clever.Props.C57_violated"
   ],
   "note": "The literals evaluate to the components if and only if the delimiter is not the backslash (C57_iff); C57_violated gives a file where the program that is printed is not valid. C57_code and C57_command tie the line to the output of the command."
  },
  {
   "property": "C58",
   "status": "proved",
   "theorems": [
    "Clever.Props.C58_sha1_loop",
    "Clever.Props.C58_sha1",
    "Clever.Props.C58_encoding_loop",
    "Clever.Props.C58_encoding",
    "Clever.Props.C58_chunks_unique"
   ],
   "note": "sha1sum and get_encoding for every positive block size, every detector and every content; the loops end (the outcome does not depend on the fuel) and the blocks fed are unique."
  },
  {
   "property": "C59",
   "status": "proved",
   "theorems": [
    "Clever.Props.C59_field_size_limit",
    "Clever.Props.C59_history"
   ],
   "note": ""
  },
  {
   "property": "C60",
   "status": "proved",
   "theorems": [
    "Clever.Props.C60_reader_overrides",
    "Clever.Props.C60_reader_same_as_changed_dialect",
    "Clever.Props.C60_writer_overrides",
    "Clever.Props.C60_writer_keeps",
    "Clever.Props.C60_writer_made",
    "Clever.Props.C60_writer_made_simple"
   ],
   "note": "Reader and writer keyword arguments."
  },
  {
   "property": "C61",
   "status": "partial",
   "theorems": [
    "Clever.Props.C61_violated",
    "Clever.Props.C61_same_rows_partial",
    "Clever.Props.C61_excel_partial"
   ],
   "note": "False in general: C61_violated is a file whose second run changes the table. It holds when the second run reads the same rows (C61_same_rows_partial), in particular when it detects the excel dialect and the encoding decodes what it encodes (C61_excel_partial)."
  },
  {
   "property": "C62",
   "status": "partial",
   "theorems": [
    "Clever.Props.C62_violated",
    "Clever.Props.C62_success_partial",
    "Clever.Props.C62_failure_partial",
    "Clever.Props.C62_always_violated"
   ],
   "note": "False: every failure after the temporary file has been made leaves it behind (C62_always_violated, C62_violated). Without a failure no new file remains (C62_success_partial), and a failure leaves no other new file than the temporary one (C62_failure_partial)."
  },
  {
   "property": "C63",
   "status": "partial",
   "theorems": [
    "Clever.Props.C63_damage_partial",
    "Clever.Props.C63_atomic_partial",
    "Clever.Props.C63_violated"
   ],
   "note": "Holds with the temporary directory on the same file system (C63_atomic_partial). C63_violated: a failing copy between file systems leaves a damaged file; C63_damage_partial: it then has the first bytes of the new contents, and the temporary file has all of them."
  },
  {
   "property": "C64",
   "status": "partial",
   "theorems": [
    "Clever.Props.C64_always_violated",
    "Clever.Props.C64_violated",
    "Clever.Props.C64_other_files_partial"
   ],
   "note": "False: whenever the output file is the input file, a run that reports no failure leaves an empty file and exit code 0 (C64_always_violated; C64_violated is a concrete case). Files that are not named as outputs are unchanged whatever happens (C64_other_files_partial)."
  },
  {
   "property": "C65",
   "status": "proved",
   "theorems": [
    "Clever.Props.C65_lower_limit"
   ],
   "note": "All texts, dialects and limits."
  },
  {
   "property": "C66",
   "status": "proved",
   "theorems": [
    "Clever.Props.C66_cell_characters"
   ],
   "note": "All texts, dialects and limits."
  },
  {
   "property": "C67",
   "status": "partial",
   "theorems": [
    "Clever.Props.C67_iff",
    "Clever.Props.C67_view_partial",
    "Clever.Props.C67_reads_only",
    "Clever.Props.C67_violated"
   ],
   "note": "C67_iff: view shows a table if and only if read_table returns one, except for an empty table with --transpose, which raises ValueError (C67_violated)."
  },
  {
   "property": "C68",
   "status": "proved",
   "theorems": [
    "Clever.Props.C68_parse",
    "Clever.Props.C68_detect"
   ],
   "note": "Parsing and consistency detection. A NUL in the sample makes detection by the consistency measure return no dialect: it raises or finds none."
  },
  {
   "property": "C69",
   "status": "partial",
   "theorems": [
    "Clever.Props.C69_filename_partial",
    "Clever.Props.C69_iff",
    "Clever.Props.C69_violated"
   ],
   "note": "Exactly the names that stand for themselves between double quotes (C69_iff); false for others (C69_violated)."
  },
  {
   "property": "C70",
   "status": "proved",
   "theorems": [
    "Clever.Props.C70_same_rows"
   ],
   "note": "For every detected dialect and every text, including the exceptions."
  },
  {
   "property": "C71",
   "status": "proved",
   "theorems": [
    "Clever.Props.C71_repr",
    "Clever.Props.C71_printable",
    "Clever.Props.C71_json",
    "Clever.Props.C71_command"
   ],
   "note": "Default format for all dialects (the literals can be read back, and the text is printable), JSON for detected ones, and the command around them."
  },
  {
   "property": "C72",
   "status": "partial",
   "theorems": [
    "Clever.Props.C72_injective_partial",
    "Clever.Props.C72_iff",
    "Clever.Props.C72_violated"
   ],
   "note": "Exactly determines the components up to whitespace (C72_iff); false for a tab against no delimiter (C72_violated)."
  },
  {
   "property": "C73",
   "status": "partial",
   "theorems": [
    "Clever.Props.C73_detect_partial",
    "Clever.Props.C73_violated"
   ],
   "note": "Proved when no cell outside the last column ends in / or @; C73_violated shows that nothing is detected for cells ending in @."
  },
  {
   "property": "C74",
   "status": "proved",
   "theorems": [
    "Clever.Props.C74_read",
    "Clever.Props.C74_round_trip",
    "Clever.Props.C74_excel",
    "Clever.Props.C74_other_tables"
   ],
   "note": "For every writer dialect with these delimiters; C74_other_tables shows that tables that are not plain need not come back."
  },
  {
   "property": "C75",
   "status": "proved",
   "theorems": [
    "Clever.Props.C75_round_trip"
   ],
   "note": "For every writer dialect as in C74."
  },
  {
   "property": "C76",
   "status": "proved",
   "theorems": [
    "Clever.Props.C76_standard_text",
    "Clever.Props.C76_stdout",
    "Clever.Props.C76_in_place"
   ],
   "note": "Standard output and in place, in a file system without faults."
  },
  {
   "property": "C77",
   "status": "partial",
   "theorems": [
    "Clever.Props.C77_url_test",
    "Clever.Props.C77_url_type",
    "Clever.Props.C77_ipv4_test",
    "Clever.Props.C77_ipv4_violated",
    "Clever.Props.C77_address_partial"
   ],
   "note": "the language of the URL test and of the type url exactly; no cell ever gets the type ipv4, since the URL test comes first"
  },
  {
   "property": "C78",
   "status": "partial",
   "theorems": [
    "Clever.Props.C78_number_test",
    "Clever.Props.C78_number_type",
    "Clever.Props.C78_sign_violated",
    "Clever.Props.C78_thousands_violated",
    "Clever.Props.C78_numeral_partial"
   ],
   "note": "the language of the type number exactly; false: a sign alone is a number, and whole numbers with two or more separated thousands are not"
  },
  {
   "property": "C79",
   "status": "partial",
   "theorems": [
    "Clever.Props.C79_percent_test",
    "Clever.Props.C79_percent_type",
    "Clever.Props.C79_currency_test",
    "Clever.Props.C79_currency_type",
    "Clever.Props.C79_percent_signs",
    "Clever.Props.C79_percent_violated",
    "Clever.Props.C79_percent_partial"
   ],
   "note": "the languages of both types exactly; false: several percent signs are accepted"
  },
  {
   "property": "C80",
   "status": "partial",
   "theorems": [
    "Clever.Props.C80_date_test",
    "Clever.Props.C80_date_type",
    "Clever.Props.C80_iso_date",
    "Clever.Props.C80_calendar_violated",
    "Clever.Props.C80_year_violated",
    "Clever.Props.C80_compact_violated",
    "Clever.Props.C80_date_partial"
   ],
   "note": "the language of the date test exactly, and the type for ASCII cells; false: days like 30 February are accepted, years from 3000 on are not, and dates without separators are numbers"
  },
  {
   "property": "C81",
   "status": "partial",
   "theorems": [
    "Clever.Props.C81_datetime_test",
    "Clever.Props.C81_datetime_type",
    "Clever.Props.C81_spaces_violated",
    "Clever.Props.C81_rest_violated",
    "Clever.Props.C81_datetime_partial"
   ],
   "note": "the language of the test exactly, and the type for ASCII cells; false: dates with spaces are not accepted before a time, and any text is accepted after an offset and its sign"
  },
  {
   "property": "C82",
   "status": "proved",
   "theorems": [
    "Clever.Props.C82_email_type",
    "Clever.Props.C82_path_type",
    "Clever.Props.C82_nan_type",
    "Clever.Props.C82_word_test",
    "Clever.Props.C82_script_word_test",
    "Clever.Props.C82_word_known",
    "Clever.Props.C82_word_type",
    "Clever.Props.C82_quote_unknown"
   ],
   "note": "the languages exactly; nan for ASCII cells, words in any script"
  },
  {
   "property": "C83",
   "status": "partial",
   "theorems": [
    "Clever.Props.C83_quote_rule",
    "Clever.Props.C83_two_quotes",
    "Clever.Props.C83_comma_space",
    "Clever.Props.C83_hyphen",
    "Clever.Props.C83_other_delimiters",
    "Clever.Props.C83_delimiter_and_more",
    "Clever.Props.C83_escape_partial",
    "Clever.Props.C83_each_cell_violated",
    "Clever.Props.C83_quote_escape"
   ],
   "note": "False for the escapechar: only the first cell that differs is looked at (C83_each_cell_violated). The other rules are proved in full."
  },
  {
   "property": "C84",
   "status": "partial",
   "theorems": [
    "Clever.Props.C84_three_quotes",
    "Clever.Props.C84_three_violated",
    "Clever.Props.C84_three_escapes_partial",
    "Clever.Props.C84_delimiters",
    "Clever.Props.C84_other_numbers",
    "Clever.Props.C84_four_different"
   ],
   "note": "False for three quotechars: the tie is broken only if all three parses are equal (C84_three_violated); otherwise the documented branch is never taken. The exact behaviour is proved."
  },
  {
   "property": "C85",
   "status": "partial",
   "theorems": [
    "Clever.Props.C85_loads",
    "Clever.Props.C85_json_type",
    "Clever.Props.C85_json_type_ascii",
    "Clever.Props.C85_object",
    "Clever.Props.C85_words_violated",
    "Clever.Props.C85_object_partial"
   ],
   "note": "False as stated: the words NaN, Infinity and -Infinity are accepted, and objects beyond the recursion or digit limit raise. Proved: json.loads accepts exactly the grammar with these words and limits; the type is json exactly for such texts that begin with a brace; every RFC 8259 object gets json or raises."
  },
  {
   "property": "C86",
   "status": "proved",
   "theorems": [
    "Clever.Props.C86_known",
    "Clever.Props.C86_quoted"
   ],
   "note": "ASCII cells; the character tables agree with ASCII and decimal digits satisfy isdigit."
  },
  {
   "property": "C87",
   "status": "partial",
   "theorems": [
    "Clever.Props.C87_order_violated",
    "Clever.Props.C87_normal_partial",
    "Clever.Props.C87_consistency_partial",
    "Clever.Props.C87_detect_partial"
   ],
   "note": "False: rounding in the pattern score depends on the order of the rows and can break a tie (C87_order_violated). The normal forms do not depend on the order (C87_normal_partial); the consistency measure and the whole detector do not for plain texts in which no candidate delimiter gives more than two different numbers of cells per line, provided detection succeeds (C87_consistency_partial, C87_detect_partial)."
  },
  {
   "property": "C88",
   "status": "partial",
   "theorems": [
    "Clever.Props.C88_found",
    "Clever.Props.C88_none",
    "Clever.Props.C88_violated",
    "Clever.Props.C88_encoding_partial",
    "Clever.Props.C88_versions"
   ],
   "note": "The exact conditions are proved (C88_found, C88_none, C88_versions). False: raise_on_missing=False does not prevent ImportError for outdated versions, so an outdated cchardet makes get_encoding fail (C88_violated); otherwise a detector is chosen (C88_encoding_partial). Importing and comparing versions are parameters."
  },
  {
   "property": "C89",
   "status": "partial",
   "theorems": [
    "Clever.Props.C89_read_dataframe",
    "Clever.Props.C89_refused",
    "Clever.Props.C89_missing",
    "Clever.Props.C89_other_encoding",
    "Clever.Props.C89_arguments",
    "Clever.Props.C89_column_violated"
   ],
   "note": "The call of pandas.read_csv is modelled by its arguments. Proved for all arguments and failures; false in one point: for a file with a single column the dialect has an empty delimiter, which is not a valid csv dialect (C89_column_violated)."
  },
  {
   "property": "C90",
   "status": "proved",
   "theorems": [
    "Clever.Props.C90_explore"
   ],
   "note": "The console is a parameter; the interactive session itself is not modelled."
  },
  {
   "property": "C91",
   "status": "proved",
   "theorems": [
    "Clever.Props.C91_detect",
    "Clever.Props.C91_parse"
   ],
   "note": "Independent of the Unicode data. Tables outside these two shapes (single rows with plain cells, empty cells beside plain ones, line breaks in cells) are decided by the consistency measure and are not covered."
  },
  {
   "property": "C92",
   "status": "proved",
   "theorems": [
    "Clever.Props.C92_read",
    "Clever.Props.C92_round_trip"
   ],
   "note": "Cells with quotes of the writer must make up a table as in C91; excel, detected dialects and QUOTE_ALL classes are instances."
  },
  {
   "property": "C93",
   "status": "proved",
   "theorems": [
    "Clever.Props.C93_standard_text",
    "Clever.Props.C93_stdout",
    "Clever.Props.C93_in_place"
   ],
   "note": "With the transposition off and the whole file used for detection."
  },
  {
   "property": "C94",
   "status": "partial",
   "theorems": [
    "Clever.Props.C94_next_partial",
    "Clever.Props.C94_next_no_failure",
    "Clever.Props.C94_life_partial",
    "Clever.Props.C94_violated",
    "Clever.Props.C94_all_patterns"
   ],
   "note": "Proved for every pattern of failing calls except PyUnicode_New; C94_violated: _strstrip uses the NULL that a failing PyUnicode_New returns. C94_all_patterns: the patterns quantified over are all there are."
  },
  {
   "property": "C95",
   "status": "partial",
   "theorems": [
    "Clever.Props.C95_new_partial",
    "Clever.Props.C95_not_iterable",
    "Clever.Props.C95_violated"
   ],
   "note": "Proved for iterable first arguments; C95_not_iterable says exactly what is lost otherwise, C95_violated: Parser(5, delimiter=',') loses a reference to the delimiter."
  },
  {
   "property": "C96",
   "status": "proved",
   "theorems": [
    "Clever.Props.C96_base_abstraction",
    "Clever.Props.C96_merge"
   ],
   "note": "For string arguments; other arguments are the subject of C97."
  },
  {
   "property": "C97",
   "status": "partial",
   "theorems": [
    "Clever.Props.C97_no_crash_partial",
    "Clever.Props.C97_reentrant_violated",
    "Clever.Props.C97_reentrant_stops_violated",
    "Clever.Props.C97_not_a_string_violated"
   ],
   "note": "Proved for iterators that do not call the parser they feed and for string arguments; three counterexamples (re-entrant iterator, arguments that are not strings)."
  },
  {
   "property": "C98",
   "status": "partial",
   "theorems": [
    "Clever.Props.C98_escaped_violated",
    "Clever.Props.C98_end_violated",
    "Clever.Props.C98_limit_violated",
    "Clever.Props.C98_parse_partial",
    "Clever.Props.C98_parse_quoted_partial"
   ],
   "note": "False as stated: an escapechar before a line break, or at the end of the text in quotes, and a field size limit that the longer line breaks exceed (three witnesses).  Proved for all other texts and dialects: any limit for carriage returns, a limit not below the length of the text for CRLF."
  },
  {
   "property": "C99",
   "status": "partial",
   "theorems": [
    "Clever.Props.C99_blank_line_violated",
    "Clever.Props.C99_escaped_violated",
    "Clever.Props.C99_type_violated",
    "Clever.Props.C99_detect_partial",
    "Clever.Props.C99_single_line_partial",
    "Clever.Props.C99_unquoted_partial"
   ],
   "note": "False as stated: a blank line at the end (CRLF), an escapechar before a line break, and a cell whose type depends on the line break inside it (three witnesses).  Proved for every text without these, for every method, order of sets and list of delimiters; C99_unquoted_partial has conditions on the text only."
  },
  {
   "property": "C100",
   "status": "proved",
   "theorems": [
    "Clever.Props.C100_reader",
    "Clever.Props.C100_writer",
    "Clever.Props.C100_unknown",
    "Clever.Props.C100_round_trip",
    "Clever.Props.C100_unix_text"
   ],
   "note": "For the three dialects that CPython registers; the registry is not modelled otherwise. Cells are strings."
  },
  {
   "property": "C101",
   "status": "proved",
   "theorems": [
    "Clever.Props.C101_parse_string",
    "Clever.Props.C101_parse_string_quoted",
    "Clever.Props.C101_next_row",
    "Clever.Props.C101_abstraction"
   ],
   "note": "C101_parse_string and C101_parse_string_quoted for every text, dialect and limit; C101_next_row for a parser object on any strings; C101_abstraction for the pattern abstraction."
  },
  {
   "property": "C102",
   "status": "proved",
   "theorems": [
    "Clever.Props.C102_unique",
    "Clever.Props.C102_constants",
    "Clever.Props.C102_pattern_score",
    "Clever.Props.C102_type_score",
    "Clever.Props.C102_consistency_score"
   ],
   "note": "Spec/Double describes the IEEE 754 doubles and rounding to nearest even independently of fl; C102_pattern_score is an equivalence with a run of the loop in doubles, C102_type_score and C102_consistency_score for the other scores."
  },
  {
   "property": "C103",
   "status": "proved",
   "theorems": [
    "Clever.Props.C103_unique",
    "Clever.Props.C103_deserialize",
    "Clever.Props.C103_missing",
    "Clever.Props.C103_no_object",
    "Clever.Props.C103_no_json",
    "Clever.Props.C103_serialize"
   ],
   "note": "Spec/JsonText describes the texts: all JSON objects, also with numbers and nested values; C103_deserialize is an equivalence; other JSON values give TypeError, other texts ValueError (or RecursionError)."
  },
  {
   "property": "C104",
   "status": "proved",
   "theorems": [
    "Clever.Props.C104_delimiters",
    "Clever.Props.C104_delimiters_fail",
    "Clever.Props.C104_escapechar",
    "Clever.Props.C104_quotechars",
    "Clever.Props.C104_same",
    "Clever.Props.C104_fails"
   ],
   "note": ""
  },
  {
   "property": "C105",
   "status": "proved",
   "theorems": [
    "Clever.Props.C105_keys",
    "Clever.Props.C105_cell",
    "Clever.Props.C105_surplus",
    "Clever.Props.C105_dropped"
   ],
   "note": ""
  },
  {
   "property": "C106",
   "status": "proved",
   "theorems": [
    "Clever.Props.C106_default",
    "Clever.Props.C106_missing",
    "Clever.Props.C106_names",
    "Clever.Props.C106_complete",
    "Clever.Props.C106_types",
    "Clever.Props.C106_extend",
    "Clever.Props.C106_group"
   ],
   "note": ""
  },
  {
   "property": "C107",
   "status": "proved",
   "theorems": [
    "Clever.Props.C107_same",
    "Clever.Props.C107_keys",
    "Clever.Props.C107_best"
   ],
   "note": "Any order and multiplicity of the dialects, any history of both detectors."
  },
  {
   "property": "C108",
   "status": "partial",
   "theorems": [
    "Clever.Props.C108_json_violated",
    "Clever.Props.C108_standardize_violated",
    "Clever.Props.C108_detect_partial",
    "Clever.Props.C108_wrappers_partial",
    "Clever.Props.C108_commands_partial",
    "Clever.Props.C108_scores_partial",
    "Clever.Props.C108_normal_partial",
    "Clever.Props.C108_number_partial",
    "Clever.Props.C108_line_partial",
    "Clever.Props.C108_order_partial"
   ],
   "note": "Results, files and exceptions are those without the option and the lines are given exactly; the messages go to the standard output, so the output of detect --json and of standardize is mixed with them (violated)."
  },
  {
   "property": "C109",
   "status": "proved",
   "theorems": [
    "Clever.Props.C109_parse_string",
    "Clever.Props.C109_parse_string_quoted",
    "Clever.Props.C109_parse_data",
    "Clever.Props.C109_shape",
    "Clever.Props.C109_pattern",
    "Clever.Props.C109_writer"
   ],
   "note": "for every map of characters that keeps NUL and the line breaks and does not merge a character of the dialect with another"
  },
  {
   "property": "C110",
   "status": "partial",
   "theorems": [
    "Clever.Props.C110_calls",
    "Clever.Props.C110_rows",
    "Clever.Props.C110_any_time_partial",
    "Clever.Props.C110_set_first",
    "Clever.Props.C110_line_num_partial",
    "Clever.Props.C110_line_num_violated",
    "Clever.Props.C110_header_violated"
   ],
   "note": "The field names are wrong after an exception in the first row and line_num counts trailing blank rows (violated); the calls, rows and line numbers are otherwise given exactly."
  },
  {
   "property": "C111",
   "status": "partial",
   "theorems": [
    "Clever.Props.C111_program_partial",
    "Clever.Props.C111_completes",
    "Clever.Props.C111_plain",
    "Clever.Props.C111_quoted",
    "Clever.Props.C111_violated"
   ],
   "note": "Fails for a backslash as delimiter and for file names that do not stand for themselves between double quotes (violated); otherwise the program gives the rows, and the table for plain and quoted tables."
  },
  {
   "property": "C112",
   "status": "proved",
   "theorems": [
    "Clever.Props.C112_step",
    "Clever.Props.C112_call",
    "Clever.Props.C112_parser",
    "Clever.Props.C112_base_abstraction",
    "Clever.Props.C112_merge"
   ],
   "note": "Lengths in the buffer models are unbounded numbers; the bounds keep the sizes within Py_ssize_t, Py_ssize_t and size_t for inputs below 2^59 characters."
  },
  {
   "property": "C113",
   "status": "proved",
   "theorems": [
    "Clever.Props.C113_row_order",
    "Clever.Props.C113_column_order",
    "Clever.Props.C113_single_row",
    "Clever.Props.C113_integers",
    "Clever.Props.C113_plain",
    "Clever.Props.C113_quoted"
   ],
   "note": "Plain tables end their lines in LF or CRLF; quoted tables have no carriage return other than before a line feed."
  },
  {
   "property": "C114",
   "status": "proved",
   "theorems": [
    "Clever.Props.C114_detect_plain",
    "Clever.Props.C114_detect_quoted",
    "Clever.Props.C114_view_plain",
    "Clever.Props.C114_view_quoted"
   ],
   "note": "For tables whose dialect is known to be detected (C73, C91), in a world where no operation fails."
  },
  {
   "property": "C115",
   "status": "proved",
   "theorems": [
    "Clever.Props.C115_off",
    "Clever.Props.C115_line",
    "Clever.Props.C115_json"
   ],
   "note": "The measured time is a parameter, given by its two texts; its repr must be a JSON number (finite floats are)."
  },
  {
   "property": "C116",
   "status": "partial",
   "theorems": [
    "Clever.Props.C116_sources_partial",
    "Clever.Props.C116_session_partial",
    "Clever.Props.C116_announcement_violated"
   ],
   "note": "Sources and start of the session are characterised for every console that judges sources by their text; the announcement is false for a file with a quote in its name, where the program is no Python program (C116_announcement_violated). The interpreter is given by its judgement which sources are incomplete."
  },
  {
   "property": "C117",
   "status": "proved",
   "theorems": [
    "Clever.Props.C117_detect",
    "Clever.Props.C117_parse",
    "Clever.Props.C117_read",
    "Clever.Props.C117_detect_command",
    "Clever.Props.C117_view",
    "Clever.Props.C117_standardize",
    "Clever.Props.C117_whole_detect",
    "Clever.Props.C117_whole_parse",
    "Clever.Props.C117_whole_read",
    "Clever.Props.C117_whole_standardize"
   ],
   "note": "normal forms 4 and 5 (single columns and rows in quotes as a whole), from detection to the commands"
  },
  {
   "property": "C118",
   "status": "proved",
   "theorems": [
    "Clever.Props.C118_consistent",
    "Clever.Props.C118_delimiter",
    "Clever.Props.C118_not_empty",
    "Clever.Props.C118_only_candidate",
    "Clever.Props.C118_word_tables",
    "Clever.Props.C118_quoted",
    "Clever.Props.C118_quoted_tables"
   ],
   "note": "The type score of d is 1 and its pattern score is bounded from below; the pattern score of every dialect with two or more row patterns, or with one pattern of fewer than n cells, is bounded from above, since no dialect gives more rows than the text has nonempty lines. Scores are the correctly rounded doubles of the model (C102); n <= 2^25 and length < 2^50 keep the rounding below the differences. An example shows that the types matter: with unknown cells an inconsistent delimiter wins. With quotes: C118_quoted for texts with balanced quotes on every line, C118_quoted_tables for tables of words with a cell in quotes."
  },
  {
   "property": "C119",
   "status": "proved",
   "theorems": [
    "Clever.Props.C119_patterns_agree",
    "Clever.Props.C119_balance_needed",
    "Clever.Props.C119_escapes_differ"
   ],
   "note": "Texts with balanced quotes, dialects with a quote character and without escape character: the patterns and the rows of the parser have the same cell counts; witnesses show that balance and the absence of escape characters are needed. Without quotes this is C22/C118."
  },
  {
   "property": "C120",
   "status": "proved",
   "theorems": [
    "Clever.C120_search",
    "Clever.C120_sub",
    "Clever.C120_patterns",
    "Clever.C120_polynomial",
    "Clever.C120_degrees",
    "Clever.C120_filter_urls",
    "Clever.C120_filter_urls_quadratic",
    "Clever.C120_nested"
   ],
   "note": "Steps of a plain backtracking engine (Model/Backtrack), whose results are those of the matcher of the model (C120_search, C120_sub); the optimisations of the regex package are not modelled."
  },
  {
   "property": "C121",
   "status": "proved",
   "theorems": [
    "Clever.Props.C121_form1",
    "Clever.Props.C121_form2",
    "Clever.Props.C121_form3",
    "Clever.Props.C121_form4",
    "Clever.Props.C121_form5",
    "Clever.Props.C121_lines",
    "Clever.Props.C121_detect",
    "Clever.Props.C121_none"
   ],
   "note": "Exact: grammars in Spec/NormalForms, for the default delimiters in C121_detect and C121_none."
  },
  {
   "property": "C122",
   "status": "proved",
   "theorems": [
    "Clever.C122_tables",
    "Clever.C122_detect",
    "Clever.C122_view",
    "Clever.C122_code",
    "Clever.C122_explore",
    "Clever.C122_standardize",
    "Clever.C122_order",
    "Clever.C122_exclusive",
    "Clever.C122_rejected",
    "Clever.C122_not_a_number",
    "Clever.C122_errors",
    "Clever.C122_standardize_all"
   ],
   "note": "Model/CommandLine has the tables of options and the rules of argparse; Spec/CommandLine says how options are written. The conversion int(...) is a parameter."
  },
  {
   "property": "C123",
   "status": "proved",
   "theorems": [
    "Clever.Props.C123_all",
    "Clever.Props.C123_prefix",
    "Clever.Props.C123_lines",
    "Clever.Props.C123_cases",
    "Clever.Props.C123_ended"
   ],
   "note": "Model/Streams models TextIOWrapper, IncrementalNewlineDecoder and incremental decoders of CPython, for files opened with newline=''. C123_ended characterises the lines that have ended independently of the decoder."
  },
  {
   "property": "C124",
   "status": "proved",
   "theorems": [
    "Clever.Props.C124_success",
    "Clever.Props.C124_one",
    "Clever.Props.C124_runs",
    "Clever.Props.C124_failure_in_place",
    "Clever.Props.C124_failure_file",
    "Clever.Props.C124_failure_stdout",
    "Clever.Props.C124_read",
    "Clever.Props.C124_read_runs",
    "Clever.Props.C124_broken",
    "Clever.Props.C124_write",
    "Clever.Props.C124_lookup"
   ],
   "note": "Model/Chunked. Exit code 1 (no dialect detected) is C124_one. An unknown encoding is C124_lookup. An output path equal to the input path without -i is excluded (the file is truncated before it is read, see C52/C54)."
  },
  {
   "property": "C125",
   "status": "proved",
   "theorems": [
    "Clever.Props.C125_encode",
    "Clever.Props.C125_decode",
    "Clever.Props.C125_errors",
    "Clever.Props.C125_chunks",
    "Clever.Props.C125_table",
    "Clever.Props.C125_dicts",
    "Clever.Props.C125_standardize"
   ],
   "note": "The codec is that of CPython with the error handler strict; the specification uses String.utf8EncodeChar of the Lean library."
  },
  {
   "property": "C126",
   "status": "proved",
   "theorems": [
    "Clever.Props.C126_stream",
    "Clever.Props.C126_stream_runs",
    "Clever.Props.C126_read",
    "Clever.Props.C126_read_runs",
    "Clever.Props.C126_write",
    "Clever.Props.C126_close"
   ],
   "note": "Model/ChunkedDicts. A read that fails while the dialect is detected raises before any dictionary. C126_close: which exception is raised if closing fails."
  },
  {
   "property": "C127",
   "status": "proved",
   "theorems": [
    "Clever.Props.C127_bad_args",
    "Clever.Props.C127_run",
    "Clever.Props.C127_runs",
    "Clever.Props.C127_stopped"
   ],
   "note": "Model/ChunkedRun. What happens to the file at which the command stops is C124_failure_file and C124_failure_in_place, for the state after the files before."
  },
  {
   "property": "C128",
   "status": "partial",
   "theorems": [
    "Clever.Props.C128_standardize",
    "Clever.Props.C128_file",
    "Clever.Props.C128_code",
    "Clever.Props.C128_detect",
    "Clever.Props.C128_complete",
    "Clever.Props.C128_json",
    "Clever.Props.C128_redirect_partial",
    "Clever.Props.C128_redirect_runs",
    "Clever.Props.C128_stopped",
    "Clever.Props.C128_files",
    "Clever.Props.C128_target",
    "Clever.Props.C128_windows_violated",
    "Clever.Props.C128_encoding_violated"
   ],
   "note": "False in general: on Windows print turns CRLF into CR CR LF, so that reading the redirected output gives an empty row after every row (C128_windows_violated), and an encoding of standard output without a character makes the command fail although an output file could be written, whatever --target-encoding says (C128_encoding_violated, C128_target). Proved: the same bytes if standard output has the encoding of the output file and LF is left alone, in both directions; whole files or nothing; complete encodings; JSON in ASCII."
  },
  {
   "property": "C129",
   "status": "partial",
   "theorems": [
    "Clever.Props.C129_quiet",
    "Clever.Props.C129_complete",
    "Clever.Props.C129_outcome_partial",
    "Clever.Props.C129_commands",
    "Clever.Props.C129_commands_quiet",
    "Clever.Props.C129_detect_violated",
    "Clever.Props.C129_standardize_violated"
   ],
   "note": "Violated: with standard output in ASCII detection of a sample with the candidate delimiter § succeeds, but with verbose=True it raises UnicodeEncodeError and leaves the field size limit at len(sample)+1 (C129_detect_violated), and clevercsv standardize --verbose -o fails where it works without (C129_standardize_violated). Proved for all inputs: without verbose nothing is written (C129_quiet, C129_commands_quiet), with an encoding that has all characters all is as without (C129_complete), with ASCII these are the only two outcomes and only the scores of a candidate with a character that is not ASCII can fail (C129_outcome_partial), and the same for the commands (C129_commands)."
  },
  {
   "property": "C130",
   "status": "partial",
   "theorems": [
    "Clever.Props.C130_same",
    "Clever.Props.C130_announced",
    "Clever.Props.C130_complete_partial",
    "Clever.Props.C130_error_mode",
    "Clever.Props.C130_error_stuck",
    "Clever.Props.C130_iteration",
    "Clever.Props.C130_violated"
   ],
   "note": "All calls of next in both modes of the warnings module, and loops over the reader. The full property is violated if restkey is one of the field names: then a cell is lost without a warning (C130_violated)."
  },
  {
   "property": "C131",
   "status": "partial",
   "theorems": [
    "Clever.Props.C131_view",
    "Clever.Props.C131_view_missing",
    "Clever.Props.C131_view_fails",
    "Clever.Props.C131_view_status_partial",
    "Clever.Props.C131_main",
    "Clever.Props.C131_codes",
    "Clever.Props.C131_status",
    "Clever.Props.C131_two_meanings",
    "Clever.Props.C131_windows_violated",
    "Clever.Props.C131_windows"
   ],
   "note": "Proved: the entry point, the exit codes of detect, code and standardize, and the view command with tabview. False on Windows, where view reports an error, shows nothing and ends with status 0 (C131_windows_violated); C131_view_status_partial excludes Windows. The status 2 means both wrong arguments and a file changed in place (C131_two_meanings). The explore command is not part of the statement about the codes."
  },
  {
   "property": "C132",
   "status": "partial",
   "theorems": [
    "Clever.Props.C132_same",
    "Clever.Props.C132_explained",
    "Clever.Props.C132_options",
    "Clever.Props.C132_explore_partial",
    "Clever.Props.C132_explore_violated"
   ],
   "note": "Proved for standardize, detect and code, with the exact conditions for the messages about options; C131_view_fails has the messages of view. False for explore: if the console does not accept the generated code the command returns 1 and the explanation goes to standard output (C132_explore_violated); C132_explore_partial says when it writes a line."
  }
 ]
}