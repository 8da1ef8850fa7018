# Axioms

Output of `#print axioms` for the theorems of MANIFEST.json (namespace `Clever.Props`), grouped.

## None

* C31_empty
* C97_not_a_string_violated

## `propext`

* C03_no_delimiter
* C08_incremental
* C16_sequence_restarts
* C17_fmtparams_violated
* C17_failed_construction_violated
* C18_comma_then_semicolon
* C20_from_to_partial
* C21_no_quote_violated
* C22_cell_counts
* C26_cache_transparent
* C46_constructor
* C50_empty_partial
* C59_field_size_limit
* C59_history
* C60_reader_same_as_changed_dialect
* C83_two_quotes
* C83_comma_space
* C83_hyphen
* C83_other_delimiters
* C83_delimiter_and_more
* C84_other_numbers
* C95_violated
* C100_reader
* C100_writer
* C100_unknown
* C100_unix_text
* C105_surplus
* C110_set_first
* C110_line_num_partial

## `Quot.sound`, `propext`

* C04_splitOn_spec
* C08_consumes
* C10_same_cells
* C11_no_record_dropped_partial
* C12_strict_result_partial
* C14_base_abstraction_in_bounds
* C14_merge_in_bounds
* C15_line_num
* C15_initial
* C16_iter_is_harmless
* C18_lt_spec
* C19_valid_iff
* C20_conversion_violated
* C20_conversion_partial
* C26_cache_bounded
* C36_symmetric_partial
* C36_differ_partial
* C36_failing_partial
* C43_no_escapechar
* C46_cells_partial
* C58_sha1_loop
* C58_sha1
* C60_reader_overrides
* C60_writer_overrides
* C60_writer_keeps
* C60_writer_made
* C60_writer_made_simple
* C65_lower_limit
* C83_quote_rule
* C84_three_escapes_partial
* C84_four_different
* C87_normal_partial
* C94_all_patterns
* C95_new_partial
* C95_not_iterable
* C96_base_abstraction
* C96_merge
* C101_next_row
* C104_escapechar
* C105_keys
* C105_cell
* C105_dropped
* C109_writer
* C112_base_abstraction
* C113_row_order
* C113_column_order
* C113_single_row
* C113_integers
* Clever.C120_search
* Clever.C120_sub
* Clever.C120_nested
* C123_all
* C123_cases
* C130_same
* C130_error_mode
* C130_error_stuck

## `Classical.choice`, `Quot.sound`, `propext`

* C01_exact
* C01_any_limit
* C01_excel_round_trip
* C02_exact_partial
* C02_any_limit_partial
* C02_round_trip_partial
* C02_strict_violated
* C02_newline_escapechar_violated
* C02_strict_iff_partial
* C03_exact_partial
* C03_exact
* C03_iff
* C03_quote_violated
* C03_round_trip_partial
* C03_writer_refuses
* C04_unquoted_is_split
* C04_textLines_spec
* C04_limit_error
* C05_quote_parity
* C05_quote_parity_flags
* C05_limited
* C05_cells_cut
* C05_records_cut
* C06_error_reasons
* C06_no_newline_error
* C06_success
* C07_cells_bounded
* C08_rows_le_lines
* C08_iteration
* C09_compositional
* C09_text
* C10_no_quotechar
* C11_exact
* C11_no_record_dropped_violated
* C12_strict_accepts_quoted_violated
* C12_strict_unquoted_partial
* C12_escape_iff
* C12_no_quotechar_iff
* C12_bare_quote_partial
* C12_iff
* C13_open_cell_violated
* C13_open_cell_partial
* C13_exact
* C13_iff
* C14_parser_in_bounds
* C14_parser_refines
* C14_parser_buffer_bound
* C16_rows_in_order
* C17_iff
* C17_heap_model_agrees
* C17_unchanged_partial
* C18_strict_total_order
* C18_derived_operators
* C19_serialize_round_trip
* C21_letters_violated
* C21_well_formed_partial
* C21_closed_quotes_partial
* C22_patterns_agree
* C23_newline_convention
* C24_score_formula
* C24_range_partial
* C24_order_violated
* C24_order_of_patterns_partial
* C24_order_of_patterns_exact_partial
* C24_order_of_rows_partial
* C25_type_score_range
* C25_compute_type_score_range
* C25_type_score_value
* C26_type_score_transparent
* C26_dialect_sequence
* C27_whitespace_ignored
* C27_whitespace_only
* C27_empty_iff
* C28_time_test
* C28_time_type
* C29_hour_offset_violated
* C29_offset_partial
* C30_candidates_iff
* C30_nodup
* C30_all_empty
* C30_masked_filter
* C30_from_text_partial
* C30_placeholder_violated
* C31_computes
* C31_violated
* C31_no_escape_partial
* C32_skip
* C32_detect
* C32_scores
* C33_best
* C33_scored_in_order
* C34_tie_breaker
* C34_detected_is_best
* C35_one_escapechar_partial
* C35_only_reduce_partial
* C35_not_four_partial
* C35_violated
* C36_violated
* C36_iff_partial
* C36_no_quotechar_partial
* C37_iff
* C37_restored_partial
* C37_on_error_partial
* C37_violated
* C38_iff
* C38_skip
* C38_no_parse_error_partial
* C38_no_brace_partial
* C38_cause_partial
* C38_violated
* C39_requested_delimiters
* C40_valid
* C41_consistency_partial
* C41_auto_partial
* C41_attribute_partial
* C41_normal_is_auto_partial
* C41_names_partial
* C41_violated
* C42_unquoted_partial
* C42_single_column_partial
* C42_same_length_partial
* C42_iff_partial
* C42_violated
* C42_nested_violated
* C43_escape_excludes
* C44_vote_partial
* C44_bounded_partial
* C44_next_row_partial
* C44_violated
* C45_no_result_partial
* C45_rows_partial
* C45_accepts_partial
* C45_violated
* C45_cr_violated
* C45_iff
* C45_detected
* C46_exact
* C46_rows_partial
* C46_header_partial
* C46_violated
* C47_constructor
* C47_known_partial
* C47_raise_partial
* C47_ignore
* C47_header
* C47_writerows
* C47_default
* C47_violated
* C47_exact
* C47_spelling_violated
* C48_exact_partial
* C48_round_trip_partial
* C48_violated
* C49_exact_partial
* C49_round_trip_partial
* C49_violated
* C50_iff
* C50_ragged_partial
* C50_transpose_partial
* C50_violated
* C50_iterator_violated
* C51_table_given
* C51_dicts_given
* C51_table_detected
* C51_dicts_detected
* C51_no_result_iff
* C51_read_is_stream
* C52_stdout_partial
* C52_file_partial
* C52_in_place_partial
* C52_completes
* C52_violated
* C53_text
* C53_stdout
* C53_in_place
* C54_zero
* C54_two
* C54_one
* C54_failure
* C54_failure_same_device
* C55_bad_args
* C55_run
* C55_in_place_zero
* C56_padded
* C56_view
* C56_stdout_partial
* C56_in_place_partial
* C56_twice_partial
* C56_violated
* C56_write_table_violated
* C57_iff
* C57_code
* C57_command
* C57_violated
* C58_encoding_loop
* C58_encoding
* C58_chunks_unique
* C61_violated
* C61_same_rows_partial
* C61_excel_partial
* C62_violated
* C62_success_partial
* C62_failure_partial
* C62_always_violated
* C63_damage_partial
* C63_atomic_partial
* C63_violated
* C64_always_violated
* C64_violated
* C64_other_files_partial
* C66_cell_characters
* C67_iff
* C67_view_partial
* C67_reads_only
* C67_violated
* C68_parse
* C68_detect
* C69_filename_partial
* C69_iff
* C69_violated
* C70_same_rows
* C71_repr
* C71_printable
* C71_json
* C71_command
* C72_injective_partial
* C72_iff
* C72_violated
* C73_detect_partial
* C73_violated
* C74_read
* C74_round_trip
* C74_excel
* C74_other_tables
* C75_round_trip
* C76_standard_text
* C76_stdout
* C76_in_place
* C77_url_test
* C77_url_type
* C77_ipv4_test
* C77_ipv4_violated
* C77_address_partial
* C78_number_test
* C78_number_type
* C78_sign_violated
* C78_thousands_violated
* C78_numeral_partial
* C79_percent_test
* C79_percent_type
* C79_currency_test
* C79_currency_type
* C79_percent_signs
* C79_percent_violated
* C79_percent_partial
* C80_date_test
* C80_date_type
* C80_iso_date
* C80_calendar_violated
* C80_year_violated
* C80_compact_violated
* C80_date_partial
* C81_datetime_test
* C81_datetime_type
* C81_spaces_violated
* C81_rest_violated
* C81_datetime_partial
* C82_email_type
* C82_path_type
* C82_nan_type
* C82_word_test
* C82_script_word_test
* C82_word_known
* C82_word_type
* C82_quote_unknown
* C83_escape_partial
* C83_each_cell_violated
* C83_quote_escape
* C84_three_quotes
* C84_three_violated
* C84_delimiters
* C85_loads
* C85_json_type
* C85_json_type_ascii
* C85_object
* C85_words_violated
* C85_object_partial
* C86_known
* C86_quoted
* C87_order_violated
* C87_consistency_partial
* C87_detect_partial
* C88_found
* C88_none
* C88_violated
* C88_encoding_partial
* C88_versions
* C89_read_dataframe
* C89_refused
* C89_missing
* C89_other_encoding
* C89_arguments
* C89_column_violated
* C90_explore
* C91_detect
* C91_parse
* C92_read
* C92_round_trip
* C93_standard_text
* C93_stdout
* C93_in_place
* C94_next_partial
* C94_next_no_failure
* C94_life_partial
* C94_violated
* C97_no_crash_partial
* C97_reentrant_violated
* C97_reentrant_stops_violated
* C98_escaped_violated
* C98_end_violated
* C98_limit_violated
* C98_parse_partial
* C98_parse_quoted_partial
* C99_blank_line_violated
* C99_escaped_violated
* C99_type_violated
* C99_detect_partial
* C99_single_line_partial
* C99_unquoted_partial
* C100_round_trip
* C101_parse_string
* C101_parse_string_quoted
* C101_abstraction
* C102_unique
* C102_constants
* C102_pattern_score
* C102_type_score
* C102_consistency_score
* C103_unique
* C103_deserialize
* C103_missing
* C103_no_object
* C103_no_json
* C103_serialize
* C104_delimiters
* C104_delimiters_fail
* C104_quotechars
* C104_same
* C104_fails
* C106_default
* C106_missing
* C106_names
* C106_complete
* C106_types
* C106_extend
* C106_group
* C107_same
* C107_keys
* C107_best
* C108_json_violated
* C108_standardize_violated
* C108_detect_partial
* C108_wrappers_partial
* C108_commands_partial
* C108_scores_partial
* C108_normal_partial
* C108_number_partial
* C108_line_partial
* C108_order_partial
* C109_parse_string
* C109_parse_string_quoted
* C109_parse_data
* C109_shape
* C109_pattern
* C110_calls
* C110_rows
* C110_any_time_partial
* C110_line_num_violated
* C110_header_violated
* C111_program_partial
* C111_completes
* C111_plain
* C111_quoted
* C111_violated
* C112_step
* C112_call
* C112_parser
* C112_merge
* C113_plain
* C113_quoted
* C114_detect_plain
* C114_detect_quoted
* C114_view_plain
* C114_view_quoted
* C115_off
* C115_line
* C115_json
* C116_sources_partial
* C116_session_partial
* C116_announcement_violated
* C117_detect
* C117_parse
* C117_read
* C117_detect_command
* C117_view
* C117_standardize
* C117_whole_detect
* C117_whole_parse
* C117_whole_read
* C117_whole_standardize
* C118_consistent
* C118_delimiter
* C118_not_empty
* C118_only_candidate
* C118_word_tables
* C118_quoted
* C118_quoted_tables
* C119_patterns_agree
* C119_balance_needed
* C119_escapes_differ
* Clever.C120_patterns
* Clever.C120_polynomial
* Clever.C120_degrees
* Clever.C120_filter_urls
* Clever.C120_filter_urls_quadratic
* C121_form1
* C121_form2
* C121_form3
* C121_form4
* C121_form5
* C121_lines
* C121_detect
* C121_none
* Clever.C122_tables
* Clever.C122_detect
* Clever.C122_view
* Clever.C122_code
* Clever.C122_explore
* Clever.C122_standardize
* Clever.C122_order
* Clever.C122_exclusive
* Clever.C122_rejected
* Clever.C122_not_a_number
* Clever.C122_errors
* Clever.C122_standardize_all
* C123_prefix
* C123_lines
* C123_ended
* C124_success
* C124_one
* C124_runs
* C124_failure_in_place
* C124_failure_file
* C124_failure_stdout
* C124_read
* C124_read_runs
* C124_broken
* C124_write
* C124_lookup
* C125_encode
* C125_decode
* C125_errors
* C125_chunks
* C125_table
* C125_dicts
* C125_standardize
* C126_stream
* C126_stream_runs
* C126_read
* C126_read_runs
* C126_write
* C126_close
* C127_bad_args
* C127_run
* C127_runs
* C127_stopped
* C128_standardize
* C128_file
* C128_code
* C128_detect
* C128_complete
* C128_json
* C128_redirect_partial
* C128_redirect_runs
* C128_stopped
* C128_files
* C128_target
* C128_windows_violated
* C128_encoding_violated
* C129_quiet
* C129_complete
* C129_outcome_partial
* C129_commands
* C129_commands_quiet
* C129_detect_violated
* C129_standardize_violated
* C130_announced
* C130_complete_partial
* C130_iteration
* C130_violated
* C131_view
* C131_view_missing
* C131_view_fails
* C131_view_status_partial
* C131_main
* C131_codes
* C131_status
* C131_two_meanings
* C131_windows_violated
* C131_windows
* C132_same
* C132_explained
* C132_options
* C132_explore_partial
* C132_explore_violated
