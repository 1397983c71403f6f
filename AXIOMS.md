# Axioms each property theorem depends on

Printed by `#print axioms` for the 523 property theorems (`tools/axioms.py`).

## Classical.choice, Quot.sound, propext

* `C01_gmtime64_month_day`
* `C01_nstime2time_gregorian`
* `C02_fields_round_trip`
* `C03_order_preserved`
* `C04_no_overflow_partial`
* `C05_doy_rejects`
* `C05_doy_to_md`
* `C05_md_rejects_partial`
* `C05_md_to_doy`
* `C06_read_back`
* `C06_read_back_exact`
* `C07_length`
* `C07_program_buffer_partial`
* `C07_program_buffer_violated`
* `C08_calendar_text`
* `C08_nanosecond_epoch`
* `C08_timestrz`
* `C08_unix_epoch_partial`
* `C08_unix_epoch_violated`
* `C09_1972_violated`
* `C09_accuracy`
* `C09_end`
* `C09_exact`
* `C09_first`
* `C09_leap_partial`
* `C09_monotone`
* `C09_not_before`
* `C09_period`
* `C09_two_leaps_violated`
* `C100_as_buffer`
* `C100_file_read_partial`
* `C100_refused`
* `C101_each_source_partial`
* `C101_large_tolerance_violated`
* `C101_runs_are_segments_partial`
* `C102_buffer_partial`
* `C102_file_partial`
* `C102_rate`
* `C103_trace_list`
* `C103_words`
* `C104_long_code_violated`
* `C104_stale_codes_violated`
* `C104_sync_list_partial`
* `C105_gap_list`
* `C106_gap_list_of_files`
* `C106_one_line_per_run_partial`
* `C106_sync_list_of_files_partial`
* `C106_trace_list_of_files`
* `C107_read`
* `C107_rewrite`
* `C107_unique`
* `C107_write`
* `C108_exists`
* `C108_no_buffer_violated`
* `C108_query_partial`
* `C108_unreadable`
* `C108_wide_violated`
* `C109_found`
* `C109_found_violated`
* `C109_session`
* `C109_unreadable`
* `C10_extended_round_trip`
* `C110_long_violated`
* `C110_serialized`
* `C110_set_partial`
* `C111_added_partial`
* `C111_infinite_violated`
* `C111_time`
* `C112_merge`
* `C113_replace`
* `C114_deep_violated`
* `C114_print_partial`
* `C114_quotation_violated`
* `C115_headers_partial`
* `C115_lost_violated`
* `C115_wave_violated`
* `C116_abort_violated`
* `C116_bounds_partial`
* `C116_calibration_words`
* `C116_converted_partial`
* `C116_correction_violated`
* `C116_event_words`
* `C116_exception_violated`
* `C116_header_partial`
* `C116_limit_violated`
* `C116_ratios_violated`
* `C116_read_back_partial`
* `C116_wave_violated`
* `C117_entry_refused`
* `C117_first_empty_violated`
* `C117_pointers_partial`
* `C117_segments_partial`
* `C117_unpacked_partial`
* `C118_list_back_partial`
* `C118_list_room`
* `C118_record_room`
* `C118_series_back_partial`
* `C119_details_tell`
* `C119_line_tells`
* `C119_text`
* `C120_printed`
* `C120_until_error`
* `C120_without_lists`
* `C121_record`
* `C121_sound`
* `C121_told`
* `C122_bounds_partial`
* `C122_endless_violated`
* `C122_ends_partial`
* `C122_header_partial`
* `C122_record_partial`
* `C122_told_partial`
* `C123_empty2`
* `C123_messages`
* `C123_packed`
* `C123_packed2`
* `C123_read`
* `C126_list_partial`
* `C126_record_partial`
* `C127_free`
* `C127_init`
* `C128_add_partial`
* `C128_free`
* `C128_life`
* `C129_print`
* `C130_append`
* `C130_merge`
* `C131_progress_partial`
* `C132_behind_header_violated`
* `C132_header`
* `C132_ignored_violated`
* `C132_no_connection_violated`
* `C132_open_partial`
* `C132_other_header`
* `C132_status`
* `C133_range_partial`
* `C133_small_as_file`
* `C133_version3_partial`
* `C134_heal`
* `C135_buffer_partial`
* `C135_list_partial`
* `C135_none_selected_violated`
* `C135_records_partial`
* `C135_test_partial`
* `C135_window_partial`
* `C136_leap_violated`
* `C136_one_sample`
* `C136_period_violated`
* `C136_rate_partial`
* `C137_accepted`
* `C137_agent_cut_violated`
* `C137_agent_twice_violated`
* `C137_settings_partial`
* `C138_no_leak_partial`
* `C138_replace_violated`
* `C138_safe`
* `C138_unreadable_violated`
* `C139_first_range`
* `C139_no_leak_partial`
* `C139_record_partial`
* `C140_parser_explained`
* `C140_texts`
* `C140_unknown_violated`
* `C142_entries`
* `C143_long_header_violated`
* `C143_offset_partial`
* `C144_one_version_partial`
* `C145_new_source_partial`
* `C146_nothing_else`
* `C147_closed_partial`
* `C147_refused_line_violated`
* `C147_sequence_partial`
* `C14_msi_match_contains`
* `C14_my_globmatch_is_glob`
* `C14_same_on_all_hosts`
* `C15_ms_globmatch_is_glob_partial`
* `C17_is_crc32c_partial`
* `C17_short_unaligned_buffer_violated`
* `C18_piecewise`
* `C19_detects_bursts`
* `C20_steim1_lossless`
* `C21_steim2_lossless`
* `C21_wide_difference_refused`
* `C22_steim1_progress`
* `C22_steim2_progress`
* `C23_memory_safe_partial`
* `C24_float32`
* `C24_float64`
* `C24_int16`
* `C24_int32`
* `C25_cdsn`
* `C25_dwwssn`
* `C25_geoscope16`
* `C25_geoscope24_partial`
* `C25_sro`
* `C26_header_parses`
* `C26_header_round_trip`
* `C27_exact_length_partial`
* `C27_not_a_record`
* `C28_backward_link`
* `C28_length_from_blockette1000`
* `C28_length_from_next_header`
* `C28_terminates`
* `C29_detect2_in_bounds_partial`
* `C29_parse_in_bounds_partial`
* `C29_unpack2_in_bounds_partial`
* `C29_version2_data_partial`
* `C30_bytes_unchanged`
* `C30_crc_decides`
* `C31_endless_violated`
* `C31_no_samples`
* `C31_pack_keeps_samples_partial`
* `C31_packed_prefix_partial`
* `C32_exact_times`
* `C32_record_times`
* `C33_repack_in_bounds_partial`
* `C34_boundary_violated`
* `C34_mixed_records_partial`
* `C34_terminates`
* `C34_truncated`
* `C34_version2_records_partial`
* `C34_version3_records`
* `C35_offsets_partial`
* `C36_no_range_partial`
* `C36_range_partial`
* `C37_each_source_keeps_samples`
* `C37_one_type_all_kept`
* `C37_samples_conserved`
* `C38_additions_safe`
* `C38_linked_in_order_partial`
* `C38_order_violated`
* `C39_additions_safe`
* `C39_found_iff_added`
* `C39_listed_once_in_order`
* `C40_extremes`
* `C41_apart_only_beyond_tolerance`
* `C41_contiguous_joined`
* `C41_joined_only_within_tolerance`
* `C42_default_tolerance_partial`
* `C42_list_violated`
* `C42_tolerance_inverted_violated`
* `C43_gap_value`
* `C43_lines_are_gaps_partial`
* `C43_overflow_violated`
* `C43_sample_count`
* `C44_adding_never_deselects`
* `C44_long_pattern_violated`
* `C44_returned_entry`
* `C44_selected_iff_requested_partial`
* `C45_all`
* `C45_output_file_partial`
* `C45_until_error`
* `C46_limit`
* `C46_stops`
* `C47_totals`
* `C48_reversed_window_violated`
* `C48_window_partial`
* `C49_history_partial`
* `C50_writes`
* `C51_fits`
* `C51_integer_period`
* `C51_integer_rate`
* `C51_large_rate`
* `C51_overflow_violated`
* `C51_range_violated`
* `C51_ratio_partial`
* `C51_ratio_violated`
* `C51_rule`
* `C52_double_to_float_partial`
* `C52_float_violated`
* `C52_int_to_float_partial`
* `C52_loss_violated`
* `C52_negative_violated`
* `C52_range_violated`
* `C52_refused_violated`
* `C52_round_trip_partial`
* `C52_text`
* `C52_to_double`
* `C52_to_int_partial`
* `C52_truncate_partial`
* `C53_file_partial`
* `C53_long_line_violated`
* `C55_error_value`
* `C58_decoders_implement_format`
* `C59_no_overflow_partial`
* `C60_decode_in_bounds_partial`
* `C61_pack_decode`
* `C62_int16_range_partial`
* `C63_repack_partial`
* `C65_metadata_kept`
* `C66_only_filled_partial`
* `C67_segments_are_chains`
* `C68_arrival_order_irrelevant`
* `C69_sources_independent_partial`
* `C69_zero_version_violated`
* `C70_codes_matched_one_by_one_partial`
* `C70_long_station_violated`
* `C70_set_in_channel_violated`
* `C70_wildcard_crosses_codes_violated`
* `C71_version2_fields`
* `C71_version2_unpack`
* `C72_ambiguous_dates`
* `C72_host_independent_partial`
* `C73_reclen_partial`
* `C74_file_samples_partial`
* `C74_record_samples_partial`
* `C75_buffer_read_partial`
* `C75_default_tolerance`
* `C75_ends`
* `C75_no_samples_violated`
* `C75_refused`
* `C75_samples_kept_partial`
* `C75_second_blockette_violated`
* `C75_short_record_violated`
* `C76_end_of_file_partial`
* `C76_none_selected_violated`
* `C77_pack_and_read`
* `C78_range_records`
* `C79_comma_fraction_violated`
* `C79_day_zero_violated`
* `C79_iso_ordinal`
* `C79_large_field_violated`
* `C79_longest`
* `C79_modelled`
* `C79_month_day`
* `C79_offset_violated`
* `C79_refuses_character`
* `C79_refuses_length`
* `C79_refuses_month_day_partial`
* `C79_refuses_ordinal`
* `C79_seed_ordinal`
* `C79_year`
* `C80_four_characters_violated`
* `C80_seconds_partial`
* `C80_sign_violated`
* `C81_day_of_year_violated`
* `C81_first_year_violated`
* `C81_nanosecond_epoch_violated`
* `C81_unix_epoch_partial`
* `C81_unix_epoch_violated`
* `C82_complaint_partial`
* `C82_long_prefix_violated`
* `C82_rloginit_partial`
* `C83_all_samples`
* `C83_text_newline_violated`
* `C83_text_nul_violated`
* `C83_text_partial`
* `C84_outputs`
* `C85_frames_violated`
* `C85_many_samples_violated`
* `C85_no_samples`
* `C85_pack2_keeps_samples_partial`
* `C85_packed_prefix_partial`
* `C86_record_times_partial`
* `C87_metadata_kept_partial`
* `C88_extra_headers_kept_partial`
* `C89_header2_buffer_partial`
* `C90_bad_time_violated`
* `C90_file_requests_partial`
* `C90_long_line_violated`
* `C90_neither_partial`
* `C90_unrecognized_line_violated`
* `C91_all_packed2_partial`
* `C91_all_packed_partial`
* `C92_emptied_violated`
* `C92_rest_stays2_partial`
* `C92_rest_stays_partial`
* `C93_records_returned_partial`
* `C94_rolling_partial`
* `C95_accepted`
* `C95_help`
* `C95_large_count_violated`
* `C95_missing_value`
* `C95_negative_gap_violated`
* `C95_options_partial`
* `C95_prefix_violated`
* `C95_signed_count`
* `C95_standard_output_violated`
* `C95_unknown_option`
* `C95_word_count_violated`
* `C96_carriage_return_violated`
* `C96_input_files_partial`
* `C96_long_line_violated`
* `C96_no_list`
* `C97_estimates_violated`
* `C97_order_partial`
* `C98_program_partial`
* `C99_lists_partial`
* `C99_two_lists_violated`

## Quot.sound, propext

* `C108_answered`
* `C10_sid_round_trip`
* `C10_too_small_refused`
* `C110_set_violated`
* `C117_byte_order_violated`
* `C117_offset_violated`
* `C117_path_range_violated`
* `C117_room_refused`
* `C118_full_disk_violated`
* `C118_list_contents`
* `C118_record_contents`
* `C118_refused`
* `C118_standard_output_violated`
* `C11_inverse`
* `C11_seedchan_to_xchan`
* `C11_xchan_to_seedchan`
* `C122_bounds_violated`
* `C122_inside_violated`
* `C122_length_violated`
* `C122_link_violated`
* `C124_copy_partial`
* `C124_no_size_violated`
* `C125_free`
* `C125_init`
* `C127_init_new`
* `C12_strncpclean`
* `C12_strncpcleantail`
* `C12_strncpopen`
* `C130_new_partial`
* `C131_returns_partial`
* `C131_room`
* `C131_stream_partial`
* `C133_read_error`
* `C134_add`
* `C134_refused_partial`
* `C139_descriptor`
* `C139_range_kept_violated`
* `C139_record_violated`
* `C139_seek_violated`
* `C139_standard_twice_violated`
* `C139_url_kept_violated`
* `C13_utf8_length`
* `C140_reader_explained`
* `C140_unpack_explained_partial`
* `C141_names`
* `C142_count_partial`
* `C142_many_violated`
* `C144_mixed_flags_violated`
* `C146_shown_partial`
* `C148_buffer_violated`
* `C148_memory_partial`
* `C148_missing_file_violated`
* `C148_streams`
* `C15_escape_matches_anything_violated`
* `C16_matchers_terminate`
* `C16_msi_match_safe`
* `C16_no_out_of_bounds_partial`
* `C24_text`
* `C29_sample_count_violated`
* `C29_version2_blockette_violated`
* `C29_version2_data_offset_violated`
* `C29_version2_link_violated`
* `C29_version2_timing_violated`
* `C29_wrapped_length_violated`
* `C31_defaults`
* `C33_identifier_length_violated`
* `C35_second_blockette_violated`
* `C36_digits_in_bounds`
* `C36_large_offset_violated`
* `C36_long_name_violated`
* `C36_long_path_violated`
* `C44_reversed_span_violated`
* `C49_bounded`
* `C50_empty_message_violated`
* `C50_in_bounds_partial`
* `C50_long_message_violated`
* `C54_lookups_consistent`
* `C56_other_channels_verbatim_partial`
* `C57_field_over_read_violated`
* `C57_field_read_in_bounds_partial`
* `C63_byte_order_violated`
* `C64_data_bounds_partial`
* `C64_size_truncated_violated`
* `C64_version2_length_violated`
* `C66_int16_violated`
* `C71_reserved_time_violated`
* `C72_byte_order_violated`
* `C73_second_blockette_violated`
* `C74_gap_violated`
* `C74_geoscope24_violated`
* `C83_first_samples`
* `C85_defaults`
* `C86_later_record_violated`
* `C87_version_violated`
* `C88_timing_quality_violated`
* `C93_error_violated`
* `C93_extra_refused`
* `C94_start_time_violated`

## none

* `C131_broken_violated`
* `C36_not_ascii_violated`
* `C49_emit_count_violated`
* `C62_int16_truncates_violated`
* `C64_wrong_frames_violated`

## propext

* `C04_accepted_fields_overflow_violated`
* `C05_md_accepts_day_zero_violated`
* `C117_no_encoding_violated`
* `C122_order_violated`
* `C122_undefined_violated`
* `C126_failure_violated`
* `C127_null_violated`
* `C128_leak_violated`
* `C130_leak_violated`
* `C131_hang_violated`
* `C131_small_buffer_violated`
* `C134_leak_violated`
* `C145_known_source_violated`
* `C14_character_order`
* `C16_read_past_pattern_violated`
* `C23_zero_samples_violated`
* `C25_geoscope24_little_endian_violated`
* `C27_big_endian_violated`
* `C27_wrapped_length_violated`
* `C28_exponent_violated`
* `C29_version2_header_violated`
* `C36_flag_off`
* `C36_incomplete_violated`
* `C49_free`
* `C53_count`
* `C53_embedded`
* `C53_no_file`
* `C56_delimited_channel_rewritten_violated`
* `C59_difference_overflow_violated`
* `C60_input_size_ignored_violated`
* `C89_header2_buffer_violated`
