{
 "claims": [
  {
   "property": "C01",
   "status": "proved",
   "theorems": [
    "Verif.Props.C01_nstime2time_gregorian",
    "Verif.Props.C01_gmtime64_month_day"
   ],
   "note": ""
  },
  {
   "property": "C02",
   "status": "proved",
   "theorems": [
    "Verif.Props.C02_fields_round_trip"
   ],
   "note": ""
  },
  {
   "property": "C03",
   "status": "proved",
   "theorems": [
    "Verif.Props.C03_order_preserved"
   ],
   "note": ""
  },
  {
   "property": "C04",
   "status": "partial",
   "theorems": [
    "Verif.Props.C04_accepted_fields_overflow_violated",
    "Verif.Props.C04_no_overflow_partial"
   ],
   "note": "The code accepts all of 2262 although int64 nanoseconds end on 2262-04-11; witness proved, exact characterisation proved."
  },
  {
   "property": "C05",
   "status": "partial",
   "theorems": [
    "Verif.Props.C05_doy_to_md",
    "Verif.Props.C05_md_to_doy",
    "Verif.Props.C05_doy_rejects",
    "Verif.Props.C05_md_accepts_day_zero_violated",
    "Verif.Props.C05_md_rejects_partial"
   ],
   "note": "Fully proved except that day-of-month 0 is accepted by ms_md2doy (witness proved)."
  },
  {
   "property": "C06",
   "status": "proved",
   "theorems": [
    "Verif.Props.TimeStr.C06_read_back",
    "Verif.Props.TimeStr.C06_read_back_exact"
   ],
   "note": "Proved for all times from 1678 on (the range the parser accepts), the four ISO month-day formats and the SEED ordinal format, for any rounding of doubles with the properties in Spec/Rounding."
  },
  {
   "property": "C07",
   "status": "partial",
   "theorems": [
    "Verif.Props.TimeStr.C07_length",
    "Verif.Props.TimeStr.C07_program_buffer_violated",
    "Verif.Props.TimeStr.C07_program_buffer_partial"
   ],
   "note": "The bound of 36 characters is proved for every time and format; the 30-byte buffer of msi is one byte short for its default format (proved for every time)."
  },
  {
   "property": "C08",
   "status": "partial",
   "theorems": [
    "Verif.Props.TimeStr.C08_calendar_text",
    "Verif.Props.TimeStr.C08_timestrz",
    "Verif.Props.TimeStr.C08_unix_epoch_partial",
    "Verif.Props.TimeStr.C08_unix_epoch_violated",
    "Verif.Props.TimeStr.C08_nanosecond_epoch"
   ],
   "note": "Proved for all calendar formats and nanosecond epochs; the epoch format loses the sign within the second before 1970 (proved for all such times)."
  },
  {
   "property": "C09",
   "status": "partial",
   "theorems": [
    "Verif.Props.SampleTime.C09_first",
    "Verif.Props.SampleTime.C09_exact",
    "Verif.Props.SampleTime.C09_accuracy",
    "Verif.Props.SampleTime.C09_monotone",
    "Verif.Props.SampleTime.C09_not_before",
    "Verif.Props.SampleTime.C09_end",
    "Verif.Props.SampleTime.C09_period",
    "Verif.Props.SampleTime.C09_leap_partial",
    "Verif.Props.SampleTime.C09_two_leaps_violated",
    "Verif.Props.SampleTime.C09_1972_violated"
   ],
   "note": "Exact for whole-nanosecond periods over spans up to 2^49 ns, accuracy bound for all others, monotone but inside a leap second, one leap second accounted for; doubles as rationals rounded after every operation. Violated: of two leap seconds in a span only one is accounted for (C09_two_leaps_violated); the built-in list has 1972-01-01, which followed no leap second (C09_1972_violated)."
  },
  {
   "property": "C10",
   "status": "proved",
   "theorems": [
    "Verif.Props.Str.C10_sid_round_trip",
    "Verif.Props.Str.C10_too_small_refused",
    "Verif.Props.Str.C10_extended_round_trip"
   ],
   "note": ""
  },
  {
   "property": "C100",
   "status": "partial",
   "theorems": [
    "Verif.Props.ReadTrace.C100_file_read_partial",
    "Verif.Props.ReadTrace.C100_refused",
    "Verif.Props.ReadTrace.C100_as_buffer"
   ],
   "note": "Files of the kinds of C34 (both versions), bytes between records if skipping is asked for; refused records with and without selections. Missing: other files with version 2 records (C34)."
  },
  {
   "property": "C101",
   "status": "partial",
   "theorems": [
    "Verif.Props.TraceRuns.C101_runs_are_segments_partial",
    "Verif.Props.TraceRuns.C101_each_source_partial",
    "Verif.Props.TraceRuns.C101_large_tolerance_violated"
   ],
   "note": "Records of a source in time order with one period, type and time tolerance below the period: segments are exactly the runs without gaps (start, end, samples, type, rate), with or without healing, alone or among other sources. Missing: different rates within a source, overlapping records. Violated for tolerances above the period: a record within the segment shortens its end (witness)."
  },
  {
   "property": "C102",
   "status": "partial",
   "theorems": [
    "Verif.Props.TraceBack.C102_buffer_partial",
    "Verif.Props.TraceBack.C102_file_partial",
    "Verif.Props.TraceBack.C102_rate"
   ],
   "note": "mstl3_pack then mstl3_readbuffer or ms3_readtracelist give back the list: sources, order, segments with times, counts, types and values, for all lists whose segments are regular (period of whole nanoseconds, at most 2^49 ns per segment, no leap second within, more than 1.5 periods apart, one rate per source); the rate is kept for 1 Hz and above. Missing: version 2 records, periods that are not whole nanoseconds, longer segments."
  },
  {
   "property": "C103",
   "status": "proved",
   "theorems": [
    "Verif.Props.Report.C103_trace_list",
    "Verif.Props.Report.C103_words"
   ],
   "note": "For all histories of ordinary records (times within 146 years of 1970, rates 0 or 10^-400..10^400 per second, identifiers of at most 63 bytes, time tolerance at most the sample period)."
  },
  {
   "property": "C104",
   "status": "partial",
   "theorems": [
    "Verif.Props.Report.C104_sync_list_partial",
    "Verif.Props.Report.C104_long_code_violated",
    "Verif.Props.Report.C104_stale_codes_violated"
   ],
   "note": "Partial: ordinary records whose identifiers are FDSN:NET_STA_LOC_B_S_P with codes of at most 10 characters. Violated: longer codes are written past the end of an array of 11 bytes; a source with another form of identifier is printed with the codes of the source before it."
  },
  {
   "property": "C105",
   "status": "proved",
   "theorems": [
    "Verif.Props.Report.C105_gap_list"
   ],
   "note": "For all histories of ordinary records; rounding with 53 bits."
  },
  {
   "property": "C106",
   "status": "partial",
   "theorems": [
    "Verif.Props.MsiReport.C106_trace_list_of_files",
    "Verif.Props.MsiReport.C106_gap_list_of_files",
    "Verif.Props.MsiReport.C106_sync_list_of_files_partial",
    "Verif.Props.MsiReport.C106_one_line_per_run_partial"
   ],
   "note": "Whole program: files as in C45, records with times within 146 years of 1970. Partial: SYNC lists for identifiers with codes of at most 10 characters (see C104), one line per run for records in time order (as C101). The totals of -s are in C120."
  },
  {
   "property": "C107",
   "status": "proved",
   "theorems": [
    "Verif.Props.JsonText.C107_read",
    "Verif.Props.JsonText.C107_unique",
    "Verif.Props.JsonText.C107_write",
    "Verif.Props.JsonText.C107_rewrite"
   ],
   "note": "The grammar is an inductive relation apart from the reader. The conversion between decimal numerals and doubles is a parameter required to read back what it writes (LawfulReals, with an instance); yyjson's own conversion is not modelled. Integers beyond 64 bits are read as doubles. Texts are shorter than the sizes that overflow size_t."
  },
  {
   "property": "C108",
   "status": "partial",
   "theorems": [
    "Verif.Props.ExtraHeaders.C108_query_partial",
    "Verif.Props.ExtraHeaders.C108_answered",
    "Verif.Props.ExtraHeaders.C108_unreadable",
    "Verif.Props.ExtraHeaders.C108_exists",
    "Verif.Props.ExtraHeaders.C108_wide_violated",
    "Verif.Props.ExtraHeaders.C108_no_buffer_violated"
   ],
   "note": "Violated for integers beyond 32 bits (C108_wide_violated: 4294967297 is returned as 1 through int) and for strings with maxlength 0 (C108_no_buffer_violated: write out of bounds)."
  },
  {
   "property": "C109",
   "status": "partial",
   "theorems": [
    "Verif.Props.ExtraHeaders.C109_session",
    "Verif.Props.ExtraHeaders.C109_unreadable",
    "Verif.Props.ExtraHeaders.C109_found",
    "Verif.Props.ExtraHeaders.C109_found_violated"
   ],
   "note": "Session relates every call of any sequence to the JSON value. Violated: in a record without extra headers a value that was set with a state is not found before serialization (C109_found_violated). Of integers beyond 32 bits and patches with repeated names nothing is said."
  },
  {
   "property": "C11",
   "status": "proved",
   "theorems": [
    "Verif.Props.Str.C11_seedchan_to_xchan",
    "Verif.Props.Str.C11_xchan_to_seedchan",
    "Verif.Props.Str.C11_inverse"
   ],
   "note": ""
  },
  {
   "property": "C110",
   "status": "partial",
   "theorems": [
    "Verif.Props.ExtraHeaders.C110_serialized",
    "Verif.Props.ExtraHeaders.C110_set_partial",
    "Verif.Props.ExtraHeaders.C110_set_violated",
    "Verif.Props.ExtraHeaders.C110_long_violated"
   ],
   "note": "Serialization proved. Violated for changes without a state: a failure to write the new value is ignored and 0 is returned (C110_set_violated: an infinity). C110_long_violated: a string of more than 65535 bytes is not set, with success."
  },
  {
   "property": "C111",
   "status": "partial",
   "theorems": [
    "Verif.Props.ExtraHeaders.C111_added_partial",
    "Verif.Props.ExtraHeaders.C111_infinite_violated",
    "Verif.Props.ExtraHeaders.C111_time"
   ],
   "note": "Entries and times proved for all fields; partial since a failure to write is ignored as in C110 (C111_infinite_violated). vcocorrection is the float converted to double."
  },
  {
   "property": "C112",
   "status": "proved",
   "theorems": [
    "Verif.Props.ExtraHeaders.C112_merge"
   ],
   "note": "Patches whose objects have distinct names. Written as in C110."
  },
  {
   "property": "C113",
   "status": "proved",
   "theorems": [
    "Verif.Props.ExtraHeaders.C113_replace"
   ],
   "note": ""
  },
  {
   "property": "C114",
   "status": "partial",
   "theorems": [
    "Verif.Props.ExtraHeaders.C114_print_partial",
    "Verif.Props.ExtraHeaders.C114_quotation_violated",
    "Verif.Props.ExtraHeaders.C114_deep_violated"
   ],
   "note": "Violated for strings with escaped quotation marks (C114_quotation_violated) and for deep nesting, where lines are longer than a message (C114_deep_violated). Objects without white space around them."
  },
  {
   "property": "C115",
   "status": "partial",
   "theorems": [
    "Verif.Props.Headers2.C115_headers_partial",
    "Verif.Props.Headers2.C115_wave_violated",
    "Verif.Props.Headers2.C115_lost_violated"
   ],
   "note": "Violated for bit 2 of the flags of blockette 200, read as the opposite of the manual (C115_wave_violated), and for records with numbers that are not finite, which silently lose their extra headers (C115_lost_violated); the same happens when the text has more than 65535 bytes. C115_headers_partial is exact otherwise; conversions of floating-point numbers are parameters with stated laws."
  },
  {
   "property": "C116",
   "status": "partial",
   "theorems": [
    "Verif.Props.Blockettes2.C116_header_partial",
    "Verif.Props.Blockettes2.C116_read_back_partial",
    "Verif.Props.Blockettes2.C116_converted_partial",
    "Verif.Props.Blockettes2.C116_bounds_partial",
    "Verif.Props.Blockettes2.C116_abort_violated",
    "Verif.Props.Blockettes2.C116_limit_violated",
    "Verif.Props.Blockettes2.C116_ratios_violated",
    "Verif.Props.Blockettes2.C116_wave_violated",
    "Verif.Props.Blockettes2.C116_exception_violated",
    "Verif.Props.Blockettes2.C116_correction_violated",
    "Verif.Props.Blockettes2.C116_calibration_words",
    "Verif.Props.Blockettes2.C116_event_words"
   ],
   "note": "Exact for what the blockettes and the extra headers both have a place for: the header (C116_header_partial), the records read back (C116_read_back_partial), the conversion of records read (C116_converted_partial), and the buffer (C116_bounds_partial). Violated: the reader's entries for blockette 395 are refused (C116_abort_violated); 255 is dropped from MEDLookback and MEDPickAlgorithm (C116_limit_violated); more than 32 MEDSNR numbers write beyond the blockette (C116_ratios_violated); the direction of the wave is lost or made up (C116_wave_violated); packed timing exceptions overflow arrays of the reader (C116_exception_violated); negative time corrections come back one unit larger (C116_correction_violated). Conversions of floating-point numbers are parameters with stated laws."
  },
  {
   "property": "C117",
   "status": "partial",
   "theorems": [
    "Verif.Props.RecordList.C117_unpacked_partial",
    "Verif.Props.RecordList.C117_pointers_partial",
    "Verif.Props.RecordList.C117_segments_partial",
    "Verif.Props.RecordList.C117_entry_refused",
    "Verif.Props.RecordList.C117_room_refused",
    "Verif.Props.RecordList.C117_byte_order_violated",
    "Verif.Props.RecordList.C117_no_encoding_violated",
    "Verif.Props.RecordList.C117_offset_violated",
    "Verif.Props.RecordList.C117_path_range_violated",
    "Verif.Props.RecordList.C117_first_empty_violated"
   ],
   "note": "Proved for entries that point to version 3 records (little-endian host, identifier without NUL) and version 2 records with a blockette 1000 whose data has the byte order of the header or whose header has the order of the host, in buffers and files, for whole segments of any trace list built with record lists; all refusals. Violated by the unchanged code: header swapped but not the data (C117_byte_order_violated), records without blockette 1000 (C117_no_encoding_violated), data offset at the end of the record (C117_offset_violated, a read behind the buffer), files read by byte ranges (C117_path_range_violated), a first record without samples and another encoding (C117_first_empty_violated). Missing: which entry belongs to which record added is a function given with the history, not computed by the readers' models."
  },
  {
   "property": "C118",
   "status": "partial",
   "theorems": [
    "Verif.Props.WriteFile.C118_list_contents",
    "Verif.Props.WriteFile.C118_record_contents",
    "Verif.Props.WriteFile.C118_refused",
    "Verif.Props.WriteFile.C118_list_back_partial",
    "Verif.Props.WriteFile.C118_series_back_partial",
    "Verif.Props.WriteFile.C118_full_disk_violated",
    "Verif.Props.WriteFile.C118_standard_output_violated",
    "Verif.Props.WriteFull.C118_record_room",
    "Verif.Props.WriteFull.C118_list_room"
   ],
   "note": "Contents of the file, other files, result and refusal are proved for every list and record, both versions. Read back: version 3, conditions of C102 for lists and of C31/C77 for series. Violated: on a full disk the number of records is returned although nothing was written (the error is only logged), and the standard output (name -) is closed after the first call, so that a second one is undefined. Missing: two names of the same file, name - for several calls, version 2 read back."
  },
  {
   "property": "C119",
   "status": "proved",
   "theorems": [
    "Verif.Props.Screen.C119_text",
    "Verif.Props.Screen.C119_line_tells",
    "Verif.Props.Screen.C119_details_tell"
   ],
   "note": "Rates that are infinite or not numbers are not modelled; rounding of doubles is a parameter. Identifiers without a newline for the text with details. Rates of more than ten digits are not told (an example)."
  },
  {
   "property": "C12",
   "status": "proved",
   "theorems": [
    "Verif.Props.Str.C12_strncpclean",
    "Verif.Props.Str.C12_strncpcleantail",
    "Verif.Props.Str.C12_strncpopen"
   ],
   "note": ""
  },
  {
   "property": "C120",
   "status": "proved",
   "theorems": [
    "Verif.Props.Screen.C120_printed",
    "Verif.Props.Screen.C120_without_lists",
    "Verif.Props.Screen.C120_until_error"
   ],
   "note": "Hypotheses as in C45 (Run: valid files), fields as in C119, totals below 2^63. Not modelled: -z and -L. The lists are those of C106. Text samples are shown as in C83 (cut at NUL)."
  },
  {
   "property": "C121",
   "status": "proved",
   "theorems": [
    "Verif.Props.RawParse.C121_told",
    "Verif.Props.RawParse.C121_sound",
    "Verif.Props.RawParse.C121_record"
   ],
   "note": "ms_parse_raw3: for every buffer exactly which messages, how often, the value returned, no read outside; sound headers exactly those without message; records of the format. Texts of the messages and of the printed fields not modelled (reads are)."
  },
  {
   "property": "C122",
   "status": "partial",
   "theorems": [
    "Verif.Props.RawParse.C122_header_partial",
    "Verif.Props.RawParse.C122_told_partial",
    "Verif.Props.RawParse.C122_record_partial",
    "Verif.Props.RawParse.C122_bounds_partial",
    "Verif.Props.RawParse.C122_ends_partial",
    "Verif.Props.RawParse.C122_endless_violated",
    "Verif.Props.RawParse.C122_bounds_violated",
    "Verif.Props.RawParse.C122_link_violated",
    "Verif.Props.RawParse.C122_inside_violated",
    "Verif.Props.RawParse.C122_length_violated",
    "Verif.Props.RawParse.C122_order_violated",
    "Verif.Props.RawParse.C122_undefined_violated"
   ],
   "note": "ms_parse_raw2: fixed-header messages for any bytes, all messages for sound chains, records of the format, reads at most 200 bytes beyond (details up to 1), ends unless a blockette without length links to itself. Violated: endless loop on a record that is read, reads after the record, error not counted, chain in the header ignored, data inside blockette not noticed, records without blockette 1000, explicit swapflag ignored, undefined behaviour of isdigit and shift."
  },
  {
   "property": "C123",
   "status": "proved",
   "theorems": [
    "Verif.Props.RawParse.C123_read",
    "Verif.Props.RawParse.C123_messages",
    "Verif.Props.RawParse.C123_packed",
    "Verif.Props.RawParse.C123_packed2",
    "Verif.Props.RawParse.C123_empty2"
   ],
   "note": "C123_read and C123_messages: every version 3 record that unpack_mseed3 reads (40 <= reclen <= buffer), with the exact messages. C123_packed: every record of a version 3 packing, under the conditions of C31. C123_packed2 and C123_empty2: every record of a version 2 packing, under the conditions of C85 (identifiers of codes that fit, times from 1900 to 2100), exactly which pass; records with more than 20000 samples or 256 blockettes are made and complained about."
  },
  {
   "property": "C124",
   "status": "partial",
   "theorems": [
    "Verif.Props.Alloc.C124_copy_partial",
    "Verif.Props.Alloc.C124_no_size_violated"
   ],
   "note": "Partial: proved for every record whose buffer of samples has a size; without a size (samples provided by the caller, as in the library's own example) the copy silently has no samples (C124_no_size_violated)."
  },
  {
   "property": "C125",
   "status": "proved",
   "theorems": [
    "Verif.Props.Alloc.C125_free",
    "Verif.Props.Alloc.C125_init"
   ],
   "note": "Proved for every memory state with a record whose blocks are allocated and distinct; failure of the allocation included."
  },
  {
   "property": "C126",
   "status": "partial",
   "theorems": [
    "Verif.Props.Alloc.C126_record_partial",
    "Verif.Props.Alloc.C126_list_partial",
    "Verif.Props.Alloc.C126_failure_violated"
   ],
   "note": "Partial: proved when no allocation fails; when one fails the samples are lost and their memory is not given back (C126_failure_violated)."
  },
  {
   "property": "C127",
   "status": "partial",
   "theorems": [
    "Verif.Props.Alloc.C127_free",
    "Verif.Props.Alloc.C127_init",
    "Verif.Props.Alloc.C127_init_new",
    "Verif.Props.Alloc.C127_null_violated"
   ],
   "note": "Partial: proved for every list; a pointer to a NULL list is dereferenced (C127_null_violated)."
  },
  {
   "property": "C128",
   "status": "partial",
   "theorems": [
    "Verif.Props.SelectMem.C128_add_partial",
    "Verif.Props.SelectMem.C128_free",
    "Verif.Props.SelectMem.C128_life",
    "Verif.Props.SelectMem.C128_leak_violated"
   ],
   "note": "Partial: proved for all lists and all sequences of calls; after a failure of the second allocation of a call the memory of the time window is lost (C128_leak_violated)."
  },
  {
   "property": "C129",
   "status": "proved",
   "theorems": [
    "Verif.Props.SelectMem.C129_print"
   ],
   "note": "Proved for all entries whose members are in the ranges of their types."
  },
  {
   "property": "C13",
   "status": "proved",
   "theorems": [
    "Verif.Props.Str.C13_utf8_length"
   ],
   "note": ""
  },
  {
   "property": "C130",
   "status": "partial",
   "theorems": [
    "Verif.Props.SegMem.C130_append",
    "Verif.Props.SegMem.C130_merge",
    "Verif.Props.SegMem.C130_new_partial",
    "Verif.Props.SegMem.C130_leak_violated"
   ],
   "note": "addmsrtoseg (both ends) and addsegtoseg (samples and times) are proved for every segment whose buffer is as large as it says, every block size and every pattern of allocation failures. Partial because of the new segment: C130_leak_violated shows that the segment made for a record is lost when there is no memory for its samples."
  },
  {
   "property": "C131",
   "status": "partial",
   "theorems": [
    "Verif.Props.Url.C131_stream_partial",
    "Verif.Props.Url.C131_room",
    "Verif.Props.Url.C131_progress_partial",
    "Verif.Props.Url.C131_returns_partial",
    "Verif.Props.Url.C131_broken_violated",
    "Verif.Props.Url.C131_hang_violated",
    "Verif.Props.Url.C131_small_buffer_violated"
   ],
   "note": "Order, completeness and room are proved for all pieces and reads; progress and termination if libcurl hands over at most one piece in the call that ends a pause and pieces fit into the buffer. C131_broken_violated: a transfer that is broken off is taken for the end. C131_hang_violated: a second pause during curl_easy_pause is forgotten and the read never returns. C131_small_buffer_violated: a buffer smaller than the next piece gives 0 bytes before the end."
  },
  {
   "property": "C132",
   "status": "partial",
   "theorems": [
    "Verif.Props.Url.C132_header",
    "Verif.Props.Url.C132_other_header",
    "Verif.Props.Url.C132_open_partial",
    "Verif.Props.Url.C132_status",
    "Verif.Props.Url.C132_ignored_violated",
    "Verif.Props.Url.C132_no_connection_violated",
    "Verif.Props.Url.C132_behind_header_violated"
   ],
   "note": "Proved for all servers that honour range requests. C132_ignored_violated: a server that answers with the whole object has its first byte taken for the start of the range. C132_no_connection_violated: an unreachable server is an empty object. C132_behind_header_violated: the header callback reads behind a line that ends in a digit."
  },
  {
   "property": "C133",
   "status": "partial",
   "theorems": [
    "Verif.Props.UrlReader.C133_small_as_file",
    "Verif.Props.UrlReader.C133_version3_partial",
    "Verif.Props.UrlReader.C133_range_partial",
    "Verif.Props.UrlReader.C133_read_error"
   ],
   "note": "C133_small_as_file holds for any bytes below 10 MiB. For longer objects version 3 records of up to 10 MiB less 16384 bytes are proved (C133_version3_partial, C133_range_partial); a longer record may leave less room in the buffer than the next piece needs, which C131_small_buffer_violated shows to be an error. Transfers that are broken off or hang are C131_broken_violated and C131_hang_violated; version 2 records in longer objects have the problem of C34_boundary_violated. A read error is reported as one and not as the end (C133_read_error)."
  },
  {
   "property": "C134",
   "status": "partial",
   "theorems": [
    "Verif.Props.RecMem.C134_add",
    "Verif.Props.RecMem.C134_refused_partial",
    "Verif.Props.RecMem.C134_leak_violated",
    "Verif.Props.RecMem.C134_heal"
   ],
   "note": "Adding and joining are proved for every list and every pattern of allocation failures. Partial because of the first record of a segment: C134_leak_violated shows that the copy of the record is lost when there is no memory for the list itself."
  },
  {
   "property": "C135",
   "status": "partial",
   "theorems": [
    "Verif.Props.SelectRead.C135_test_partial",
    "Verif.Props.SelectRead.C135_records_partial",
    "Verif.Props.SelectRead.C135_list_partial",
    "Verif.Props.SelectRead.C135_buffer_partial",
    "Verif.Props.SelectRead.C135_window_partial",
    "Verif.Props.SelectRead.C135_none_selected_violated"
   ],
   "note": "Composed from C34, C75, C100 and C44: the files and patterns are those of these claims (no escapes in patterns, windows not reversed, see C44_reversed_span_violated). C135_none_selected_violated shows that a file of valid records none of which is in the window is reported not to be a file of records."
  },
  {
   "property": "C136",
   "status": "partial",
   "theorems": [
    "Verif.Props.Latency.C136_rate_partial",
    "Verif.Props.Latency.C136_one_sample",
    "Verif.Props.Latency.C136_period_violated",
    "Verif.Props.Latency.C136_leap_violated"
   ],
   "note": "Proved for rates in samples per second to a tenth of a millisecond. C136_period_violated: if the rate is given as a period the latency is that of the first sample. C136_leap_violated: a leap second within the record is not taken into account."
  },
  {
   "property": "C137",
   "status": "partial",
   "theorems": [
    "Verif.Props.UrlSettings.C137_settings_partial",
    "Verif.Props.UrlSettings.C137_accepted",
    "Verif.Props.UrlSettings.C137_agent_cut_violated",
    "Verif.Props.UrlSettings.C137_agent_twice_violated"
   ],
   "note": "libcurl is the environment; an option that it cannot set is assumed to stay as it was. C137_agent_cut_violated: a name of 1011 bytes or more is cut, and the versions are lost. C137_agent_twice_violated: naming the program a second time adds a second header instead of replacing the first."
  },
  {
   "property": "C138",
   "status": "partial",
   "theorems": [
    "Verif.Props.ExtraMem.C138_safe",
    "Verif.Props.ExtraMem.C138_no_leak_partial",
    "Verif.Props.ExtraMem.C138_unreadable_violated",
    "Verif.Props.ExtraMem.C138_replace_violated"
   ],
   "note": "Safety (C138_safe) holds for all sequences; the part about memory left over holds if no record's text is unreadable and nothing is replaced by a text. C138_replace_violated: each replacement by a text that can be read loses the parsed document. C138_unreadable_violated: a call on extra headers that cannot be read loses the parsed state. yyjson is the environment: documents are blocks that it allocates and frees."
  },
  {
   "property": "C139",
   "status": "partial",
   "theorems": [
    "Verif.Props.ReaderFd.C139_descriptor",
    "Verif.Props.ReaderLife.C139_no_leak_partial",
    "Verif.Props.ReaderLife.C139_record_partial",
    "Verif.Props.ReaderLife.C139_record_violated",
    "Verif.Props.ReaderLife.C139_first_range",
    "Verif.Props.ReaderLife.C139_standard_twice_violated",
    "Verif.Props.ReaderLife.C139_range_kept_violated",
    "Verif.Props.ReaderLife.C139_seek_violated",
    "Verif.Props.ReaderLife.C139_url_kept_violated"
   ],
   "note": "Files, URLs, the standard input and descriptors. Proved for the standard input in one session at most. C139_standard_twice_violated: closing also closes the standard input, so that reading `-` again (msi - -) uses a closed stream. C139_range_kept_violated: the range of a path that could not be opened is used for the next file. C139_seek_violated: after a failed positioning the next call reads from the beginning. C139_record_violated: without memory for the buffer the record variable is not set to NULL. C139_url_kept_violated: after a URL that the server refused the next path is not opened."
  },
  {
   "property": "C14",
   "status": "proved",
   "theorems": [
    "Verif.Props.Glob.C14_my_globmatch_is_glob",
    "Verif.Props.Glob.C14_msi_match_contains",
    "Verif.Props.Glob.C14_character_order",
    "Verif.Props.Glob.C14_same_on_all_hosts"
   ],
   "note": ""
  },
  {
   "property": "C140",
   "status": "partial",
   "theorems": [
    "Verif.Props.Codes.C140_texts",
    "Verif.Props.Codes.C140_reader_explained",
    "Verif.Props.Codes.C140_parser_explained",
    "Verif.Props.Codes.C140_unpack_explained_partial",
    "Verif.Props.Codes.C140_unknown_violated"
   ],
   "note": "C140_unknown_violated: a record with an unknown encoding or with undefined Steim flags gives the code of a general error (-1); the codes -5, -6 and -3 are never returned for a record, although decoding the same data outside of a record gives -5. That each outcome of the models of reading and parsing is one of these codes holds by their types."
  },
  {
   "property": "C141",
   "status": "proved",
   "theorems": [
    "Verif.Props.Codes.C141_names"
   ],
   "note": "Opaque data (2000) hold their own length, which may be 0."
  },
  {
   "property": "C142",
   "status": "partial",
   "theorems": [
    "Verif.Props.HeaderCount.C142_count_partial",
    "Verif.Props.HeaderCount.C142_many_violated",
    "Verif.Props.HeaderCount.C142_entries"
   ],
   "note": "C142_many_violated: the number is kept in a byte; with 255 or more entries it wraps, and the record is packed all the same. C142_entries counts the entries for exceptions and detections from below; calibrations come to one or two each and are only in the count of the steps."
  },
  {
   "property": "C143",
   "status": "partial",
   "theorems": [
    "Verif.Props.DataOffset.C143_offset_partial",
    "Verif.Props.DataOffset.C143_long_header_violated"
   ],
   "note": "Headers of up to 65472 bytes. C143_long_header_violated: from 65536 bytes on the offset wraps, in every record that is packed with such a header."
  },
  {
   "property": "C144",
   "status": "partial",
   "theorems": [
    "Verif.Props.TraceSplit.C144_one_version_partial",
    "Verif.Props.TraceSplit.C144_mixed_flags_violated"
   ],
   "note": "Holds if all records of a source have one version (C144_one_version_partial). C144_mixed_flags_violated: an addition without splitting raises the version of an entry without moving it; later searches miss the entry of their version and the list gets a second entry of the same source and version."
  },
  {
   "property": "C145",
   "status": "partial",
   "theorems": [
    "Verif.Props.TraceAdd.C145_new_source_partial",
    "Verif.Props.TraceAdd.C145_known_source_violated"
   ],
   "note": "Holds for entries whose identifier is not in the list. C145_known_source_violated: otherwise the search ends early and leaves previous pointers unset; the entry is linked at the upper levels before the missing pointer is noticed, and NULL is returned with the entry in the list."
  },
  {
   "property": "C146",
   "status": "partial",
   "theorems": [
    "Verif.Props.RawShown.C146_shown_partial",
    "Verif.Props.RawShown.C146_nothing_else"
   ],
   "note": "About the bytes read for display; the printed text of the fields is not modelled."
  },
  {
   "property": "C147",
   "status": "partial",
   "theorems": [
    "Verif.Props.SelectStream.C147_closed_partial",
    "Verif.Props.SelectStream.C147_refused_line_violated",
    "Verif.Props.SelectStream.C147_sequence_partial"
   ],
   "note": "Holds for calls that do not fail on a line. C147_refused_line_violated: each call that returns -1 for a line of a file leaves the file open, n calls leave n open."
  },
  {
   "property": "C148",
   "status": "partial",
   "theorems": [
    "Verif.Props.UnpackMem.C148_streams",
    "Verif.Props.UnpackMem.C148_memory_partial",
    "Verif.Props.UnpackMem.C148_missing_file_violated",
    "Verif.Props.UnpackMem.C148_buffer_violated"
   ],
   "note": "Streams: always. Memory: for calls that succeed or fail for other reasons than a file that cannot be opened (C148_missing_file_violated: a block is lost with every call) or memory for a longer record (C148_buffer_violated); at most one block is lost."
  },
  {
   "property": "C15",
   "status": "partial",
   "theorems": [
    "Verif.Props.Glob.C15_escape_matches_anything_violated",
    "Verif.Props.Glob.C15_ms_globmatch_is_glob_partial"
   ],
   "note": "\\char matches any character in ms_globmatch (witness proved); without escapes equivalence proved."
  },
  {
   "property": "C16",
   "status": "partial",
   "theorems": [
    "Verif.Props.Glob.C16_matchers_terminate",
    "Verif.Props.Glob.C16_read_past_pattern_violated",
    "Verif.Props.Glob.C16_no_out_of_bounds_partial",
    "Verif.Props.Glob.C16_msi_match_safe"
   ],
   "note": "Termination proved; a pattern ending in [^ reads past its terminator (proved), every other pattern is safe; msi's own patterns are safe."
  },
  {
   "property": "C17",
   "status": "partial",
   "theorems": [
    "Verif.Props.Crc.C17_short_unaligned_buffer_violated",
    "Verif.Props.Crc.C17_is_crc32c_partial"
   ],
   "note": "1 and 2 byte buffers before a 4-byte boundary are over-read and an empty continuation returns 0 (witnesses proved); every other buffer proved, including all 2048 table entries."
  },
  {
   "property": "C18",
   "status": "proved",
   "theorems": [
    "Verif.Props.Crc.C18_piecewise"
   ],
   "note": ""
  },
  {
   "property": "C19",
   "status": "proved",
   "theorems": [
    "Verif.Props.Crc.C19_detects_bursts"
   ],
   "note": ""
  },
  {
   "property": "C20",
   "status": "proved",
   "theorems": [
    "Verif.Props.Steim.C20_steim1_lossless"
   ],
   "note": ""
  },
  {
   "property": "C21",
   "status": "proved",
   "theorems": [
    "Verif.Props.Steim.C21_steim2_lossless",
    "Verif.Props.Steim.C21_wide_difference_refused"
   ],
   "note": ""
  },
  {
   "property": "C22",
   "status": "proved",
   "theorems": [
    "Verif.Props.Steim.C22_steim1_progress",
    "Verif.Props.Steim.C22_steim2_progress"
   ],
   "note": ""
  },
  {
   "property": "C23",
   "status": "partial",
   "theorems": [
    "Verif.Props.Steim.C23_zero_samples_violated",
    "Verif.Props.Steim.C23_memory_safe_partial"
   ],
   "note": "With a request for 0 samples both decoders read the element before the output buffer (witness proved); any request of 1 or more samples is proved safe for arbitrary bytes."
  },
  {
   "property": "C24",
   "status": "proved",
   "theorems": [
    "Verif.Props.Samples.C24_text",
    "Verif.Props.Samples.C24_int16",
    "Verif.Props.Samples.C24_int32",
    "Verif.Props.Samples.C24_float32",
    "Verif.Props.Samples.C24_float64"
   ],
   "note": ""
  },
  {
   "property": "C25",
   "status": "partial",
   "theorems": [
    "Verif.Props.Samples.C25_cdsn",
    "Verif.Props.Samples.C25_sro",
    "Verif.Props.Samples.C25_dwwssn",
    "Verif.Props.Samples.C25_geoscope16",
    "Verif.Props.Samples.C25_geoscope24_little_endian_violated",
    "Verif.Props.Samples.C25_geoscope24_partial"
   ],
   "note": "Little-endian GEOSCOPE 24-bit data is decoded 256 times too large (witness proved); all other formats and byte orders proved for every code word."
  },
  {
   "property": "C26",
   "status": "proved",
   "theorems": [
    "Verif.Props.Record3.C26_header_round_trip",
    "Verif.Props.Record3.C26_header_parses"
   ],
   "note": "Hosts of both byte orders; also through msr3_parse."
  },
  {
   "property": "C27",
   "status": "partial",
   "theorems": [
    "Verif.Props.Record3.C27_exact_length_partial",
    "Verif.Props.Record3.C27_big_endian_violated",
    "Verif.Props.Record3.C27_wrapped_length_violated",
    "Verif.Props.Record3.C27_not_a_record"
   ],
   "note": "Wrong on big-endian hosts and when the announced lengths reach 2^32 (witnesses proved); exact otherwise."
  },
  {
   "property": "C28",
   "status": "partial",
   "theorems": [
    "Verif.Props.Detect.C28_terminates",
    "Verif.Props.Detect.C28_length_from_blockette1000",
    "Verif.Props.Detect.C28_backward_link",
    "Verif.Props.Detect.C28_length_from_next_header",
    "Verif.Props.Detect.C28_exponent_violated"
   ],
   "note": "Termination, blockette 1000, backward links and the search for the next header proved for every buffer; exponents from 63 on give an undefined shift or a negative length (witness proved)."
  },
  {
   "property": "C29",
   "status": "partial",
   "theorems": [
    "Verif.Props.DataBounds.C29_version2_data_partial",
    "Verif.Props.DataBounds.C29_version2_data_offset_violated",
    "Verif.Props.Detect.C29_detect2_in_bounds_partial",
    "Verif.Props.Record2.C29_version2_blockette_violated",
    "Verif.Props.Record2.C29_version2_link_violated",
    "Verif.Props.Record2.C29_version2_timing_violated",
    "Verif.Props.Record2.C29_unpack2_in_bounds_partial",
    "Verif.Props.Record3.C29_version2_header_violated",
    "Verif.Props.Record3.C29_wrapped_length_violated",
    "Verif.Props.Record3.C29_sample_count_violated",
    "Verif.Props.Record3.C29_parse_in_bounds_partial"
   ],
   "note": "Seven ways of reading outside the buffer and one of writing outside an array (blockette 500 filled with spaces) proved as witnesses, the last for every version 2 record with Steim data and a data offset behind its end by a multiple of 64 (C29_version2_data_offset_violated); otherwise safe: version 3 parsing with consistent counts, version 2 detection, version 2 headers and blockettes followed by 193 bytes, locating version 2 data whose offset is in the record."
  },
  {
   "property": "C30",
   "status": "proved",
   "theorems": [
    "Verif.Props.Record3.C30_crc_decides",
    "Verif.Props.Record3.C30_bytes_unchanged"
   ],
   "note": "Little-endian host for the accept/reject decision; unchanged bytes for every host and buffer."
  },
  {
   "property": "C31",
   "status": "partial",
   "theorems": [
    "Verif.Props.Pack.C31_packed_prefix_partial",
    "Verif.Props.Pack.C31_pack_keeps_samples_partial",
    "Verif.Props.Pack.C31_no_samples",
    "Verif.Props.Pack.C31_endless_violated",
    "Verif.Props.Pack.C31_defaults"
   ],
   "note": "Version 3. Fewer than 2^32 samples; endless loop for multiples of 2^32 proved. Samples read back by the parser on any host."
  },
  {
   "property": "C32",
   "status": "proved",
   "theorems": [
    "Verif.Props.Pack.C32_record_times",
    "Verif.Props.SampleTime.C32_exact_times"
   ],
   "note": "Version 3 packer (version 2: C86); sample times any function with values from 1678 on. C32_exact_times composes it with ms_sampletime."
  },
  {
   "property": "C33",
   "status": "partial",
   "theorems": [
    "Verif.Props.Record3.C33_identifier_length_violated",
    "Verif.Props.Record3.C33_repack_in_bounds_partial"
   ],
   "note": "The size check forgets the identifier (witness proved); safe for buffers holding the whole record."
  },
  {
   "property": "C34",
   "status": "partial",
   "theorems": [
    "Verif.Props.Reader.C34_terminates",
    "Verif.Props.Reader.C34_version3_records",
    "Verif.Props.Reader.C34_version2_records_partial",
    "Verif.Props.Reader.C34_mixed_records_partial",
    "Verif.Props.Reader.C34_truncated",
    "Verif.Props.Reader.C34_boundary_violated"
   ],
   "note": "Version 3 files of any size; files of records of both versions with lengths multiple of 64 and blockette 1000 first; mixed files below the 10 MiB of the read buffer. Violated: 40 to 47 bytes of a version 2 record at the end of the full read buffer are read beyond (C34_boundary_violated). fread is assumed to return what is asked for or all that is left."
  },
  {
   "property": "C35",
   "status": "partial",
   "theorems": [
    "Verif.Props.Reader.C35_offsets_partial",
    "Verif.Props.Reader.C35_second_blockette_violated"
   ],
   "note": "Any file in which no version 2 header begins; for valid records of both versions the offsets are part of C34. Violated when a version 2 record has a second blockette 1000 with another length."
  },
  {
   "property": "C36",
   "status": "partial",
   "theorems": [
    "Verif.Props.PathRange.C36_range_partial",
    "Verif.Props.PathRange.C36_no_range_partial",
    "Verif.Props.PathRange.C36_flag_off",
    "Verif.Props.PathRange.C36_digits_in_bounds",
    "Verif.Props.PathRange.C36_incomplete_violated",
    "Verif.Props.PathRange.C36_large_offset_violated",
    "Verif.Props.PathRange.C36_long_path_violated",
    "Verif.Props.PathRange.C36_long_name_violated",
    "Verif.Props.PathRange.C36_not_ascii_violated"
   ],
   "note": "Names up to 511 bytes and numbers below 2^63. Violated: incomplete ranges (@, @-, @5-) are removed from the path, numbers from 2^63 on become negative, a range after 512 bytes writes outside the path array, longer names are cut, non-ASCII bytes after the @ are passed to isdigit as negative values."
  },
  {
   "property": "C37",
   "status": "proved",
   "theorems": [
    "Verif.Props.Trace.C37_samples_conserved",
    "Verif.Props.Trace.C37_one_type_all_kept",
    "Verif.Props.TraceList.C37_each_source_keeps_samples"
   ],
   "note": "Rates abstract (any similarity test). Per source and for whole lists, where records of one source share a sample type and then none is refused. Records answered with NULL may still have been added in part of the failing merges."
  },
  {
   "property": "C38",
   "status": "partial",
   "theorems": [
    "Verif.Props.Trace.C38_additions_safe",
    "Verif.Props.Trace.C38_linked_in_order_partial",
    "Verif.Props.Trace.C38_order_violated"
   ],
   "note": "Links proved for every history; order proved if no addition failed, and proved to fail after a failed merge."
  },
  {
   "property": "C39",
   "status": "proved",
   "theorems": [
    "Verif.Props.TraceList.C39_additions_safe",
    "Verif.Props.TraceList.C39_listed_once_in_order",
    "Verif.Props.TraceList.C39_found_iff_added"
   ],
   "note": "All histories, any seed. The splitting flag is the same for all additions."
  },
  {
   "property": "C40",
   "status": "proved",
   "theorems": [
    "Verif.Props.Trace.C40_extremes"
   ],
   "note": "Extremes over the records accepted."
  },
  {
   "property": "C41",
   "status": "proved",
   "theorems": [
    "Verif.Props.Trace.C41_joined_only_within_tolerance",
    "Verif.Props.Trace.C41_apart_only_beyond_tolerance",
    "Verif.Props.Trace.C41_contiguous_joined"
   ],
   "note": "Rate similarity abstract here; the test itself is C42."
  },
  {
   "property": "C42",
   "status": "partial",
   "theorems": [
    "Verif.Props.Rate.C42_tolerance_inverted_violated",
    "Verif.Props.Rate.C42_default_tolerance_partial",
    "Verif.Props.ReadTrace.C42_list_violated"
   ],
   "note": "double arithmetic as rationals with any rounding of relative error 2^-53 (Spec/Rounding). The test with a positive tolerance is inverted; the default tolerance is as documented. C42_list_violated shows it for the records of a list."
  },
  {
   "property": "C43",
   "status": "partial",
   "theorems": [
    "Verif.Props.Gaps.C43_lines_are_gaps_partial",
    "Verif.Props.Gaps.C43_overflow_violated",
    "Verif.Props.Gaps.C43_gap_value",
    "Verif.Props.Gaps.C43_sample_count"
   ],
   "note": "Lines as values (times, gap, samples); the text is C105. double arithmetic as rationals with any rounding of relative error 2^-53. Partial: records with times within 146 years of 1970. Violated otherwise: the difference of times of records 300 years apart overflows (witness 1824 and 2125)."
  },
  {
   "property": "C44",
   "status": "partial",
   "theorems": [
    "Verif.Props.Select.C44_selected_iff_requested_partial",
    "Verif.Props.Select.C44_returned_entry",
    "Verif.Props.Select.C44_adding_never_deselects",
    "Verif.Props.Select.C44_long_pattern_violated",
    "Verif.Props.Select.C44_reversed_span_violated"
   ],
   "note": "Patterns of 100 bytes or more are cut; a reversed time span still selects records containing both ends; escapes as in C15."
  },
  {
   "property": "C45",
   "status": "partial",
   "theorems": [
    "Verif.Props.Msi.C45_output_file_partial",
    "Verif.Props.Msi.C45_all",
    "Verif.Props.Msi.C45_until_error"
   ],
   "note": "Any number of files, all options modelled, with CRC validation; without filters the output is the input. After an error the output has the kept records before it. Window not reversed, names with documented byte ranges (C36, C78) or none, files as in C34."
  },
  {
   "property": "C46",
   "status": "proved",
   "theorems": [
    "Verif.Props.Msi.C46_limit",
    "Verif.Props.Msi.C46_stops"
   ],
   "note": "Also N = 0; once N is reached the files that follow are not opened and need not exist."
  },
  {
   "property": "C47",
   "status": "proved",
   "theorems": [
    "Verif.Props.Msi.C47_totals"
   ],
   "note": "msi has no total of bytes; the number of files counts all files given, also those not opened after the limit of -n is reached."
  },
  {
   "property": "C48",
   "status": "partial",
   "theorems": [
    "Verif.Props.Msi.C48_window_partial",
    "Verif.Props.Msi.C48_reversed_window_violated"
   ],
   "note": "For windows that are not reversed, over msr3_endtime as modelled for C09. Violated for a start after the end: records spanning both times are kept (C48_reversed_window_violated)."
  },
  {
   "property": "C49",
   "status": "partial",
   "theorems": [
    "Verif.Props.Log.C49_history_partial",
    "Verif.Props.Log.C49_bounded",
    "Verif.Props.Log.C49_emit_count_violated",
    "Verif.Props.Log.C49_free"
   ],
   "note": "Every history of messages, emissions, removals and limit changes proved equal to a bounded queue, for messages that fit the buffer; the value returned by an emission is always 0 instead of the number emitted (proved)."
  },
  {
   "property": "C50",
   "status": "partial",
   "theorems": [
    "Verif.Props.Log.C50_in_bounds_partial",
    "Verif.Props.Log.C50_long_message_violated",
    "Verif.Props.Log.C50_empty_message_violated",
    "Verif.Props.Log.C50_writes"
   ],
   "note": "Registering any message longer than 200 characters, or an empty one without prefix, reads outside the buffer (proved for all such messages); all others proved safe with their exact text."
  },
  {
   "property": "C51",
   "status": "partial",
   "theorems": [
    "Verif.Props.Factor.C51_rule",
    "Verif.Props.Factor.C51_integer_rate",
    "Verif.Props.Factor.C51_integer_period",
    "Verif.Props.Factor.C51_large_rate",
    "Verif.Props.Factor.C51_ratio_partial",
    "Verif.Props.Factor.C51_ratio_violated",
    "Verif.Props.Factor.C51_overflow_violated",
    "Verif.Props.Factor.C51_range_violated",
    "Verif.Props.Factor.C51_fits"
   ],
   "note": "Rule, whole rates, whole periods and whole rates up to 32764 squared under any rounding; the inverse square root is a parameter (its whole part correct, or one too small at squares). Ratios of numbers below 32767 in exact arithmetic only. Violated: a 16-bit ratio written as another one (C51_ratio_violated), int overflow (C51_overflow_violated), conversion out of range (C51_range_violated)."
  },
  {
   "property": "C52",
   "status": "partial",
   "theorems": [
    "Verif.Props.Convert.C52_to_double",
    "Verif.Props.Convert.C52_int_to_float_partial",
    "Verif.Props.Convert.C52_double_to_float_partial",
    "Verif.Props.Convert.C52_to_int_partial",
    "Verif.Props.Convert.C52_truncate_partial",
    "Verif.Props.Convert.C52_round_trip_partial",
    "Verif.Props.Convert.C52_text",
    "Verif.Props.Convert.C52_negative_violated",
    "Verif.Props.Convert.C52_loss_violated",
    "Verif.Props.Convert.C52_refused_violated",
    "Verif.Props.Convert.C52_float_violated",
    "Verif.Props.Convert.C52_range_violated"
   ],
   "note": "IEEE formats of float and double, rounding half to even. Exact to double, exact to float for values that fit, exact to integers for samples that are not negative (differences of up to 1.1e-6 pass as exact), integers survive double and back. Violated: every negative whole number becomes the next larger one (C52_negative_violated), fractions of negative samples are lost (C52_loss_violated), a refused conversion leaves samples changed (C52_refused_violated), to float rounds without notice (C52_float_violated), samples out of range have undefined results (C52_range_violated)."
  },
  {
   "property": "C53",
   "status": "partial",
   "theorems": [
    "Verif.Props.SampleTime.C53_embedded",
    "Verif.Props.SampleTime.C53_file_partial",
    "Verif.Props.SampleTime.C53_long_line_violated",
    "Verif.Props.SampleTime.C53_no_file",
    "Verif.Props.SampleTime.C53_count"
   ],
   "note": "All files of lines shorter than 198 characters, with entries, comments, dates of expiry, empty and unknown lines; numbers in range. Violated: a longer comment is taken for two lines and can add an entry (C53_long_line_violated)."
  },
  {
   "property": "C54",
   "status": "proved",
   "theorems": [
    "Verif.Props.Samples.C54_lookups_consistent"
   ],
   "note": ""
  },
  {
   "property": "C55",
   "status": "proved",
   "theorems": [
    "Verif.Props.C55_error_value"
   ],
   "note": ""
  },
  {
   "property": "C56",
   "status": "partial",
   "theorems": [
    "Verif.Props.Str.C56_delimited_channel_rewritten_violated",
    "Verif.Props.Str.C56_other_channels_verbatim_partial"
   ],
   "note": "3-character channels with delimiters (e.g. _T_) are rewritten; witness proved."
  },
  {
   "property": "C57",
   "status": "partial",
   "theorems": [
    "Verif.Props.Str.C57_field_over_read_violated",
    "Verif.Props.Str.C57_field_read_in_bounds_partial"
   ],
   "note": "One-byte over-read proved for every NUL-free field that fills its buffer."
  },
  {
   "property": "C58",
   "status": "proved",
   "theorems": [
    "Verif.Props.Steim.C58_decoders_implement_format"
   ],
   "note": ""
  },
  {
   "property": "C59",
   "status": "partial",
   "theorems": [
    "Verif.Props.Steim.C59_difference_overflow_violated",
    "Verif.Props.Steim.C59_no_overflow_partial"
   ],
   "note": "Neighbouring samples more than 2^31-1 apart overflow (witness proved); everything else proved."
  },
  {
   "property": "C60",
   "status": "partial",
   "theorems": [
    "Verif.Props.Samples.C60_input_size_ignored_violated",
    "Verif.Props.Samples.C60_decode_in_bounds_partial"
   ],
   "note": "The input size is ignored for all fixed-size encodings (witness proved); safe when the input holds the samples, and always for Steim."
  },
  {
   "property": "C61",
   "status": "proved",
   "theorems": [
    "Verif.Props.Samples.C61_pack_decode"
   ],
   "note": ""
  },
  {
   "property": "C62",
   "status": "partial",
   "theorems": [
    "Verif.Props.Samples.C62_int16_truncates_violated",
    "Verif.Props.Samples.C62_int16_range_partial"
   ],
   "note": "Values outside 16 bits are truncated silently (witness proved)."
  },
  {
   "property": "C63",
   "status": "partial",
   "theorems": [
    "Verif.Props.Record3.C63_repack_partial",
    "Verif.Props.Record3.C63_byte_order_violated"
   ],
   "note": "Byte order of version 2 payloads is not converted (witness proved); all else proved."
  },
  {
   "property": "C64",
   "status": "partial",
   "theorems": [
    "Verif.Props.DataBounds.C64_version2_length_violated",
    "Verif.Props.Record3.C64_data_bounds_partial",
    "Verif.Props.Record3.C64_size_truncated_violated",
    "Verif.Props.Record3.C64_wrong_frames_violated"
   ],
   "note": "Size cut to 16 bits, wrong frames tested for zeros and lengths that wrap for version 2 data offsets behind the record (witnesses proved); offset always exact, size exact otherwise."
  },
  {
   "property": "C65",
   "status": "proved",
   "theorems": [
    "Verif.Props.Pack.C65_metadata_kept"
   ],
   "note": ""
  },
  {
   "property": "C66",
   "status": "partial",
   "theorems": [
    "Verif.Props.Pack.C66_only_filled_partial",
    "Verif.Props.Pack.C66_int16_violated"
   ],
   "note": "All encodings but 16-bit integers, for which the claim fails (witness proved)."
  },
  {
   "property": "C67",
   "status": "proved",
   "theorems": [
    "Verif.Props.Trace.C67_segments_are_chains"
   ],
   "note": ""
  },
  {
   "property": "C68",
   "status": "proved",
   "theorems": [
    "Verif.Props.Trace.C68_arrival_order_irrelevant"
   ],
   "note": ""
  },
  {
   "property": "C69",
   "status": "partial",
   "theorems": [
    "Verif.Props.TraceList.C69_sources_independent_partial",
    "Verif.Props.TraceList.C69_zero_version_violated"
   ],
   "note": "With versions split, records of version 0 are mixed into other versions (witness proved); proved for all other cases."
  },
  {
   "property": "C70",
   "status": "partial",
   "theorems": [
    "Verif.Props.Select.C70_codes_matched_one_by_one_partial",
    "Verif.Props.Select.C70_wildcard_crosses_codes_violated",
    "Verif.Props.Select.C70_set_in_channel_violated",
    "Verif.Props.Select.C70_long_station_violated"
   ],
   "note": "Exact for three-character channels; violated without a channel, where a wildcard runs over the delimiter (C70_wildcard_crosses_codes_violated), for a set in a channel, which is split letter by letter and selects nothing (C70_set_in_channel_violated), and for a component of more than 19 bytes, which is cut (C70_long_station_violated)."
  },
  {
   "property": "C71",
   "status": "partial",
   "theorems": [
    "Verif.Props.Record2.C71_version2_fields",
    "Verif.Props.Record2.C71_version2_unpack",
    "Verif.Props.Record2.C71_reserved_time_violated"
   ],
   "note": "Fully proved for well-formed records with blockettes 100, 200, 201, 300, 310, 320, 390, 395, 400, 500, 1000, 1001, 2000 in any order whose byte order is told by the date; the start 1902-01-01T00:00:00 is taken for an error (violated)."
  },
  {
   "property": "C72",
   "status": "partial",
   "theorems": [
    "Verif.Props.Record2.C72_ambiguous_dates",
    "Verif.Props.Record2.C72_host_independent_partial",
    "Verif.Props.Record2.C72_byte_order_violated"
   ],
   "note": "Exactly three dates (2056, days 1, 256, 257) are misread; the same on both hosts otherwise."
  },
  {
   "property": "C73",
   "status": "partial",
   "theorems": [
    "Verif.Props.Record2.C73_second_blockette_violated",
    "Verif.Props.Record2.C73_reclen_partial"
   ],
   "note": "Violated by a second blockette 1000; the exact length for valid records."
  },
  {
   "property": "C74",
   "status": "partial",
   "theorems": [
    "Verif.Props.Stored.C74_record_samples_partial",
    "Verif.Props.Stored.C74_file_samples_partial",
    "Verif.Props.Stored.C74_gap_violated",
    "Verif.Props.Stored.C74_geoscope24_violated"
   ],
   "note": "Proved for every encoding, both versions and any address, for single records and whole files. Version 2 records with a blockette 1000 on any host, version 3 records on little-endian hosts. Violated by the unchanged code: Steim data behind a gap of zero bytes loses its last frames and the record is refused (C74_gap_violated), little-endian 24-bit GEOSCOPE data (C74_geoscope24_violated). Missing: samples of fixed size of 65536 bytes and more that do not fill the data (see C64)."
  },
  {
   "property": "C75",
   "status": "partial",
   "theorems": [
    "Verif.Props.ReadTrace.C75_buffer_read_partial",
    "Verif.Props.ReadTrace.C75_samples_kept_partial",
    "Verif.Props.ReadTrace.C75_ends",
    "Verif.Props.ReadTrace.C75_refused",
    "Verif.Props.ReadTrace.C75_default_tolerance",
    "Verif.Props.ReadTrace.C75_short_record_violated",
    "Verif.Props.ReadTrace.C75_no_samples_violated",
    "Verif.Props.ReadTrace.C75_second_blockette_violated"
   ],
   "note": "Valid records of both versions, followed by at most 40 bytes or the beginning of a version 3 record; sources whose records share a sample type. Violated: a final record of 40 bytes is not read, a record without samples makes the source refuse its next record, a second blockette 1000 leads outside of the buffer."
  },
  {
   "property": "C76",
   "status": "partial",
   "theorems": [
    "Verif.Props.Reader.C76_end_of_file_partial",
    "Verif.Props.Reader.C76_none_selected_violated"
   ],
   "note": "Violated if the selections match no record: MS_NOTSEED is returned."
  },
  {
   "property": "C77",
   "status": "proved",
   "theorems": [
    "Verif.Props.Reader.C77_pack_and_read"
   ],
   "note": "Little-endian reading host; assumptions on the samples as in C31 (Input, Encodable). Sample times as computed by the abstract ms_sampletime of C32."
  },
  {
   "property": "C78",
   "status": "proved",
   "theorems": [
    "Verif.Props.PathRange.C78_range_records"
   ],
   "note": "Files of the kinds of C34 (both versions), with other bytes between the records if skipping is asked for, with selections; START at a record or in such bytes; composed with C36 and the reader. Without records in the range the last code may be MS_NOTSEED as in C76."
  },
  {
   "property": "C79",
   "status": "partial",
   "theorems": [
    "Verif.Props.TimeStr.C79_month_day",
    "Verif.Props.TimeStr.C79_iso_ordinal",
    "Verif.Props.TimeStr.C79_seed_ordinal",
    "Verif.Props.TimeStr.C79_year",
    "Verif.Props.TimeStr.C79_refuses_month_day_partial",
    "Verif.Props.TimeStr.C79_refuses_ordinal",
    "Verif.Props.TimeStr.C79_day_zero_violated",
    "Verif.Props.TimeStr.C79_large_field_violated",
    "Verif.Props.TimeStr.C79_offset_violated",
    "Verif.Props.TimeStr.C79_comma_fraction_violated",
    "Verif.Props.TimeStr.C79_modelled",
    "Verif.Props.TimeStr.C79_refuses_character",
    "Verif.Props.TimeStr.C79_refuses_length",
    "Verif.Props.TimeStr.C79_longest"
   ],
   "note": "Every text of the grammar proved to be read exactly, refusals proved; day 0 of a month is read as the day before, fields beyond int are undefined behaviour, negative offsets are undefined behaviour, a comma before the fraction drops it (witnesses proved)."
  },
  {
   "property": "C80",
   "status": "partial",
   "theorems": [
    "Verif.Props.TimeStr.C80_seconds_partial",
    "Verif.Props.TimeStr.C80_sign_violated",
    "Verif.Props.TimeStr.C80_four_characters_violated"
   ],
   "note": "Proved for every number of seconds; the sign is ignored when the whole seconds are zero (proved for all), unsigned texts of four characters are refused or taken for a year."
  },
  {
   "property": "C81",
   "status": "partial",
   "theorems": [
    "Verif.Props.TimeStr.C81_first_year_violated",
    "Verif.Props.TimeStr.C81_day_of_year_violated",
    "Verif.Props.TimeStr.C81_unix_epoch_partial",
    "Verif.Props.TimeStr.C81_unix_epoch_violated",
    "Verif.Props.TimeStr.C81_nanosecond_epoch_violated"
   ],
   "note": "Formats with the day of year in parentheses are never read back, nanosecond epochs overflow, 1677 is refused, epoch seconds of four digits are taken for years (all proved); the others are proved to read back (C06, C81_unix_epoch_partial)."
  },
  {
   "property": "C82",
   "status": "partial",
   "theorems": [
    "Verif.Props.Log.C82_rloginit_partial",
    "Verif.Props.Log.C82_long_prefix_violated",
    "Verif.Props.Log.C82_complaint_partial"
   ],
   "note": "Proved when the complaint about a long prefix fits the buffer; with a long error prefix and the registry on it reads outside the buffer (proved)."
  },
  {
   "property": "C83",
   "status": "partial",
   "theorems": [
    "Verif.Props.Msi.C83_all_samples",
    "Verif.Props.Msi.C83_first_samples",
    "Verif.Props.Msi.C83_text_partial",
    "Verif.Props.Msi.C83_text_newline_violated",
    "Verif.Props.Msi.C83_text_nul_violated"
   ],
   "note": "Samples as values, not as formatted numbers. Violated: text whose length is a multiple of 199 loses the newline (C83_text_newline_violated); text after a NUL is not printed (C83_text_nul_violated)."
  },
  {
   "property": "C84",
   "status": "proved",
   "theorems": [
    "Verif.Props.Msi.C84_outputs"
   ],
   "note": "Record lines as values; their text is in C119 and C120."
  },
  {
   "property": "C85",
   "status": "partial",
   "theorems": [
    "Verif.Props.Pack2.C85_packed_prefix_partial",
    "Verif.Props.Pack2.C85_pack2_keeps_samples_partial",
    "Verif.Props.Pack2.C85_no_samples",
    "Verif.Props.Pack2.C85_frames_violated",
    "Verif.Props.Pack2.C85_many_samples_violated",
    "Verif.Props.Pack2.C85_defaults"
   ],
   "note": "Fewer than 2^32 samples, start times that are read as written (C72), records of at least 128 bytes. Violated: Steim data in records of 256 bytes with a blockette 100 but no blockette 1001 are read wrongly (C85_frames_violated), a record of 131072 bytes takes more samples than its 16-bit count holds, so packing fails (C85_many_samples_violated)."
  },
  {
   "property": "C86",
   "status": "partial",
   "theorems": [
    "Verif.Props.Pack2.C86_record_times_partial",
    "Verif.Props.Pack2.C86_later_record_violated"
   ],
   "note": "Within 0.0001 s always; exact for the first record and for times in units of 0.0001 s. Violated: the microsecond offset of the first record is repeated in all later ones (C86_later_record_violated)."
  },
  {
   "property": "C87",
   "status": "partial",
   "theorems": [
    "Verif.Props.Pack2.C87_metadata_kept_partial",
    "Verif.Props.Pack2.C87_version_violated"
   ],
   "note": "Publication versions 1 to 4; others become 2 (C87_version_violated)."
  },
  {
   "property": "C88",
   "status": "partial",
   "theorems": [
    "Verif.Props.Pack2.C88_extra_headers_kept_partial",
    "Verif.Props.Pack2.C88_timing_quality_violated"
   ],
   "note": "Also the blockettes that entries become, as their bytes; which these are is C116. Violated: a start time with microseconds makes up a timing quality of 0 (C88_timing_quality_violated)."
  },
  {
   "property": "C89",
   "status": "partial",
   "theorems": [
    "Verif.Props.Pack2.C89_header2_buffer_partial",
    "Verif.Props.Pack2.C89_header2_buffer_violated"
   ],
   "note": "Any description with at least 76 bytes whose entries write inside of their blockettes (C116_bounds_partial says which do). Violated below: the buffer length is not looked at (C89_header2_buffer_violated)."
  },
  {
   "property": "C90",
   "status": "partial",
   "theorems": [
    "Verif.Props.SelectFile.C90_file_requests_partial",
    "Verif.Props.SelectFile.C90_bad_time_violated",
    "Verif.Props.SelectFile.C90_unrecognized_line_violated",
    "Verif.Props.SelectFile.C90_long_line_violated",
    "Verif.Props.SelectLines.C90_neither_partial"
   ],
   "note": "Lines of up to 197 ASCII bytes in the documented formats, channels of three places; records selected through C44 and C79. Violated: a time that cannot be converted is taken for no limit (C90_bad_time_violated), lines in neither format are counted (C90_unrecognized_line_violated), longer lines are cut into several (C90_long_line_violated)."
  },
  {
   "property": "C91",
   "status": "partial",
   "theorems": [
    "Verif.Props.TracePack.C91_all_packed_partial",
    "Verif.Props.TracePack.C91_all_packed2_partial"
   ],
   "note": "Versions 3 and 2, all segments with samples that the encoding can represent (conditions as for C31, C85); version 2 times to 0.1 ms. Segments without samples: C92_emptied_violated."
  },
  {
   "property": "C92",
   "status": "partial",
   "theorems": [
    "Verif.Props.TracePack.C92_rest_stays_partial",
    "Verif.Props.TracePack.C92_rest_stays2_partial",
    "Verif.Props.TracePack.C92_emptied_violated"
   ],
   "note": "Segments with samples; any flags. Missing and violated: start time when nothing is left (see C94), a segment left without samples makes an empty record on every call (C92_emptied_violated)."
  },
  {
   "property": "C93",
   "status": "partial",
   "theorems": [
    "Verif.Props.TraceExtra.C93_extra_refused",
    "Verif.Props.TracePack.C93_records_returned_partial",
    "Verif.Props.TracePack.C93_error_violated"
   ],
   "note": "Proved if all samples can be encoded. Violated: a failing segment only lowers the sum by one (C93_error_violated)."
  },
  {
   "property": "C94",
   "status": "partial",
   "theorems": [
    "Verif.Props.TracePack.C94_rolling_partial",
    "Verif.Props.TracePack.C94_start_time_violated"
   ],
   "note": "Samples of any sequence of appended records and calls. Violated for times: after all samples have been packed the start time is that of the last sample packed, so samples appended later are one sample too early (C94_start_time_violated)."
  },
  {
   "property": "C95",
   "status": "partial",
   "theorems": [
    "Verif.Props.Options.C95_options_partial",
    "Verif.Props.Options.C95_accepted",
    "Verif.Props.Options.C95_unknown_option",
    "Verif.Props.Options.C95_missing_value",
    "Verif.Props.Options.C95_help",
    "Verif.Props.Options.C95_signed_count",
    "Verif.Props.Options.C95_large_count_violated",
    "Verif.Props.Options.C95_word_count_violated",
    "Verif.Props.Options.C95_prefix_violated",
    "Verif.Props.Options.C95_negative_gap_violated",
    "Verif.Props.Options.C95_standard_output_violated"
   ],
   "note": "All command lines of documented options (numbers of -n below 2^31, -tf 0 to 2); conversely what is accepted is such a command line. Violated: large and non-numeric -n, -version/-paths accepted, -gmin -1.5 refused, -b - refused."
  },
  {
   "property": "C96",
   "status": "partial",
   "theorems": [
    "Verif.Props.Options.C96_input_files_partial",
    "Verif.Props.Options.C96_no_list",
    "Verif.Props.Options.C96_long_line_violated",
    "Verif.Props.Options.C96_carriage_return_violated"
   ],
   "note": "Lines up to 1023 bytes without NUL. Violated: longer lines become two names; carriage returns are part of names."
  },
  {
   "property": "C97",
   "status": "partial",
   "theorems": [
    "Verif.Props.Options.C97_order_partial",
    "Verif.Props.Options.C97_estimates_violated"
   ],
   "note": "Options at most once and at most one of each group where the last counts. Violated: -tg -t and -t -tg differ."
  },
  {
   "property": "C98",
   "status": "partial",
   "theorems": [
    "Verif.Props.Options.C98_program_partial"
   ],
   "note": "Combines C95 with C45 to C48 (conditions as there); output files are assumed to be openable."
  },
  {
   "property": "C99",
   "status": "partial",
   "theorems": [
    "Verif.Props.Options.C99_lists_partial",
    "Verif.Props.Options.C99_two_lists_violated"
   ],
   "note": "One of -t -T -g -G -S, with -tg only with -t or -T. Violated: -t -g prints only the gap list, -G -tg only the trace list."
  }
 ]
}