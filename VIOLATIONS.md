# Properties violated by the unchanged code

Each line is a theorem about the model with a concrete witness (`tools/violations.py`).

* `C04_accepted_fields_overflow_violated` (Calendar.lean): C04 is violated by the code: fields inside every documented range (year 2262, day 365) overflow the signed 64-bit result.
* `C05_md_accepts_day_zero_violated` (Calendar.lean): C05 (rejection of month/day) is violated: day-of-month 0 is accepted, and for January it yields day-of-year 0.
* `C07_program_buffer_violated` (TimeStr.lean): C07 is violated by the program: with its default format `msi` prints every skipped record's time into a buffer of 30 bytes, for which the text and the terminating NUL need 31.
* `C08_unix_epoch_violated` (TimeStr.lean): C08 is violated within the second before 1970: the sign is lost, such a time is printed as the time as long after 1970.
* `C09_1972_violated` (SampleTime.lean): The list begins with 1 January 1972, which followed no leap second: a record over that time gets the time of its samples after it a second early.
* `C09_two_leaps_violated` (SampleTime.lean): Only one leap second is taken into account: of two in the span, the second is not. A sample 365 days after the beginning of 30 June 1972 gets a time a second late.
* `C15_escape_matches_anything_violated` (Glob.lean): C15 is violated: in `ms_globmatch` the pattern `\*` matches the string `x`.
* `C16_read_past_pattern_violated` (Glob.lean): C16 (memory safety) is violated: the selection pattern `[^` makes the matcher read past the pattern's terminator (for any non-empty string).
* `C17_short_unaligned_buffer_violated` (Crc.lean): C17 (violated). The code is not CRC-32C for every buffer, alignment and previous value: for a one byte buffer at an odd address it reads bytes after the buffer (out of bounds if there are none) and includes them in the result; and an empty continuation gives 0 instead of the previous value.
* `C23_zero_samples_violated` (Steim.lean): C23 (violated). Asking for 0 samples makes both decoders read the sample before the output buffer.
* `C25_geoscope24_little_endian_violated` (Samples.lean): C25 is violated for little-endian GEOSCOPE 24-bit data: on a little-endian host without swapping (and on a big-endian host with swapping) the three bytes land in the wrong places of the word.
* `C27_big_endian_violated` (Record3.lean): C27 (violated on big-endian hosts). The lengths are read in host byte order: the 52 byte record is reported as 67109422 bytes long.
* `C27_wrapped_length_violated` (Record3.lean): C27 (violated for huge announced lengths). The sum of the lengths wraps: a header announcing 65535 bytes of extra headers and 2^32 - 65535 bytes of data is reported as a 40 byte record.
* `C28_exponent_violated` (Detect.lean): C28 (violated for exponents from 63 on). The record length exponent is not checked: 64 and above are an undefined shift, 63 gives a negative length.
* `C29_sample_count_violated` (Record3.lean): C29 (violated, decoding). The number of samples in the header is trusted: a complete and well-formed 52-byte record with 4 bytes of text data and a count of 5 makes the parser read beyond the buffer when samples are requested.
* `C29_version2_blockette_violated` (Record2.lean): C29 (violated, version 2 blockettes). The lengths assumed for blockettes 200, 201, 300, 310, 320 and 500 are too small: a record of 128 bytes, held completely by its buffer, with a blockette 500 in its last 8 bytes makes the parser read beyond the buffer.
* `C29_version2_data_offset_violated` (DataBounds.lean): C29 is violated (version 2 data). If the offset of the data in the header of a version 2 record with Steim data is behind the end of the record by a multiple of 64 bytes, the size wraps and frames are compared far outside of the record, before the offset is checked: for every such record, and when parsing one of 128 bytes with its samples.
* `C29_version2_header_violated` (Record3.lean): C29 (violated, detection). For a 40-byte buffer with a version 2 header bytes 46 and 47 are read, and for a chain ending two bytes before the end the four bytes of a blockette header.
* `C29_version2_link_violated` (Record2.lean): C29 (violated, version 2 links). A link to one of the last 3 bytes of the record is followed, the header of the blockette is read from beyond the buffer.
* `C29_version2_timing_violated` (Record2.lean): C29 (violated, version 2 timing). A blockette 500 with its type of exception filled with spaces, as the format has it, makes the parser write beyond the array for the text: undefined behaviour.
* `C29_wrapped_length_violated` (Record3.lean): C29 (violated, parsing). A 40-byte buffer announcing 65535 bytes of extra headers and 2^32 - 65535 bytes of data is accepted as a complete record and the extra headers are copied from beyond it.
* `C31_endless_violated` (Pack.lean): C31 is violated for a multiple of 2^32 text samples: the number of remaining samples is converted to a 32-bit integer, 0, so every round makes a record without samples and the packer never returns (whatever the number of rounds).
* `C33_identifier_length_violated` (Repack.lean): C33 (violated). The size check forgets the source identifier: a record with a 6 character identifier and 4 bytes of data is written to a buffer of 46 bytes, 4 bytes beyond its end.
* `C34_boundary_violated` (Reader.lean): C34 (violated at the end of the read buffer). If 40 to 47 bytes of a version 2 record are at the end of the full read buffer, detecting its length reads beyond the buffer: here a version 3 record of 10485716 bytes is followed by a version 2 record, and the second call reads outside the buffer.
* `C35_second_blockette_violated` (Reader.lean): C35 (violated). The length of a second blockette 1000 moves the stream position: the record that follows is lost, or the position is negative and the next call has undefined behaviour.
* `C36_incomplete_violated` (PathRange.lean): C36 (violated). An incomplete range is removed from the path: `a@`, `a@-` and `a@5-`.
* `C36_large_offset_violated` (PathRange.lean): C36 (violated). Every START of 2^63 or more, up to 2^64 - 1, becomes negative, and the file is read from its beginning.
* `C36_long_name_violated` (PathRange.lean): C36 (violated). Without a range, a name of 512 bytes or more is cut: another file is opened.
* `C36_long_path_violated` (PathRange.lean): C36 (violated). A range after a name of 512 bytes or more writes a NUL behind the path.
* `C36_not_ascii_violated` (PathRange.lean): C36 (violated). A byte of 128 or more after the last `@` is a negative `char`, for which `isdigit` is not defined: `a@é` in Latin-1.
* `C38_order_violated` (Trace.lean): C38 (violated). Two segments begin at 0, the longer first, and one with another sample type begins at 21. A record from 6 to 20 is added to the shorter one, making it the longer; joining it with the segment behind fails because of the sample types; the function returns NULL without sorting.
* `C42_list_violated` (ReadTrace.lean): C42 (violated, in a list). Two records of one source, of which the second begins a sample period after the end of the first, are one segment; with a rate tolerance of 1/2 they are two, though their rates are equal.
* `C42_tolerance_inverted_violated` (Rate.lean): C42 (violated). With a positive tolerance, rates are similar if they differ by *more* than the tolerance, and equal rates are not similar.
* `C43_overflow_violated` (Gaps.lean): C43 violated (overflow). With two records 300 years apart, whose times are valid (1824 and 2125), the difference of the times is undefined behaviour.
* `C44_long_pattern_violated` (Select.lean): C44 (violated). A pattern of 100 bytes is cut to 99: a record is selected whose source identifier does not match the pattern.
* `C44_reversed_span_violated` (Select.lean): C44 (violated). With a span from 10 to 5, which no time is in, a record from 0 to 20 is selected.
* `C48_reversed_window_violated` (Msi.lean): C48 (violated). A window whose start is after its end keeps the records that span both times, though it has no instant at all: `-ts 20 -te 10` keeps a record from 5 to 25.
* `C49_emit_count_violated` (Log.lean): C49 is violated by the value returned by an emission: it is not the number of messages emitted, as documented, but always 0.
* `C50_empty_message_violated` (Log.lean): C50 is violated by the empty warning without a prefix: the character before the buffer is looked at.
* `C50_long_message_violated` (Log.lean): C50 is violated by every message longer than 200 characters that goes to the registry: the character at its full length is looked at, outside the buffer.
* `C51_overflow_violated` (Factor.lean): C51 is violated: `int` overflows for a rate half a millionth above 20000.
* `C51_range_violated` (Factor.lean): C51 is violated: rates from 2^31 on are converted to `int` out of its range.
* `C51_ratio_violated` (Factor.lean): C51 is violated: 30001/16001 samples per second, read from the 16-bit pair 30001 and -16001, are written as another pair, which stands for another rate.
* `C52_float_violated` (Convert.lean): C52 is violated: 16777217 becomes 16777216 as `float`, with success.
* `C52_loss_violated` (Convert.lean): C52 is violated: -1.75 becomes -1 though truncation is not allowed.
* `C52_negative_violated` (Convert.lean): C52 is violated: every negative whole number, as `float` or `double`, becomes the next larger integer, with success and whether or not truncation is allowed.
* `C52_range_violated` (Convert.lean): C52 is violated: a sample out of the range of integers, here 3000000000, has no defined conversion.
* `C52_refused_violated` (Convert.lean): C52 is violated: a conversion that is refused leaves other samples behind; of 12 and 0.1 the first is gone.
* `C53_long_line_violated` (SampleTime.lean): Lines that are too long are taken for several lines, so the table can get an entry from a comment.
* `C56_delimited_channel_rewritten_violated` (Str.lean): C56 is violated: the documentation converts a channel only when it is "3 characters with no delimiters", but the extended channel `_T_` (empty band and position) is rewritten, and the resulting identifier no longer decodes.
* `C57_field_over_read_violated` (Str.lean): C57 is violated: copying a fixed-width field that fills its buffer reads one byte beyond it, for every field without NUL: the loop tests the character before the limit (genutils.c:553).
* `C59_difference_overflow_violated` (Steim.lean): C59 (violated). The Steim-1 encoder computes the difference of neighbouring 32-bit samples in 32-bit signed arithmetic: for samples more than 2^31-1 apart this is undefined behaviour, and so is decoding differences that sum outside 32 bits.
* `C60_input_size_ignored_violated` (Samples.lean): C60 is violated: the size of the input is ignored for the fixed-size encodings: two 32-bit samples requested from 4 bytes are read from beyond the input.
* `C62_int16_truncates_violated` (Samples.lean): C62 is violated: 16-bit encoding silently stores integers outside the 16-bit range as different values.
* `C63_byte_order_violated` (Repack.lean): C63 (violated for version 2 data). The payload is copied without changing its byte order: the sample 7 of a big-endian version 2 record becomes 117440512 in the version 3 record.
* `C64_size_truncated_violated` (Repack.lean): C64 (violated for 65536 bytes and more). The size is cut to 16 bits: for 16384 samples of 4 bytes followed by at least one more byte it is 0.
* `C64_version2_length_violated` (DataBounds.lean): C64 is violated (version 2). A record of 128 bytes that tells that its data is behind its end is parsed, with 4294967232 bytes of data.
* `C64_wrong_frames_violated` (Repack.lean): C64 (violated for Steim data). The frames tested for zeros are counted from the beginning of the record instead of the data: with a 24 character identifier and a zero first frame, the last frame is dropped though it is not zero.
* `C66_int16_violated` (Pack.lean): C66 is violated for 16-bit integers: the number of samples filling a record is computed for 4 bytes per sample, so that without flush all five samples go into a record of 58 bytes, although a sixth would have fit into 60.
* `C69_zero_version_violated` (TraceList.lean): C69 (violated). With versions split, a record of version 0 is put into the entry of version 2 of the same source.
* `C70_long_station_violated` (Select.lean): C70 (violated). A set of stations that is longer than 19 bytes is cut, so that a station in it is not selected.
* `C70_set_in_channel_violated` (Select.lean): C70 (violated). A request for the channels `BH[ZN]` does not select a record of channel `BHZ` of the station asked for: a channel with a set in it is not taken apart into band, source and position.
* `C70_wildcard_crosses_codes_violated` (Select.lean): C70 (violated). A request for station `ANMO` alone selects a record of network `A`, station `B` and location `ANMO`: the wildcard for the network runs over the underscore.
* `C71_reserved_time_violated` (Record2.lean): C71 (violated for one instant). The start time 1902-01-01T00:00:00 is taken for an error: a valid record with this time is not read.
* `C72_byte_order_violated` (Record2.lean): C72 (violated). A valid big-endian record of 2056-01-01 is not found on a little-endian host: its blockette chain is looked for at the wrong place and more data is requested. At the end of a file it is read with a start time 255 days late.
* `C73_second_blockette_violated` (Record2.lean): C73 (violated). The record length is taken again from every further blockette 1000: an exponent of 32 or more is an undefined shift, 31 gives a negative length, 20 a length beyond the buffer.
* `C74_gap_violated` (Stored.lean): C74 is violated by data behind a gap: the library looks for the end of the data 128 bytes too early, finds zero bytes and drops the second frame; the record, whose data holds all samples, is refused.
* `C74_geoscope24_violated` (Stored.lean): C74 is violated by little-endian 24-bit GEOSCOPE data: the sample 1 is returned as 256.
* `C75_no_samples_violated` (ReadTrace.lean): C75 (violated). A record without samples is added with no sample type: the next record of the source, that follows it in time and has samples, is refused and reading stops with an error. Alone each of them is read, and so are both in the other order.
* `C75_second_blockette_violated` (ReadTrace.lean): C75 (violated). A record of version 2 with a second blockette 1000 that announces a longer or a negative length moves the position behind or before the buffer, where reading goes on.
* `C75_short_record_violated` (ReadTrace.lean): C75 (violated). A valid record of 40 bytes at the end of the buffer, here the only one, is not read, although `msr3_parse` accepts it.
* `C76_none_selected_violated` (Reader.lean): C76 (violated). If the selections match no record of a file of valid records, the reader reports that the file has no records.
* `C79_comma_fraction_violated` (TimeStr.lean): C79 is violated by the form with commas throughout, which the documentation of the function lists: a fraction of a second after a comma is dropped.
* `C79_day_zero_violated` (TimeStr.lean): C79 is violated for day 0 of a month: it is read as the last day of the month before.
* `C79_large_field_violated` (TimeStr.lean): C79 is violated for a number that no `int` holds: reading it is undefined behaviour rather than a refusal.
* `C79_offset_violated` (TimeStr.lean): C79 is violated by an offset from UTC: the hours of a negative offset are taken for a negative fraction of a second, whose conversion to an unsigned number is undefined behaviour. The strings are not of the documented forms, but neither are they refused.
* `C80_four_characters_violated` (TimeStr.lean): C80 is violated by unsigned texts of four characters: they are refused, or taken for a year.
* `C80_sign_violated` (TimeStr.lean): C80 is violated within the second before 1970: the sign is ignored.
* `C81_day_of_year_violated` (TimeStr.lean): C81 is violated by the formats with the day of the year in parentheses: no such text is read.
* `C81_first_year_violated` (TimeStr.lean): C81 is violated in 1677: the times of the year in which the range of 64-bit times begins are printed but not read.
* `C81_nanosecond_epoch_violated` (TimeStr.lean): C81 is violated by nanoseconds since 1970: the text is taken for seconds, and the conversion overflows, for every time more than ten seconds from 1970.
* `C81_unix_epoch_violated` (TimeStr.lean): C81 is violated for epoch texts of four digits, which are taken for a year, and within the second before 1970, where the sign is lost in printing.
* `C82_long_prefix_violated` (Log.lean): C82 is violated: with the registry on and an error prefix of 170 characters or more, refusing a prefix that is too long looks outside the message buffer.
* `C83_text_newline_violated` (Msi.lean): C83 (violated for text of 199 bytes or a multiple). The newline after the text is lost, so that what follows is on the same line.
* `C83_text_nul_violated` (Msi.lean): C83 (violated for text with a NUL). What follows a NUL in the text (up to the next piece of 199 bytes) is not printed: of "AB", NUL, "CD" only "AB" is.
* `C85_frames_violated` (Pack2.lean): C85 (violated, frames). All 28 samples are packed into one record of 256 bytes, with data from 128 on because of a blockette 100. The record satisfies all conditions but `Readable`; it cannot be read back: the reader takes bytes 64 to 127, which are zero, for the second frame of the data.
* `C85_many_samples_violated` (Pack2.lean): C85 (violated, many samples). More than 65535 characters of text that fit into one record of 131072 bytes are not packed at all: the result is -1 and there is no record.
* `C86_later_record_violated` (Pack2.lean): C86 (violated). The microseconds beyond units of 0.0001 seconds of the first record are kept in all records: 13 samples, that is 0.001625 seconds, after the start at 0.000050, the second record is said to start at 0.001650 instead of 0.001675 seconds.
* `C87_version_violated` (Pack2.lean): C87 (violated). A publication version that version 2 does not know is read back as 2, whatever it was.
* `C88_timing_quality_violated` (Pack2.lean): C88 (violated). A description without extra headers is packed into records that are read back with one: a timing quality of 0, because its start time has 50 microseconds.
* `C89_header2_buffer_violated` (Pack2.lean): C89 is violated: the length of the buffer is not looked at before the header is written, so a buffer of 48 bytes, the fixed part of the header, is overrun; so is one of 75 bytes by a header with the blockettes 100 and 1001.
* `C90_bad_time_violated` (SelectFile.lean): C90 is violated for a time that cannot be converted: the month 13 does not make reading fail, although the conversion does; the selection is added without a limit, so a record of 1970 is selected.
* `C90_long_line_violated` (SelectFile.lean): C90 is violated for long lines: the end of a comment of 199 bytes is taken for another line, here one that selects every record.
* `C90_unrecognized_line_violated` (SelectFile.lean): C90 is violated for lines in neither format: two fields without a time are reported and passed over, but counted as a selection.
* `C92_emptied_violated` (TracePack.lean): C92 (violated). A segment all of whose samples have been packed stays in the list, and every further call makes a record without samples of it.
* `C93_error_violated` (TracePack.lean): C93 (violated). The result is 0, although the packing of the second segment has failed and a record has been made of the first.
* `C94_start_time_violated` (TracePack.lean): C94 (violated, times). Samples appended after a flush get the time of the last sample packed before: the last record of this buffer, with the samples of the second arrival, begins one sample too early.
* `C95_large_count_violated` (Options.lean): C95 is violated by large numbers of records: `-n 4294967296` is accepted and is the limit 0, so that nothing is processed, and `-n 4294967297` is the limit 1.
* `C95_negative_gap_violated` (Options.lean): C95 is violated by negative gaps with a fraction (overlaps): `-gmin -1` is accepted, `-gmin -1.5` is refused. A minus sign alone is accepted.
* `C95_prefix_violated` (Options.lean): C95 is violated by options that begin like others: `-version` and `-paths`, which do not exist, are accepted like `-v` and `-p`.
* `C95_standard_output_violated` (Options.lean): C95 is violated by `-b -`: the program can write the samples to the standard output, but the name `-` for it is refused as the value of `-b`, unlike that of `-o`.
* `C95_word_count_violated` (Options.lean): C95 is violated by words for numbers: `-n ten` is accepted and is the limit 0.
* `C96_carriage_return_violated` (Options.lean): C96 is violated by lines with a carriage return: it is part of the name.
* `C96_long_line_violated` (Options.lean): C96 is violated by long lines: a name of 1024 letters in a list file becomes two files, the second named by the last letter.
* `C97_estimates_violated` (Options.lean): C97 is violated by `-tg`: after `-t` it adds the gaps to the trace list that follows the records; before `-t` the same option suppresses the records.
* `C99_two_lists_violated` (Options.lean): C99 is violated by two lists: with `-t -g` only the gap list is printed, with `-G -tg` only the trace list.
* `C101_large_tolerance_violated` (TraceRuns.lean): C101 (violated for tolerances above the period). With a time tolerance of 60 periods, a record from 50 to 52 is joined to the end of one from 0 to 100: the one segment then ends at 52.
* `C104_long_code_violated` (Report.lean): C104 violated (long codes). A station code of 11 characters, which the format and the library's records allow, is written past the end of an array.
* `C104_stale_codes_violated` (Report.lean): C104 violated (other identifiers). A source with an identifier of another form is printed with the codes of the source before it: the line says that its samples are of that source.
* `C108_no_buffer_violated` (ExtraHeaders.lean): C108 (violated). A string for a buffer of no bytes is written beyond it.
* `C108_wide_violated` (ExtraHeaders.lean): C108 (violated). An integer that does not fit 32 bits is cut to 32 bits, although there is memory for 64: 4294967297 is returned as 1.
* `C109_found_violated` (ExtraHeaders.lean): C109 (violated). Of a record without extra headers a value that was set is not found before it is serialized.
* `C110_long_violated` (ExtraHeaders.lean): C110 (violated). Setting a string of more than 65535 bytes returns 0, and nothing is set.
* `C110_set_violated` (ExtraHeaders.lean): C110 (violated). Setting a number that JSON cannot represent (an infinity) returns 0, and nothing is set.
* `C111_infinite_violated` (ExtraHeaders.lean): C111 (violated). Adding a timing exception whose VCO correction is an infinity returns 0, and nothing is added.
* `C114_deep_violated` (ExtraPrint.lean): C114 (violated). Of values nested 101 deep, closing brackets are lost.
* `C114_quotation_violated` (ExtraPrint.lean): C114 (violated). An escaped quotation mark is taken for the end of the string, and a line is broken within the string after it: `{"a":"\","}`.
* `C115_lost_violated` (Headers2.lean): C115 (violated, lost headers). An amplitude that is not a number makes a valid record lose all its extra headers, among them the flags, and nothing tells so.
* `C115_wave_violated` (Headers2.lean): C115 (violated, direction of the wave). A valid record with an event detection whose flags say that the direction of the first motion is not determined (bit 2 of blockette 200) is read with a direction in its extra headers.
* `C116_abort_violated` (Blockettes2.lean): C116 (violated, end of a calibration). What the reader makes of a blockette 395, an entry of the type ABORT with an end (`Verif.Props.Headers2.calibration`), is refused by the packer, with all other headers, while the end alone is accepted.
* `C116_correction_violated` (Blockettes2.lean): C116 (violated, negative time corrections). If the reader gives a time correction of `c` units of 0.0001 seconds as a number within 10^-8 of it, and the packer cuts a number within 1/1000 of 10000 times the number given plus 1/2 to an integer, as the C conversions do, then every negative correction comes back one unit larger.
* `C116_exception_violated` (Blockettes2.lean): C116 (violated, timing exceptions). A timing exception with a type is packed into a record that the reader cannot read without undefined behaviour: the text in the record has no end.
* `C116_limit_violated` (Blockettes2.lean): C116 (violated, limits). A MEDLookback and a MEDPickAlgorithm of 255, which blockette 201 can hold, are written as 0.
* `C116_ratios_violated` (Blockettes2.lean): C116 (violated, ratios). An event detection with 45 ratios makes the packer write beyond the end of a buffer that has more space than the header needs.
* `C116_wave_violated` (Blockettes2.lean): C116 (violated, direction of the wave). A direction is written as the manual says, and then not found by the reader, and without one the reader makes it up.
* `C117_byte_order_violated` (RecordList.lean): C117 (violated). Big-endian header, little-endian data, little-endian host: the whole `swapflag` is taken for the one of the data, and the samples 1, 2 come out as 16777216, 33554432.
* `C117_first_empty_violated` (RecordList.lean): C117 (violated). A record without samples at the beginning of the list: its encoding decides the type, and the samples of the others are refused.
* `C117_no_encoding_violated` (RecordList.lean): C117 (violated). A record without blockette 1000: `msr3_unpack_data` assumes Steim-1 and decodes it, unpacking the record list fails.
* `C117_offset_violated` (RecordList.lean): C117 (violated). A record whose data begins at its end: `msr3_unpack_data` refuses, unpacking the record list reads behind the buffer.
* `C117_path_range_violated` (RecordList.lean): C117 (violated). A file read by a byte range, `a@0-`: the file `a` is read, but the entry has the path with the range, and there is no such file.
* `C118_full_disk_violated` (WriteFile.lean): C118 is violated on a full disk: the number of records is returned as if they had been written, while the file stays empty.
* `C118_standard_output_violated` (WriteFile.lean): C118 is violated for the standard output: it is closed after the first list or record written to it, so that writing a second one is undefined.
* `C122_bounds_violated` (RawParse.lean): C122 (violated, bounds). A blockette that ends one byte after a record that is read passes the check of its length, and is printed with the byte after the record. The headers of an opaque data blockette are printed as far as the first NUL, even after the record, if the blockette says that its data begins before them.
* `C122_endless_violated` (RawParse.lean): C122 (violated, end). The check of a record that is read never ends if a blockette of an unknown type links to itself.
* `C122_inside_violated` (RawParse.lean): C122 (violated, data inside). Data that begins inside the last blockette, here one for timing of 200 bytes, is not noticed.
* `C122_length_violated` (RawParse.lean): C122 (violated, no blockette 1000). In a record without blockette 1000 data and blockettes are said to be beyond the end of the record.
* `C122_link_violated` (RawParse.lean): C122 (violated, errors not returned). A blockette that links into itself is an error that is printed, but the value returned says that there is none; a chain that begins in the header is not even looked at.
* `C122_order_violated` (RawParse.lean): C122 (violated, byte order). The byte order that the caller asks for is not used: with a flag to swap the bytes of a sound record that need it, they are not swapped, and year and day are wrong.
* `C122_undefined_violated` (RawParse.lean): C122 (violated, undefined). A first byte of 128, where `char` has a sign, and a length of 2 to the 40 in blockette 1000 make the behaviour undefined.
* `C124_no_size_violated` (Alloc.lean): C124 is violated for records whose samples the caller has provided without setting `datasize`, as in the library's example program lm_pack (libmseed/example/lm_pack.c:192-229): the copy silently has none.
* `C126_failure_violated` (Alloc.lean): C126 is violated if an allocation fails: the samples can no longer be reached and their memory is not given back, although the function reports an error: the pointer has been overwritten.
* `C127_null_violated` (Alloc.lean): C127 is violated for a pointer to no list: `msr3_free` accepts `NULL`, `mstl3_free` reads through it.
* `C128_leak_violated` (SelectMem.lean): C128 is violated if the second allocation fails: the call returns an error and the list is as before, but the memory of the time window stays in use and nothing points to it.
* `C130_leak_violated` (SegMem.lean): C130, violated If there is no memory for the samples, the segment that has been made for them is lost: the caller is given nothing, and one more block of memory stays in use.
* `C131_broken_violated` (Url.lean): C131, violated A transfer that is broken off looks like the end of the object: the bytes read are not all of it, and nothing tells them from a complete object.
* `C131_hang_violated` (Url.lean): C131, violated If the call that ends a pause hands over pieces until one does not fit any more, the note of the new pause is overwritten: the read waits for a connection that is paused, whatever libcurl does later.
* `C131_small_buffer_violated` (Url.lean): C131, violated A read into a buffer that is smaller than the next piece gives nothing although the object is not at its end. (`ms3_readmsr` takes this for an error, which it meets when the rest of its buffer behind a long record is short.)
* `C132_behind_header_violated` (Url.lean): C132, violated The byte behind a line of the header is read if the line ends in a digit.
* `C132_ignored_violated` (Url.lean): C132, violated A server may answer a request for a range with the whole object. The offsets stay as asked for, so that the first byte of the object is taken for the one at the start of the range.
* `C132_no_connection_violated` (Url.lean): C132, violated If no connection can be made, opening succeeds and the stream is at its end.
* `C134_leak_violated` (RecMem.lean): C134 violated: if the allocation of the list itself fails, the copy of the record is never given back; it is still in memory although nothing refers to it.
* `C135_none_selected_violated` (SelectRead.lean): C135 (violated) A file with a valid record, none of which is in the window: it is reported not to be a file of records at all.
* `C136_leap_violated` (Latency.lean): C136 (violated). A leap second within the record is not taken into account: of a record that ends now, by `msr3_endtime`, the latency is a second less than nothing (to a tenth of a millisecond).
* `C136_period_violated` (Latency.lean): C136 (violated). If the rate is given as a period (a negative number of seconds) the latency is that of the first sample: of a record of 11 samples each 100 seconds apart, which ends now, 1000 seconds.
* `C137_agent_cut_violated` (UrlSettings.lean): C137 (violated). With a name of 1011 bytes and more the line is the name cut, without the versions of the libraries, with success.
* `C137_agent_twice_violated` (UrlSettings.lean): C137 (violated). A program that changes its name sends both.
* `C138_replace_violated` (ExtraMem.lean): C138 (violated). Replacing the extra headers by any text that can be read loses a block, also if the call succeeds.
* `C138_unreadable_violated` (ExtraMem.lean): C138 (violated). Looking for a value in extra headers that cannot be read loses a block, and so does setting one.
* `C139_range_kept_violated` (ReaderLife.lean): C139 (violated). After a path with a range that could not be opened, the next file is read in that range, though its path has none: `a@5-9` and `b`.
* `C139_record_violated` (ReaderLife.lean): C139 (violated). Without memory for the buffer the call returns an error, but the record variable is not set to NULL.
* `C139_seek_violated` (ReaderLife.lean): C139 (violated). If the file cannot be positioned the call returns an error, but the next call reads it from its beginning: `a@5-9`, of which the bytes 0 to 9 are read.
* `C139_standard_twice_violated` (ReaderLife.lean): C139 (violated). Reading the standard input a second time, after it was read and closed, uses a stream that is closed: undefined behaviour, as for `msi - -`.
* `C139_url_kept_violated` (ReaderLife.lean): C139 (violated). After a URL that the server refused, as `h://x`, the next path is not opened: the reader goes on with the URL. (A file that cannot be opened does not have this effect.)
* `C140_unknown_violated` (Codes.lean): C140 is violated. Decoding data of an encoding that is not known gives the code for that; the same data in a record, wherever it lies, give the code of a general error, as do Steim data with undefined flags: the codes -3, -5 and -6 are never returned for a record.
* `C142_many_violated` (HeaderCount.lean): C142 is violated. No header with 255 blockettes or more from extra headers tells their number: it is kept in a byte and wraps, while the record is packed.
* `C143_long_header_violated` (DataOffset.lean): C143 is violated. With a header of 65536 bytes or more, which extra headers with many entries need, the offset does not fit its two bytes: every record is packed, has its samples after the header, and tells that they are elsewhere, 65536 bytes before.
* `C144_mixed_flags_violated` (TraceSplit.lean): C144 is violated. After additions with versions split, one without changes the version of an entry where it is in the list; the next one does not find the entry of its own version and makes another: the list has two entries of the same source and the same version, and its versions are not in order.
* `C145_known_source_violated` (TraceAdd.lean): C145 is violated. Adding an entry for a source that a list of three has already fails with NULL after the entry has been linked at the upper levels, since the search ends at the level where it finds the source. When the caller gives back the entry that was not added, any search in the list reads the memory given back.
* `C147_refused_line_violated` (SelectStream.lean): C147 is violated by files with a line that is refused, here for the publication version 256: every call leaves its file open, so that `n` calls leave `n` files open, until no more can be opened.
* `C148_buffer_violated` (UnpackMem.lean): C148 is violated if a file buffer cannot be enlarged: the one for the record before is lost.
* `C148_missing_file_violated` (UnpackMem.lean): C148 is violated by a file that cannot be opened: the entry made for it is lost, a block with every call, although there is memory enough.
