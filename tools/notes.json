{
 "C04": {
  "note": "The code accepts all of 2262 although int64 nanoseconds end on 2262-04-11; witness proved, exact characterisation proved."
 },
 "C05": {
  "note": "Fully proved except that day-of-month 0 is accepted by ms_md2doy (witness proved)."
 },
 "C06": {
  "note": "Proved for all times from 1678 on (the range the parser accepts), the four ISO month-day formats and the SEED ordinal format, for any rounding of doubles with the properties in Spec/Rounding."
 },
 "C07": {
  "note": "The bound of 36 characters is proved for every time and format; the 30-byte buffer of msi is one byte short for its default format (proved for every time)."
 },
 "C08": {
  "note": "Proved for all calendar formats and nanosecond epochs; the epoch format loses the sign within the second before 1970 (proved for all such times)."
 },
 "C09": {
  "note": "Exact for whole-nanosecond periods over spans up to 2^49 ns, accuracy bound for all others, monotone but inside a leap second, one leap second accounted for; doubles as rationals rounded after every operation. Violated: of two leap seconds in a span only one is accounted for (C09_two_leaps_violated); the built-in list has 1972-01-01, which followed no leap second (C09_1972_violated)."
 },
 "C100": {
  "note": "Files of the kinds of C34 (both versions), bytes between records if skipping is asked for; refused records with and without selections. Missing: other files with version 2 records (C34)."
 },
 "C101": {
  "note": "Records of a source in time order with one period, type and time tolerance below the period: segments are exactly the runs without gaps (start, end, samples, type, rate), with or without healing, alone or among other sources. Missing: different rates within a source, overlapping records. Violated for tolerances above the period: a record within the segment shortens its end (witness)."
 },
 "C102": {
  "note": "mstl3_pack then mstl3_readbuffer or ms3_readtracelist give back the list: sources, order, segments with times, counts, types and values, for all lists whose segments are regular (period of whole nanoseconds, at most 2^49 ns per segment, no leap second within, more than 1.5 periods apart, one rate per source); the rate is kept for 1 Hz and above. Missing: version 2 records, periods that are not whole nanoseconds, longer segments."
 },
 "C103": {
  "note": "For all histories of ordinary records (times within 146 years of 1970, rates 0 or 10^-400..10^400 per second, identifiers of at most 63 bytes, time tolerance at most the sample period)."
 },
 "C104": {
  "note": "Partial: ordinary records whose identifiers are FDSN:NET_STA_LOC_B_S_P with codes of at most 10 characters. Violated: longer codes are written past the end of an array of 11 bytes; a source with another form of identifier is printed with the codes of the source before it."
 },
 "C105": {
  "note": "For all histories of ordinary records; rounding with 53 bits."
 },
 "C106": {
  "note": "Whole program: files as in C45, records with times within 146 years of 1970. Partial: SYNC lists for identifiers with codes of at most 10 characters (see C104), one line per run for records in time order (as C101). The totals of -s are in C120."
 },
 "C107": {
  "note": "The grammar is an inductive relation apart from the reader. The conversion between decimal numerals and doubles is a parameter required to read back what it writes (LawfulReals, with an instance); yyjson's own conversion is not modelled. Integers beyond 64 bits are read as doubles. Texts are shorter than the sizes that overflow size_t.",
  "status": "proved"
 },
 "C108": {
  "note": "Violated for integers beyond 32 bits (C108_wide_violated: 4294967297 is returned as 1 through int) and for strings with maxlength 0 (C108_no_buffer_violated: write out of bounds)."
 },
 "C109": {
  "note": "Session relates every call of any sequence to the JSON value. Violated: in a record without extra headers a value that was set with a state is not found before serialization (C109_found_violated). Of integers beyond 32 bits and patches with repeated names nothing is said.",
  "status": "partial"
 },
 "C110": {
  "note": "Serialization proved. Violated for changes without a state: a failure to write the new value is ignored and 0 is returned (C110_set_violated: an infinity). C110_long_violated: a string of more than 65535 bytes is not set, with success."
 },
 "C111": {
  "note": "Entries and times proved for all fields; partial since a failure to write is ignored as in C110 (C111_infinite_violated). vcocorrection is the float converted to double."
 },
 "C112": {
  "note": "Patches whose objects have distinct names. Written as in C110.",
  "status": "proved"
 },
 "C113": {
  "note": "",
  "status": "proved"
 },
 "C114": {
  "note": "Violated for strings with escaped quotation marks (C114_quotation_violated) and for deep nesting, where lines are longer than a message (C114_deep_violated). Objects without white space around them."
 },
 "C115": {
  "note": "Violated for bit 2 of the flags of blockette 200, read as the opposite of the manual (C115_wave_violated), and for records with numbers that are not finite, which silently lose their extra headers (C115_lost_violated); the same happens when the text has more than 65535 bytes. C115_headers_partial is exact otherwise; conversions of floating-point numbers are parameters with stated laws."
 },
 "C116": {
  "note": "Exact for what the blockettes and the extra headers both have a place for: the header (C116_header_partial), the records read back (C116_read_back_partial), the conversion of records read (C116_converted_partial), and the buffer (C116_bounds_partial). Violated: the reader's entries for blockette 395 are refused (C116_abort_violated); 255 is dropped from MEDLookback and MEDPickAlgorithm (C116_limit_violated); more than 32 MEDSNR numbers write beyond the blockette (C116_ratios_violated); the direction of the wave is lost or made up (C116_wave_violated); packed timing exceptions overflow arrays of the reader (C116_exception_violated); negative time corrections come back one unit larger (C116_correction_violated). Conversions of floating-point numbers are parameters with stated laws."
 },
 "C117": {
  "note": "Proved for entries that point to version 3 records (little-endian host, identifier without NUL) and version 2 records with a blockette 1000 whose data has the byte order of the header or whose header has the order of the host, in buffers and files, for whole segments of any trace list built with record lists; all refusals. Violated by the unchanged code: header swapped but not the data (C117_byte_order_violated), records without blockette 1000 (C117_no_encoding_violated), data offset at the end of the record (C117_offset_violated, a read behind the buffer), files read by byte ranges (C117_path_range_violated), a first record without samples and another encoding (C117_first_empty_violated). Missing: which entry belongs to which record added is a function given with the history, not computed by the readers' models."
 },
 "C15": {
  "note": "\\char matches any character in ms_globmatch (witness proved); without escapes equivalence proved."
 },
 "C16": {
  "note": "Termination proved; a pattern ending in [^ reads past its terminator (proved), every other pattern is safe; msi's own patterns are safe."
 },
 "C17": {
  "note": "1 and 2 byte buffers before a 4-byte boundary are over-read and an empty continuation returns 0 (witnesses proved); every other buffer proved, including all 2048 table entries."
 },
 "C23": {
  "note": "With a request for 0 samples both decoders read the element before the output buffer (witness proved); any request of 1 or more samples is proved safe for arbitrary bytes."
 },
 "C25": {
  "note": "Little-endian GEOSCOPE 24-bit data is decoded 256 times too large (witness proved); all other formats and byte orders proved for every code word."
 },
 "C26": {
  "note": "Hosts of both byte orders; also through msr3_parse."
 },
 "C27": {
  "note": "Wrong on big-endian hosts and when the announced lengths reach 2^32 (witnesses proved); exact otherwise."
 },
 "C28": {
  "note": "Termination, blockette 1000, backward links and the search for the next header proved for every buffer; exponents from 63 on give an undefined shift or a negative length (witness proved)."
 },
 "C29": {
  "note": "Seven ways of reading outside the buffer and one of writing outside an array (blockette 500 filled with spaces) proved as witnesses, the last for every version 2 record with Steim data and a data offset behind its end by a multiple of 64 (C29_version2_data_offset_violated); otherwise safe: version 3 parsing with consistent counts, version 2 detection, version 2 headers and blockettes followed by 193 bytes, locating version 2 data whose offset is in the record."
 },
 "C30": {
  "note": "Little-endian host for the accept/reject decision; unchanged bytes for every host and buffer."
 },
 "C31": {
  "note": "Version 3. Fewer than 2^32 samples; endless loop for multiples of 2^32 proved. Samples read back by the parser on any host."
 },
 "C32": {
  "note": "Version 3 packer (version 2: C86); sample times any function with values from 1678 on. C32_exact_times composes it with ms_sampletime."
 },
 "C33": {
  "note": "The size check forgets the identifier (witness proved); safe for buffers holding the whole record."
 },
 "C34": {
  "note": "Version 3 files of any size; files of records of both versions with lengths multiple of 64 and blockette 1000 first; mixed files below the 10 MiB of the read buffer. Violated: 40 to 47 bytes of a version 2 record at the end of the full read buffer are read beyond (C34_boundary_violated). fread is assumed to return what is asked for or all that is left."
 },
 "C35": {
  "note": "Any file in which no version 2 header begins; for valid records of both versions the offsets are part of C34. Violated when a version 2 record has a second blockette 1000 with another length."
 },
 "C36": {
  "note": "Names up to 511 bytes and numbers below 2^63. Violated: incomplete ranges (@, @-, @5-) are removed from the path, numbers from 2^63 on become negative, a range after 512 bytes writes outside the path array, longer names are cut, non-ASCII bytes after the @ are passed to isdigit as negative values."
 },
 "C37": {
  "note": "Rates abstract (any similarity test). Per source and for whole lists, where records of one source share a sample type and then none is refused. Records answered with NULL may still have been added in part of the failing merges."
 },
 "C38": {
  "note": "Links proved for every history; order proved if no addition failed, and proved to fail after a failed merge."
 },
 "C39": {
  "note": "All histories, any seed. The splitting flag is the same for all additions."
 },
 "C40": {
  "note": "Extremes over the records accepted."
 },
 "C41": {
  "note": "Rate similarity abstract here; the test itself is C42."
 },
 "C42": {
  "note": "double arithmetic as rationals with any rounding of relative error 2^-53 (Spec/Rounding). The test with a positive tolerance is inverted; the default tolerance is as documented. C42_list_violated shows it for the records of a list."
 },
 "C43": {
  "note": "Lines as values (times, gap, samples); the text is C105. double arithmetic as rationals with any rounding of relative error 2^-53. Partial: records with times within 146 years of 1970. Violated otherwise: the difference of times of records 300 years apart overflows (witness 1824 and 2125)."
 },
 "C44": {
  "note": "Patterns of 100 bytes or more are cut; a reversed time span still selects records containing both ends; escapes as in C15."
 },
 "C45": {
  "note": "Any number of files, all options modelled, with CRC validation; without filters the output is the input. After an error the output has the kept records before it. Window not reversed, names with documented byte ranges (C36, C78) or none, files as in C34."
 },
 "C46": {
  "note": "Also N = 0; once N is reached the files that follow are not opened and need not exist."
 },
 "C47": {
  "note": "msi has no total of bytes; the number of files counts all files given, also those not opened after the limit of -n is reached."
 },
 "C48": {
  "note": "For windows that are not reversed, over msr3_endtime as modelled for C09. Violated for a start after the end: records spanning both times are kept (C48_reversed_window_violated)."
 },
 "C49": {
  "note": "Every history of messages, emissions, removals and limit changes proved equal to a bounded queue, for messages that fit the buffer; the value returned by an emission is always 0 instead of the number emitted (proved)."
 },
 "C50": {
  "note": "Registering any message longer than 200 characters, or an empty one without prefix, reads outside the buffer (proved for all such messages); all others proved safe with their exact text."
 },
 "C51": {
  "note": "Rule, whole rates, whole periods and whole rates up to 32764 squared under any rounding; the inverse square root is a parameter (its whole part correct, or one too small at squares). Ratios of numbers below 32767 in exact arithmetic only. Violated: a 16-bit ratio written as another one (C51_ratio_violated), int overflow (C51_overflow_violated), conversion out of range (C51_range_violated)."
 },
 "C52": {
  "note": "IEEE formats of float and double, rounding half to even. Exact to double, exact to float for values that fit, exact to integers for samples that are not negative (differences of up to 1.1e-6 pass as exact), integers survive double and back. Violated: every negative whole number becomes the next larger one (C52_negative_violated), fractions of negative samples are lost (C52_loss_violated), a refused conversion leaves samples changed (C52_refused_violated), to float rounds without notice (C52_float_violated), samples out of range have undefined results (C52_range_violated)."
 },
 "C53": {
  "note": "All files of lines shorter than 198 characters, with entries, comments, dates of expiry, empty and unknown lines; numbers in range. Violated: a longer comment is taken for two lines and can add an entry (C53_long_line_violated)."
 },
 "C56": {
  "note": "3-character channels with delimiters (e.g. _T_) are rewritten; witness proved."
 },
 "C57": {
  "note": "One-byte over-read proved for every NUL-free field that fills its buffer."
 },
 "C59": {
  "note": "Neighbouring samples more than 2^31-1 apart overflow (witness proved); everything else proved."
 },
 "C60": {
  "note": "The input size is ignored for all fixed-size encodings (witness proved); safe when the input holds the samples, and always for Steim."
 },
 "C62": {
  "note": "Values outside 16 bits are truncated silently (witness proved)."
 },
 "C63": {
  "note": "Byte order of version 2 payloads is not converted (witness proved); all else proved."
 },
 "C64": {
  "note": "Size cut to 16 bits, wrong frames tested for zeros and lengths that wrap for version 2 data offsets behind the record (witnesses proved); offset always exact, size exact otherwise."
 },
 "C66": {
  "note": "All encodings but 16-bit integers, for which the claim fails (witness proved)."
 },
 "C69": {
  "note": "With versions split, records of version 0 are mixed into other versions (witness proved); proved for all other cases."
 },
 "C70": {
  "note": "Exact for three-character channels; violated without a channel, where a wildcard runs over the delimiter (C70_wildcard_crosses_codes_violated), for a set in a channel, which is split letter by letter and selects nothing (C70_set_in_channel_violated), and for a component of more than 19 bytes, which is cut (C70_long_station_violated)."
 },
 "C71": {
  "note": "Fully proved for well-formed records with blockettes 100, 200, 201, 300, 310, 320, 390, 395, 400, 500, 1000, 1001, 2000 in any order whose byte order is told by the date; the start 1902-01-01T00:00:00 is taken for an error (violated).",
  "status": "partial"
 },
 "C72": {
  "note": "Exactly three dates (2056, days 1, 256, 257) are misread; the same on both hosts otherwise."
 },
 "C73": {
  "note": "Violated by a second blockette 1000; the exact length for valid records."
 },
 "C74": {
  "note": "Proved for every encoding, both versions and any address, for single records and whole files. Version 2 records with a blockette 1000 on any host, version 3 records on little-endian hosts. Violated by the unchanged code: Steim data behind a gap of zero bytes loses its last frames and the record is refused (C74_gap_violated), little-endian 24-bit GEOSCOPE data (C74_geoscope24_violated). Missing: samples of fixed size of 65536 bytes and more that do not fill the data (see C64)."
 },
 "C75": {
  "note": "Valid records of both versions, followed by at most 40 bytes or the beginning of a version 3 record; sources whose records share a sample type. Violated: a final record of 40 bytes is not read, a record without samples makes the source refuse its next record, a second blockette 1000 leads outside of the buffer."
 },
 "C76": {
  "note": "Violated if the selections match no record: MS_NOTSEED is returned."
 },
 "C77": {
  "note": "Little-endian reading host; assumptions on the samples as in C31 (Input, Encodable). Sample times as computed by the abstract ms_sampletime of C32."
 },
 "C78": {
  "note": "Files of the kinds of C34 (both versions), with other bytes between the records if skipping is asked for, with selections; START at a record or in such bytes; composed with C36 and the reader. Without records in the range the last code may be MS_NOTSEED as in C76."
 },
 "C79": {
  "note": "Every text of the grammar proved to be read exactly, refusals proved; day 0 of a month is read as the day before, fields beyond int are undefined behaviour, negative offsets are undefined behaviour, a comma before the fraction drops it (witnesses proved)."
 },
 "C80": {
  "note": "Proved for every number of seconds; the sign is ignored when the whole seconds are zero (proved for all), unsigned texts of four characters are refused or taken for a year."
 },
 "C81": {
  "note": "Formats with the day of year in parentheses are never read back, nanosecond epochs overflow, 1677 is refused, epoch seconds of four digits are taken for years (all proved); the others are proved to read back (C06, C81_unix_epoch_partial)."
 },
 "C82": {
  "note": "Proved when the complaint about a long prefix fits the buffer; with a long error prefix and the registry on it reads outside the buffer (proved)."
 },
 "C83": {
  "note": "Samples as values, not as formatted numbers. Violated: text whose length is a multiple of 199 loses the newline (C83_text_newline_violated); text after a NUL is not printed (C83_text_nul_violated)."
 },
 "C84": {
  "note": "Record lines as values; their text is in C119 and C120."
 },
 "C85": {
  "note": "Fewer than 2^32 samples, start times that are read as written (C72), records of at least 128 bytes. Violated: Steim data in records of 256 bytes with a blockette 100 but no blockette 1001 are read wrongly (C85_frames_violated), a record of 131072 bytes takes more samples than its 16-bit count holds, so packing fails (C85_many_samples_violated)."
 },
 "C86": {
  "note": "Within 0.0001 s always; exact for the first record and for times in units of 0.0001 s. Violated: the microsecond offset of the first record is repeated in all later ones (C86_later_record_violated)."
 },
 "C87": {
  "note": "Publication versions 1 to 4; others become 2 (C87_version_violated)."
 },
 "C88": {
  "note": "Also the blockettes that entries become, as their bytes; which these are is C116. Violated: a start time with microseconds makes up a timing quality of 0 (C88_timing_quality_violated)."
 },
 "C89": {
  "note": "Any description with at least 76 bytes whose entries write inside of their blockettes (C116_bounds_partial says which do). Violated below: the buffer length is not looked at (C89_header2_buffer_violated)."
 },
 "C90": {
  "note": "Lines of up to 197 ASCII bytes in the documented formats, channels of three places; records selected through C44 and C79. Violated: a time that cannot be converted is taken for no limit (C90_bad_time_violated), lines in neither format are counted (C90_unrecognized_line_violated), longer lines are cut into several (C90_long_line_violated)."
 },
 "C91": {
  "note": "Versions 3 and 2, all segments with samples that the encoding can represent (conditions as for C31, C85); version 2 times to 0.1 ms. Segments without samples: C92_emptied_violated."
 },
 "C92": {
  "note": "Segments with samples; any flags. Missing and violated: start time when nothing is left (see C94), a segment left without samples makes an empty record on every call (C92_emptied_violated)."
 },
 "C93": {
  "note": "Proved if all samples can be encoded. Violated: a failing segment only lowers the sum by one (C93_error_violated)."
 },
 "C94": {
  "note": "Samples of any sequence of appended records and calls. Violated for times: after all samples have been packed the start time is that of the last sample packed, so samples appended later are one sample too early (C94_start_time_violated)."
 },
 "C95": {
  "note": "All command lines of documented options (numbers of -n below 2^31, -tf 0 to 2); conversely what is accepted is such a command line. Violated: large and non-numeric -n, -version/-paths accepted, -gmin -1.5 refused, -b - refused."
 },
 "C96": {
  "note": "Lines up to 1023 bytes without NUL. Violated: longer lines become two names; carriage returns are part of names."
 },
 "C97": {
  "note": "Options at most once and at most one of each group where the last counts. Violated: -tg -t and -t -tg differ."
 },
 "C98": {
  "note": "Combines C95 with C45 to C48 (conditions as there); output files are assumed to be openable."
 },
 "C99": {
  "note": "One of -t -T -g -G -S, with -tg only with -t or -T. Violated: -t -g prints only the gap list, -G -tg only the trace list."
 },
 "C118": {
  "note": "Contents of the file, other files, result and refusal are proved for every list and record, both versions. Read back: version 3, conditions of C102 for lists and of C31/C77 for series. Violated: on a full disk the number of records is returned although nothing was written (the error is only logged), and the standard output (name -) is closed after the first call, so that a second one is undefined. Missing: two names of the same file, name - for several calls, version 2 read back."
 },
 "C119": {
  "note": "Rates that are infinite or not numbers are not modelled; rounding of doubles is a parameter. Identifiers without a newline for the text with details. Rates of more than ten digits are not told (an example)."
 },
 "C120": {
  "note": "Hypotheses as in C45 (Run: valid files), fields as in C119, totals below 2^63. Not modelled: -z and -L. The lists are those of C106. Text samples are shown as in C83 (cut at NUL)."
 },
 "C121": {
  "note": "ms_parse_raw3: for every buffer exactly which messages, how often, the value returned, no read outside; sound headers exactly those without message; records of the format. Texts of the messages and of the printed fields not modelled (reads are)."
 },
 "C122": {
  "note": "ms_parse_raw2: fixed-header messages for any bytes, all messages for sound chains, records of the format, reads at most 200 bytes beyond (details up to 1), ends unless a blockette without length links to itself. Violated: endless loop on a record that is read, reads after the record, error not counted, chain in the header ignored, data inside blockette not noticed, records without blockette 1000, explicit swapflag ignored, undefined behaviour of isdigit and shift."
 },
 "C123": {
  "note": "C123_read and C123_messages: every version 3 record that unpack_mseed3 reads (40 <= reclen <= buffer), with the exact messages. C123_packed: every record of a version 3 packing, under the conditions of C31. C123_packed2 and C123_empty2: every record of a version 2 packing, under the conditions of C85 (identifiers of codes that fit, times from 1900 to 2100), exactly which pass; records with more than 20000 samples or 256 blockettes are made and complained about."
 },
 "C124": {
  "note": "Partial: proved for every record whose buffer of samples has a size; without a size (samples provided by the caller, as in the library's own example) the copy silently has no samples (C124_no_size_violated)."
 },
 "C125": {
  "note": "Proved for every memory state with a record whose blocks are allocated and distinct; failure of the allocation included."
 },
 "C126": {
  "note": "Partial: proved when no allocation fails; when one fails the samples are lost and their memory is not given back (C126_failure_violated)."
 },
 "C127": {
  "note": "Partial: proved for every list; a pointer to a NULL list is dereferenced (C127_null_violated)."
 },
 "C128": {
  "note": "Partial: proved for all lists and all sequences of calls; after a failure of the second allocation of a call the memory of the time window is lost (C128_leak_violated)."
 },
 "C129": {
  "note": "Proved for all entries whose members are in the ranges of their types."
 },
 "C130": {
  "note": "addmsrtoseg (both ends) and addsegtoseg (samples and times) are proved for every segment whose buffer is as large as it says, every block size and every pattern of allocation failures. Partial because of the new segment: C130_leak_violated shows that the segment made for a record is lost when there is no memory for its samples."
 },
 "C131": {
  "note": "Order, completeness and room are proved for all pieces and reads; progress and termination if libcurl hands over at most one piece in the call that ends a pause and pieces fit into the buffer. C131_broken_violated: a transfer that is broken off is taken for the end. C131_hang_violated: a second pause during curl_easy_pause is forgotten and the read never returns. C131_small_buffer_violated: a buffer smaller than the next piece gives 0 bytes before the end."
 },
 "C132": {
  "note": "Proved for all servers that honour range requests. C132_ignored_violated: a server that answers with the whole object has its first byte taken for the start of the range. C132_no_connection_violated: an unreachable server is an empty object. C132_behind_header_violated: the header callback reads behind a line that ends in a digit."
 },
 "C133": {
  "note": "C133_small_as_file holds for any bytes below 10 MiB. For longer objects version 3 records of up to 10 MiB less 16384 bytes are proved (C133_version3_partial, C133_range_partial); a longer record may leave less room in the buffer than the next piece needs, which C131_small_buffer_violated shows to be an error. Transfers that are broken off or hang are C131_broken_violated and C131_hang_violated; version 2 records in longer objects have the problem of C34_boundary_violated. A read error is reported as one and not as the end (C133_read_error)."
 },
 "C134": {
  "note": "Adding and joining are proved for every list and every pattern of allocation failures. Partial because of the first record of a segment: C134_leak_violated shows that the copy of the record is lost when there is no memory for the list itself."
 },
 "C135": {
  "note": "Composed from C34, C75, C100 and C44: the files and patterns are those of these claims (no escapes in patterns, windows not reversed, see C44_reversed_span_violated). C135_none_selected_violated shows that a file of valid records none of which is in the window is reported not to be a file of records."
 },
 "C136": {
  "note": "Proved for rates in samples per second to a tenth of a millisecond. C136_period_violated: if the rate is given as a period the latency is that of the first sample. C136_leap_violated: a leap second within the record is not taken into account."
 },
 "C137": {
  "note": "libcurl is the environment; an option that it cannot set is assumed to stay as it was. C137_agent_cut_violated: a name of 1011 bytes or more is cut, and the versions are lost. C137_agent_twice_violated: naming the program a second time adds a second header instead of replacing the first."
 },
 "C138": {
  "note": "Safety (C138_safe) holds for all sequences; the part about memory left over holds if no record's text is unreadable and nothing is replaced by a text. C138_replace_violated: each replacement by a text that can be read loses the parsed document. C138_unreadable_violated: a call on extra headers that cannot be read loses the parsed state. yyjson is the environment: documents are blocks that it allocates and frees."
 },
 "C139": {
  "note": "Files, URLs, the standard input and descriptors. Proved for the standard input in one session at most. C139_standard_twice_violated: closing also closes the standard input, so that reading `-` again (msi - -) uses a closed stream. C139_range_kept_violated: the range of a path that could not be opened is used for the next file. C139_seek_violated: after a failed positioning the next call reads from the beginning. C139_record_violated: without memory for the buffer the record variable is not set to NULL. C139_url_kept_violated: after a URL that the server refused the next path is not opened."
 },
 "C140": {
  "note": "C140_unknown_violated: a record with an unknown encoding or with undefined Steim flags gives the code of a general error (-1); the codes -5, -6 and -3 are never returned for a record, although decoding the same data outside of a record gives -5. That each outcome of the models of reading and parsing is one of these codes holds by their types."
 },
 "C141": {
  "note": "Opaque data (2000) hold their own length, which may be 0."
 },
 "C142": {
  "note": "C142_many_violated: the number is kept in a byte; with 255 or more entries it wraps, and the record is packed all the same. C142_entries counts the entries for exceptions and detections from below; calibrations come to one or two each and are only in the count of the steps."
 },
 "C143": {
  "note": "Headers of up to 65472 bytes. C143_long_header_violated: from 65536 bytes on the offset wraps, in every record that is packed with such a header."
 },
 "C144": {
  "note": "Holds if all records of a source have one version (C144_one_version_partial). C144_mixed_flags_violated: an addition without splitting raises the version of an entry without moving it; later searches miss the entry of their version and the list gets a second entry of the same source and version."
 },
 "C145": {
  "note": "Holds for entries whose identifier is not in the list. C145_known_source_violated: otherwise the search ends early and leaves previous pointers unset; the entry is linked at the upper levels before the missing pointer is noticed, and NULL is returned with the entry in the list."
 },
 "C146": {
  "note": "About the bytes read for display; the printed text of the fields is not modelled."
 },
 "C147": {
  "note": "Holds for calls that do not fail on a line. C147_refused_line_violated: each call that returns -1 for a line of a file leaves the file open, n calls leave n open."
 },
 "C148": {
  "note": "Streams: always. Memory: for calls that succeed or fail for other reasons than a file that cannot be opened (C148_missing_file_violated: a block is lost with every call) or memory for a longer record (C148_buffer_violated); at most one block is lost."
 }
}