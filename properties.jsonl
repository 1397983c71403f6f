{"id": "C01", "title": "Epoch nanoseconds to calendar fields is the Gregorian calendar", "statement": "For every 64-bit nanosecond epoch time, ms_nstime2time() produces the year, day-of-year, hour, minute, second and nanosecond that the proleptic Gregorian calendar assigns to that instant (day 1 of year 1970 at time 0, leap years every 4 years except centuries not divisible by 400), with nanosecond in [0,999999999], also for negative times.", "quantifier": "every 64-bit signed nanosecond value", "why_tests_cant": "there are 2^64 instants; leap-century, year-boundary, and negative-time cases are sparse and sampling cannot show that the 400-year folding and month/year walking loops are right for all of them", "anchors": ["libmseed/genutils.c:ms_nstime2time", "libmseed/gmtime64.c:ms_gmtime64_r"]}
{"id": "C02", "title": "Calendar fields to epoch nanoseconds inverts the conversion", "statement": "For every nanosecond time whose calendar year is accepted by the library (1678..2262), converting it with ms_nstime2time() and converting the resulting fields back with ms_time2nstime() returns exactly the same nanosecond time.", "quantifier": "every 64-bit nanosecond time whose year is in the library's accepted range", "why_tests_cant": "a round trip over 2^63 values cannot be enumerated", "anchors": ["libmseed/genutils.c:ms_nstime2time", "libmseed/genutils.c:ms_time2nstime", "libmseed/genutils.c:ms_time2nstime_int", "libmseed/gmtime64.c:ms_gmtime64_r"]}
{"id": "C03", "title": "Calendar field conversion preserves order", "statement": "For two sets of calendar fields (year, day-of-year, hour, minute, second, nanosecond) that are real instants (day not past the end of its year, seconds below 60) ms_time2nstime() gives a smaller epoch time exactly when the first is lexicographically earlier.", "quantifier": "all pairs of accepted field tuples in the range representable as 64-bit nanoseconds", "why_tests_cant": "pairs of dates are a 12-dimensional space; boundary carry errors hide in rare pairs", "anchors": ["libmseed/genutils.c:ms_time2nstime", "libmseed/genutils.c:ms_time2nstime_int"]}
{"id": "C04", "title": "Accepted calendar fields never overflow the epoch time", "statement": "Whenever ms_time2nstime() accepts its fields (all of them inside the documented valid ranges), the exact number of nanoseconds since 1970 fits the signed 64-bit result.", "quantifier": "every accepted field tuple", "why_tests_cant": "needs a bound over all accepted tuples including the extreme year", "anchors": ["libmseed/genutils.c:ms_time2nstime", "libmseed/genutils.c:ms_time2nstime_int"]}
{"id": "C05", "title": "Day-of-year and month/day conversions are inverse and correct", "statement": "ms_doy2md() and ms_md2doy() agree with the Gregorian calendar (month lengths, leap years) and are mutually inverse on every valid date; invalid day-of-year values are rejected.", "quantifier": "every year in the accepted range, every day-of-year, every month and day-of-month", "why_tests_cant": "all (year, day) combinations including century leap rules must agree in both directions; the leap rule must be shown for years in general", "anchors": ["libmseed/genutils.c:ms_doy2md", "libmseed/genutils.c:ms_md2doy"]}
{"id": "C06", "title": "Printed nanosecond times can be read back exactly", "statement": "For every nanosecond time in the accepted year range, the ISO month-day string that ms_nstime2timestr() writes at nanosecond resolution (with or without trailing Z, with T or space separator) is parsed by ms_timestr2nstime() to exactly the same time; the SEED ordinal string at nanosecond resolution is parsed back exactly too.", "quantifier": "every accepted nanosecond time and each of these output formats", "why_tests_cant": "covers 2^63 times; digit-carry, zero padding and negative fraction handling must be right for all", "anchors": ["libmseed/genutils.c:ms_nstime2timestr", "libmseed/genutils.c:ms_timestr2nstime", "libmseed/genutils.c:ms_mdtimestr2nstime", "libmseed/genutils.c:ms_seedtimestr2nstime"]}
{"id": "C07", "title": "Printed times have the documented shape and fit their buffer", "statement": "For every nanosecond time, the string written by ms_nstime2timestr() for any supported format and sub-second option has at most 36 characters (so the documented buffer of 37 bytes, and the recommended 40, suffices including the terminator), and the msi program's own smaller buffer suffices for what it prints.", "quantifier": "every nanosecond time, every time format and sub-second option", "why_tests_cant": "buffer-size safety must hold for the worst case over all times and formats", "anchors": ["libmseed/genutils.c:ms_nstime2timestr", "src/msi.c:main"]}
{"id": "C08", "title": "Sub-second options only drop or truncate digits", "statement": "Printing a time with microsecond (or no) sub-seconds gives the calendar instant truncated towards minus infinity to a whole microsecond (second); in the epoch format the number of seconds with its sign is truncated towards zero. The *_NONE variants print no digits exactly when the part they would show is zero. No other digit, sign or separator changes.", "quantifier": "every nanosecond time and each format and sub-second option", "why_tests_cant": "quantifies over all times; rounding bugs show only for particular fractions and for negative times", "anchors": ["libmseed/genutils.c:ms_nstime2timestr"]}
{"id": "C09", "title": "Sample times are exact for whole-nanosecond periods, accurate otherwise, and account for leap seconds", "statement": "ms_sampletime(t, k, r) gives t for k = 0; t + k*p when the period is p nanoseconds and the span is up to 2^49 ns, within half a nanosecond and 2^-51 of the span of the exact time otherwise; it never goes back as k grows except inside a leap second; each leap second of the loaded list that is completely inside the span makes the result one second smaller; msr3_endtime() is the time of the last sample and never before the start.", "quantifier": "every start time, offset, rate or period and leap second list", "why_tests_cant": "monotonicity, accuracy and additivity range over all offsets, all doubles and arbitrary leap second tables", "anchors": ["libmseed/genutils.c:ms_sampletime", "libmseed/msrutils.c:msr3_endtime", "libmseed/msrutils.c:msr3_nsperiod"]}
{"id": "C10", "title": "FDSN source identifiers round trip through their codes", "statement": "For network, station and location codes made of characters other than underscore and colon, and a channel that is either a 3-character code without such characters or an extended BAND_SOURCE_POSITION channel, ms_nslc2sid() builds the identifier FDSN:NET_STA_LOC_BAND_SOURCE_POSITION, reports its length, and ms_sid2nslc() recovers the same four codes from it (a 1_1_1 extended channel comes back in its 3-character form).", "quantifier": "all code strings of any length that fit the buffers", "why_tests_cant": "all strings over all lengths; separators and empty codes interact", "anchors": ["libmseed/genutils.c:ms_nslc2sid", "libmseed/genutils.c:ms_sid2nslc"]}
{"id": "C100", "title": "Reading a file of records into a trace list", "statement": "ms3_readtracelist_selection adds to the trace list every record of the file that the selections ask for, once and in file order, and the list is the same as that made by mstl3_readbuffer_selection of the bytes of the file.", "quantifier": "every file of records, selections, list contents", "why_tests_cant": "unbounded file sizes and record numbers, read through a buffer that is refilled and shifted", "anchors": ["libmseed/fileutils.c:ms3_readtracelist_selection", "libmseed/fileutils.c:ms3_readmsr_selection", "libmseed/tracelist.c:mstl3_readbuffer_selection"]}
{"id": "C101", "title": "Records in time order make one segment per run without a gap", "statement": "When the records of a source are added to a trace list in time order, all with the same sample period and sample type, and the time tolerance is below the sample period, then the list of segments of that source is exactly the list of the maximal runs of records without a gap: the segment starts at the first record of the run, ends at the end of the last, and has the samples of all of them in order. No record is refused and records of other sources added in between change nothing.", "quantifier": "for all lists of records in time order, all sources in between, with and without healing", "why_tests_cant": "The number, length and arrangement of records and gaps are unbounded, and the segment a record is joined to depends on everything added before.", "anchors": ["libmseed/tracelist.c:363-778", "libmseed/tracelist.c:1052-1146"]}
{"id": "C102", "title": "A trace list written and read back is the same list", "statement": "Packing a trace list into version 3 records and reading these records, from a buffer or from a file, into an empty list gives the same sources in the same order, each with the same segments: start and end times, sample count, sample type and sample values, and the rate the records can carry; the number of records packed is returned and the reading succeeds.", "quantifier": "every trace list, record length, encoding and extra headers, with a period of whole nanoseconds", "why_tests_cant": "the segments must come back joined from any number of records, for every number of sources, segments, samples and record lengths; tests take a few files", "anchors": ["libmseed/tracelist.c:mstl3_pack", "libmseed/tracelist.c:mstl3_readbuffer_selection", "libmseed/fileutils.c:ms3_readtracelist_selection", "libmseed/tracelist.c:mstl3_addmsr_recordptr"]}
{"id": "C103", "title": "Printed trace list shows each segment", "statement": "mstl3_printtracelist prints a heading, then for each source in the order of the list and for each of its segments in order one line with the source identifier (and version if asked for), the start and end times, the gap or overlap before the segment (== for the first of a source, days or hours to one decimal, seconds to four digits), the sample rate to three digits and the number of samples, and with details a last line with the numbers of sources and segments. Read by its words, every line gives these values in this order whatever their lengths.", "quantifier": "All histories of additions of records with times within 146 years of 1970, all time formats, all combinations of details, gaps and versions, all roundings of double arithmetic", "why_tests_cant": "The text depends on every list that can be built; widths, signs, magnitudes and neighbours combine without bound.", "anchors": ["libmseed/tracelist.c:2119-2235", "libmseed/tracelist.c:2197-2206"]}
{"id": "C104", "title": "SYNC list has one line per segment with its own codes", "statement": "mstl3_printsynclist prints a heading with the data centre and the date, then for each segment of each source in order one line of 16 fields separated by bars: network, station, location and channel of the source, start, end, sample rate to ten digits, number of samples and the date. No line shows codes of another source and no memory outside of the code buffers is written.", "quantifier": "All histories of additions of records, all identifiers, all sub-second settings", "why_tests_cant": "Identifiers are arbitrary text of up to 63 bytes and the codes carried from one source to the next depend on the whole list.", "anchors": ["libmseed/tracelist.c:2251-2310"]}
{"id": "C105", "title": "Printed gap list shows each gap", "statement": "mstl3_printgaplist prints a heading, one line for each pair of neighbouring segments of a source whose gap is inside the limits, in the order of the list, with the identifier, the last time before and the first time after, the gap and the number of samples to eight digits, and a last line with the number of gaps.", "quantifier": "All histories of additions of records with times within 146 years of 1970, all limits, all time formats, all roundings to 53 bits", "why_tests_cant": "The text depends on every list that can be built and on floating point results of any size.", "anchors": ["libmseed/tracelist.c:2324-2422"]}
{"id": "C106", "title": "Lists printed by msi are those of the records processed", "statement": "msi with -t, -T, -tg, -g, -G or -S prints, after reading its files, the list of exactly the records that were processed: each segment made of them is one line with its times, gap, rate and number of samples, each gap between neighbouring segments inside the limits is one line, and the totals are right. If the records of every source come in time order there is one line for each run of records without a gap.", "quantifier": "All sets of files of records, all options that ask for one of the lists, all tolerances, all roundings to 53 bits", "why_tests_cant": "The text is the result of the whole program: reading, selecting, building the list and printing; tests fix a few files.", "anchors": ["src/msi.c:142-143", "src/msi.c:240-241", "src/msi.c:354-374", "libmseed/tracelist.c:2119-2422"]}
{"id": "C107", "title": "JSON texts are read and written as the standard says", "statement": "A text given as extra headers is accepted exactly if it is a JSON text of RFC 8259 (with integers of 64 bits and valid UTF-8 strings), it is read as the one value it denotes, and a value that was read is written as a text that is read as the same value.", "quantifier": "every sequence of bytes and every JSON value of any size and depth", "why_tests_cant": "the grammar is recursive and unbounded; no set of sample texts covers it", "anchors": ["libmseed/yyjson.c:yyjson_read_opts", "libmseed/yyjson.c:yyjson_write_opts", "libmseed/yyjson.c:yyjson_mut_write_opts"]}
{"id": "C108", "title": "A query of extra headers answers what is there", "statement": "Querying a pointer in a record's extra headers returns 1 if nothing is there, 2 if there is a value of another type, 0 with the value itself otherwise, and an error for a malformed pointer or unreadable headers; a string is copied with its terminating NUL within the buffer; integers are returned as they are.", "quantifier": "every JSON text, every pointer, every requested type and buffer size", "why_tests_cant": "pointers, escapes, indices and nesting combine without bound", "anchors": ["libmseed/extraheaders.c:mseh_get_ptr_r", "libmseed/libmseed.h:mseh_exists"]}
{"id": "C109", "title": "Changes of extra headers are what later calls see", "statement": "In any sequence of queries, changes, additions and serializations with one parse state every call behaves as on the JSON value made by the calls before it: a value set is found at its pointer, everything apart from it is as it was, a refused change leaves all as it was, and queries see the changes made so far.", "quantifier": "every initial text and every finite sequence of calls", "why_tests_cant": "histories of calls are unbounded and states have two representations that must stay consistent", "anchors": ["libmseed/extraheaders.c:mseh_set_ptr_r", "libmseed/extraheaders.c:mseh_get_ptr_r"]}
{"id": "C11", "title": "SEED channel codes and extended channel codes are inverse", "statement": "ms_seedchan2xchan() maps exactly the 3-character printable channel codes to 'B_S_SS' extended form, ms_xchan2seedchan() inverts it, both report failure on any other input, and neither reads beyond the end of its input string.", "quantifier": "all strings", "why_tests_cant": "all byte strings including short and unterminated-looking ones", "anchors": ["libmseed/genutils.c:ms_seedchan2xchan", "libmseed/genutils.c:ms_xchan2seedchan"]}
{"id": "C110", "title": "Serialized extra headers are a text of the changed value", "statement": "Serialization without an error leaves a JSON text of the current value in the record, of at most 65535 bytes, and returns its length; a change without a state does so at once, and an error is returned if that is not possible.", "quantifier": "every value and every sequence of changes", "why_tests_cant": "needs writer, reader and change to agree on all values, including those that cannot be written", "anchors": ["libmseed/extraheaders.c:mseh_serialize", "libmseed/extraheaders.c:mseh_set_ptr_r"]}
{"id": "C111", "title": "Entries have a member for every field that is set", "statement": "Adding an event detection, a calibration, a timing exception or a recenter event appends an object to the list at its documented path (or the one given), creating the list if needed, with exactly the members for the fields that are set, and times are written so that they read back as the same times.", "quantifier": "every combination of set and unset fields, every time, all existing headers", "why_tests_cant": "nineteen optional fields alone have half a million combinations", "anchors": ["libmseed/extraheaders.c:mseh_add_event_detection_r", "libmseed/extraheaders.c:mseh_add_calibration_r", "libmseed/extraheaders.c:mseh_add_timing_exception_r", "libmseed/extraheaders.c:mseh_add_recenter_r"]}
{"id": "C112", "title": "A merge patch changes what RFC 7386 says", "statement": "A merge patch applied at a pointer replaces the value there by the result of RFC 7386: null members are removed, objects are merged member by member, other values replace; all else in the headers is as it was.", "quantifier": "every value, every pointer and every patch with distinct names", "why_tests_cant": "merging is recursive over two trees of any shape", "anchors": ["libmseed/extraheaders.c:mseh_set_ptr_r", "libmseed/yyjson.c:yyjson_mut_merge_patch"]}
{"id": "C113", "title": "Replacing extra headers is all or nothing", "statement": "Replacing all extra headers by a text succeeds exactly if the text is JSON and its value can be written within 65535 bytes; the headers are then a text of that value and the length is returned; otherwise an error is returned and they are untouched; without a text they are removed.", "quantifier": "every sequence of bytes", "why_tests_cant": "the set of JSON texts is infinite", "anchors": ["libmseed/extraheaders.c:mseh_replace"]}
{"id": "C114", "title": "Printed extra headers are the same value", "statement": "The lines printed for extra headers, with braces around them, are a JSON text of the same value.", "quantifier": "every object, text of it and indentation", "why_tests_cant": "texts are unbounded and printing works character by character with a state", "anchors": ["libmseed/extraheaders.c:mseh_print"]}
{"id": "C115", "title": "Flags and blockettes of version 2 records become the right extra headers", "statement": "Reading a version 2 record gives extra headers with exactly what its flags, its time correction and its blockettes 200, 201, 300, 310, 320, 390, 395, 500 and 1001 say: every set flag as true under its FDSN path, the leap second with its sign, the correction in seconds, the last timing quality and clock model, and one entry per event, calibration and timing exception, in order and with the members the manual gives; nothing else is there.", "quantifier": "all valid version 2 records with a blockette 1000, both byte orders, both hosts, any bytes after them", "why_tests_cant": "the combinations of flag bits, field values and chains of blockettes are unbounded, and whether anything is missing or additional is a statement about all paths", "anchors": ["libmseed/unpack.c:msr3_unpack_mseed2", "libmseed/extraheaders.c:mseh_set_ptr_r", "libmseed/extraheaders.c:mseh_add_event_detection_r", "libmseed/extraheaders.c:mseh_add_calibration_r", "libmseed/extraheaders.c:mseh_add_timing_exception_r", "libmseed/extraheaders.c:mseh_serialize"]}
{"id": "C116", "title": "Events, calibrations and timing in version 2 headers", "statement": "Extra headers that describe timing exceptions, event detections and calibrations are packed by msr3_pack and msr3_pack_header2 with format version 2 into exactly the blockettes 200, 201, 300, 310, 320, 390, 395 and 500 for them, inside of the buffer; records converted from version 2 keep these blockettes; and the packed records are read back with the same extra headers.", "quantifier": "every extra header document, description, buffer and number conversion with the stated laws", "why_tests_cant": "every document, every combination and number of entries and every content of the blockettes", "anchors": ["libmseed/pack.c:msr3_pack_header2", "libmseed/pack.c:ms_timestr2btime", "libmseed/unpack.c:msr3_unpack_mseed2"]}
{"id": "C117", "title": "Record lists unpack to the samples of the records", "statement": "If a trace list is built with record lists, by reading buffers or files, mstl3_unpack_recordlist of a segment delivers the samples of the records of the segment in time order, the same as msr3_unpack_data decodes them and, if the segment was also built with samples, the same as the segment has stored; it returns their number and the sample type is set. Records of different sample types, records whose buffer or file is not there, and too little room are refused with -1.", "quantifier": "For all segments of all trace lists built from any sequence of records of both versions that readers point to in buffers or files of any content, both outputs (own buffer or the segment), all sizes of the output buffer.", "why_tests_cant": "A record list decodes later, from another place and through another call of the decoder than parsing: the tests compare a few files where both byte orders agree, every record has a blockette 1000 and no byte range is used.", "anchors": ["libmseed/tracelist.c:1613-1874", "libmseed/tracelist.c:948-962", "libmseed/tracelist.c:1265-1337", "libmseed/fileutils.c:720-734", "libmseed/unpack.c:1275-1443"]}
{"id": "C118", "title": "A written file has exactly the packed records", "statement": "Writing a trace list or a record to a file puts the records that packing makes behind what the file had (or alone if it is overwritten), returns their number, leaves the trace list and all other files alone, and returns -1 without a change if the file cannot be opened. A trace list written to a new file and read into an empty list is the same list; series of samples written one after the other to a file are all read back in order with their times.", "quantifier": "every trace list, record, file name, former contents of the file, overwrite flag, number of series", "why_tests_cant": "lists, histories of a file and series are unbounded; failures of the disk are not under the control of a test", "anchors": ["libmseed/fileutils.c:msr3_writemseed", "libmseed/fileutils.c:mstl3_writemseed", "libmseed/fileutils.c:ms_record_handler_int"]}
{"id": "C119", "title": "The text printed for a record is complete and tells the record", "statement": "For every record whose fields have values of their types (identifier of at most 63 bytes, at most 2^31-1 bytes of data, finite rate), the text printed by msr3_print is whole (no message is cut): without details one line with identifier, publication version, length, number of samples, rate in Hz to ten digits and start time; with details also format version, CRC in hexadecimal, lengths of extra headers and data, name and number of the encoding; with more details also the bits of the flags with their meanings and the extra headers. Two records with the same text agree in identifier, version, length, number of samples, start time to the nanosecond and in a rate of at most ten digits, and with details in the other fields too.", "quantifier": "all records, all levels of details", "why_tests_cant": "The text is built from many messages of at most 199 bytes with fields of variable length; that nothing is cut and that texts of different records differ concerns all field values.", "anchors": ["libmseed/msrutils.c:227-290", "libmseed/logging.c:396-404"]}
{"id": "C12", "title": "Fixed-field string copies clean, terminate and stay in bounds", "statement": "ms_strncpclean() stores the source's first `length` characters with all spaces removed, ms_strncpcleantail() with only trailing spaces removed, and ms_strncpopen() pads with spaces to exactly `length`; the first two NUL-terminate within length+1 bytes, and the returned count is the number of characters kept.", "quantifier": "all source strings and all lengths", "why_tests_cant": "all strings, lengths, and positions of spaces and terminators", "anchors": ["libmseed/genutils.c:ms_strncpclean", "libmseed/genutils.c:ms_strncpcleantail", "libmseed/genutils.c:ms_strncpopen"]}
{"id": "C120", "title": "Everything msi prints", "statement": "For files that can be read, the standard output of msi is: for each processed record in file order its offset in ten columns if asked for, its text, and the samples if asked for (six to a line, each at the right of ten columns); then, with -s, one line with the numbers of files, processed records and their samples; then the lists asked for. If a file cannot be read to the end, the records until then are printed and neither totals nor lists are.", "quantifier": "all lists of files, all options except -z and -L", "why_tests_cant": "Tests compare a few outputs; the claim is that nothing else is printed, nothing is missing and the totals are those of the records shown, for every input.", "anchors": ["src/msi.c:146-374"]}
{"id": "C121", "title": "The raw header check of version 3 records names exactly the fields that are wrong", "statement": "Given at least 40 bytes of a version 3 record, the header check (ms_parse_raw3, msi -z) complains about a source identifier of fewer than 4 characters or one that does not end in the bytes given and stops there; otherwise it complains, once each, about exactly those of record indicator, format version, year (1900-2100), day (1-366), hour, minute, second (0-60) and nanoseconds that are out of range.  It returns the number of complaints, 0 exactly for sound headers, does not depend on how much is printed, and reads only the bytes given.  A record that fits the format passes exactly if its identifier has at least 4 characters, and year, day and nanoseconds are in these ranges.", "quantifier": "all byte strings, all numbers of bytes of at least 40, all levels of detail, both host byte orders, all version 3 records", "why_tests_cant": "each field has up to 2^32 values and the messages depend on all of them together; a test checks a few broken headers, not that no other header is reported, nor that nothing outside is read", "anchors": ["libmseed/parseutils.c:316-492", "src/msi.c:221-238"]}
{"id": "C122", "title": "The raw header check of version 2 records names exactly what is wrong, ends and stays in the record", "statement": "The header check of version 2 records (ms_parse_raw2, msi -z) complains about exactly those fields of the fixed header that are out of range (sequence number, quality, reserved byte, codes, year, day, time, samples above 20000, no room for blockettes), once each, in the byte order that the year and day show.  With a chain of blockettes that goes forward inside the record it also complains about exactly those blockettes 1000 with unknown encoding or byte order, data or blockettes beyond the record length, data before the end of the blockettes and a wrong number of blockettes.  It returns the number of complaints, ends for every record, uses the byte order asked for and reads only the record.", "quantifier": "all byte strings, all lengths of at least 48, all levels of detail, both host byte orders and signs of char, all chains of blockettes", "why_tests_cant": "the blockette chain is a linked list in untrusted bytes with up to 65536 positions; termination and bounds depend on all links, and that nothing else is reported is a claim about all records", "anchors": ["libmseed/parseutils.c:527-1347", "libmseed/unpack.c:1566-1622", "src/msi.c:221-238"]}
{"id": "C123", "title": "Records that the library reads or makes pass its header check", "statement": "The checks of msi -z and the parser agree. A version 3 record that is read gets a message exactly if its identifier has fewer than 4 characters, if the identifier does not fit into the record length, or if its year is not 1900 to 2100, then only that one; otherwise none. All records packed as version 3 with an identifier of at least 4 characters and samples of the years 1900 to 2100 pass. A record packed as version 2 passes exactly if its codes are letters and digits, it has at most 20000 samples and fewer than 256 blockettes.", "quantifier": "every buffer, record length, option and host byte order for reading; every description with samples or without, every record of every packing", "why_tests_cant": "The check and the parser are two independent readings of the same bytes, and no test goes through every record that can be read or packed.", "anchors": ["libmseed/parseutils.c:316-492", "libmseed/parseutils.c:527-1347", "libmseed/unpack.c:74-229", "libmseed/pack.c:154-372", "libmseed/pack.c:590-839", "src/msi.c:221-238"]}
{"id": "C124", "title": "Copy of a record is independent", "statement": "msr3_duplicate returns a record with the same header fields and its own copies of the extra headers and, when asked for, of the samples; neither the original nor any other memory changes. Freeing the copy gives back exactly what the copy took; freeing the original leaves the copy whole. If an allocation fails at any point, NULL is returned and no memory is lost.", "quantifier": "all records (with or without extra headers and samples), both values of datadup, all memory states and all patterns of allocation failure", "why_tests_cant": "Sharing and leaks show only through later frees and writes; allocation failures at each point are not reachable by ordinary tests.", "anchors": ["libmseed/msrutils.c:120-183", "libmseed/libmseed.h:358-382"]}
{"id": "C125", "title": "Initialising and freeing records", "statement": "msr3_free gives back the record, its extra headers and its sample buffer, each exactly once, and nothing else; NULL is accepted. msr3_init of an existing record gives back its extra headers, keeps its sample buffer and resets every other field; msr3_init of NULL gives a new reset record or NULL when there is no memory.", "quantifier": "all records and memory states", "why_tests_cant": "Double frees and leaks do not change results in a test; the claim is about all memory.", "anchors": ["libmseed/msrutils.c:43-103"]}
{"id": "C126", "title": "Resizing sample buffers keeps the samples", "statement": "msr3_resize_buffer and mstl3_resize_buffers make each sample buffer exactly as large as its samples, keep the samples, change no other field and give back the rest of the memory.", "quantifier": "all records, all trace lists of any number of sources and segments, all memory states", "why_tests_cant": "Memory beyond the samples is not visible to tests, and failures of realloc cannot be provoked by ordinary ones.", "anchors": ["libmseed/msrutils.c:304-337", "libmseed/tracelist.c:1522-1570"]}
{"id": "C127", "title": "Freeing a trace list gives back all of it once", "statement": "mstl3_free gives back the list, all sources, segments, sample buffers, record lists with their entries and records, and the private data when asked for, each exactly once, and nothing else. mstl3_init of an existing list does the same and gives an empty list.", "quantifier": "all trace lists of any number of sources, segments and record list entries, all memory states", "why_tests_cant": "Leaks and double frees depend on the whole linked structure; tests see neither.", "anchors": ["libmseed/tracelist.c:53-161"]}
{"id": "C128", "title": "Selections in memory", "statement": "ms3_addselect adds the time window to the entry with the same pattern and version, or adds an entry in front of the list, and changes no other entry and no other memory; when it returns an error the list is as before and no memory is lost. ms3_freeselections gives back all entries and time windows, each exactly once, and nothing else, so that the memory after any number of additions and freeing is the memory before.", "quantifier": "all lists of selections, all sequences of calls, all memory states and patterns of allocation failure", "why_tests_cant": "Links and leaks depend on the whole history of calls; failures of allocation are not reachable by ordinary tests.", "anchors": ["libmseed/selection.c:180-269", "libmseed/selection.c:664-697"]}
{"id": "C129", "title": "Printed selections", "statement": "ms3_printselections prints for every entry, in order, a line with its pattern and publication version and for every time window a line with both times in 30 columns, or 'No start time' and 'No end time' for open ones.", "quantifier": "all lists of entries, all 64-bit times", "why_tests_cant": "All times and numbers of windows cannot be listed.", "anchors": ["libmseed/selection.c:706-742"]}
{"id": "C13", "title": "Identifier length never splits a UTF-8 character", "statement": "The length the library assigns to a source identifier of at most N bytes is the length of the longest prefix that is complete, well-formed UTF-8 of at most N bytes (so a multi-byte character is never cut and invalid bytes are never included).", "quantifier": "every byte string and every limit N", "why_tests_cant": "all byte sequences; overlong forms, surrogates and truncation at each position", "anchors": ["libmseed/genutils.c:utf8length_int", "libmseed/pack.c:msr3_pack_header3"]}
{"id": "C130", "title": "Samples are added to segments without loss", "statement": "Adding a record to the end or to the beginning of a segment, or a second segment behind it, gives a segment whose samples are the ones it had followed or preceded by the added ones, in a buffer that is large enough and whose size is recorded: exactly what is needed, or a whole number of preallocation blocks more than before. Nothing else in memory changes, the added record is not shared or changed, and if memory is short the samples of the segment are kept. A new segment has a copy of the samples of its record.", "quantifier": "all segments and records with samples of the same type, all preallocation block sizes, every allocation failing or not", "why_tests_cant": "buffers are moved and extended in ways that depend on the allocator and the block size, failures cannot be provoked by ordinary tests", "anchors": ["libmseed/tracelist.c:mstl3_addmsr_recordptr", "libmseed/genutils.c:libmseed_memory_prealloc"]}
{"id": "C131", "title": "Reading a URL gives the bytes of the object", "statement": "The reads of an opened URL, of whatever sizes and however the bytes arrive, give the bytes of the object in order and each exactly once; a read never gives more than there is room for, gives at least a byte or the end, returns, and reports the end only after all bytes of the object have been read.", "quantifier": "All contents and all ways they are cut into pieces, all sequences of reads of all sizes, everything libcurl may do between them (pieces handed over per call, pauses, the end of the transfer).", "why_tests_cant": "The pieces a transfer comes in and the moments it is paused depend on the network; a test server sees a few of them, and pieces that do not fit into the rest of the buffer are rare.", "anchors": ["libmseed/msio.c:45-93", "libmseed/msio.c:478-622", "libmseed/libmseed.h:msio"]}
{"id": "C132", "title": "A byte range of a URL is the range of the object", "statement": "Opening a URL with a range of bytes gives a stream of exactly those bytes of the object (up to its end), with the position set to that of the first of them, whatever case and further lines the header of the answer has; without a range it is the whole object. An answer with an error status is an error.", "quantifier": "All objects, all ranges, all servers that honour requests for ranges, all headers, all ways the bytes arrive.", "why_tests_cant": "Tests use one server and a few ranges; whether the offsets that are reported for records are positions in the object depends on the header the server chooses to send.", "anchors": ["libmseed/msio.c:100-156", "libmseed/msio.c:206-387", "libmseed/fileutils.c:331-369"]}
{"id": "C133", "title": "Records are read from a URL as from a file", "statement": "Reading the records of an object from a URL returns every record that is asked for once, in order, with its offset in the object, and then reports the end, as reading the same bytes from a file does, in whatever pieces the bytes arrive; also for a byte range of the object. Every call returns if bytes keep arriving.", "quantifier": "All objects smaller than the read buffer with any bytes and options; all objects of version 3 records of any number and length; all ways the bytes arrive, all ranges, selections and options.", "why_tests_cant": "How the bytes of an object are cut into pieces, and so where the read buffer ends in a record, depends on the network and on the server; tests read small objects from one server.", "anchors": ["libmseed/fileutils.c:256-569", "libmseed/msio.c:478-622"]}
{"id": "C134", "title": "Record lists keep every entry in order", "statement": "Adding a record to the record list of a segment puts one entry, with a copy of the header of the record and the given time, at the end or at the start as asked, and leaves all other entries, the record and the rest of memory as they were; a refused addition changes nothing. When two segments are joined, the list of the first is its own entries followed by those of the second, the count is the sum, and the second segment with what it alone owned is given back exactly once.", "quantifier": "All segments with and without a list, lists of any length with any records and private pointers, all records, all places, all patterns of allocation failures.", "why_tests_cant": "Which allocation fails, and so what is left behind, depends on the memory of the machine; a wrong link or count shows only when the list is walked much later, after many records have arrived in a certain order.", "anchors": ["libmseed/tracelist.c:1265-1337", "libmseed/tracelist.c:1222-1235", "libmseed/tracelist.c:625-652"]}
{"id": "C135", "title": "Reading with selections and time windows", "statement": "Reading records with data selections, from a file or from memory, one by one or into a trace list, returns or adds exactly the records that one of the requests selects, by source identifier, version and the times of the first and last sample. Reading a file into a trace list with a time window adds exactly the records that have a point in time in the window, of all sources and versions. Testing a record never reads outside the pattern.", "quantifier": "All selections of any number of requests, all windows, open at either side or not, all files of any number of records of both versions, all options.", "why_tests_cant": "A record at the edge of a window or with the last sample in it depends on the rounding of times; selections and files can be combined without bound.", "anchors": ["libmseed/selection.c:57-157", "libmseed/fileutils.c:256-638", "libmseed/tracelist.c:864-978"]}
{"id": "C136", "title": "Latency of a record", "statement": "The latency of a record is the time from its last sample to the time of the host, for records with a rate in samples per second, with a period in seconds, and with a leap second within; a record with one sample, or none, is as old as its start time.", "quantifier": "All start times, all numbers of samples up to 2^53, all rates and any rounding of double arithmetic; host times from 1425 to 2514.", "why_tests_cant": "The result depends on the clock, and the error of rounding has to be bounded over all rates and spans.", "anchors": ["libmseed/msrutils.c:381-418"]}
{"id": "C137", "title": "Settings of URL requests", "statement": "After any sequence of calls that set headers, name the program, give user and password or free the headers, of which any may be refused, each request has exactly the headers asked for since they were last freed, in the order of the calls, and the user and password of the last call that was accepted. A call that returns an error changes nothing.", "quantifier": "All sequences of calls with any texts, any failures of the HTTP library.", "why_tests_cant": "Sequences of calls and failures of memory can be combined without bound; the HTTP library fails rarely.", "anchors": ["libmseed/msio.c:38-42", "libmseed/msio.c:233-270", "libmseed/msio.c:360-364", "libmseed/msio.c:625-763", "libmseed/fileutils.c:755-855"]}
{"id": "C138", "title": "Memory of parsed extra headers", "statement": "No sequence of calls that get, set, merge, replace, serialize or free the extra headers of a record, with a parsed state or without, frees a block twice, uses a freed block or frees a block of the program's own, whatever allocation fails and whatever text the record has; after the parsed state is freed no memory is left allocated but the record's extra headers.", "quantifier": "All sequences of calls on a record and its parsed state, with any pattern of failed allocations and refused texts.", "why_tests_cant": "Failures of allocation at each point of a sequence of calls are too many to run, and lost memory is not an observable result of a call.", "anchors": ["libmseed/extraheaders.c:55-106", "libmseed/extraheaders.c:149-265", "libmseed/extraheaders.c:312-476", "libmseed/extraheaders.c:997-1072", "libmseed/extraheaders.c:1090-1142"]}
{"id": "C139", "title": "Life of a reader", "statement": "Whatever memory, the file system and the files do, calls that open, read and close files, the standard input or a descriptor in any order never use or close a stream that is not open and never free or use freed memory; a call gives a record exactly if it returns no error; each file is read from the place that its path names; and after the call that closes, nothing is left allocated and no stream is left open.", "quantifier": "All sequences of calls with any paths and any pattern of failures of allocation, opening and positioning.", "why_tests_cant": "Failures at each point of a sequence of calls are too many to run, and lost memory or streams are not seen in the results.", "anchors": ["libmseed/fileutils.c:74-101", "libmseed/fileutils.c:256-372", "libmseed/fileutils.c:560-569", "libmseed/fileutils.c:1012-1064", "libmseed/msio.c:386-460"]}
{"id": "C14", "title": "msi's -m/-r matching is shell-style globbing", "statement": "The matcher behind msi -m and -r accepts a string exactly when it matches the pattern under shell rules: '*' any run, '?' any one character, '[..]' a set with ranges and '^' negation, '\\c' the character c, anything else itself.", "quantifier": "every pattern whose bracket expressions are well formed and every string", "why_tests_cant": "pattern/string pairs are unbounded and '*' backtracking has exponentially many cases", "anchors": ["src/msi.c:my_globmatch", "src/msi.c:main"]}
{"id": "C140", "title": "Return codes explain what happened", "statement": "Every code that reading, parsing or decoding a record returns has a text of its own, codes are negative exactly at errors, and the code of an error names its cause: an unknown data encoding, undefined Steim flags, a wrong CRC, a length out of range or data that is not miniSEED.", "quantifier": "All records, all outcomes and all values of the code.", "why_tests_cant": "Each code needs a record that is wrong in one way only, and a test sees the codes it provokes, not those that cannot be returned.", "anchors": ["libmseed/libmseed.h:1441-1455", "libmseed/lookup.c:197-239", "libmseed/unpack.c:1120-1254", "libmseed/unpack.c:1275-1443"]}
{"id": "C141", "title": "Names of blockettes", "statement": "In the details of a record each blockette of a known type is printed with its name, every other one as unknown, and the unknown ones are exactly those whose length is reported as unknown, whatever bytes they hold.", "quantifier": "All types of blockettes, byte orders and contents.", "why_tests_cant": "There are 65536 types, and tests use records with common ones.", "anchors": ["libmseed/unpack.c:1504-1558", "libmseed/unpack.c:1560-1622", "libmseed/parseutils.c:822-834"]}
{"id": "C142", "title": "Number of blockettes in a version 2 header", "statement": "The header of every version 2 record that is packed tells how many blockettes follow it: those for the length, timing and sample rate, and one for each timing exception and event detection in the extra headers and for each calibration.", "quantifier": "All descriptions of records, extra headers and buffers.", "why_tests_cant": "The number is right in all records of usual size; extra headers with hundreds of entries are not in tests, and reading such a record gives a warning at most.", "anchors": ["libmseed/pack.c:1100-1158", "libmseed/pack.c:1160-1594", "libmseed/unpack.c:919-925"]}
{"id": "C143", "title": "Offset of the data in a version 2 header", "statement": "The header of every version 2 record that is packed with samples tells the offset at which its encoded samples begin, whatever blockettes the extra headers need before them, in the first record and in all later ones of the call.", "quantifier": "All descriptions, extra headers, encodings, record lengths, contents of the buffer and numbers of records.", "why_tests_cant": "The offset is right for headers of usual size; headers of more than 65535 bytes need records of 131072 bytes with thousands of entries, which no test packs.", "anchors": ["libmseed/pack.c:696-720", "libmseed/pack.c:757-828", "libmseed/pack.c:1160-1594"]}
{"id": "C144", "title": "Versions may be split in some additions and not in others", "statement": "Records may be added to one trace list with and without the splitversion flag: walking the list still visits each source (and version, where split) once, in order, and adds later records to the entry of their own version.", "quantifier": "All histories of additions with any flag for each, all seeds of the random heights.", "why_tests_cant": "Tests use one flag for all additions to a list; the fault needs additions of three versions with flags changing in between.", "anchors": ["libmseed/tracelist.c:179-233", "libmseed/tracelist.c:404-408", "libmseed/tracelist.c:713-717"]}
{"id": "C145", "title": "Adding an entry to a trace list without previous pointers", "statement": "mstl3_addID called with an entry and no array of previous pointers adds the entry to the list in its place and returns it, or returns NULL and leaves the list as it was, so that the caller may free the entry.", "quantifier": "All lists made by adding records, all entries, all seeds of the random heights.", "why_tests_cant": "Whether entries are linked at some levels only depends on the random heights of both entries; tests call the function through mstl3_addmsr, which always has the array.", "anchors": ["libmseed/tracelist.c:179-233", "libmseed/tracelist.c:250-300"]}
{"id": "C146", "title": "The display of blockettes leaves no byte out", "statement": "The header display of version 2 records (ms_parse_raw2 with details, msi -z -ppp) shows every byte of a blockette of fixed size after its type and link exactly once, and nothing behind it; with fewer details it leaves out exactly the reserved bytes and the flags of types 100 and 200.", "quantifier": "All blockette types of fixed size and the fixed part of opaque data, all byte positions, all levels of details.", "why_tests_cant": "A field read at a wrong offset prints plausible values; tests compare a few records with few types.", "anchors": ["libmseed/parseutils.c:849-1283", "libmseed/mseedformat.h:155-583"]}
{"id": "C147", "title": "Files of selections are closed again", "statement": "ms3_readselectionsfile leaves open exactly the streams that were open before the call, whether it succeeds or returns an error; the standard input stays open.", "quantifier": "All file contents, lists of selections, sequences of calls, files that cannot be opened, and the standard input.", "why_tests_cant": "Open streams are not visible in the results; a process runs out of them only after many calls.", "anchors": ["libmseed/selection.c:427-655"]}
{"id": "C148", "title": "Unpacking a record list gives back what it used", "statement": "mstl3_unpack_recordlist closes every file it opened and gives back all memory it took, except the samples of the segment when the call made room for them and succeeded, whether it succeeds or returns an error.", "quantifier": "All record lists (in buffers, open files and named files), output buffers given or not, files that cannot be opened, positioned, read or decoded, and all patterns of allocation failure.", "why_tests_cant": "Open streams and lost memory are not visible in the results; failures of allocation and of files at each step are not provoked by tests.", "anchors": ["libmseed/tracelist.c:1613-1874"]}
{"id": "C15", "title": "Selection globbing is shell-style globbing", "statement": "The matcher used for source-ID selections accepts a string exactly when it matches the pattern under the documented rules ('*', '?', '[..]', '\\char' matching char).", "quantifier": "every pattern and string", "why_tests_cant": "unbounded pattern/string pairs", "anchors": ["libmseed/selection.c:ms_globmatch"]}
{"id": "C16", "title": "Matching terminates and never reads outside its strings", "statement": "For any NUL-terminated pattern and string the glob matchers terminate and never read beyond either terminator.", "quantifier": "every pattern (including malformed) and string", "why_tests_cant": "memory safety for all malformed patterns", "anchors": ["src/msi.c:my_globmatch", "libmseed/selection.c:ms_globmatch"]}
{"id": "C17", "title": "CRC values are CRC-32C for every buffer", "statement": "For every byte buffer, whatever its length, its alignment in memory and the host byte order, ms_crc32c() equals the bit-by-bit CRC-32C (Castagnoli, reflected) definition.", "quantifier": "every buffer, length, alignment and previous CRC", "why_tests_cant": "the sliced implementation takes different code paths per length and alignment with 2048 table constants; tests cover few", "anchors": ["libmseed/crc32c.c:ms_crc32c", "libmseed/crc32c.c:s_crc32c_sb8", "libmseed/crc32c.c:CRC32C_TABLE"]}
{"id": "C18", "title": "CRC can be computed piecewise", "statement": "Computing the CRC of a first part and passing it as previous CRC for a non-empty second part gives the CRC of the concatenation, wherever the buffers lie in memory (parts of fewer than three bytes must be 4-byte aligned, see C17).", "quantifier": "every pair of non-empty buffers, every alignment, every starting CRC", "why_tests_cant": "all buffers and split points", "anchors": ["libmseed/crc32c.c:ms_crc32c"]}
{"id": "C19", "title": "CRC validation detects every corruption confined to 4 consecutive bytes", "statement": "If two equally long buffers of at least three bytes differ, and all differences lie within 4 consecutive bytes, their CRC values differ.", "quantifier": "every buffer, every position and every corruption pattern", "why_tests_cant": "2^32-1 error patterns at each position of every buffer", "anchors": ["libmseed/crc32c.c:ms_crc32c", "libmseed/unpack.c:msr3_unpack_mseed3"]}
{"id": "C20", "title": "Steim-1 compression is lossless", "statement": "Whenever the Steim-1 encoder reports n samples packed, decoding its output with the Steim-1 decoder for n samples returns exactly the first n input samples with no integrity warning, for both byte orders.", "quantifier": "every list of 32-bit samples, every previous-sample difference and every output buffer size", "why_tests_cant": "space of sample sequences is unbounded; each of the 4-way width choices per word and frame/record boundary must line up", "anchors": ["libmseed/packdata.c:msr_encode_steim1", "libmseed/unpackdata.c:msr_decode_steim1"]}
{"id": "C21", "title": "Steim-2 compression is lossless", "statement": "Whenever the Steim-2 encoder reports n samples packed, decoding its output with the Steim-2 decoder for n samples returns exactly the first n input samples; a difference that needs more than 30 bits is refused instead of stored wrong.", "quantifier": "every list of 32-bit samples and every output buffer size", "why_tests_cant": "as for Steim-1, with 7 packings and a 30-bit limit", "anchors": ["libmseed/packdata.c:msr_encode_steim2", "libmseed/unpackdata.c:msr_decode_steim2"]}
{"id": "C22", "title": "Steim encoders make progress and never write past the output", "statement": "With room for at least one 64-byte frame and at least one sample, the Steim encoders pack at least one sample, never more than given, and write only inside the output length.", "quantifier": "every sample list and output length", "why_tests_cant": "termination of the caller's packing loop depends on progress for every input", "anchors": ["libmseed/packdata.c:msr_encode_steim1", "libmseed/packdata.c:msr_encode_steim2"]}
{"id": "C23", "title": "Steim decoders are memory safe on arbitrary bytes", "statement": "For arbitrary (corrupt or malicious) input bytes, the Steim-1 and Steim-2 decoders read only inside the input, write at most the requested number of samples inside the output, and return either an error or a count not above the request.", "quantifier": "every byte string, requested sample count and output size", "why_tests_cant": "adversarial inputs; all nibble/dnib combinations at every position", "anchors": ["libmseed/unpackdata.c:msr_decode_steim1", "libmseed/unpackdata.c:msr_decode_steim2"]}
{"id": "C24", "title": "Uncompressed encodings are lossless", "statement": "Text, 16-bit and 32-bit integer, 32-bit and 64-bit float encoding followed by decoding returns exactly the samples packed, for both byte orders; the encoder packs exactly as many samples as fit.", "quantifier": "every sample list representable in the encoding and every output size", "why_tests_cant": "all sample values and lengths", "anchors": ["libmseed/packdata.c:msr_encode_int16", "libmseed/packdata.c:msr_encode_int32", "libmseed/packdata.c:msr_encode_float32", "libmseed/packdata.c:msr_encode_float64", "libmseed/packdata.c:msr_encode_text", "libmseed/unpackdata.c:msr_decode_int16", "libmseed/unpackdata.c:msr_decode_int32", "libmseed/unpackdata.c:msr_decode_float32", "libmseed/unpackdata.c:msr_decode_float64"]}
{"id": "C25", "title": "Legacy gain-ranged encodings decode to mantissa times gain", "statement": "CDSN, SRO, DWWSSN and GEOSCOPE samples decode to the signed mantissa scaled by the gain that their bit fields specify, for every 16-bit (24-bit) code word.", "quantifier": "every code word and both byte orders", "why_tests_cant": "each of 65536 code words per format must give the right value; the sign and gain formulas are easy to get wrong at the extremes", "anchors": ["libmseed/unpackdata.c:msr_decode_cdsn", "libmseed/unpackdata.c:msr_decode_sro", "libmseed/unpackdata.c:msr_decode_dwwssn", "libmseed/unpackdata.c:msr_decode_geoscope"]}
{"id": "C26", "title": "Version 3 headers round trip", "statement": "Parsing a header written by msr3_pack_header3() gives back the same identifier, start time, sample rate bits, encoding, flags, publication version and extra headers.", "quantifier": "every record description with an accepted start time, identifier of up to 63 bytes and extra headers of up to 65535 bytes", "why_tests_cant": "all field values; endian and offset errors appear only for particular values", "anchors": ["libmseed/pack.c:msr3_pack_header3", "libmseed/unpack.c:msr3_unpack_mseed3"]}
{"id": "C27", "title": "Version 3 record detection returns the exact record length", "statement": "ms3_detect() on a buffer beginning with a version 3 record returns header + identifier + extra header + data length; on bytes that are not a record it returns -1; with fewer than the needed bytes it reports insufficiency, never a wrong length.", "quantifier": "every byte buffer", "why_tests_cant": "arbitrary byte buffers, including hostile length fields", "anchors": ["libmseed/parseutils.c:ms3_detect"]}
{"id": "C28", "title": "Version 2 record detection terminates and follows the blockette chain", "statement": "ms3_detect() on a version 2 record returns 2^k from Blockette 1000 when there is one in its chain, always terminates, and never loops on a cyclic or backward chain.", "quantifier": "every byte buffer", "why_tests_cant": "hostile chains: every chain of offsets", "anchors": ["libmseed/parseutils.c:ms3_detect"]}
{"id": "C29", "title": "Record detection never reads outside the buffer", "statement": "ms3_detect() and msr3_parse() read no byte at or after the given buffer length and store no byte outside the objects they fill.", "quantifier": "every byte buffer of every length, including records that are truncated or hostile", "why_tests_cant": "memory safety over all inputs", "anchors": ["libmseed/parseutils.c:ms3_detect", "libmseed/parseutils.c:msr3_parse"]}
{"id": "C30", "title": "CRC-validating parse accepts a version 3 record exactly when its CRC is right", "statement": "With CRC validation requested, parsing a version 3 record succeeds in the CRC check exactly when the stored CRC equals the CRC-32C of the record with the CRC field zeroed, and the caller's bytes are left unchanged; every record produced by the packer passes.", "quantifier": "every record byte string", "why_tests_cant": "all byte strings", "anchors": ["libmseed/unpack.c:msr3_unpack_mseed3", "libmseed/pack.c:msr3_pack_mseed3"]}
{"id": "C31", "title": "Packing keeps every sample, once, in order", "statement": "When packing into version 3 records with flush requested, the concatenated samples of the emitted records are exactly the input samples in order, the reported packed-sample count is their number, and no record is longer than the maximum record length.", "quantifier": "every sample list, encoding and maximum record length", "why_tests_cant": "unbounded data lengths and record boundaries", "anchors": ["libmseed/pack.c:msr3_pack_mseed3", "libmseed/pack.c:msr_pack_data"]}
{"id": "C32", "title": "Every version 3 record packed starts at the time of its first sample", "statement": "In the sequence of version 3 records produced by packing, the start time of each record is the sample time of its first sample computed from the original start time and the number of samples already packed. (Version 2 records hold microseconds and are property C86.)", "quantifier": "every start time, sample rate and division into records", "why_tests_cant": "histories of any number of records; drift would only show after many", "anchors": ["libmseed/pack.c:msr3_pack_mseed3", "libmseed/genutils.c:ms_sampletime"]}
{"id": "C33", "title": "Repacking a record header stays inside the caller's buffer", "statement": "msr3_repack_mseed3() either refuses or writes only within the given buffer length.", "quantifier": "every record and every buffer length", "why_tests_cant": "bounds must hold for every combination of identifier, extra header and data lengths", "anchors": ["libmseed/pack.c:msr3_repack_mseed3"]}
{"id": "C34", "title": "Reading a file returns every record exactly once, in file order", "statement": "For a file of complete records, repeated reading returns exactly the records asked for, in order, and then reports the end of the file, wherever the records fall relative to the internal read buffer; with skipping of non-data, bytes in which no record begins may be anywhere between the records.", "quantifier": "every sequence of records, every selection, any bytes between the records", "why_tests_cant": "all record length sequences and buffer phase alignments", "anchors": ["libmseed/fileutils.c:ms3_readmsr_selection", "libmseed/msio.c:msio_fread"]}
{"id": "C35", "title": "Reported stream offset is where the record begins", "statement": "After each successful read the reported stream position minus record length (as used by msi's offset printing) is the byte offset of that record in the file.", "quantifier": "every file and every record in it, with or without skipped bytes", "why_tests_cant": "accumulated offset across an unbounded history of reads and buffer shifts", "anchors": ["libmseed/fileutils.c:ms3_readmsr_selection", "src/msi.c:main"]}
{"id": "C36", "title": "Byte ranges in path names are parsed as documented", "statement": "With range parsing, a path 'FILE@START', 'FILE@START-END' or 'FILE@-END' (decimal numbers of up to 20 digits) opens FILE with exactly these offsets; any other path is opened unchanged and without offsets; no path makes the library write outside its arrays.", "quantifier": "every path string", "why_tests_cant": "all strings; digits, missing parts, embedded @, long names and large numbers", "anchors": ["libmseed/fileutils.c:parse_pathname_range", "libmseed/fileutils.c:ms3_readmsr_selection"]}
{"id": "C37", "title": "Trace lists conserve samples", "statement": "After adding any sequence of records to a trace list, the sample counts of all segments of a source add up to the sample counts of all records added for it: merging, healing and reordering never lose or duplicate samples.", "quantifier": "every history of added records, tolerances and heal settings", "why_tests_cant": "histories are unbounded and arrival order is arbitrary", "anchors": ["libmseed/tracelist.c:mstl3_addmsr_recordptr", "libmseed/tracelist.c:mstl3_addmsrtoseg", "libmseed/tracelist.c:mstl3_addsegtoseg"]}
{"id": "C38", "title": "Segments of a source stay in time order and properly linked", "statement": "After any sequence of additions, the segments of each source form a proper doubly linked list (first/last/next/prev and the segment count agree), ordered by start time and, for equal start, longer first.", "quantifier": "every history of added records", "why_tests_cant": "pointer surgery in many branches, every history", "anchors": ["libmseed/tracelist.c:mstl3_addmsr_recordptr"]}
{"id": "C39", "title": "Sources are listed once each, in order", "statement": "After any sequence of additions, walking the trace list visits each (source ID, version where split) exactly once in sorted order, and finding an ID returns its entry exactly when it was added, whatever random heights the skip list used.", "quantifier": "every history of additions and every outcome of the random height generator", "why_tests_cant": "all histories and random outcomes", "anchors": ["libmseed/tracelist.c:mstl3_findID", "libmseed/tracelist.c:mstl3_addID", "libmseed/tracelist.c:mstl3_addmsr_recordptr"]}
{"id": "C40", "title": "Reported earliest and latest times are the extremes of the data", "statement": "For each source the earliest time is the minimum record start and the latest the maximum record end over all records added for it, and the publication version is the maximum added.", "quantifier": "every history of added records", "why_tests_cant": "every order of arrival", "anchors": ["libmseed/tracelist.c:mstl3_addmsr_recordptr"]}
{"id": "C41", "title": "Records are joined to a segment only within tolerance", "statement": "A record is appended to (prepended to) an existing segment only if the gap between the segment's end (the record's end) and the record's start (segment's start) differs from one sample period by at most the time tolerance and the sampling rates are similar; records that are exactly contiguous at the same rate are always joined into one segment when they arrive in time order.", "quantifier": "every pair of segment and record, every tolerance", "why_tests_cant": "depends on all times, rates and tolerances", "anchors": ["libmseed/tracelist.c:mstl3_addmsr_recordptr", "libmseed/tracelist.c:IS_SAMPRATE_SIMILAR"]}
{"id": "C42", "title": "A sample-rate tolerance admits only rates within it", "statement": "When a positive sample-rate tolerance is given (msi -rt), rates are treated as similar exactly when they differ by no more than the tolerance.", "quantifier": "every pair of rates and tolerance", "why_tests_cant": "quantifies over all rates", "anchors": ["libmseed/tracelist.c:IS_SAMPRATE_SIMILAR", "src/msi.c:main"]}
{"id": "C43", "title": "Gap reports are exactly the gaps between consecutive segments", "statement": "The gap list contains, source by source in order, one entry for each pair of consecutive segments (the first having a non-zero sample rate) whose gap in seconds is inside the requested minimum/maximum, none for others; a gap is reported as the time between the segments, an overlap as negative and never longer than the following segment's coverage with one sample period; the total is the number of entries.", "quantifier": "every trace list and every limit", "why_tests_cant": "all segment configurations", "anchors": ["libmseed/tracelist.c:mstl3_printgaplist"]}
{"id": "C44", "title": "Selections match exactly the records inside a listed window", "statement": "A record is selected exactly when some selection entry's pattern matches its source ID, its version constraint is 0 or equal, and (no windows, or) one of its time windows overlaps the record's time span, with unset bounds open; adding further selections never deselects a record.", "quantifier": "every selection list and every record", "why_tests_cant": "all lists of windows and records, boundary coincidences", "anchors": ["libmseed/selection.c:ms3_matchselect", "libmseed/selection.c:ms3_addselect"]}
{"id": "C45", "title": "msi's output file is exactly the selected records, byte for byte", "statement": "With an output file given, msi writes exactly the bytes of the records that pass the time window, the match and the reject patterns, in input order, each once, across all input files.", "quantifier": "every set of input files and filter options", "why_tests_cant": "every input sequence and filter combination", "anchors": ["src/msi.c:main"]}
{"id": "C46", "title": "msi -n limits the number of records processed", "statement": "With a record limit N >= 0 msi processes exactly the first N records that pass the filters (or all when fewer) over all files, reports that count in its total, and does not open files after the limit is reached.", "quantifier": "every input and every N", "why_tests_cant": "every input sequence", "anchors": ["src/msi.c:main"]}
{"id": "C47", "title": "msi totals equal the sums over processed records", "statement": "The totals msi prints with -s are the number of records processed, the sum of their sample counts, and the number of files given.", "quantifier": "every input sequence", "why_tests_cant": "every history", "anchors": ["src/msi.c:main"]}
{"id": "C48", "title": "msi time window keeps exactly the overlapping records", "statement": "With -ts and/or -te msi keeps a record exactly when its closed time span [start,end] intersects the closed window; it never drops a record that contains data in the window.", "quantifier": "every record span and window", "why_tests_cant": "all orderings of four endpoints and unset bounds", "anchors": ["src/msi.c:main"]}
{"id": "C49", "title": "Message registry keeps the newest messages in order", "statement": "With a message limit m > 0, after any sequence of logged warnings/errors, emissions and frees, the registry holds the most recent (at most m) unreported messages, and emitting prints them oldest first, each once; emission reports how many were printed.", "quantifier": "every history of log, emit and free calls", "why_tests_cant": "histories are unbounded; trimming, partial emission and re-use interact", "anchors": ["libmseed/logging.c:add_message_int", "libmseed/logging.c:ms_rlog_emit", "libmseed/logging.c:ms_rlog_free"]}
{"id": "C50", "title": "Logging a message never touches memory outside the message buffer", "statement": "Formatting and registering a message of any length only reads and writes inside the message buffer.", "quantifier": "every prefix, message text and level", "why_tests_cant": "messages longer than the buffer are rare in tests", "anchors": ["libmseed/logging.c:rlog_int"]}
{"id": "C51", "title": "Sample rate factor and multiplier represent the sample rate", "statement": "The nominal rate computed from a version 2 sample rate factor and multiplier follows the SEED rule for all four sign combinations. The factor and multiplier generated for a whole rate up to 32767 samples/s or a whole period up to 32767 s represent it exactly; a larger whole rate (up to about 2^30) is represented exactly if it is a product of two 16-bit numbers and to within its square root otherwise; a ratio of 16-bit numbers is represented to within 1e-8, exactly if one number is at most 10000; and no conversion is undefined.", "quantifier": "every factor/multiplier pair and every rate", "why_tests_cant": "all 2^32 pairs; rational approximation for all rates", "anchors": ["libmseed/unpack.c:ms_nomsamprate", "libmseed/pack.c:ms_genfactmult", "libmseed/pack.c:ms_reduce_rate", "libmseed/pack.c:ms_ratapprox"]}
{"id": "C52", "title": "Converting samples changes representation, not value", "statement": "mstl3_convertsamples() between integer, float and double without truncation allowed either keeps every sample's value or refuses.", "quantifier": "every sample list", "why_tests_cant": "all sample values including negative fractions", "anchors": ["libmseed/tracelist.c:mstl3_convertsamples"]}
{"id": "C53", "title": "Leap second files are read completely or reported", "statement": "After reading a leap second file the table holds exactly the file's entries with correct times and offsets in file order, the number returned is their count, every line that is not of such a file is reported and nothing else is; without a readable file the table stays; the built-in table is that of the announced leap seconds.", "quantifier": "every file content", "why_tests_cant": "every sequence of lines", "anchors": ["libmseed/genutils.c:ms_readleapsecondfile", "libmseed/genutils.c:ms_readleapseconds"]}
{"id": "C54", "title": "Encoding lookups are mutually consistent", "statement": "For every encoding code, the sample type reported, the sample size for that type, and the acceptance by the decoder agree: an encoding has a known size and type exactly when the decoder implements it, and the decoded byte count is samples times that size.", "quantifier": "all 256 encoding codes", "why_tests_cant": "finite, but ties together tables in three files; any edit to one must keep agreement", "anchors": ["libmseed/lookup.c:ms_samplesize", "libmseed/lookup.c:ms_encoding_sizetype", "libmseed/unpack.c:ms_decode_data"]}
{"id": "C55", "title": "The error time value is unambiguous", "statement": "Converting calendar fields to an epoch time returns the error value exactly when a field is outside its documented range, with the single exception of the instant 1902-01-01T00:00:00, whose regular value coincides with the error value.", "quantifier": "all combinations of integer year, day-of-year, hour, minute, second and non-negative nanosecond", "why_tests_cant": "The input space is a product of six integer ranges; tests can only sample it.", "anchors": ["libmseed/genutils.c:ms_time2nstime", "libmseed/libmseed.h:NSTERROR"]}
{"id": "C56", "title": "Channels with delimiters are taken verbatim", "statement": "ms_nslc2sid() rewrites the channel only when it is 3 characters without delimiters (as documented); any other channel is copied into the identifier unchanged.", "quantifier": "all channel strings", "why_tests_cant": "all strings over all lengths", "anchors": ["libmseed/genutils.c:ms_nslc2sid", "libmseed/genutils.c:ms_seedchan2xchan"]}
{"id": "C57", "title": "Copying a fixed-width field reads only the field", "statement": "The fixed-field copies (strip spaces, strip trailing spaces, pad) read no byte outside the given field of N bytes, so a field at the very end of a record buffer is safe.", "quantifier": "all fields and lengths", "why_tests_cant": "memory safety at exact buffer boundaries for all contents", "anchors": ["libmseed/genutils.c:utf8length_int", "libmseed/genutils.c:ms_strncpclean", "libmseed/genutils.c:ms_strncpcleantail", "libmseed/genutils.c:ms_strncpopen"]}
{"id": "C58", "title": "Steim decoders implement the frame format", "statement": "For any sequence of bytes holding at least one 64-byte frame, decoding Steim-1 or Steim-2 data returns exactly the samples the frame format assigns to these bytes (first sample, then running sums of the differences found in the coded words, up to the requested count), reports a data integrity problem exactly if the last requested sample differs from the one recorded in the frames, and returns an error for code combinations the format leaves undefined.", "quantifier": "all byte sequences, byte orders, requested counts", "why_tests_cant": "The decoders are only exercised on well-formed frames written by the encoders; 2^32 possible control words per frame cannot be enumerated.", "anchors": ["libmseed/unpackdata.c:191-600"]}
{"id": "C59", "title": "Steim encoding never overflows 32-bit arithmetic", "statement": "Encoding any sequence of 32-bit integer samples with Steim-1 and decoding any Steim frames is free of signed integer overflow.", "quantifier": "all sequences of 32-bit samples", "why_tests_cant": "Overflow of a signed difference happens to wrap on the machines running the tests.", "anchors": ["libmseed/packdata.c:225-408", "libmseed/unpackdata.c:191-600"]}
{"id": "C60", "title": "Decoding never reads beyond the encoded input", "statement": "ms_decode_data() reads no byte at or after the given input size, for any encoding and any number of requested samples.", "quantifier": "every input, encoding and sample count", "why_tests_cant": "an over-read of a few bytes normally goes unnoticed; hostile sample counts are unbounded", "anchors": ["libmseed/unpack.c:ms_decode_data", "libmseed/unpackdata.c"]}
{"id": "C61", "title": "What the packer encodes, the decoder decodes", "statement": "For every encoding the library can write, decoding the payload bytes produced for a list of samples with the reported sample count returns exactly that many of the samples, whatever bytes follow; the payload never exceeds the space offered; Steim payloads are big-endian whatever the host and requested byte order.", "quantifier": "every sample list representable in the encoding, every space limit, host and data byte order", "why_tests_cant": "ties together dispatch tables in two files and all codecs for all inputs", "anchors": ["libmseed/pack.c:msr_pack_data", "libmseed/unpack.c:ms_decode_data"]}
{"id": "C62", "title": "16-bit encoding refuses samples it cannot represent", "statement": "Packing integers with 16-bit encoding either stores every sample value or returns an error.", "quantifier": "every list of 32-bit integers", "why_tests_cant": "silent truncation only for values outside the range", "anchors": ["libmseed/packdata.c:msr_encode_int16"]}
{"id": "C63", "title": "Repacking a record keeps its content", "statement": "msr3_repack_mseed3() of a parsed record gives one complete version 3 record, with a correct CRC, whose header values and decoded samples are those of the original.", "quantifier": "every parsed record and every sufficient buffer", "why_tests_cant": "all encodings, byte orders, header contents and data sizes", "anchors": ["libmseed/pack.c:msr3_repack_mseed3", "libmseed/unpack.c:msr3_data_bounds"]}
{"id": "C64", "title": "The data payload is located exactly", "statement": "msr3_data_bounds() reports the offset at which the payload begins and a size that covers all samples of the record.", "quantifier": "every record: identifiers, extra headers, encodings and data sizes", "why_tests_cant": "depends on the combination of lengths, only wrong for large or oddly placed payloads", "anchors": ["libmseed/unpack.c:msr3_data_bounds"]}
{"id": "C65", "title": "Packed records carry the metadata of the input", "statement": "Every version 3 record made by msr3_pack() is read back with the identifier, flags, publication version, extra headers, encoding and sample rate of the record description given, and with a valid CRC.", "quantifier": "for all record descriptions, samples, encodings, record lengths and byte orders of writer and reader", "why_tests_cant": "the header is built once and patched in place for each record; a test sees only a few sizes and encodings", "anchors": ["libmseed/pack.c:154-372", "libmseed/pack.c:488-579"]}
{"id": "C66", "title": "Without flush only filled records are made", "statement": "Without MSF_FLUSHDATA msr3_pack() makes only records into which no further sample (Steim: frame) would fit within the maximum record length; the remaining samples are left unpacked.", "quantifier": "for all sample sequences, encodings and record lengths", "why_tests_cant": "depends on the relation between the estimate of samples per record and what the encoder stores, for every sequence of differences", "anchors": ["libmseed/pack.c:233-290"]}
{"id": "C67", "title": "Segments are chains of records", "statement": "After any sequence of additions each segment of a source is a chain of records: it begins with the first record's start, ends with the last record's end, its sample count and samples are those of the records in order, and each record begins one sample period after the end of the one before, within tolerance; every record added is in exactly one chain. Where record lists are kept, the record list of a segment is exactly this chain.", "quantifier": "every history of added records, tolerances, heal settings and record list settings", "why_tests_cant": "invariant over unbounded histories", "anchors": ["libmseed/tracelist.c:mstl3_addmsr_recordptr", "libmseed/tracelist.c:mstl3_addmsrtoseg", "libmseed/tracelist.c:mstl3_addsegtoseg", "libmseed/tracelist.c:mstl3_add_recordptr"]}
{"id": "C68", "title": "Arrival order does not matter with healing", "statement": "Records of a source that follow one another exactly, added in any order with healing enabled, end as one segment with all samples in time order.", "quantifier": "every number of records and every permutation of their arrival, all tolerances below the sample period", "why_tests_cant": "n! arrival orders of any number of records", "anchors": ["libmseed/tracelist.c:mstl3_addmsr_recordptr", "libmseed/tracelist.c:mstl3_addsegtoseg"]}
{"id": "C69", "title": "Sources and versions do not influence one another", "statement": "In a trace list built from records of many sources, every source (and, where splitting by version is requested, every version) holds exactly what it would hold if its own records alone had been added in the same order: records of other sources or versions make no difference and are never mixed in.", "quantifier": "every history of added records of any number of sources, every seed of the skip list heights", "why_tests_cant": "interleavings of any number of sources", "anchors": ["libmseed/tracelist.c:mstl3_addmsr_recordptr", "libmseed/tracelist.c:mstl3_findID", "libmseed/tracelist.c:mstl3_addID"]}
{"id": "C70", "title": "A selection by components selects by each code", "statement": "A selection given by network, station, location and channel codes (patterns, missing ones meaning any, '--' an empty location, three-character channels being expanded) selects exactly the records whose network, station, location and channel codes each match the corresponding pattern, within the version and time constraints.", "quantifier": "every combination of component patterns and every record whose codes are free of underscores", "why_tests_cant": "wildcards can match any text including delimiters; quantifies over all patterns and identifiers", "anchors": ["libmseed/selection.c:ms3_addselect_comp", "libmseed/selection.c:ms3_matchselect"]}
{"id": "C71", "title": "Version 2 records are read with the fields they stand for", "statement": "Parsing a well-formed version 2 record yields exactly what its header and blockettes say: source identifier built from the station, location, channel and network codes, start time including an unapplied time correction and the microsecond offset, sample count, sampling rate from the rate factors or the actual rate, encoding, publication version from the data quality indicator, flags and extra headers.", "quantifier": "every valid fixed header, any chain of blockettes in any order, either byte order of record and host, any bytes after the record", "why_tests_cant": "blockette chains have any length and order, and each field of the result depends on several bytes of header and blockettes", "anchors": ["libmseed/unpack.c:msr3_unpack_mseed2", "libmseed/unpack.c:ms2_recordsid", "libmseed/unpack.c:ms_btime2nstime", "libmseed/parseutils.c:msr3_parse"]}
{"id": "C72", "title": "The byte order of a version 2 record is recognised", "statement": "The byte order of a version 2 record is recognised from its contents, so that a record reads the same on hosts of either byte order.", "quantifier": "every valid record in either byte order on either host", "why_tests_cant": "quantifies over all dates and both byte orders; only three dates of all are misread", "anchors": ["libmseed/unpack.c:msr3_unpack_mseed2", "libmseed/parseutils.c:ms3_detect"]}
{"id": "C73", "title": "The length of a version 2 record lies in the buffer", "statement": "The record length reported for a parsed version 2 record is the length that was detected, positive and not more than the bytes supplied, so that a reader can step over the record by it.", "quantifier": "every buffer", "why_tests_cant": "needs every chain of blockettes, including repeated ones", "anchors": ["libmseed/unpack.c:msr3_unpack_mseed2", "libmseed/parseutils.c:msr3_parse"]}
{"id": "C74", "title": "Reading with unpacking returns the samples a record holds", "statement": "If the data of a record holds samples in one of the encodings of the format (text, 16- and 32-bit integers, 32- and 64-bit floats, Steim 1 and 2, GEOSCOPE, CDSN, SRO, DWWSSN), msr3_parse and ms3_readmsr with MSF_UNPACKDATA return the record with exactly those samples and otherwise as without unpacking, wherever the record lies in memory and whatever follows it.", "quantifier": "every valid record of both versions, every encoding and byte order, any address and following bytes; files of any such records", "why_tests_cant": "depends on the data of the record, its place in memory, padding and header length together", "anchors": ["libmseed/unpack.c:msr3_unpack_data", "libmseed/unpack.c:msr3_data_bounds", "libmseed/unpack.c:ms_decode_data", "libmseed/parseutils.c:msr3_parse", "libmseed/fileutils.c:ms3_readmsr_selection"]}
{"id": "C75", "title": "Reading a buffer of records into a trace list", "statement": "mstl3_readbuffer_selection adds to the trace list every record in the buffer that the selections ask for, once and in order, with its identifier, version, times, rate and samples, and returns their number; every source then holds the samples of exactly its own records; reading ends for every buffer.", "quantifier": "every buffer, number and kind of records, selections, list contents, tolerances, rounding", "why_tests_cant": "unbounded numbers of records and sources, and arbitrary bytes in the buffer", "anchors": ["libmseed/tracelist.c:mstl3_readbuffer_selection", "libmseed/tracelist.c:mstl3_addmsr_recordptr", "libmseed/parseutils.c:msr3_parse"]}
{"id": "C76", "title": "The end of a file of records is reported as such", "statement": "After all records of a file made of complete valid records have been examined, reading reports the end of the file, and not that the file has no data records.", "quantifier": "every file of valid records and every selection", "why_tests_cant": "depends on which records of an arbitrary file a selection matches", "anchors": ["libmseed/fileutils.c:ms3_readmsr_selection"]}
{"id": "C77", "title": "Packed records written to a file are read back with all samples", "statement": "The records that packing a series of samples with flushing produces, written one after the other to a file, are read back with data unpacking and CRC validation as records holding all the samples in order, each with the time of its first sample, followed by the end of the file.", "quantifier": "every series of samples that the encoding can represent, every record length, every file size", "why_tests_cant": "composition of packer, CRC, detection, buffering and decoding over unbounded series", "anchors": ["libmseed/pack.c:msr3_pack", "libmseed/fileutils.c:ms3_readmsr_selection", "libmseed/msio.c:msio_fread"]}
{"id": "C78", "title": "A byte range selects the records that begin in it", "statement": "Reading 'FILE@START-END', START being where a record begins or in bytes between records that are skipped, returns exactly the records of the file asked for that begin at START or later and whose first 40 bytes end at END or before, in order and with their offsets in the file, then the end of the file.", "quantifier": "every file that is read completely without a range (the kinds of C34, with or without other bytes between the records and selections) and every range", "why_tests_cant": "range end, buffer refills, skipped bytes and record lengths interact over unbounded files", "anchors": ["libmseed/fileutils.c:ms3_readmsr_selection", "libmseed/fileutils.c:parse_pathname_range", "libmseed/msio.c:msio_fopen"]}
{"id": "C79", "title": "Documented time strings are read as the instant they denote", "statement": "ms_timestr2nstime() reads a date with year, month and day, an ordinal date or a year, followed by a time of day of which the later parts may be missing and a fraction of up to nine digits, with or without Z, as exactly the instant it denotes; a text with a field out of range is refused.", "quantifier": "every text of the documented grammar", "why_tests_cant": "unbounded set of texts; numerals of any width, every combination of missing parts; floating point fraction must round to the exact nanosecond", "anchors": ["libmseed/genutils.c:ms_timestr2nstime", "libmseed/genutils.c:ms_mdtimestr2nstime", "libmseed/genutils.c:ms_seedtimestr2nstime"]}
{"id": "C80", "title": "A number of seconds as text is read as that time since 1970", "statement": "ms_timestr2nstime() reads a decimal number with optional sign and a fraction of up to nine digits as exactly that many seconds from 1970.", "quantifier": "every number of seconds whose nanoseconds fit 64 bits", "why_tests_cant": "all numerals with all fractions; the fraction passes through floating point", "anchors": ["libmseed/genutils.c:ms_timestr2nstime"]}
{"id": "C81", "title": "Every printed time can be read back", "statement": "The text that ms_nstime2timestr() prints for a time in any of its formats is read by ms_timestr2nstime() as that time, up to the digits not printed.", "quantifier": "every 64-bit time, format and sub-second option", "why_tests_cant": "two parsers and a printer meet over all times; only some ranges of times and formats fail", "anchors": ["libmseed/genutils.c:ms_nstime2timestr", "libmseed/genutils.c:ms_timestr2nstime"]}
{"id": "C82", "title": "Message prefixes always leave room for the message", "statement": "ms_rloginit() stores a prefix exactly if it is shorter than the message buffer, keeps the previous one and reports an error otherwise, and leaves settings not given unchanged.", "quantifier": "every setting of prefixes, print functions and limits after any other", "why_tests_cant": "lengths around the buffer size and the logging of the complaint itself interact", "anchors": ["libmseed/logging.c:rloginit_int", "libmseed/logging.c:rlog_int"]}
{"id": "C83", "title": "msi prints the samples of a record completely and in order", "statement": "With -D msi prints every sample of a record once, in order, six to a line, and text samples completely with a final newline; with -d it prints the first six samples.", "quantifier": "every list of samples of every type", "why_tests_cant": "every number of samples and every text, in particular lengths at the boundary of the message buffer", "anchors": ["src/msi.c:main"]}
{"id": "C84", "title": "msi prints, writes and traces exactly the processed records", "statement": "The record lines, offsets, printed samples, the binary sample file and the records added to the trace list are those of the records processed, in input order, each once.", "quantifier": "every set of input files and options", "why_tests_cant": "every input sequence and every combination of options", "anchors": ["src/msi.c:main"]}
{"id": "C85", "title": "Packing to version 2 keeps the samples", "statement": "The records made by msr3_pack with MSF_PACKVER2 each have exactly the record length and, read back by msr3_parse on any host, give consecutive runs of the samples; with flush they cover all samples, the packed count is their number and the return value the number of records.", "quantifier": "every sample array, encoding, record length, header and host byte order", "why_tests_cant": "every sample array and every header layout (blockettes 1000, 1001, 100) and record length; the loop for every number of records", "anchors": ["libmseed/pack.c:msr3_pack_mseed2", "libmseed/pack.c:msr3_pack", "libmseed/pack.c:msr3_pack_header2"]}
{"id": "C86", "title": "Start times of version 2 records", "statement": "Each version 2 record made by msr3_pack starts, when read back, at the time of its first sample, to the microsecond.", "quantifier": "every start time, sampling and record split", "why_tests_cant": "every instant and every record of a series", "anchors": ["libmseed/pack.c:msr3_pack_mseed2", "libmseed/pack.c:ms_timestr2btime"]}
{"id": "C87", "title": "Version 2 records keep the metadata", "statement": "Each version 2 record made by msr3_pack gives back, when parsed, the source identifier, flags, encoding, publication version and the sample rate as stored.", "quantifier": "every description with SEED codes", "why_tests_cant": "every identifier, every flag byte, every version", "anchors": ["libmseed/pack.c:msr3_pack_header2"]}
{"id": "C88", "title": "Version 2 records keep the extra headers that have a place", "statement": "The extra headers that version 2 has bits or fields for in the fixed header and blockette 1001 are read back from each packed record as given, and no others appear.", "quantifier": "every combination of the extra headers and every start time", "why_tests_cant": "all combinations of flags, corrections and qualities", "anchors": ["libmseed/pack.c:msr3_pack_header2"]}
{"id": "C89", "title": "The version 2 header stays in the buffer", "statement": "msr3_pack_header2 writes only within the buffer of the length given by the caller.", "quantifier": "every buffer length, description and extra headers", "why_tests_cant": "every combination of blockettes and buffer length", "anchors": ["libmseed/pack.c:msr3_pack_header2"]}
{"id": "C90", "title": "A selection file adds what its lines ask for", "statement": "After ms3_readselectionsfile, a record is selected exactly if it was selected before or one of the lines of the file, in either documented format, asks for it; the value returned is the number of selections added, and a line that cannot be converted makes it fail.", "quantifier": "every file of lines, every record", "why_tests_cant": "every text of a file and every record; all formats of lines and times", "anchors": ["libmseed/selection.c:ms3_readselectionsfile", "libmseed/selection.c:ms3_addselect", "libmseed/selection.c:ms3_matchselect"]}
{"id": "C91", "title": "Packing a trace list keeps every sample", "statement": "After mstl3_pack with flush, the records handed to the record handler are, segment by segment in list order, records that read back as exactly the samples of the segment in order, under its identifier and publication version, each starting at the time of its first sample; the number of records is returned and *packedsamples is the number of samples in the list.", "quantifier": "every trace list, sample type, encoding, record length, format version", "why_tests_cant": "unbounded numbers of sources, segments and samples, and all sample values", "anchors": ["libmseed/tracelist.c:mstl3_pack", "libmseed/pack.c:msr3_pack"]}
{"id": "C92", "title": "What is not packed stays in the trace list", "statement": "mstl3_pack without flush packs a first part of the samples of each segment and leaves exactly the others in it, with the sample counts reduced and the start time moved to the first of them; with MSF_MAINTAINMSTL nothing in the list changes; records are made of samples only.", "quantifier": "every trace list, flags, encoding, record length", "why_tests_cant": "any division of any samples, every combination of flags", "anchors": ["libmseed/tracelist.c:mstl3_pack"]}
{"id": "C93", "title": "mstl3_pack returns the number of records, or -1", "statement": "mstl3_pack returns the number of records created on success and -1 on error.", "quantifier": "every trace list, also with segments that cannot be packed", "why_tests_cant": "needs every combination of segments that can and cannot be packed", "anchors": ["libmseed/tracelist.c:mstl3_pack"]}
{"id": "C94", "title": "A trace list as a rolling buffer loses nothing", "statement": "If records are appended to a segment and mstl3_pack is called in between, any number of times, with or without flush, the records made carry all samples once, in order and at their times, and what has not been packed is in the segment.", "quantifier": "every sequence of appended records and calls", "why_tests_cant": "unbounded sequences of calls, any sample values and divisions", "anchors": ["libmseed/tracelist.c:mstl3_pack", "libmseed/tracelist.c:mstl3_addmsr"]}
{"id": "C95", "title": "msi accepts exactly the documented command lines", "statement": "msi accepts every command line made of documented options with their values, input files and list files, and each option has its documented effect; an unknown option, a missing value, an unreadable time or the lack of input files ends it with an error.", "quantifier": "every command line: any number of arguments, in any order, with any values", "why_tests_cant": "unbounded argument lists; values and options can be mixed up in any combination", "anchors": ["src/msi.c:processparam", "src/msi.c:getoptval"]}
{"id": "C96", "title": "List files name the input files", "statement": "An argument @file stands for the files named in its lines, in order, between the files before and after it on the command line; empty lines and lines that begin with # are passed over; a list file that cannot be opened ends the program with an error.", "quantifier": "every list file: any number of lines of any length", "why_tests_cant": "any number and length of lines, any position on the command line", "anchors": ["src/msi.c:addlistfile"]}
{"id": "C97", "title": "The order of options does not matter", "statement": "Two command lines with the same options and the same files in the same order have the same effect.", "quantifier": "every command line and every permutation of its options", "why_tests_cant": "factorially many orders", "anchors": ["src/msi.c:processparam"]}
{"id": "C98", "title": "A command line of msi does what it says", "statement": "msi run on a command line processes the named files in order, takes the records within the times of -ts and -te whose source identifiers match -m and not -r, at most the number of -n, writes their bytes to the file of -o, and ends with status 0.", "quantifier": "every command line and all files of valid records", "why_tests_cant": "relates arguments, file contents and outputs for all of them together", "anchors": ["src/msi.c:main", "src/msi.c:processparam"]}
{"id": "C99", "title": "Each list that is asked for is printed once", "statement": "-t and -T print the trace list, -g and -G the gap list, -S the SYNC list, -s the totals, each once after all files; -t and -g leave the records to be printed too; -tg adds gap estimates to the trace list.", "quantifier": "every combination of these options", "why_tests_cant": "all combinations and orders of options", "anchors": ["src/msi.c:processparam", "src/msi.c:main"]}
