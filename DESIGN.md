# Formal model of msi / libmseed: design

## Goal and layout

`properties.jsonl` lists semantic properties of the `msi` program and the
bundled `libmseed`.  `lean/` is a Lake project with a machine-checked model and
proofs.

* `lean/Verif/Model/*.lean`  – the model: total computable functions following
  the C code function by function.  Every definition cites the file and lines it
  models and states its simplifications.
* `lean/Verif/Spec/*.lean`   – small independent specifications (calendar, glob
  language, UTF-8, bit-serial CRC, ...).  They do not import the model.
* `lean/Verif/Proof/*.lean`  – helper lemmas.
* `lean/Verif/Props/*.lean`  – the property theorems, named `Cnn_...`, each with
  non-vacuity `example`s beside it.

A property the unchanged code violates gets two theorems: `Cnn_..._violated`
(the negation, with a concrete witness) and `Cnn_..._partial` (the strongest
part that does hold, for all inputs).  `VIOLATIONS.md` lists all violations found.

## Trusted base

* Lean 4.33.0 kernel; axioms only `propext`, `Classical.choice`, `Quot.sound`
  (checked with `#print axioms`; `AXIOMS.md` lists them for each theorem).  No `sorry`, no added axioms, no
  `native_decide`/`bv_decide`.
* The transcription C -> Lean, which is by hand.  Each definition cites its lines.
* C semantics assumed: two's complement, 8-bit bytes, `int` 32 bits,
  little-endian host unless the definition has a host-order parameter, malloc
  succeeds, stdio behaves per the C standard.
* Arithmetic on `double` in the modules `Rate`, `TimeStr`, `SampleTime` and `Factor`: every operation gives the
  exact rational result rounded by a function `rnd`.  Theorems hold for every `rnd` with the properties
  of `Verif.Spec.Rounding` (monotone, odd, relative error at most 2^-53, exact on integers of up to 53
  bits, idempotent).  Rounding to nearest, ties to even, with 53 bits (`Verif.Spec.Binary.binary64`) is proved to
  have them (`rounding_binary64`); IEEE 754 agrees with it where results neither overflow nor underflow.
  The module `Convert` uses the IEEE 754 formats themselves: encoding and decoding of bits with subnormals,
  infinities and NaN, rounding to nearest with ties to even; decoding is checked against the separate
  `Verif.Spec.Ieee`.

## Modelling conventions

* Bytes are `Nat`/`UInt8`/`BitVec 8` values in lists; C integers are `Int`/`Nat` with explicit range
  hypotheses, or `BitVec n` where wrap-around matters.
* Memory reads go through checked accessors where a property is about memory
  safety: reading outside an object is a distinct outcome (`none` / `.oob`), not a default value.
* Floating point (`double`) values are either raw 64-bit patterns (when only stored
  and copied) or abstract parameters (when compared or multiplied), so theorems do not rest on
  idealised real arithmetic unless the definition says so.

## Plan per property

| Id | Modelled | Proof |
|----|----------|-------|
| C01 | `ms_gmtime64_r` (both branches, loops as recursion), `ms_nstime2time` | spec: day number = sum of year lengths; loops proved by induction, then uniqueness of fields |
| C02 | + `ms_time2nstime_int`, `ms_time2nstime` | closed-form leap count equals spec sum; compose with C01 |
| C03 | same | order lemma on day numbers |
| C04 | same with int64 range check | violated in 2262: witness + partial below the limit |
| C05 | `ms_doy2md`, `ms_md2doy` | month walk against spec cumulative table |
| C06 | `ms_nstime2timestr`, `ms_timestr2nstime` and the two parsers | digit printing/scanning round trip |
| C07 | same | length of each format; msi buffer: witness of overflow |
| C08 | same | div/mod arithmetic on nanoseconds |
| C79–C81 | same | grammar of texts as an inductive specification; scanning of numerals; fractions through rounded doubles; violations at day 0, offsets, signs and short texts |
| C09 | `ms_sampletime` | arithmetic; leap table fold |
| C10 | `ms_nslc2sid`, `ms_sid2nslc` | list induction |
| C11 | `ms_seedchan2xchan`, `ms_xchan2seedchan` | case analysis |
| C12 | `ms_strncpclean`, `ms_strncpcleantail`, `ms_strncpopen` | list induction |
| C13 | `utf8length_int` with its DFA table | DFA vs RFC 3629 grammar |
| C14 | `my_globmatch` | equivalence with declarative glob relation |
| C15 | `ms_globmatch` | `\c` violated: witness + partial |
| C16 | both matchers with checked reads | fuel-free recursion gives termination; checked reads |
| C17 | table, `s_crc_generic_*`, `ms_crc32c` | table = bit-serial (whole table by kernel `decide`), linearity, slices |
| C18 | same | induction |
| C19 | same | injectivity of the CRC step |
| C20 | `msr_encode_steim1`, `msr_decode_steim1` | invariant over words/frames |
| C21 | `msr_encode_steim2`, `msr_decode_steim2` | same |
| C22, C23 | same with checked accesses | loop bounds |
| C24 | integer/float/text encoders and decoders | byte-order round trip |
| C25 | legacy decoders | whole-domain check lifted / bit lemma |
| C26 | `msr3_pack_header3`, `msr3_unpack_mseed3` | field by field |
| C27-C29 | `ms3_detect`, `msr3_parse` with checked reads | case analysis; chain induction |
| C30 | CRC part of `msr3_unpack_mseed3`, `msr3_pack_mseed3` | uses C17 |
| C31, C32 | `msr3_pack_mseed3` loop | loop invariant |
| C33 | `msr3_repack_mseed3` writes | violated: witness + partial |
| C34, C35, C76 | `ms3_readmsr_selection` with its read buffer over a file | invariant relating buffer and rest of the file; violated at the end of the buffer, by a second blockette 1000 and if nothing is selected |
| C74 | `msr3_unpack_data` in `msr3_parse` and `ms3_readmsr` | `Stored`: the samples of the data by the format (`Spec/Samples`, `Spec/Steim`) for each encoding; the bounds found cover the bytes used (`Sized`); two violations |
| C75 | `mstl3_readbuffer_selection` | loop over the buffer composed with `msr3_parse` (C34) and the trace list (C37, C39); three violations |
| C77 | `msr3_pack` composed with reading | C31 and C34 |
| C36, C78 | `parse_pathname_range`, opening and reading a range | string induction; induction over records; violated in corners |
| C37-C42 | `mstl3_addmsr_recordptr` and skip list | invariants by induction over additions |
| C43 | `mstl3_printgaplist` | list induction |
| C44, C70 | `ms3_matchselect`, `ms3_addselect`, `ms3_addselect_comp` | list induction over requests, glob specification; violated for long patterns, reversed spans, wildcards over delimiters |
| C90 | `ms3_readselectionsfile` | grammar of lines as a specification; induction over lines, composed with C44, C70, C79; violated for times that cannot be converted, unknown lines, long lines |
| C91 | `mstl3_pack` with flush | loops over sources and segments as relations, composed with the packers (C31, C85) |
| C92 | `mstl3_pack`, what remains | as C91 for any flags; violated for emptied segments |
| C93 | `mstl3_pack`, value returned | as C92; violated if a segment fails |
| C94 | `mstl3_addmsrtoseg` and `mstl3_pack` in turn | induction over rounds; samples proved, times violated |
| C95 | `processparam`, `getoptval`, `lisnumber` | fold over items of a command line, both directions; refusals; five violations |
| C96 | `addlistfile` | lines of `fgets` against the lines of the file; violated for long lines and carriage returns |
| C97 | `processparam` | what the options mean is invariant under permutation; violated for `-tg` |
| C98 | `main` with `processparam` | C95 composed with C45 |
| C99 | the reports of `main` | cases of options; violated for two lists |
| C100 | `ms3_readtracelist_selection` | as C75, with the calls of the reader (C34) |
| C101 | `mstl3_addmsr` | records of one source in time order, cut by the specification into runs without gaps: the segments are the runs, one for one; with C69 for each source of a list |
| C102 | `mstl3_pack`, `mstl3_readbuffer`, `ms3_readtracelist` | packing a list and reading the records back gives the list: sources, order, segments, times, counts, types and values |
| C103 | `mstl3_printtracelist` | heading, one line per segment with its times, gap, rate and samples, totals; the words of a line are these values |
| C104 | `mstl3_printsynclist` | one line of 16 fields per segment for identifiers with short codes; long codes overflow, other identifiers show stale codes (violated) |
| C105 | `mstl3_printgaplist` | one line per gap inside the limits with times, gap and samples, total |
| C106 | `main` of msi with `mstl3_addmsr` and the printing functions | the printed list is that of the records processed; one line per run of records in time order |
| C107 | `yyjson_read_opts`, `yyjson_write_opts`, `yyjson_mut_write_opts` | the reader accepts exactly the texts of the RFC 8259 grammar (an inductive relation) with their values; written texts are read back |
| C108 | `mseh_get_ptr_r`, `mseh_exists` | `Answer`: RFC 6901 resolution of the pointer in the value of the text |
| C109 | all calls with a parse state | `Session`: a transition relation on JSON values, for any sequence of calls |
| C110 | `mseh_serialize`, `mseh_set_ptr_r` without a state | the text left in the record denotes the value made |
| C111 | `mseh_add_*` | tables of fields; members are there exactly if the field is set; times read back (C06) |
| C112 | `mseh_set_ptr_r` with a merge patch | `Merged`: RFC 7386 as an inductive relation |
| C113 | `mseh_replace` | success exactly for JSON texts whose value is written within 65535 bytes |
| C114 | `mseh_print` | printed text between braces is in the grammar for the same value |
| C115 | reading version 2 records | the extra headers hold what flags, correction and blockettes say (`Documented`), and nothing else |
| C116 | packing version 2 records with extra headers | the blockettes that the entries describe (`Describes`, `Carries`), written inside of the buffer and read back |
| C117 | `mstl3_unpack_recordlist` | the samples of the records (`Points`, `Entry`) one after the other; for segments of trace lists the samples stored |
| C118 | `msr3_writemseed`, `mstl3_writemseed` | the file has what it had and the packed records; read back it gives the list or the series of samples (`SameList`, `CoversAll`) |
| C119 | `msr3_print` | the text is the lines of `Summary` or `Details`, nothing cut; the text determines the fields |
| C120 | `main` of msi: all that is printed | texts of the records processed in order (`Row`, `LineShown`), totals, lists; up to an error |
| C121 | `ms_parse_raw3`: value returned, messages by kind, bytes read | how often each message is given, from the bytes (`Told3`, `Sound3`) |
| C122 | `ms_parse_raw2`: the same, blockette loop with fuel | `ToldHead`, `ToldChain` over `Spec/RawParse` (`Chain`, `Sized`); `Clean` for records; `Stuck` for the end |
| C123 | `unpack_mseed3`, both packers, then the checks of C121 and C122 | fields of the record in the years and lengths named; `Passes` for version 2 |
| C124 | `msr3_duplicate` on a memory of numbered blocks; freeing a free block and reading beyond a block are distinct outcomes; any allocation may fail | `HasRecord` (the blocks of a record), `IsCopy`, what both `msr3_free` calls leave |
| C125 | `msr3_init`, `msr3_free` on the same memory | contents of every address afterwards |
| C126 | `msr3_resize_buffer`, `mstl3_resize_buffers` on the same memory | `Trim` (samples kept, size exact), `Step` (what is released, what is untouched) |
| C127 | `mstl3_free`, `mstl3_init` on the same memory | `HasList` (list, sources, segments, record lists as linked blocks), `Released` |
| C128 | `ms3_addselect`, `ms3_freeselections` on the memory of C124 | `HasSelects` (linked entries and time windows), `Added` on the lists they stand for, `Step`, `Released`; the list is the one of C44 |
| C129 | `ms3_printselections` on the list of entries | `Texts` of `EntryShown` and `WindowShown` |
| C130 | `mstl3_msr2seg`, `mstl3_addmsrtoseg`, `mstl3_addsegtoseg`, `libmseed_memory_prealloc` on a memory of blocks | `SegBuf`, `samplesOf`, `Added`, `Kept` |
| C131 | `recv_callback`, `msio_fread`, `msio_feof` with libcurl as an environment that hands over pieces, pauses and ends | `content`, `Reads`, `Sound` |
| C132 | `header_callback`, the URL part of `msio_fopen` with a server as an arbitrary function of the range asked for | `Asks`, `ContentRange`, `slice`, `Honours` |
| C133 | `ms3_readmsr_selection` with the reads of a URL | `Calls`, `After`, `Gentle`, `Enough` (Props/UrlReaderDefs), `expected`, `ofFile` (Props/ReaderDefs) |
| C134 | `mstl3_add_recordptr`, end of `mstl3_addsegtoseg`, release of the joined segment | `RecList`, `ownedRecs`, `HeaderCopy`, `Adds`, `dropped` (Props/RecMemDefs) |
| C135 | `msr3_matchselect`, `ms3_readtracelist_timewin`, readers with selections | `Selects`, `Overlaps` (Spec/Select), `seen`, `Timed` (Props/SelectRead) |
| C136 | `msr3_host_latency` | `exactSpan` (Spec/Leap), `latency` (Props/Latency) |
| C137 | `ms3_url_useragent`, `ms3_url_userpassword`, `ms3_url_addheader`, `ms3_url_freeheaders` | `lines`, `login`, `agentLine` (Spec/UrlSettings) |
| C138 | `mseh_get_ptr_r`, `mseh_set_ptr_r`, `mseh_serialize`, `mseh_replace`, `mseh_free_parsestate` | `Owns`, `Exactly` (Props/ExtraMem) |
| C139 | `ms3_readmsr`, `ms3_readmsr_r`, `ms3_readmsr_selection`, `ms3_mstl_init_fd`, `msio_fclose` | `Owns` (Props/ReaderLife), `Exactly` (Props/ExtraMem) |
| C140 | `ms_errorstr`, `msr3_unpack_data`, `ms_decode_data` | `documented`, `decoded` (Props/Codes) |
| C141 | `ms2_blktdesc`, `ms2_blktlen`, `ms_parse_raw2` | `names` (Props/Codes) |
| C142 | `msr3_pack_header2` | `asked` (Props/HeaderCount) |
| C143 | `msr3_pack_mseed2`, `msr3_pack_header2` | `Tells`, `Holds` (Props/DataOffset) |
| C144 | `mstl3_findID`, `mstl3_addID`, `mstl3_addmsr_recordptr` | `Mixed` (Props/TraceSplit), `Walk`, `Before` (Props/TraceListDefs) |
| C145 | `mstl3_addID` with `prev` NULL | `Walk`, `Before` (Props/TraceListDefs), `entry` (Props/TraceAdd) |
| C146 | bytes of blockettes shown by `ms_parse_raw2` | `sizes` (Spec/RawParse), `times`, `hidden` (Props/RawShown) |
| C147 | streams left open by `ms3_readselectionsfile` | number of open streams (Model/SelectStream) |
| C148 | memory and streams used by `mstl3_unpack_recordlist` | numbers of blocks and open streams, `again` (Props/UnpackMem) |
| C71-C73 | `msr3_unpack_mseed2` through `msr3_parse` | induction over the blockette chain; violated in corners |
| C45-C48, C83, C84 | `main` loop of msi | induction over files and records, composed with reading (C34), end times (C09) and patterns (C14); violated for reversed windows and for printed text in corners |
| C49, C50, C82 | log registry, message buffers, prefixes | invariant over histories; violated for the count emitted, long and empty messages, long prefixes |
| C51 | `ms_nomsamprate`, `ms_genfactmult` on rounded rationals | arithmetic; search for divisors; continued fractions; violated for some ratios, overflow of `int` |
| C52 | `mstl3_convertsamples` on words, IEEE formats | encoding and decoding are inverse; loop induction; violated for negatives, refused conversions, `float`, range |
| C53 | `ms_readleapsecondfile` line loop | list induction; violated for lines of 198 characters and more |
| C54 | lookup tables | whole-table `decide` |
| C55 | `ms_time2nstime` | reserved value never returned for valid fields, except one instant |
| C56, C57 | `ms_sid2nslc`, `ms_nslc2sid` | violated: witnesses + partial |
| C58, C59 | Steim encoders | format conformance; overflow of differences (violated) |
| C60-C62 | `ms_decode_data`, `msr_pack_data` | input bounds, round trip through dispatch, 16-bit range (violated) |
| C63, C64 | `msr3_repack_mseed3`, `msr3_data_bounds` | violated in corners, partial otherwise |
| C69 | skip list with `mstl3_addmsr_recordptr` as a whole | per-source history invariant; violated for version 0 |
| C67, C68 | `mstl3_addmsr_recordptr` for one source | invariant over histories; chain of contiguous records |
| C65, C66 | `msr3_pack_mseed3` | loop invariant; violated for 16-bit integers |
| C85-C89 | `msr3_pack_mseed2`, `msr3_pack_header2` | bytes of the header against the version 2 specification, loop invariant, composed with parsing (C71); violated for some layouts, later start times, versions above 4, made up qualities, short buffers |

## Modelled so far

| Model module | Code |
|---|---|
| `Calendar` | gmtime64.c, genutils.c calendar functions (doy2md, md2doy, nstime2time, time2nstime) |
| `Glob` | `my_globmatch` (msi.c), `ms_globmatch` (selection.c) |
| `Str` | identifier mapping, `ms_strncp*`, UTF-8 length (genutils.c) |
| `Crc` | crc32c.c |
| `Steim` | Steim-1 and Steim-2 encoders and decoders (packdata.c, unpackdata.c) |
| `Samples` | other encodings, `ms_decode_data`, `msr_pack_data`, lookup.c |
| `Mem`, `Detect` | checked memory; `ms3_detect` for versions 2 and 3 |
| `Record3` | `msr3_unpack_mseed3`, `msr3_data_bounds`, `msr3_unpack_data`, `msr3_parse`, `msr3_pack_header3`, `msr3_repack_mseed3` |
| `Pack` | `msr3_pack` and `msr3_pack_mseed3` |
| `Trace` | the segments of one source: `mstl3_addmsr_recordptr` after finding the source, `mstl3_msr2seg`, `mstl3_addmsrtoseg`, `mstl3_addsegtoseg`, on a heap of segments |
| `TraceList` | the skip list: `mstl3_init`, `mstl3_findID`, `mstl3_addID`, `lm_random_height`, `mstl3_addmsr_recordptr` as a whole |
| `Rate` | `IS_SAMPRATE_SIMILAR`, `MS_ISRATETOLERABLE`; doubles as rationals rounded after each operation |
| `Gaps` | `mstl3_printgaplist` (lines as values; differences of times that overflow are undefined behaviour) |
| `Printf` | `%.pf` and `%.pg` of `printf` for doubles: exact decimal values, rounding half to even |
| `Report` | `mstl3_printtracelist`, `mstl3_printsynclist`, the text of `mstl3_printgaplist`, and their use at the end of `main` (msi.c:351-374) |
| `Select` | `ms3_matchselect`, `ms3_addselect`, `ms3_addselect_comp` |
| `Record2` | `msr3_unpack_mseed2`, `ms2_recordsid`, `ms2_blktlen`, `ms_btime2nstime` (extra headers as a list of entries, rates as functions) |
| `Reader` | `ms3_readmsr_selection` of an open regular file, `ms3_shift_msfp`, `msio_fread`, `msio_feof` |
| `PathRange` | `parse_pathname_range`, opening of a file by `ms3_readmsr_selection` |
| `TimeStr` | `ms_nstime2timestr(z)`, `ms_timestr2nstime`, `ms_mdtimestr2nstime`, `ms_seedtimestr2nstime` with the conversions of `snprintf` and `sscanf` they use |
| `SampleTime` | `ms_sampletime`, `msr3_endtime`, `msr3_nsperiod`, the built-in leap second list, `ms_readleapsecondfile`, `ms_readleapseconds` |
| `Log` | logging.c: `rloginit_int`, `rlog_int`, `add_message_int`, `print_message_int`, `ms_rlog_emit`, `ms_rlog_free` |
| `Msi` | `main` of msi.c: loops over files and records, filters, limit, totals, output files, records and samples printed (lines as values) |
| `Factor` | `ms_nomsamprate`, `ms_ratapprox`, `ms_reduce_rate`, `ms_genfactmult` (the square root of `ms_rsqrt64` is a parameter) |
| `Convert` | `mstl3_convertsamples`, with the IEEE 754 formats of `float` and `double` |
| `Pack2` | `msr3_pack` with `MSF_PACKVER2`: `msr3_pack_mseed2`, `msr3_pack_header2` with the fixed header and blockettes 1000, 1001 and 100 (the extra headers as the result of a JSON query given as a parameter `json`: flags, values and the writes for each blockette, `Step`) |
| `SelectFile` | `ms3_readselectionsfile`, `ms_isinteger` |
| `TracePack` | `mstl3_pack` (lists of sources and segments; buffer sizes not modelled) |
| `Options` | msi's `processparam`, `getoptval`, `lisnumber`, `addfile`, `addlistfile`, `main` from the command line on (`strtod` values kept as text; allocation and opening of output files do not fail) |
| `ReadTrace` | the values `mstl3_addmsr` computes of a record, `mstl3_readbuffer_selection`, `ms3_readtracelist_selection` (the contents of record pointers are in `RecordList`, tolerance function for rates constant) |
| `Json` | JSON Pointer and Merge Patch of yyjson (`ptr_next_token`, `yyjson_ptr_getx`, `yyjson_mut_ptr_putx`, `yyjson_mut_ptr_replacex`, `yyjson_mut_merge_patch`, …) on values instead of linked nodes |
| `JsonText` | the reader and the minifying writer of yyjson with the flags libmseed uses (conversion of doubles is a parameter) |
| `ExtraHeaders` | extraheaders.c: `mseh_get_ptr_r`, `mseh_set_ptr_r`, `mseh_add_*_r`, `mseh_serialize`, `mseh_replace`, `mseh_print` |
| `Headers2` | unpack.c:352-902: flags, correction and blockettes of version 2 records as calls of the extra header functions; conversions between number types are parameters (`Numbers`) |
| `Blockettes2` | pack.c:973-1594: what `msr3_pack_header2` makes of a JSON document: flags, correction and the writes for the blockettes 200, 201, 300, 310, 320, 390, 395 and 500; conversions between number types are parameters (`Numbers`), their undefined cases `none` |
| `RecordList` | `MS3RecordPtr`, where readers make it point to, `mstl3_unpack_recordlist` (files are a function from names to bytes; at most one place is set; bytes behind a record in the file buffer are out of bounds) |
| `WriteFile` | `msr3_writemseed`, `mstl3_writemseed` and the record handler that writes (files are a function from names to bytes; room on the disk limited or not; the standard output can be closed) |
| `Screen` | `msr3_print`; the text msi prints for records, samples and totals (without `-z` and `-L`; number of data bytes below 2^31; rates are finite) |
| `RawParse` | `ms_parse_raw3`, `ms_parse_raw2`: checks, messages by kind, bytes read for printing (the text printed is not modelled) |
| `Alloc` | `msr3_init`, `msr3_free`, `msr3_duplicate`, `msr3_resize_buffer`, `mstl3_resize_buffers`, `mstl3_init`, `mstl3_free` on a memory of blocks; every allocation gives a new address or fails as the environment says, `realloc` to a smaller size moves the block; the skip list pointers and the fields of sources, segments and entries that these functions do not look at are left out; default allocator functions |
| `SelectMem` | `ms3_addselect` and `ms3_freeselections` on a memory of blocks, `ms3_printselections` (text) |
| `SegMem` | `libmseed_memory_prealloc`, `mstl3_msr2seg`, `mstl3_addmsrtoseg`, `mstl3_addsegtoseg` (times and samples) on a memory of blocks; the contents of new memory are arbitrary |
| `RecMem` | `mstl3_add_recordptr`, the record lists in `mstl3_addsegtoseg`, the release of the joined segment in `mstl3_addmsr_recordptr` |
| `Url` | `recv_callback`, `header_callback`, the URL parts of `msio_fopen`, `msio_fread`, `msio_feof`; libcurl is an environment: a list of what each call does, trusted to call the callbacks as documented (pieces in order, a refused piece again after a pause); `curl_multi_fdset`/`select` waits, TLS options, redirects, user agent, passwords and request headers are not modelled |
| `UrlReader` | `ms3_readmsr_selection` of an open URL: the loop of `Reader` with `msio_fread` and `msio_feof` of `Url` |
| `SelectRead` | `msr3_matchselect`, the test of records in the readers, `ms3_readtracelist_timewin` |
| `Latency` | `msr3_host_latency` |
| `UrlSettings` | `msio_url_useragent`, `msio_url_userpassword`, `msio_url_addheader`, `msio_url_freeheaders` and what `msio_fopen` takes from them; libcurl is the environment |
| `ExtraMem` | the blocks that `parse_json`, `mseh_get_ptr_r`, `mseh_set_ptr_r`, `mseh_serialize`, `mseh_replace` and `mseh_free_parsestate` allocate, free and use; yyjson and the allocator are the environment |
| `ReaderLife` | what `ms3_readmsr_selection` and `ms3_mstl_init_fd` allocate, open, use, close and free over many calls; the search for records is the environment (it is in `Reader`) |
| `Codes` | `ms_errorstr`, `ms2_blktdesc`, the return values of `msr3_unpack_data` and `ms_decode_data` (the models in `Record3` and `Samples` give the samples only) |
| `TraceAdd` | `mstl3_addID` called without previous pointers, with the list as it is left on failure |
| `SelectStream` | `ms3_readselectionsfile` with the number of open streams |
| `UnpackMem` | `mstl3_unpack_recordlist` with the numbers of blocks and open streams (records and files reduced to what decides about these) |

Not modelled: debugging and certificate options of URL access, the conversion of doubles to and from decimal numerals in yyjson, printf formatting
beyond time strings, numbers and the lists of `Report`, memory allocation failure outside
`Alloc`, `SelectMem`, `SegMem` and `RecMem`, Windows code paths.
