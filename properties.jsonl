{"id": "C01", "title": "UVARI decode/encode", "statement": "Reading a UVARI value always yields the unsigned number its RP66 encoding denotes (1, 2 or 4 bytes selected by the two top bits of the first byte), the cursor moves by exactly that many bytes and bytes after them never influence the result; writing a value that fits the chosen width and reading it back gives the value back. (The encoder's 2-byte branch accepts 0x4000..0xBFFF although these do not fit: for those the round trip fails.)", "quantifier": "every byte string long enough, every 32-bit value, every requested width", "why_tests_cant": "2^30 values times three widths plus arbitrary trailing bytes; the boundary bug sits in a sub-range tests do not sample", "anchors": ["lib/src/dlis/types.cpp: dlis_uvari", "lib/src/dlis/types.cpp: dlis_uvario"]}
{"id": "C02", "title": "Fixed-width integers", "statement": "SSHORT, SNORM, SLONG, USHORT, UNORM, ULONG are read as big-endian (two's complement when signed) numbers, consume exactly 1/2/4 bytes, ignore what follows, and decode(encode x) = x and encode(decode bytes) = bytes.", "quantifier": "every 1/2/4 byte pattern and every integer in range, with any continuation", "why_tests_cant": "4 billion patterns per 32-bit type; host-endianness swaps go wrong only on asymmetric patterns", "anchors": ["lib/src/dlis/types.cpp: dlis_sshort, dlis_snorm, dlis_slong, dlis_ushort, dlis_unorm, dlis_ulong and the *o encoders"]}
{"id": "C03", "title": "String types", "statement": "IDENT, UNITS (1-byte length) and ASCII (UVARI length) decode to exactly the bytes that follow the length, consume length+prefix bytes, and decode(encode s ++ rest) = (s, rest) for every string that the length prefix can describe.", "quantifier": "every string of length <256 (IDENT/UNITS) or <2^30 (ASCII), every continuation", "why_tests_cant": "unbounded strings; length prefix switches form at 128 and 16384", "anchors": ["lib/src/dlis/types.cpp: dlis_ident, dlis_units, dlis_ascii, dlis_idento, dlis_unitso, dlis_asciio"]}
{"id": "C04", "title": "DTIME", "statement": "A DTIME is read as year-1900, time zone (high nibble), month (low nibble), day, hour, minute, second, millisecond (16 bit) from exactly 8 bytes; for every in-range date writing then reading gives the same fields, and reading then writing gives the same 8 bytes.", "quantifier": "all 2^64 byte patterns and all field values in range", "why_tests_cant": "nibble packing mistakes only show for particular TZ/month combinations; 2^64 patterns", "anchors": ["lib/src/dlis/types.cpp: dlis_dtime, dlis_dtimeo, dlis_year"]}
{"id": "C05", "title": "Object references", "statement": "OBNAME, OBJREF and ATTREF decode to the fields that were written, in order, leaving precisely the unread rest, for all origins below 2^30, copies below 256 and identifiers up to 255 bytes.", "quantifier": "every field combination and every continuation", "why_tests_cant": "composite variable-length layouts: a cursor slip shows only with particular field lengths", "anchors": ["lib/src/dlis/types.cpp: dlis_obname, dlis_objref, dlis_attref, dlis_origin and encoders"]}
{"id": "C06", "title": "FSHORT value", "statement": "An FSHORT (16-bit) decodes to mantissa/2^11 * 2^exponent where the mantissa is the 12-bit two's complement top part and the exponent the low 4 bits, without rounding.", "quantifier": "all 65536 patterns", "why_tests_cant": "could be enumerated, but a unit test needs an independent oracle; the proof supplies the formula and shows that binary32 holds the result exactly", "anchors": ["lib/src/dlis/types.cpp: dlis_fshort"]}
{"id": "C07", "title": "IBM float (ISINGL) decode", "statement": "An ISINGL decodes to sign * fraction * 16^(exp-64) exactly when the number is a normalised IBM float within binary32's normal range; numbers too small become zero. Not true for un-normalised fractions (including a zero fraction with non-zero exponent), the subnormal band and the overflow band.", "quantifier": "all 2^32 patterns", "why_tests_cant": "table driven bit arithmetic on 2^32 inputs; the wrong sub-ranges are exactly those unit tests skip", "anchors": ["lib/src/dlis/types.cpp: dlis_isingl"]}
{"id": "C08", "title": "VAX float (VSINGL) decode", "statement": "A VSINGL decodes to 0 when exponent and sign are 0, to NaN when the exponent is 0 and sign is set, and to sign * (0.5 + fraction/2^24) * 2^(exp-128) otherwise, exactly; encoding a normal binary32 with exponent below 254 and decoding gives the same number.", "quantifier": "all 2^32 patterns", "why_tests_cant": "2^32 patterns with PDP byte order; overflow of the exponent bias in the encoder only shows at the extremes", "anchors": ["lib/src/dlis/types.cpp: dlis_vsingl, dlis_vsinglo"]}
{"id": "C09", "title": "Declared sizes agree with consumption", "statement": "For every representation code the advertised byte size of the type equals the number of bytes that decoding a value of that type consumes, codes without fixed size are reported as variable, and codes outside 1..27 are rejected.", "quantifier": "all representation codes and all byte contents", "why_tests_cant": "relates a table to 27 decoders over all contents", "anchors": ["lib/src/dlis/types.cpp: dlis_sizeof_type and all decoders", "lib/src/dlis/dlisio.cpp: dlis_pack_size"]}
{"id": "C10", "title": "IBM float round trip", "statement": "Writing a normal binary32 in IBM single form and reading it back reproduces the number up to the bits the 4-bit exponent granularity must drop; numbers with enough trailing zero bits come back unchanged.", "quantifier": "all 2^32 binary32 patterns", "why_tests_cant": "2^32 patterns and three-bit mantissa loss depending on exponent residue", "anchors": ["lib/src/dlis/types.cpp: dlis_isinglo, dlis_isingl"]}
{"id": "C11", "title": "packf and packflen agree", "statement": "For each format string and source, the size query reports exactly the number of source bytes that the unpacking consumes and the number of destination bytes it writes; unpacking is compositional (fmt1++fmt2 = fmt1 then fmt2) and only reads the bytes it reports; an unknown format character is reported as an error by both.", "quantifier": "every format string, every source buffer", "why_tests_cant": "unbounded format strings mixed with variable-length values", "anchors": ["lib/src/dlis/dlisio.cpp: dlis_packf, dlis_packflen, packf, pack, interpret"]}
{"id": "C12", "title": "pack_size is sound", "statement": "When the static size query succeeds with a source size, every source consumes exactly that many bytes and writes exactly the reported destination size; when it reports a variable source size the destination size is still right for all sources; variable destination is reported whenever some source would give a different output size.", "quantifier": "every format string and every source", "why_tests_cant": "quantifies over format strings and over all source contents at once", "anchors": ["lib/src/dlis/dlisio.cpp: dlis_pack_size, dlis_pack_varsize, dlis_packflen"]}
{"id": "C13", "title": "Storage label parsing", "statement": "Parsing an 80-byte storage unit label returns the fields at their fixed positions; layout is RECORD for the literal and UNKNOWN otherwise; an invalid number or version never yields OK; the result of a well-formed label written with given field values is these values.", "quantifier": "all 80-byte labels", "why_tests_cant": "80 free bytes with whitespace/zero/NUL conventions in four numeric fields", "anchors": ["lib/src/dlis/dlisio.cpp: dlis_sul, sulv1, parse_revision, is_sul_number_field_valid", "python/dlisio/ext/dlis.cpp: storage_label"]}
{"id": "C14", "title": "Locating label and first visible record", "statement": "The searches return the position such that the marker (RECORD 9 bytes further, FF 01 two bytes further) is the first occurrence in the searched window, report 'not found' iff the marker does not occur in the window, and 'inconsistent' iff it occurs too early to be preceded by the fixed prefix. Leading garbage never makes a later marker hide an earlier one.", "quantifier": "every byte string and window", "why_tests_cant": "arbitrary garbage prefixes", "anchors": ["lib/src/dlis/dlisio.cpp: dlis_find_sul, dlis_find_vrl", "lib/src/dlis/io.cpp: findsul, findvrl"]}
{"id": "C15", "title": "Segment header decode", "statement": "Segment headers and visible record headers decode to the big-endian length, the attribute bits in the documented positions and the type; every 4-byte pattern is accepted, and encode/decode are inverse.", "quantifier": "all 2^32 header patterns", "why_tests_cant": "2^32 patterns, bit positions", "anchors": ["lib/src/dlis/dlisio.cpp: dlis_lrsh, dlis_vrl, dlis_segment_attributes, dlis_component, dlis_component_set, dlis_component_object, dlis_component_attrib"]}
{"id": "C16", "title": "Segment trimming", "statement": "Trimming removes exactly padding + checksum (2) + trailing length (2) according to the attribute bits, never removes more than the segment unless an error is reported, and for a segment built as body ++ pad ++ checksum ++ trailing length the body is what is left.", "quantifier": "every attribute byte and every segment content", "why_tests_cant": "8 flag combinations times arbitrary pad counts and contents", "anchors": ["lib/src/dlis/dlisio.cpp: dlis_trim_record_segment", "lib/src/dlis/io.cpp: trim_segment"]}
{"id": "C17", "title": "Record extraction is concatenation of segment bodies", "statement": "Extracting a record at its offset returns exactly the concatenation of the bodies of its segments (padding, checksum and trailing length removed), the type and encryption/format bits of the first segment, irrespective of how the record was split into segments and what follows it.", "quantifier": "every way to split a payload into segments with any trailers, any file contents around it", "why_tests_cant": "unbounded number of segments", "anchors": ["lib/src/dlis/io.cpp: extract, trim_segment"]}
{"id": "C18", "title": "Partial extraction is a prefix", "statement": "Extracting at most n bytes yields the first n bytes of what full extraction yields (with the same type and attributes) whenever full extraction succeeds.", "quantifier": "every stream, offset, limit n", "why_tests_cant": "the early-exit optimisation interacts with trailers and segment boundaries", "anchors": ["lib/src/dlis/io.cpp: extract"]}
{"id": "C19", "title": "Record index partitions the file", "statement": "Indexing a well-formed logical file lists the offset of every logical record exactly once, in file order, explicit and implicit separated, and stops right before the next file header; every listed offset can be extracted and yields that record.", "quantifier": "every sequence of records and segmentations, every following logical file", "why_tests_cant": "unbounded record sequences", "anchors": ["lib/src/dlis/io.cpp: findoffsets, extract"]}
{"id": "C20", "title": "Indexing truncated or damaged files", "statement": "On any byte stream indexing terminates; offsets found before the damage are kept, and the start of the record in which the problem occurred is reported once as broken; no offset is both listed and broken; offsets are strictly increasing.", "quantifier": "every byte stream (every truncation point, every corruption)", "why_tests_cant": "all crash/truncation points of all files", "anchors": ["lib/src/dlis/io.cpp: findoffsets"]}
{"id": "C21", "title": "Frame data index", "statement": "The implicit-record index maps a frame/noformat fingerprint to exactly the offsets, in file order, of the unencrypted non-empty records of type 0/1 whose data starts with that object name; other records never occur in it.", "quantifier": "every list of record offsets and every stream", "why_tests_cant": "arbitrary interleaving of frames, encrypted and damaged records", "anchors": ["lib/src/dlis/io.cpp: findfdata"]}
{"id": "C22", "title": "Fingerprints identify objects", "statement": "Two objects of the same type have the same fingerprint iff origin, copy number and identifier are equal; the claimed buffer size is exactly the fingerprint's length. Across types it holds for types without '-I.' but not for arbitrary type strings.", "quantifier": "every pair of (type, origin, copy, identifier)", "why_tests_cant": "injectivity is a statement over pairs of unbounded strings", "anchors": ["lib/src/dlis/dlisio.cpp: dlis_object_fingerprint, dlis_object_fingerprint_size", "python/dlisio/ext/dlis.cpp: fingerprint"]}
{"id": "C23", "title": "Template inheritance", "statement": "In a parsed object set each object's attribute is: what the object states, characteristic by characteristic, else what the template states, else the standard default (count 1, IDENT, no units, empty value); an absent attribute is gone; template invariant attributes are copied to each object.", "quantifier": "every template and every object list", "why_tests_cant": "all combinations of descriptor bits in template and object", "anchors": ["lib/src/dlis/records.cpp: parse_template, parse_objects, defaulted_object"]}
{"id": "C24", "title": "EFLR encode/parse round trip", "statement": "Every object set that is laid out according to the standard (set, template, objects; any legal choice of which characteristics are written out) parses to these objects: names, labels, counts, representation codes, units and values.", "quantifier": "every abstract object set and each of its encodings", "why_tests_cant": "unbounded nesting and optional fields", "anchors": ["lib/src/dlis/records.cpp: object_set::parse, parse_set_component, parse_template, parse_objects"]}
{"id": "C25", "title": "Parsing object sets is one-shot and never loses parsed objects", "statement": "Asking for the objects, type or name of a set any number of times in any order gives the same answer as asking once; an error in the middle keeps all objects parsed before it and reports the error.", "quantifier": "every history of accesses, every byte string", "why_tests_cant": "histories and damage points", "anchors": ["lib/src/dlis/records.cpp: object_set::parse, objects, report"]}
{"id": "C26", "title": "Count/representation changes without value", "statement": "When an object overrides the count or representation code of a template attribute without giving a value, the resulting value has exactly the new count and code (filled by the documented rule), or an error is recorded.", "quantifier": "every template value, every new count and code", "why_tests_cant": "27 x 27 code pairs and all lengths", "anchors": ["lib/src/dlis/records.cpp: patch_missing_value"]}
{"id": "C27", "title": "Object attribute container", "statement": "An object holds at most one attribute per label: after setting an attribute, looking its label up gives it and other labels are unchanged; after removing it, lookup fails and others are unchanged; insertion order is kept.", "quantifier": "every history of set/remove", "why_tests_cant": "histories", "anchors": ["lib/src/dlis/records.cpp: basic_object::set, remove, at"]}
{"id": "C28", "title": "Pool queries", "statement": "Querying records by type (and name) with an exact matcher returns all and only the objects of matching sets, in file order, each once; parse errors in one set do not affect objects from other sets.", "quantifier": "every pool and query", "why_tests_cant": "unbounded pools", "anchors": ["lib/src/dlis/records.cpp: pool::get, pool::types", "python/dlisio/dlis/utils/matcher.py"]}
{"id": "C29", "title": "Curve rows", "statement": "Reading the curves of a frame returns exactly one row per frame present in the records, in file order, with values as decoded; damaged records contribute only whole frames before the damage and never disturb rows of other records; rows written never exceed the allocated rows.", "quantifier": "every list of records with any number of frames each and any subset damaged", "why_tests_cant": "buffer growth and rewind logic over unbounded histories", "anchors": ["python/dlisio/ext/dlis.cpp: read_fdata, read_fdata_record, read_fdata_frame"]}
{"id": "C30", "title": "Row layout agrees with dtype", "statement": "For each frame the number of bytes the unpacking writes per row equals the itemsize of the numpy dtype handed out, column by column at the dtype's offsets.", "quantifier": "every list of channels with any representation codes and dimensions", "why_tests_cant": "the C++ format string and the numpy dtype are built independently from the same channels", "anchors": ["python/dlisio/dlis/frame.py: fmtstr, dtype", "python/dlisio/dlis/channel.py: fmtstr, dtype", "python/dlisio/dlis/utils/reprc.py", "python/dlisio/ext/dlis.cpp: read_curve_sample"]}
{"id": "C31", "title": "No reads past the record", "statement": "Decoding curves never reads bytes outside the record: a frame that needs more bytes than the record has left is reported. (Holds for fixed-size values; violated for variable-length and validated types, where length is checked only after reading.)", "quantifier": "every record content and format string", "why_tests_cant": "the overread happens only for particular truncation points", "anchors": ["python/dlisio/ext/dlis.cpp: read_curve_sample, assert_overflow"]}
{"id": "C32", "title": "No-format data", "statement": "Unformatted data of an object is the concatenation, in file order, of the payloads after the object name of exactly the records that carry this name.", "quantifier": "every record list", "why_tests_cant": "unbounded lists, skipping of encrypted/broken records", "anchors": ["python/dlisio/ext/dlis.cpp: read_noform", "python/dlisio/dlis/utils/fdata.py", "python/dlisio/dlis/noformat.py"]}
{"id": "C33", "title": "object() lookup", "statement": "object(type, name, origin, copy) returns an object matching all the given criteria; it fails iff there is none or there are several that are not identical; the result is never a non-matching object.", "quantifier": "every object store and query", "why_tests_cant": "all combinations of duplicates and optional criteria", "anchors": ["python/dlisio/dlis/file.py: LogicalFile.object, find, ObjectStore.find"]}
{"id": "C34", "title": "Cache transparency", "statement": "Results of find/object/indexing do not depend on whether objects were cached before: after any history of accesses, the same query gives the same objects. (False for the empty name, which means 'any' uncached but 'the empty name' cached.)", "quantifier": "every history of queries and every pool", "why_tests_cant": "histories of lazily filled caches", "anchors": ["python/dlisio/dlis/file.py: ObjectStore"]}
{"id": "C35", "title": "Attribute access", "statement": "obj[label] is the default value for known labels which are absent, the parsed value otherwise, a KeyError for unknown labels that are absent; linked attributes resolve to the referenced objects when present and to nothing (with a log) when not; access does not change the object.", "quantifier": "every object and label", "why_tests_cant": "all attribute/value-type/link combinations", "anchors": ["python/dlisio/dlis/basicobject.py: __getitem__", "python/dlisio/dlis/utils/valuetypes.py", "python/dlisio/dlis/utils/linkage.py"]}
{"id": "C36", "title": "Reference resolution", "statement": "Resolving an OBNAME/OBJREF returns the object with exactly that type, origin, copy and name, or nothing; it never returns an object of another type.", "quantifier": "every store and reference", "why_tests_cant": "needs injectivity of names over unbounded strings", "anchors": ["python/dlisio/dlis/utils/linkage.py: lookup, obname, objref"]}
{"id": "C37", "title": "Error handler contract", "statement": "Each reported problem is dispatched once, to the action configured for its severity; with default configuration only critical problems raise; unknown severities raise; logging order equals occurrence order.", "quantifier": "every configuration and sequence of reports", "why_tests_cant": "histories/configurations", "anchors": ["python/dlisio/common/errorhandler.py: ErrorHandler.log", "lib/src/dlis/records.cpp: report_set_errors, is_log_clear", "lib/src/dlis/records.cpp: pool::get"]}
{"id": "C38", "title": "Column labels", "statement": "Frame columns are the frame-number column followed by one column per channel in order; when duplicate mnemonics are made unique the labels are pairwise distinct and each unduplicated mnemonic is unchanged; without strictness duplicates are never silently merged.", "quantifier": "every list of channel names", "why_tests_cant": "labels invented for duplicates may clash with existing labels", "anchors": ["python/dlisio/dlis/frame.py: dtype, mkunique"]}
{"id": "C39", "title": "Dimension and sampling", "statement": "Reshaping raw attribute values by the declared dimension either preserves every element, in order, with the declared shape, or is reported as not possible; a valid shape multiplies to the number of elements.", "quantifier": "every list of values and dimension", "why_tests_cant": "all list lengths times dimensions", "anchors": ["python/dlisio/dlis/utils/dimensional.py: validshape, sampling"]}
{"id": "C40", "title": "dlis.load splits the file in logical files", "statement": "Loading a file gives one logical file per logical file stored, in order, and stops at end of file; on any failure while loading every stream opened so far is closed; a partially damaged last file does not lose earlier ones unless the error handler escalates.", "quantifier": "every file contents, every point of failure", "why_tests_cant": "failure points x files", "anchors": ["python/dlisio/dlis/load.py: load, FileIndexer"]}
{"id": "C41", "title": "LIS numbers", "statement": "LIS integers and floats (16 bit, 32 bit, low-resolution, fixed point) decode to the value that LIS79 Appendix B gives them, consuming their declared size.", "quantifier": "all bit patterns", "why_tests_cant": "2^32 patterns per type", "anchors": ["lib/src/lis/types.cpp: lis_i8, lis_i16, lis_i32, lis_f16, lis_f32, lis_f32low, lis_f32fix, lis_byte, lis_sizeof_type"]}
{"id": "C42", "title": "LIS packf and packflen agree", "statement": "For LIS format strings the size query equals what unpacking consumes and writes; both depend only on the format (fixed-size types); unknown characters give an error from both.", "quantifier": "every format string and source", "why_tests_cant": "unbounded format strings", "anchors": ["lib/src/lis/pack.cpp: lis_packf, lis_packflen"]}
{"id": "C43", "title": "LIS physical/logical headers and padding", "statement": "Reading a physical record header skips exactly the padding bytes in front of it and returns the header; zero or blank padding is never taken for a header, and a header directly at the cursor is returned as is; trailers sizes follow the attribute bits.", "quantifier": "every stream contents", "why_tests_cant": "arbitrary padding lengths/patterns", "anchors": ["lib/src/lis/io.cpp: read_physical_header, read_logical_header", "lib/src/lis/protocol.cpp: parse_prh, parse_lrh, valid_prh"]}
{"id": "C44", "title": "LIS index", "statement": "Indexing a well-formed LIS logical file gives each logical record exactly once, in order, with its position, type and size, explicit and implicit separated; on damaged files it terminates and keeps the records before the damage. (Padding between physical records of one logical record breaks the position bookkeeping.)", "quantifier": "every list of records, any split in physical records, any stream", "why_tests_cant": "unbounded sequences; padding positions", "anchors": ["lib/src/lis/io.cpp: index_record, index_records"]}
{"id": "C45", "title": "LIS record read", "statement": "Reading an indexed record returns the concatenation of the payloads of its physical records without headers and trailers, and its size equals the size in the index.", "quantifier": "every split into physical records with any trailers", "why_tests_cant": "unbounded splits", "anchors": ["lib/src/lis/io.cpp: read_record, index_record"]}
{"id": "C46", "title": "LIS implicit records belong to the right DFSR", "statement": "The data records associated with a format specification are exactly those between it and the next format specification, with the matching type; each data record belongs to exactly one specification; order is kept.", "quantifier": "every sequence of records", "why_tests_cant": "arbitrary interleavings", "anchors": ["lib/src/lis/io.cpp: record_index::implicits_of"]}
{"id": "C47", "title": "DFSR parse", "statement": "Parsing a data format specification record built from entry blocks, terminator and spec blocks returns those blocks in order; damaged or truncated records are rejected rather than read past the end; the spec-block subtype selects the layout.", "quantifier": "every list of entries and spec blocks, every byte string", "why_tests_cant": "unbounded lists; truncation at every byte", "anchors": ["lib/src/lis/protocol.cpp: parse_dfsr, read_entry_block, parse_spec_block"]}
{"id": "C48", "title": "LIS information records", "statement": "Component blocks of an information record are returned in order with their values; truncated blocks are reported and nothing past the record is read; table form is recognised iff the first block has the table type and every row is returned.", "quantifier": "every list of blocks, every byte string", "why_tests_cant": "unbounded lists; truncation at every byte", "anchors": ["lib/src/lis/protocol.cpp: parse_info_record, read_component_block", "python/dlisio/lis/information_record.py"]}
{"id": "C49", "title": "LIS header/trailer records", "statement": "File, reel and tape header/trailer records return the fixed-position fields of the standard; any record shorter than the fixed size is rejected, and every long enough one accepted.", "quantifier": "every byte string", "why_tests_cant": "all truncation points; field offsets", "anchors": ["lib/src/lis/protocol.cpp: parse_file_record, parse_reel_tape_record"]}
{"id": "C50", "title": "LIS text records", "statement": "The text of an operator/text record is its complete payload.", "quantifier": "every byte string", "why_tests_cant": "arbitrary content", "anchors": ["lib/src/lis/protocol.cpp: parse_text_record"]}
{"id": "C51", "title": "LIS row layout", "statement": "For each valid DFSR and sample rate the bytes written per row equal the dtype's itemsize, and the bytes consumed per frame equal the sum of the spec blocks' reserved sizes (absolute values, including suppressed channels and fast channels).", "quantifier": "every DFSR accepted by validation, every sample rate", "why_tests_cant": "format string and dtype are built independently", "anchors": ["python/dlisio/lis/curves.py: dfsr_fmtstr, dfsr_dtype, validate_dfsr", "python/dlisio/ext/lis.cpp: read_frame, read_data_records"]}
{"id": "C52", "title": "LIS curve rows", "statement": "Reading LIS curves gives frames*samples rows in file order; index values are those recorded, or start+i*spacing for implied spacing, and for fast channels interpolate linearly between consecutive frames.", "quantifier": "every list of data records, every sample rate", "why_tests_cant": "buffer growth and interpolation over unbounded frames; 8-bit counters overflow only at high rates", "anchors": ["python/dlisio/ext/lis.cpp: read_data_records, read_data_record, read_frame, indexchannel"]}
{"id": "C53", "title": "LIS channel labels", "statement": "Labels handed out for channels are unique after de-duplication and metadata lists exactly the columns of the returned array.", "quantifier": "every list of spec blocks", "why_tests_cant": "labels invented for duplicates may clash; suppressed channels", "anchors": ["python/dlisio/lis/curves.py: unique_mnemonics, mkunique, curves_metadata"]}
{"id": "C54", "title": "LIS reel and tape assignment", "statement": "Each logical file is assigned the reel and tape header that enclose it and their trailers; delimiter records are never lost or duplicated; on failure streams opened are closed.", "quantifier": "every sequence of delimiters and logical files, each point of failure", "why_tests_cant": "arbitrary sequences of optional delimiters", "anchors": ["python/dlisio/lis/load.py: FileIndexer, load"]}
{"id": "C55", "title": "Tapemark detection", "statement": "A 12-byte block is recognised as tape mark iff its type is 0 or 1 and previous < next (little endian).", "quantifier": "all 2^96 patterns", "why_tests_cant": "2^96 patterns", "anchors": ["lib/src/tapemark.cpp: valid_tapemark, parse_tapemark, read_tapemark"]}
{"id": "C56", "title": "String decoding", "statement": "A string is decoded with UTF-8, else with the first user-supplied encoding that works, in order, else bytes are returned together with a warning; the decoded text covers the complete string. (False when an embedded NUL is present: the text is cut there.)", "quantifier": "every byte string and every list of encodings", "why_tests_cant": "arbitrary contents", "anchors": ["python/dlisio/ext/core.cpp: decode_str"]}
{"id": "C57", "title": "EFLR parsing stays inside the record", "statement": "Parsing an explicitly formatted record never reads bytes outside the record. (False: attribute values and names are decoded without looking at the end of the record.)", "quantifier": "every byte string", "why_tests_cant": "the read outside happens only for particular truncation points", "anchors": ["lib/src/dlis/records.cpp: object_set::parse_template, object_set::parse_objects, elements", "lib/src/dlis/types.cpp"]}
{"id": "C58", "title": "No released objects in the array", "statement": "While curves are unpacked the array never holds a pointer to a Python object that has been released, so that no object is released twice. (Violated for a DTIME sample that is not a date: the old object is released before the conversion raises.)", "quantifier": "every record list and every format string", "why_tests_cant": "reference counts go wrong only when a conversion fails in the middle of a row that is overwritten later", "anchors": ["python/dlisio/ext/dlis.cpp: read_curve_sample, read_fdata"]}
{"id": "C59", "title": "Tolerated violations are reported", "statement": "An attribute in a template that claims to have no label, an absent attribute in a template, and an object that claims to have no name are read as if they followed the standard (the absent attribute is left out), and each adds exactly one major problem, on the set or on the object.", "quantifier": "every descriptor byte and every position in every record", "why_tests_cant": "all descriptor bytes at all positions", "anchors": ["lib/src/dlis/records.cpp: parse_template, parse_objects"]}
{"id": "C60", "title": "Stash", "statement": "The stash of an object has exactly one entry for each attribute of the object for which the class has no rule, in the order of the file, with all its values in order and strings stripped. (False if one of these attributes has no value: TypeError.)", "quantifier": "every object, class and decoding", "why_tests_cant": "all combinations of labels, values and rules", "anchors": ["python/dlisio/dlis/basicobject.py: stash"]}
{"id": "C61", "title": "LIS entry blocks and frame format", "statement": "Each property of a data format specification (absent value, depth mode, units, direction, spacing, ...) is the value of the one entry block of the type LIS79 gives to it, or the documented default if there is none; two of them are an error. The signed spacing is the recorded one, negative for direction 1 and positive for 255, and an error otherwise; the index mnemonic, units, sample rates and frame format follow from these. (False for spec_block_type, which reads another entry.)", "quantifier": "every data format specification", "why_tests_cant": "all combinations and values of entry blocks", "anchors": ["python/dlisio/lis/dataformatspec.py"]}
{"id": "C62", "title": "Records of a LIS logical file", "statement": "parse_records gives what the records of the type stand for, each once and in the order of the file, never reading outside them; header and trailer give the one such record, None without one; an index never has more than one header or trailer. After load this holds of each logical file in the physical file.", "quantifier": "every file, index and record type", "why_tests_cant": "all files and all record contents", "anchors": ["python/dlisio/lis/file.py: parse_record, parse_records, header, trailer, HeaderTrailer"]}
{"id": "C63", "title": "LIS curves end to end", "statement": "For a data format specification in a loaded file, curves gives the array of exactly the frames in the data records that follow it up to the next specification, in the order of the file, with the columns of the format that the specification describes, every byte of every row that of its value.", "quantifier": "every file with whole frames, every specification in it, every rate up to 127", "why_tests_cant": "composition over all files, formats and frames", "anchors": ["python/dlisio/lis/curves.py: curves", "python/dlisio/ext/lis.cpp: read_data_records"]}
{"id": "C64", "title": "Attributes of a DLIS logical file", "statement": "Every metadata object of a logical file is in exactly one place: in the attribute of the logical file that is for its type (axes, calibrations, channels, ...), with the file header, or, for types that are not in the table, in unknowns under its type and fingerprint; this does not depend on what was done before. The file header is the only object of its type, None with a warning otherwise. (False for unknown objects with equal fingerprints, of which one is kept, and for an empty type, for which unknowns raises.)", "quantifier": "every file, every history of queries and cache settings", "why_tests_cant": "all files, object types and cache histories", "anchors": ["python/dlisio/dlis/file.py: LogicalFile.types, IndexedObjectDescriptor, fileheader, unknowns"]}
{"id": "C65", "title": "DLIS curves from the bytes on disk", "statement": "The curves of a frame are one row for each frame in exactly those records of the logical file that are unencrypted frame data and begin with the name of the frame, in the order of the file, with the value of each channel of the frame in its own column; a record that does not end with a whole frame gives its whole frames and one critical message. The data of a no-format object are what follows its name in the records that begin with it. This does not depend on what was looked up before. (False when names are not UTF-8 and encodings are changed after loading, when names contain NUL, and when two names are the same text in different encodings: rows are then silently missing or those of another frame.)", "quantifier": "every well-formed file with any number of logical files, frames, channels and records; every history of queries; every set of encodings", "why_tests_cant": "all files, distributions of frames over records, and histories", "anchors": ["python/dlisio/dlis/frame.py: Frame.curves", "python/dlisio/dlis/utils/fdata.py: curves, noformat", "python/dlisio/dlis/noformat.py: Noformat.data", "python/dlisio/dlis/channel.py: Channel.reprc, Channel.dimension", "lib/src/dlis/io.cpp: findfdata", "python/dlisio/ext/dlis.cpp: findfdata, read_fdata"]}
{"id": "C66", "title": "The frame and the curve of a single channel, the index and the partial formats of a frame", "statement": "Channel.frame is the frame of the logical file that refers to a channel with this name; it is None if no frame does or if frames that are not equal do. Channel.curves gives, for a channel of one frame, for each frame in the data the values of this channel, in the order of the file. Frame.index is the frame number if there is no index type, else the name of the first channel. The three formats of Frame.fmtstrchannel are together, after the frame number, the format of the frame.", "quantifier": "for all files, histories of lookups, channels, frames, numbers and layouts of channels, data records and error handlers", "why_tests_cant": "The test files have a handful of frames; whether the right column is found depends on all fingerprints, labels and frames of the file, and on what was looked up before.", "anchors": ["python/dlisio/dlis/channel.py:105-136", "python/dlisio/dlis/channel.py:261-266", "python/dlisio/dlis/frame.py:149-168", "python/dlisio/dlis/frame.py:472-496"]}
{"id": "C67", "title": "Logical files in tape images are all found", "statement": "For a file stored as a tape image (12-byte marks in front of every tape record, file marks between, in front of and behind the logical files) load returns one logical file per stored logical file, in order, each with the label that was last in front of it, and with the same records, objects and frame data as without tape marks, however the bytes are cut into tape records and however many file marks there are.", "quantifier": "all sequences of file marks, labels and logical files, all ways to cut logical files into tape records, all error handlers that let minor problems pass", "why_tests_cant": "The tests contain about fifteen layouts; the offset of the next logical file is computed from physical tells by subtracting constants, which is right for some layouts and wrong for others.", "anchors": ["python/dlisio/dlis/load.py: FileIndexer.index_logical_file, logical_eof, open_stream", "lib/src/dlis/io.cpp: findoffsets, open_tapeimage", "lib/src/tapemark.cpp"]}
{"id": "C68", "title": "Structured values of parameters, computations and measurements", "statement": "Parameter.values, Computation.values and Measurement.samples contain every value of the attribute exactly once, sample by sample, at the subscripts that the standard assigns to it (first subscript fastest, hence reversed in Python); without a dimension the values are scalars if there is one per zone or only one; reference, deviations and tolerances are the first sample; numbers of values that do not go with the dimension are refused; there are as many samples as zones, and problems found in the attribute are reported. (The last two are false.)", "quantifier": "every object, every dimension, every number of values and zones, every history of accesses", "why_tests_cant": "The tests use a few objects with small dimensions; that the subscripts agree for every dimension and number of samples is a statement about all of them.", "anchors": ["python/dlisio/dlis/parameter.py:56-142", "python/dlisio/dlis/computation.py:71-168", "python/dlisio/dlis/measurement.py:75-252", "python/dlisio/dlis/utils/dimensional.py:14-144"]}
{"id": "C69", "title": "Properties of DLIS objects give the attribute they are documented to give", "statement": "For every documented property of the 22 classes of DLIS objects (for example Zone.minimum or Tool.parameters): the property gives the value of the attribute with the documented RP66 label. If the object has no such attribute, or the attribute has no value, the property is None for single values and the empty list for lists. Otherwise it is the value, or the list of values in the documented order, texts without surrounding white space, and references replaced by the objects of the logical file they name. Group.objects gives the objects a group lists, whether they are referenced by name or by name and type. Wellref.coordinates gives the three coordinates by name. Frame.encrypted tells whether the frame has the attribute ENCRYPTED. None of this depends on what was done with the file before.", "quantifier": "all objects of all classes with decodable, pairwise different labels, all documented properties, all contents of the file and all histories of access", "why_tests_cant": "There are about 140 properties, and each has its own label, shape and kind of reference in a table. Tests read most of them once, from one file with the attribute present; a wrong shape or link shows only for absent attributes, several values or values of another kind, and the effect of earlier accesses only in certain orders.", "anchors": ["python/dlisio/dlis/axis.py", "python/dlisio/dlis/group.py:70-80", "python/dlisio/dlis/wellref.py:102-121", "python/dlisio/dlis/frame.py:137-139", "python/dlisio/dlis/file.py:308-331", "python/dlisio/dlis/basicobject.py:171-231"]}
{"id": "C70", "title": "The summary of an object shows its properties under the right titles", "statement": "obj.describe() of every DLIS object is a summary with a row for each property that the class names: beside the title is the value of that property, with the units of the attribute where the row is about an attribute. Values with a dimension are shown as samples arranged by the dimension, values that do not go with the dimension as they are. Attributes that the class does not know are shown under their own label. Frames show all their channels, and the index if there is one. Rows without content are left out exactly if the caller asks for that; header, unknown attributes and invalid values likewise.", "quantifier": "all objects of all classes with decodable, pairwise different labels, all contents of the file, all options and all histories of access", "why_tests_cant": "There are about 140 rows in 22 classes. Tests compare the summaries of a few objects of one file, in which most attributes are present and well formed; a wrong label beside a title, or an exception for one kind of value, shows only for objects that have these attributes.", "anchors": ["python/dlisio/dlis/basicobject.py:283-352", "python/dlisio/dlis/utils/describe.py:24-242", "python/dlisio/dlis/coefficient.py:87-109", "python/dlisio/dlis/splice.py:86-92", "python/dlisio/dlis/frame.py:498-525", "python/dlisio/dlis/zone.py:75-82"]}
{"id": "C71", "title": "The summary of a logical file accounts for every object", "statement": "LogicalFile.describe() gives a summary of every logical file. Its description is the identification in the file header if there is exactly one header, and 'Unknown' otherwise. It shows the numbers of frames and channels, and every type of object in the file exactly once, under known or unknown objects according to whether dlisio has a class for the type, with the number of objects of this type. The numbers add up to the number of all objects in the file. PhysicalFile.describe() shows the number of logical files and for each of them, in order, description and numbers of frames and channels. Nothing that was accessed before has an influence.", "quantifier": "all logical files, all types and numbers of objects, all histories of access with and without caching", "why_tests_cant": "Tests look at the summary of one or two files with the usual types. Types that are spread over several sets, that appear without objects, are encoded in another way or were loaded before are combinations that are not tried.", "anchors": ["python/dlisio/dlis/file.py:99-118", "python/dlisio/dlis/file.py:377-382", "python/dlisio/dlis/file.py:614-656", "python/dlisio/dlis/utils/describe.py:216-242"]}
{"id": "C72", "title": "Objects are equal exactly if they have the same content", "statement": "obj == other is True exactly if other is an object of the same type, with the same name (identifier, origin and copy number) and the same attributes: labels, counts, representation codes, units and values, where numbers are compared as numbers. Equality is reflexive, symmetric and transitive. Objects that are equal cannot be told apart by what their attributes and properties give. Comparing with anything that is not an object gives False.", "quantifier": "all pairs and triples of objects, all values of all representation codes including NaN, infinities and negative zero, all classes and all states of the logical file", "why_tests_cant": "Equality decides whether LogicalFile.object finds an object that is in the file more than once. Tests compare a few objects of one file, none of which have NaN, and never objects of different types with the same name.", "anchors": ["python/dlisio/dlis/basicobject.py:233-237", "lib/src/dlis/records.cpp:549-589", "lib/src/dlis/records.cpp:646-656", "lib/include/dlisio/dlis/types.hpp:98-243", "lib/include/dlisio/strong-typedef.hpp:100-106", "python/dlisio/dlis/file.py:592-611"]}
{"id": "C73", "title": "File handles are closed exactly once and not used afterwards", "statement": "After dlis.load or lis.load has returned, the handles of the logical files can be closed by closing the logical files, the physical file, or by leaving a with block, in any order and any number of times: every handle is closed at most once, and exactly once if the with block of the physical file is left. Reading from a closed file raises an exception; a closed handle is never used. Metadata of a DLIS file can be accessed after closing.", "quantifier": "all files that can be loaded, all sequences of closing, reading data and accessing metadata, of any length, on any number of logical files", "why_tests_cant": "A handle that is closed twice or used after it was closed is memory that was freed: in tests this mostly goes unnoticed. Tests close files once, and look at a few sequences.", "anchors": ["lib/src/file.cpp:17-64", "lib/include/dlisio/file.hpp:21-71", "python/dlisio/dlis/file.py:85-94", "python/dlisio/dlis/file.py:363-375", "python/dlisio/lis/file.py:124-136", "python/dlisio/lis/file.py:356-364", "python/dlisio/dlis/utils/fdata.py:6-41"]}
{"id": "C74", "title": "LIS files stored as tape images are loaded completely", "statement": "If a LIS file is a tape image (tape marks of twelve bytes in front of tape records, file marks between and at the end), lis.load returns the logical files that are on the tape, in order, each with exactly its records and the reel and tape it is in; the way in which bytes are distributed over tape records, file marks in front, between files and at the end make no difference. On any file, damaged or not, load ends.", "quantifier": "all sequences of delimiters and logical files, all records, all distributions over tape records, any number of file marks in front, all error handlers; for termination all byte strings", "why_tests_cant": "The tests have a dozen layouts made by hand. How the offset for the next opening is found from the physical position (with or without twelve bytes for the mark) depends on where records end relative to tape records, and a wrong offset loses files or repeats them for ever.", "anchors": ["python/dlisio/lis/load.py:79-90", "python/dlisio/lis/load.py:109-139", "python/dlisio/lis/load.py:141-235", "lib/src/lis/io.cpp:577-632", "lib/src/lis/io.cpp:521-562"]}
{"id": "C75", "title": "The methods of a LIS logical file return each record once", "statement": "Each of data_format_specs, job_identification, wellsite_data, tool_string_info, operator_command_inputs, operator_response_inputs, system_outputs_to_operator, flic_comment, header and trailer returns exactly the records with the number that LIS79 has for this kind, in the order of the file. If all records can be parsed, and there is at most one header and trailer, the methods together return every record of these kinds exactly once. The names of record types in messages are unambiguous, and table_name is the value of the first block exactly for tables.", "quantifier": "all logical files of any records in any order, with any padding and any distribution over physical records", "why_tests_cant": "Tests look at files with a few records of one kind; a wrong number, or a record that is dropped because of what is around it, shows only for other mixtures.", "anchors": ["python/dlisio/lis/file.py:142-295", "python/dlisio/lis/information_record.py:73-96", "lib/include/dlisio/lis/protocol.hpp:90-123", "lib/src/lis/protocol.cpp:128-167"]}
{"id": "C76", "title": "LIS curves from the file on disk", "statement": "For a LIS file with tape marks or without: loading it, asking the i-th logical file for its data format specifications and reading the curves of one of them gives the array of exactly the frames that are in the data records behind this specification in the i-th logical file on the medium, in order, one column for the index and for each channel of the sample rate, every value as recorded.", "quantifier": "all files (any number of reels, tapes, logical files, records), all distributions over physical records and tape records, all formats and frames, all contents of unused memory", "why_tests_cant": "The composition of layers (tape marks, physical records, logical records, files, specification, frames) has far more combinations of boundaries than tests can have; an error in one layer is often hidden by another in small files.", "anchors": ["python/dlisio/lis/load.py:5-90", "python/dlisio/lis/file.py:197-216", "python/dlisio/lis/curves.py:103-281", "python/dlisio/ext/lis.cpp:490-565"]}
{"id": "C77", "title": "DLIS objects and their properties from the bytes on disk", "statement": "For a DLIS file with a storage unit label, without one, or on a tape image: after loading, the attributes of each logical file (channels, frames, ...) give exactly the objects of this type that are recorded in it, object() gives the one that is recorded with this type and name, and each documented property of an object is what is recorded: nothing if the attribute is missing or has no value, the recorded values, or for references the objects that are recorded with these names; regardless of which other objects were asked for before.", "quantifier": "all media (labels, visible records, tape records), all logical files, all object sets laid out according to the standard, all objects, all documented properties, all histories of earlier requests", "why_tests_cant": "Tests look at few files, with few distributions over records, and at few properties; an error that appears only with a certain split of a record, an inherited default of a template, or after a certain earlier request is not seen.", "anchors": ["python/dlisio/dlis/load.py:8-104", "python/dlisio/dlis/file.py:216-254", "python/dlisio/dlis/file.py:552-611", "python/dlisio/dlis/basicobject.py:171-231", "lib/src/dlis/records.cpp:1114-1143"]}
{"id": "C78", "title": "DLIS curves from any medium in terms of what is recorded", "statement": "For a DLIS file with a storage unit label, without one, or on a tape image, loading it and asking for the curves of a frame that is recorded in a logical file gives one row for each frame in the data records with its name, in order; the columns are the frame number and the channels that the frame refers to, with the recorded representation codes and dimensions, and every value as recorded.", "quantifier": "all media, all logical files, all frames, channels, representation codes and dimensions, all data records, all formats of labels, all histories of earlier requests, all contents of unused memory", "why_tests_cant": "The layers (tape marks, visible records, segments, object sets, references, frames) have far more combinations of boundaries than tests can have.", "anchors": ["python/dlisio/dlis/load.py:8-104", "python/dlisio/dlis/frame.py:122-123", "python/dlisio/dlis/frame.py:295-470", "python/dlisio/dlis/utils/fdata.py:8-28", "python/dlisio/ext/dlis.cpp:572-697"]}
{"id": "C79", "title": "Construction of DLIS logical files", "statement": "Constructing a logical file never makes load fail because of what is in its object sets, which are parsed on demand: the warning about objects of the type UPDATE is given exactly if there are some, and everything that is asked of the logical file later has the same answer as without the warning.", "quantifier": "all media, all logical files, all object sets, all error handlers that accept minor errors, all encodings, all contents of unused memory", "why_tests_cant": "The description of the logical file in the text of the warning is only evaluated for files with objects of the type UPDATE, and only fails in combination with a damaged header.", "anchors": ["python/dlisio/dlis/file.py:153-160", "python/dlisio/dlis/file.py:347-361", "python/dlisio/dlis/file.py:377-382", "python/dlisio/dlis/file.py:409-426", "python/dlisio/dlis/load.py:179-192"]}
{"id": "C80", "title": "The storage label of a logical file", "statement": "Asking a logical file for its storage label gives the sequence number, version, layout, maximum record length and identifier that are written in the label in front of it, nothing (and a warning) if there is no label, and an exception only for labels that are cut off or of another version; wrong fields get values that cannot be written in a label, and a warning.", "quantifier": "all labels, all media with any number of labels and logical files", "why_tests_cant": "80 free bytes, and any sequence of labels and logical files on a tape.", "anchors": ["python/dlisio/dlis/file.py:661-673", "python/dlisio/ext/dlis.cpp:182-245", "python/dlisio/dlis/load.py:289-308"]}
{"id": "C81", "title": "Channels, their frames and curves from the medium", "statement": "After load, the frame of a channel is the one frame that refers to it on the medium, the index of a frame is what the frame records, and the curve of a channel has one value per frame in the data records, in the order of the file, equal to what is recorded for that channel.", "quantifier": "all media, all logical files with any object sets, frames, channels and data records, all histories of requests, all contents of unused memory", "why_tests_cant": "The answer depends on the medium, on all frames of the file, on the layout of all channels of the frame and on what was asked for before.", "anchors": ["python/dlisio/dlis/channel.py:105-136", "python/dlisio/dlis/channel.py:206-266", "python/dlisio/dlis/frame.py:149-168", "python/dlisio/dlis/load.py:8-103"]}
{"id": "C82", "title": "Searching with patterns", "statement": "LogicalFile.find without a matcher returns exactly the objects whose type, and name if one is given, begin with something that the regular expression fits, ignoring case; a plain word finds everything that begins with it and .*word.* everything that contains it. LogicalFile.load raises exactly if the error handler does for some set and changes no later answer.", "quantifier": "all files, all histories of requests, all patterns of characters and dots with *, + or ?, all texts", "why_tests_cant": "Patterns, types and names are unbounded texts, and the answer goes through the cache of earlier requests.", "anchors": ["python/dlisio/dlis/file.py:480-549", "python/dlisio/dlis/file.py:658-660", "python/dlisio/dlis/file.py:216-254", "python/dlisio/dlis/utils/matcher.py:5-35"]}
{"id": "C83", "title": "Layout of summaries", "statement": "Writing a summary ends; each key has a row, in order, with the key, blanks up to a common column and \" : \", then all of the value and its units, wrapped to the width without losing anything but white space, with further lines starting at that column; elements of lists stand in columns, and headers are underlined.", "quantifier": "all keys, values and units, all widths and indents, all ways to split texts into words and to break words", "why_tests_cant": "Texts, widths and indents are unbounded, and whether wrapping ends depends on how they combine.", "anchors": ["python/dlisio/dlis/utils/describe.py:130-142", "python/dlisio/dlis/utils/describe.py:216-242", "python/dlisio/dlis/utils/describe.py:244-261", "python/dlisio/dlis/utils/describe.py:263-301"]}
{"id": "C84", "title": "The text of the summaries of files", "statement": "print(f.describe()) of a logical file that was loaded from any medium shows the title between lines of dashes, then the rows Description (the identification in the only file header, or Unknown), Frames and Channels, then under 'Known objects' and 'Unknown objects' one row for each type of the sets recorded, with the number of objects recorded with this type; a section without types is left out. The summary of a physical file shows the number of logical files and the first three rows of each, in order. Keys are padded to a common column, rows that fit the width are written as they are, others are wrapped without losing anything but white space, and writing always ends.", "quantifier": "all media, logical files, histories of access, widths that leave room for the headers, indents, and ways to wrap texts", "why_tests_cant": "Tests compare a few summaries of small files at the default width; which types there are, how many objects, and how texts are wrapped is unbounded.", "anchors": ["python/dlisio/dlis/file.py:99-118", "python/dlisio/dlis/file.py:377-382", "python/dlisio/dlis/file.py:614-656", "python/dlisio/dlis/utils/describe.py:130-142", "python/dlisio/dlis/utils/describe.py:216-242"]}
{"id": "C85", "title": "The text of the summaries of objects", "statement": "print(o.describe()) shows the capitalized type between lines of dashes, then name, origin and copynumber, then the rows of the summary (C70) in order, each at the start of a line with its title, value and units in the layout of C83. Whole numbers are in decimal, dates as year-month-day hour:minute:second with microseconds only if there are any, objects as the capitalized type with the name in parentheses. Headings depend on the type only: Metadata and Samples for measurements, Coordinates for well references, Channel indexing and Channels for frames; a description that is an object is replaced by the summary of that object under the heading Description; values that do not go with the dimensions stand under Invalid dimensions, and exactly the attributes that the class does not know under Unknown attributes. Each option leaves out its part, and writing ends.", "quantifier": "all objects of all types, states of the program, options, widths that leave room for the headings, indents, and ways to wrap texts", "why_tests_cant": "Tests compare a few summaries at the default width; attributes, values, options and widths combine without bound.", "anchors": ["python/dlisio/dlis/basicobject.py:283-345", "python/dlisio/dlis/utils/describe.py:130-159", "python/dlisio/dlis/utils/describe.py:161-242", "python/dlisio/dlis/frame.py:498-525"]}
{"id": "C86", "title": "Printed summaries tell what is recorded", "statement": "Let a file on disk be loaded and o be any object that is recorded in one of its logical files. Whenever print(o.describe()) succeeds with attributes, then for every title of the summary of its type there is a line that begins with the title and tells what is recorded for the attribute that the title means: None or nothing if there is no value; the text without surrounding blanks, the whole number or the date for a single value; all values in order (dimensions and axes in the opposite order) for several; True or False for flags; type and name of the object that a reference points to, or the names of all objects in a list of references; with the units of the attribute, without surrounding blanks, where the row has units and they are not excluded. Rows without content are missing only if empty ones are excluded. If what is recorded can be read, and titles fit in the lines, the summary is printed.", "quantifier": "all disks, tape images, logical files, recorded objects, values, options, widths, indents, ways to wrap texts, and histories of accesses before", "why_tests_cant": "Tests print a few summaries of a few files; attributes, values, references, layouts on disk and earlier accesses combine without bound.", "anchors": ["python/dlisio/dlis/load.py:8-103", "python/dlisio/dlis/basicobject.py:283-345", "python/dlisio/dlis/utils/describe.py:216-242", "python/dlisio/dlis/channel.py:268-279"]}
{"id": "C87", "title": "What is said about a problem names it, its place and its severity", "statement": "The message that a configured action is called with (and that the RuntimeError of RAISE has) consists of one labelled line for the problem, the place and the severity, then one each for the part of the specification, the action taken and the debug information that is given, in this order. Different reports have different messages. The entries of the log of a set are reported in order with the type and name of the set, those of an object with its fingerprint, those of an attribute with the fingerprint and the label, up to and including the first whose action raises; queries and look-ups fail if and only if that happens.", "quantifier": "all handlers, all reports, all sets, objects, attributes and logs", "why_tests_cant": "Tests look for a few words in a few messages; texts, places, configurations and logs are arbitrary.", "anchors": ["python/dlisio/common/errorhandler.py:168-213", "lib/src/dlis/records.cpp:881-892", "python/dlisio/dlis/basicobject.py:197-220", "python/dlisio/ext/core.cpp:127-142"]}
{"id": "C88", "title": "What is logged about a set is true", "statement": "The log of a set, of its objects and of their attributes is a function of the bytes of the record. Every entry says what is the case: the bits of the descriptor, the counts of object and template, the representation code; and the action that it names is what was done: bits are ignored, labels, names and types are read anyway, absent attributes are left out of the template, a value is cut to the count or replaced by default values, redundant and replacement sets are treated as normal sets, a set without objects is left empty. An object has an entry about its attributes if and only if one that it has itself has entries. If the parse is interrupted, the last entry says why, with the descriptor that was found. The severities of these entries decide what is reported and raised.", "quantifier": "all records, sets, objects, attributes, handlers", "why_tests_cant": "Tests compare a few entries of a few damaged records with expected words; whether the words are true depends on counts, codes, bits and template of arbitrary records.", "anchors": ["lib/src/dlis/records.cpp:24-161", "lib/src/dlis/records.cpp:454-476", "lib/src/dlis/records.cpp:659-721", "lib/src/dlis/records.cpp:759-872", "lib/src/dlis/records.cpp:896-1034", "lib/src/dlis/records.cpp:1036-1143", "lib/src/dlis/dlisio.cpp:496-508"]}
{"id": "C89", "title": "What is reported about records that cannot be read is true", "statement": "Indexing a file, extracting records, making sets of them, indexing the data of frames, and reading curves and unformatted data report, for each record that is left out, cut off or only partly read, and for no other, what is wrong with it, at the record where it is: that the file ends in a header or segment or where another segment is expected, that a length is too short, that a trailer is longer than its segment, that the name of an object or a sample does not end within the record, that a text is no text or a date no date, that a record is encrypted, that it does not begin with a set. The numbers in these texts - positions, lengths, rows - are those of the file and of the array, and the action that is named is what was done. Nothing is read differently because of the texts, and the work stops early if and only if the error handler raises.", "quantifier": "all streams, records, formats, handlers and memory behind the records", "why_tests_cant": "Tests look for a few words for a few damaged files; whether the words and numbers are true depends on where and how an arbitrary file is damaged.", "anchors": ["lib/src/dlis/io.cpp:239-279", "lib/src/dlis/io.cpp:301-382", "lib/src/dlis/io.cpp:384-535", "lib/src/dlis/io.cpp:537-590", "python/dlisio/ext/dlis.cpp:523-733", "python/dlisio/ext/dlis.cpp:1009-1051"]}
{"id": "C90", "title": "What is reported while a file is loaded is true, and nothing is passed over in silence", "statement": "Loading a file reports that the storage unit label or the first visible record is not in its place if and only if it is not, with the place and the distance where it is; that there is no label, or more than one, or one that is cut off, if that is so; that the data end early; and what C89 says about the records of each logical file. The action that is named is what was done. A round of loading about which nothing is reported has read a label and a visible record in their places and records that are all in order. Loading ends with an exception after the first report for which the error handler raises, and nothing that is loaded depends on the texts.", "quantifier": "all files, also tape images, all handlers, all logical files", "why_tests_cant": "Tests load a few files with label or first record missing or displaced, with the default handler; whether what is said is true depends on the bytes, the tape marks and the handler.", "anchors": ["lib/src/dlis/io.cpp:70-212", "python/dlisio/dlis/load.py:73-103", "python/dlisio/dlis/load.py:184-189", "python/dlisio/dlis/load.py:211-308"]}
{"id": "C91", "title": "What is reported while a LIS file is loaded is true, and what is not in order is reported", "statement": "Indexing a LIS file stops with a report exactly at the first record that is not in order, and the report says what is wrong with it: the length in the header of a physical record is too short for its attributes, the file ends inside of a header or of a record or before a physical record that has to follow, the type is none of the standard, or predecessor and successor bits do not fit; with the path, the record and the physical tell. If nothing is reported, all records are in order and all streams could be opened. There is at most one report, which does not depend on the handler, and loading ends with an exception exactly if the handler raises on it or if the start of the file cannot be read.", "quantifier": "all files, also tape images, all handlers, all records", "why_tests_cant": "Tests have some broken files and compare parts of the messages; what is said depends on all bytes before, on padding and alignment, on tape marks and on where the file ends.", "anchors": ["lib/src/lis/io.cpp:106-248", "lib/src/lis/io.cpp:250-263", "lib/src/lis/io.cpp:328-415", "lib/src/lis/io.cpp:422-519", "lib/src/lis/io.cpp:521-562", "python/dlisio/lis/load.py:109-139", "python/dlisio/lis/load.py:141-235"]}
{"id": "C92", "title": "What is said when a LIS record cannot be parsed is true and reaches the user", "statement": "Parsing a LIS record ends with an exception exactly if there is no parser for its type or its data are not as the standard says, and the text says what is wrong with the first block that is wrong: the type of the entry or component, its representation code, its size with the expected one, or how many bytes are left and how many are needed; for headers and trailers which record and its length. header and trailer of a logical file say that there is no such record, or more than one, exactly if it is so. The user sees all of the text.", "quantifier": "all types of records, all data of records, all indexed files", "why_tests_cant": "Tests have a few broken records and look for a part of the message; what is said depends on the first of possibly many faults, on all blocks before it, and on bytes of the file that are quoted.", "anchors": ["lib/src/lis/protocol.cpp:128-167", "lib/src/lis/protocol.cpp:291-319", "lib/src/lis/protocol.cpp:321-349", "lib/src/lis/protocol.cpp:353-385", "lib/src/lis/protocol.cpp:421-445", "lib/src/lis/protocol.cpp:488-523", "lib/src/lis/protocol.cpp:557-597", "lib/src/lis/protocol.cpp:601-651", "lib/src/lis/protocol.cpp:653-671", "lib/src/lis/protocol.cpp:683-717", "lib/src/lis/protocol.cpp:751-788", "python/dlisio/lis/file.py:35-57", "python/dlisio/lis/file.py:152-192", "python/dlisio/lis/file.py:370-411"]}
{"id": "C93", "title": "What is said when curves are refused is true", "statement": "curves and curves_metadata of a LIS file refuse a data format specification exactly if something is wrong with it (a field recorded twice, more than one sampling rate and none chosen, an unknown depth recording mode, no channels, an index or a channel of a type or size that cannot be read, no spacing, an invalid direction, duplicated mnemonics), and the exception says what is wrong, with the curve and the number concerned. Something is logged exactly if mnemonics are duplicated. The attributes of DataFormatSpec raise exactly if there are several entry blocks of their type, and name it.", "quantifier": "all parsed data format specifications, all sampling rates, strict or not", "why_tests_cant": "Tests break one thing at a time and look for a part of one message; what is said depends on the order of about twenty checks over all entry and specification blocks, on which field is asked for when, and on how NumPy names columns.", "anchors": ["python/dlisio/lis/curves.py:75-101", "python/dlisio/lis/curves.py:257-272", "python/dlisio/lis/curves.py:435-525", "python/dlisio/lis/dataformatspec.py:300-333"]}
{"id": "C94", "title": "What is said about objects, references and attributes is true", "statement": "If LogicalFile.object refuses, the exception says that no object was found exactly if no object has the type, name, origin and copy number asked for, and otherwise lists the origins and copy numbers of all the objects that do. A linked object is reported as not found exactly if the lookup refuses, a value that is not a reference of the expected kind is reported as it is written, and more than one value for a scalar is reported with the number of values. The KeyError of an attribute that is neither defined nor recorded names it. The number of file headers is complained about exactly if it is not one; a file with UPDATE objects is warned about when it is loaded.", "quantifier": "all object pools, histories of lookups, objects, attributes, keys and references", "why_tests_cant": "Tests provoke single messages and look for a part of the text; whether a message is true depends on all sets of the file, on which of them are parsed, on equality of all attributes of the candidates, and on how names are decoded and written.", "anchors": ["python/dlisio/dlis/file.py:584-611", "python/dlisio/dlis/file.py:356-361", "python/dlisio/dlis/file.py:418-426", "python/dlisio/dlis/utils/linkage.py:16-31", "python/dlisio/dlis/basicobject.py:171-231", "python/dlisio/dlis/utils/valuetypes.py:29-50", "python/dlisio/ext/dlis.cpp:801-807"]}
{"id": "C95", "title": "What is said about channels, frames and samples is true", "statement": "Channel.frame says that a channel is in no frame exactly if no frame refers to it, and that it is in several exactly if frames that differ do, with one candidate for each; Channel.curves says that there is no recorded data exactly if there is none. Frame.index says that a frame has no channels exactly if it has none. Frame.dtype names the first channel that does not exist, a channel that shares its name with another one and cannot be labelled, and says that mnemonics are duplicated exactly if they are. Channel.fmtstr says that a dimension is invalid exactly if there is none. If values cannot be put into a shape, this is said with their number and the dimension, and if there are more samples than one should be, their number.", "quantifier": "all files, histories of lookups, frames, channels, formats of labels, data and dimensions", "why_tests_cant": "Tests provoke single messages with small files; whether a message is true depends on all frames and channels of the file, on equality of all of their attributes, on all labels of a frame at once and on products of dimensions.", "anchors": ["python/dlisio/dlis/channel.py:106-136", "python/dlisio/dlis/channel.py:197-199", "python/dlisio/dlis/channel.py:261-266", "python/dlisio/dlis/frame.py:149-168", "python/dlisio/dlis/frame.py:220-276", "python/dlisio/dlis/utils/dimensional.py:54-69", "python/dlisio/dlis/utils/dimensional.py:138-142"]}
{"id": "C96", "title": "What is said about storage labels, fingerprints and tables is true", "statement": "LogicalFile.storage_label says that there is no label exactly if there is none, that it is too small exactly if it has fewer than 80 bytes (with the number), that it cannot be parsed exactly if it is of another version, and warns exactly if a field is not as the standard says. fingerprint says that the copy number is out of range exactly if it does not fit a byte, and otherwise that an argument is invalid exactly if the type is empty or the origin negative. InformationRecord.table and table_name say that a record is not structured exactly if its first component block is not of type 73, and table that it is ill-formed exactly if its second block is not of type 0, each with type and position of the record.", "quantifier": "all labels, types, names, origins, copy numbers, and all information records that can be parsed", "why_tests_cant": "Tests match a part of a message for one input each; that a message is given for all inputs with the fault, and for no others, is not tested.", "anchors": ["python/dlisio/dlis/file.py:670-673", "python/dlisio/ext/dlis.cpp:188-245", "python/dlisio/ext/dlis.cpp:247-267", "lib/include/dlisio/dlis/types.hpp:176-206", "python/dlisio/lis/information_record.py:40-42", "python/dlisio/lis/information_record.py:91-96", "python/dlisio/lis/information_record.py:143-156"]}
{"id": "C97", "title": "What is shown of references, marks, headers and records tells them apart", "statement": "The text that Python shows of a reference (obname, objref, attref) or of an object exists exactly if its parts can be converted, and two references with the same text are the same. The texts of tape marks, headers of physical records, records, information records and indices of LIS files tell exactly what they name: type, previous and next mark; length, predecessor and successor; type, position and size; number of records. No two record types have the same name.", "quantifier": "all names, types, labels, origins and copy numbers, all tape marks, headers, records and sizes", "why_tests_cant": "Tests compare the text of single values; that no two different values have the same text is a statement about pairs of arbitrary texts, with quotes, commas and markers in them.", "anchors": ["python/dlisio/ext/dlis.cpp:801-807", "python/dlisio/ext/dlis.cpp:826-829", "python/dlisio/ext/dlis.cpp:855-862", "python/dlisio/ext/dlis.cpp:903-906", "python/dlisio/ext/core.cpp:188-191", "python/dlisio/ext/lis.cpp:571-604", "python/dlisio/ext/lis.cpp:704-756", "python/dlisio/lis/information_record.py:40-42"]}
{"id": "C98", "title": "Reading bytes of a stream into a buffer changes that buffer only", "statement": "stream.get(buffer, offset, n) and lis_stream.read(buffer, offset, n) raise if the buffer has fewer than n items, and the text says both numbers. Otherwise the first bytes of the buffer are the bytes of the stream from the offset on, at most n of them, the number of bytes is told, and no other memory is changed: not behind the buffer, not between its items, and none that is read-only. The storage unit label that load keeps is what has been read, and load finds the end of a logical file exactly where no byte can be read. storage_label reads the first 80 bytes of the buffer it is given and nothing else, and raises exactly if there are fewer.", "quantifier": "all streams, offsets, numbers of bytes, and buffers: their memory, place in it, item size, stride, and whether they may be written", "why_tests_cant": "Tests read into a bytearray of the right size; what happens to memory next to the buffer is not visible to them and depends on stride and place of the buffer.", "anchors": ["python/dlisio/ext/dlis.cpp:993-1006", "python/dlisio/ext/lis.cpp:675-688", "python/dlisio/ext/dlis.cpp:188-212", "lib/src/file.cpp:41-56", "python/dlisio/dlis/load.py:224-247", "python/dlisio/dlis/load.py:289-308"]}
{"id": "C99", "title": "Messages about files that are loaded or read are told apart", "statement": "Each report that the error handler gets while a DLIS file is loaded, or curves or unformatted data are read, becomes one of 13 messages, with problem, place, severity, citation of the standard, action and the numbers behind them each on its line. Two messages that are the same report the same: the same kind, the same text of the exception and the same positions and numbers, even if the text of the exception has line breaks or looks like lines of a message. For LIS files there is one message, which tells file or record, problem and position in the file, and these are told apart if the path has no line breaks.", "quantifier": "all files, policies of error handling, texts of exceptions, positions and numbers", "why_tests_cant": "Tests look for a part of a message in the log; that two different reports never give the same message is a statement about pairs of arbitrary texts and numbers.", "anchors": ["lib/src/dlis/io.cpp:168-176", "lib/src/dlis/io.cpp:202-209", "lib/src/dlis/io.cpp:262-271", "lib/src/dlis/io.cpp:394-405", "lib/src/dlis/io.cpp:546-552", "python/dlisio/ext/dlis.cpp:643-652", "python/dlisio/ext/dlis.cpp:709-714", "python/dlisio/ext/dlis.cpp:1019-1024", "python/dlisio/ext/dlis.cpp:1043-1046", "python/dlisio/dlis/load.py:228-234", "python/dlisio/dlis/load.py:263-271", "python/dlisio/dlis/load.py:276-285", "python/dlisio/dlis/load.py:298-305", "python/dlisio/common/errorhandler.py:193-213", "python/dlisio/lis/load.py:149-156", "python/dlisio/lis/load.py:181-189", "python/dlisio/lis/load.py:203-210", "python/dlisio/lis/load.py:226-233"]}
