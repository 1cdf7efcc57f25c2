STATUS={
'C01':('partial','Decoding is proved in full as an equivalence with an independent specification. Write/read round trip holds except for 0x4000..0xBFFF at requested width 1 or 2, where it is proved false for every such value (c01_uvario_width2_defect).'),
'C02':('proved','All six integer types and the copied IEEE types, both directions.'),
'C03':('proved','ASCII round trip needs length < 2^14 when a 1 or 2 byte length is requested (see C01).'),
'C04':('proved',''),
'C05':('proved',''),
'C06':('proved','Exact value, no rounding, for all 2^16 patterns.'),
'C07':('partial','Exact on the normal range for normalised numbers; proved false for un-normalised fractions and in the subnormal band.'),
'C08':('partial','Decoding proved in full (nearest binary32, exact for exponent >= 3). The write/read round trip holds for exponent fields 1..253; proved false for 254 (reads back as NaN), zero/subnormal become zero.'),
'C09':('proved','All 27 codes; includes the master theorem that decoding equals the encoding relation.'),
'C10':('proved','All finite numbers; which fraction bits are dropped is stated exactly.'),
'C11':('proved',''),
'C12':('partial','Soundness of the size queries proved for every well-formed format. Detection of invalid format characters is only proved up to the first string code; after a string code the query returns early, and a format with an invalid character there is accepted (c12_varsize_invalid_defect).'),
'C13':('proved',''),
'C14':('proved','Search functions over any buffer, and the two-attempt searches over a stream.'),
'C15':('proved',''),
'C16':('partial','Proved that what is left is exactly the record data for every segment with a trailer, and that never more than the segment is removed. The claim that only the segment is read fails: for a padded segment shorter than its trailer the padding length is read from the bytes in front of it (c16_reads_outside_defect).'),
'C17':('proved','Both directions: a well-formed record is returned exactly, and success implies a complete chain of segments.'),
'C18':('proved','On any stream, well-formed or not.'),
'C22':('partial','Injective and reversible for one type, and across types not containing the separator; proved false for types containing "-I." (c22_types_defect).'),
'C19':('proved',''),
'C20':('partial','Structure of the result proved for every byte stream. Truncation is reported for every cut when the stream fails to read (c20_truncated) and, at a regular end of file, for every cut in front of the data of the last segment; a cut inside the data of the last segment at a regular end of file goes unnoticed (c20_truncated_at_eof_defect).'),
'C21':('proved',''),
'C23':('proved', ''),
'C24':('proved', 'For every object set laid out according to the specification relation ObjSetEnc (every choice of present characteristics, absent attributes, invariant attributes).'),
'C25':('proved', ''),
'C26':('partial', 'Resulting attribute proved for every combination of characteristics. The message issued for a count larger than the template count says that the value is left as in the template; it is reset instead (c26_left_as_in_template_defect).'),
'C27':('proved', ''),
'C28':('partial', 'Proved for pools whose sets have a type and name in UTF-8 or nothing in the log. Proved false otherwise: the query fails, whatever the error handler does (c37_set_defect).'),
'C57':('partial', 'Proved for records laid out according to the standard. False in general: the parser reads past the end of a truncated record (c57_reads_past_record_defect).'),
'C29':('partial', 'Rows proved for every list of records, intact, damaged, broken or encrypted, in any order; no write outside the array for any input whatsoever. Missing: the exact text of identifiers with bytes >= 0x80, which are sign-extended (c29_text_defect); records cut off inside a value of an unchecked type read bytes behind the record (C31).'),
'C30':('proved', 'For every list of channels, every dtype format, strict or not; also that what is written in the array lies at the offsets of the type.'),
'C31':('partial', 'Proved for formats of checked codes. Proved false for every unchecked code (c31_all_unchecked_defect) and because a checked code is read before the check (c31_read_before_check_defect).'),
'C32':('proved', ''),
'C38':('partial', 'Order, number and distinctness of columns for every list of channels. That non-strict access never raises is proved under conditions on names; proved false without them (c38_nonstrict_defect, c38_frameno_defect).'),
'C58':('partial', 'Proved as long as every date exists; a date that cannot be converted leaves a released object in the array (c58_released_twice_defect).'),
'C59':('proved', ''),
'C55':('proved', 'Recognition of a tape mark and the reading of one from a stream, for every block and source.'),
'C56':('partial', 'False of the code for strings with an embedded NUL (c56_nul_defect); proved for every string without NUL and every list of encodings.'),
'C33':('partial', 'For every pool, history and query with a name that is not empty and names that decoding and encoding leave unchanged. Proved false for objects with NaN and for the empty name (c33_nan_defect, c33_empty_name_defect).'),
'C34':('partial', 'For every history of queries, cache switches and clears. Proved false for the empty name and for names that depend on the encodings (c34_empty_name_defect, c34_encodings_defect).'),
'C36':('partial', 'For references whose name is not empty and is left unchanged by decoding and encoding. Proved false for the empty name and for names cut at NUL (c36_empty_name_defect, c36_nul_defect), and for values that are no references of the expected kind and cannot be written in the warning: names that are not UTF-8, references without a type (c36_kind_defect; c36_kind_partial is for the others).'),
'C37':('partial', 'For every handler, every configuration and every sequence of reports; reports of sets if their type and name are in UTF-8. Proved false otherwise: an exception that the configuration has no say in (c37_set_defect). Custom actions are functions that raise or return.'),
'C39':('partial', 'For data that is not empty and dimensions without zero. Proved false for dimensions with a zero (c39_zero_dimension_defect): all elements are dropped.'),
'C35':('partial', 'For objects whose labels are pairwise different and left unchanged by decoding and encoding, dates that exist and logs that the error handler accepts; KeyError and absent labels without conditions on labels. Proved false for labels that are not UTF-8 (c35_encoded_label_defect), for objects with entries in the log in a set without type (c35_untyped_defect), and for values that are no references of the expected kind and cannot be written in a warning (c35_unwritable_defect).'),
'C60':('partial', 'Proved if every attribute without a rule has a value. If one has none, the stash raises (c60_no_value_defect).'),
'C40':('partial', 'Loading ends for every file without tape marks (c40_ends); the bytes of a label and any number of well-formed logical files give one logical file each with label, index, objects and frame data (c40_split), and without a label the same (c40_unlabelled); a damaged last file keeps earlier ones under a lenient handler unless it contains another FILE-HEADER or undefined behaviour; handles are closed once whatever fails except the first tape mark and re-opening. Defects: short file leaks, failing re-open closes twice, a FILE-HEADER inside a visible record loses all files, in a file without a label the text RECORD within 1700 bytes loses files (c40_label_text_defect). Tape images are treated in C67; lfp is a parameter. The constructor of the logical files is left out; see C79.'),
'C41':('partial', 'Integers, bytes, codes 49, 68 and 70 hold for all patterns (68 and 70 correctly rounded to float, which is unavoidable). Code 50: zero with an exponent above 142 decodes to NaN, and everything with an exponent below -134 to 0; the mask for negative code 70 overflows int.'),
'C42':('proved', 'The size query depends on the format only, but reads the source (reading past a source that is too short).'),
'C43':('partial', 'Proved: a header directly at the cursor (length bytes not padding) is returned as is; two or more padding bytes of one kind ending at a multiple of four are skipped exactly; padding up to the end of the file is end of file; on any stream a returned header is in the file, long enough, not padding, and what is skipped is padding except possibly one byte; trailer sizes follow the bits. Shown false: records of length 0x2020 off a multiple of four are taken for padding, a single padding byte is not skipped, one byte of padding goes unchecked, mixed padding is taken for a header.'),
'C44':('partial', 'Proved for every list of well-formed records with any split into physical records, any trailers, and padding between logical records: each record once, in order, with position, type and size, for files ending at end of file, with trailer, without trailer, and for tape/reel records; truncated files keep the records before the damage and are marked incomplete; on any stream records are inside the file, disjoint and ordered; records before damage are kept. Shown false: padding inside a logical record, cut after one zero byte, position after a damaged record. Lengths 0x2020 are excluded (see C43).'),
'C45':('partial', 'Proved: reading gives the concatenation of the payloads for every split with any trailers; the size in the index is data plus headers and trailers; truncated records give an error; on any stream the bytes are bytes of the file in order. Physical records of length 0x2020 are excluded (see C43).'),
'C46':('proved', 'implicits_of on any ordered index, and the index of any stream is ordered; each data record behind the first specification belongs to exactly one. The record type is not looked at here; the filter on type is part of C52.'),
'C47':('proved', 'Acceptance is characterised exactly for all byte strings; values of code 50 are those of the model of lis_f32low (see C41).'),
'C48':('proved', 'Exact characterisation for all byte strings, tables of any size. Two blocks with one mnemonic in a row: the earlier one is not in the table (c48_duplicate_defect).'),
'C49':('proved', ''),
'C50':('proved', ''),
'C51':('partial', 'Columns of every accepted format; every frame that is read takes the sum of the reserved sizes and writes rate rows of itemsize bytes each, for rates > 0. At rate 0, which is not refused, the index is written outside the array (c51_rate_zero_defect).'),
'C52':('partial', 'For rates up to 127 and any number of records of whole frames: the array has frames*rate rows in order and every byte of each row is that of the specified value; index as recorded, counted from the start of the record, or interpolated (exact for representable intermediates, error bound otherwise). Fails for rates >= 128 (8-bit counter), cut records, texts that are not UTF-8, integral indices with fractional steps and the default rate (defect theorems).'),
'C53':('partial', 'unique_mnemonics: labels, uniqueness without clashes (in particular for mnemonics of equal length), unchanged iff no duplicates; curves_metadata lists exactly the columns of the array when no channel of the rate is suppressed and no label is empty or clashes. Defects: clash with zero-padded mnemonics, suppressed channels, empty labels.'),
'C54':('partial', 'Proved: for every sequence of delimiters and logical files (whatever lfp makes of the file), files come in order with their index, reel and tape have the header open there and the trailer that closes it, no header or trailer lost or twice; for files without tape marks the same from the bytes (c54_load_partial), and the loop ends on every byte string; streams are closed or owned by exactly one file, all closed on failure. Shown false: data records in front of a delimiter (stream leaked, or delimiter and the rest of the file lost), truncation behind a trailer goes unreported, first physical record of 256 bytes taken for a tape mark. For tape images see C74.'),
'C61':('partial', 'Proved for all entry blocks except spec_block_type, which reads the entry of another type (c61_block_type_defect).'),
'C62':('proved', 'Dispatch, records of a type, header, trailer and delimiters. c62_loaded_partial is under the conditions of c54_load_partial (well-formed file without tapemarks).'),
'C63':('partial', 'Composition of C44-C47, C51-C54, C61, C62. Rates up to 127 (c52_rate_defect) and labels that are unique and not empty (c53 defects).'),
'C64':('partial', 'Every object is in exactly one attribute for every history (c64_everything_partial), unknown objects of one type must have different fingerprints; c64_same_fingerprint_defect and c64_empty_type_defect are the violations.'),
'C65':('partial', 'Composition of C21, C22, C29, C30, C32, C35, C36, C40, C56: c65_curves_partial, from disk c65_disk_partial, and c65_noformat_partial, for every history. Names must be UTF-8 without NUL; every channel of the frame is found and has a code and dimensions. c65_encodings_defect, c65_nul_defect, c65_stolen_defect and c65_two_encodings_defect are violations.'),
'C66':('partial', 'Frame of a channel, curve of a channel from the loaded file to the column, index, and partial formats. Not in full: (1) an unrelated frame with a reference to a channel that is not there makes Channel.frame and Channel.curves an exception (c66_dangling_defect); (2) a channel twice in a frame (c66_twice_defect); (3) NaN in a channel (c66_nan_defect); the conditions of C65 are kept.'),
'C67':('partial', 'tapeDisk is the assumption about lfp (not in the repository), taken from load.py and checked against the marks of the files in python/data/tif. c67_tape_partial: for any sequence of file marks, labels and well-formed logical files on tape, pieces cut anywhere; needs that each file starts a tape record, that labels after the first follow a file mark, and, if there is no label in front of the first file, that nothing in 1700 bytes looks like one. c67_unaligned_defect, c67_label_defect and c40_label_text_defect: without these conditions files are lost or loading fails. c67_ends: loading ends on every byte string. The constructor of the logical files is left out; see C79.'),
'C68':('partial', 'For objects with pairwise different labels, dates that exist, dimensions without zero (see C39) and samples that fit into a C int. What np.array makes of a list of values is a parameter of the model. Proved false: the number of samples need not be that of the zones (c68_zones_defect), and problems in the attribute are not reported (c68_unreported_defect).'),
'C69':('partial', "Proved for every documented property and every history, with the problems of the object and the attribute accepted by the error handler, and dates that exist. Defects: the documented names Group.object_type, object_list, group_list, Path.frame_type and Wellref.coordinate do not exist; Group.objects is a TypeError if OBJECT-LIST has no value or OBJECT-TYPE is missing; group['OBJECT-LIST'] depends on an earlier use of objects; coordinates with equal names are lost, and one without value makes the property raise."),
'C70':('partial', 'Proved for all rows of all classes that show properties, pairs, names, samples, descriptions, texts, groups, coordinates and numbers, for the header and for unknown attributes. Violated: c70_splice_defect, c70_frame_defect and c70_unknown_defect (no summary), c70_tolerances_defect (minus and plus tolerances are swapped), c70_zone_defect, c70_zoned_defect, c70_pair_defect; c70_label_defect (no summary if the label of an unknown attribute is not UTF-8). Missing: layout.'),
'C71':('partial', 'The summary of a logical file and of all logical files, after every history of access: description, numbers of frames and channels, each type once with its number of objects, and these are all objects. c71_type_defect: describe() raises TypeError if the type of a set is not UTF-8, so hypothesis hstr is needed. c71_reference_defect: it raises UnicodeDecodeError, and that of the physical file too, if the ID of the header is a reference whose name is not UTF-8. Errors reported while loading the sets are excluded (SetsQuiet), and layout is the subject of C84.'),
'C72':('partial', 'Numbers are compared by what they denote (c72_float32, c72_float64); == is symmetric and transitive, and equal objects cannot be told apart through their names and attributes, for all classes and states (c72_interchangeable). Violated: the type is not compared (c72_type_defect, c72_any_type_defect), an object with NaN is not equal to itself (c72_reflexive, c72_nan_defect), and the order of attributes matters (c72_order_defect).'),
'C73':('partial', 'Exact condition for a use of a closed handle (c73_proper_partial): a logical file that is closed again or read after it was closed. With a with block in which nothing is closed, every handle is closed exactly once, for all DLIS and LIS files (c73_dlis_with_partial, c73_lis_with_partial, under the conditions of C40 and C54). Violated: closing a logical file within the block (c73_close_twice_defect), reading after closing (c73_read_closed_defect). That lfp_close frees the handle is an assumption about lfp.'),
'C74':('partial', 'c74_load_partial: for every tape of stretches between file marks, records distributed over tape records in any way, if each delimiter and each logical file starts a tape record. c74_terminates: load ends on every byte string. Violated: c74_inside_defect (a logical file that starts inside a tape record is lost), c74_padding_defect (padding at the end of a tape record), c74_two_marks_defect (what is behind two file marks is dropped without a message), c74_empty_tape_defect. What lfp makes of tape marks is the assumption tapeRecords of C67.'),
'C75':('proved', 'c75_lists and c75_ends: each method gives the records with its number in LIS79; c75_all: together they give each record that can be parsed exactly once; c75_names, c75_table_name. The wrappers DataFormatSpec and InformationRecord are modelled by the record they hold.'),
'C76':('partial', 'Composition of C74 (or C54), C62, C63 and C75, with their conditions: each part starts a tape record, rates up to 127, labels unique and not empty.'),
'C77':('partial', 'Composition of C40/C67, C24, C64, C33 and C69; all hypotheses are about what is recorded. Conditions: those of C40 and C67 on the medium, types, names and labels are UTF-8 without NUL, an object that is asked for by name is the only one with its type and name and its name is not empty (without this: c33 and c69 and their defects), the error handler accepts empty sets and unsupported roles if there are any. The constructor of the logical files is left out; see C79.'),
'C78':('partial', 'Composition of c77_load_partial, C24 and c65_curves_partial; all hypotheses are about what is recorded. Conditions: those of C77, names in the data records are UTF-8 without NUL, each channel the frame refers to is recorded once, the labels of the columns are accepted by NumPy. The constructor of the logical files is left out; see C79.'),
'C79':('partial', 'The constructor looks at the sets only if there is an object of the type UPDATE, and uses them as any user can, so the claims for all histories hold afterwards (c79_init). loadPy is load with the constructors: it gives the same logical files if each has no UPDATE object or has sets laid out as the standard says (c79_load_partial). Violated: with an UPDATE object, an error in the set of file headers makes load raise with the default error handler (c79_update_defect). Applies to the load theorems of C40, C67, C77 and C78, which are about load without the constructors.'),
'C80':('partial', 'c80_label, c80_defaulted and c80_raises are for every label; c80_load_partial composes them with loading, under the conditions of C77. Violated: an identifier that is not UTF-8 makes storage_label raise, whatever encodings are set (c80_identifier_defect). That pybind11 decodes char arrays strictly as UTF-8 is an assumption.'),
'C81':('partial', 'Composition of C66, C77, C78 and C79; same assumptions (lfp, np.array, codecs). A channel without frame or with several differing frames has no curve (C66).'),
'C82':('partial', 'Patterns with other special characters are not modelled (module re), and which characters are the same without case is a parameter outside ASCII. Types and names must be UTF-8: types that cannot be decoded are searched as the text of a Python bytes literal (c82_bytes_defect).'),
'C83':('partial', 'The layout is proved for a model of textwrap with how words are split and broken as parameters; np.array2string and str of values are given. c83_blank_defect: a blank value loses its key; c83_hang_defect: with a width smaller than the title, such a row is never written.'),
'C84':('partial', 'The text of LogicalFile.describe() and PhysicalFile.describe(), line by line, after every history of access and from every medium, in terms of the objects that are recorded (c84_load_partial). Rows that fit are given exactly, others up to the choices of textwrap (Spec.Wraps, Spec.Printed). As for C71 there is no summary if the type of a set is not UTF-8 (c71_type_defect) or the ID of the header is a reference that is not (c71_reference_defect), and errors reported while loading the sets are excluded; headers must fit in the width.'),
'C85':('partial', 'The text of BasicObject.describe() for every object, state and option: title, the rows of C70 in order, in tables and under headings whose arrangement depends on the type only (c85_text_partial: Spec.Laid and Spec.Outline), each row at the start of a line with its key, value and units (c85_row_partial), title and the rows name, origin and copy exactly (c85_header), and writing ends where the keys fit the width and the references in the rows can be written down (c85_ends). The text is complete only if they can (c85_writable): an attribute that is not known and refers to a name in Latin-1 keeps the summary from being printed (c85_reference_defect). Spec.Word says how texts, whole numbers, dates and objects are written, alone or in lists of one kind. Not shown: str of floats and of bytes, and np.array2string, which are given; layout as far as C83 has it (Spec.Wraps, Spec.Printed).'),
'C86':('partial', 'From the bytes on a disk to the text of summaries: C77/C79 (reading), C70 (rows) and C85 (text) are put together. For every recorded object, option and history, each row of Spec.titles tells what is recorded (c86_summary_partial: Spec.Entered, Spec.UnitsOf, Spec.Tells). Summaries of the types in Spec.simpleTypes are printed if what is recorded can be read and the names in references can be written down (c86_printed_partial; c85_reference_defect shows that this is needed). Not shown: floats, bytes that are no UTF-8, lists of objects that are shown with units (np.array2string is given), rows that combine two properties, and that summaries of the other types are printed, because this is false for some (C70 defects).'),
'C87':('partial', 'The message, which action it is handed to and the exceptions without conditions. That a message can be read back for parts without line breaks (c87_read_defect otherwise); which set it is said to be about for types and names in UTF-8 (c87_set_defect otherwise); which object for types and names in UTF-8 and types that are not empty.'),
'C88':('partial', 'The texts of all entries and exceptions, as a function of the bytes (toldParse), agree with the logs of Eflr.lean (c88_same, c88_logs), and for sets, objects and attributes it is shown what the entries say and that it is so (c88_set, c88_entries, c88_normal_set, c88_objects, c88_object, c88_attribute_partial, c88_descriptor, c88_expected), up to the messages (c88_query, c88_access). False: with a larger count the value is not left as in the template (c88_left_defect); with a representation code that is none there is neither a default value nor that of the template, and the code is said to be 66 (c88_default_defect); descriptors of attributes are shown by their first three bits only (c88_descriptor_defect); objects do not tell of entries of attributes that they take from the template (c88_inherited_defect).'),
'C89':('partial', 'The texts of all reports and exceptions as a function of the stream (toldOffsets, toldExtract, toldFindfdata, toldExtractAll, toldSets, toldNoform, toldCurves) change nothing of what is read, and what they say is true of the stream: c89_index, c89_handler and c89_tells (indexing), c89_extract, c89_raised (how often something is noted if the error handler raises), c89_fdata, c89_raw, c89_sets, c89_noform, c89_curves. Texts of the stream, of pybind11 and of the standard library are given. False: the position of a segment that is cut off is the one behind it (c89_segment_defect); the size of a trailer may be a byte of another segment (c89_trim_defect); curves of a record that is said to be skipped stay in the array (c89_skipped_defect).'),
'C90':('partial', 'The texts of all reports while a file is loaded, as a function of the bytes (toldLoad), change nothing of what is loaded (c90_same); what they say about label, first visible record, end of the data and records is true of the file (c90_findsul, c90_findvrl, c90_reports), places and distances are those of the file for files that are no tape images (c90_label_place, c90_vr_place); a round of loading without a report read a label in its place, a visible record in its place and records that are all in order, or nothing (c90_silent); loading ends with the report for which the error handler raises (c90_stops), with the exceptions named there. False: on tapes the place is not that of the label (c90_place_defect); if the handler raises for a late label, it is reported that there is none (c90_none_defect); a handler that raises for a further label does not end loading, and the label is not read although that is said (c90_second_label, c90_second_label_defect).'),
'C91':('partial', 'The texts of all reports and exceptions as a function of the bytes (toldPrh, toldRecord, toldIndexRecords, toldReadRecord, toldLoad) go with what is indexed and read (the _plain and _same lemmas), and what they say is true: c91_header, c91_record, c91_index, c91_read, c91_reports; an exception exactly if the handler raises or the start cannot be read (c91_raised); the same with every handler (c91_any_handler); nothing about files that are in order (c91_no_alarm, c91_no_alarm_tape); without a report no stream ended with a record that is not in order (c91_silence); place for files that are no tape images (c91_place). False: bytes at the end can be lost (c91_end_defect), also a record behind a trailer (c91_silent_defect); twelve bytes that can be read are said not to be (c91_first_bytes_defect); the tell can be behind the end of the file (c91_behind_defect) and on tapes in front of the record (c91_tape_place_defect); records that are in order are reported (c91_size_defect).'),
'C92':('partial', 'The texts of all exceptions of the record parsers as a function of the bytes (explainRecord and what it calls); results and failures are those of the models without texts (c92_plain, c92_methods_plain). An exception is raised exactly for faulty records and says what is wrong: c92_entry, c92_component, c92_dfsr, c92_info, c92_record; one reason only (c92_one_reason); none without a reason (c92_no_alarm); what header and trailer say and log: c92_header, c92_trailer, c92_reel_tape. All of the text is seen by the user if the record is no information record (c92_shown) or the mnemonic is UTF-8 without NUL (c92_shown_component). False in general: c92_mnemonic_defect (mnemonic that is not UTF-8: text lost), c92_nul_defect (NUL cuts the text off), c92_unnamed_defect (reel and tape records are not named), c92_which_defect (the text does not say which entry).'),
'C93':('partial', 'curves, curves_metadata, directional_spacing and the attributes of DataFormatSpec with the texts of all exceptions and log entries; results and failures are those of the models without texts (c93_plain, c93_metadata_plain, c93_fields_plain, c93_spacing_plain). What is said is true (c93_curves, c93_channel, c93_spacing, c93_rate, c93_fields, c93_metadata) and what is wrong is refused (c93_refused, c93_channel_refused). Log for labels that are not empty: c93_logged_partial, c93_duplicates_partial. False in general: c93_logged_defect (mnemonics said to be duplicated which are not), c93_entries_defect (one and a half entries called multiple), c93_suppressed_defect (channels that are not read are refused), c93_block_type_defect (another type is named).'),
'C94':('partial', 'LogicalFile.object, lookup, __getitem__, parsevalue, fileheader and the constructor with the texts of exceptions and warnings; results are those of the models without texts (c94_plain). What LogicalFile.object says is true and complete for stable names that are not empty (c94_object_partial); references: c94_lookup_partial, c94_linked_partial, and what is said before one that raises is kept in order: c94_stopped; missing attributes, KeyError, number of values: c94_missing_partial, c94_key, c94_value_partial; file headers: c94_fileheader; UPDATE objects: c94_update_partial. False in general: c94_empty_name_defect (with the cache off, the objects listed for the empty name do not have it), c94_nan_defect (the same object twice counts as several if a value is NaN), c94_update_defect (a set of type UPDATE without objects is warned about).'),
'C95':('partial', 'Channel.frame, Channel.curves, Frame.index, Frame.dtype, Channel.fmtstr, validshape and sampling with the texts of exceptions and log entries; results are those of the models without texts (c95_frame_plain, c95_dtype_plain, c95_shape_plain). True: c95_frame_partial, c95_curves_partial and c95_index_partial (frames that refer to channels that are there), c95_orphan, c95_dimension, c95_dtype (every outcome, with what is said and why), c95_shape, c95_shape_said_partial and c95_samples_partial (dimensions without zeros). False in general: c95_curves_defect (no recorded data, for a channel in two frames that is recorded), c95_missing_defect (channel not found, although there are two), c95_frameno_defect (duplicated mnemonics in a frame with a single channel).'),
'C96':('partial', 'storage_label, fingerprint, table and table_name with the texts of exceptions, warnings and log entries; results are those of the models without texts (c96_label_plain, c96_fingerprint_plain, c96_table_plain). What is said is true and every fault is reported: c96_label, c96_fingerprint, c96_table. Partial only where the label is traced back to the file on disk: c96_loaded_partial is for the media of Spec.Medium and handlers that do not raise minor errors.'),
'C97':('partial', 'References: which of them can be written (c97_written), and those written in the same way are the same (c97_references_partial) except where this is false of the code: the label of an attribute is not written (c97_label_defect), the type of an attribute is not quoted (c97_quote_defect), and types with -I. in them are not told apart (c97_objref_defect). Objects, tape marks, headers, records, information records, indices and record types without exceptions; logical files of LIS by path and number of records (c97_lisfile), physical files by number of logical files (c97_physical). The text that pybind11 gives to enumerators is assumed.'),
'C98':('partial', 'stream.get and lis_stream.read for buffers of one dimension. Refused exactly if the buffer is too small, with the text (c98_refused); for buffers without gaps nothing outside is written, the bytes of the file are in the buffer and their number is given (c98_kept, c98_done); the uses in load (c98_load, c98_sul, c98_eof); storage_label reads the bytes of the buffer (c98_label_partial). Partial because the claim is false of the code: buffers that go backwards are written behind their end (c98_reversed_defect), bytes in gaps are overwritten (c98_gaps_defect), memory that must not be written is written (c98_readonly_defect), and lis_stream.read does not say that the file ended early (c98_lis_defect, c98_lis_partial); storage_label counts items instead of bytes and reads behind the end of buffers that go backwards (c98_label_defect).'),
'C99':('proved', 'The whole message for each of the 13 kinds of reports about DLIS files that are loaded or read (c99_message); everything said while a file is loaded (c99_load) and while curves or unformatted data are read (c99_data) is one of these; messages that are the same are of the same kind, with the same text of the exception and the same numbers, whatever line breaks the texts have (c99_apart). For any report, a message can be read if only the problem has line breaks (c99_read). For LIS files every message is that indexing was given up, with file or record, problem and position (c99_lis_load), and these are told apart unless the path has line breaks (c99_lis_apart). What is said while the attributes of objects are parsed is in C88, what is said about references in C94.'),
}
