{
 "claims": [
  {
   "property": "C01",
   "status": "partial",
   "theorems": [
    "Dlisio.Dlis.c01_uvari_decodes",
    "Dlisio.Dlis.c01_uvari_roundtrip_partial",
    "Dlisio.Dlis.c01_uvario_width2_defect",
    "Dlisio.Dlis.c01_uvario_length"
   ],
   "note": "Decoding is proved in full as an equivalence with an independent specification. Write/read round trip holds except for 0x4000..0xBFFF at requested width 1 or 2, where it is proved false for every such value (c01_uvario_width2_defect)."
  },
  {
   "property": "C02",
   "status": "proved",
   "theorems": [
    "Dlisio.Dlis.c02_ushort_reads",
    "Dlisio.Dlis.c02_sshort_reads",
    "Dlisio.Dlis.c02_unorm_reads",
    "Dlisio.Dlis.c02_snorm_reads",
    "Dlisio.Dlis.c02_ulong_reads",
    "Dlisio.Dlis.c02_slong_reads",
    "Dlisio.Dlis.c02_status_reads",
    "Dlisio.Dlis.c02_ushorto_digits",
    "Dlisio.Dlis.c02_unormo_digits",
    "Dlisio.Dlis.c02_ulongo_digits",
    "Dlisio.Dlis.c02_sshorto_digits",
    "Dlisio.Dlis.c02_snormo_digits",
    "Dlisio.Dlis.c02_slongo_digits",
    "Dlisio.Dlis.c02_unsigned_roundtrip",
    "Dlisio.Dlis.c02_signed_roundtrip",
    "Dlisio.Dlis.c02_encode_decode",
    "Dlisio.Dlis.c02_fsingl_reads",
    "Dlisio.Dlis.c02_fdoubl_reads",
    "Dlisio.Dlis.c02_ieee_roundtrip"
   ],
   "note": "All six integer types and the copied IEEE types, both directions."
  },
  {
   "property": "C03",
   "status": "proved",
   "theorems": [
    "Dlisio.Dlis.c03_ident_decodes",
    "Dlisio.Dlis.c03_units_decodes",
    "Dlisio.Dlis.c03_ascii_decodes",
    "Dlisio.Dlis.c03_string_roundtrip"
   ],
   "note": "ASCII round trip needs length < 2^14 when a 1 or 2 byte length is requested (see C01)."
  },
  {
   "property": "C04",
   "status": "proved",
   "theorems": [
    "Dlisio.Dlis.c04_dtime_reads",
    "Dlisio.Dlis.c04_dtime_roundtrip",
    "Dlisio.Dlis.c04_dtime_encode_decode",
    "Dlisio.Dlis.c04_year_inverse"
   ],
   "note": ""
  },
  {
   "property": "C05",
   "status": "proved",
   "theorems": [
    "Dlisio.Dlis.c05_obname_decodes",
    "Dlisio.Dlis.c05_objref_decodes",
    "Dlisio.Dlis.c05_attref_decodes",
    "Dlisio.Dlis.c05_reference_roundtrip"
   ],
   "note": ""
  },
  {
   "property": "C06",
   "status": "proved",
   "theorems": [
    "Dlisio.Dlis.c06_fshort_value",
    "Dlisio.Dlis.c06_fshort_reads"
   ],
   "note": "Exact value, no rounding, for all 2^16 patterns."
  },
  {
   "property": "C07",
   "status": "partial",
   "theorems": [
    "Dlisio.Dlis.c07_isingl_value_partial",
    "Dlisio.Dlis.c07_isingl_underflow",
    "Dlisio.Dlis.c07_isingl_overflow",
    "Dlisio.Dlis.c07_unnormalised_defect",
    "Dlisio.Dlis.c07_subnormal_defect",
    "Dlisio.Dlis.c07_isingl_reads"
   ],
   "note": "Exact on the normal range for normalised numbers; proved false for un-normalised fractions and in the subnormal band."
  },
  {
   "property": "C08",
   "status": "partial",
   "theorems": [
    "Dlisio.Dlis.c08_vsingl_value",
    "Dlisio.Dlis.c08_vsingl_zero_nan",
    "Dlisio.Dlis.c08_vsingl_reads",
    "Dlisio.Dlis.c08_vax_roundtrip_partial",
    "Dlisio.Dlis.c08_vax_overflow_defect",
    "Dlisio.Dlis.c08_vax_subnormal"
   ],
   "note": "Decoding proved in full (nearest binary32, exact for exponent >= 3). The write/read round trip holds for exponent fields 1..253; proved false for 254 (reads back as NaN), zero/subnormal become zero."
  },
  {
   "property": "C09",
   "status": "proved",
   "theorems": [
    "Dlisio.Dlis.c09_decodeVal",
    "Dlisio.Dlis.c09_decodeVal_local",
    "Dlisio.Dlis.c09_fixed_size",
    "Dlisio.Dlis.c09_variable_size",
    "Dlisio.Dlis.c09_invalid_code"
   ],
   "note": "All 27 codes; includes the master theorem that decoding equals the encoding relation."
  },
  {
   "property": "C10",
   "status": "proved",
   "theorems": [
    "Dlisio.Dlis.c10_ibm_roundtrip",
    "Dlisio.Dlis.c10_isinglo_value",
    "Dlisio.Dlis.c10_ibm_zero"
   ],
   "note": "All finite numbers; which fraction bits are dropped is stated exactly."
  },
  {
   "property": "C11",
   "status": "proved",
   "theorems": [
    "Dlisio.Dlis.c11_packf_ok",
    "Dlisio.Dlis.c11_packflen_ok",
    "Dlisio.Dlis.c11_agree",
    "Dlisio.Dlis.c11_unknown",
    "Dlisio.Dlis.c11_append",
    "Dlisio.Dlis.c11_text_sizes"
   ],
   "note": ""
  },
  {
   "property": "C12",
   "status": "partial",
   "theorems": [
    "Dlisio.Dlis.c12_pack_size_sound",
    "Dlisio.Dlis.c12_pack_size_variable",
    "Dlisio.Dlis.c12_pack_size_inconsistent",
    "Dlisio.Dlis.c12_pack_varsize",
    "Dlisio.Dlis.c12_invalid_format_partial",
    "Dlisio.Dlis.c12_varsize_invalid_defect"
   ],
   "note": "Soundness of the size queries proved for every well-formed format. Detection of invalid format characters is only proved up to the first string code; after a string code the query returns early, and a format with an invalid character there is accepted (c12_varsize_invalid_defect)."
  },
  {
   "property": "C13",
   "status": "proved",
   "theorems": [
    "Dlisio.Dlis.c13_well_formed",
    "Dlisio.Dlis.c13_defaulted",
    "Dlisio.Dlis.c13_too_small",
    "Dlisio.Dlis.c13_rejected",
    "Dlisio.Dlis.c13_label_exists"
   ],
   "note": ""
  },
  {
   "property": "C14",
   "status": "proved",
   "theorems": [
    "Dlisio.Dlis.c14_label_here",
    "Dlisio.Dlis.c14_label_later",
    "Dlisio.Dlis.c14_first_vr_here",
    "Dlisio.Dlis.c14_first_vr_later",
    "Dlisio.Dlis.c14_find_sul",
    "Dlisio.Dlis.c14_find_vrl"
   ],
   "note": "Search functions over any buffer, and the two-attempt searches over a stream."
  },
  {
   "property": "C15",
   "status": "proved",
   "theorems": [
    "Dlisio.Dlis.c15_lrsh",
    "Dlisio.Dlis.c15_vrl",
    "Dlisio.Dlis.c15_segment_attributes",
    "Dlisio.Dlis.c15_segment_attributes_roundtrip",
    "Dlisio.Dlis.c15_lrsh_roundtrip",
    "Dlisio.Dlis.c15_encryption_packet",
    "Dlisio.Dlis.c15_component_role",
    "Dlisio.Dlis.c15_component_flags"
   ],
   "note": ""
  },
  {
   "property": "C16",
   "status": "partial",
   "theorems": [
    "Dlisio.Dlis.c16_body_left",
    "Dlisio.Dlis.c16_never_too_much",
    "Dlisio.Dlis.c16_amount",
    "Dlisio.Dlis.c16_reads_inside_partial",
    "Dlisio.Dlis.c16_reads_outside_defect"
   ],
   "note": "Proved that what is left is exactly the record data for every segment with a trailer, and that never more than the segment is removed. The claim that only the segment is read fails: for a padded segment shorter than its trailer the padding length is read from the bytes in front of it (c16_reads_outside_defect)."
  },
  {
   "property": "C17",
   "status": "proved",
   "theorems": [
    "Dlisio.Dlis.c17_extract",
    "Dlisio.Dlis.c17_split_independent",
    "Dlisio.Dlis.c17_success_means_complete"
   ],
   "note": "Both directions: a well-formed record is returned exactly, and success implies a complete chain of segments."
  },
  {
   "property": "C18",
   "status": "proved",
   "theorems": [
    "Dlisio.Dlis.c18_partial_is_prefix"
   ],
   "note": "On any stream, well-formed or not."
  },
  {
   "property": "C19",
   "status": "proved",
   "theorems": [
    "Dlisio.Dlis.c19_index_last_file",
    "Dlisio.Dlis.c19_index_next_file",
    "Dlisio.Dlis.c19_listed_extract",
    "Dlisio.Dlis.c19_positions_increasing"
   ],
   "note": ""
  },
  {
   "property": "C20",
   "status": "partial",
   "theorems": [
    "Dlisio.Dlis.c20_any_stream",
    "Dlisio.Dlis.c20_increasing",
    "Dlisio.Dlis.c20_kept",
    "Dlisio.Dlis.c20_truncated",
    "Dlisio.Dlis.c20_truncated_at_eof_partial",
    "Dlisio.Dlis.c20_truncated_at_eof_defect"
   ],
   "note": "Structure of the result proved for every byte stream. Truncation is reported for every cut when the stream fails to read (c20_truncated) and, at a regular end of file, for every cut in front of the data of the last segment; a cut inside the data of the last segment at a regular end of file goes unnoticed (c20_truncated_at_eof_defect)."
  },
  {
   "property": "C21",
   "status": "proved",
   "theorems": [
    "Dlisio.Dlis.c21_index",
    "Dlisio.Dlis.c21_index_of_records",
    "Dlisio.Dlis.c21_produced",
    "Dlisio.Dlis.c21_logged"
   ],
   "note": ""
  },
  {
   "property": "C22",
   "status": "partial",
   "theorems": [
    "Dlisio.Dlis.c22_text",
    "Dlisio.Dlis.c22_size",
    "Dlisio.Dlis.c22_refused",
    "Dlisio.Dlis.c22_same_type",
    "Dlisio.Dlis.c22_types_partial",
    "Dlisio.Dlis.c22_types_defect"
   ],
   "note": "Injective and reversible for one type, and across types not containing the separator; proved false for types containing \"-I.\" (c22_types_defect)."
  },
  {
   "property": "C23",
   "status": "proved",
   "theorems": [
    "Dlisio.Dlis.c23_inherits",
    "Dlisio.Dlis.c23_component",
    "Dlisio.Dlis.c23_object"
   ],
   "note": ""
  },
  {
   "property": "C24",
   "status": "proved",
   "theorems": [
    "Dlisio.Dlis.c24_parse"
   ],
   "note": "For every object set laid out according to the specification relation ObjSetEnc (every choice of present characteristics, absent attributes, invariant attributes)."
  },
  {
   "property": "C25",
   "status": "proved",
   "theorems": [
    "Dlisio.Dlis.c25_idempotent",
    "Dlisio.Dlis.c25_history",
    "Dlisio.Dlis.c25_keeps_objects",
    "Dlisio.Dlis.c25_complete_or_reported"
   ],
   "note": ""
  },
  {
   "property": "C26",
   "status": "partial",
   "theorems": [
    "Dlisio.Dlis.c26_attribute",
    "Dlisio.Dlis.c26_left_as_in_template_defect",
    "Dlisio.Dlis.c26_template",
    "Dlisio.Dlis.c26_consistent"
   ],
   "note": "Resulting attribute proved for every combination of characteristics. The message issued for a count larger than the template count says that the value is left as in the template; it is reset instead (c26_left_as_in_template_defect)."
  },
  {
   "property": "C27",
   "status": "proved",
   "theorems": [
    "Dlisio.Dlis.c27_at_set",
    "Dlisio.Dlis.c27_at_remove",
    "Dlisio.Dlis.c27_labels",
    "Dlisio.Dlis.c27_distinct",
    "Dlisio.Dlis.c27_history"
   ],
   "note": ""
  },
  {
   "property": "C28",
   "status": "partial",
   "theorems": [
    "Dlisio.Dlis.c28_get",
    "Dlisio.Dlis.c28_exact_partial",
    "Dlisio.Dlis.c28_repeatable"
   ],
   "note": "Proved for pools whose sets have a type and name in UTF-8 or nothing in the log. Proved false otherwise: the query fails, whatever the error handler does (c37_set_defect)."
  },
  {
   "property": "C29",
   "status": "partial",
   "theorems": [
    "Dlisio.Dlis.c29_rows",
    "Dlisio.Dlis.c29_strict",
    "Dlisio.Dlis.c29_in_bounds",
    "Dlisio.Dlis.c29_text_partial",
    "Dlisio.Dlis.c29_text_defect",
    "Dlisio.Dlis.c29_dates",
    "Dlisio.Dlis.c29_rounds"
   ],
   "note": "Rows proved for every list of records, intact, damaged, broken or encrypted, in any order; no write outside the array for any input whatsoever. Missing: the exact text of identifiers with bytes >= 0x80, which are sign-extended (c29_text_defect); records cut off inside a value of an unchecked type read bytes behind the record (C31)."
  },
  {
   "property": "C30",
   "status": "proved",
   "theorems": [
    "Dlisio.Dlis.c30_layout",
    "Dlisio.Dlis.c30_written"
   ],
   "note": "For every list of channels, every dtype format, strict or not; also that what is written in the array lies at the offsets of the type."
  },
  {
   "property": "C31",
   "status": "partial",
   "theorems": [
    "Dlisio.Dlis.c31_no_overread_partial",
    "Dlisio.Dlis.c31_read_before_check_defect",
    "Dlisio.Dlis.c31_unchecked_defect",
    "Dlisio.Dlis.c31_all_unchecked_defect"
   ],
   "note": "Proved for formats of checked codes. Proved false for every unchecked code (c31_all_unchecked_defect) and because a checked code is read before the check (c31_read_before_check_defect)."
  },
  {
   "property": "C32",
   "status": "proved",
   "theorems": [
    "Dlisio.Dlis.c32_concat",
    "Dlisio.Dlis.c32_noform",
    "Dlisio.Dlis.c32_empty"
   ],
   "note": ""
  },
  {
   "property": "C33",
   "status": "partial",
   "theorems": [
    "Dlisio.Dlis.c33_object_partial",
    "Dlisio.Dlis.c33_meets_partial",
    "Dlisio.Dlis.c33_duplicates_partial",
    "Dlisio.Dlis.StoreCase.c33_nan_defect",
    "Dlisio.Dlis.StoreCase.c33_empty_name_defect"
   ],
   "note": "For every pool, history and query with a name that is not empty and names that decoding and encoding leave unchanged. Proved false for objects with NaN and for the empty name (c33_nan_defect, c33_empty_name_defect)."
  },
  {
   "property": "C34",
   "status": "partial",
   "theorems": [
    "Dlisio.Dlis.StoreCase.c34_empty_name_defect",
    "Dlisio.Dlis.StoreCase.c34_encodings_defect",
    "Dlisio.Dlis.c34_find_partial",
    "Dlisio.Dlis.c34_exact_partial",
    "Dlisio.Dlis.c34_object_partial"
   ],
   "note": "For every history of queries, cache switches and clears. Proved false for the empty name and for names that depend on the encodings (c34_empty_name_defect, c34_encodings_defect)."
  },
  {
   "property": "C35",
   "status": "partial",
   "theorems": [
    "Dlisio.Dlis.c35_truth",
    "Dlisio.Dlis.c35_key_error",
    "Dlisio.Dlis.c35_absent",
    "Dlisio.Dlis.c35_no_value_partial",
    "Dlisio.Dlis.c35_value_partial",
    "Dlisio.Dlis.c35_linked_partial",
    "Dlisio.Dlis.c35_history",
    "Dlisio.Dlis.AttributeCase.c35_encoded_label_defect",
    "Dlisio.Dlis.AttributeCase.c35_untyped_defect",
    "Dlisio.Dlis.AttributeCase.c35_unwritable_defect"
   ],
   "note": "For objects whose labels are pairwise different and left unchanged by decoding and encoding, dates that exist and logs that the error handler accepts; KeyError and absent labels without conditions on labels. Proved false for labels that are not UTF-8 (c35_encoded_label_defect), for objects with entries in the log in a set without type (c35_untyped_defect), and for values that are no references of the expected kind and cannot be written in a warning (c35_unwritable_defect)."
  },
  {
   "property": "C36",
   "status": "partial",
   "theorems": [
    "Dlisio.Dlis.c36_resolves_partial",
    "Dlisio.Dlis.c36_same_bytes_partial",
    "Dlisio.Dlis.c36_complete_partial",
    "Dlisio.Dlis.c36_kind_partial",
    "Dlisio.Dlis.StoreCase.c36_empty_name_defect",
    "Dlisio.Dlis.StoreCase.c36_kind_defect",
    "Dlisio.Dlis.StoreCase.c36_nul_defect"
   ],
   "note": "For references whose name is not empty and is left unchanged by decoding and encoding. Proved false for the empty name and for names cut at NUL (c36_empty_name_defect, c36_nul_defect), and for values that are no references of the expected kind and cannot be written in the warning: names that are not UTF-8, references without a type (c36_kind_defect; c36_kind_partial is for the others)."
  },
  {
   "property": "C37",
   "status": "partial",
   "theorems": [
    "Dlisio.c37_dispatch",
    "Dlisio.c37_default",
    "Dlisio.c37_order",
    "Dlisio.c37_once",
    "Dlisio.c37_set_partial",
    "Dlisio.c37_set_untold",
    "Dlisio.c37_set_defect"
   ],
   "note": "For every handler, every configuration and every sequence of reports; reports of sets if their type and name are in UTF-8. Proved false otherwise: an exception that the configuration has no say in (c37_set_defect). Custom actions are functions that raise or return."
  },
  {
   "property": "C38",
   "status": "partial",
   "theorems": [
    "Dlisio.Dlis.c38_labels",
    "Dlisio.Dlis.c38_columns",
    "Dlisio.Dlis.c38_mkunique_partial",
    "Dlisio.Dlis.c38_mkunique_once",
    "Dlisio.Dlis.c38_nonstrict_partial",
    "Dlisio.Dlis.c38_nonstrict_defect",
    "Dlisio.Dlis.c38_frameno_defect"
   ],
   "note": "Order, number and distinctness of columns for every list of channels. That non-strict access never raises is proved under conditions on names; proved false without them (c38_nonstrict_defect, c38_frameno_defect)."
  },
  {
   "property": "C39",
   "status": "partial",
   "theorems": [
    "Dlisio.Dlis.c39_preserves_partial",
    "Dlisio.Dlis.c39_succeeds",
    "Dlisio.Dlis.c39_limits",
    "Dlisio.Dlis.c39_single_partial",
    "Dlisio.Dlis.c39_zero_dimension_defect"
   ],
   "note": "For data that is not empty and dimensions without zero. Proved false for dimensions with a zero (c39_zero_dimension_defect): all elements are dropped."
  },
  {
   "property": "C40",
   "status": "partial",
   "theorems": [
    "Dlisio.Dlis.c40_split",
    "Dlisio.Dlis.c40_unlabelled",
    "Dlisio.Dlis.c40_damaged_last_partial",
    "Dlisio.Dlis.c40_label_text_defect",
    "Dlisio.Dlis.c40_second_header_defect",
    "Dlisio.Dlis.c40_closed_twice_defect",
    "Dlisio.Dlis.c40_handles_partial",
    "Dlisio.Dlis.c40_short_file_defect",
    "Dlisio.Dlis.c40_ends"
   ],
   "note": "Loading ends for every file without tape marks (c40_ends); the bytes of a label and any number of well-formed logical files give one logical file each with label, index, objects and frame data (c40_split), and without a label the same (c40_unlabelled); a damaged last file keeps earlier ones under a lenient handler unless it contains another FILE-HEADER or undefined behaviour; handles are closed once whatever fails except the first tape mark and re-opening. Defects: short file leaks, failing re-open closes twice, a FILE-HEADER inside a visible record loses all files, in a file without a label the text RECORD within 1700 bytes loses files (c40_label_text_defect). Tape images are treated in C67; lfp is a parameter. The constructor of the logical files is left out; see C79."
  },
  {
   "property": "C41",
   "status": "partial",
   "theorems": [
    "Dlisio.Lis.c41_i8",
    "Dlisio.Lis.c41_i16",
    "Dlisio.Lis.c41_i32",
    "Dlisio.Lis.c41_byte",
    "Dlisio.Lis.c41_string_mask",
    "Dlisio.Lis.c41_f16_value",
    "Dlisio.Lis.c41_f16",
    "Dlisio.Lis.c41_f32_value",
    "Dlisio.Lis.c41_f32",
    "Dlisio.Lis.c41_f32_exact",
    "Dlisio.Lis.c41_f32low_partial",
    "Dlisio.Lis.c41_f32low_zero_defect",
    "Dlisio.Lis.c41_f32low_small_defect",
    "Dlisio.Lis.c41_f32low_reads",
    "Dlisio.Lis.c41_f32fix_value",
    "Dlisio.Lis.c41_f32fix_exact",
    "Dlisio.Lis.c41_f32fix",
    "Dlisio.Lis.c41_f32fix_mask_defect",
    "Dlisio.Lis.c41_nearest",
    "Dlisio.Lis.c41_sizeof"
   ],
   "note": "Integers, bytes, codes 49, 68 and 70 hold for all patterns (68 and 70 correctly rounded to float, which is unavoidable). Code 50: zero with an exponent above 142 decodes to NaN, and everything with an exponent below -134 to 0; the mask for negative code 70 overflows int."
  },
  {
   "property": "C42",
   "status": "proved",
   "theorems": [
    "Dlisio.Lis.c42_packf",
    "Dlisio.Lis.c42_packflen",
    "Dlisio.Lis.c42_unknown",
    "Dlisio.Lis.c42_agree"
   ],
   "note": "The size query depends on the format only, but reads the source (reading past a source that is too short)."
  },
  {
   "property": "C43",
   "status": "partial",
   "theorems": [
    "Dlisio.Lis.c43_trailer",
    "Dlisio.Lis.c43_direct",
    "Dlisio.Lis.c43_padding",
    "Dlisio.Lis.c43_end",
    "Dlisio.Lis.c43_logical",
    "Dlisio.Lis.c43_sound",
    "Dlisio.Lis.c43_blank_length_defect",
    "Dlisio.Lis.c43_single_pad_defect",
    "Dlisio.Lis.c43_unchecked_defect",
    "Dlisio.Lis.c43_mixed_padding_defect"
   ],
   "note": "Proved: a header directly at the cursor (length bytes not padding) is returned as is; two or more padding bytes of one kind ending at a multiple of four are skipped exactly; padding up to the end of the file is end of file; on any stream a returned header is in the file, long enough, not padding, and what is skipped is padding except possibly one byte; trailer sizes follow the bits. Shown false: records of length 0x2020 off a multiple of four are taken for padding, a single padding byte is not skipped, one byte of padding goes unchecked, mixed padding is taken for a header."
  },
  {
   "property": "C44",
   "status": "partial",
   "theorems": [
    "Dlisio.Lis.c44_end_of_file",
    "Dlisio.Lis.c44_trailer",
    "Dlisio.Lis.c44_missing_trailer",
    "Dlisio.Lis.c44_tape",
    "Dlisio.Lis.c44_damage",
    "Dlisio.Lis.c44_truncated",
    "Dlisio.Lis.c44_positions",
    "Dlisio.Lis.c44_padding_inside_defect",
    "Dlisio.Lis.c44_one_byte_defect",
    "Dlisio.Lis.c44_reposition_defect",
    "Dlisio.Lis.c44_consistent",
    "Dlisio.Lis.c44_record"
   ],
   "note": "Proved for every list of well-formed records with any split into physical records, any trailers, and padding between logical records: each record once, in order, with position, type and size, for files ending at end of file, with trailer, without trailer, and for tape/reel records; truncated files keep the records before the damage and are marked incomplete; on any stream records are inside the file, disjoint and ordered; records before damage are kept. Shown false: padding inside a logical record, cut after one zero byte, position after a damaged record. Lengths 0x2020 are excluded (see C43)."
  },
  {
   "property": "C45",
   "status": "partial",
   "theorems": [
    "Dlisio.Lis.c45_read",
    "Dlisio.Lis.c45_nth",
    "Dlisio.Lis.c45_sum",
    "Dlisio.Lis.c45_size",
    "Dlisio.Lis.c45_bytes",
    "Dlisio.Lis.c45_truncated"
   ],
   "note": "Proved: reading gives the concatenation of the payloads for every split with any trailers; the size in the index is data plus headers and trailers; truncated records give an error; on any stream the bytes are bytes of the file in order. Physical records of length 0x2020 are excluded (see C43)."
  },
  {
   "property": "C46",
   "status": "proved",
   "theorems": [
    "Dlisio.Lis.c46_ordered",
    "Dlisio.Lis.c46_implicits",
    "Dlisio.Lis.c46_unknown",
    "Dlisio.Lis.c46_partition"
   ],
   "note": "implicits_of on any ordered index, and the index of any stream is ordered; each data record behind the first specification belongs to exactly one. The record type is not looked at here; the filter on type is part of C52."
  },
  {
   "property": "C47",
   "status": "proved",
   "theorems": [
    "Dlisio.Lis.c47_parse",
    "Dlisio.Lis.c47_safe",
    "Dlisio.Lis.c47_truncated",
    "Dlisio.Lis.c47_indicators"
   ],
   "note": "Acceptance is characterised exactly for all byte strings; values of code 50 are those of the model of lis_f32low (see C41)."
  },
  {
   "property": "C48",
   "status": "proved",
   "theorems": [
    "Dlisio.Lis.c48_parse",
    "Dlisio.Lis.c48_safe",
    "Dlisio.Lis.c48_truncated",
    "Dlisio.Lis.c48_structured",
    "Dlisio.Lis.c48_table",
    "Dlisio.Lis.c48_cells",
    "Dlisio.Lis.c48_ill_formed",
    "Dlisio.Lis.c48_duplicate_defect"
   ],
   "note": "Exact characterisation for all byte strings, tables of any size. Two blocks with one mnemonic in a row: the earlier one is not in the table (c48_duplicate_defect)."
  },
  {
   "property": "C49",
   "status": "proved",
   "theorems": [
    "Dlisio.Lis.c49_file",
    "Dlisio.Lis.c49_tape",
    "Dlisio.Lis.c49_roundtrip"
   ],
   "note": ""
  },
  {
   "property": "C50",
   "status": "proved",
   "theorems": [
    "Dlisio.Lis.c50_text"
   ],
   "note": ""
  },
  {
   "property": "C51",
   "status": "partial",
   "theorems": [
    "Dlisio.Lis.c51_columns",
    "Dlisio.Lis.c51_accepted",
    "Dlisio.Lis.c51_frame_partial",
    "Dlisio.Lis.c51_rate_zero_defect"
   ],
   "note": "Columns of every accepted format; every frame that is read takes the sum of the reserved sizes and writes rate rows of itemsize bytes each, for rates > 0. At rate 0, which is not refused, the index is written outside the array (c51_rate_zero_defect)."
  },
  {
   "property": "C52",
   "status": "partial",
   "theorems": [
    "Dlisio.Lis.c52_interpolation",
    "Dlisio.Lis.c52_interpolation_integers",
    "Dlisio.Lis.c52_interpolation_error",
    "Dlisio.Lis.c52_steps",
    "Dlisio.Lis.c52_rate_defect",
    "Dlisio.Lis.c52_rate_defect_general",
    "Dlisio.Lis.c52_text_past_end_defect",
    "Dlisio.Lis.c52_text_defect",
    "Dlisio.Lis.c52_cut_suppressed_defect",
    "Dlisio.Lis.c52_cut_number_defect",
    "Dlisio.Lis.c52_integral_defect",
    "Dlisio.Lis.c52_rate",
    "Dlisio.Lis.c52_default_rate_defect",
    "Dlisio.Lis.c52_rows_partial"
   ],
   "note": "For rates up to 127 and any number of records of whole frames: the array has frames*rate rows in order and every byte of each row is that of the specified value; index as recorded, counted from the start of the record, or interpolated (exact for representable intermediates, error bound otherwise). Fails for rates >= 128 (8-bit counter), cut records, texts that are not UTF-8, integral indices with fractional steps and the default rate (defect theorems)."
  },
  {
   "property": "C53",
   "status": "partial",
   "theorems": [
    "Dlisio.Lis.c53_labels",
    "Dlisio.Lis.c53_unique_partial",
    "Dlisio.Lis.c53_unique_fixed",
    "Dlisio.Lis.c53_strict",
    "Dlisio.Lis.c53_length",
    "Dlisio.Lis.c53_metadata_partial",
    "Dlisio.Lis.c53_clash_defect",
    "Dlisio.Lis.c53_suppressed_defect",
    "Dlisio.Lis.c53_suppressed_name_defect",
    "Dlisio.Lis.c53_empty_defect"
   ],
   "note": "unique_mnemonics: labels, uniqueness without clashes (in particular for mnemonics of equal length), unchanged iff no duplicates; curves_metadata lists exactly the columns of the array when no channel of the rate is suppressed and no label is empty or clashes. Defects: clash with zero-padded mnemonics, suppressed channels, empty labels."
  },
  {
   "property": "C54",
   "status": "partial",
   "theorems": [
    "Dlisio.Lis.c54_assignment",
    "Dlisio.Lis.c54_streams_partial",
    "Dlisio.Lis.c54_load_partial",
    "Dlisio.Lis.c54_terminates",
    "Dlisio.Lis.c54_turns",
    "Dlisio.Lis.c54_leak_defect",
    "Dlisio.Lis.c54_lost_defect",
    "Dlisio.Lis.c54_silent_defect",
    "Dlisio.Lis.c54_mistaken_defect",
    "Dlisio.Lis.c54_tapemarks",
    "Dlisio.Lis.c54_no_tapemarks"
   ],
   "note": "Proved: for every sequence of delimiters and logical files (whatever lfp makes of the file), files come in order with their index, reel and tape have the header open there and the trailer that closes it, no header or trailer lost or twice; for files without tape marks the same from the bytes (c54_load_partial), and the loop ends on every byte string; streams are closed or owned by exactly one file, all closed on failure. Shown false: data records in front of a delimiter (stream leaked, or delimiter and the rest of the file lost), truncation behind a trailer goes unreported, first physical record of 256 bytes taken for a tape mark. For tape images see C74."
  },
  {
   "property": "C55",
   "status": "proved",
   "theorems": [
    "Dlisio.c55_tapemark",
    "Dlisio.c55_read"
   ],
   "note": "Recognition of a tape mark and the reading of one from a stream, for every block and source."
  },
  {
   "property": "C56",
   "status": "partial",
   "theorems": [
    "Dlisio.c56_utf8_partial",
    "Dlisio.c56_fallback_partial",
    "Dlisio.c56_bytes_partial",
    "Dlisio.c56_nul_defect",
    "Dlisio.c56_complete_partial"
   ],
   "note": "False of the code for strings with an embedded NUL (c56_nul_defect); proved for every string without NUL and every list of encodings."
  },
  {
   "property": "C57",
   "status": "partial",
   "theorems": [
    "Dlisio.Dlis.EflrCase.c57_in_bounds_partial",
    "Dlisio.Dlis.EflrCase.c57_reads_past_record_defect"
   ],
   "note": "Proved for records laid out according to the standard. False in general: the parser reads past the end of a truncated record (c57_reads_past_record_defect)."
  },
  {
   "property": "C58",
   "status": "partial",
   "theorems": [
    "Dlisio.Dlis.c58_no_dangling_partial",
    "Dlisio.Dlis.c58_released_twice_defect"
   ],
   "note": "Proved as long as every date exists; a date that cannot be converted leaves a released object in the array (c58_released_twice_defect)."
  },
  {
   "property": "C59",
   "status": "proved",
   "theorems": [
    "Dlisio.Dlis.c59_unlabelled",
    "Dlisio.Dlis.c59_absent",
    "Dlisio.Dlis.c59_unnamed"
   ],
   "note": ""
  },
  {
   "property": "C60",
   "status": "partial",
   "theorems": [
    "Dlisio.Dlis.c60_stash_partial",
    "Dlisio.Dlis.c60_no_value_defect"
   ],
   "note": "Proved if every attribute without a rule has a value. If one has none, the stash raises (c60_no_value_defect)."
  },
  {
   "property": "C61",
   "status": "partial",
   "theorems": [
    "Dlisio.Lis.c61_entries_partial",
    "Dlisio.Lis.c61_spacing",
    "Dlisio.Lis.c61_no_spacing",
    "Dlisio.Lis.c61_depths",
    "Dlisio.Lis.c61_subtype",
    "Dlisio.Lis.c61_index",
    "Dlisio.Lis.c61_format",
    "Dlisio.Lis.c61_rates",
    "Dlisio.Lis.c61_block_type_defect"
   ],
   "note": "Proved for all entry blocks except spec_block_type, which reads the entry of another type (c61_block_type_defect)."
  },
  {
   "property": "C62",
   "status": "proved",
   "theorems": [
    "Dlisio.Lis.c62_parse",
    "Dlisio.Lis.c62_records",
    "Dlisio.Lis.c62_no_data_records",
    "Dlisio.Lis.c62_only",
    "Dlisio.Lis.c62_one",
    "Dlisio.Lis.c62_delimiter",
    "Dlisio.Lis.c62_loaded_partial"
   ],
   "note": "Dispatch, records of a type, header, trailer and delimiters. c62_loaded_partial is under the conditions of c54_load_partial (well-formed file without tapemarks)."
  },
  {
   "property": "C63",
   "status": "partial",
   "theorems": [
    "Dlisio.Lis.c63_data",
    "Dlisio.Lis.c63_curves_partial"
   ],
   "note": "Composition of C44-C47, C51-C54, C61, C62. Rates up to 127 (c52_rate_defect) and labels that are unique and not empty (c53 defects)."
  },
  {
   "property": "C64",
   "status": "partial",
   "theorems": [
    "Dlisio.Dlis.c64_names",
    "Dlisio.Dlis.c64_attribute",
    "Dlisio.Dlis.c64_fileheader",
    "Dlisio.Dlis.c64_unknowns",
    "Dlisio.Dlis.c64_everything_partial",
    "Dlisio.Dlis.c64_update",
    "Dlisio.Dlis.AccessorsCase.c64_same_fingerprint_defect",
    "Dlisio.Dlis.AccessorsCase.c64_empty_type_defect"
   ],
   "note": "Every object is in exactly one attribute for every history (c64_everything_partial), unknown objects of one type must have different fingerprints; c64_same_fingerprint_defect and c64_empty_type_defect are the violations."
  },
  {
   "property": "C65",
   "status": "partial",
   "theorems": [
    "Dlisio.Dlis.c65_curves_partial",
    "Dlisio.Dlis.c65_disk_partial",
    "Dlisio.Dlis.c65_noformat_partial",
    "Dlisio.Dlis.c65_decoding",
    "Dlisio.Dlis.EndToEndCase.c65_encodings_defect",
    "Dlisio.Dlis.EndToEndCase.c65_nul_defect",
    "Dlisio.Dlis.EndToEndCase.c65_stolen_defect",
    "Dlisio.Dlis.EndToEndCase.c65_two_encodings_defect"
   ],
   "note": "Composition of C21, C22, C29, C30, C32, C35, C36, C40, C56: c65_curves_partial, from disk c65_disk_partial, and c65_noformat_partial, for every history. Names must be UTF-8 without NUL; every channel of the frame is found and has a code and dimensions. c65_encodings_defect, c65_nul_defect, c65_stolen_defect and c65_two_encodings_defect are violations."
  },
  {
   "property": "C66",
   "status": "partial",
   "theorems": [
    "Dlisio.Dlis.c66_frame_partial",
    "Dlisio.Dlis.c66_owner_partial",
    "Dlisio.Dlis.c66_curves_partial",
    "Dlisio.Dlis.c66_index_partial",
    "Dlisio.Dlis.c66_formats",
    "Dlisio.Dlis.c66_no_formats",
    "Dlisio.Dlis.ChannelCase.c66_dangling_defect",
    "Dlisio.Dlis.ChannelCase.c66_twice_defect",
    "Dlisio.Dlis.ChannelCase.c66_nan_defect"
   ],
   "note": "Frame of a channel, curve of a channel from the loaded file to the column, index, and partial formats. Not in full: (1) an unrelated frame with a reference to a channel that is not there makes Channel.frame and Channel.curves an exception (c66_dangling_defect); (2) a channel twice in a frame (c66_twice_defect); (3) NaN in a channel (c66_nan_defect); the conditions of C65 are kept."
  },
  {
   "property": "C67",
   "status": "partial",
   "theorems": [
    "Dlisio.Dlis.c67_tape_partial",
    "Dlisio.Dlis.c67_ends",
    "Dlisio.Dlis.c67_unaligned_defect",
    "Dlisio.Dlis.c67_label_defect"
   ],
   "note": "tapeDisk is the assumption about lfp (not in the repository), taken from load.py and checked against the marks of the files in python/data/tif. c67_tape_partial: for any sequence of file marks, labels and well-formed logical files on tape, pieces cut anywhere; needs that each file starts a tape record, that labels after the first follow a file mark, and, if there is no label in front of the first file, that nothing in 1700 bytes looks like one. c67_unaligned_defect, c67_label_defect and c40_label_text_defect: without these conditions files are lost or loading fails. c67_ends: loading ends on every byte string. The constructor of the logical files is left out; see C79."
  },
  {
   "property": "C68",
   "status": "partial",
   "theorems": [
    "Dlisio.Dlis.c68_values_partial",
    "Dlisio.Dlis.c68_samples_partial",
    "Dlisio.Dlis.c68_single_partial",
    "Dlisio.Dlis.c68_missing",
    "Dlisio.Dlis.c68_no_values",
    "Dlisio.Dlis.SampledCase.c68_zones_defect",
    "Dlisio.Dlis.SampledCase.c68_unreported_defect"
   ],
   "note": "For objects with pairwise different labels, dates that exist, dimensions without zero (see C39) and samples that fit into a C int. What np.array makes of a list of values is a parameter of the model. Proved false: the number of samples need not be that of the zones (c68_zones_defect), and problems in the attribute are not reported (c68_unreported_defect)."
  },
  {
   "property": "C69",
   "status": "partial",
   "theorems": [
    "Dlisio.Dlis.c69_property_partial",
    "Dlisio.Dlis.c69_item",
    "Dlisio.Dlis.c69_other_labels",
    "Dlisio.Dlis.c69_names",
    "Dlisio.Dlis.c69_names_defect",
    "Dlisio.Dlis.c69_encrypted",
    "Dlisio.Dlis.c69_group_none_partial",
    "Dlisio.Dlis.c69_group_objrefs_partial",
    "Dlisio.Dlis.c69_group_obnames_partial",
    "Dlisio.Dlis.c69_coordinates_partial",
    "Dlisio.Dlis.ClassCase.c69_group_type_error_defect",
    "Dlisio.Dlis.ClassCase.c69_group_label_defect",
    "Dlisio.Dlis.ClassCase.c69_same_name_defect",
    "Dlisio.Dlis.ClassCase.c69_coordinate_no_value_defect",
    "Dlisio.Dlis.c69_rules",
    "Dlisio.Dlis.c69_types"
   ],
   "note": "Proved for every documented property and every history, with the problems of the object and the attribute accepted by the error handler, and dates that exist. Defects: the documented names Group.object_type, object_list, group_list, Path.frame_type and Wellref.coordinate do not exist; Group.objects is a TypeError if OBJECT-LIST has no value or OBJECT-TYPE is missing; group['OBJECT-LIST'] depends on an earlier use of objects; coordinates with equal names are lost, and one without value makes the property raise."
  },
  {
   "property": "C70",
   "status": "partial",
   "theorems": [
    "Dlisio.Dlis.c70_rows_partial",
    "Dlisio.Dlis.c70_pairs",
    "Dlisio.Dlis.c70_header",
    "Dlisio.Dlis.c70_unknown_partial",
    "Dlisio.Dlis.c70_no_empty",
    "Dlisio.Dlis.c70_frame_partial",
    "Dlisio.Dlis.c70_sampled_partial",
    "Dlisio.Dlis.c70_tolerances_defect",
    "Dlisio.Dlis.c70_splice_defect",
    "Dlisio.Dlis.c70_frame_defect",
    "Dlisio.Dlis.c70_unknown_defect",
    "Dlisio.Dlis.c70_description",
    "Dlisio.Dlis.c70_text",
    "Dlisio.Dlis.c70_summary",
    "Dlisio.Dlis.c70_group",
    "Dlisio.Dlis.c70_coefficients",
    "Dlisio.Dlis.c70_measurements",
    "Dlisio.Dlis.c70_coordinates",
    "Dlisio.Dlis.c70_units",
    "Dlisio.Dlis.c70_label_defect",
    "Dlisio.Dlis.DescribeCase.c70_zone_defect",
    "Dlisio.Dlis.DescribeCase.c70_zoned_defect",
    "Dlisio.Dlis.DescribeCase.c70_pair_defect"
   ],
   "note": "Proved for all rows of all classes that show properties, pairs, names, samples, descriptions, texts, groups, coordinates and numbers, for the header and for unknown attributes. Violated: c70_splice_defect, c70_frame_defect and c70_unknown_defect (no summary), c70_tolerances_defect (minus and plus tolerances are swapped), c70_zone_defect, c70_zoned_defect, c70_pair_defect; c70_label_defect (no summary if the label of an unknown attribute is not UTF-8). Missing: layout."
  },
  {
   "property": "C71",
   "status": "partial",
   "theorems": [
    "Dlisio.Dlis.c71_summary_partial",
    "Dlisio.Dlis.c71_physical",
    "Dlisio.Dlis.c71_header",
    "Dlisio.Dlis.c71_reference_defect",
    "Dlisio.Dlis.c71_type_defect"
   ],
   "note": "The summary of a logical file and of all logical files, after every history of access: description, numbers of frames and channels, each type once with its number of objects, and these are all objects. c71_type_defect: describe() raises TypeError if the type of a set is not UTF-8, so hypothesis hstr is needed. c71_reference_defect: it raises UnicodeDecodeError, and that of the physical file too, if the ID of the header is a reference whose name is not UTF-8. Errors reported while loading the sets are excluded (SetsQuiet), and layout is the subject of C84."
  },
  {
   "property": "C72",
   "status": "partial",
   "theorems": [
    "Dlisio.Dlis.c72_float32",
    "Dlisio.Dlis.c72_float64",
    "Dlisio.Dlis.c72_equal_partial",
    "Dlisio.Dlis.c72_relation",
    "Dlisio.Dlis.c72_reflexive",
    "Dlisio.Dlis.c72_interchangeable",
    "Dlisio.Dlis.c72_type_defect",
    "Dlisio.Dlis.c72_nan_defect",
    "Dlisio.Dlis.c72_order_defect",
    "Dlisio.Dlis.c72_any_type_defect"
   ],
   "note": "Numbers are compared by what they denote (c72_float32, c72_float64); == is symmetric and transitive, and equal objects cannot be told apart through their names and attributes, for all classes and states (c72_interchangeable). Violated: the type is not compared (c72_type_defect, c72_any_type_defect), an object with NaN is not equal to itself (c72_reflexive, c72_nan_defect), and the order of attributes matters (c72_order_defect)."
  },
  {
   "property": "C73",
   "status": "partial",
   "theorems": [
    "Dlisio.c73_proper_partial",
    "Dlisio.c73_handles",
    "Dlisio.c73_dlis_with_partial",
    "Dlisio.c73_lis_with_partial",
    "Dlisio.c73_close_twice_defect",
    "Dlisio.c73_read_closed_defect"
   ],
   "note": "Exact condition for a use of a closed handle (c73_proper_partial): a logical file that is closed again or read after it was closed. With a with block in which nothing is closed, every handle is closed exactly once, for all DLIS and LIS files (c73_dlis_with_partial, c73_lis_with_partial, under the conditions of C40 and C54). Violated: closing a logical file within the block (c73_close_twice_defect), reading after closing (c73_read_closed_defect). That lfp_close frees the handle is an assumption about lfp."
  },
  {
   "property": "C74",
   "status": "partial",
   "theorems": [
    "Dlisio.Lis.c74_load_partial",
    "Dlisio.Lis.c74_terminates",
    "Dlisio.Lis.c74_inside_defect",
    "Dlisio.Lis.c74_padding_defect",
    "Dlisio.Lis.c74_two_marks_defect",
    "Dlisio.Lis.c74_empty_tape_defect"
   ],
   "note": "c74_load_partial: for every tape of stretches between file marks, records distributed over tape records in any way, if each delimiter and each logical file starts a tape record. c74_terminates: load ends on every byte string. Violated: c74_inside_defect (a logical file that starts inside a tape record is lost), c74_padding_defect (padding at the end of a tape record), c74_two_marks_defect (what is behind two file marks is dropped without a message), c74_empty_tape_defect. What lfp makes of tape marks is the assumption tapeRecords of C67."
  },
  {
   "property": "C75",
   "status": "proved",
   "theorems": [
    "Dlisio.Lis.c75_names",
    "Dlisio.Lis.c75_lists",
    "Dlisio.Lis.c75_ends",
    "Dlisio.Lis.c75_all",
    "Dlisio.Lis.c75_table_name"
   ],
   "note": "c75_lists and c75_ends: each method gives the records with its number in LIS79; c75_all: together they give each record that can be parsed exactly once; c75_names, c75_table_name. The wrappers DataFormatSpec and InformationRecord are modelled by the record they hold."
  },
  {
   "property": "C76",
   "status": "partial",
   "theorems": [
    "Dlisio.Lis.c76_tape_partial",
    "Dlisio.Lis.c76_plain_partial"
   ],
   "note": "Composition of C74 (or C54), C62, C63 and C75, with their conditions: each part starts a tape record, rates up to 127, labels unique and not empty."
  },
  {
   "property": "C77",
   "status": "partial",
   "theorems": [
    "Dlisio.Dlis.c77_load_partial",
    "Dlisio.Dlis.c77_objects_partial",
    "Dlisio.Dlis.c77_properties_partial"
   ],
   "note": "Composition of C40/C67, C24, C64, C33 and C69; all hypotheses are about what is recorded. Conditions: those of C40 and C67 on the medium, types, names and labels are UTF-8 without NUL, an object that is asked for by name is the only one with its type and name and its name is not empty (without this: c33 and c69 and their defects), the error handler accepts empty sets and unsupported roles if there are any. The constructor of the logical files is left out; see C79."
  },
  {
   "property": "C78",
   "status": "partial",
   "theorems": [
    "Dlisio.Dlis.c78_curves_partial"
   ],
   "note": "Composition of c77_load_partial, C24 and c65_curves_partial; all hypotheses are about what is recorded. Conditions: those of C77, names in the data records are UTF-8 without NUL, each channel the frame refers to is recorded once, the labels of the columns are accepted by NumPy. The constructor of the logical files is left out; see C79."
  },
  {
   "property": "C79",
   "status": "partial",
   "theorems": [
    "Dlisio.Dlis.c79_init",
    "Dlisio.Dlis.c79_returns",
    "Dlisio.Dlis.c79_load_partial",
    "Dlisio.Dlis.c79_update_defect"
   ],
   "note": "The constructor looks at the sets only if there is an object of the type UPDATE, and uses them as any user can, so the claims for all histories hold afterwards (c79_init). loadPy is load with the constructors: it gives the same logical files if each has no UPDATE object or has sets laid out as the standard says (c79_load_partial). Violated: with an UPDATE object, an error in the set of file headers makes load raise with the default error handler (c79_update_defect). Applies to the load theorems of C40, C67, C77 and C78, which are about load without the constructors."
  },
  {
   "property": "C80",
   "status": "partial",
   "theorems": [
    "Dlisio.Dlis.c80_label",
    "Dlisio.Dlis.c80_raises",
    "Dlisio.Dlis.c80_defaulted",
    "Dlisio.Dlis.c80_load_partial",
    "Dlisio.Dlis.LabelCase.c80_identifier_defect"
   ],
   "note": "c80_label, c80_defaulted and c80_raises are for every label; c80_load_partial composes them with loading, under the conditions of C77. Violated: an identifier that is not UTF-8 makes storage_label raise, whatever encodings are set (c80_identifier_defect). That pybind11 decodes char arrays strictly as UTF-8 is an assumption."
  },
  {
   "property": "C81",
   "status": "partial",
   "theorems": [
    "Dlisio.Dlis.c81_frame_partial",
    "Dlisio.Dlis.c81_index_partial",
    "Dlisio.Dlis.c81_curves_partial"
   ],
   "note": "Composition of C66, C77, C78 and C79; same assumptions (lfp, np.array, codecs). A channel without frame or with several differing frames has no curve (C66)."
  },
  {
   "property": "C82",
   "status": "partial",
   "theorems": [
    "Dlisio.Dlis.c82_regex",
    "Dlisio.Dlis.c82_literal",
    "Dlisio.Dlis.c82_prefix",
    "Dlisio.Dlis.c82_contains",
    "Dlisio.Dlis.c82_find_partial",
    "Dlisio.Dlis.c82_load",
    "Dlisio.Dlis.c82_repr",
    "Dlisio.Dlis.SearchCase.c82_bytes_defect"
   ],
   "note": "Patterns with other special characters are not modelled (module re), and which characters are the same without case is a parameter outside ASCII. Types and names must be UTF-8: types that cannot be decoded are searched as the text of a Python bytes literal (c82_bytes_defect)."
  },
  {
   "property": "C83",
   "status": "partial",
   "theorems": [
    "Dlisio.Dlis.c83_wrap",
    "Dlisio.Dlis.c83_ends",
    "Dlisio.Dlis.c83_first",
    "Dlisio.Dlis.c83_tabs",
    "Dlisio.Dlis.c83_fits",
    "Dlisio.Dlis.c83_header",
    "Dlisio.Dlis.c83_columns",
    "Dlisio.Dlis.c83_dict",
    "Dlisio.Dlis.c83_dict_ends",
    "Dlisio.Dlis.c83_blank_defect",
    "Dlisio.Dlis.c83_hang_defect"
   ],
   "note": "The layout is proved for a model of textwrap with how words are split and broken as parameters; np.array2string and str of values are given. c83_blank_defect: a blank value loses its key; c83_hang_defect: with a width smaller than the title, such a row is never written."
  },
  {
   "property": "C84",
   "status": "partial",
   "theorems": [
    "Dlisio.Dlis.c84_file_partial",
    "Dlisio.Dlis.c84_physical",
    "Dlisio.Dlis.c84_load_partial"
   ],
   "note": "The text of LogicalFile.describe() and PhysicalFile.describe(), line by line, after every history of access and from every medium, in terms of the objects that are recorded (c84_load_partial). Rows that fit are given exactly, others up to the choices of textwrap (Spec.Wraps, Spec.Printed). As for C71 there is no summary if the type of a set is not UTF-8 (c71_type_defect) or the ID of the header is a reference that is not (c71_reference_defect), and errors reported while loading the sets are excluded; headers must fit in the width."
  },
  {
   "property": "C85",
   "status": "partial",
   "theorems": [
    "Dlisio.Dlis.c85_text_partial",
    "Dlisio.Dlis.c85_row_partial",
    "Dlisio.Dlis.c85_header",
    "Dlisio.Dlis.c85_ends",
    "Dlisio.Dlis.c85_writable",
    "Dlisio.Dlis.ObjectTextCase.c85_reference_defect"
   ],
   "note": "The text of BasicObject.describe() for every object, state and option: title, the rows of C70 in order, in tables and under headings whose arrangement depends on the type only (c85_text_partial: Spec.Laid and Spec.Outline), each row at the start of a line with its key, value and units (c85_row_partial), title and the rows name, origin and copy exactly (c85_header), and writing ends where the keys fit the width and the references in the rows can be written down (c85_ends). The text is complete only if they can (c85_writable): an attribute that is not known and refers to a name in Latin-1 keeps the summary from being printed (c85_reference_defect). Spec.Word says how texts, whole numbers, dates and objects are written, alone or in lists of one kind. Not shown: str of floats and of bytes, and np.array2string, which are given; layout as far as C83 has it (Spec.Wraps, Spec.Printed)."
  },
  {
   "property": "C86",
   "status": "partial",
   "theorems": [
    "Dlisio.Dlis.c86_summary_partial",
    "Dlisio.Dlis.c86_printed_partial"
   ],
   "note": "From the bytes on a disk to the text of summaries: C77/C79 (reading), C70 (rows) and C85 (text) are put together. For every recorded object, option and history, each row of Spec.titles tells what is recorded (c86_summary_partial: Spec.Entered, Spec.UnitsOf, Spec.Tells). Summaries of the types in Spec.simpleTypes are printed if what is recorded can be read and the names in references can be written down (c86_printed_partial; c85_reference_defect shows that this is needed). Not shown: floats, bytes that are no UTF-8, lists of objects that are shown with units (np.array2string is given), rows that combine two properties, and that summaries of the other types are printed, because this is false for some (C70 defects)."
  },
  {
   "property": "C87",
   "status": "partial",
   "theorems": [
    "Dlisio.c87_message",
    "Dlisio.c87_read_partial",
    "Dlisio.c87_read_defect",
    "Dlisio.c87_handed",
    "Dlisio.c87_set_partial",
    "Dlisio.c87_set_query",
    "Dlisio.c87_set_defect",
    "Dlisio.c87_object_partial",
    "Dlisio.c87_access"
   ],
   "note": "The message, which action it is handed to and the exceptions without conditions. That a message can be read back for parts without line breaks (c87_read_defect otherwise); which set it is said to be about for types and names in UTF-8 (c87_set_defect otherwise); which object for types and names in UTF-8 and types that are not empty."
  },
  {
   "property": "C88",
   "status": "partial",
   "theorems": [
    "Dlisio.Dlis.c88_same",
    "Dlisio.Dlis.c88_attribute_partial",
    "Dlisio.Dlis.c88_logs",
    "Dlisio.Dlis.c88_objects",
    "Dlisio.Dlis.c88_normal_set",
    "Dlisio.Dlis.c88_set",
    "Dlisio.Dlis.c88_descriptor",
    "Dlisio.Dlis.c88_descriptor_defect",
    "Dlisio.Dlis.c88_query",
    "Dlisio.Dlis.c88_access",
    "Dlisio.Dlis.c88_left_defect",
    "Dlisio.Dlis.c88_default_defect",
    "Dlisio.Dlis.c88_inherited_defect",
    "Dlisio.Dlis.c88_object",
    "Dlisio.Dlis.c88_entries",
    "Dlisio.Dlis.c88_expected"
   ],
   "note": "The texts of all entries and exceptions, as a function of the bytes (toldParse), agree with the logs of Eflr.lean (c88_same, c88_logs), and for sets, objects and attributes it is shown what the entries say and that it is so (c88_set, c88_entries, c88_normal_set, c88_objects, c88_object, c88_attribute_partial, c88_descriptor, c88_expected), up to the messages (c88_query, c88_access). False: with a larger count the value is not left as in the template (c88_left_defect); with a representation code that is none there is neither a default value nor that of the template, and the code is said to be 66 (c88_default_defect); descriptors of attributes are shown by their first three bits only (c88_descriptor_defect); objects do not tell of entries of attributes that they take from the template (c88_inherited_defect)."
  },
  {
   "property": "C89",
   "status": "partial",
   "theorems": [
    "Dlisio.Dlis.c89_index",
    "Dlisio.Dlis.c89_handler",
    "Dlisio.Dlis.c89_tells",
    "Dlisio.Dlis.c89_segment_defect",
    "Dlisio.Dlis.c89_extract",
    "Dlisio.Dlis.c89_trim_defect",
    "Dlisio.Dlis.c89_fdata",
    "Dlisio.Dlis.c89_raised",
    "Dlisio.Dlis.c89_raw",
    "Dlisio.Dlis.c89_noform",
    "Dlisio.Dlis.c89_curves",
    "Dlisio.Dlis.c89_skipped_defect",
    "Dlisio.Dlis.c89_sets"
   ],
   "note": "The texts of all reports and exceptions as a function of the stream (toldOffsets, toldExtract, toldFindfdata, toldExtractAll, toldSets, toldNoform, toldCurves) change nothing of what is read, and what they say is true of the stream: c89_index, c89_handler and c89_tells (indexing), c89_extract, c89_raised (how often something is noted if the error handler raises), c89_fdata, c89_raw, c89_sets, c89_noform, c89_curves. Texts of the stream, of pybind11 and of the standard library are given. False: the position of a segment that is cut off is the one behind it (c89_segment_defect); the size of a trailer may be a byte of another segment (c89_trim_defect); curves of a record that is said to be skipped stay in the array (c89_skipped_defect)."
  },
  {
   "property": "C90",
   "status": "partial",
   "theorems": [
    "Dlisio.Dlis.c90_findsul",
    "Dlisio.Dlis.c90_findvrl",
    "Dlisio.Dlis.c90_same",
    "Dlisio.Dlis.c90_reports",
    "Dlisio.Dlis.c90_stops",
    "Dlisio.Dlis.c90_silent",
    "Dlisio.Dlis.c90_label_place",
    "Dlisio.Dlis.c90_vr_place",
    "Dlisio.Dlis.c90_place_defect",
    "Dlisio.Dlis.c90_none_defect",
    "Dlisio.Dlis.c90_second_label",
    "Dlisio.Dlis.c90_second_label_defect"
   ],
   "note": "The texts of all reports while a file is loaded, as a function of the bytes (toldLoad), change nothing of what is loaded (c90_same); what they say about label, first visible record, end of the data and records is true of the file (c90_findsul, c90_findvrl, c90_reports), places and distances are those of the file for files that are no tape images (c90_label_place, c90_vr_place); a round of loading without a report read a label in its place, a visible record in its place and records that are all in order, or nothing (c90_silent); loading ends with the report for which the error handler raises (c90_stops), with the exceptions named there. False: on tapes the place is not that of the label (c90_place_defect); if the handler raises for a late label, it is reported that there is none (c90_none_defect); a handler that raises for a further label does not end loading, and the label is not read although that is said (c90_second_label, c90_second_label_defect)."
  },
  {
   "property": "C91",
   "status": "partial",
   "theorems": [
    "Dlisio.Lis.c91_header",
    "Dlisio.Lis.c91_record",
    "Dlisio.Lis.c91_index",
    "Dlisio.Lis.c91_read",
    "Dlisio.Lis.c91_reports",
    "Dlisio.Lis.c91_raised",
    "Dlisio.Lis.c91_any_handler",
    "Dlisio.Lis.c91_no_alarm",
    "Dlisio.Lis.c91_no_alarm_tape",
    "Dlisio.Lis.c91_silence",
    "Dlisio.Lis.c91_place",
    "Dlisio.Lis.c91_end_defect",
    "Dlisio.Lis.c91_first_bytes_defect",
    "Dlisio.Lis.c91_behind_defect",
    "Dlisio.Lis.c91_tape_place_defect",
    "Dlisio.Lis.c91_silent_defect",
    "Dlisio.Lis.c91_size_defect"
   ],
   "note": "The texts of all reports and exceptions as a function of the bytes (toldPrh, toldRecord, toldIndexRecords, toldReadRecord, toldLoad) go with what is indexed and read (the _plain and _same lemmas), and what they say is true: c91_header, c91_record, c91_index, c91_read, c91_reports; an exception exactly if the handler raises or the start cannot be read (c91_raised); the same with every handler (c91_any_handler); nothing about files that are in order (c91_no_alarm, c91_no_alarm_tape); without a report no stream ended with a record that is not in order (c91_silence); place for files that are no tape images (c91_place). False: bytes at the end can be lost (c91_end_defect), also a record behind a trailer (c91_silent_defect); twelve bytes that can be read are said not to be (c91_first_bytes_defect); the tell can be behind the end of the file (c91_behind_defect) and on tapes in front of the record (c91_tape_place_defect); records that are in order are reported (c91_size_defect)."
  },
  {
   "property": "C92",
   "status": "partial",
   "theorems": [
    "Dlisio.Lis.c92_entry",
    "Dlisio.Lis.c92_component",
    "Dlisio.Lis.c92_dfsr",
    "Dlisio.Lis.c92_info",
    "Dlisio.Lis.c92_plain",
    "Dlisio.Lis.c92_record",
    "Dlisio.Lis.c92_one_reason",
    "Dlisio.Lis.c92_no_alarm",
    "Dlisio.Lis.c92_methods_plain",
    "Dlisio.Lis.c92_header",
    "Dlisio.Lis.c92_trailer",
    "Dlisio.Lis.c92_reel_tape",
    "Dlisio.Lis.c92_shown",
    "Dlisio.Lis.c92_shown_component",
    "Dlisio.Lis.c92_mnemonic_defect",
    "Dlisio.Lis.c92_nul_defect",
    "Dlisio.Lis.c92_unnamed_defect",
    "Dlisio.Lis.c92_which_defect"
   ],
   "note": "The texts of all exceptions of the record parsers as a function of the bytes (explainRecord and what it calls); results and failures are those of the models without texts (c92_plain, c92_methods_plain). An exception is raised exactly for faulty records and says what is wrong: c92_entry, c92_component, c92_dfsr, c92_info, c92_record; one reason only (c92_one_reason); none without a reason (c92_no_alarm); what header and trailer say and log: c92_header, c92_trailer, c92_reel_tape. All of the text is seen by the user if the record is no information record (c92_shown) or the mnemonic is UTF-8 without NUL (c92_shown_component). False in general: c92_mnemonic_defect (mnemonic that is not UTF-8: text lost), c92_nul_defect (NUL cuts the text off), c92_unnamed_defect (reel and tape records are not named), c92_which_defect (the text does not say which entry)."
  },
  {
   "property": "C93",
   "status": "partial",
   "theorems": [
    "Dlisio.Lis.c93_fields",
    "Dlisio.Lis.c93_fields_plain",
    "Dlisio.Lis.c93_channel",
    "Dlisio.Lis.c93_channel_refused",
    "Dlisio.Lis.c93_spacing",
    "Dlisio.Lis.c93_spacing_plain",
    "Dlisio.Lis.c93_rate",
    "Dlisio.Lis.c93_curves",
    "Dlisio.Lis.c93_refused",
    "Dlisio.Lis.c93_logged_partial",
    "Dlisio.Lis.c93_duplicates_partial",
    "Dlisio.Lis.c93_plain",
    "Dlisio.Lis.c93_metadata",
    "Dlisio.Lis.c93_metadata_plain",
    "Dlisio.Lis.c93_logged_defect",
    "Dlisio.Lis.c93_entries_defect",
    "Dlisio.Lis.c93_suppressed_defect",
    "Dlisio.Lis.c93_block_type_defect"
   ],
   "note": "curves, curves_metadata, directional_spacing and the attributes of DataFormatSpec with the texts of all exceptions and log entries; results and failures are those of the models without texts (c93_plain, c93_metadata_plain, c93_fields_plain, c93_spacing_plain). What is said is true (c93_curves, c93_channel, c93_spacing, c93_rate, c93_fields, c93_metadata) and what is wrong is refused (c93_refused, c93_channel_refused). Log for labels that are not empty: c93_logged_partial, c93_duplicates_partial. False in general: c93_logged_defect (mnemonics said to be duplicated which are not), c93_entries_defect (one and a half entries called multiple), c93_suppressed_defect (channels that are not read are refused), c93_block_type_defect (another type is named)."
  },
  {
   "property": "C94",
   "status": "partial",
   "theorems": [
    "Dlisio.Dlis.c94_plain",
    "Dlisio.Dlis.c94_object_partial",
    "Dlisio.Dlis.c94_lookup_partial",
    "Dlisio.Dlis.c94_stopped",
    "Dlisio.Dlis.c94_key",
    "Dlisio.Dlis.c94_missing_partial",
    "Dlisio.Dlis.c94_value_partial",
    "Dlisio.Dlis.c94_linked_partial",
    "Dlisio.Dlis.c94_fileheader",
    "Dlisio.Dlis.c94_update_partial",
    "Dlisio.Dlis.LookupLogCase.c94_empty_name_defect",
    "Dlisio.Dlis.LookupLogCase.c94_nan_defect",
    "Dlisio.Dlis.LookupLogCase.c94_update_defect"
   ],
   "note": "LogicalFile.object, lookup, __getitem__, parsevalue, fileheader and the constructor with the texts of exceptions and warnings; results are those of the models without texts (c94_plain). What LogicalFile.object says is true and complete for stable names that are not empty (c94_object_partial); references: c94_lookup_partial, c94_linked_partial, and what is said before one that raises is kept in order: c94_stopped; missing attributes, KeyError, number of values: c94_missing_partial, c94_key, c94_value_partial; file headers: c94_fileheader; UPDATE objects: c94_update_partial. False in general: c94_empty_name_defect (with the cache off, the objects listed for the empty name do not have it), c94_nan_defect (the same object twice counts as several if a value is NaN), c94_update_defect (a set of type UPDATE without objects is warned about)."
  },
  {
   "property": "C95",
   "status": "partial",
   "theorems": [
    "Dlisio.Dlis.c95_frame_plain",
    "Dlisio.Dlis.c95_dtype_plain",
    "Dlisio.Dlis.c95_shape_plain",
    "Dlisio.Dlis.c95_frame_partial",
    "Dlisio.Dlis.c95_orphan",
    "Dlisio.Dlis.c95_curves_partial",
    "Dlisio.Dlis.c95_index_partial",
    "Dlisio.Dlis.c95_dimension",
    "Dlisio.Dlis.c95_dtype",
    "Dlisio.Dlis.c95_shape",
    "Dlisio.Dlis.c95_shape_said_partial",
    "Dlisio.Dlis.c95_samples_partial",
    "Dlisio.Dlis.FrameLogCase.c95_curves_defect",
    "Dlisio.Dlis.FrameLogCase.c95_frameno_defect",
    "Dlisio.Dlis.FrameLogCase.c95_missing_defect"
   ],
   "note": "Channel.frame, Channel.curves, Frame.index, Frame.dtype, Channel.fmtstr, validshape and sampling with the texts of exceptions and log entries; results are those of the models without texts (c95_frame_plain, c95_dtype_plain, c95_shape_plain). True: c95_frame_partial, c95_curves_partial and c95_index_partial (frames that refer to channels that are there), c95_orphan, c95_dimension, c95_dtype (every outcome, with what is said and why), c95_shape, c95_shape_said_partial and c95_samples_partial (dimensions without zeros). False in general: c95_curves_defect (no recorded data, for a channel in two frames that is recorded), c95_missing_defect (channel not found, although there are two), c95_frameno_defect (duplicated mnemonics in a frame with a single channel)."
  },
  {
   "property": "C96",
   "status": "partial",
   "theorems": [
    "Dlisio.Dlis.c96_label_plain",
    "Dlisio.Dlis.c96_label",
    "Dlisio.Dlis.c96_fingerprint_plain",
    "Dlisio.Dlis.c96_fingerprint",
    "Dlisio.Dlis.c96_loaded_partial",
    "Dlisio.Lis.c96_table_plain",
    "Dlisio.Lis.c96_table"
   ],
   "note": "storage_label, fingerprint, table and table_name with the texts of exceptions, warnings and log entries; results are those of the models without texts (c96_label_plain, c96_fingerprint_plain, c96_table_plain). What is said is true and every fault is reported: c96_label, c96_fingerprint, c96_table. Partial only where the label is traced back to the file on disk: c96_loaded_partial is for the media of Spec.Medium and handlers that do not raise minor errors."
  },
  {
   "property": "C97",
   "status": "partial",
   "theorems": [
    "Dlisio.Dlis.c97_references_partial",
    "Dlisio.Dlis.c97_written",
    "Dlisio.Dlis.c97_label_defect",
    "Dlisio.Dlis.c97_objref_defect",
    "Dlisio.Dlis.c97_quote_defect",
    "Dlisio.Dlis.c97_object",
    "Dlisio.c97_tapemark",
    "Dlisio.Lis.c97_prheader",
    "Dlisio.Lis.c97_rectype",
    "Dlisio.Lis.c97_record",
    "Dlisio.Lis.c97_shown",
    "Dlisio.Lis.c97_information",
    "Dlisio.Lis.c97_index",
    "Dlisio.Lis.c97_lisfile",
    "Dlisio.c97_physical"
   ],
   "note": "References: which of them can be written (c97_written), and those written in the same way are the same (c97_references_partial) except where this is false of the code: the label of an attribute is not written (c97_label_defect), the type of an attribute is not quoted (c97_quote_defect), and types with -I. in them are not told apart (c97_objref_defect). Objects, tape marks, headers, records, information records, indices and record types without exceptions; logical files of LIS by path and number of records (c97_lisfile), physical files by number of logical files (c97_physical). The text that pybind11 gives to enumerators is assumed."
  },
  {
   "property": "C98",
   "status": "partial",
   "theorems": [
    "Dlisio.c98_refused",
    "Dlisio.c98_kept",
    "Dlisio.c98_done",
    "Dlisio.c98_lis_partial",
    "Dlisio.c98_lis_defect",
    "Dlisio.c98_reversed_defect",
    "Dlisio.c98_gaps_defect",
    "Dlisio.c98_readonly_defect",
    "Dlisio.c98_load",
    "Dlisio.c98_sul",
    "Dlisio.c98_eof",
    "Dlisio.c98_label_partial",
    "Dlisio.c98_label_defect"
   ],
   "note": "stream.get and lis_stream.read for buffers of one dimension. Refused exactly if the buffer is too small, with the text (c98_refused); for buffers without gaps nothing outside is written, the bytes of the file are in the buffer and their number is given (c98_kept, c98_done); the uses in load (c98_load, c98_sul, c98_eof); storage_label reads the bytes of the buffer (c98_label_partial). Partial because the claim is false of the code: buffers that go backwards are written behind their end (c98_reversed_defect), bytes in gaps are overwritten (c98_gaps_defect), memory that must not be written is written (c98_readonly_defect), and lis_stream.read does not say that the file ended early (c98_lis_defect, c98_lis_partial); storage_label counts items instead of bytes and reads behind the end of buffers that go backwards (c98_label_defect)."
  },
  {
   "property": "C99",
   "status": "proved",
   "theorems": [
    "Dlisio.Dlis.c99_message",
    "Dlisio.Dlis.c99_read",
    "Dlisio.Dlis.c99_apart",
    "Dlisio.Dlis.c99_load",
    "Dlisio.Dlis.c99_data",
    "Dlisio.Lis.c99_lis_load",
    "Dlisio.Lis.c99_lis_apart"
   ],
   "note": "The whole message for each of the 13 kinds of reports about DLIS files that are loaded or read (c99_message); everything said while a file is loaded (c99_load) and while curves or unformatted data are read (c99_data) is one of these; messages that are the same are of the same kind, with the same text of the exception and the same numbers, whatever line breaks the texts have (c99_apart). For any report, a message can be read if only the problem has line breaks (c99_read). For LIS files every message is that indexing was given up, with file or record, problem and position (c99_lis_load), and these are told apart unless the path has line breaks (c99_lis_apart). What is said while the attributes of objects are parsed is in C88, what is said about references in C94."
  }
 ]
}