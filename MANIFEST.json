{
 "claims": [
  {
   "property": "C01",
   "status": "proved",
   "theorems": [
    "Npy.C01_npy_roundtrip",
    "Npy.C01_eight_axes"
   ],
   "note": ""
  },
  {
   "property": "C02",
   "status": "proved",
   "theorems": [
    "Npy.C02_length_field",
    "Npy.C02_length_field_false",
    "Npy.C02_overlong_unloadable"
   ],
   "note": "The unconditional claim is false of the code (C02_length_field_false). C02_length_field says exactly when it holds, C02_overlong_unloadable what happens otherwise."
  },
  {
   "property": "C03",
   "status": "proved",
   "theorems": [
    "Npy.C03_unicode_load",
    "Npy.C03_unicode_roundtrip",
    "Npy.C03_eight_axes",
    "Npy.C03_limit",
    "Npy.C03_nul_false"
   ],
   "note": "Round trip for strings without NUL; C03_unicode_load gives the exact result for all strings; C03_nul_false refutes the unconditional claim."
  },
  {
   "property": "C04",
   "status": "proved",
   "theorems": [
    "Npy.C04_npy_format",
    "Npy.C04_npy_format_unicode",
    "Npy.C04_data_aligned"
   ],
   "note": ""
  },
  {
   "property": "C05",
   "status": "proved",
   "theorems": [
    "Npy.C05_data_order",
    "Npy.C05_data_order_exact",
    "Npy.C05_complex_false"
   ],
   "note": "True for real types; C05_data_order_exact gives the bytes in all cases; C05_complex_false refutes the claim for complex types."
  },
  {
   "property": "C06",
   "status": "proved",
   "theorems": [
    "Npy.C06_between_hosts",
    "Npy.C06_between_hosts_exact",
    "Npy.C06_complex_false",
    "Npy.C06_unicode_between_hosts"
   ],
   "note": "True for real types and Unicode; C06_between_hosts_exact gives the values in all cases; C06_complex_false refutes the claim for complex types."
  },
  {
   "property": "C07",
   "status": "proved",
   "theorems": [
    "Npy.C07_peek_saved",
    "Npy.C07_peek_saved_unicode",
    "Npy.C07_load_agrees_with_peek"
   ],
   "note": ""
  },
  {
   "property": "C08",
   "status": "proved",
   "theorems": [
    "Npy.C08_wrong_type_throws",
    "Npy.C08_returned_type",
    "Npy.C08_saved_as_other_type"
   ],
   "note": ""
  },
  {
   "property": "C09",
   "status": "proved",
   "theorems": [
    "Npy.C09_dictionary_layouts",
    "Npy.C09_dictionary_layouts_unicode",
    "Npy.C09_unicode_limit",
    "Npy.C09_numpy_header",
    "Npy.C09_load_conforming"
   ],
   "note": ""
  },
  {
   "property": "C10",
   "status": "proved",
   "theorems": [
    "Npy.C10_parse_terminates",
    "Npy.C10_bound_immaterial",
    "Npy.C10_load_terminates",
    "Npy.C10_load_terminates_unicode"
   ],
   "note": ""
  },
  {
   "property": "C11",
   "status": "proved",
   "theorems": [
    "Npy.C11_unknown_is_int8",
    "Npy.C11_other_types_throw",
    "Npy.C11_rejected_false"
   ],
   "note": "The claim is false of the code (C11_rejected_false); C11_unknown_is_int8 and C11_other_types_throw say exactly what happens."
  },
  {
   "property": "C12",
   "status": "proved",
   "theorems": [
    "Npy.C12_no_order_undefined",
    "Npy.C12_no_descr_undefined",
    "Npy.C12_no_shape_is_scalar",
    "Npy.C12_missing_key_false"
   ],
   "note": "The claim is false of the code (C12_missing_key_false); the other theorems give the outcome for each missing key."
  },
  {
   "property": "C13",
   "status": "proved",
   "theorems": [
    "Npy.C13_truncated",
    "Npy.C13_rejected_false",
    "Npy.C13_truncated_unicode"
   ],
   "note": "The claim is false of the code (C13_rejected_false); C13_truncated gives the value returned for every truncation of a fixed-size tensor, C13_truncated_unicode for tensors of strings."
  },
  {
   "property": "C14",
   "status": "proved",
   "theorems": [
    "Npy.C14_debug_magic",
    "Npy.C14_release_ignores_magic",
    "Npy.C14_version",
    "Npy.C14_bad_magic_false"
   ],
   "note": "False in release builds (C14_bad_magic_false); exact outcomes in the other theorems."
  },
  {
   "property": "C15",
   "status": "proved",
   "theorems": [
    "Npy.C15_inverse",
    "Npy.C15_injective",
    "Npy.C15_unicode_throws",
    "Npy.C15_history_independent"
   ],
   "note": ""
  },
  {
   "property": "C16",
   "status": "proved",
   "theorems": [
    "Npy.C16_native_is_host",
    "Npy.C16_native_is_host_unicode"
   ],
   "note": ""
  },
  {
   "property": "C17",
   "status": "proved",
   "theorems": [
    "Npy.C17_save_injective",
    "Npy.C17_save_injective_unicode"
   ],
   "note": ""
  },
  {
   "property": "C18",
   "status": "proved",
   "theorems": [
    "Npy.C18_shape_roundtrip",
    "Npy.C18_shape_cut",
    "Npy.C18_space_before_comma",
    "Npy.C18_negative_wraps"
   ],
   "note": "C18_shape_roundtrip is the positive claim; the others describe texts that are not shapes."
  },
  {
   "property": "C19",
   "status": "proved",
   "theorems": [
    "Npy.C19_sequences"
   ],
   "note": ""
  },
  {
   "property": "C20",
   "status": "proved",
   "theorems": [
    "Npy.C20_history",
    "Npy.C20_shape_stable",
    "Npy.C20_assign",
    "Npy.C20_moved_from_false"
   ],
   "note": "The moved-from state violates it (C20_moved_from_false)."
  },
  {
   "property": "C21",
   "status": "proved",
   "theorems": [
    "Npy.C21_position"
   ],
   "note": ""
  },
  {
   "property": "C22",
   "status": "proved",
   "theorems": [
    "Npy.C22_bijection",
    "Npy.C22_injective"
   ],
   "note": ""
  },
  {
   "property": "C23",
   "status": "proved",
   "theorems": [
    "Npy.C23_get_set",
    "Npy.C23_get_set_unsigned"
   ],
   "note": ""
  },
  {
   "property": "C24",
   "status": "proved",
   "theorems": [
    "Npy.C24_signed_index",
    "Npy.C24_out_of_range"
   ],
   "note": ""
  },
  {
   "property": "C25",
   "status": "proved",
   "theorems": [
    "Npy.C25_signed_rejects",
    "Npy.C25_unsigned_rejects",
    "Npy.C25_unsigned_long",
    "Npy.C25_unsigned_short_undefined"
   ],
   "note": ""
  },
  {
   "property": "C26",
   "status": "proved",
   "theorems": [
    "Npy.C26_copy_move",
    "Npy.C26_rejects"
   ],
   "note": ""
  },
  {
   "property": "C27",
   "status": "proved",
   "theorems": [
    "Npy.C27_safe",
    "Npy.C27_overflow_unsafe",
    "Npy.C27_overflow_false"
   ],
   "note": "C27_overflow_false refutes the claim when the product of extents overflows."
  },
  {
   "property": "C28",
   "status": "proved",
   "theorems": [
    "Npy.C28_floats",
    "Npy.C28_bool_roundtrip",
    "Npy.C28_default",
    "Npy.C28_numbers",
    "Npy.C28_any_byte",
    "Npy.C28_agree_false"
   ],
   "note": "C28_agree_false: construction and assignment disagree on negative numbers; C28_floats: and on NaNs."
  },
  {
   "property": "C29",
   "status": "proved",
   "theorems": [
    "Npy.C29_size_from_header",
    "Npy.C29_loaded_wellformed",
    "Npy.C29_loaded_wellformed_unicode"
   ],
   "note": ""
  },
  {
   "property": "C30",
   "status": "proved",
   "theorems": [
    "Npy.C30_by_size",
    "Npy.C30_npz_map",
    "Npy.C30_npz_roundtrip"
   ],
   "note": "C30_by_size bounds only what is written; C30_npz_roundtrip needs only that the archive itself is shorter than 4 GiB."
  },
  {
   "property": "C31",
   "status": "proved",
   "theorems": [
    "Npy.C31_npz_map",
    "Npy.C31_npz_roundtrip",
    "Npy.C31_never_wrong",
    "Npy.C31_by_size"
   ],
   "note": "Unbounded sizes: see C52_false; with files up to 1 MiB a read is right or throws."
  },
  {
   "property": "C32",
   "status": "proved",
   "theorems": [
    "Npy.C32_close"
   ],
   "note": ""
  },
  {
   "property": "C33",
   "status": "proved",
   "theorems": [
    "Npy.C33_failed_write",
    "Npy.C33_unsupported_method",
    "Npy.C33_history"
   ],
   "note": ""
  },
  {
   "property": "C34",
   "status": "proved",
   "theorems": [
    "Npy.C34_writers",
    "Npy.C34_readers"
   ],
   "note": ""
  },
  {
   "property": "C35",
   "status": "proved",
   "theorems": [
    "Npy.C35_names"
   ],
   "note": ""
  },
  {
   "property": "C36",
   "status": "proved",
   "theorems": [
    "Npy.C36_contains",
    "Npy.C36_contains_false"
   ],
   "note": "The claim is false of the code (C36_contains_false); C36_contains is the exact relation."
  },
  {
   "property": "C37",
   "status": "proved",
   "theorems": [
    "Npy.C37_keys"
   ],
   "note": ""
  },
  {
   "property": "C38",
   "status": "proved",
   "theorems": [
    "Npy.C38_history"
   ],
   "note": ""
  },
  {
   "property": "C39",
   "status": "proved",
   "theorems": [
    "Npy.C39_size_false",
    "Npy.C39_checked"
   ],
   "note": "C39_checked for all bytes; the sentence on the uncompressed size is false of the code (C39_size_false)."
  },
  {
   "property": "C40",
   "status": "proved",
   "theorems": [
    "Npy.C40_limit",
    "Npy.C40_burst"
   ],
   "note": "C40_burst; C40_limit shows that 32 cannot be replaced by 33."
  },
  {
   "property": "C41",
   "status": "proved",
   "theorems": [
    "Npy.C41_crc32",
    "Npy.C41_pieces",
    "Npy.C41_long",
    "Npy.C41_long_collision"
   ],
   "note": ""
  },
  {
   "property": "C42",
   "status": "proved",
   "theorems": [
    "Npy.C42_count",
    "Npy.C42_false"
   ],
   "note": "The claim is false of the code (C42_false); C42_count is the exact outcome for every number of entries."
  },
  {
   "property": "C43",
   "status": "proved",
   "theorems": [
    "Npy.C43_cut",
    "Npy.C43_false"
   ],
   "note": "The claim is false of the code (C43_false); C43_cut is the exact outcome for every length."
  },
  {
   "property": "C44",
   "status": "proved",
   "theorems": [
    "Npy.C44_headers"
   ],
   "note": ""
  },
  {
   "property": "C45",
   "status": "proved",
   "theorems": [
    "Npy.C45_layout",
    "Npy.C45_false"
   ],
   "note": "True without ZIP64; C45_false refutes it with ZIP64."
  },
  {
   "property": "C46",
   "status": "proved",
   "theorems": [
    "Npy.C46_end_record",
    "Npy.C46_comment",
    "Npy.C46_short"
   ],
   "note": ""
  },
  {
   "property": "C47",
   "status": "proved",
   "theorems": [
    "Npy.C47_save",
    "Npy.C47_save_false",
    "Npy.C47_outcomes",
    "Npy.C47_lost",
    "Npy.C47_archive_false"
   ],
   "note": "The claim is false of the code (C47_save_false, C47_archive_false); the other theorems give the exact outcome for every capacity."
  },
  {
   "property": "C48",
   "status": "proved",
   "theorems": [
    "Npy.C48_absent"
   ],
   "note": ""
  },
  {
   "property": "C49",
   "status": "proved",
   "theorems": [
    "Npy.C49_independent",
    "Npy.C49_sticky",
    "Npy.C49_false"
   ],
   "note": "The claim is false of the code (C49_false); C49_independent says when it holds and C49_sticky when not."
  },
  {
   "property": "C50",
   "status": "proved",
   "theorems": [
    "Npy.C50_undisturbed",
    "Npy.C50_false"
   ],
   "note": "The claim is false of the code (C50_false); true of undisturbed token reads (C50_undisturbed)."
  },
  {
   "property": "C51",
   "status": "proved",
   "theorems": [
    "Npy.C51_false",
    "Npy.C51_standard",
    "Npy.C51_any"
   ],
   "note": "The claim is false of the code (C51_false: runs out of every amount of fuel); true of standard streams (C51_standard) and of all data up to 1 MiB without a fault in the middle of a block (C51_any, see C68)."
  },
  {
   "property": "C52",
   "status": "proved",
   "theorems": [
    "Npy.C52_window",
    "Npy.C52_most_sizes",
    "Npy.C52_never_wrong",
    "Npy.C52_false"
   ],
   "note": "Round trip for up to 32768 bytes and for three quarters of the sizes up to 1 MiB (C52_most_sizes); right or runtime_error up to 1 MiB; C52_false: 32769 zeros do not come back."
  },
  {
   "property": "C53",
   "status": "proved",
   "theorems": [
    "Npy.C53_like_streams",
    "Npy.C53_save_load",
    "Npy.C53_unopened",
    "Npy.C53_failed_save"
   ],
   "note": ""
  },
  {
   "property": "C54",
   "status": "proved",
   "theorems": [
    "Npy.C54_by_size",
    "Npy.C54_path_roundtrip",
    "Npy.C54_reader_unopened",
    "Npy.C54_writer_unopened",
    "Npy.C54_writer_false"
   ],
   "note": "C54_writer_false refutes the claim that failures are reported."
  },
  {
   "property": "C55",
   "status": "proved",
   "theorems": [
    "Npy.C55_window",
    "Npy.C55_most_sizes",
    "Npy.C55_safe",
    "Npy.C55_padded",
    "Npy.C55_never_wrong",
    "Npy.C55_false",
    "Npy.C55_wrong_data"
   ],
   "note": "The general claim is false of the code (C55_false: an exception; C55_wrong_data: over 1 MiB, data are lost without an error); the other theorems say when it holds."
  },
  {
   "property": "C56",
   "status": "proved",
   "theorems": [
    "Npy.C56_standard",
    "Npy.C56_false",
    "Npy.C56_any"
   ],
   "note": "The general claim is false of the code (C56_false); true of standard streams and prefixes (C56_standard) and of all data up to 1 MiB without a fault in the middle of a block (C56_any, see C68)."
  },
  {
   "property": "C57",
   "status": "proved",
   "theorems": [
    "Npy.C57_truncated"
   ],
   "note": ""
  },
  {
   "property": "C58",
   "status": "proved",
   "theorems": [
    "Npy.C58_standard",
    "Npy.C58_size"
   ],
   "note": "One MZ_ASSERT (miniz.cpp:1311) is not in the model for last blocks that stand for more than 32510 bytes and take exactly 85180 (the padding of the last byte fills the buffer); the statement names this exception."
  },
  {
   "property": "C59",
   "status": "proved",
   "theorems": [
    "Npy.C59_deterministic",
    "Npy.C59_archive"
   ],
   "note": ""
  },
  {
   "property": "C60",
   "status": "proved",
   "theorems": [
    "Npy.C60_file",
    "Npy.C60_load",
    "Npy.C60_load_unicode",
    "Npy.C60_tensor",
    "Npy.C60_throws",
    "Npy.C60_npz",
    "Npy.C60_npz_deflated"
   ],
   "note": ""
  },
  {
   "property": "C61",
   "status": "proved",
   "theorems": [
    "Npy.C61_eigen",
    "Npy.C61_tensor",
    "Npy.C61_dtype_unchecked",
    "Npy.C61_scalar_false",
    "Npy.C61_program"
   ],
   "note": "C61_dtype_unchecked and C61_scalar_false are the two cases in which the class differs from npy::tensor."
  },
  {
   "property": "C62",
   "status": "proved",
   "theorems": [
    "Npy.C62_string_reader",
    "Npy.C62_file_reader",
    "Npy.C62_false"
   ],
   "note": "True of string readers (C62_string_reader); false of file readers (C62_false); C62_file_reader is the exact outcome."
  },
  {
   "property": "C63",
   "status": "proved",
   "theorems": [
    "Npy.C63_rejected"
   ],
   "note": "C63_rejected. Data that break inside a block (bits that are no code, distances too far back) are not rejected in general: C51_false, C56_false; C68 covers everything else."
  },
  {
   "property": "C64",
   "status": "proved",
   "theorems": [
    "Npy.C64_replaced",
    "Npy.C64_deflated"
   ],
   "note": "C64_replaced for any codec and both methods; C64_deflated for the bundled miniz."
  },
  {
   "property": "C65",
   "status": "proved",
   "theorems": [
    "Npy.C65_peek",
    "Npy.C65_peek_deflated"
   ],
   "note": ""
  },
  {
   "property": "C66",
   "status": "proved",
   "theorems": [
    "Npy.C66_is_open",
    "Npy.C66_closed",
    "Npy.C66_writer"
   ],
   "note": "The part about reading from a closed reader is false (C66_closed: undefined behaviour, proved of every history); the other parts are proved."
  },
  {
   "property": "C67",
   "status": "proved",
   "theorems": [
    "Npy.C67_foreign",
    "Npy.C67_numpy",
    "Npy.C67_numpy_compressed",
    "Npy.C67_extra_field",
    "Npy.C67_comment",
    "Npy.C67_streamed"
   ],
   "note": ""
  },
  {
   "property": "C68",
   "status": "proved",
   "theorems": [
    "Npy.C68_sound",
    "Npy.C68_memory",
    "Npy.C68_memory_sound",
    "Npy.C68_returned",
    "Npy.C68_unique",
    "Npy.C68_standard_has_no_fault",
    "Npy.C68_fault_breaks_standard",
    "Npy.C68_known_faults"
   ],
   "note": "C68_sound, C68_returned; the exception `Faulty` contains no standard data and no prefix of such (C68_standard_has_no_fault) and contains the witnesses of C51_false and C56_false (C68_known_faults)."
  },
  {
   "property": "C69",
   "status": "proved",
   "theorems": [
    "Npy.C69_last_assignment",
    "Npy.C69_fill",
    "Npy.C69_saved"
   ],
   "note": ""
  },
  {
   "property": "C70",
   "status": "proved",
   "theorems": [
    "Npy.C70_iteration",
    "Npy.C70_visits_all"
   ],
   "note": ""
  },
  {
   "property": "C71",
   "status": "proved",
   "theorems": [
    "Npy.C71_open",
    "Npy.C71_keys",
    "Npy.C71_absent",
    "Npy.C71_read",
    "Npy.C71_sound",
    "Npy.C71_safe"
   ],
   "note": ""
  },
  {
   "property": "C72",
   "status": "proved",
   "theorems": [
    "Npy.C72_parse",
    "Npy.C72_parse_undefined",
    "Npy.C72_parse_throws",
    "Npy.C72_peek",
    "Npy.C72_peek_undefined",
    "Npy.C72_peek_throws",
    "Npy.C72_load",
    "Npy.C72_load_undefined",
    "Npy.C72_load_throws",
    "Npy.C72_data",
    "Npy.C72_data_unicode"
   ],
   "note": ""
  },
  {
   "property": "C73",
   "status": "proved",
   "theorems": [
    "Npy.C73_compress",
    "Npy.C73_archive"
   ],
   "note": "All array accesses of the compressor are checked in the model. One MZ_ASSERT (miniz.cpp:1311, room left in the output buffer) is not in the model for last blocks that stand for more than 32510 bytes and take exactly 85180 (the padding of the last byte fills the buffer); the statement names this exception."
  },
  {
   "property": "C74",
   "status": "proved",
   "theorems": [
    "Npy.C74_save",
    "Npy.C74_archive",
    "Npy.C74_archive_detected",
    "Npy.C74_save_false",
    "Npy.C74_archive_false"
   ],
   "note": ""
  },
  {
   "property": "C75",
   "status": "proved",
   "theorems": [
    "Npy.C75_sample_program"
   ],
   "note": ""
  },
  {
   "property": "C76",
   "status": "proved",
   "theorems": [
    "Npy.C76_programs",
    "Npy.C76_others",
    "Npy.C76_last_save"
   ],
   "note": ""
  },
  {
   "property": "C77",
   "status": "proved",
   "theorems": [
    "Npy.C77_stored",
    "Npy.C77_false_inflate",
    "Npy.C77_false_deflate",
    "Npy.C77_false_archive"
   ],
   "note": "False as stated: C77_false_inflate, C77_false_deflate and C77_false_archive are counterexamples on big-endian hosts; C77_stored is what holds on every host. C55, C52, C31 and the other properties of compressed data are for little-endian hosts."
  },
  {
   "property": "C78",
   "status": "proved",
   "theorems": [
    "Npy.C78_standard",
    "Npy.C78_inflate",
    "Npy.C78_false_load",
    "Npy.C78_false_archive"
   ],
   "note": "False as stated: C78_false_load and C78_false_archive are counterexamples for every size; C78_standard and C78_inflate are what holds."
  },
  {
   "property": "C79",
   "status": "proved",
   "theorems": [
    "Npy.C79_map",
    "Npy.C79_stored",
    "Npy.C79_deflated",
    "Npy.C79_plenty",
    "Npy.C79_cut",
    "Npy.C79_false_silent"
   ],
   "note": "The first statement is proved (C79_map, C79_stored, C79_deflated). The second is false: C79_false_silent; C79_cut and C79_map say what the archive then holds. C79_plenty ties the model to that of the other properties."
  },
  {
   "property": "C80",
   "status": "proved",
   "theorems": [
    "Npy.C80_classic",
    "Npy.C80_save_iff",
    "Npy.C80_roundtrip",
    "Npy.C80_load_saved",
    "Npy.C80_dictionary",
    "Npy.C80_false_comma",
    "Npy.C80_false_write",
    "Npy.C80_roundtrip_unicode",
    "Npy.C80_load_saved_unicode",
    "Npy.C80_archive_write",
    "Npy.C80_archive_read",
    "Npy.C80_archive_false",
    "Npy.C80_load_agrees_with_peek"
   ],
   "note": "False as stated: C80_false_comma, C80_false_write and C80_archive_false. C80_classic, C80_save_iff, C80_roundtrip, C80_load_saved, C80_dictionary, their unicode forms and C80_archive_write/C80_archive_read are what holds. The other properties are for a locale that does not group digits, such as the C locale, which every C++ program starts in."
  },
  {
   "property": "C81",
   "status": "proved",
   "theorems": [
    "Npy.C81_load",
    "Npy.C81_peek",
    "Npy.C81_complete",
    "Npy.C81_truncated",
    "Npy.C81_save",
    "Npy.C81_save_false"
   ],
   "note": "True with a flush after save (C81_load, C81_peek, C81_complete, C81_truncated, C81_save); without the flush C81_save_false is the counterexample. Only calls that take a stream: the path-based calls and the archive classes use streams of their own, on which exceptions cannot be enabled."
  },
  {
   "property": "C82",
   "status": "proved",
   "theorems": [
    "Npy.C82_load",
    "Npy.C82_peek",
    "Npy.C82_dtype",
    "Npy.C82_read",
    "Npy.C82_peekFile"
   ],
   "note": "One thread (several: C50). Saving uses no mutable global."
  },
  {
   "property": "C83",
   "status": "proved",
   "theorems": [
    "Npy.C83_resave",
    "Npy.C83_data_kept",
    "Npy.C83_reproduced",
    "Npy.C83_resave_unicode",
    "Npy.C83_false_wide16"
   ],
   "note": "C83_resave, C83_resave_unicode (wchar_t of 32 bits), C83_data_kept, C83_reproduced; C83_false_wide16 is the counterexample for strings where wchar_t has 16 bits."
  },
  {
   "property": "C84",
   "status": "proved",
   "theorems": [
    "Npy.C84_refines",
    "Npy.C84_unchanged",
    "Npy.C84_copy_from_strings",
    "Npy.C84_assign_returns",
    "Npy.C84_assign_others",
    "Npy.C84_assign_throws",
    "Npy.C84_assign_throws_strings",
    "Npy.C84_assign_strings_possible",
    "Npy.C84_construction",
    "Npy.C84_history",
    "Npy.C84_history_no_assign",
    "Npy.C84_assign_smaller",
    "Npy.C84_assign_false",
    "Npy.C84_copy_then_move"
   ],
   "note": "C84_assign_false is the counterexample for copy assignment (any source with more elements than the target has room for); C84_copy_from_strings says exactly what copy_from of strings can leave behind. The rest holds as stated (C84_unchanged, C84_history, C84_assign_returns, C84_assign_throws, C84_assign_others, C84_assign_smaller, C84_copy_then_move); C84_refines ties the model to that of C20. C84_assign_throws_strings and C84_assign_strings_possible give the same for tensors of strings, where the elements can be left half assigned; C84_construction says exactly when construction and copy construction succeed."
  },
  {
   "property": "C85",
   "status": "proved",
   "theorems": [
    "Npy.C85_values",
    "Npy.C85_stable",
    "Npy.C85_one_pointer_each",
    "Npy.C85_read_write",
    "Npy.C85_write_vector",
    "Npy.C85_usable",
    "Npy.C85_move",
    "Npy.C85_move_from",
    "Npy.C85_dangling",
    "Npy.C85_assign",
    "Npy.C85_vectors",
    "Npy.C85_no_leak"
   ],
   "note": "Holds as stated. C85_values ties the model with storage to the value model of the other properties; C85_stable, C85_one_pointer_each, C85_read_write and C85_write_vector say what pointers denote; C85_usable when they can be used; C85_move, C85_move_from, C85_assign and C85_dangling what the calls that give a tensor other storage do to them; C85_vectors and C85_no_leak concern the program's vectors and leaks. Assumes libstdc++ vectors and enough memory."
  },
  {
   "property": "C86",
   "status": "proved",
   "theorems": [
    "Npy.C86_save",
    "Npy.C86_archive",
    "Npy.C86_closed",
    "Npy.C86_meanwhile",
    "Npy.C86_save_meanwhile",
    "Npy.C86_step",
    "Npy.C86_programs",
    "Npy.C86_runs",
    "Npy.C86_unclosed_false"
   ],
   "note": "Holds as stated. C86_save and C86_archive: equality with the functions of Model/Fs for every buffer; C86_programs carries C53, C54 and C76 over to buffered streams; C86_closed, C86_meanwhile and C86_save_meanwhile say what is in the file before the end, and connect with C74; C86_unclosed_false is the example for the time between write and close."
  },
  {
   "property": "C87",
   "status": "proved",
   "theorems": [
    "Npy.C87_number",
    "Npy.C87_text_aux",
    "Npy.C87_text",
    "Npy.C87_width",
    "Npy.C87_appends",
    "Npy.C87_tell",
    "Npy.C87_list",
    "Npy.C87_false_fill"
   ],
   "note": "False as first stated: C87_false_fill. C87_tell and C87_list hold where the fill character is not a digit; C87_text, C87_width and C87_number say what the text is."
  },
  {
   "property": "C88",
   "status": "proved",
   "theorems": [
    "Npy.C88_alone",
    "Npy.C88_scopes",
    "Npy.C88_meets",
    "Npy.C88_readers"
   ],
   "note": "Holds as stated. C88_alone: outcomes and file on a path are those of its calls alone. C88_scopes: if these are the calls of scopes one after the other, those of the scopes (Model/Program). C88_meets: with C76. C88_readers: any number of readers, also of one file. The example interleaves two archives. Streams without buffers (C86 treats buffers, one archive at a time); at most one object per path, or only readers; a load of a path that is being written is included and sees what the stream was given so far."
  },
  {
   "property": "C89",
   "status": "proved",
   "theorems": [
    "Npy.C89_members",
    "Npy.C89_saved",
    "Npy.C89_saved_unicode",
    "Npy.C89_false_length"
   ],
   "note": "C89_saved and C89_saved_unicode: the four members against peek of the saved file. That all five members agree is false: C89_false_length (max_element_length is never set)."
  },
  {
   "property": "C90",
   "status": "proved",
   "theorems": [
    "Npy.C90_zero",
    "Npy.C90_boolean",
    "Npy.C90_empty_strings",
    "Npy.C90_saved",
    "Npy.C90_saved_strings",
    "Npy.C90_too_large"
   ],
   "note": "C90_zero and C90_empty_strings: elements; C90_saved and C90_saved_strings: files; C90_too_large: the exception. Shapes whose product reaches 2^64 wrap around (C20)."
  },
  {
   "property": "C91",
   "status": "proved",
   "theorems": [
    "Npy.C91_extent",
    "Npy.C91_all",
    "Npy.C91_bounds",
    "Npy.C91_false"
   ],
   "note": "C91_extent: exactly when shape(i) is defined, and what it is; C91_all; C91_bounds connects shape(i) with get (C24, C25). That negative arguments count from the end is false: C91_false."
  },
  {
   "property": "C92",
   "status": "proved",
   "theorems": [
    "Npy.C92_row_major",
    "Npy.C92_column_major",
    "Npy.C92_rejects",
    "Npy.C92_false"
   ],
   "note": "C92_row_major, C92_column_major, C92_rejects. That forward iterators would do on tensors in FORTRAN order is false: C92_false."
  }
 ]
}