{
 "C02": {
  "note": "The unconditional claim is false of the code (C02_length_field_false). C02_length_field says exactly when it holds, C02_overlong_unloadable what happens otherwise."
 },
 "C03": {
  "note": "Round trip for strings without NUL; C03_unicode_load gives the exact result for all strings; C03_nul_false refutes the unconditional claim."
 },
 "C05": {
  "note": "True for real types; C05_data_order_exact gives the bytes in all cases; C05_complex_false refutes the claim for complex types."
 },
 "C06": {
  "note": "True for real types and Unicode; C06_between_hosts_exact gives the values in all cases; C06_complex_false refutes the claim for complex types."
 },
 "C11": {
  "note": "The claim is false of the code (C11_rejected_false); C11_unknown_is_int8 and C11_other_types_throw say exactly what happens."
 },
 "C12": {
  "note": "The claim is false of the code (C12_missing_key_false); the other theorems give the outcome for each missing key."
 },
 "C13": {
  "note": "The claim is false of the code (C13_rejected_false); C13_truncated gives the value returned for every truncation of a fixed-size tensor, C13_truncated_unicode for tensors of strings."
 },
 "C14": {
  "note": "False in release builds (C14_bad_magic_false); exact outcomes in the other theorems."
 },
 "C18": {
  "note": "C18_shape_roundtrip is the positive claim; the others describe texts that are not shapes."
 },
 "C20": {
  "note": "The moved-from state violates it (C20_moved_from_false)."
 },
 "C27": {
  "note": "C27_overflow_false refutes the claim when the product of extents overflows."
 },
 "C28": {
  "note": "C28_agree_false: construction and assignment disagree on negative numbers; C28_floats: and on NaNs."
 },
 "C31": {
  "note": "Unbounded sizes: see C52_false; with files up to 1 MiB a read is right or throws."
 },
 "C36": {
  "note": "The claim is false of the code (C36_contains_false); C36_contains is the exact relation."
 },
 "C42": {
  "note": "The claim is false of the code (C42_false); C42_count is the exact outcome for every number of entries."
 },
 "C43": {
  "note": "The claim is false of the code (C43_false); C43_cut is the exact outcome for every length."
 },
 "C45": {
  "note": "True without ZIP64; C45_false refutes it with ZIP64."
 },
 "C47": {
  "note": "The claim is false of the code (C47_save_false, C47_archive_false); the other theorems give the exact outcome for every capacity."
 },
 "C49": {
  "note": "The claim is false of the code (C49_false); C49_independent says when it holds and C49_sticky when not."
 },
 "C50": {
  "note": "The claim is false of the code (C50_false); true of undisturbed token reads (C50_undisturbed)."
 },
 "C51": {
  "note": "The claim is false of the code (C51_false: runs out of every amount of fuel); true of standard streams (C51_standard) and of all data up to 1 MiB without a fault in the middle of a block (C51_any, see C68)."
 },
 "C52": {
  "note": "Round trip for up to 32768 bytes and for three quarters of the sizes up to 1 MiB (C52_most_sizes); right or runtime_error up to 1 MiB; C52_false: 32769 zeros do not come back."
 },
 "C54": {
  "note": "C54_writer_false refutes the claim that failures are reported."
 },
 "C55": {
  "note": "The general claim is false of the code (C55_false: an exception; C55_wrong_data: over 1 MiB, data are lost without an error); the other theorems say when it holds."
 },
 "C56": {
  "note": "The general claim is false of the code (C56_false); true of standard streams and prefixes (C56_standard) and of all data up to 1 MiB without a fault in the middle of a block (C56_any, see C68)."
 },
 "C61": {
  "note": "C61_dtype_unchecked and C61_scalar_false are the two cases in which the class differs from npy::tensor."
 },
 "C62": {
  "note": "True of string readers (C62_string_reader); false of file readers (C62_false); C62_file_reader is the exact outcome."
 },
 "C63": {
  "note": "C63_rejected. Data that break inside a block (bits that are no code, distances too far back) are not rejected in general: C51_false, C56_false; C68 covers everything else."
 },
 "C64": {
  "note": "C64_replaced for any codec and both methods; C64_deflated for the bundled miniz."
 },
 "C66": {
  "note": "The part about reading from a closed reader is false (C66_closed: undefined behaviour, proved of every history); the other parts are proved."
 },
 "C68": {
  "note": "C68_sound, C68_returned; the exception `Faulty` contains no standard data and no prefix of such (C68_standard_has_no_fault) and contains the witnesses of C51_false and C56_false (C68_known_faults)."
 },
 "C39": {
  "note": "C39_checked for all bytes; the sentence on the uncompressed size is false of the code (C39_size_false)."
 },
 "C40": {
  "note": "C40_burst; C40_limit shows that 32 cannot be replaced by 33."
 },
 "C73": {
  "note": "All array accesses of the compressor are checked in the model. One MZ_ASSERT (miniz.cpp:1311, room left in the output buffer) is not in the model for last blocks that stand for more than 32510 bytes and take exactly 85180 (the padding of the last byte fills the buffer); the statement names this exception."
 },
 "C58": {
  "note": "One MZ_ASSERT (miniz.cpp:1311) is not in the model for last blocks that stand for more than 32510 bytes and take exactly 85180 (the padding of the last byte fills the buffer); the statement names this exception."
 },
 "C77": {
  "note": "False as stated: C77_false_inflate, C77_false_deflate and C77_false_archive are counterexamples on big-endian hosts; C77_stored is what holds on every host. C55, C52, C31 and the other properties of compressed data are for little-endian hosts."
 },
 "C78": {
  "note": "False as stated: C78_false_load and C78_false_archive are counterexamples for every size; C78_standard and C78_inflate are what holds."
 },
 "C79": {
  "note": "The first statement is proved (C79_map, C79_stored, C79_deflated). The second is false: C79_false_silent; C79_cut and C79_map say what the archive then holds. C79_plenty ties the model to that of the other properties."
 },
 "C80": {
  "note": "False as stated: C80_false_comma, C80_false_write and C80_archive_false. C80_classic, C80_save_iff, C80_roundtrip, C80_load_saved, C80_dictionary, their unicode forms and C80_archive_write/C80_archive_read are what holds. The other properties are for a locale that does not group digits, such as the C locale, which every C++ program starts in."
 },
 "C30": {
  "note": "C30_by_size bounds only what is written; C30_npz_roundtrip needs only that the archive itself is shorter than 4 GiB."
 },
 "C81": {
  "note": "True with a flush after save (C81_load, C81_peek, C81_complete, C81_truncated, C81_save); without the flush C81_save_false is the counterexample. Only calls that take a stream: the path-based calls and the archive classes use streams of their own, on which exceptions cannot be enabled."
 },
 "C82": {
  "note": "One thread (several: C50). Saving uses no mutable global."
 },
 "C83": {
  "note": "C83_resave, C83_resave_unicode (wchar_t of 32 bits), C83_data_kept, C83_reproduced; C83_false_wide16 is the counterexample for strings where wchar_t has 16 bits."
 },
 "C84": {
  "note": "C84_assign_false is the counterexample for copy assignment (any source with more elements than the target has room for); C84_copy_from_strings says exactly what copy_from of strings can leave behind. The rest holds as stated (C84_unchanged, C84_history, C84_assign_returns, C84_assign_throws, C84_assign_others, C84_assign_smaller, C84_copy_then_move); C84_refines ties the model to that of C20. C84_assign_throws_strings and C84_assign_strings_possible give the same for tensors of strings, where the elements can be left half assigned; C84_construction says exactly when construction and copy construction succeed."
 },
 "C85": {
  "note": "Holds as stated. C85_values ties the model with storage to the value model of the other properties; C85_stable, C85_one_pointer_each, C85_read_write and C85_write_vector say what pointers denote; C85_usable when they can be used; C85_move, C85_move_from, C85_assign and C85_dangling what the calls that give a tensor other storage do to them; C85_vectors and C85_no_leak concern the program's vectors and leaks. Assumes libstdc++ vectors and enough memory."
 },
 "C86": {
  "note": "Holds as stated. C86_save and C86_archive: equality with the functions of Model/Fs for every buffer; C86_programs carries C53, C54 and C76 over to buffered streams; C86_closed, C86_meanwhile and C86_save_meanwhile say what is in the file before the end, and connect with C74; C86_unclosed_false is the example for the time between write and close."
 },
 "C87": {
  "note": "False as first stated: C87_false_fill. C87_tell and C87_list hold where the fill character is not a digit; C87_text, C87_width and C87_number say what the text is."
 },
 "C88": {
  "note": "Holds as stated. C88_alone: outcomes and file on a path are those of its calls alone. C88_scopes: if these are the calls of scopes one after the other, those of the scopes (Model/Program). C88_meets: with C76. C88_readers: any number of readers, also of one file. The example interleaves two archives. Streams without buffers (C86 treats buffers, one archive at a time); at most one object per path, or only readers; a load of a path that is being written is included and sees what the stream was given so far."
 },
 "C89": {
  "note": "C89_saved and C89_saved_unicode: the four members against peek of the saved file. That all five members agree is false: C89_false_length (max_element_length is never set)."
 },
 "C90": {
  "note": "C90_zero and C90_empty_strings: elements; C90_saved and C90_saved_strings: files; C90_too_large: the exception. Shapes whose product reaches 2^64 wrap around (C20)."
 },
 "C91": {
  "note": "C91_extent: exactly when shape(i) is defined, and what it is; C91_all; C91_bounds connects shape(i) with get (C24, C25). That negative arguments count from the end is false: C91_false."
 },
 "C92": {
  "note": "C92_row_major, C92_column_major, C92_rejects. That forward iterators would do on tensors in FORTRAN order is false: C92_false."
 }
}