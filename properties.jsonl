{"id": "C01", "title": "NPY save/load round trip for fixed-size dtypes", "statement": "Saving any tensor of a fixed-size element type with npy::save, with any endianness argument, and loading the bytes with npy::load<tensor<T>> on the same kind of host yields a tensor with the same shape, the same storage order, the same dtype and the same element values, whenever the text of the header dictionary is at most 245 characters long, which is the case for every tensor of up to 8 axes. Bytes following the file are left unread.", "quantifier": "all 13 fixed-size element types, all shapes, both storage orders, all element values, all three endianness arguments, both host byte orders, debug and release builds", "why_tests_cant": "The tests round-trip a handful of small shapes; shapes, element values and ranks are unbounded and each of the 13 hand-unrolled specialisations can be wrong for one value only.", "anchors": ["include/npy/npy.h:save", "include/npy/npy.h:load", "include/npy/npy.h:write_npy_header", "include/npy/npy.h:read_npy_header", "src/dtype.cpp:write_values", "src/dtype.cpp:read_values", "src/npy.cpp:header_info::header_info"]}
{"id": "C02", "title": "The stored header length is right for every shape", "statement": "For every tensor the two-byte header-length field that npy::save writes equals the number of bytes between it and the data. (False at this commit: only one byte of the length is written, so it holds exactly when the dictionary text has at most 245 characters; beyond that the field is short by a multiple of 256 and the file cannot be loaded back.)", "quantifier": "all dtype strings, storage orders and shapes", "why_tests_cant": "Only tensors of very high rank or extent reach the failing lengths; a test picks a few shapes.", "anchors": ["include/npy/npy.h:write_npy_header", "include/npy/npy.h:read_npy_header"]}
{"id": "C03", "title": "Unicode tensors round trip", "statement": "Saving a tensor of std::wstring and loading it gives back the same strings, for any endianness, provided no string contains a NUL code unit, every code unit fits wchar_t and the longest string is at most INT_MAX. (A string containing NUL comes back without the NULs: the general statement is false, and what comes back is exactly the string with its NULs removed.)", "quantifier": "all shapes, all lists of wide strings, all lengths, all endianness arguments, both wchar_t widths", "why_tests_cant": "String contents and lengths are unbounded, padding depends on the longest element.", "anchors": ["src/dtype.cpp:write_values<std::wstring>", "src/dtype.cpp:read_values<std::wstring>", "include/npy/npy.h:tensor<std::wstring>::dtype"]}
{"id": "C04", "title": "Saved files conform to the NPY format", "statement": "The bytes npy::save produces are the magic string, version 1.0, the length field, an ASCII Python dict literal with the keys descr, fortran_order and shape as NumPy would print them, space padding ended by a newline, then the data; the data starts at a multiple of 64 bytes.", "quantifier": "all dtypes, shapes, storage orders, endianness arguments", "why_tests_cant": "Conformance is about every shape, including 0-d, 1-d and padding boundary cases where the text length hits a multiple of 64.", "anchors": ["include/npy/npy.h:write_npy_header", "include/npy/npy.h:save"]}
{"id": "C05", "title": "Data is written in the byte order named by descr", "statement": "For each saved element the payload holds the element's components in order, each in the byte order that the descr field names, whatever the byte order of the machine. (False for complex types when the requested order is not the host's: the whole element is reversed, which swaps real and imaginary parts.)", "quantifier": "all element types, all values, all endianness arguments, both hosts", "why_tests_cant": "Every bit pattern and both host byte orders matter; the tests run on one host and compare with one file per type.", "anchors": ["src/dtype.cpp:write_values"]}
{"id": "C06", "title": "Files move between hosts", "statement": "A file saved on a machine of either byte order loads to the same values on a machine of either byte order, for every real element type. (False for complex types.)", "quantifier": "all real element types, values, shapes, endianness arguments, pairs of host byte orders", "why_tests_cant": "No CI host is big-endian; exchanges between hosts cannot be run.", "anchors": ["src/dtype.cpp:write_values", "src/dtype.cpp:read_values", "include/npy/npy.h:native_endian"]}
{"id": "C07", "title": "peek agrees with what was saved and with load", "statement": "npy::peek on the bytes of a saved tensor returns exactly the dtype, shape and storage order of the tensor and the resolved endianness, and whenever load succeeds on any stream, the shape and order of the tensor are those peek reports on the same bytes.", "quantifier": "all tensors for the first half, all byte strings for the second", "why_tests_cant": "The second half ranges over arbitrary untrusted bytes.", "anchors": ["include/npy/npy.h:peek", "include/npy/npy.h:load", "include/npy/npy.h:tensor::load"]}
{"id": "C08", "title": "Loading with the wrong element type is rejected", "statement": "If a stream's header names a dtype other than that of the requested tensor type, load throws std::runtime_error and never returns a tensor; conversely every tensor returned by load has the requested dtype.", "quantifier": "all byte strings, all element types", "why_tests_cant": "Any header, not only well-formed ones, must not lead to reinterpretation of data.", "anchors": ["include/npy/npy.h:tensor::load", "src/npy.cpp:header_info::header_info"]}
{"id": "C09", "title": "The header parser accepts every layout of the dictionary", "statement": "A dictionary with the three keys in any order, with any amount of white space after braces, colons and commas, and any trailing bytes after the closing brace is parsed to the values it denotes; in particular every header NumPy writes is.", "quantifier": "all key orders, white-space strings, shapes, dtypes, trailing padding", "why_tests_cant": "The set of layouts is infinite.", "anchors": ["src/npy.cpp:header_info::header_info", "src/npy.cpp:skip_whitespace", "src/npy.cpp:read_shape", "src/npy.cpp:read_bool"]}
{"id": "C10", "title": "Header parsing always terminates", "statement": "For every byte string, constructing a header_info from it returns or throws; it never loops forever.", "quantifier": "all byte strings, debug and release", "why_tests_cant": "The loop condition tests for a closing brace and is not bounded by end of input; termination on every malformed input is a universal claim.", "anchors": ["src/npy.cpp:header_info::header_info"]}
{"id": "C11", "title": "Unknown dtype strings are rejected", "statement": "A header whose descr is not one of the supported type strings makes load throw. (False: an unknown type string is silently taken as INT8 in native order, so a tensor<int8_t> load of e.g. '<f2' data succeeds.)", "quantifier": "all dtype strings", "why_tests_cant": "All strings outside the table must be rejected.", "anchors": ["src/dtype.cpp:from_dtype", "src/npy.cpp:header_info::header_info"]}
{"id": "C12", "title": "Headers with missing keys are rejected", "statement": "A dictionary lacking descr, fortran_order or shape makes load throw. (False: a missing fortran_order or descr leaves an indeterminate member that load then reads, and a missing shape is taken as 0-d.)", "quantifier": "all dictionaries missing a key", "why_tests_cant": "Every subset and ordering of keys.", "anchors": ["src/npy.cpp:header_info::header_info", "include/npy/npy.h:tensor::load"]}
{"id": "C13", "title": "Truncated data is rejected", "statement": "If fewer data bytes follow the header than the shape calls for, load throws. (False: no short read is ever reported; the missing elements come back as zeros, or as all-ones bytes on the byte-swapping path and for strings. The outcome is characterised exactly.)", "quantifier": "all tensors and all truncation points", "why_tests_cant": "Every prefix of every file.", "anchors": ["src/dtype.cpp:read_values", "include/npy/npy.h:tensor::load"]}
{"id": "C14", "title": "Bad magic or version is rejected", "statement": "A stream whose first six bytes are not the NPY magic, or whose version is neither 1.0 nor 2.0, does not load. (In debug builds a bad magic aborts; in release builds the magic is not checked. An unsupported version always throws in release.)", "quantifier": "all byte strings of at least ten bytes", "why_tests_cant": "All byte strings.", "anchors": ["include/npy/npy.h:read_npy_header"]}
{"id": "C15", "title": "to_dtype and from_dtype are inverse and history independent", "statement": "from_dtype(to_dtype(t, e)) is t with the order resolved for e, for every fixed-size type and endianness, and the answer of from_dtype for a string never depends on the strings asked before even though unknown strings are inserted in a global table.", "quantifier": "all types, endianness values, all histories of earlier from_dtype calls", "why_tests_cant": "History independence ranges over all call sequences.", "anchors": ["src/dtype.cpp:to_dtype", "src/dtype.cpp:from_dtype"]}
{"id": "C16", "title": "NATIVE means the host's byte order", "statement": "Saving with NATIVE produces exactly the bytes saving with the host's own order produces, for fixed-size and Unicode tensors.", "quantifier": "all tensors, both hosts", "why_tests_cant": "All values, both hosts.", "anchors": ["include/npy/npy.h:native_endian", "src/dtype.cpp:to_dtype", "src/dtype.cpp:write_values"]}
{"id": "C17", "title": "Saved files determine the tensor", "statement": "Two tensors of one element type saved with one endianness to identical bytes are equal in shape, order and values (dictionary text at most 245 characters).", "quantifier": "all pairs of tensors", "why_tests_cant": "Injectivity over an infinite domain.", "anchors": ["include/npy/npy.h:save", "include/npy/npy.h:write_npy_header"]}
{"id": "C18", "title": "The shape in the header is read back exactly", "statement": "The text written for a shape is parsed back to that shape, for every shape of 64-bit extents. Out-of-range or non-numeric extents are not reported: the shape is cut before the offending number, and a negative extent wraps modulo 2^64.", "quantifier": "all shapes; all shape texts", "why_tests_cant": "All 64-bit extents and ranks.", "anchors": ["src/npy.cpp:read_shape", "include/npy/npy.h:write_npy_header"]}
{"id": "C19", "title": "peek and load consume exactly the header and the data", "statement": "After load of a saved tensor from a stream holding further bytes, the stream is positioned at the first byte after the tensor, so consecutive tensors in one stream load in sequence.", "quantifier": "all tensors, all trailing bytes, all sequences of tensors", "why_tests_cant": "All concatenations.", "anchors": ["include/npy/npy.h:load", "include/npy/npy.h:read_npy_header", "src/dtype.cpp:read_values"]}
{"id": "C20", "title": "size() equals the product of shape() in every history", "statement": "After any sequence of construction, element writes, copy_from, move_from, copies, assignments and loads, size() is the product of the extents modulo 2^64, and shape, order and dtype only change by assignment. A moved-from tensor violates it (shape() is empty, product 1, but size() is 0).", "quantifier": "all operation histories", "why_tests_cant": "Histories are unbounded.", "anchors": ["include/npy/npy.h:tensor"]}
{"id": "C21", "title": "In-range indices address inside the buffer in the documented order", "statement": "For a tensor whose element count fits 64 bits, an in-range multi-index ravels to the row-major position (sum of index times product of later extents), or column-major when fortran_order, and the position is below size().", "quantifier": "all shapes of any rank, all in-range indices, both orders", "why_tests_cant": "All shapes, ranks.", "anchors": ["include/npy/npy.h:tensor::ravel", "include/npy/npy.h:tensor::get_ravel_strides"]}
{"id": "C22", "title": "Indexing is a bijection", "statement": "Distinct in-range multi-indices address distinct elements and every element is addressed by one.", "quantifier": "all shapes, both orders", "why_tests_cant": "All pairs of indices.", "anchors": ["include/npy/npy.h:tensor::ravel"]}
{"id": "C23", "title": "get/set laws", "statement": "After set(i, v), get(i) is v and get(j) is unchanged for every other valid index j; shape, order, dtype and size are unchanged; an invalid index throws and changes nothing.", "quantifier": "all tensors, indices and values", "why_tests_cant": "All pairs of indices.", "anchors": ["include/npy/npy.h:tensor::set", "include/npy/npy.h:tensor::get", "include/npy/npy.h:tensor::ravel"]}
{"id": "C24", "title": "Negative indices count from the end", "statement": "For the signed-index API an index -k with 1 <= k <= extent addresses extent-k, as in NumPy, and any component below -extent or at or above extent throws std::invalid_argument.", "quantifier": "all shapes with extents below 2^63, all int32 indices", "why_tests_cant": "All combinations of sign per axis.", "anchors": ["include/npy/npy.h:tensor::ravel"]}
{"id": "C25", "title": "Wrong-rank or out-of-range indices throw and never touch memory", "statement": "Signed-index access with the wrong number of indices or an out-of-range component throws std::invalid_argument. The size_t vector overload does not check the length: a short index reads past its end (undefined behaviour) and a long one is silently accepted.", "quantifier": "all tensors, all index vectors", "why_tests_cant": "All index vectors.", "anchors": ["include/npy/npy.h:tensor::ravel", "include/npy/npy.h:tensor::operator()"]}
{"id": "C26", "title": "copy_from / move_from are all-or-nothing", "statement": "copy_from and move_from with a source of length size() replace the values by the source and keep the shape; with any other length they throw std::invalid_argument and leave the tensor unchanged.", "quantifier": "all tensors and sources", "why_tests_cant": "All lengths.", "anchors": ["include/npy/npy.h:tensor::copy_from", "include/npy/npy.h:tensor::move_from"]}
{"id": "C27", "title": "Memory safety of element access", "statement": "When the product of the extents does not overflow 64 bits, no accepted index is outside the values buffer. When it overflows, accepted indices can lie outside the buffer (a counterexample exists).", "quantifier": "all shapes, all accepted indices", "why_tests_cant": "Overflowing shapes cannot be enumerated and involve huge extents.", "anchors": ["include/npy/npy.h:tensor::ravel", "include/npy/npy.h:tensor::get_size"]}
{"id": "C28", "title": "npy::boolean conversions", "statement": "A default-constructed npy::boolean is false and stores 0. Storing a C++ bool in npy::boolean, by construction or assignment, and converting back gives the same bool and the stored byte is 0 or 1; construction from a number gives true exactly for positive values whereas assignment gives true for every non-zero value, so they disagree exactly on negative numbers and, of floating-point arguments, on NaNs; any stored byte other than 0, such as one loaded from a file, converts to true.", "quantifier": "all bools, integers and bit patterns of floating-point numbers", "why_tests_cant": "All integers and floating-point numbers.", "anchors": ["include/npy/npy.h:boolean"]}
{"id": "C29", "title": "Custom shape metadata is taken from the header alone", "statement": "The number of elements allocated and filled by load depends only on the header: for every stream on which load returns, values().size() is the product of the shape modulo 2^64.", "quantifier": "all byte strings", "why_tests_cant": "All untrusted inputs.", "anchors": ["include/npy/npy.h:tensor::load", "include/npy/npy.h:tensor::get_size"]}
{"id": "C30", "title": "NPZ archives behave as a map (stored)", "statement": "For every sequence of writes to an NPZ writer with STORED compression followed by close, a reader on the resulting bytes returns, for every written name, the tensor most recently written under that name, as long as the archive before its directory and every NPY file are under 4 GiB, there are fewer than 65536 entries and names are shorter than 65536 bytes.", "quantifier": "all sequences of (name, tensor) writes", "why_tests_cant": "All histories, names (with or without .npy suffix, duplicates) and sizes.", "anchors": ["include/npy/npy.h:npzstringwriter::write", "src/npz.cpp:write_file", "src/npz.cpp:close", "src/npz.cpp:read_entries", "src/npz.cpp:read_file"]}
{"id": "C31", "title": "NPZ archives behave as a map (deflated)", "statement": "The same as C30 with DEFLATED compression, for tensors whose NPY files have a safe size (at most 32768 bytes, or at most 1 MiB and not between 1 and 8127 bytes more than a multiple of 32768). With files up to 1 MiB a read gives the tensor most recently written under the name or throws std::runtime_error; it never gives anything else. (Without the bound the claim is false, see C52.)", "quantifier": "all sequences of writes; where data are compressed or decompressed: on little-endian hosts (big-endian ones: C77)", "why_tests_cant": "All byte contents go through the compressor.", "anchors": ["src/zip.cpp:npy_deflate", "src/zip.cpp:npy_inflate", "src/npz.cpp:write_file", "src/npz.cpp:read_file"]}
{"id": "C32", "title": "Close semantics of NPZ writers", "statement": "close() is idempotent; a write after close throws std::runtime_error and does not change the output; the destructor produces the same bytes as an explicit close.", "quantifier": "all histories of writes and closes", "why_tests_cant": "All interleavings of writes and closes.", "anchors": ["src/npz.cpp:npzstringwriter::close", "include/npy/npy.h:npzstringwriter::write", "src/npz.cpp:npzfilewriter::close"]}
{"id": "C33", "title": "A rejected write leaves the archive as it was", "statement": "A write that throws (closed writer, unsupported compression method) adds no bytes and no directory entry, so the archive still holds exactly the earlier entries.", "quantifier": "all histories with failing writes at any place", "why_tests_cant": "All positions of the failing write.", "anchors": ["src/npz.cpp:write_file"]}
{"id": "C34", "title": "File and string writers produce the same bytes", "statement": "The same sequence of operations on npzfilewriter (on a healthy disk) and npzstringwriter gives identical bytes, and the two readers give identical answers on archives the library wrote.", "quantifier": "all operation sequences", "why_tests_cant": "All sequences.", "anchors": ["src/npz.cpp:npzfilewriter", "src/npz.cpp:npzstringwriter", "src/npz.cpp:npzfilereader", "src/npz.cpp:npzstringreader"]}
{"id": "C35", "title": "The .npy suffix rule", "statement": "The stored entry name is the given name, with .npy appended exactly when it does not already end in .npy, so that writing 'x' and 'x.npy' name the same entry.", "quantifier": "all names", "why_tests_cant": "All strings.", "anchors": ["include/npy/npy.h:npzstringwriter::write"]}
{"id": "C36", "title": "contains agrees with read", "statement": "contains(name) is true exactly when read(name) can find an entry. (False: a tensor written as 'x' can be read as 'x' but contains('x') is false; the exact relation is proved.)", "quantifier": "all archives and names", "why_tests_cant": "All names.", "anchors": ["src/npz.cpp:npzstringreader::contains", "src/npz.cpp:read_file"]}
{"id": "C37", "title": "keys() lists exactly the entries, sorted", "statement": "keys() on an archive the library wrote is the byte-wise sorted list of the stored names with one occurrence per write, duplicates included.", "quantifier": "all write histories", "why_tests_cant": "All histories.", "anchors": ["src/npz.cpp:read_entries", "src/npz.cpp:npzstringreader::keys"]}
{"id": "C38", "title": "Reading does not depend on earlier successful reads", "statement": "The result of read(name) on an archive the library wrote is the same whatever sequence of reads, peeks, contains and failed look-ups of absent names was made before.", "quantifier": "all archives, all call histories", "why_tests_cant": "All histories.", "anchors": ["src/npz.cpp:read_file"]}
{"id": "C39", "title": "Whatever a reader returns has the recorded checksum and agreeing headers", "statement": "For every byte string, valid or hostile: if reading an entry returns bytes, then their CRC-32 equals the one in the directory entry, the local header has the same name, checksum, method and sizes as the directory entry (32-bit fields, or the ZIP64 extra field where a field says so), and the bytes are those that follow the local header, inflated if the method says so. Their number is the recorded uncompressed size. (The last sentence is false: that size is only compared between the headers.)", "quantifier": "all byte strings, all names", "why_tests_cant": "All malformed archives.", "anchors": ["src/npz.cpp:read_file", "src/npz.cpp:file_entry::check"]}
{"id": "C40", "title": "Corruption of stored data within 32 bits is always detected", "statement": "If the payload of a stored entry is changed within a window of at most 32 consecutive bits, reading the entry throws std::runtime_error. (32 is the limit: in any five bytes of any payload 33 consecutive bits can be changed so that the entry reads without an error.)", "quantifier": "all archives, payloads, positions and error patterns", "why_tests_cant": "2^32 patterns at every position of every payload.", "anchors": ["src/zip.cpp:npy_crc32", "src/npz.cpp:read_file", "src/miniz/miniz.cpp:mz_crc32"]}
{"id": "C41", "title": "npy_crc32 is the standard CRC-32", "statement": "For every byte string shorter than 4 GiB the checksum is the CRC-32 of ISO-HDLC (reflected polynomial 0xEDB88320, initial and final complement), defined bit by bit; feeding data in pieces gives the same value.", "quantifier": "all byte strings and all splits", "why_tests_cant": "All inputs.", "anchors": ["src/miniz/miniz.cpp:mz_crc32", "src/zip.cpp:npy_crc32"]}
{"id": "C42", "title": "Archives with 65536 or more entries", "statement": "Every entry written can be read back whatever their number. (False: the entry count is stored modulo 65536 and the reader sees only that many entries, without an error.)", "quantifier": "all entry counts", "why_tests_cant": "Needs 65536 entries; for every count above.", "anchors": ["src/npz.cpp:close", "src/npz.cpp:read_entries"]}
{"id": "C43", "title": "Payloads of 4 GiB and more", "statement": "A tensor file of any size survives the archive. (False: a stored payload is cut to its length modulo 2^32, the checksum is computed on the cut data, and the reader returns the cut data without an error.)", "quantifier": "all payload lengths", "why_tests_cant": "Needs more than 4 GiB of memory per test; for all lengths.", "anchors": ["src/npz.cpp:write_file", "src/zip.cpp:npy_crc32"]}
{"id": "C44", "title": "ZIP64 extra fields are read back as written", "statement": "For every directory entry with 64-bit sizes and offset, writing its central (or local) header and reading it back returns the same entry, in particular for values above 0x8FFFFFFF which go through the ZIP64 extra field.", "quantifier": "all entries with 64-bit fields and names shorter than 65536", "why_tests_cant": "All 64-bit values around the thresholds.", "anchors": ["src/npz.cpp:write_central_directory_header", "src/npz.cpp:read_central_directory_header", "src/npz.cpp:write_zip64_extra", "src/npz.cpp:read_zip64_extra", "src/npz.cpp:write_local_header", "src/npz.cpp:read_local_header"]}
{"id": "C45", "title": "Written archives follow the ZIP layout", "statement": "The archive bytes are a sequence of local headers with their data, followed by a central directory whose offsets point at the local headers and an end record giving the directory's place, size and count, with every length field equal to the number of bytes it describes. (False for entries using ZIP64: the extra-field length omits the four bytes of tag and size.)", "quantifier": "all write histories", "why_tests_cant": "All histories.", "anchors": ["src/npz.cpp:write_local_header", "src/npz.cpp:write_central_directory_header", "src/npz.cpp:write_end_of_central_directory", "src/npz.cpp:determine_extra_length"]}
{"id": "C46", "title": "Archives need the end record as their last 22 bytes", "statement": "Opening any byte string of at least 22 bytes whose last 22 bytes do not start with the end-of-directory signature throws std::runtime_error; in particular archives with a comment are rejected.", "quantifier": "all byte strings", "why_tests_cant": "All byte strings.", "anchors": ["src/npz.cpp:read_entries", "src/npz.cpp:assert_sig"]}
{"id": "C47", "title": "Failures of the output are reported", "statement": "If the device refuses bytes during save or an archive write, the caller gets an exception. (False: save and the NPZ writers return normally whatever the stream state.)", "quantifier": "all tensors and all failure points", "why_tests_cant": "All failure points of the device.", "anchors": ["include/npy/npy.h:save", "src/npz.cpp:write_file", "src/npz.cpp:close"]}
{"id": "C48", "title": "Asking for an absent name throws and does no harm", "statement": "read or peek with a name that is not stored, with or without suffix, throws std::invalid_argument and leaves the reader able to read every entry as before.", "quantifier": "all archives and names", "why_tests_cant": "All histories.", "anchors": ["src/npz.cpp:read_file"]}
{"id": "C49", "title": "An error on one entry does not affect others", "statement": "After read throws for one damaged entry, the other entries still read correctly. (False: a read that runs past the end of the data leaves the stream failed for good and later reads of good entries are undefined.)", "quantifier": "all archives and call sequences", "why_tests_cant": "All histories.", "anchors": ["src/npz.cpp:read_file"]}
{"id": "C50", "title": "Parsing headers from several threads", "statement": "Two threads loading different files at the same time each get their own header. (False: tokens pass through one global buffer; there is a schedule in which one thread receives the other's token. If each token read runs undisturbed, each thread gets its own.)", "quantifier": "all schedules", "why_tests_cant": "All interleavings.", "anchors": ["src/npy.cpp:BUFFER", "src/npy.cpp:read_to"]}
{"id": "C51", "title": "Inflating hostile data terminates or throws", "statement": "npy_inflate returns or throws on every input. (False in the bundled miniz: a crafted block makes the decoder emit output for ever.)", "quantifier": "all byte strings; where data are compressed or decompressed: on little-endian hosts (big-endian ones: C77)", "why_tests_cant": "All inputs; non-termination cannot be observed by a test.", "anchors": ["src/miniz/miniz.cpp:tinfl_decompress", "src/zip.cpp:npy_inflate"]}
{"id": "C52", "title": "Inflate inverts deflate", "statement": "npy_inflate(npy_deflate(b)) = b for every byte string b of a safe size (at most 32768 bytes, or at most 1 MiB and not between 1 and 8127 bytes more than a multiple of 32768); when b or npy_deflate(b) has at most 1 MiB the result is b or std::runtime_error is thrown, never other bytes, undefined behaviour or an endless loop. (For other sizes it can fail: 32769 zero bytes are compressed to a standard stream, and npy_inflate throws on that stream.)", "quantifier": "all byte strings; where data are compressed or decompressed: on little-endian hosts (big-endian ones: C77)", "why_tests_cant": "All inputs.", "anchors": ["src/zip.cpp:npy_deflate", "src/zip.cpp:npy_inflate", "src/miniz/miniz.cpp:tdefl_compress", "src/miniz/miniz.cpp:tinfl_decompress"]}
{"id": "C53", "title": "Path-based save, load and peek", "statement": "On a file system, save(path, t) followed by load(path) gives t back and leaves every other file alone; a path that cannot be opened makes save, load and peek throw std::invalid_argument without touching any file. If the tensor's own dtype function throws, save(path) passes the exception on, leaves the file empty whatever it held, and leaves every other file alone.", "quantifier": "all file systems states, paths, tensors", "why_tests_cant": "All file-system states.", "anchors": ["include/npy/npy.h:save(path)", "include/npy/npy.h:load(path)", "src/npy.cpp:peek(path)"]}
{"id": "C54", "title": "Archives on paths", "statement": "Opening an npzfilewriter on a path that can be opened, writing tensors and closing leaves on that path an archive from which an npzfilereader on the same path reads every tensor back, and every other file is untouched. A reader on a path that cannot be opened throws std::invalid_argument. (A writer on a path that cannot be opened reports nothing, at any call, and leaves no file: the general claim that failures are reported is false.)", "quantifier": "all file systems states, paths, sequences of tensors", "why_tests_cant": "All file-system states and histories.", "anchors": ["src/npz.cpp:npzfilewriter", "src/npz.cpp:npzfilereader"]}
{"id": "C55", "title": "Inflate accepts every standard stream", "statement": "Every DEFLATE stream that follows RFC 1951, from whatever compressor, is expanded by npy_inflate (and so by reading a deflated archive entry) to the bytes it stands for. (True for output of a safe size: at most 32768 bytes, or at most 1 MiB and not between 1 and 8127 bytes more than a multiple of 32768; and, if the compressed data or the output are at most 1 MiB, for any output when at least 8 bytes follow the stream; false in general: highly compressible data over 32768 bytes whose last symbols are buffered when the window is full are rejected with std::runtime_error. On streams up to 1 MiB the answer is never wrong data; a larger stream can lose a part of a 1 MiB chunk of the compressed data, and then npy_inflate can return data with more than a million bytes missing, without an error.)", "quantifier": "all standard streams (all block types, codes, sizes); where data are compressed or decompressed: on little-endian hosts (big-endian ones: C77)", "why_tests_cant": "All streams and compressors.", "anchors": ["src/zip.cpp:npy_inflate", "src/miniz/miniz.cpp:mz_inflate", "src/miniz/miniz.cpp:tinfl_decompress"]}
{"id": "C56", "title": "Memory safety of inflate", "statement": "npy_inflate never reads or writes outside its buffers and never uses uninitialised bytes. (True of standard streams and their prefixes; false of hostile ones: a match that reaches back before the beginning copies bytes never written.)", "quantifier": "all byte strings; where data are compressed or decompressed: on little-endian hosts (big-endian ones: C77)", "why_tests_cant": "All inputs.", "anchors": ["src/zip.cpp:npy_inflate", "src/miniz/miniz.cpp:tinfl_decompress"]}
{"id": "C57", "title": "Truncated compressed data are rejected", "statement": "A standard DEFLATE stream that lost bytes at its end, among them bits of its last block, makes npy_inflate throw std::runtime_error; no part of the data is returned.", "quantifier": "all standard streams, all cut points; where data are compressed or decompressed: on little-endian hosts (big-endian ones: C77)", "why_tests_cant": "All cut points of all streams.", "anchors": ["src/zip.cpp:npy_inflate", "src/miniz/miniz.cpp:mz_inflate"]}
{"id": "C58", "title": "Deflate makes standard streams", "statement": "For every input under 4 GiB npy_deflate terminates without throwing, without undefined behaviour and without failing an assertion of its own or of miniz (one is not covered: that the output buffer has room left after a last block which stands for more than 32510 bytes and takes exactly 85180), and returns a DEFLATE stream that follows RFC 1951 and stands for exactly the input, at most three times as long as the input plus nine bytes; whatever the uninitialised memory of the compressor holds.", "quantifier": "all byte strings under 4 GiB, all contents of uninitialised memory; where data are compressed or decompressed: on little-endian hosts (big-endian ones: C77)", "why_tests_cant": "All inputs and all memory contents.", "anchors": ["src/zip.cpp:npy_deflate", "src/miniz/miniz.cpp:mz_deflate", "src/miniz/miniz.cpp:tdefl_compress", "src/miniz/miniz.cpp:tdefl_compress_normal", "src/miniz/miniz.cpp:tdefl_flush_block", "src/miniz/miniz.cpp:tdefl_optimize_huffman_table", "src/miniz/miniz.cpp:tdefl_start_dynamic_block", "src/miniz/miniz.cpp:tdefl_find_match"]}
{"id": "C59", "title": "Compression and archives are reproducible", "statement": "The bytes npy_deflate returns for an input under 4 GiB are a function of the input alone: they depend neither on what the memory of the compressor held nor on whether asserts are compiled in. So the same calls on the same NPZ writer, with any compression method, always have the same outcomes and leave the same archive, byte for byte, if every NPY file is under 4 GiB.", "quantifier": "all byte strings under 4 GiB, all contents of uninitialised memory, all sequences of calls on a writer; where data are compressed or decompressed: on little-endian hosts (big-endian ones: C77)", "why_tests_cant": "All memory contents: uninitialised memory cannot be enumerated by tests.", "anchors": ["src/zip.cpp:npy_deflate", "src/miniz/miniz.cpp:tdefl_init", "src/miniz/miniz.cpp:tdefl_compress_normal", "src/miniz/miniz.cpp:tdefl_find_match", "src/npz.cpp:write_file"]}
{"id": "C60", "title": "Tensor classes of the user are saved and loaded through the same contract", "statement": "npy::save of an object of any tensor class makes an NPY file with the shape, storage order and dtype string the object reports and the bytes its save method writes; npy::load<T> of that file, for any class T, gives T's load method exactly that dtype, byte order, storage order, shape and string length, with the stream at the first data byte; npy::tensor<T> gets no special treatment; exceptions of the object's own methods reach the caller (with nothing written, or the archive writer unchanged); and in an NPZ archive holding objects of any mixture of classes read<T>(name) does what load<T> does on the file of the object last written under the name.", "quantifier": "all tensor classes (arbitrary shape/ndim/dtype/fortran_order/save/load behaviour), all objects, all dtype strings, all shapes below 2^64 with header text up to 245 characters, all mixtures of classes in an archive, all sequences of calls on the reader; where data are compressed or decompressed: on little-endian hosts (big-endian ones: C77)", "why_tests_cant": "Tests know only the classes they define; the template contract is for classes nobody has written yet.", "anchors": ["include/npy/npy.h:save", "include/npy/npy.h:load", "include/npy/npy.h:npzwriter::write", "include/npy/npy.h:npzfilereader::read", "examples/custom_tensors/custom.cpp"]}
{"id": "C61", "title": "The custom matrix class of the example keeps every coefficient", "statement": "A matrix saved with the EigenTensor class of examples/custom_tensors, in either storage order, and loaded with either storage order, has the same extents and the same coefficient at every (row, column); its file is the file of the npy::tensor with the same elements, so matrices and tensors can be exchanged; the whole example program returns its matrices. (The class does not check the dtype: a double file loads as a float matrix without an error, where npy::tensor throws; a 0-d file is undefined behaviour.)", "quantifier": "all extents, all coefficients, both storage orders on both sides, both float types, all endianness arguments, both host byte orders", "why_tests_cant": "The example runs on three fixed matrices; transposition errors show only on non-square or large ones.", "anchors": ["examples/custom_tensors/custom.cpp:EigenTensor", "include/npy/npy.h:save", "include/npy/npy.h:load"]}
{"id": "C62", "title": "Both template forms of read give the same tensor", "statement": "On an archive reader, read<T, TENSOR>(name) gives what read<TENSOR<T>>(name) gives. (True of npzstringreader; false at this commit of npzfilereader, whose two-argument form has no return statement: it is undefined behaviour exactly when the one-argument form returns, and throws the same exception when that throws.)", "quantifier": "all archives written by the library, all names, all tensor classes, all sequences of earlier calls on the reader", "why_tests_cant": "The test suite instantiates the two-argument form only on npzstringreader; undefined behaviour need not show in a test that does instantiate it.", "anchors": ["include/npy/npy.h:npzstringreader::read", "include/npy/npy.h:npzfilereader::read"]}
{"id": "C63", "title": "Visibly invalid compressed data are rejected", "statement": "npy_inflate throws std::runtime_error on data that, after any number of legal DEFLATE blocks, break the format in a block header: the reserved block type, a stored block whose length fields contradict each other, a dynamic block with an over-subscribed or incomplete code, with a repetition of a length that does not exist or with more code lengths than announced, whatever follows (if the data or the output up to there are at most 1 MiB).", "quantifier": "all byte strings that begin with any sequence of legal blocks followed by an illegal header; where data are compressed or decompressed: on little-endian hosts (big-endian ones: C77)", "why_tests_cant": "All malformed streams: the position, the preceding blocks and the kind of fault combine without bound.", "anchors": ["src/miniz/miniz.cpp:tinfl_decompress", "src/miniz/miniz.cpp:mz_inflate", "src/zip.cpp:npy_inflate"]}
{"id": "C64", "title": "Replaced entry data are never silently accepted", "statement": "If in an archive made by the library the stored data of an entry (compressed or not) are overwritten by any data of the same length, the archive still opens, every other name reads as before, and reading or peeking at the entry throws the decompressor's exception, throws std::runtime_error because the CRC-32 differs, or gives exactly what load gives for data that have the CRC-32 of the original file.", "quantifier": "all archives, both methods, all entries, all replacement data, all earlier calls on the reader; where data are compressed or decompressed: on little-endian hosts (big-endian ones: C77)", "why_tests_cant": "All corruptions.", "anchors": ["src/npz.cpp:read_file", "src/zip.cpp:npy_crc32", "src/zip.cpp:npy_inflate"]}
{"id": "C65", "title": "peek on an archive describes the tensor last written under the name", "statement": "For archives made by the library, after any calls on a string or file reader, peek(name) reports the element type, byte order, memory order, shape and string length of the tensor most recently written under name, and throws std::invalid_argument if there is none (STORED: any size under 4 GiB; DEFLATED: files of a safe size, see C52).", "quantifier": "all sequences of writes of all storable tensors, all names, both compression methods, all call histories of the reader; where data are compressed or decompressed: on little-endian hosts (big-endian ones: C77)", "why_tests_cant": "Unbounded sequences of writes and reader calls.", "anchors": ["src/npz.cpp:npzfilereader::peek", "src/npz.cpp:npzstringreader::peek", "include/npy/npy.h:peek"]}
{"id": "C66", "title": "is_open and close of file readers and writers", "statement": "is_open() of npzfilereader and npzfilewriter holds exactly if the file could be opened and close() has not been called; keys() and contains() of a reader are not affected by close(). Reading from a closed reader is rejected. (The last part is false: reading or peeking a stored name on a closed reader is undefined behaviour, because the signature check compares an uninitialised buffer; only absent names throw.)", "quantifier": "all readers and writers, all sequences of calls including any number of close() calls, all names", "why_tests_cant": "All call histories; the undefined behaviour need not show in a test.", "anchors": ["src/npz.cpp:npzfilereader::is_open", "src/npz.cpp:npzfilereader::close", "src/npz.cpp:npzfilewriter::is_open", "src/npz.cpp:assert_sig"]}
{"id": "C67", "title": "Archives made by NumPy and other programs", "statement": "Archives as numpy.savez and numpy.savez_compressed write them (Python's local headers with ZIP64 extra field in both historical forms, entries named key.npy, versions up to 4.5) are read: each array by its key or by key.npy gives what load gives on its NPY file (compressed: files of a safe size (C52) always, others correctly or with runtime_error), in any order of reads. More generally every ZIP archive of files below 4 GiB whose directory has no extra fields, comments (but for the last file) or ZIP64 end record is opened, keys() lists its names, the last file of a name is the one read, and its data are unpacked (method 8) or taken as they are (any other method), checked against the CRC-32 and loaded. Any ZIP archive can be opened and its files read. (The last sentence is false: extra fields other than ZIP64 in the directory, comments of files other than the last, and records with data descriptors make open or read throw runtime_error.)", "quantifier": "all archives in these classes, all numbers of files, names, time stamps, attributes and flags, all histories of calls; where data are compressed or decompressed: on little-endian hosts (big-endian ones: C77)", "why_tests_cant": "All archives of other writers; a test has a few sample files from one writer.", "anchors": ["src/npz.cpp:read_central_directory_header", "src/npz.cpp:read_local_header", "src/npz.cpp:read_zip64_extra", "src/npz.cpp:read_file"]}
{"id": "C68", "title": "Decompression never invents data", "statement": "For every byte string of at most 1 MiB, whoever made it, npy_inflate either throws std::runtime_error or returns exactly the bytes that RFC 1951 says the data stand for, in bounded time and without undefined behaviour, unless the data break the format in the middle of a block in one of four listed ways (bits that are no code, the symbols 286/287/30/31, a match reaching back before the beginning, 287 or 288 literal/length codes). No data that follow the standard, and no prefix of such data, are among the excepted; the standard gives every byte string at most one meaning. (For larger data the claim is false, see C55; for the excepted data too, see C51 and C56.)", "quantifier": "all byte strings up to 1 MiB; where data are compressed or decompressed: on little-endian hosts (big-endian ones: C77)", "why_tests_cant": "All inputs; fuzzing reaches only a few deeply malformed streams.", "anchors": ["src/miniz/miniz.cpp:tinfl_decompress", "src/miniz/miniz.cpp:mz_inflate", "src/zip.cpp:npy_inflate"]}
{"id": "C69", "title": "Element assignments: the last one wins", "statement": "After any sequence of element assignments to a tensor - set() and operator() with signed indices, operator() with a vector of unsigned indices, stores through begin() or data() - where out-of-range indices throw and the exception is caught, every element holds the value of the last assignment to it (or its earlier value if there was none), every other element is untouched, shape, order and data type stay, and no other tensor changes. In particular a loop that assigns f(i) for every multi-index i leaves exactly the tensor of f, and saving and loading that tensor gives an array whose element at i is f(i).", "quantifier": "all tensors, all programs of element assignments, all f, all loop orders", "why_tests_cant": "Histories of unbounded length over unbounded shapes.", "anchors": ["include/npy/npy.h:tensor::set", "include/npy/npy.h:tensor::operator()", "include/npy/npy.h:tensor::ravel", "include/npy/npy.h:tensor::begin", "include/npy/npy.h:tensor::data"]}
{"id": "C70", "title": "Iteration order", "statement": "Going through a tensor with begin()/end(), data() or values() visits every in-range multi-index exactly once, in storage order: the last index runs fastest, or the first index for FORTRAN order; the k-th value is the element at the k-th multi-index.", "quantifier": "all tensors of all shapes and both orders", "why_tests_cant": "All shapes of any number of axes.", "anchors": ["include/npy/npy.h:tensor::begin", "include/npy/npy.h:tensor::end", "include/npy/npy.h:tensor::data", "include/npy/npy.h:tensor::values"]}
{"id": "C71", "title": "What readers do with any bytes", "statement": "For every byte string, valid archive or not, and whoever made it: opening it as an NPZ reader succeeds exactly if its last 22 bytes are an end record and each of the headers that record points to (count at +8, offset at +16) is a central header whose version and extra field can be used; otherwise the first bad header decides, an exception if there are four bytes at its place and undefined behaviour if not. keys() is the sorted list of the names of those headers. Reading a name, at any time as long as no earlier call ran past the end of the data, has an exactly stated outcome: invalid_argument if no header has it (with or without .npy); else decided by the last header with that name: undefined if it points past the end, runtime_error for an unusable or disagreeing local header, length_error for an absurd size, and otherwise the (decompressed) data if their CRC-32 is right. With the library's decompressor and entries of at most 1 MiB that do not break the format within a block, reading never is undefined, always ends, and returns only data that RFC 1951 assigns to the entry.", "quantifier": "all byte strings, all names, all histories of calls; where data are compressed or decompressed: on little-endian hosts (big-endian ones: C77)", "why_tests_cant": "All inputs; hostile archives cannot be enumerated.", "anchors": ["src/npz.cpp:read_central_directory_header", "src/npz.cpp:read_local_header", "src/npz.cpp:read_zip64_extra", "src/npz.cpp:read_file", "src/npz.cpp:npzfilereader"]}
{"id": "C72", "title": "What peek and load do with any bytes", "statement": "For every byte string, valid NPY file or not: peek succeeds exactly if its header is in a grammar that is stated in full (in release builds any character is taken for a punctuation mark and the magic is not looked at; in builds with assert both are checked), and returns the header that grammar assigns to it: the last of repeated keys counts, unknown type codes mean INT8, missing keys leave the member unassigned. In release builds peek is undefined exactly if the file ends before the dictionary or the value of a descr is empty or missing, and throws for all other files. load succeeds exactly if peek does, fortran_order is present, the type is the one asked for, and the tensor fits into the address space (missing data is no reason to fail); it is undefined exactly if peek is, or fortran_order is missing, or descr is missing and the tensor would fit; otherwise it throws. The loaded values are exactly the ones whose bytes are the data of the file, filled up with 0x00 or 0xFF; strings lose their zero units.", "quantifier": "all byte strings, all element types, release and debug builds where stated", "why_tests_cant": "All inputs; hostile files cannot be enumerated.", "anchors": ["src/npy.cpp:header_info::header_info", "include/npy/npy.h:read_npy_header", "include/npy/npy.h:peek", "include/npy/npy.h:load", "src/dtype.cpp:read_values", "include/npy/npy.h:tensor::load"]}
{"id": "C73", "title": "Compression never leaves its memory", "statement": "Compressing data below 4 GiB, whatever the data and whatever the memory it gets held before, never reads or writes outside of an array (hash chains, dictionary, code tables, Huffman work arrays, literal/match codes, output buffer), fails no assertion (one is not covered: that the output buffer has room left after a last block which stands for more than 32510 bytes and takes exactly 85180), never loops for ever and throws nothing. So a write() to an NPZ archive, at any point of any sequence of calls, fails only if the writer is closed, its method is unsupported or saving the tensor itself fails.", "quantifier": "all byte strings below 4 GiB, all contents of fresh memory, all sequences of calls on a writer; where data are compressed or decompressed: on little-endian hosts (big-endian ones: C77)", "why_tests_cant": "All inputs and memory contents; an overrun of one cell shows in no test without a checker, and then only for the data tried.", "anchors": ["src/miniz/miniz.cpp:tdefl_compress", "src/miniz/miniz.cpp:tdefl_compress_normal", "src/miniz/miniz.cpp:tdefl_optimize_huffman_table", "src/miniz/miniz.cpp:tdefl_compress_lz_codes", "src/zip.cpp:npy_deflate"]}
{"id": "C74", "title": "A process that ends while it saves", "statement": "A saved file, after the process died at any point of save(path, tensor): other files are untouched, and the file is either as it was before or a beginning of the new file; loading such a beginning fails. (False: once the header's closing brace is there the file loads, with zeros or 0xFF for the missing elements and the old contents lost. True: with the bytes ending before the brace load never returns a tensor, throws in release builds when there are at least 10 bytes and is undefined below; otherwise it returns the shape and order being saved and every element whose bytes are there.) An archive, after the process died at any point of the life of its writer: the file is as before or a beginning of the complete archive, and opening it fails if it is incomplete. (True unless the signature of the end record occurs 22 bytes before the cut; false for a tensor whose values are an end record: the archive opens as empty.)", "quantifier": "all storable tensors and byte orders, all file systems, all crash points; all sequences of calls on a writer, methods and codecs", "why_tests_cant": "All crash points times all inputs; a crash at a chosen byte cannot be produced by a unit test of the API.", "anchors": ["include/npy/npy.h:save", "include/npy/npy.h:load", "include/npy/npy.h:write_npy_header", "src/npy.cpp:read_npy_header", "src/npz.cpp:npzfilewriter::close", "src/npz.cpp:npzfilereader::npzfilereader", "src/npz.cpp:read_entries"]}
{"id": "C75", "title": "The sample program of the README", "statement": "The program in README.md and examples/images/images.cpp, with pictures of any height and width whose archive stays below 4 GiB (h*w < 2^28), in any state of a file system in which color.npy and test.npz can be created and read back and there is room: it ends normally, no exception and no undefined behaviour; both headers it peeks at are those of a row-major uint8 array of shape h x w x 3; at the end every pixel of the colour picture has the channels 8*row, 8*col (modulo 256) and 128, every pixel of the gray picture the value computed from those three; color.npy holds the colour picture and no other file is changed.", "quantifier": "all heights and widths within the limit, all contents of the file system, both build types and byte orders, any floating-point rounding", "why_tests_cant": "It is a statement about the composition of nearly the whole API for every size and file system, of which a test runs one.", "anchors": ["examples/images/images.cpp:main", "include/npy/npy.h:tensor", "include/npy/npy.h:save", "include/npy/npy.h:load", "include/npy/npy.h:peek", "include/npy/npy.h:npzfilewriter", "include/npy/npy.h:npzfilereader"]}
{"id": "C76", "title": "Programs that work on files", "statement": "Any program that calls save, load and peek on paths and opens archive writers and readers on paths, one after the other and catching exceptions, behaves as on a map from paths to arrays and archives: load gives the array last saved under the path or throws if the element type is another; a reader gives, for each name, the tensor last written under it in the archive last made on the path, and keys, contains and peek agree with that; paths that cannot be opened and names that are not there give invalid_argument; nothing else is returned and nothing is undefined. (For what can be saved and archived, C01, C03, C30, C31, and on a device that does not fill up; what a writer does on a path that cannot be opened is C54.) Whatever the calls do, files they do not write keep their contents.", "quantifier": "all programs (finite sequences of calls), all initial file systems and access rights, all tensors, names, both compression methods, byte orders and build types; where data are compressed or decompressed: on little-endian hosts (big-endian ones: C77)", "why_tests_cant": "It is about all sequences of calls on any number of paths; a test runs a few.", "anchors": ["include/npy/npy.h:save", "include/npy/npy.h:load", "src/npy.cpp:peek", "src/npz.cpp:npzfilewriter", "src/npz.cpp:npzfilereader"]}
{"id": "C77", "title": "Compressed archives do not depend on the byte order of the host", "statement": "npy_deflate and npy_inflate do the same on hosts of either byte order, so what is compressed on one host is read on every other. (True of decompressing stored blocks. False in general: miniz.h declares every host little-endian. On a big-endian host npy_inflate turns the standard compressed form of \"aba\" into another text with no error; npy_deflate turns seven letters into five bytes that no decoder accepts, with no error; and putting a small tensor into a compressed archive stops a debug build with a failed assertion.)", "quantifier": "both byte orders, all compressed streams of stored blocks, all builds", "why_tests_cant": "Tests run on one kind of host.", "anchors": ["src/miniz/miniz.h:MINIZ_LITTLE_ENDIAN", "src/miniz/miniz.cpp:tinfl_decompress", "src/miniz/miniz.cpp:tdefl_compress_lz_codes", "src/zip.cpp:npy_deflate", "src/zip.cpp:npy_inflate"]}
{"id": "C78", "title": "How large results can be, compared with their data", "statement": "What is read out of data is limited by the size of the data: decompressing gives at most 1032 times the bytes it was given, and load gives no more than the file holds. (True of npy_inflate, for every input of up to 1 MiB that does not break the format in the ways listed under C68. False of load: for every n below 2^63 there is a file of 128 bytes that it turns into an array of n elements, with no error, and an archive of 256 bytes from which read gets such an array.)", "quantifier": "all byte strings given to npy_inflate; all sizes n; where data are compressed or decompressed: on little-endian hosts (big-endian ones: C77)", "why_tests_cant": "It is a bound over all inputs; a test measures a few.", "anchors": ["src/zip.cpp:npy_inflate", "src/miniz/miniz.cpp:tinfl_decompress", "include/npy/npy.h:load", "include/npy/npy.h:tensor.load"]}
{"id": "C79", "title": "Archives when memory runs out", "statement": "When an allocation fails during write, close or read on an archive and the caller catches the exception, the object can go on being used and nothing already written is lost: after any history, closing gives an archive that opens and in which every name gives the tensor last written under it by a call that returned; later reads are not affected by reads that failed. A write that returns has put the whole tensor into the archive. (The first is true wherever memory runs out, also when a whole record without directory entry stays behind. The second is false: when the string stream in which the NPY file is made cannot grow, write returns as usual and the archive holds the beginning of the file with the right CRC-32; it reads with no error, and elements are lost.)", "quantifier": "all histories of writes, closes and reads; all places where an allocation fails in each call; both kinds of writer and reader; both compression methods; all tensors that can be archived (C30, C31); where data are compressed or decompressed: on little-endian hosts (big-endian ones: C77)", "why_tests_cant": "The places where memory runs out cannot be chosen in a test, and their combinations over a history are unlimited.", "anchors": ["include/npy/npy.h:npzstringwriter", "include/npy/npy.h:npzfilewriter", "src/npz.cpp:write_file", "src/npz.cpp:write_zip64_extra", "src/npz.cpp:close", "src/npz.cpp:read_file", "src/npz.cpp:read_local_header", "src/zip.cpp:npy_deflate"]}
{"id": "C80", "title": "Files do not depend on the program's locale", "statement": "What save writes and what load and peek return do not depend on the locale the program runs in (std::locale::global). (True of loading and peeking wherever no digit of the header is directly followed by the locale's thousands separator, for well-formed and malformed headers; of saving exactly if every extent has no more digits than the locale's last group; and a program that saves and loads in one locale gets its tensors back if the separator is not a comma, closing parenthesis or digit. False otherwise: in a locale with a comma, as en_US, load turns every file with at least one axis into a tensor without axes holding only the first element; and a file with an extent of 1000 saved in a German locale is loaded in the C locale with the extent 1. Neither reports an error.)", "quantifier": "all thousands separators and group sizes, equal or not (as in India); all tensors of fixed-size elements and of strings (header of at most 245 characters); all header texts; all archives within the limits of C30", "why_tests_cant": "A test runs in one locale, usually the C locale, in which the property holds.", "anchors": ["include/npy/npy.h:write_npy_header", "src/npy.cpp:read_shape", "src/npy.cpp:header_info::header_info", "include/npy/npy.h:save", "include/npy/npy.h:load"]}
{"id": "C81", "title": "Streams that throw report every failure", "statement": "If the caller enables exceptions on the stream (exceptions(failbit | badbit)), then load and peek throw std::ios_base::failure whenever the data end before they have read what the header asks for, and otherwise do exactly what they do on an ordinary stream: no tensor they return depends on data that are not there, and of a sequence of saved tensors with any number of bytes missing at the end some load throws. save followed by flush returns normally exactly if the device took the whole file, and throws otherwise. (Without the flush it is false for save: a buffered stream may accept a file that its device cannot take.)", "quantifier": "all contents of streams; all tensors of the library's element types and all sequences of them; all truncation points; all capacities of the device; all sizes and behaviours of the stream's buffer", "why_tests_cant": "A test tries some truncation points, devices and buffer sizes.", "anchors": ["include/npy/npy.h:read_npy_header", "include/npy/npy.h:load", "include/npy/npy.h:peek", "include/npy/npy.h:save", "include/npy/npy.h:write_npy_header", "src/dtype.cpp:read_values", "src/dtype.cpp:write_values"]}
{"id": "C82", "title": "Earlier calls leave no trace", "statement": "What a program has loaded, peeked or read from archives before, successfully or not, has no effect on what load, peek, from_dtype and the archive readers do next: outcome, result and stream are those of the same call made first in the program, although the library keeps a global token buffer and a global table of dtype strings that earlier calls change.", "quantifier": "all histories of reading calls in one thread, on all streams and archives; all inputs of the next call; debug and release builds", "why_tests_cant": "All histories and inputs.", "anchors": ["src/npy.cpp:BUFFER", "src/npy.cpp:read_to", "src/npy.cpp:read", "src/dtype.cpp:DTYPE_MAP", "src/dtype.cpp:from_dtype", "include/npy/npy.h:load", "include/npy/npy.h:peek"]}
{"id": "C83", "title": "Saving again what was loaded", "statement": "A tensor that load returned, from whatever bytes (odd layouts, missing data, trailing bytes), can be saved in any byte order and loaded again, and is the same (up to eight axes). If the file is a well-formed NPY file of any origin, version 1 or 2, any layout of the dictionary, any padding, saving in the byte order of the file gives an NPY file with the same header text as NumPy's and the same data byte for byte; if the file was in NumPy's form already, the result is no longer than it, and equal to it byte for byte exactly if its padding was the shortest. For tensors of strings the first part holds where wchar_t has 32 bits; where it has 16 it fails for characters whose low half is zero.", "quantifier": "all byte strings and streams that load, element types, shapes, orders, byte orders and hosts", "why_tests_cant": "the files that can be loaded are unbounded, most are not ones the library writes", "anchors": ["include/npy/npy.h:load", "include/npy/npy.h:save", "include/npy/npy.h:write_npy_header", "src/dtype.cpp:read_values", "src/dtype.cpp:write_values"]}
{"id": "C84", "title": "Tensors when memory runs out", "statement": "When a call on tensor objects throws std::bad_alloc and the caller catches it, no object has changed; objects stay consistent (size() is the product of shape(), in-range access stays inside the buffer) in every history. (True of construction, copy construction, load, element access, move_from, moves, and copy_from of fixed-size elements; a copy_from of strings may have assigned any number of the first elements, and only those. False of copy assignment: whenever the source has more elements than the target has room for, the target can be left with the shape of the source and its own elements, and an in-range index then leaves the buffer. An assignment that returns repairs such an object; assigning to a tensor with at least as many axes and elements never runs out of memory; and copying to a temporary first and then moving is all or nothing.)", "quantifier": "all histories of calls, all objects, all places where an allocation fails in each call", "why_tests_cant": "The places where memory runs out cannot be chosen in a test, and their combinations over a history are unlimited.", "anchors": ["include/npy/npy.h:tensor::operator=", "include/npy/npy.h:tensor::tensor", "include/npy/npy.h:tensor::copy_from", "include/npy/npy.h:tensor::move_from", "include/npy/npy.h:tensor::set", "include/npy/npy.h:load"]}
{"id": "C85", "title": "Pointers, references and iterators into tensors", "statement": "Pointers, references and iterators got from data(), begin(), operator(), get and values() point to the same element of the same tensor, whatever the program does, until the tensor gets other storage: there is exactly one pointer to each element; reading and writing through it reads and writes that element and nothing else; other tensors, element writes, copy_from and calls that throw do not disturb it. Moving a tensor hands its pointers over to the target, and move_from those into the vector to the tensor, without copying. A copy assignment of no more elements keeps the storage; one of more elements than there is room for, destruction, move_from and moving to the tensor leave its old pointers dangling for ever. Copies never share elements: on values, every call acts as if tensors were lists. No history leaks storage.", "quantifier": "all histories of calls on tensors, vectors and pointers", "why_tests_cant": "A dangling pointer or shared buffer shows only in certain orders of calls, and reading freed memory often happens to work.", "anchors": ["include/npy/npy.h:tensor::data", "include/npy/npy.h:tensor::begin", "include/npy/npy.h:tensor::operator()", "include/npy/npy.h:tensor::operator=", "include/npy/npy.h:tensor::move_from", "include/npy/npy.h:tensor::copy_from"]}
{"id": "C86", "title": "Buffers of file streams make no difference", "statement": "save(path, ...) and archives written to a path come to the same outcomes and leave the same files whatever buffer the file stream has and whenever it hands its bytes on to the system, also on a device with little room, where the loss is noticed late, or only while the file is being closed, and by nobody. Once close() has been called, or the writer or save's stream is gone, everything the device takes is in the file. While a file is being written it holds a beginning of what was written, never anything else. (Between write and close nothing is promised: a written array need not be in the file yet; an example is given.)", "quantifier": "all buffer sizes and all moments at which buffers are emptied, byte by byte; all contents of a buffer after a failure; all capacities of the device; all tensors of the library's element types; all sequences of calls on a writer, any compression method; all programs that work on files one after the other", "why_tests_cant": "A test sees one buffer size of one standard library, and rarely a full disk.", "anchors": ["include/npy/npy.h:save", "include/npy/npy.h:npzfilewriter", "src/npz.cpp:npzfilewriter::close", "src/npz.cpp:npzfilewriter::~npzfilewriter", "src/npz.cpp:write_file", "src/npz.cpp:close"]}
{"id": "C87", "title": "Printed data types and byte orders can be told apart", "statement": "os << t for a data type or byte order writes its position in the enumeration, in the base, with the flags, width and grouping of the stream, and changes nothing of the stream but its width; different values have different texts on streams of the same format, whatever their widths, and a list printed with separators can be read off the text. A stream that has failed is left as it is. (Different values have different texts unless the fill character is a digit: with std::left, std::setfill('0') and std::setw(2) an unsigned byte and a complex<float> both print 10.)", "quantifier": "all data types and byte orders; all bases, flags, adjustments, widths, fill characters and locales of the stream; all lists", "why_tests_cant": "Tests print on a stream in its initial state; the state of the stream is the caller's and unlimited.", "anchors": ["src/dtype.cpp:operator<<", "include/npy/npy.h:operator<<", "include/npy/npy.h:data_type_t", "include/npy/npy.h:endian_t"]}
{"id": "C88", "title": "Archives open at the same time do not influence each other", "statement": "A program may have any number of npzfilewriters and npzfilereaders open at the same time, each on another path, and call them, save, load and peek in any order. The calls on one path come to the outcomes they would come to, and leave the file they would leave, if there were no calls on other paths. So everything that holds of writing and then reading one archive after another (C76) holds of each of them however the calls are interleaved. Several readers of one file answer each as it would alone.", "quantifier": "all programs of calls on any number of paths, in any order, with whatever outcomes, on any device (writers are given their room when they are opened); at most one archive object on each path at a time, or any number of readers; one thread; where data are compressed or decompressed: on little-endian hosts (big-endian ones: C77)", "why_tests_cant": "The writers and readers share the buffer and the maps of the library, and every interleaving is another history.", "anchors": ["include/npy/npy.h:npzfilewriter", "include/npy/npy.h:npzfilereader", "src/npz.cpp:npzfilewriter::write_file", "src/npz.cpp:npzfilereader::read_file", "src/npy.cpp:BUFFER", "src/dtype.cpp:DTYPE_MAP"]}
{"id": "C89", "title": "Header objects made by hand", "statement": "header_info(dtype, endianness, fortran_order, shape) has the four members given, and agrees in them with what peek gives of a file saved from a tensor of this data type, order and shape in this byte order: in data type, order and shape always, in the byte order exactly if it is named as peek names it (NATIVE for one-byte elements, else BIG or LITTLE, never NATIVE). (It never agrees in max_element_length, also for numeric types, where peek gives 0: the constructor does not set this member.)", "quantifier": "all data types, byte orders, orders, shapes and tensors; both byte orders of the host", "why_tests_cant": "Tests compare the headers of a few files member by member; what an unset member holds depends on the memory the object is in.", "anchors": ["include/npy/npy.h:header_info", "src/npy.cpp:header_info::header_info", "include/npy/npy.h:peek"]}
{"id": "C90", "title": "New tensors are zero", "statement": "tensor<T>(shape, fortran_order) has this shape and order and the data type of T, and every element, by every index that denotes one, is zero (0, 0+0i, false) or the empty string; saving it, in any byte order, gives the NPY file of this shape and order with nothing but zero bytes as data, or, for strings, the file of strings of length 0, which has no data. A shape of more elements than a vector can have throws std::length_error.", "quantifier": "all element types of the library, all shapes with fewer than 2^64 elements, both orders, all byte orders; saving: dictionaries of at most 245 characters (C02)", "why_tests_cant": "Memory fresh from the system is zero anyway, so a missing initialisation passes most tests.", "anchors": ["include/npy/npy.h:tensor::tensor", "include/npy/npy.h:tensor::operator()", "include/npy/npy.h:save"]}
{"id": "C91", "title": "Asking for one extent", "statement": "shape(i) is the i-th extent for 0 <= i < ndim(), and shape(0), ..., shape(ndim()-1) are the elements of shape(). get with signed indices accepts an index exactly if it has ndim() components, the a-th of them at least -shape(a) and less than shape(a). (shape(i) does not throw for other i, and does not count negative i from the end as indices do: it is undefined behaviour.)", "quantifier": "all tensors, all 32-bit arguments, all signed multi-indices", "why_tests_cant": "All extents and arguments.", "anchors": ["include/npy/npy.h:tensor::shape", "include/npy/npy.h:tensor::ndim", "include/npy/npy.h:tensor::get"]}
{"id": "C92", "title": "ravel with iterators", "statement": "ravel(index.begin(), shape().begin()) of a tensor in C order is the position in the buffer of the element that index names, and ravel(index.rbegin(), shape().rbegin()) is that of a tensor in FORTRAN order, for every index of ndim() components in range; an index of ndim() components of which one is not below its extent throws std::invalid_argument in both directions, whatever the order. (With forward iterators on a tensor in FORTRAN order it does not throw for indices in range, and returns another number, which may lie outside the buffer: with shape (3, 2), index (2, 1) gives 7.)", "quantifier": "all tensors the library makes, all shapes, both orders, all indices", "why_tests_cant": "All shapes and indices.", "anchors": ["include/npy/npy.h:tensor::ravel"]}
