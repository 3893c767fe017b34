# Formal model of matajoh/libnpy in Lean 4

## 1. What is modelled

The model (`lean/Verif/Model/*`) is a hand translation of the C++ sources at the pinned commit, function by
function. Each definition cites the file and lines it follows. The properties (`properties.jsonl`) are stated in
`lean/Verif/Props/*` against small independent specifications in `lean/Verif/Spec/*`; lemmas are in
`lean/Verif/Proofs/*`.

### Conventions

* A byte is `UInt8`, a `std::string`/buffer is `List UInt8`. `size_t`, `uint32_t`, ... are `Nat` with an explicit
  `% 2^k` wherever the C++ can wrap.
* Outcomes: a call returns a value, or ends in `Err.throw e` (C++ exception, class and throw site kept),
  `Err.abort` (failed `assert` in a debug build), `Err.ub` (undefined behaviour: reading an indeterminate value or
  outside a buffer) or `Err.diverge` (the model ran out of the fuel it was given: used to *prove* that it never
  happens, or to express that the C++ does not return).
* Stateful code is in a state monad which keeps the state on an exception, so that what a throw leaves
  behind can be talked about.
* `Cfg` carries what the platform decides: host byte order, `NDEBUG`, width of `wchar_t`.
* Streams: `IStream` follows libstdc++'s `istream` rules (sentry, eof/fail bits, `get`, `peek`, `read`,
  `get(buf,n,delim)`, `seekg`, `operator>>`); `OStream` an `ostream` over a device that may accept only a given
  number of bytes.
* No well-founded recursion in the model: loops are structural or run on fuel, so concrete executions
  can be evaluated by the kernel.

### Modelled

| code | model |
|---|---|
| libstdc++ streams as used by the library | `Model/Stream` |
| `include/npy/npy.h` enums, `native_endian`, `boolean`, `header_info`, `write_npy_header`, `save`, `read_npy_header`, `load`, `peek` | `Model/Basic`, `Model/Dtype`, `Model/Boolean`, `Model/Header`, `Model/Tensor` |
| `src/npy.cpp` header parser | `Model/Header` |
| `src/dtype.cpp` tables, `to_dtype`, `from_dtype` (with its global table), the 14 `write_values`/`read_values` specialisations | `Model/Dtype`, `Model/Values` |
| `tensor<T>` (construction, `ravel`, element access, `copy_from`, `move_from`, `save`, `load`) | `Model/Tensor`, histories of operations in `Model/History`, with failing allocations in `Model/TensorMem`, with storage and pointers in `Model/Pointers` |
| `src/npz.cpp` ZIP writing and reading, the four NPZ classes | `Model/Zip`, `Model/Npz`, sequences of calls in `Model/NpzClient` |
| archive writers and readers when allocations fail | `Model/Exhaust` |
| saving and loading in a locale that groups digits | `Model/Locale`, `Model/LocaleNpz` |
| `operator<<` for data types and byte orders, formats of streams | `Model/Print` |
| `load`, `peek`, `save` on streams with exceptions enabled, buffered output | `Model/Throwing` |
| The globals `BUFFER` and `DTYPE_MAP` through a history of reading calls | `Model/Globals` |
| path-based `save/load/peek`, file readers/writers, over a file system; killed processes; stream buffers | `Model/Fs`, `Model/Crash`, `Model/Buffered` |
| the global token buffer of `src/npy.cpp` under several threads (small-step interleaving) | `Model/Threads` |
| `src/zip.cpp` `npy_crc32` and `mz_crc32` | `Model/Crc` |
| `src/zip.cpp` `npy_inflate`; `mz_inflateInit2`, `mz_inflate`, `tinfl_decompress` | `Model/Inflate` |
| the same with the dictionary as memory and the three ways of copying a match; proved equal (`C68_memory`) | `Model/InflateMem` |
| `tdefl`: Huffman code construction, code length run coding, bit output, block formats | `Model/DeflateHuff` |
| `tdefl`: match finder, `tdefl_compress_normal`, `tdefl_flush_block`, `tdefl_compress`; `mz_deflateInit2`, `mz_deflate`; `npy_deflate` | `Model/Deflate` |
| the two codecs as the ZIP layer calls them | `Model/Miniz` |
| `examples/images/images.cpp` (the README's program), `tensor::shape(int)`, `tensor::save(path)` | `Model/Images` |
| programs that call `save`, `load`, `peek` and archive writers and readers on paths | `Model/Program` |
| several archive writers and readers open at the same time | `Model/Together` |
| `ravel` with iterators | `Model/Ravel` |
| `save`, `load`, `npzwriter::write`, `read` for arbitrary tensor classes; `examples/custom_tensors/custom.cpp` | `Model/Custom` |

Simplifications are noted at each definition. The main ones:

* miniz.h:197-199 set `MINIZ_USE_UNALIGNED_LOADS_AND_STORES`, `MINIZ_LITTLE_ENDIAN` and `MINIZ_HAS_64BIT_REGISTERS` to 1 on every host: only
  those variants of `tdefl_compress_lz_codes`, `tdefl_find_match` and `tinfl_decompress` are compiled, and only they are modelled. The loads and stores
  of words they do depend on the byte order of the host, the parameter `big` of the model (C77); that the host allows unaligned ones is
  assumed. The level is the one `npy_deflate` asks for (-1, which
  gives 128 probes and greedy parsing), so `tdefl_compress_fast`, the RLE, filter and raw-block paths that level never takes are left
  out, and so is the Adler-32 checksum (not used with raw streams).
* The assertions of `tdefl` (`MZ_ASSERT`) are checked in debug builds (parameter `dbg`); C58 proves that none
  fails on little-endian hosts (on big-endian hosts they do fail: `C77_false_archive`). One is left out: that the output buffer has room after the last block (miniz.cpp:1311), when that
  block stands for more than 32510 bytes and takes exactly 85180.
* Memory that C++ leaves uninitialised is a parameter (`j` in `npyDeflate`: the theorems hold for all of it), or is
  tracked as unwritten and reading it is `Err.ub` (`tinfl`).
* `tinfl_decompress` is a coroutine: the model keeps its bit buffer, counter and output position as state and runs it as
  a program over a monad in which running out of input stops with the status the C++ returns.
* The bit buffer of `tinfl` is 64 bits wide as on x86-64.
* Arrays of the compressor are functions from indices together with their size; an access outside gives undefined behaviour (C73).

### Not modelled

* Memory exhaustion (`std::bad_alloc`), except on archive writers and readers (`Model/Exhaust`, C79) and tensor objects (`Model/TensorMem`, C84); sizes of the C++ heap; pointers into tensors, except in `Model/Pointers` (C85): elsewhere they are covered as element writes.
* Buffering inside `ofstream`, except in `Model/Buffered` (C86, which shows that it makes no difference to files and outcomes) and `Model/Throwing` (C81): elsewhere a device failure is seen at the write that overruns it.
* The program's locale, except in `Model/Locale` (C80): everywhere else it does not group digits, as the C locale in which every C++ program starts.
* `printf` diagnostics; the test programs.
* Floating-point semantics: a float or double is its bit pattern; NaN payloads are therefore preserved by definition of
  the copy, which is what the C++ does (it copies bytes).
* User-defined tensor classes other than through the members the templates call (`Model/Custom`); Eigen itself: a matrix is its coefficients.

## 2. Trusted base

Lean's kernel; the standard axioms `propext`, `Classical.choice`, `Quot.sound` (see section 5 for the list per
theorem group); the faithfulness of the hand translation; the description of libstdc++ streams and of the C++
integer rules in `Model/Stream`.

## 3. Properties: what is modelled and how it is proved

* **C01** NPY save/load round trip for fixed-size dtypes: `save` then `load` on the model; induction over elements for each specialisation, parser lemmas for the header text.
* **C02** The stored header length is right for every shape: exact characterisation of the length field (theorem), negation with a witness shape, and the failing load for all overlong headers.
* **C03** Unicode tensors round trip: `wstringOps`; induction over strings; NUL characterised with `filter`.
* **C04** Saved files conform to the NPY format: `save` equals an independent format specification (`Spec/Npy`).
* **C05** Data is written in the byte order named by descr: payload equals the specification encoding in the named order; negation for complex.
* **C06** Files move between hosts: round trip with two different `Cfg`s; negation for complex.
* **C07** peek agrees with what was saved and with load: `peek` on saved bytes; inversion of `load` on arbitrary bytes.
* **C08** Loading with the wrong element type is rejected: inversion of `load` on arbitrary bytes.
* **C09** The header parser accepts every layout of the dictionary: a rendering function with arbitrary white space and key order, parser correctness by induction over items.
* **C10** Header parsing always terminates: fuel-based loop never returns `diverge`: each iteration that does not throw consumes input.
* **C11** Unknown dtype strings are rejected: negation with witness; exact characterisation of `from_dtype` on unknown strings.
* **C12** Headers with missing keys are rejected: negations with witnesses; characterisation of the outcome.
* **C13** Truncated data is rejected: exact value of `load` on every truncation; negation as corollary.
* **C14** Bad magic or version is rejected: debug: never returns; release: unsupported version always throws; magic unchecked (negation).
* **C15** to_dtype and from_dtype are inverse and history independent: finite table by cases, history independence by induction over the call list.
* **C16** NATIVE means the host's byte order: equality of outputs by cases on host and type.
* **C17** Saved files determine the tensor: corollary of C01.
* **C18** The shape in the header is read back exactly: number parser against a decimal specification; induction over the shape.
* **C19** peek and load consume exactly the header and the data: position after `load`; induction over a list of tensors.
* **C20** size() equals the product of shape() in every history: inductive invariant over an operation language for tensors.
* **C21** In-range indices address inside the buffer in the documented order: induction over the shape, against the textbook row/column-major formula.
* **C22** Indexing is a bijection: injectivity and surjectivity by induction over the shape.
* **C23** get/set laws: from C21/C22.
* **C24** Negative indices count from the end: arithmetic modulo 2^64.
* **C25** Wrong-rank or out-of-range indices throw and never touch memory: case analysis of `ravel`; UB witnesses.
* **C26** copy_from / move_from are all-or-nothing: case analysis.
* **C27** Memory safety of element access: from C21; counterexample shape with overflow.
* **C28** npy::boolean conversions: all integers by arithmetic; floating-point arguments as IEEE 754 bit patterns of any format (`Model/Boolean`).
* **C29** Custom shape metadata is taken from the header alone: inversion of `load`.
* **C30** NPZ archives behave as a map (stored): refinement: the archive refines a finite map; induction over the write history; byte-level parsing lemmas. `C30_by_size` bounds the length of the archive by what is written.
* **C31** NPZ archives behave as a map (deflated): the same refinement, parametric in the codec, instantiated with C52.
* **C32** Close semantics of NPZ writers: induction over operation histories.
* **C33** A rejected write leaves the archive as it was: the same.
* **C34** File and string writers produce the same bytes: simulation between the two classes.
* **C35** The .npy suffix rule: list lemmas on suffixes.
* **C36** contains agrees with read: negation and exact relation.
* **C37** keys() lists exactly the entries, sorted: sorting specification: sorted and a permutation.
* **C38** Reading does not depend on earlier successful reads: stream-state invariant over call histories.
* **C39** Whatever a reader returns has the recorded checksum and agreeing headers: inversion of `read_file` on arbitrary bytes.
* **C40** Corruption of stored data within 32 bits is always detected: linearity and invertibility of the CRC step; the limit from the generator polynomial as an error pattern.
* **C41** npy_crc32 is the standard CRC-32: equality with a bit-by-bit specification; all 256 table steps by kernel evaluation of the 16-entry table identity.
* **C42** Archives with 65536 or more entries: general theorem on the count field.
* **C43** Payloads of 4 GiB and more: general theorem on the truncated payload.
* **C44** ZIP64 extra fields are read back as written: write/read of headers as functions of arbitrary 64-bit fields.
* **C45** Written archives follow the ZIP layout: archive equals an independent layout specification; negation for ZIP64.
* **C46** Archives need the end record as their last 22 bytes: inversion of `read_entries`.
* **C47** Failures of the output are reported: device with a capacity: the calls return normally.
* **C48** Asking for an absent name throws and does no harm: case analysis and stream invariant.
* **C49** An error on one entry does not affect others: witness archive.
* **C50** Parsing headers from several threads: small-step interleaving model of the token buffer.
* **C51** Inflating hostile data terminates or throws: fuel-based `tinfl` model; a crafted input runs out of every fuel.
* **C52** Inflate inverts deflate: model of `tdefl` and `tinfl`; C55 applied to the stream of C58. The negation beyond 32768 bytes follows
  the compressor through 32769 zeros (hash chains, match finder, one dynamic block) and the decompressor through that block.
* **C53** Path-based save, load and peek: file system as a map from paths to contents.
* **C54** Archives on paths: the NPZ file classes over the file system of C53; refinement to C30.
* **C55** Inflate accepts every standard stream: RFC 1951 as an executable specification (`Spec/Deflate`: bit reader, canonical
  codes by the RFC's rule, blocks, `expand`); `tinfl` proved against it block by block (weakest-precondition style over the decoder
  monad), then the drivers' chunk loops; negation from a crafted stream. `C55_most_sizes`: no bit of a
  stream stands for more than 129 bytes, so when the window is full and 8128 or more bytes are to come, not all of the bits are in the
  bit buffer (62 bits), and the driver does not take the input for exhausted. For the loss of input
  over 1 MiB (`Proofs/InflateLoss`) the run is followed twice, once with the real stream, to find what is forgotten, and once with
  the stream from which just that is left out.
* **C56** Memory safety of inflate: the model traps on reading unwritten bytes and on indices outside the tables; corollary of C55 for
  standard streams, witness for hostile ones.
* **C57** Truncated compressed data: the same proof on prefixes of streams.
* **C58** Deflate makes standard streams: invariant of the match finder (every chain link and dictionary byte is a true earlier position),
  invariant of the LZ code buffer (it holds tokens that expand to the input so far), Huffman codes (minimum redundancy, length
  limit, canonical) are complete prefix codes, block writer against `Spec/Deflate`, drivers by induction on the input left.
* **C59** Compression and archives are reproducible: a relation between two runs of the compressor with different uninitialised memory
  (same except in dictionary and hash-chain cells not yet written, which no decision reads), kept by every step; then the writers.
* **C60** Tensor classes of the user: a tensor class is a record of arbitrary functions; `save`, `load`, `write`, `read` over it; refinement to
  the archive theorems by an `ElemOps` that carries the object.
* **C61** The example's matrix class: an instance of C60; index arithmetic for row- and column-major storage.
* **C62** The two template forms of `read`: both modelled; flowing off the end of the function is `Err.ub`.
* **C63** `Spec/DeflateBad` lists the faults RFC 1951 lets a decoder see in a block header (`BadBlock`); `Breaks z out`: legal blocks
  standing for `out`, then such a header. The decoder coroutine is run through the legal blocks (as for C55) and then shown to stop
  with the status "failed", which mz_inflate and npy_inflate pass on as the exception.
* **C64** Archive invariant with the data of one entry exchanged; the outcome of reading is given case by case (`ReadsAs`) in terms of
  the codec, CRC-32 and load. `C64_deflated` combines it with C55, C58 and C63 for the bundled miniz.
* **C65** Reading back (C30, C31) combined with C07: `Announces` says what is to be reported of a tensor.
* **C66** Induction over calls that may include `close()`; on a closed stream `seekg` sets failbit and the signature check reads
  nothing (as C49_sticky).
* **C67** `Spec/Foreign` describes ZIP archives of other writers from the ZIP application note (fields the reader ignores are free) and,
  as an instance, the byte layout of `numpy.savez`/`savez_compressed` (compared with actual Python output and with the repository's
  test_compressed.npz in examples). Header readers against these bytes, induction over the directory, archive invariant over calls.
  The variants not read (other extra fields, comments, data descriptors) are separate theorems that give the exception.
* **C68** `Spec/DeflateFault` lists the ways to break RFC 1951 in the middle of a block (`Faulty`). A second program logic for the
  `tinfl` coroutine (`Co.sp`, `Proofs/InflateSp`): whatever the input, it suspends for input at the end of the data, fails, or ends in a
  state described by the grammar; lifted through `mz_inflate` and `npy_inflate` (`Proofs/InflateTotal`). Unique parsing of the grammar
  (`Proofs/InflateUnique`, no reference to the model) shows that standard data have one meaning and no fault.
* **C69** Programs of `Model/History` restricted to element assignments; `Spec.Stores` says which element a call assigns. Induction over
  the program, with C21/C24/C25 for each call and injectivity of the storage position; composed with C01 for the saved file.
* **C70** `Spec.storageOrder` lists the multi-indices by nested loops, without arithmetic; by induction over the shape its positions are
  0, 1, 2, …
* **C71** `Spec/Walk` says where a reader that trusts the last 22 bytes finds headers, names and data in any byte string. Forward lemmas
  for each reading function (`Proofs/Walk`: outcome for every input, not only for well-formed ones), induction over the directory;
  composed with C68 for the library's decompressor. Byte strings without an end record are C46.
* **C72** `Spec/Accepted` is a grammar of every header text the parser takes, with punctuation checked or not, and its meaning. For each
  parser function an inversion lemma (if it succeeds, the text has this form) and a forward lemma; for release builds also which texts
  make it fail and how. `peek` and `load` follow by splitting the bytes (`FileParts`); the values by inverting the element readers of C13.
* **C73** Every array access of the compressor model is checked (`rdArr`, `wrArr`, `inArr` give `.ub`); the proof of C58 shows that each
  index is in range (`Proofs/DeflPure` and the invariants of the `Defl…` files), so that the outcome is never an error; archives by
  induction over the calls.
* **C74** `Model/Crash` gives the states a killed process leaves: a beginning of what it was going to write (streams write in order; the
  machine itself keeps running). Saved headers cut anywhere and padded with zeros are put through the grammar of C72 (no closing brace:
  no dictionary; `descr` is there and not empty); behind the brace C09 and C13 apply. Archives: writers only append; C46.
* **C75** `Model/Images` is the sample program line by line, with the extents as parameters and the float expression as an arbitrary
  function giving a bit pattern. Loop invariant over the nested loops (the elements already painted), then C53, C07 and the archive
  lemmas composed; the archive's length bounded from the writes.
* **C76** Programs that work on files: `Model/Program` (sequences of calls on paths), `Spec/Program` (a disk of arrays and archives); forward simulation by induction over the program, from C53, C54, C30, C31, C65, C08.
* **C77** Byte order of the host: `Model/Inflate`, `Model/Deflate` take the byte order as a parameter. Stored blocks: the proof of C55 carried out for both; the failures are runs of the model evaluated by the kernel.
* **C78** Sizes of results: a token makes at most 129 bytes per bit, by induction over tokens and blocks of the standard's description; with C68 for `npy_inflate`. `load`: the header of C13 with no data after it.
* **C79** Memory runs out: `Model/Exhaust` (writers and readers with the allocation that fails as a parameter of each call). Invariant:
  every entry of the directory has its record at its offset, with any bytes between the records; induction over the history. Reading as in
  C30, the records no longer being contiguous. The silent case is a run evaluated by the kernel.
* **C80** The locale: `Model/Locale` repeats the header writer and reader with the digit grouping of the locale as parameter (libstdc++'s
  `__add_grouping`, `num_get`). The grouped text (any list of group sizes) against `Spec/Locale`, reading it back by induction over the groups; the two readers
  compared step by step on texts in which no separator follows a digit. Archives: `write` equals the C locale's for short extents; reading by C30.
* **C81** Streams with exceptions enabled: `Model/Throwing` repeats the readers and writers with `read`, `get`, `write` and `put` that
  throw. Input: a simulation (`Raises`: the same until failbit is set, an exception from then on) and a comparison with cut data
  (`CutRaises`), both closed under sequencing. Output: a stream that keeps back any number of bytes after each call; what the device
  has plus what is kept back is what was handed over.
* **C82** The globals: `Model/Globals` repeats the parser with `BUFFER` and `DTYPE_MAP` as state. A simulation (`Tracks`) of the parser
  without them; the table answers as the initial one (C15), and a literal is only read after the key `fortran_order`, which
  has other characters in the places of the last letters of `True` and `False`.
* **C83** No model of its own. What `load` returns is well-formed whatever the bytes (C29), so the round trip (C01, C03) applies to it; for
  strings, `readWide` never gives a NUL where `wchar_t` has 32 bits. For the data: any bytes of the right length are the bytes of elements
  (`exists_data`), so the loaded tensor is determined and `save` writes the same bytes; the padding is compared by lengths
  (`shortest_padding`).
* **C84** `Model/TensorMem` repeats the calls of `Model/History` with allocations that may fail, given as a list of outcomes, and with the
  capacities of the three vectors of a tensor (libstdc++ `vector::operator=`). Case analysis per call; induction over histories
  for the invariants; the negation for copy assignment from the bijection of indices (C22).
* **C85** Pointers into tensors: `Model/Pointers` gives buffers an identity and lets vectors own, keep, hand over and free them. Invariant: each live buffer has
  exactly one owner (`Proofs/Pointers`). Refinement to `Model/History` (`C85_values`: tensors are values); stability and dangling of pointers by induction over histories.
* **C86** Buffers of file streams: `Model/Buffered` has `save(path)` and `npzfilewriter` on streams that may hand bytes on after any byte (an oracle). Invariant between what the stream
  was given, the file and the buffer (`Proofs/Buffered`); refinement of `Model/Fs` and `Model/Program`, for every device capacity via C47.
* **C87** Printed data types: `Model/Print` follows libstdc++'s `_M_insert_int` with base, flags, width, fill and locale. What is left when everything but
  hexadecimal digits is dropped from a text does not depend on width or fill and determines the value; lists by induction, cutting at the first separator.
* **C88** Archives open at the same time: `Model/Together` has any number of writers and readers on different paths, the shared file system and the
  library's global objects. Simulation between the program and the calls on one path alone, by induction over the program (globals as in C82); expansion of C76's scopes into calls.
* **C89** Header objects made by hand: the four-argument constructor of `Model/Header` (an unset member has no value), compared with `peek` of a saved file by C07; by
  cases on types and orders. The negation for the fifth member.
* **C90** New tensors: the constructor of `Model/Tensor` and the zero of each element type in `Model/Values` (`std::vector<T>(n)` value-initialises); elements by C21,
  files from C04's lemmas and the bytes of zeros, by cases on types, byte orders and hosts.
* **C91** One extent: `Tensor.shapeAt` of `Model/Images` (undefined outside the shape); by cases on the argument. Bounds of indices from C21, C25 and the
  specification `Denotes`.
* **C92** `ravel` with iterators: `Tensor.ravelIt` of `Model/Ravel` runs the same loop as `get` over lists that stand for what the iterators run
  over; from C21; the rejection by induction on the shape. Wrong direction on FORTRAN order: a counterexample.

## 4. Status

See `MANIFEST.json`. A theorem named `..._partial` proves part of a property; the note says what is missing.
Where the code violates a property, the negation is proved from a concrete witness (`..._false`), and what does
hold is proved as a separate theorem.

## 5. Axioms

`vcheck` prints the axioms of each theorem. All theorems rest on subsets of `propext`, `Classical.choice` and `Quot.sound`, which are
Lean's own; none uses `Lean.ofReduceBool`/`Lean.trustCompiler` (no `native_decide`, no `bv_decide`), and the project declares no axiom. `Classical.choice`
comes in through `simp`, `omega`, `by_cases` and library lemmas. Concrete witnesses are evaluated by the kernel (`decide +kernel`,
`rfl`).

## 6. Tests of the theorems

`seeded/LOG.jsonl` records edits of the model that correspond to realistic bugs, with the theorems that stopped proving. Survivors led to
stronger theorems (named in the entry).

## 7. Tests of the model against the repository's assets

`Verif/Validation.lean` (generated by `tools/mkassets.py`) contains all eighteen `.npy` files and the stored archive of
`/repo/assets/test` as byte literals. The kernel evaluates the model on them: saving the tensor of the repository's test gives
the asset byte for byte, loading the asset gives the tensor; the same for writing and reading `test.npz`. These are tests of
the fidelity of the model; no claim rests on them. The kernel cannot evaluate the compressor in reasonable memory;
`tools/validate_deflate.py` runs the model (with the arrays, which are functions in the model, replaced by hash maps) on the
three entries of `test_compressed.npz`: compression gives the bytes miniz gave, decompression gives them back.
