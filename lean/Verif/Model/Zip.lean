import Verif.Model.Tensor
import Verif.Model.Crc
/-!
# The ZIP layer (npz.cpp:11-425)

Consecutive `put`/`write` calls on one stream are written as one `OStream.write` of the concatenated bytes; for the
stream model this is the same (the bytes that fit reach the device, the rest is dropped).
-/

namespace Npy

/-- npy.h:386-404 `file_entry` -/
structure FileEntry where
  filename : Bytes
  crc32 : Nat
  compressedSize : Nat
  uncompressedSize : Nat
  compressionMethod : Nat
  offset : Nat
  deriving DecidableEq, Repr, Inhabited

/-- npz.cpp:14-16 -/
def LOCAL_HEADER_SIG : Bytes := [0x50, 0x4B, 0x03, 0x04]
/-- npz.cpp:15 -/
def CD_HEADER_SIG : Bytes := [0x50, 0x4B, 0x01, 0x02]
/-- npz.cpp:16 -/
def CD_END_SIG : Bytes := [0x50, 0x4B, 0x05, 0x06]
/-- npz.cpp:18-19 -/
def EXTERNAL_ATTR : Bytes := [0x00, 0x00, 0x80, 0x01]
/-- npz.cpp:19 -/
def TIME : Bytes := [0x00, 0x00, 0x21, 0x00]
/-- npz.cpp:20-27 -/
def CD_END_SIZE : Nat := 22
/-- npz.cpp:21-22 -/
def STANDARD_VERSION : Nat := 20
/-- npz.cpp:23 -/
def ZIP64_VERSION : Nat := 45
/-- npz.cpp:25 -/
def ZIP64_TAG : Nat := 1
/-- npz.cpp:26 -/
def ZIP64_LIMIT : Nat := 0x8FFFFFFF
/-- npz.cpp:27 -/
def ZIP64_PLACEHOLDER : Nat := 0xFFFFFFFF

/-- npz.cpp:29-32 `write(stream, uint16_t)` -/
def w16 (v : Nat) : Bytes := leBytes 2 v
/-- npz.cpp:34-39 `write(stream, uint32_t)` -/
def w32 (v : Nat) : Bytes := leBytes 4 v
/-- npz.cpp:49-54 `write(stream, uint64_t)` -/
def w64 (v : Nat) : Bytes := leBytes 8 v
/-- npz.cpp:41-47 `write32` -/
def write32 (v : Nat) : Bytes := if v > ZIP64_LIMIT then w32 ZIP64_PLACEHOLDER else w32 v

/-- `k` bytes through `stream.get()`, least significant first. `EOF` is `-1`, which sets all the bits from its position
on, exactly as bytes `0xFF` would (the stream stays at its end). (npz.cpp:56-82) -/
def readLE : Nat → IM Nat
  | 0 => pure 0
  | k + 1 => do
    let b ← getcFF
    let r ← readLE k
    pure (b.toNat + 256 * r)

/-- npz.cpp:56-60 `read16` -/
def read16 : IM Nat := readLE 2
/-- npz.cpp:62-71 `read32` -/
def read32 : IM Nat := readLE 4
/-- npz.cpp:73-82 `read64` -/
def read64 : IM Nat := readLE 8

/-- npz.cpp:84-97 `assert_sig`. A short read leaves part of `actual` indeterminate: comparing it is undefined. -/
def assertSig (expected : Bytes) : IM Unit := do
  let actual ← IStream.read 4
  if actual.length < 4 then SM.fail .ub
  else if actual ≠ expected then SM.fail (.throw (.runtimeError .badSignature))
  else pure ()

/-- npz.cpp:99-115 `determine_extra_length` -/
def determineExtraLength (h : FileEntry) (includeOffset : Bool) : Nat :=
  (if h.compressedSize > ZIP64_LIMIT then 8 else 0) +
  (if h.uncompressedSize > ZIP64_LIMIT then 8 else 0) +
  (if includeOffset && decide (h.offset > ZIP64_LIMIT) then 8 else 0)

/-- npz.cpp:117-137 `write_zip64_extra` -/
def zip64Extra (h : FileEntry) (includeOffset : Bool) : Bytes :=
  let extra :=
    (if h.uncompressedSize > ZIP64_LIMIT then [h.uncompressedSize] else []) ++
    (if h.compressedSize > ZIP64_LIMIT then [h.compressedSize] else []) ++
    (if includeOffset && decide (h.offset > ZIP64_LIMIT) then [h.offset] else [])
  w16 ZIP64_TAG ++ w16 (extra.length * 8) ++ extra.flatMap w64

/-- npz.cpp:139-172 `read_zip64_extra`: returns the header with the 64-bit values filled in -/
def readZip64Extra (h : FileEntry) (includeOffset : Bool) : IM FileEntry := do
  let tag ← read16
  if tag ≠ ZIP64_TAG then SM.fail (.throw (.runtimeError .badTag))
  else do
    let actualSize ← read16
    let (h, n1) ← (if h.uncompressedSize = ZIP64_PLACEHOLDER then do
        let v ← read64
        pure ({ h with uncompressedSize := v }, 8)
      else pure (h, 0) : IM (FileEntry × Nat))
    let (h, n2) ← (if h.compressedSize = ZIP64_PLACEHOLDER then do
        let v ← read64
        pure ({ h with compressedSize := v }, n1 + 8)
      else pure (h, n1) : IM (FileEntry × Nat))
    let (h, expectedSize) ← (if includeOffset && decide (h.offset = ZIP64_PLACEHOLDER) then do
        let v ← read64
        pure ({ h with offset := v }, n2 + 8)
      else pure (h, n2) : IM (FileEntry × Nat))
    if actualSize < expectedSize then SM.fail (.throw (.runtimeError .extraMissing))
    else if actualSize > expectedSize then do
      IStream.seekgCur ((actualSize : Int) - expectedSize)
      pure h
    else pure h

/-- npz.cpp:174-183 `write_shared_header` -/
def sharedHeader (h : FileEntry) : Bytes :=
  w16 0 ++ w16 h.compressionMethod ++ TIME ++ w32 h.crc32 ++ write32 h.compressedSize ++
  write32 h.uncompressedSize ++ w16 h.filename.length

/-- npz.cpp:185-194 `read_shared_header`: the header with method, checksum and sizes set, and the length of the name -/
def readSharedHeader (h : FileEntry) : IM (FileEntry × Nat) := do
  let _ ← read16
  let method ← read16
  let _ ← read32
  let crc ← read32
  let csize ← read32
  let usize ← read32
  let nameLength ← read16
  pure ({ h with compressionMethod := method, crc32 := crc, compressedSize := csize,
                 uncompressedSize := usize }, nameLength)

/-- npz.cpp:196-208 `write_local_header` -/
def localHeader (h : FileEntry) (zip64 : Bool) : Bytes :=
  LOCAL_HEADER_SIG ++ w16 (if zip64 then ZIP64_VERSION else STANDARD_VERSION) ++ sharedHeader h ++
  w16 (determineExtraLength h false) ++ h.filename ++
  (if determineExtraLength h false > 0 then zip64Extra h false else [])

/-- Reading a name of `n` bytes into a zero-initialised `std::vector<char>` (npz.cpp:221-223, 273-275) -/
def readName (n : Nat) : IM Bytes := do
  let bs ← IStream.read n
  pure (bs ++ List.replicate (n - bs.length) 0)

/-- A `file_entry` whose members have not been assigned. Every member the code later uses is assigned first (the offset of
a local header is never used), so plain zeros do. (npz.cpp:217, 264) -/
def FileEntry.blank : FileEntry :=
  { filename := [], crc32 := 0, compressedSize := 0, uncompressedSize := 0, compressionMethod := 0, offset := 0 }

/-- npz.cpp:210-230 `read_local_header` -/
def readLocalHeader : IM FileEntry := do
  assertSig LOCAL_HEADER_SIG
  let version ← read16
  if version > ZIP64_VERSION then SM.fail (.throw (.runtimeError .badVersion))
  else do
    let (entry, nameLength) ← readSharedHeader FileEntry.blank
    let extraLength ← read16
    let name ← readName nameLength
    let entry := { entry with filename := name }
    if extraLength > 0 then readZip64Extra entry false else pure entry

/-- npz.cpp:232-254 `write_central_directory_header` -/
def centralHeader (h : FileEntry) : Bytes :=
  let extraLength := determineExtraLength h true
  CD_HEADER_SIG ++ w16 STANDARD_VERSION ++
  w16 (if extraLength > 0 then ZIP64_VERSION else STANDARD_VERSION) ++
  sharedHeader h ++ w16 extraLength ++ w16 0 ++ w16 0 ++ w16 0 ++ EXTERNAL_ATTR ++ write32 h.offset ++
  h.filename ++ (if extraLength > 0 then zip64Extra h true else [])

/-- npz.cpp:256-282 `read_central_directory_header` -/
def readCentralHeader : IM FileEntry := do
  assertSig CD_HEADER_SIG
  let _ ← read16
  let version ← read16
  if version > ZIP64_VERSION then SM.fail (.throw (.runtimeError .badVersion))
  else do
    let (entry, nameLength) ← readSharedHeader FileEntry.blank
    let extraLength ← read16
    let _ ← read16
    let _ ← read16
    let _ ← read16
    let _ ← read32
    let offset ← read32
    let name ← readName nameLength
    let entry := { entry with offset := offset, filename := name }
    if extraLength > 0 then readZip64Extra entry true else pure entry

/-- npz.cpp:284-288 `CentralDirectory` -/
structure CentralDirectory where
  numEntries : Nat
  size : Nat
  offset : Nat
  deriving DecidableEq, Repr, Inhabited

/-- npz.cpp:290-303 `write_end_of_central_directory` -/
def endOfCentralDirectory (d : CentralDirectory) : Bytes :=
  CD_END_SIG ++ w16 0 ++ w16 0 ++ w16 d.numEntries ++ w16 d.numEntries ++ w32 d.size ++ w32 d.offset ++ w16 0

/-- npz.cpp:305-316 `read_end_of_central_directory` -/
def readEndOfCentralDirectory : IM CentralDirectory := do
  assertSig CD_END_SIG
  let _ ← read16
  let _ ← read16
  let n ← read16
  let _ ← read16
  let size ← read32
  let offset ← read32
  pure { numEntries := n, size := size, offset := offset }

/-- `std::map<std::string, file_entry>`: only assignment `entries[name] = e` and look-up are used, so the newest binding
is put in front. (npz.cpp:318-330; npy.h:590) -/
abbrev EntryMap := List (Bytes × FileEntry)

/-- `operator<` of `std::string`, negated and swapped: `a <= b`, comparing unsigned characters (libstdc++, for npz.cpp:332) -/
def bytesLe : Bytes → Bytes → Bool
  | [], _ => true
  | _ :: _, [] => false
  | a :: as, b :: bs => if a < b then true else if b < a then false else bytesLe as bs

/-- Insertion into a sorted list. (for npz.cpp:332) -/
def insertKey (k : Bytes) : List Bytes → List Bytes
  | [] => [k]
  | x :: xs => if bytesLe k x then k :: x :: xs else x :: insertKey k xs

/-- npz.cpp:332 `std::sort(keys)`; elements that compare equal are equal, so the algorithm does not matter. -/
def sortKeys (ks : List Bytes) : List Bytes := ks.foldr insertKey []

/-- npz.cpp:326-330: the loop over the directory -/
def readEntriesLoop : Nat → EntryMap → List Bytes → IM (EntryMap × List Bytes)
  | 0, m, ks => pure (m, ks)
  | n + 1, m, ks => do
    let entry ← readCentralHeader
    readEntriesLoop n ((entry.filename, entry) :: m) (ks ++ [entry.filename])

/-- Conversion of an unsigned 64-bit offset to the signed `std::streamoff` (npz.cpp:324, 394) -/
def toStreamoff (n : Nat) : Int := if n < 2 ^ 63 then n else (n : Int) - 2 ^ 64

/-- npz.cpp:318-333 `read_entries` -/
def readEntries : IM (EntryMap × List Bytes) := do
  IStream.seekgEnd (-(CD_END_SIZE : Int))
  let dir ← readEndOfCentralDirectory
  IStream.seekg (toStreamoff dir.offset)
  let (m, ks) ← readEntriesLoop dir.numEntries [] []
  pure (m, sortKeys ks)

/-- npz.cpp:335-345 `close(output, entries)` -/
def closeArchive (entries : List FileEntry) (o : OStream) : OStream :=
  let offset := o.tellp32
  let o := entries.foldl (fun o h => o.write (centralHeader h)) o
  let size := (o.tellp32 + 2 ^ 32 - offset) % 2 ^ 32
  o.write (endOfCentralDirectory
    { numEntries := entries.length % 2 ^ 16, size := size, offset := offset })

/-- The compressor and decompressor (zip.cpp:28-161) as used by the ZIP layer. `Model/Miniz` gives the concrete one (`miniz`). -/
structure Codec where
  deflate : Bytes → Except Err Bytes
  inflate : Bytes → Except Err Bytes

/-- npy.h:378-383 -/
def STORED : Nat := 0
/-- npy.h:382 -/
def DEFLATED : Nat := 8

/-- npz.cpp:347-375 `write_file`: the new stream and entry list. Sizes are cut to 32 bits, and as many bytes as the cut
size are written. -/
def writeFile (codec : Codec) (o : OStream) (entries : List FileEntry) (filename : Bytes) (method : Nat)
    (bytes : Bytes) : Except Err (OStream × List FileEntry) :=
  let uncompressedSize := bytes.length % 2 ^ 32
  let checksum := npyCrc32 bytes
  let compressed : Except Err Bytes :=
    if method = STORED then .ok bytes
    else if method = DEFLATED then codec.deflate bytes
    else .error (.throw (.invalidArgument .unsupportedCompression))
  match compressed with
  | .error e => .error e
  | .ok compressedBytes =>
    let compressedSize := if method = STORED then uncompressedSize else compressedBytes.length % 2 ^ 32
    let entry : FileEntry :=
      { filename := filename, crc32 := checksum, compressedSize := compressedSize,
        uncompressedSize := uncompressedSize, compressionMethod := method, offset := o.tellp32 }
    let zip64 := decide (uncompressedSize > ZIP64_LIMIT ∨ compressedSize > ZIP64_LIMIT)
    let o := o.write (localHeader entry zip64)
    let o := o.write (compressedBytes.take compressedSize)
    .ok (o, entries ++ [entry])

/-- npz.cpp:430-435 `file_entry::check` -/
def FileEntry.check (e other : FileEntry) : Bool :=
  !(other.filename != e.filename || other.crc32 != e.crc32 ||
    other.compressionMethod != e.compressionMethod ||
    other.compressedSize != e.compressedSize ||
    other.uncompressedSize != e.uncompressedSize)

/-- npz.cpp:385-391: the name under which the entry is found: the given one, else with ".npy" appended -/
def resolveName (entries : EntryMap) (temp : Bytes) : Except Err Bytes :=
  if (entries.lookup temp).isSome then .ok temp
  else if (entries.lookup (temp ++ b!".npy")).isSome then .ok (temp ++ b!".npy")
  else .error (.throw (.invalidArgument .filename))

/-- `std::string::max_size()` in libstdc++ (for npz.cpp:402) -/
def STRING_MAX : Nat := 2 ^ 63 - 2

/-- npz.cpp:401-404: `resize` and `read`; a short read leaves zeros -/
def readPayload (size : Nat) : IM Bytes := do
  if size > STRING_MAX then SM.fail (.throw (.lengthError .std))
  else
    let bs ← IStream.read size
    pure (bs ++ List.replicate (size - bs.length) 0)

/-- npz.cpp:382-425 `read_file` -/
def readFile (codec : Codec) (entries : EntryMap) (tempFilename : Bytes) : IM Bytes := do
  let filename ← SM.lift (resolveName entries tempFilename)
  match entries.lookup filename with
  | none => SM.fail (.throw (.outOfRange .std))
  | some entry => do
    IStream.seekg (toStreamoff entry.offset)
    let loc ← readLocalHeader
    if entry.check loc = false then SM.fail (.throw (.runtimeError .headersDisagree))
    else do
      let raw ← readPayload entry.compressedSize
      let bytes ← SM.lift (if entry.compressionMethod = DEFLATED then codec.inflate raw else .ok raw)
      if npyCrc32 bytes ≠ entry.crc32 then SM.fail (.throw (.runtimeError .crcMismatch))
      else pure bytes

end Npy
