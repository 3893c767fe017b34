import Verif.Model.NpzClient
/-!
# Archive writers and readers when memory runs out

`Model/Npz` follows the writers and readers as long as every allocation succeeds. Here an allocation may fail in each call, at any
of the places where the code allocates. Most failures throw `std::bad_alloc`, which the caller may catch and then go on
with the same object. Two kinds do not: the growth of a string stream is tried inside `ostream::write`, and libstdc++
catches the exception there and sets badbit; and the compressor reports a failed allocation by a return code.

Simplifications: at most one allocation fails by an exception in a call; the archive's own output stream always takes what
it is given (a full device is treated under C47); the string stream of the header text (npy.h:188), at most a few hundred bytes, does
not fail silently.
-/

namespace Npy

/-- How a call can end when memory runs out. (npy.h:432-449; npz.cpp:347-375) -/
inductive MemErr
  /-- `std::bad_alloc` leaves the call -/
  | badAlloc
  /-- zip.cpp:42, 77: `std::runtime_error` because the compressor, or its output stream, got no memory -/
  | compressor
  /-- as without shortage -/
  | other (e : Err)
  deriving DecidableEq, Repr, Inhabited

/-- The allocation that fails during a `write`. (npy.h:432-449; npz.cpp:347-375) -/
inductive WriteStop
  /-- none -/
  | never
  /-- one before anything is put into the archive: the shape, the strings and string streams of npy.h:244-247, 439-448, the
  copies at npz.cpp:355, 364, the buffers and copies at zip.cpp:32-33, 45-46 -/
  | early
  /-- the state of the compressor (zip.cpp:39-43) or its output (zip.cpp:74-78); only when compressing -/
  | compressor
  /-- the vector at npz.cpp:119-130, used when the local header has an extra field -/
  | extra
  /-- the list of entries (npz.cpp:374) -/
  | push
  deriving DecidableEq, Repr, Inhabited

/-- What memory there is for a `write`: the room of the string stream the NPY file is made in (`none`: enough), and the allocation
that throws. (npy.h:438, 512) -/
structure Shortage where
  room : Option Nat
  stop : WriteStop
  deriving DecidableEq, Repr, Inhabited

/-- npz.cpp:196-204: the local header up to the extra field -/
def localHeaderFront (h : FileEntry) (zip64 : Bool) : Bytes :=
  LOCAL_HEADER_SIG ++ w16 (if zip64 then ZIP64_VERSION else STANDARD_VERSION) ++ sharedHeader h ++
  w16 (determineExtraLength h false) ++ h.filename

/-- npz.cpp:347-375 `write_file` when the allocation `stop` fails: how it ends, and the stream and the list of entries then. -/
def writeFileShort (codec : Codec) (stop : WriteStop) (o : OStream) (entries : List FileEntry) (filename : Bytes) (method : Nat)
    (bytes : Bytes) : Except MemErr Unit × OStream × List FileEntry :=
  let uncompressedSize := bytes.length % 2 ^ 32
  let checksum := npyCrc32 bytes
  let compressed : Except MemErr Bytes :=
    if method = STORED then .ok bytes
    else if method = DEFLATED then
      if stop = .compressor then .error .compressor
      else match codec.deflate bytes with
        | .ok z => .ok z
        | .error e => .error (.other e)
    else .error (.other (.throw (.invalidArgument .unsupportedCompression)))
  match compressed with
  | .error e => (.error e, o, entries)
  | .ok compressedBytes =>
    let compressedSize := if method = STORED then uncompressedSize else compressedBytes.length % 2 ^ 32
    let entry : FileEntry :=
      { filename := filename, crc32 := checksum, compressedSize := compressedSize,
        uncompressedSize := uncompressedSize, compressionMethod := method, offset := o.tellp32 }
    let zip64 := decide (uncompressedSize > ZIP64_LIMIT ∨ compressedSize > ZIP64_LIMIT)
    if stop = .extra ∧ determineExtraLength entry false > 0 then
      (.error .badAlloc, o.write (localHeaderFront entry zip64), entries)
    else
      let o := o.write (localHeader entry zip64)
      let o := o.write (compressedBytes.take compressedSize)
      if stop = .push then (.error .badAlloc, o, entries)
      else (.ok (), o, entries ++ [entry])

/-- npy.h:432-449 / 506-523 `write(filename, tensor)` with the memory `short`. (`early` stands first here: whatever else the call
would do before the allocation that fails, nothing of it reaches the writer.) -/
def Writer.writeShort {α : Type} (cfg : Cfg) (codec : Codec) (ops : ElemOps α) (short : Shortage) (filename : Bytes) (t : Tensor α)
    (w : Writer) : Except MemErr Unit × Writer :=
  if w.closed then (.error (.other (.throw (.runtimeError .streamClosed))), w)
  else if short.stop = .early then (.error .badAlloc, w)
  else match save cfg ops t w.endianness { OStream.empty with cap := short.room } with
    | .error e => (.error (.other e), w)
    | .ok out =>
      let r := writeFileShort codec short.stop w.output w.entries (entryName filename) w.method out.buf
      (r.1, { w with output := r.2.1, entries := r.2.2 })

/-- npz.cpp:232-250: a central directory header up to the extra field -/
def centralHeaderFront (h : FileEntry) : Bytes :=
  let extraLength := determineExtraLength h true
  CD_HEADER_SIG ++ w16 STANDARD_VERSION ++
  w16 (if extraLength > 0 then ZIP64_VERSION else STANDARD_VERSION) ++
  sharedHeader h ++ w16 extraLength ++ w16 0 ++ w16 0 ++ w16 0 ++ EXTERNAL_ATTR ++ write32 h.offset ++ h.filename

/-- npz.cpp:460-465 / 502-508 `close()` when the vector at npz.cpp:119-130 cannot be allocated for the header of entry number
`stop` (if that header has an extra field; there is no other allocation). The writer is then not closed. -/
def Writer.closeShort (stop : Option Nat) (w : Writer) : Except MemErr Unit × Writer :=
  if w.closed then (.ok (), w)
  else
    match stop.bind fun k => (w.entries[k]?).map fun e => (k, e) with
    | some (k, e) =>
      if determineExtraLength e true > 0 then
        let o := (w.entries.take k).foldl (fun o h => o.write (centralHeader h)) w.output
        (.error .badAlloc, { w with output := o.write (centralHeaderFront e) })
      else (.ok (), (Writer.close w).2)
    | none => (.ok (), (Writer.close w).2)

/-- A call on a writer, with the memory there is for it. (client code of npy.h:407-536) -/
inductive MemCall
  | write (t : AnyTensor) (name : Bytes) (short : Shortage)
  | close (stop : Option Nat)

/-- One call: its outcome and the writer after it. (client code) -/
def MemCall.run (cfg : Cfg) (codec : Codec) (w : Writer) : MemCall → Except MemErr Unit × Writer
  | .write t name short => Writer.writeShort cfg codec t.ops short name t.x w
  | .close stop => Writer.closeShort stop w

/-- The writer after a sequence of calls, exceptions being caught by the caller. (client code) -/
def Writer.memAfter (cfg : Cfg) (codec : Codec) (w : Writer) (calls : List MemCall) : Writer :=
  calls.foldl (fun w c => (c.run cfg codec w).2) w

/-- The calls of a sequence with their outcomes. (client code) -/
def Writer.memTrace (cfg : Cfg) (codec : Codec) : Writer → List MemCall → List (MemCall × Except MemErr Unit)
  | _, [] => []
  | w, c :: calls => (c, (c.run cfg codec w).1) :: Writer.memTrace cfg codec (c.run cfg codec w).2 calls

/-- The allocation that fails during a read. (npz.cpp:210-230, 382-425) -/
inductive ReadStop
  /-- the copy of the name (npz.cpp:385), before the stream is touched -/
  | start
  /-- the buffer for the name in the local header (npz.cpp:221) -/
  | name
  /-- the string made from it (npz.cpp:223) -/
  | nameCopy
  /-- the buffer for the data (npz.cpp:402) -/
  | payload
  /-- anything later: decompression (zip.cpp:90-161), the string stream and the tensor (npy.h:571-572) -/
  | late
  deriving DecidableEq, Repr, Inhabited

/-- npz.cpp:210-230 `read_local_header` when an allocation fails (`none`: `std::bad_alloc` is thrown) -/
def readLocalHeaderShort (stop : ReadStop) : IM (Option FileEntry) := do
  assertSig LOCAL_HEADER_SIG
  let version ← read16
  if version > ZIP64_VERSION then SM.fail (.throw (.runtimeError .badVersion))
  else do
    let (entry, nameLength) ← readSharedHeader FileEntry.blank
    let extraLength ← read16
    if stop = .name then pure none
    else do
      let name ← readName nameLength
      if stop = .nameCopy then pure none
      else do
        let entry := { entry with filename := name }
        let entry ← (if extraLength > 0 then readZip64Extra entry false else pure entry)
        pure (some entry)

/-- npz.cpp:382-425 `read_file` when an allocation fails (the value means that `std::bad_alloc` is thrown) -/
def readFileShort (stop : ReadStop) (entries : EntryMap) (tempFilename : Bytes) : IM Unit := do
  if stop = .start then pure ()
  else do
    let filename ← SM.lift (resolveName entries tempFilename)
    match entries.lookup filename with
    | none => SM.fail (.throw (.outOfRange .std))
    | some entry => do
      IStream.seekg (toStreamoff entry.offset)
      match (← readLocalHeaderShort stop) with
      | none => pure ()
      | some loc =>
        if entry.check loc = false then SM.fail (.throw (.runtimeError .headersDisagree))
        else if stop = .payload then pure ()
        else do
          let _ ← readPayload entry.compressedSize
          pure ()

/-- A call on a reader: one of those of `RdCall`, or a `read` or `peek` during which an allocation fails. (client code of npy.h:539-665) -/
inductive MemRead
  | call (c : RdCall)
  | short (name : Bytes) (stop : ReadStop)

/-- The reader after a sequence of calls. (client code) -/
def Reader.memAfter (cfg : Cfg) (codec : Codec) (r : Reader) (calls : List MemRead) : Reader :=
  calls.foldl (fun r c => match c with
    | .call c => c.run cfg codec r
    | .short name stop => { r with input := (readFileShort stop r.entries name r.input).2 }) r

end Npy
