import Verif.Model.Program
/-!
# Files behind a stream buffer

`std::ofstream` keeps bytes back in a buffer and hands them to the operating system when it likes to, at the latest when the file is
closed. The functions here are `save(path, …)` (npy.h:182-279) and `npzfilewriter` (npz.cpp:335-375, 467-508) on such streams, for every
buffer. `Model/Fs` has them on streams that hand on every byte at once.
-/

namespace Npy

/-- A `std::ofstream`. The buffer may be of any size and be emptied, wholly or in part, at any time: after its `i`-th byte the stream
keeps back at most `keep i` bytes. If the device does not take what it is handed, the stream is bad and what is in the buffer then
(`left i`) is not specified. (`output` at npy.h:273; `m_output` at npy.h:532) -/
structure FileOut where
  /-- what is in the file -/
  dev : Bytes
  /-- what is in the buffer -/
  pend : Bytes
  bad : Bool
  isOpen : Bool
  /-- how many bytes of the file fit on the device (`none`: any number) -/
  cap : Option Nat
  calls : Nat
  keep : Nat → Nat
  left : Nat → Bytes

/-- Hand on all but `k` bytes of the buffer. (libstdc++ `basic_filebuf::_M_convert_to_external`, for npy.h:216-219 and npz.cpp:30-54) -/
def FileOut.flush (k : Nat) (o : FileOut) : FileOut :=
  let out := o.pend.take (o.pend.length - k)
  let taken := { o with dev := o.dev ++ out, pend := o.pend.drop (o.pend.length - k) }
  match o.cap with
  | none => taken
  | some c =>
    if o.dev.length + out.length ≤ c then taken
    else { o with dev := (o.dev ++ out).take c, pend := o.left o.calls, bad := true }

/-- One byte of `output.put` or `output.write`. (npz.cpp:30-54; dtype.cpp:80, 121) -/
def FileOut.put (o : FileOut) (c : Byte) : FileOut :=
  if o.bad || !o.isOpen then { o with bad := true }
  else ({ o with pend := o.pend ++ [c], calls := o.calls + 1 } : FileOut).flush (o.keep o.calls)

/-- `output.write(bs)` or a sequence of `output.put` (npy.h:216-219; npz.cpp:30-54, 178, 198, 204, 373; dtype.cpp:80-126) -/
def FileOut.write (o : FileOut) (bs : Bytes) : FileOut := bs.foldl FileOut.put o

/-- `static_cast<std::uint32_t>(output.tellp())`: what was handed on and what is in the buffer. (npz.cpp:337, 342, 369) -/
def FileOut.tellp32 (o : FileOut) : Nat :=
  if o.bad || !o.isOpen then 2 ^ 32 - 1 else (o.dev.length + o.pend.length) % 2 ^ 32

/-- `output.close()`, also called by the destructor of the stream: the buffer is emptied, even if the stream is bad; failing to do so does
not throw. (npz.cpp:506; npy.h:279) -/
def FileOut.close (o : FileOut) : FileOut :=
  if o.isOpen then { o.flush 0 with isOpen := false } else { o with bad := true }

/-- How a stream's buffer behaves. (the streams of npy.h:273, 532) -/
structure BufPolicy where
  keep : Nat → Nat
  left : Nat → Bytes

/-- `std::ofstream output(path, std::ios::out | std::ios::binary)` (npy.h:273; npz.cpp:467-482) -/
def Fs.openFile (fs : Fs) (b : BufPolicy) (p : Bytes) : FileOut × Fs :=
  if fs.writable p then (⟨[], [], false, true, fs.room, 0, b.keep, b.left⟩, fs.put p [])
  else (⟨[], [], true, false, none, 0, b.keep, b.left⟩, fs)

/-! ### `save(path, …)` -/

/-- npy.h:182-220 `write_npy_header` -/
def writeNpyHeaderB (o : FileOut) (dtype : Bytes) (fortran : Bool) (shape : List Nat) : FileOut :=
  let dictionary := dictionaryText dtype fortran shape
  ((o.write (staticHeader (paddedDictLength dictionary.length))).write dictionary).write
    (headerEnd dictionary.length)

/-- dtype.cpp:77-481 `write_values` for the fixed-size types -/
def writeFixedB (cfg : Cfg) (t : DType) (e : Endian) (vals : List Elem) (o : FileOut) : FileOut :=
  if t.oneByte ∨ e = .native ∨ e = nativeEndian cfg then
    o.write ((vals.flatMap (memBytes cfg t)).take (vals.length * t.blockFactor))
  else
    vals.foldl (fun o v =>
      let start := memBytes cfg t v
      o.write (t.putOrder.map fun i => start.getD i 0)) o

/-- dtype.cpp:514-551 `write_values<std::wstring>` -/
def writeWideB (cfg : Cfg) (e : Endian) (vals : List WStr) (o : FileOut) : FileOut :=
  let maxElementLength := maxLength vals
  vals.foldl (fun o v =>
    let o := v.foldl (fun o c => o.write (writeUnit cfg e c)) o
    (List.range (maxElementLength - v.length)).foldl (fun o _ => o.write [0, 0, 0, 0]) o) o

/-- An element type with `write_values` on file streams (dtype.cpp:77-551). -/
structure ElemOpsB (α : Type) extends ElemOps α where
  writeB : Cfg → Endian → List α → FileOut → FileOut

/-- Fixed-size element types (tensor.cpp:5-56; dtype.cpp:77-481) -/
def fixedOpsB (t : DType) : ElemOpsB Elem where
  toElemOps := fixedOps t
  writeB := fun cfg e vals o => writeFixedB cfg t e vals o

/-- `std::wstring` elements (tensor.cpp:53-55; dtype.cpp:514-551) -/
def wideOpsB : ElemOpsB WStr where
  toElemOps := wideOps
  writeB := fun cfg e vals o => writeWideB cfg e vals o

/-- The element types of the library. (tensor.cpp:5-56) -/
inductive LibOpsB : {α : Type} → ElemOpsB α → Prop
  | fixed (t : DType) : LibOpsB (fixedOpsB t)
  | wide : LibOpsB wideOpsB

/-- npy.h:239-250 `npy::save(output, tensor, endianness)` -/
def saveB {α : Type} (cfg : Cfg) (ops : ElemOpsB α) (t : Tensor α) (e : Endian) (o : FileOut) : Except Err FileOut :=
  match ops.dtypeStr cfg e t.values with
  | .error err => .error err
  | .ok d => .ok (ops.writeB cfg e t.values (writeNpyHeaderB o d t.fortranOrder t.shape))

/-- npy.h:271-279 `save(path, tensor, endianness)`. The destructor of the stream closes the file whether or not `save` threw. -/
def savePathB {α : Type} (cfg : Cfg) (ops : ElemOpsB α) (b : BufPolicy) (t : Tensor α) (e : Endian) (p : Bytes) : SM Fs Unit := .mk fun fs =>
  let (output, fs) := fs.openFile b p
  if !output.isOpen then (.error (.throw (.invalidArgument .path)), fs)
  else match saveB cfg ops t e output with
    | .ok o => (.ok (), fs.put p o.close.dev)
    | .error err => (.error err, fs.put p output.close.dev)

/-! ### `npzfilewriter` -/

/-- npz.cpp:347-375 `write_file` -/
def writeFileB (codec : Codec) (o : FileOut) (entries : List FileEntry) (filename : Bytes) (method : Nat)
    (bytes : Bytes) : Except Err (FileOut × List FileEntry) :=
  let uncompressedSize := bytes.length % 2 ^ 32
  let checksum := npyCrc32 bytes
  let compressed : Except Err Bytes :=
    if method = STORED then .ok bytes
    else if method = DEFLATED then codec.deflate bytes
    else .error (.throw (.invalidArgument .unsupportedCompression))
  match compressed with
  | .error e => .error e
  | .ok compressedBytes =>
    let compressedSize := if method = STORED then uncompressedSize else compressedBytes.length % 2 ^ 32
    let entry : FileEntry :=
      { filename := filename, crc32 := checksum, compressedSize := compressedSize,
        uncompressedSize := uncompressedSize, compressionMethod := method, offset := o.tellp32 }
    let zip64 := decide (uncompressedSize > ZIP64_LIMIT ∨ compressedSize > ZIP64_LIMIT)
    let o := o.write (localHeader entry zip64)
    let o := o.write (compressedBytes.take compressedSize)
    .ok (o, entries ++ [entry])

/-- npz.cpp:335-345 `close(output, entries)` -/
def closeArchiveB (entries : List FileEntry) (o : FileOut) : FileOut :=
  let offset := o.tellp32
  let o := entries.foldl (fun o h => o.write (centralHeader h)) o
  let size := (o.tellp32 + 2 ^ 32 - offset) % 2 ^ 32
  o.write (endOfCentralDirectory
    { numEntries := entries.length % 2 ^ 16, size := size, offset := offset })

/-- `npzfilewriter` (npy.h:465-536) -/
structure FileWriter where
  closed : Bool
  output : FileOut
  method : Nat
  endianness : Endian
  entries : List FileEntry

/-- npz.cpp:467-484 -/
def FileWriter.new (output : FileOut) (method : Nat) (e : Endian) : FileWriter :=
  { closed := false, output := output, method := method, endianness := e, entries := [] }

/-- npz.cpp:492-500: the member `write_file` -/
def FileWriter.writeFile (codec : Codec) (filename : Bytes) (bytes : Bytes) : SM FileWriter Unit := .mk fun w =>
  if w.closed then (.error (.throw (.runtimeError .npzClosed)), w)
  else match writeFileB codec w.output w.entries filename w.method bytes with
    | .ok (o, es) => (.ok (), { w with output := o, entries := es })
    | .error e => (.error e, w)

/-- npy.h:506-523 `write(filename, tensor)`: the tensor is saved to a string stream first. -/
def FileWriter.write {α : Type} (cfg : Cfg) (codec : Codec) (ops : ElemOps α) (filename : Bytes) (t : Tensor α) :
    SM FileWriter Unit := .mk fun w =>
  if w.closed then (.error (.throw (.runtimeError .streamClosed)), w)
  else match save cfg ops t w.endianness OStream.empty with
    | .error e => (.error e, w)
    | .ok out => FileWriter.writeFile codec (entryName filename) out.buf w

/-- npz.cpp:502-508 `close()` -/
def FileWriter.close : SM FileWriter Unit := .mk fun w =>
  if w.closed then (.ok (), w)
  else (.ok (), { w with output := (closeArchiveB w.entries w.output).close, closed := true })

/-- One call: its outcome and the writer after it. (client code of npz.cpp:467-508) -/
def WrCall.runB (cfg : Cfg) (codec : Codec) (w : FileWriter) : WrCall → Except Err Unit × FileWriter
  | .write t name => FileWriter.write cfg codec t.ops name t.x w
  | .close => FileWriter.close w

/-- The writer after a sequence of calls, exceptions being caught by the caller. (client code of npz.cpp:467-508) -/
def FileWriter.after (cfg : Cfg) (codec : Codec) (w : FileWriter) (calls : List WrCall) : FileWriter :=
  calls.foldl (fun w c => (c.runB cfg codec w).2) w

/-- The outcomes of a sequence of calls. (client code of npz.cpp:467-508) -/
def FileWriter.outcomes (cfg : Cfg) (codec : Codec) : FileWriter → List WrCall → List (Except Err Unit)
  | _, [] => []
  | w, c :: calls => (c.runB cfg codec w).1 :: FileWriter.outcomes cfg codec (c.runB cfg codec w).2 calls

/-- A scope that creates an `npzfilewriter` on a path (npz.cpp:467-482), makes the given calls, catching their exceptions, and ends: the
destructors of the writer (npz.cpp:484-488) and of its stream run. -/
def npzWriteScopeB (cfg : Cfg) (codec : Codec) (b : BufPolicy) (method : Nat) (e : Endian) (p : Bytes) (calls : List WrCall) :
    SM Fs (List (Except Err Unit)) := .mk fun fs =>
  let (output, fs) := fs.openFile b p
  let w := FileWriter.new output method e
  let outcomes := FileWriter.outcomes cfg codec w calls
  let w := FileWriter.after cfg codec w calls
  let w := if w.closed then w else (FileWriter.close w).2
  (.ok outcomes, if output.isOpen then fs.put p w.output.close.dev else fs)

/-! ### Programs -/

/-- One call of a program; every stream that is opened for writing has a buffer of its own. (client code of npy.h:271-351,
npy.cpp:128-135, npz.cpp:467-578) -/
inductive PCall.StepB (cfg : Cfg) (codec : Codec) : PCall → Fs → POut → Fs → Prop
  | save {α : Type} {ops : ElemOpsB α} (lib : LibOpsB ops) (b : BufPolicy) (x : Tensor α) (e : Endian) (p : Bytes) (fs : Fs) :
      StepB cfg codec (.save ⟨α, ops.toElemOps, x⟩ e p) fs (.save (savePathB cfg ops b x e p fs).1) (savePathB cfg ops b x e p fs).2
  | pack (b : BufPolicy) (method : Nat) (e : Endian) (p : Bytes) (puts : List (Bytes × AnyTensor)) (fs : Fs) {outs fs'}
      (h : npzWriteScopeB cfg codec b method e p (puts.map fun q => .write q.2 q.1) fs = (.ok outs, fs')) :
      StepB cfg codec (.pack method e p puts) fs (.pack outs) fs'
  | load (k : ElemKind) (p : Bytes) (fs : Fs) :
      StepB cfg codec (.load k p) fs ((PCall.load k p).run cfg codec fs).1 ((PCall.load k p).run cfg codec fs).2
  | peek (p : Bytes) (fs : Fs) :
      StepB cfg codec (.peek p) fs ((PCall.peek p).run cfg codec fs).1 ((PCall.peek p).run cfg codec fs).2
  | unpack (p : Bytes) (calls : List RdCall) (fs : Fs) :
      StepB cfg codec (.unpack p calls) fs ((PCall.unpack p calls).run cfg codec fs).1 ((PCall.unpack p calls).run cfg codec fs).2

/-- A program: its calls, the file system before, the outcomes and the file system after. (client code of npy.h:271-351,
npz.cpp:467-578) -/
inductive PCall.RunsB (cfg : Cfg) (codec : Codec) : List PCall → Fs → List POut → Fs → Prop
  | nil (fs : Fs) : RunsB cfg codec [] fs [] fs
  | cons {c : PCall} {calls : List PCall} {fs fs1 fs2 : Fs} {out : POut} {outs : List POut} (step : c.StepB cfg codec fs out fs1)
      (rest : RunsB cfg codec calls fs1 outs fs2) : RunsB cfg codec (c :: calls) fs (out :: outs) fs2

end Npy
