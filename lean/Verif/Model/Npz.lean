import Verif.Model.Zip
/-!
# The NPZ writers and readers (npy.h:407-665, npz.cpp:437-578)
-/

namespace Npy

/-- `npzstringwriter` (npy.h:407-462) and `npzfilewriter` (npy.h:465-536). The two classes have the same members except
for the type of the stream; `isFile` tells them apart. `method` is the numeric value of the `compression_method_t`
given (any 16-bit value can be cast to it). -/
structure Writer where
  closed : Bool
  output : OStream
  method : Nat
  endianness : Endian
  entries : List FileEntry
  isFile : Bool
  deriving DecidableEq, Repr, Inhabited

/-- npz.cpp:437-440 -/
def Writer.newString (method : Nat) (e : Endian) : Writer :=
  { closed := false, output := OStream.empty, method := method, endianness := e, entries := [], isFile := false }

/-- npz.cpp:467-484; `output` is the stream after `std::ofstream(path, std::ios::binary)`, which is not checked. -/
def Writer.newFile (output : OStream) (method : Nat) (e : Endian) : Writer :=
  { closed := false, output := output, method := method, endianness := e, entries := [], isFile := true }

/-- npy.h:441-446 / 515-520: append ".npy" unless the name ends with it -/
def entryName (filename : Bytes) : Bytes :=
  if filename.length < 4 ∨ (filename.reverse.take 4 ≠ (b!".npy").reverse) then filename ++ b!".npy"
  else filename

/-- Code of a writer (npz.cpp:437-508). -/
abbrev WM := SM Writer

/-- npz.cpp:450-458 / 492-500: the member `write_file` -/
def Writer.writeFile (codec : Codec) (filename : Bytes) (bytes : Bytes) : WM Unit := .mk fun w =>
  if w.closed then (.error (.throw (.runtimeError .npzClosed)), w)
  else match Npy.writeFile codec w.output w.entries filename w.method bytes with
    | .ok (o, es) => (.ok (), { w with output := o, entries := es })
    | .error e => (.error e, w)

/-- npy.h:432-449 / 506-523 `write(filename, tensor)` -/
def Writer.write {α : Type} (cfg : Cfg) (codec : Codec) (ops : ElemOps α) (filename : Bytes) (t : Tensor α) :
    WM Unit := .mk fun w =>
  if w.closed then (.error (.throw (.runtimeError .streamClosed)), w)
  else match save cfg ops t w.endianness OStream.empty with
    | .error e => (.error e, w)
    | .ok out => Writer.writeFile codec (entryName filename) out.buf w

/-- npz.cpp:460-465 / 502-508 `close()`; the file writer also closes its stream. -/
def Writer.close : WM Unit := .mk fun w =>
  if w.closed then (.ok (), w)
  else
    let o := closeArchive w.entries w.output
    (.ok (), { w with output := if w.isFile then { o with isOpen := false } else o, closed := true })

/-- npz.cpp:442-446 / 484-488: the destructor closes an open writer. -/
def Writer.destroy : WM Unit := .mk fun w => if w.closed then (.ok (), w) else Writer.close w

/-- npz.cpp:490 `npzfilewriter::is_open()` -/
def Writer.isOpen (w : Writer) : Bool := w.output.isOpen

/-- npz.cpp:448 `str()` -/
def Writer.str (w : Writer) : Bytes := w.output.buf

/-- `npzstringreader` (npy.h:539-592) and `npzfilereader` (npy.h:595-665) -/
structure Reader where
  input : IStream
  entries : EntryMap
  keys : List Bytes
  deriving DecidableEq, Repr, Inhabited

/-- Code of a reader (npz.cpp:510-578). -/
abbrev RM := SM Reader

/-- Constructor on a stream: npz.cpp:510-521 (string), 538-559 (file; throws if the file is not open) -/
def Reader.open (input : IStream) : Except Err Reader :=
  if !input.isOpen then .error (.throw (.invalidArgument .fileNotFound))
  else match readEntries input with
    | (.ok (m, ks), s) => .ok { input := s, entries := m, keys := ks }
    | (.error e, _) => .error e

/-- npz.cpp:525-527 / 563-565: the member `read_file` -/
def Reader.readFile (codec : Codec) (filename : Bytes) : RM Bytes := .mk fun r =>
  match Npy.readFile codec r.entries filename r.input with
  | (x, s) => (x, { r with input := s })

/-- npy.h:570-573 / 635-638 `read<T>(filename)` -/
def Reader.read {α : Type} (cfg : Cfg) (codec : Codec) (ops : ElemOps α) (filename : Bytes) : RM (Tensor α) := do
  let bytes ← Reader.readFile codec filename
  SM.lift (load cfg ops (IStream.ofBytes bytes)).1

/-- npz.cpp:533-536 / 571-574 `peek(filename)` -/
def Reader.peek (cfg : Cfg) (codec : Codec) (filename : Bytes) : RM HeaderInfo := do
  let bytes ← Reader.readFile codec filename
  SM.lift (Npy.peek cfg (IStream.ofBytes bytes)).1

/-- npz.cpp:529-531 / 567-569 `contains(filename)` -/
def Reader.contains (r : Reader) (filename : Bytes) : Bool := (r.entries.lookup filename).isSome

/-- npz.cpp:578 `npzfilereader::close()` -/
def Reader.close (r : Reader) : Reader := { r with input := r.input.close }

/-- npz.cpp:576 `npzfilereader::is_open()` -/
def Reader.isOpen (r : Reader) : Bool := r.input.isOpen

end Npy
