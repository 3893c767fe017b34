import Verif.Model.NpzClient
/-!
# Functions that take a path

`save(path, ...)`, `load(path)`, `peek(path)` (npy.h:271-279, 344-351, npy.cpp:128-135) and the NPZ classes on files
(npz.cpp:467-578), over a map from paths to file contents.
-/

namespace Npy

/-- A file system as seen by one thread. Simplifications: different path strings name different files (no links, no
normalisation), nobody else changes files, and what was written is in the file once the stream is gone. (what npy.h:273, 345, npy.cpp:129, npz.cpp:467-482, 538-553 work on) -/
structure Fs where
  /-- contents of the files that exist -/
  file : Bytes → Option Bytes
  /-- `std::ifstream(path)` can open it if it exists -/
  readable : Bytes → Bool
  /-- `std::ofstream(path)` can open or create it -/
  writable : Bytes → Bool
  /-- how many bytes of a file fit on the device (`none`: any number) -/
  room : Option Nat

/-- The file system with other contents for one file. (environment of npy.h:273) -/
def Fs.put (fs : Fs) (p bs : Bytes) : Fs := { fs with file := fun q => if q = p then some bs else fs.file q }

/-- `std::ofstream output(path, std::ios::out | std::ios::binary)` creates or truncates the file; a stream that could not
open it has failbit set. (npy.h:273; npz.cpp:467-482) -/
def Fs.openOut (fs : Fs) (p : Bytes) : OStream × Fs :=
  if fs.writable p then ({ buf := [], bad := false, isOpen := true, cap := fs.room }, fs.put p [])
  else ({ buf := [], bad := true, isOpen := false, cap := none }, fs)

/-- `std::ifstream input(path, std::ios::in | std::ios::binary)` (npy.h:345; npy.cpp:129; npz.cpp:538-553) -/
def Fs.openIn (fs : Fs) (p : Bytes) : IStream :=
  match fs.file p, fs.readable p with
  | some bs, true => IStream.ofFile bs
  | _, _ => { all := [], rest := [], eof := false, fail := true, isOpen := false, isFile := true }

/-- npy.h:271-279 `save(path, tensor, endianness)`. The stream's destructor flushes whether or not `save` threw. -/
def savePath {α : Type} (cfg : Cfg) (ops : ElemOps α) (t : Tensor α) (e : Endian) (p : Bytes) : SM Fs Unit := .mk fun fs =>
  let (output, fs) := fs.openOut p
  if !output.isOpen then (.error (.throw (.invalidArgument .path)), fs)
  else match save cfg ops t e output with
    | .ok o => (.ok (), fs.put p o.buf)
    | .error err => (.error err, fs)

/-- npy.h:344-351 `load(path)` -/
def loadPath {α : Type} (cfg : Cfg) (ops : ElemOps α) (p : Bytes) : SM Fs (Tensor α) := .mk fun fs =>
  let input := fs.openIn p
  if !input.isOpen then (.error (.throw (.invalidArgument .path)), fs)
  else ((load cfg ops input).1, fs)

/-- npy.cpp:128-135 `peek(path)` -/
def peekPath (cfg : Cfg) (p : Bytes) : SM Fs HeaderInfo := .mk fun fs =>
  let input := fs.openIn p
  if !input.isOpen then (.error (.throw (.invalidArgument .path)), fs)
  else ((peek cfg input).1, fs)

/-- A scope that creates an `npzfilewriter` on a path (npz.cpp:467-482), makes the given calls, catching their exceptions,
and ends: the destructor (npz.cpp:484-488) closes the archive and the file. The outcomes of the calls are returned. -/
def npzWriteScope (cfg : Cfg) (codec : Codec) (method : Nat) (e : Endian) (p : Bytes) (calls : List WrCall) :
    SM Fs (List (Except Err Unit)) := .mk fun fs =>
  let (output, fs) := fs.openOut p
  let w := Writer.newFile output method e
  let outcomes := (Writer.trace cfg codec w calls).map (·.2)
  let w := (Writer.destroy (Writer.after cfg codec w calls)).2
  (.ok outcomes, if output.isOpen then fs.put p w.output.buf else fs)

/-- npz.cpp:538-559: constructing an `npzfilereader` on a path -/
def npzReadPath (p : Bytes) : SM Fs Reader := .mk fun fs => (Reader.open (fs.openIn p), fs)

end Npy
