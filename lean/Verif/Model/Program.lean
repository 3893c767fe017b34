import Verif.Model.Fs
/-!
# Programs that work on files

A program that calls the functions taking a path (npy.h:271-279, 344-351, npy.cpp:128-135) and opens archives on paths
(npz.cpp:467-578), one after the other, catching exceptions.
-/

namespace Npy

/-- An element type, the template argument of `load` and `read`. (npy.h:333-351, 570-573) -/
structure ElemKind where
  α : Type
  ops : ElemOps α

/-- What a call on a reader returned or threw. (npy.h:539-665) -/
inductive RdOut
  | read (α : Type) (r : Except Err (Tensor α))
  | peek (r : Except Err HeaderInfo)
  | contains (b : Bool)
  | keys (names : List Bytes)

/-- The outcome of a call on a reader. (client code of npy.h:539-665; the calls are cited at `RdCall`) -/
def RdCall.out (cfg : Cfg) (codec : Codec) (r : Reader) : RdCall → RdOut
  | .read α ops name => .read α (Reader.read cfg codec ops name r).1
  | .peek name => .peek (Reader.peek cfg codec name r).1
  | .contains name => .contains (r.contains name)
  | .keys => .keys r.keys

/-- The outcomes of a sequence of calls on a reader. (client code of npy.h:539-665) -/
def Reader.outs (cfg : Cfg) (codec : Codec) : Reader → List RdCall → List RdOut
  | _, [] => []
  | r, c :: calls => c.out cfg codec r :: Reader.outs cfg codec (c.run cfg codec r) calls

/-- What a program does with files. (client code; each is cited: npy.h:271-351, npz.cpp:467-578) -/
inductive PCall
  /-- `save(path, tensor, endianness)` (npy.h:271-279) -/
  | save (t : AnyTensor) (e : Endian) (p : Bytes)
  /-- `load<T, tensor>(path)` (npy.h:344-351) -/
  | load (k : ElemKind) (p : Bytes)
  /-- `peek(path)` (npy.cpp:128-135) -/
  | peek (p : Bytes)
  /-- a scope with an `npzfilewriter`, to which tensors are written (npz.cpp:467-508) -/
  | pack (method : Nat) (e : Endian) (p : Bytes) (puts : List (Bytes × AnyTensor))
  /-- a scope with an `npzfilereader` and calls on it (npz.cpp:538-578) -/
  | unpack (p : Bytes) (calls : List RdCall)

/-- What came of it. For `unpack`, the error is the one of the constructor. (client code of npy.h:271-351, npz.cpp:467-578) -/
inductive POut
  | save (r : Except Err Unit)
  | load (α : Type) (r : Except Err (Tensor α))
  | peek (r : Except Err HeaderInfo)
  | pack (r : List (Except Err Unit))
  | unpack (r : Except Err (List RdOut))

/-- One call of a program. (client code of npy.h:271-351, npy.cpp:128-135, npz.cpp:467-578) -/
def PCall.run (cfg : Cfg) (codec : Codec) : PCall → Fs → POut × Fs
  | .save t e p, fs =>
    let r := savePath cfg t.ops t.x e p fs
    (.save r.1, r.2)
  | .load k p, fs =>
    let r := loadPath cfg k.ops p fs
    (.load k.α r.1, r.2)
  | .peek p, fs =>
    let r := peekPath cfg p fs
    (.peek r.1, r.2)
  | .pack method e p puts, fs =>
    let r := npzWriteScope cfg codec method e p (puts.map fun q => .write q.2 q.1) fs
    (.pack (match r.1 with | .ok os => os | .error _ => []), r.2)
  | .unpack p calls, fs =>
    let r := npzReadPath p fs
    (.unpack (match r.1 with | .ok rd => .ok (rd.outs cfg codec calls) | .error err => .error err), r.2)

/-- A program: the outcomes of its calls. (client code of npy.h:271-351, npz.cpp:467-578) -/
def PCall.runAll (cfg : Cfg) (codec : Codec) : List PCall → Fs → List POut
  | [], _ => []
  | c :: calls, fs => (c.run cfg codec fs).1 :: runAll cfg codec calls (c.run cfg codec fs).2

/-- The file system after a program. (client code of npy.h:271-351, npz.cpp:467-578) -/
def PCall.after (cfg : Cfg) (codec : Codec) (calls : List PCall) (fs : Fs) : Fs := calls.foldl (fun fs c => (c.run cfg codec fs).2) fs

end Npy
