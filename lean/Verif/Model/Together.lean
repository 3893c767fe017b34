import Verif.Model.Program
import Verif.Model.Globals
/-!
# Archives open at the same time

A program that has any number of archive writers and readers open at once, on different files, and calls them, `save`, `load` and `peek`
in any order. The objects share the file system and the two global objects of the library (`BUFFER`, `DTYPE_MAP`).
-/

namespace Npy

/-- The archive object on a path, if there is one. (client code of npz.cpp:467-482, 538-553) -/
inductive DeskObj
  | none
  | writer (w : Writer)
  | reader (r : Reader)

/-- What a program works with. Simplifications: at most one archive object on each path; streams without buffers (`Model/Buffered` has
them). (client code of npz.cpp:467-578; the globals are npy.cpp:11 and dtype.cpp:20-45) -/
structure Desk where
  fs : Fs
  obj : Bytes → DeskObj
  g : Globals

/-- The start of the program. (client code of npz.cpp:467-578) -/
def Desk.start (fs : Fs) : Desk := ⟨fs, fun _ => .none, Globals.initial⟩

/-- Another object on a path. (client code of npz.cpp:467-578) -/
def Desk.set (d : Desk) (p : Bytes) (o : DeskObj) : Desk := { d with obj := fun q => if q = p then o else d.obj q }

/-- A call; the path is given beside it. (client code; each is cited: npy.h:271-351, npy.cpp:128-135, npz.cpp:467-578) -/
inductive TCall
  /-- `npzfilewriter w(path, method, endian)` (npz.cpp:467-482) -/
  | openW (method : Nat) (e : Endian)
  /-- `w.write(...)`, `w.close()` (npz.cpp:490-508) -/
  | write (c : WrCall)
  /-- `npzfilereader r(path)` (npz.cpp:538-553) -/
  | openR
  /-- `r.read`, `r.peek`, `r.contains`, `r.keys` (npz.cpp:561-574; npy.h:635-638) -/
  | read (c : RdCall)
  /-- the end of the object's life (npz.cpp:484-488) -/
  | destroy
  /-- `save(path, tensor, endianness)` (npy.h:271-279) -/
  | save (t : AnyTensor) (e : Endian)
  /-- `load<T, tensor>(path)` (npy.h:344-351) -/
  | load (k : ElemKind)
  /-- `peek(path)` (npy.cpp:128-135) -/
  | peek

/-- What came of a call; `skipped`: no such call is possible (there is no such object, or one is there already), and nothing is done.
(client code of npy.h:271-351, npz.cpp:467-578) -/
inductive TOut
  | done (r : Except Err Unit)
  | load (α : Type) (r : Except Err (Tensor α))
  | peek (r : Except Err HeaderInfo)
  | answer (o : RdOut)
  | skipped

/-- A call on a reader, with the globals. (client code of npz.cpp:561-574; npy.h:635-638) -/
def RdCall.runG (cfg : Cfg) (codec : Codec) (r : Reader) (g : Globals) : RdCall → RdOut × Reader × Globals
  | .read α ops name =>
    let x := Reader.readG cfg codec ops name (r, g)
    (.read α x.1, x.2)
  | .peek name =>
    let x := Reader.peekG cfg codec name (r, g)
    (.peek x.1, x.2)
  | .contains name => (.contains (r.contains name), r, g)
  | .keys => (.keys r.keys, r, g)

/-- One call on a path. A file that is being written holds what the stream was given so far. (client code of npy.h:271-351,
npy.cpp:128-135, npz.cpp:467-578) -/
def TCall.run (cfg : Cfg) (codec : Codec) (p : Bytes) : TCall → Desk → TOut × Desk
  | .openW method e, d =>
    match d.obj p with
    | .none =>
      let o := d.fs.openOut p
      (.done (.ok ()), { d.set p (.writer (Writer.newFile o.1 method e)) with fs := o.2 })
    | _ => (.skipped, d)
  | .write c, d =>
    match d.obj p with
    | .writer w =>
      let r := c.run cfg codec w
      (.done r.1, { d.set p (.writer r.2) with fs := if d.fs.writable p then d.fs.put p r.2.output.buf else d.fs })
    | _ => (.skipped, d)
  | .openR, d =>
    match d.obj p with
    | .none =>
      match Reader.open (d.fs.openIn p) with
      | .ok r => (.done (.ok ()), d.set p (.reader r))
      | .error err => (.done (.error err), d)
    | _ => (.skipped, d)
  | .read c, d =>
    match d.obj p with
    | .reader r =>
      let x := c.runG cfg codec r d.g
      (.answer x.1, { d.set p (.reader x.2.1) with g := x.2.2 })
    | _ => (.skipped, d)
  | .destroy, d =>
    match d.obj p with
    | .writer w =>
      let w' := (Writer.destroy w).2
      (.done (.ok ()), { d.set p .none with fs := if d.fs.writable p then d.fs.put p w'.output.buf else d.fs })
    | .reader _ => (.done (.ok ()), d.set p .none)
    | .none => (.skipped, d)
  | .save t e, d =>
    match d.obj p with
    | .none =>
      let r := savePath cfg t.ops t.x e p d.fs
      (.done r.1, { d with fs := r.2 })
    | _ => (.skipped, d)
  | .load k, d =>
    let input := d.fs.openIn p
    if !input.isOpen then (.load k.α (.error (.throw (.invalidArgument .path))), d)
    else
      let x := loadG cfg k.ops (input, d.g)
      (.load k.α x.1, { d with g := x.2.2 })
  | .peek, d =>
    let input := d.fs.openIn p
    if !input.isOpen then (.peek (.error (.throw (.invalidArgument .path))), d)
    else
      let x := peekG cfg (input, d.g)
      (.peek x.1, { d with g := x.2.2 })

/-- A program: its calls with their outcomes. (client code of npy.h:271-351, npz.cpp:467-578) -/
def TCall.runAll (cfg : Cfg) (codec : Codec) : List (Bytes × TCall) → Desk → List (Bytes × TOut)
  | [], _ => []
  | (p, c) :: calls, d => (p, (c.run cfg codec p d).1) :: runAll cfg codec calls (c.run cfg codec p d).2

/-- Where a program leaves things. (client code of npy.h:271-351, npz.cpp:467-578) -/
def TCall.after (cfg : Cfg) (codec : Codec) : List (Bytes × TCall) → Desk → Desk
  | [], d => d
  | (p, c) :: calls, d => after cfg codec calls (c.run cfg codec p d).2

/-- Calls on any number of readers, on different files or the same one, numbered; the library's global objects are shared, the readers'
streams are not. (client code of npz.cpp:538-574, npy.h:635-638) -/
def RdCall.runAll (cfg : Cfg) (codec : Codec) : List (Nat × RdCall) → (Nat → Reader) → Globals → List (Nat × RdOut)
  | [], _, _ => []
  | (h, c) :: calls, rs, g =>
    let x := c.runG cfg codec (rs h) g
    (h, x.1) :: runAll cfg codec calls (fun k => if k = h then x.2.1 else rs k) x.2.2

end Npy
