import Verif.Spec.Npz
/-!
# Client programs on NPZ writers and readers

Sequences of the calls modelled in `Model/Npz`.
-/

namespace Npy

/-- `for (auto& [name, tensor] : writes) writer.write(name, tensor);` (npy.h:432-449, 506-523); the first exception ends
the loop. -/
def Writer.writeAll (cfg : Cfg) (codec : Codec) : List (Bytes × AnyTensor) → WM Unit
  | [] => pure ()
  | (name, t) :: rest => do
    Writer.write cfg codec t.ops name t.x
    Writer.writeAll cfg codec rest

/-- A call on a writer. (client code of npy.h:407-536) -/
inductive WrCall
  /-- `write(name, tensor)` (npy.h:432-449, 506-523) -/
  | write (t : AnyTensor) (name : Bytes)
  /-- `close()` (npz.cpp:460-465, 502-508) -/
  | close

/-- One call: its outcome and the writer after it. (client code) -/
def WrCall.run (cfg : Cfg) (codec : Codec) (w : Writer) : WrCall → Except Err Unit × Writer
  | .write t name => Writer.write cfg codec t.ops name t.x w
  | .close => Writer.close w

/-- The writer after a sequence of calls, exceptions being caught by the caller. (client code) -/
def Writer.after (cfg : Cfg) (codec : Codec) (w : Writer) (calls : List WrCall) : Writer :=
  calls.foldl (fun w c => (c.run cfg codec w).2) w

/-- The calls of a sequence with their outcomes. (client code) -/
def Writer.trace (cfg : Cfg) (codec : Codec) : Writer → List WrCall → List (WrCall × Except Err Unit)
  | _, [] => []
  | w, c :: calls => (c, (c.run cfg codec w).1) :: Writer.trace cfg codec (c.run cfg codec w).2 calls

/-- A call on a reader. (client code of npy.h:539-665) -/
inductive RdCall
  /-- `read<tensor<T>>(name)` for some `T` (npy.h:570-573, 635-638) -/
  | read (α : Type) (ops : ElemOps α) (name : Bytes)
  /-- `peek(name)` (npz.cpp:533-536, 571-574) -/
  | peek (name : Bytes)
  /-- `contains(name)` (npz.cpp:529-531, 567-569) -/
  | contains (name : Bytes)
  /-- `keys()` (npz.cpp:523, 561) -/
  | keys

/-- The reader after a call, whether it returned or threw. (client code) -/
def RdCall.run (cfg : Cfg) (codec : Codec) (r : Reader) : RdCall → Reader
  | .read _ ops name => (Reader.read cfg codec ops name r).2
  | .peek name => (Reader.peek cfg codec name r).2
  | .contains _ => r
  | .keys => r

/-- A call on a file reader, which can also be closed (npz.cpp:578). -/
inductive FileCall
  | call (c : RdCall)
  | close

/-- The file reader after a sequence of calls. (client code) -/
def Reader.afterFile (cfg : Cfg) (codec : Codec) (r : Reader) (calls : List FileCall) : Reader :=
  calls.foldl (fun r c => match c with | .call c => c.run cfg codec r | .close => r.close) r

/-- The reader after a sequence of calls. (client code) -/
def Reader.after (cfg : Cfg) (codec : Codec) (r : Reader) (calls : List RdCall) : Reader :=
  calls.foldl (RdCall.run cfg codec) r

end Npy
