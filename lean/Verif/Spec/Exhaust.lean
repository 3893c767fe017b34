import Verif.Model.Exhaust
/-!
# What an archive should hold after memory ran out now and then (C79)

The writes that returned, in order, each with the room the string stream of its file had.
-/

namespace Npy.Spec

/-- The NPY file of a tensor, made in a string stream with this much room. -/
def savedIn (cfg : Cfg) (t : AnyTensor) (e : Endian) (room : Option Nat) : Except Err Bytes :=
  (save cfg t.ops t.x e { OStream.empty with cap := room }).map (·.buf)

/-- A tensor that was written, and the room its file had. -/
abbrev Put := Bytes × (AnyTensor × Option Nat)

/-- What a call adds to the writes that succeeded. -/
def adds (c : MemCall) (outcome : Except MemErr Unit) : List Put :=
  match c, outcome with
  | .write t name short, .ok _ => [(name, t, short.room)]
  | _, _ => []

/-- The writes that succeeded, in order. -/
def memDone (trace : List (MemCall × Except MemErr Unit)) : List Put := trace.flatMap fun p => adds p.1 p.2

end Npy.Spec
