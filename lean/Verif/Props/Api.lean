import Verif.Model.Tensor
/-!
# Client calls

The calls a user makes on string streams, in terms of the model.
-/

namespace Npy

/-- `std::ostringstream out; npy::save(out, x, e); out.str()` -/
def saveToString {α : Type} (cfg : Cfg) (ops : ElemOps α) (x : Tensor α) (e : Endian) : Except Err Bytes :=
  (save cfg ops x e OStream.empty).map (·.buf)

/-- `std::istringstream in(bytes); npy::load<tensor<T>>(in)` -/
def loadFromString {α : Type} (cfg : Cfg) (ops : ElemOps α) (bytes : Bytes) : Except Err (Tensor α) :=
  (load cfg ops (IStream.ofBytes bytes)).1

/-- `std::istringstream in(bytes); npy::peek(in)` -/
def peekString (cfg : Cfg) (bytes : Bytes) : Except Err HeaderInfo := (peek cfg (IStream.ofBytes bytes)).1

end Npy
