import Verif.Model.Tensor
/-!
# `ravel` with iterators
-/

namespace Npy

/-- npy.h:938-950 the public member template `ravel(index, shape)`: the lists are what the iterators run over; the loop is `ravelLoop`, over the
strides of the tensor from their beginning, whatever its order. -/
def Tensor.ravelIt {α : Type} (t : Tensor α) (index shape : List Nat) : Except Err Nat := Tensor.ravelLoop t.ravelStrides index shape 0

end Npy
