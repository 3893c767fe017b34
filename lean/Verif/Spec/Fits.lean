import Verif.Spec.Npz
/-!
# Specification: the size of the data of a tensor
-/

namespace Npy.Spec

/-- The number of bytes of the elements of a tensor in an NPY file: the item size for each element; for strings, four bytes
for each character of the longest one. -/
inductive DataBytes : AnyTensor → Nat → Prop
  | fixed (t : DType) (x : Tensor Elem) : DataBytes ⟨Elem, fixedOps t, x⟩ (x.values.length * itemSize t)
  | wide (x : Tensor WStr) : DataBytes ⟨WStr, wideOps, x⟩ (x.values.length * (4 * longest x.values))

end Npy.Spec
