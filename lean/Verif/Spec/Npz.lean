import Verif.Model.Npz
import Verif.Spec.Npy
/-!
# Specification: an NPZ archive as a map from names to tensors

Uses only data types of the model, not its functions.
-/

namespace Npy

/-- A tensor of any element type (npy.h's `write` and `read` are templates). -/
structure AnyTensor where
  α : Type
  ops : ElemOps α
  x : Tensor α

namespace Spec

/-- The name under which a tensor is stored: with ".npy" at its end. -/
def storedName (name : Bytes) : Bytes := if b!".npy" <:+ name then name else name ++ b!".npy"

/-- The last of a list of writes whose stored name is `stored`. -/
def lastWrite {β : Type _} (writes : List (Bytes × β)) (stored : Bytes) : Option β :=
  (writes.reverse.find? fun w => storedName w.1 = stored).map (·.2)

/-- What a reader finds under a name: the last write stored under exactly that name, else the last write stored under the
name with ".npy" appended. -/
def lookup {β : Type _} (writes : List (Bytes × β)) (name : Bytes) : Option β :=
  match lastWrite writes name with
  | some b => some b
  | none => lastWrite writes (name ++ b!".npy")

/-- A tensor that one NPY file can hold and give back: of a fixed-size element type, or of strings without NUL, with values
of that type, a well-formed layout, and a header dictionary of at most 245 characters (C01, C03). -/
inductive Storable (cfg : Cfg) (e : Endian) : AnyTensor → Prop
  | fixed (t : DType) (ht : t ≠ .unicode) (x : Tensor Elem) (hx : TensorOk t (itemSize t) x)
      (hv : ∀ v ∈ x.values, IsElem t v)
      (hlen : (headerDict (descr t (isBig cfg e)) x.fortranOrder x.shape).length ≤ 245) :
      Storable cfg e ⟨Elem, fixedOps t, x⟩
  | wide (x : Tensor WStr) (hx : TensorOk .unicode 32 x) (hw : ∀ v ∈ x.values, IsWide cfg v)
      (h0 : ∀ v ∈ x.values, 0 ∉ v) (hmax : longest x.values < 2 ^ 31)
      (hlen : (headerDict (descrU (longest x.values) (isBig cfg e)) x.fortranOrder x.shape).length ≤ 245) :
      Storable cfg e ⟨WStr, wideOps, x⟩

end Spec
end Npy
