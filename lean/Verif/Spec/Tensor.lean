import Verif.Spec.Npy
import Mathlib.Data.List.Forall2
/-!
# Specification: multi-indices, row-major and column-major positions

Independent of the functions of the model; only the data type `Tensor` is used.
-/

namespace Npy.Spec

/-- A multi-index with one component per axis, each below the extent of its axis. -/
def InRange (shape idx : List Nat) : Prop := List.Forall₂ (· < ·) idx shape

instance (shape idx : List Nat) : Decidable (InRange shape idx) := by unfold InRange; infer_instance

/-- Position of an element when the last index varies fastest. -/
def rowMajor (shape idx : List Nat) : Nat :=
  ((List.range shape.length).map fun k => idx.getD k 0 * (shape.drop (k + 1)).prod).sum

/-- Position of an element when the first index varies fastest. -/
def colMajor (shape idx : List Nat) : Nat :=
  ((List.range shape.length).map fun k => idx.getD k 0 * (shape.take k).prod).sum

/-- Position of an element in the buffer of a tensor. -/
def position (fortran : Bool) (shape idx : List Nat) : Nat :=
  if fortran then colMajor shape idx else rowMajor shape idx

/-- A number of 32 bits with sign, the index type of the variadic `operator()`, `get` and `set`. -/
def IsInt32 (i : Int) : Prop := -2 ^ 31 ≤ i ∧ i < 2 ^ 31

/-- NumPy's reading of an index for an axis: non-negative ones count from the start, negative ones from the end. -/
def Resolves (extent : Nat) (i : Int) (k : Nat) : Prop :=
  k < extent ∧ (i = (k : Int) ∨ i = (k : Int) - (extent : Int))

/-- A signed multi-index denotes an element of an array of this shape. -/
def Denotes (shape : List Nat) (idx : List Int) (ks : List Nat) : Prop :=
  idx.length = shape.length ∧ ks.length = shape.length ∧
    ∀ a (h : a < shape.length), ∃ i k, idx[a]? = some i ∧ ks[a]? = some k ∧ Resolves shape[a] i k

/-- What is left of a tensor that was moved from. -/
def MovedFrom {α : Type} (x : Tensor α) : Prop := x.shape = [] ∧ x.ravelStrides = [] ∧ x.values = []

end Npy.Spec
