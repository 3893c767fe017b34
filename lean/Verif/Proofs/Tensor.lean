import Verif.Spec.Npy
/-! Sizes and strides. -/

namespace Npy
namespace Tensor

theorem foldl_mod (shape : List Nat) (a : Nat) :
    shape.foldl (fun size dim => size * dim % SIZE) (a % SIZE) = a * shape.prod % SIZE := by
  induction shape generalizing a with
  | nil => simp
  | cons d ds ih =>
    rw [List.foldl_cons, List.prod_cons]
    have : a % SIZE * d % SIZE = (a * d) % SIZE := by simp [Nat.mul_mod]
    rw [this, ih, Nat.mul_assoc]

theorem getSize_eq (shape : List Nat) : getSize shape = shape.prod % SIZE := by
  have := foldl_mod shape 1
  rw [Nat.one_mul] at this
  exact this

theorem strideScan_length (a : Nat) (ds : List Nat) : (strideScan a ds).length = ds.length := by
  induction ds generalizing a with
  | nil => rfl
  | cons d ds ih => simp [strideScan, ih]

theorem strideScan_get (a : Nat) (ds : List Nat) (k : Nat) (hk : k < ds.length) :
    (strideScan (a % SIZE) ds)[k]? = some (a * (ds.take k).prod % SIZE) := by
  induction ds generalizing a k with
  | nil => simp at hk
  | cons d ds ih =>
    cases k with
    | zero => simp [strideScan]
    | succ k =>
      have : a % SIZE * d % SIZE = (a * d) % SIZE := by simp [Nat.mul_mod]
      rw [strideScan, this, List.getElem?_cons_succ, ih _ _ (by simpa using hk), List.take_succ_cons, List.prod_cons,
        Nat.mul_assoc]

theorem getRavelStrides_length (shape : List Nat) (f : Bool) : (getRavelStrides shape f).length = shape.length := by
  cases f <;> simp [getRavelStrides, strideScan_length]

theorem getRavelStrides_get (shape : List Nat) (f : Bool) (k : Nat) (hk : k < shape.length) :
    (getRavelStrides shape f)[k]? = some
      ((if f then (shape.take (shape.length - 1 - k)).prod else (shape.drop (k + 1)).prod) % SIZE) := by
  unfold getRavelStrides
  have h1 : (1 : Nat) = 1 % SIZE := by decide
  rw [List.getElem?_reverse (by rw [strideScan_length]; cases f <;> simpa), strideScan_length]
  cases f with
  | true =>
    simp only [if_true]
    rw [h1, strideScan_get 1 shape _ (by omega), Nat.one_mul]
  | false =>
    simp only [Bool.false_eq_true, if_false, List.length_reverse]
    rw [h1, strideScan_get 1 _ _ (by simp; omega), Nat.one_mul, List.take_reverse, List.prod_reverse]
    congr 4
    omega

theorem ok_strides {α : Type} {dtype : DType} {sz : Nat} {x : Tensor α} (h : Spec.TensorOk dtype sz x) :
    x.ravelStrides = getRavelStrides x.shape x.fortranOrder := by
  apply List.ext_getElem?
  intro k
  by_cases hk : k < x.shape.length
  · rw [h.strides k hk, getRavelStrides_get _ _ _ hk]; rfl
  · rw [List.getElem?_eq_none (by rw [h.stridesLength]; omega),
      List.getElem?_eq_none (by rw [getRavelStrides_length]; omega)]

theorem ok_of_strides {α : Type} {dtype : DType} {sz : Nat} {x : Tensor α} (h1 : ∀ n ∈ x.shape, n < 2 ^ 64)
    (h2 : x.values.length = x.shape.prod % 2 ^ 64) (h3 : x.values.length * sz < 2 ^ 63) (h4 : x.dtype = dtype)
    (h5 : x.ravelStrides = getRavelStrides x.shape x.fortranOrder) : Spec.TensorOk dtype sz x where
  extents := h1
  size := h2
  fits := h3
  dtype := h4
  stridesLength := by rw [h5, getRavelStrides_length]
  strides := fun k hk => by rw [h5, getRavelStrides_get _ _ _ hk]; rfl

theorem le_maxSize_iff {α : Type} (ops : ElemOps α) (h : 0 < ops.sizeof) (n : Nat) :
    n ≤ maxSize ops ↔ n * ops.sizeof < 2 ^ 63 := by
  unfold maxSize
  rw [Nat.le_div_iff_mul_le h]
  omega

/-- The tensor built by the constructor for the shape and order of a well-formed tensor. -/
theorem new_of_ok {α : Type} {ops : ElemOps α} (hs : 0 < ops.sizeof) {x : Tensor α}
    (h : Spec.TensorOk ops.dtype ops.sizeof x) :
    Tensor.new ops x.shape x.fortranOrder = .ok { x with values := List.replicate x.values.length ops.zero } := by
  have h1 : getSize x.shape = x.values.length := by rw [getSize_eq, h.size]; rfl
  unfold Tensor.new
  rw [h1, if_neg (by rw [Nat.not_lt, le_maxSize_iff ops hs]; exact h.fits), ← ok_strides h, ← h.dtype]

end Tensor
end Npy
