import Verif.Model.Ravel
import Verif.Props.Tensor
/-!
# C92: `ravel` with iterators
-/

namespace Npy

open Spec

variable {α : Type} {dtype : DType} {sz : Nat}

/-- **C92** On a tensor in C order: with iterators over the index and the shape, the position of the element. -/
theorem C92_row_major (x : Tensor α) (hx : TensorOk dtype sz x) (hp : x.shape.prod < 2 ^ 64) (hf : x.fortranOrder = false)
    (idx : List Nat) (h : InRange x.shape idx) :
    x.ravelIt idx x.shape = .ok (position false x.shape idx) ∧ position false x.shape idx < x.values.length := by
  obtain ⟨h1, h2, -⟩ := C21_position x hx hp idx h
  unfold Tensor.ravelU at h1
  simp only [hf, Bool.false_eq_true, if_false] at h1 h2
  exact ⟨h1, h2⟩

/-- **C92** On a tensor in FORTRAN order: with reverse iterators over both. -/
theorem C92_column_major (x : Tensor α) (hx : TensorOk dtype sz x) (hp : x.shape.prod < 2 ^ 64) (hf : x.fortranOrder = true)
    (idx : List Nat) (h : InRange x.shape idx) :
    x.ravelIt idx.reverse x.shape.reverse = .ok (position true x.shape idx) ∧ position true x.shape idx < x.values.length := by
  obtain ⟨h1, h2, -⟩ := C21_position x hx hp idx h
  unfold Tensor.ravelU at h1
  simp only [hf, if_true] at h1 h2
  exact ⟨h1, h2⟩

/-- **C92** An index of the right length with a component at or above its extent throws, with iterators in either direction over both. -/
theorem C92_rejects (x : Tensor α) (hx : TensorOk dtype sz x) (idx : List Nat) (hl : idx.length = x.shape.length)
    (h : ¬ InRange x.shape idx) :
    x.ravelIt idx x.shape = .error (.throw (.invalidArgument .multiIndex)) ∧
    x.ravelIt idx.reverse x.shape.reverse = .error (.throw (.invalidArgument .multiIndex)) := by
  have key : ∀ (st is ds : List Nat) (acc : Nat), is.length = ds.length → st.length = ds.length → ¬ InRange ds is →
      Tensor.ravelLoop st is ds acc = .error (.throw (.invalidArgument .multiIndex)) := by
    intro st
    induction st with
    | nil =>
      intro is ds acc h1 h2 h3
      have hd : ds = [] := List.length_eq_zero_iff.1 h2.symm
      subst hd
      have hi : is = [] := List.length_eq_zero_iff.1 h1
      subst hi
      exact absurd List.Forall₂.nil h3
    | cons s st ih =>
      intro is ds acc h1 h2 h3
      match is, ds with
      | [], [] => simp at h2
      | i :: is, d :: ds =>
        rw [Tensor.ravelLoop]
        split
        · rfl
        · rename_i hid
          exact ih is ds _ (by simpa using h1) (by simpa using h2) fun h4 => h3 (.cons (by omega) h4)
  refine ⟨key _ _ _ _ hl hx.stridesLength h, key _ _ _ _ (by simpa using hl) (by simpa using hx.stridesLength) ?_⟩
  intro h4
  apply h
  have h5 := List.rel_reverse h4
  rw [List.reverse_reverse, List.reverse_reverse] at h5
  exact h5

/-- A column-major tensor of shape (3, 2). -/
def exRavelled : Tensor Elem :=
  { shape := [3, 2], ravelStrides := [3, 1], fortranOrder := true, dtype := .int16, values := List.replicate 6 [0] }

theorem exRavelled_new : Tensor.new (fixedOps .int16) [3, 2] true = .ok exRavelled := rfl

/-- **C92** is false of forward iterators on tensors in FORTRAN order: an index in range is accepted, and the position is outside the buffer. -/
theorem C92_false : ¬ ∀ (x : Tensor Elem), TensorOk .int16 2 x → ∀ idx, InRange x.shape idx → ∀ k, x.ravelIt idx x.shape = .ok k →
    k < x.values.length := by
  intro h
  have hx : TensorOk .int16 2 exRavelled := new_inv (ops := fixedOps .int16) (by decide) (by decide) exRavelled_new
  have := h exRavelled hx [2, 1] (.cons (by decide) (.cons (by decide) .nil)) 7 rfl
  revert this
  decide

example : exRavelled.ravelIt [1, 2] [2, 3] = .ok 5 ∧ exRavelled.ravelIt [2, 1] [3, 2] = .ok 7 ∧ position true [3, 2] [2, 1] = 5 := by decide

example : exRavelled.ravelIt [2, 1].reverse exRavelled.shape.reverse = .ok 5 :=
  (C92_column_major exRavelled (new_inv (ops := fixedOps .int16) (by decide) (by decide) exRavelled_new) (by decide) rfl [2, 1]
    (.cons (by decide) (.cons (by decide) .nil))).1

end Npy
