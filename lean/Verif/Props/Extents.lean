import Verif.Model.Images
import Verif.Props.Tensor
import Verif.Props.Npy
/-!
# C91: asking for one extent
-/

namespace Npy

open Spec

/-- **C91** `shape(i)` returns exactly for `0 ≤ i < ndim()`, and then the `i`-th extent; for every other `i` it is undefined behaviour. -/
theorem C91_extent {α : Type} (x : Tensor α) (i : Int) :
    (∀ n, x.shapeAt i = .ok n ↔ 0 ≤ i ∧ x.shape[i.toNat]? = some n) ∧
    ((i < 0 ∨ (x.shape.length : Int) ≤ i) ↔ x.shapeAt i = .error .ub) := by
  unfold Tensor.shapeAt
  by_cases h : i < 0
  · rw [if_pos h]
    refine ⟨fun n => ⟨?_, ?_⟩, fun _ => rfl, fun _ => .inl h⟩
    · intro a; cases a
    · intro a; omega
  · rw [if_neg h]
    cases hs : x.shape[i.toNat]? with
    | none =>
      have := List.getElem?_eq_none_iff.1 hs
      refine ⟨fun n => ⟨?_, ?_⟩, fun _ => rfl, fun _ => .inr (by omega)⟩
      · intro a; cases a
      · intro a; cases a.2
    | some n =>
      have := (List.getElem?_eq_some_iff.1 hs).1
      refine ⟨fun m => ⟨?_, ?_⟩, ?_, ?_⟩
      · intro a; cases a; exact ⟨by omega, rfl⟩
      · intro a; cases a.2; rfl
      · intro a; omega
      · intro a; cases a

/-- The outcomes of `shape(0)`, `shape(1)`, ..., `shape(ndim() - 1)`. -/
def Spec.extents {α : Type} (x : Tensor α) : List (Except Err Nat) := (List.range x.shape.length).map fun k : Nat => x.shapeAt (k : Int)

/-- **C91** One after the other they are the vector `shape()`. -/
theorem C91_all {α : Type} (x : Tensor α) : extents x = x.shape.map .ok := by
  unfold extents
  refine List.ext_getElem (by simp) fun i h1 h2 => ?_
  rw [List.getElem_map, List.getElem_map, List.getElem_range]
  exact ((C91_extent x _).1 _).2 ⟨by omega, by
    rw [Int.toNat_natCast, List.getElem?_eq_getElem]⟩

/-- **C91** An index is accepted by `get` if it has as many components as `ndim()`, each at least `-shape(a)` and less than `shape(a)`: then it
denotes an element, whatever these extents are. -/
theorem C91_bounds {α : Type} {dtype : DType} {sz : Nat} (x : Tensor α) (hx : TensorOk dtype sz x) (hp : x.shape.prod < 2 ^ 64)
    (idx : List Int) (hi : ∀ i ∈ idx, IsInt32 i) :
    (∃ v, x.get idx = .ok v) ↔ idx.length = x.shape.length ∧
      ∀ (a : Nat) (i : Int), idx[a]? = some i → ∃ n, x.shapeAt a = .ok n ∧ -(n : Int) ≤ i ∧ i < n := by
  have key : (∃ ks, Denotes x.shape idx ks) ↔ idx.length = x.shape.length ∧
      ∀ (a : Nat) (i : Int), idx[a]? = some i → ∃ n, x.shapeAt a = .ok n ∧ -(n : Int) ≤ i ∧ i < n := by
    constructor
    · rintro ⟨ks, h1, -, h3⟩
      refine ⟨h1, fun a i ha => ?_⟩
      have hl : a < x.shape.length := h1 ▸ (List.getElem?_eq_some_iff.1 ha).1
      obtain ⟨j, k, e1, -, e3⟩ := h3 a hl
      rw [ha] at e1
      cases e1
      refine ⟨x.shape[a], ((C91_extent x _).1 _).2 ⟨by omega, by rw [Int.toNat_natCast, List.getElem?_eq_getElem hl]⟩, ?_⟩
      unfold Resolves at e3
      omega
    · rintro ⟨h1, h2⟩
      refine ⟨List.zipWith (fun (i : Int) (n : Nat) => if i < 0 then (i + (n : Int)).toNat else i.toNat) idx x.shape, h1, by simp [h1], fun a hl => ?_⟩
      have hl' : a < idx.length := h1 ▸ hl
      obtain ⟨n, e1, e2, e3⟩ := h2 a idx[a] (List.getElem?_eq_getElem hl')
      have e4 := (((C91_extent x _).1 _).1 e1).2
      rw [Int.toNat_natCast, List.getElem?_eq_getElem hl] at e4
      cases e4
      refine ⟨idx[a], _, List.getElem?_eq_getElem hl', List.getElem?_eq_getElem (by simp [h1, hl]), ?_⟩
      rw [List.getElem_zipWith]
      unfold Resolves
      split <;> omega
  rw [← key]
  constructor
  · rintro ⟨v, hv⟩
    by_contra h
    rw [(C25_signed_rejects x hx idx hi h v).1] at hv
    cases hv
  · rintro ⟨ks, h⟩
    obtain ⟨-, -, v, -, h2⟩ := C21_position x hx hp ks h.inRange
    refine ⟨v, ?_⟩
    unfold Tensor.get
    rw [ravelI_denotes x hx hi h]
    exact h2

/-- **C91** Unlike an index, the argument of `shape` never counts from the end. -/
theorem C91_false : ¬ ∀ (x : Tensor Elem), x.shape ≠ [] → ∃ n, x.shapeAt (-1) = .ok n := by
  intro h
  obtain ⟨n, hn⟩ := h exTensor (by decide)
  cases hn

example : extents exTensor = [.ok 2, .ok 3] := C91_all exTensor

example : (∃ v, exTensor.get [-2, 2] = .ok v) ∧ ¬ ∃ v, exTensor.get [-3, 2] = .ok v := by
  have hi : ∀ i : Int, -3 ≤ i ∧ i ≤ 2 → IsInt32 i := by unfold IsInt32; omega
  rw [C91_bounds exTensor exTensor_ok (by decide) _ (by simp only [List.mem_cons, List.not_mem_nil, or_false]; rintro _ (rfl | rfl) <;> exact hi _ (by decide)),
    C91_bounds exTensor exTensor_ok (by decide) _ (by simp only [List.mem_cons, List.not_mem_nil, or_false]; rintro _ (rfl | rfl) <;> exact hi _ (by decide))]
  constructor
  · refine ⟨rfl, fun a i h => ?_⟩
    match a, h with
    | 0, h => cases h; exact ⟨2, rfl, by decide⟩
    | 1, h => cases h; exact ⟨3, rfl, by decide⟩
  · rintro ⟨-, h⟩
    obtain ⟨n, h1, h2, -⟩ := h 0 (-3) rfl
    cases h1
    omega

end Npy
