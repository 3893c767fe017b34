import Verif.Model.History
import Verif.Proofs.Index
import Verif.Proofs.Blind
import Verif.Props.Data
/-!
# C20-C27: tensors in memory
-/

namespace Npy
open Spec

variable {α : Type} {dtype : DType} {sz : Nat}

/-! ### C21 -/

/-- **C21** For a tensor whose element count fits 64 bits, the element at an in-range multi-index is the one at its
row-major (column-major, for FORTRAN order) position, and that position is inside the buffer. -/
theorem C21_position (x : Tensor α) (hx : TensorOk dtype sz x) (hp : x.shape.prod < 2 ^ 64) (idx : List Nat)
    (h : InRange x.shape idx) :
    x.ravelU idx = .ok (position x.fortranOrder x.shape idx) ∧
    position x.fortranOrder x.shape idx < x.values.length ∧
    ∃ v, x.values[position x.fortranOrder x.shape idx]? = some v ∧ x.getU idx = .ok v := by
  have hl : position x.fortranOrder x.shape idx < x.shape.prod := position_lt h
  have hlen : x.values.length = x.shape.prod := by rw [hx.size, Nat.mod_eq_of_lt hp]
  have hr := Tensor.ravelU_ok hx h
  rw [Nat.mod_eq_of_lt (by unfold SIZE; omega)] at hr
  refine ⟨hr, by omega, x.values[position x.fortranOrder x.shape idx]'(by omega), ?_, ?_⟩
  · rw [List.getElem?_eq_getElem (by omega)]
  · unfold Tensor.getU
    rw [hr]
    simp only [Tensor.at?]
    rw [List.getElem?_eq_getElem (by omega)]

/-- A 2×3 tensor, once in each order. -/
def exC : Tensor Elem := ⟨[2, 3], [3, 1], false, .int16, [[0], [1], [2], [3], [4], [5]]⟩
def exF : Tensor Elem := ⟨[2, 3], [2, 1], true, .int16, [[0], [3], [1], [4], [2], [5]]⟩

theorem exC_ok : TensorOk .int16 2 exC where
  extents := by decide
  size := by decide
  fits := by decide
  dtype := rfl
  stridesLength := rfl
  strides := by decide

theorem exF_ok : TensorOk .int16 2 exF where
  extents := by decide
  size := by decide
  fits := by decide
  dtype := rfl
  stridesLength := rfl
  strides := by decide

example : InRange [2, 3] [1, 2] ∧ position false [2, 3] [1, 0] = 3 ∧ position true [2, 3] [1, 0] = 1 ∧
    exC.getU [1, 0] = .ok [3] ∧ exF.getU [1, 0] = .ok [3] := by decide

/-! ### C22 -/

/-- **C22** Every element of the buffer is addressed by exactly one in-range multi-index. -/
theorem C22_bijection (x : Tensor α) (hx : TensorOk dtype sz x) (hp : x.shape.prod < 2 ^ 64) (p : Nat)
    (h : p < x.values.length) : ∃! idx, InRange x.shape idx ∧ x.ravelU idx = .ok p := by
  have hlen : x.values.length = x.shape.prod := by rw [hx.size, Nat.mod_eq_of_lt hp]
  obtain ⟨idx, h1, h2⟩ := position_surj x.fortranOrder x.shape p (by omega)
  refine ⟨idx, ⟨h1, ?_⟩, ?_⟩
  · rw [← h2]; exact (C21_position x hx hp idx h1).1
  · rintro idx' ⟨h3, h4⟩
    rw [(C21_position x hx hp idx' h3).1] at h4
    apply position_inj h3 h1
    rw [h2]
    simpa using h4

/-- **C22** Distinct in-range multi-indices address distinct elements. -/
theorem C22_injective (x : Tensor α) (hx : TensorOk dtype sz x) (hp : x.shape.prod < 2 ^ 64) (i j : List Nat)
    (hi : InRange x.shape i) (hj : InRange x.shape j) (h : x.ravelU i = x.ravelU j) : i = j := by
  rw [(C21_position x hx hp i hi).1, (C21_position x hx hp j hj).1] at h
  exact position_inj hi hj (by simpa using h)

example : ∃! idx, InRange [2, 3] idx ∧ exF.ravelU idx = .ok 4 :=
  C22_bijection exF exF_ok (by decide) 4 (by decide)

/-! ### C24, C25 -/

theorem absIndex_resolves {d : Nat} (hd : d < 2 ^ 64) {i : Int} (hi : IsInt32 i) (k : Nat) :
    Resolves d i k ↔ Tensor.absIndex i d = k ∧ k < d := by
  unfold Resolves IsInt32 Tensor.absIndex SIZE at *
  have e : ((2 ^ 64 : Nat) : Int) = 18446744073709551616 := by norm_num
  rw [e]
  split <;> omega

theorem denotes_iff {shape : List Nat} (hs : ∀ n ∈ shape, n < 2 ^ 64) {idx : List Int} (hi : ∀ i ∈ idx, IsInt32 i)
    (ks : List Nat) :
    Denotes shape idx ks ↔
      idx.length = shape.length ∧ List.zipWith Tensor.absIndex idx shape = ks ∧ InRange shape ks := by
  induction shape generalizing idx ks with
  | nil =>
    unfold Denotes InRange
    constructor
    · rintro ⟨h1, h2, -⟩
      simp only [List.length_nil, List.length_eq_zero_iff] at h1 h2
      subst h1 h2
      simp
    · rintro ⟨h1, h2, -⟩
      simp only [List.length_nil, List.length_eq_zero_iff] at h1
      subst h1
      simp at h2
      subst h2
      simp
  | cons d ds ih =>
    cases idx with
    | nil =>
      constructor
      · rintro ⟨h1, -⟩; simp at h1
      · rintro ⟨h1, -⟩; simp at h1
    | cons i is =>
      have hd : d < 2 ^ 64 := hs d (by simp)
      have hi' : IsInt32 i := hi i (by simp)
      have ih' := fun ks => ih (fun n h => hs n (by simp [h])) (idx := is) (fun n h => hi n (by simp [h])) ks
      constructor
      · rintro ⟨h1, h2, h3⟩
        cases ks with
        | nil => simp at h2
        | cons k ks =>
          obtain ⟨i', k', e1, e2, h4⟩ := h3 0 (by simp)
          simp only [List.getElem?_cons_zero, Option.some.injEq] at e1 e2
          subst e1 e2
          rw [List.getElem_cons_zero, absIndex_resolves hd hi'] at h4
          have := (ih' ks).1 ⟨by simpa using h1, by simpa using h2, fun a ha => by
            have := h3 (a + 1) (by simpa using ha)
            simp only [List.getElem_cons_succ, List.getElem?_cons_succ] at this
            exact this⟩
          refine ⟨h1, ?_, List.Forall₂.cons h4.2 this.2.2⟩
          rw [List.zipWith_cons_cons, h4.1, this.2.1]
      · rintro ⟨h1, h2, h3⟩
        rw [List.zipWith_cons_cons] at h2
        cases h3 with
        | @cons k _ ks _ hk hr =>
          simp only [List.cons.injEq] at h2
          obtain ⟨g1, g2, g3⟩ := (ih' ks).2 ⟨by simpa using h1, h2.2, hr⟩
          refine ⟨h1, by simpa using g2, ?_⟩
          intro a ha
          cases a with
          | zero => exact ⟨i, k, rfl, rfl, (absIndex_resolves hd hi' k).2 ⟨h2.1, hk⟩⟩
          | succ a => simpa using g3 a (by simpa using ha)

theorem Spec.Denotes.inRange {shape : List Nat} {idx : List Int} {ks : List Nat} (h : Denotes shape idx ks) :
    InRange shape ks := by
  unfold InRange
  rw [List.forall₂_iff_get]
  refine ⟨h.2.1, ?_⟩
  intro a h1 h2
  obtain ⟨i, k, _, e, hk, _⟩ := h.2.2 a h2
  have e' : ks[a] = k := by rw [List.getElem?_eq_getElem h1] at e; simpa using e
  simpa [e'] using hk

theorem ravelI_denotes (x : Tensor α) (hx : TensorOk dtype sz x) {idx : List Int} (hi : ∀ i ∈ idx, IsInt32 i)
    {ks : List Nat} (h : Denotes x.shape idx ks) : x.ravelI idx = x.ravelU ks := by
  obtain ⟨h1, h2, _⟩ := (denotes_iff hx.extents hi ks).1 h
  rw [Tensor.ravelI, if_neg (by simpa using h1), h2]

theorem ravelI_rejects (x : Tensor α) (hx : TensorOk dtype sz x) {idx : List Int} (hi : ∀ i ∈ idx, IsInt32 i)
    (h : ¬ ∃ ks, Denotes x.shape idx ks) : x.ravelI idx = .error (.throw (.invalidArgument .multiIndex)) := by
  unfold Tensor.ravelI
  split
  · rfl
  · rename_i hl
    have hl' : idx.length = x.shape.length := by simpa using hl
    apply Tensor.ravelU_throw hx
    · simp [hl']
    · intro hr
      exact h ⟨_, (denotes_iff hx.extents hi _).2 ⟨hl', rfl, hr⟩⟩

/-- **C24** An index component from the end addresses what NumPy says it does: a signed multi-index denoting the element
at `ks` reads and writes exactly what the unsigned multi-index `ks` does. -/
theorem C24_signed_index (x : Tensor α) (hx : TensorOk dtype sz x) (idx : List Int) (hi : ∀ i ∈ idx, IsInt32 i)
    (ks : List Nat) (h : Denotes x.shape idx ks) (v : α) :
    x.get idx = x.getU ks ∧ x.set idx v = x.setU ks v := by
  have := ravelI_denotes x hx hi h
  unfold Tensor.get Tensor.getU Tensor.set Tensor.setU
  rw [this]
  exact ⟨rfl, rfl⟩

/-- **C25** A signed multi-index that denotes no element (wrong number of components, or a component at or above
the extent or below minus the extent) throws `std::invalid_argument`, for reading and for writing. -/
theorem C25_signed_rejects (x : Tensor α) (hx : TensorOk dtype sz x) (idx : List Int) (hi : ∀ i ∈ idx, IsInt32 i)
    (h : ¬ ∃ ks, Denotes x.shape idx ks) (v : α) :
    x.get idx = .error (.throw (.invalidArgument .multiIndex)) ∧
    x.set idx v = .error (.throw (.invalidArgument .multiIndex)) := by
  have := ravelI_rejects x hx hi h
  unfold Tensor.get Tensor.set
  rw [this]
  exact ⟨rfl, rfl⟩

/-- **C24** In particular any component at or above its extent, or below minus its extent, throws. -/
theorem C24_out_of_range (x : Tensor α) (hx : TensorOk dtype sz x) (idx : List Int) (hi : ∀ i ∈ idx, IsInt32 i)
    (a : Nat) (ha : a < x.shape.length) (i : Int) (hia : idx[a]? = some i)
    (h : (x.shape[a] : Int) ≤ i ∨ i < -(x.shape[a] : Int)) (v : α) :
    x.get idx = .error (.throw (.invalidArgument .multiIndex)) ∧
    x.set idx v = .error (.throw (.invalidArgument .multiIndex)) := by
  apply C25_signed_rejects x hx idx hi
  rintro ⟨ks, -, -, h3⟩
  obtain ⟨i', k, e1, -, hk, hr⟩ := h3 a ha
  rw [hia, Option.some.injEq] at e1
  subst e1
  omega

/-- **C25** The unsigned overload with the right number of components throws exactly when one is out of range. -/
theorem C25_unsigned_rejects (x : Tensor α) (hx : TensorOk dtype sz x) (idx : List Nat)
    (hl : idx.length = x.shape.length) (h : ¬ InRange x.shape idx) (v : α) :
    x.getU idx = .error (.throw (.invalidArgument .multiIndex)) ∧
    x.setU idx v = .error (.throw (.invalidArgument .multiIndex)) := by
  have := Tensor.ravelU_throw hx hl h
  unfold Tensor.getU Tensor.setU
  rw [this]
  exact ⟨rfl, rfl⟩

/-- **C25** The unsigned overload with too many components ignores the surplus: the trailing components for row-major
tensors, the leading ones for column-major tensors. -/
theorem C25_unsigned_long (x : Tensor α) (hx : TensorOk dtype sz x) (idx extra : List Nat)
    (h : InRange x.shape idx) :
    (x.fortranOrder = false → x.getU (idx ++ extra) = x.getU idx) ∧
    (x.fortranOrder = true → x.getU (extra ++ idx) = x.getU idx) := by
  have hs := Tensor.ok_strides hx
  constructor
  · intro hf
    have e : x.ravelU (idx ++ extra) = x.ravelU idx := by
      unfold Tensor.ravelU
      rw [hf] at hs
      rw [hf, hs]
      have h1 := Tensor.ravelLoop_ok h extra 0
      have h2 := Tensor.ravelLoop_ok h [] 0
      rw [List.append_nil] at h2
      simp only [Nat.zero_mod] at h1 h2
      simp only [Bool.false_eq_true, if_false]
      rw [h1, h2]
    unfold Tensor.getU
    rw [e]
  · intro hf
    have e : x.ravelU (extra ++ idx) = x.ravelU idx := by
      unfold Tensor.ravelU
      rw [hf, Tensor.strides_fortran] at hs
      rw [hf, hs]
      have h1 := Tensor.ravelLoop_ok h.reverse extra.reverse 0
      have h2 := Tensor.ravelLoop_ok h.reverse [] 0
      rw [List.append_nil] at h2
      simp only [Nat.zero_mod] at h1 h2
      simp only [if_true, List.reverse_append]
      rw [h1, h2]
    unfold Tensor.getU
    rw [e]

/-- **C25** The unsigned overload with too few components, all of them in range, is undefined behaviour (it reads past
the end of the index). -/
theorem C25_unsigned_short_undefined (x : Tensor α) (hx : TensorOk dtype sz x) (idx : List Nat)
    (hl : idx.length < x.shape.length) :
    (x.fortranOrder = false → InRange (x.shape.take idx.length) idx → x.getU idx = .error .ub) ∧
    (x.fortranOrder = true → InRange (x.shape.drop (x.shape.length - idx.length)) idx → x.getU idx = .error .ub) := by
  have hs := Tensor.ok_strides hx
  constructor
  · intro hf hr
    unfold Tensor.getU Tensor.ravelU
    rw [hf] at hs
    rw [hf, hs]
    simp only [Bool.false_eq_true, if_false]
    rw [Tensor.ravelLoop_short hl, if_pos hr]
  · intro hf hr
    unfold Tensor.getU Tensor.ravelU
    rw [hf, Tensor.strides_fortran] at hs
    rw [hf, hs]
    simp only [if_true]
    rw [Tensor.ravelLoop_short (by simpa using hl), if_pos]
    rw [List.length_reverse, List.take_reverse]
    exact hr.reverse

example : Denotes [2, 3] [-1, 0] [1, 0] ∧ (∀ i ∈ [-1, (0 : Int)], IsInt32 i) ∧ exC.get [-1, 0] = .ok [3] := by
  refine ⟨(denotes_iff (by decide) (by simp [IsInt32]) _).2 ⟨rfl, by decide, by decide⟩, by simp [IsInt32], by decide⟩

example : (¬ ∃ ks, Denotes [2, 3] [-3, 0] ks) ∧ exC.get [-3, 0] = .error (.throw (.invalidArgument .multiIndex)) := by
  refine ⟨?_, by decide⟩
  rintro ⟨ks, h⟩
  obtain ⟨-, h2, h3⟩ := (denotes_iff (by decide) (by simp [IsInt32]) _).1 h
  subst h2
  revert h3
  decide

example : exC.getU [1] = .error .ub ∧ exC.getU [1, 2, 7] = .ok [5] ∧ exF.getU [7, 1, 2] = .ok [5] := by decide

/-! ### C23 -/

/-- **C23** `set` at an index denoting an element changes that element only. -/
theorem C23_get_set (x : Tensor α) (hx : TensorOk dtype sz x) (hp : x.shape.prod < 2 ^ 64) (i : List Int)
    (hi : ∀ c ∈ i, IsInt32 c) (ki : List Nat) (h : Denotes x.shape i ki) (v : α) :
    ∃ y, x.set i v = .ok y ∧ y.shape = x.shape ∧ y.fortranOrder = x.fortranOrder ∧ y.dtype = x.dtype ∧
      y.values.length = x.values.length ∧ TensorOk dtype sz y ∧ y.get i = .ok v ∧
      ∀ j kj, (∀ c ∈ j, IsInt32 c) → Denotes x.shape j kj → kj ≠ ki → y.get j = x.get j := by
  obtain ⟨h1, h2, -⟩ := C21_position x hx hp ki h.inRange
  have hri := ravelI_denotes x hx hi h
  refine ⟨{ x with values := x.values.set (position x.fortranOrder x.shape ki) v }, ?_, rfl, rfl, rfl, by simp, ?_, ?_, ?_⟩
  · unfold Tensor.set
    rw [hri, h1]
    simp only []
    rw [if_pos h2]
  · exact ⟨hx.extents, by simpa using hx.size, by simpa using hx.fits, hx.dtype, hx.stridesLength, hx.strides⟩
  · have e : Tensor.ravelI { x with values := x.values.set (position x.fortranOrder x.shape ki) v } i = x.ravelI i := rfl
    unfold Tensor.get
    rw [e, hri, h1]
    simp [Tensor.at?, h2]
  · intro j kj hj hd hne
    have e : Tensor.ravelI { x with values := x.values.set (position x.fortranOrder x.shape ki) v } j = x.ravelI j := rfl
    unfold Tensor.get
    rw [e, ravelI_denotes x hx hj hd, (C21_position x hx hp kj hd.inRange).1]
    simp only [Tensor.at?]
    rw [List.getElem?_set_ne]
    intro hc
    exact hne (position_inj hd.inRange h.inRange hc.symm)

/-- **C23** The same for the unsigned overload. -/
theorem C23_get_set_unsigned (x : Tensor α) (hx : TensorOk dtype sz x) (hp : x.shape.prod < 2 ^ 64) (i : List Nat)
    (h : InRange x.shape i) (v : α) :
    ∃ y, x.setU i v = .ok y ∧ y.shape = x.shape ∧ y.fortranOrder = x.fortranOrder ∧ y.dtype = x.dtype ∧
      y.values.length = x.values.length ∧ TensorOk dtype sz y ∧ y.getU i = .ok v ∧
      ∀ j, InRange x.shape j → j ≠ i → y.getU j = x.getU j := by
  obtain ⟨h1, h2, -⟩ := C21_position x hx hp i h
  refine ⟨{ x with values := x.values.set (position x.fortranOrder x.shape i) v }, ?_, rfl, rfl, rfl, by simp, ?_, ?_, ?_⟩
  · unfold Tensor.setU
    rw [h1]
    simp only []
    rw [if_pos h2]
  · exact ⟨hx.extents, by simpa using hx.size, by simpa using hx.fits, hx.dtype, hx.stridesLength, hx.strides⟩
  · have e : Tensor.ravelU { x with values := x.values.set (position x.fortranOrder x.shape i) v } i = x.ravelU i := rfl
    unfold Tensor.getU
    rw [e, h1]
    simp [Tensor.at?, h2]
  · intro j hj hne
    have e : Tensor.ravelU { x with values := x.values.set (position x.fortranOrder x.shape i) v } j = x.ravelU j := rfl
    unfold Tensor.getU
    rw [e, (C21_position x hx hp j hj).1]
    simp only [Tensor.at?]
    rw [List.getElem?_set_ne]
    intro hc
    exact hne (position_inj hj h hc.symm)

example : ∃ y, exF.set [-1, -1] [9] = .ok y ∧ y.get [1, 2] = .ok [9] ∧ y.get [0, 1] = .ok [1] := by
  refine ⟨_, rfl, ?_⟩; decide

/-! ### C27 -/

/-- **C27** When the element count fits 64 bits, no signed index at all, and no unsigned index with at least as many
components as axes, leads outside the buffer: the call returns an element or throws. -/
theorem C27_safe (x : Tensor α) (hx : TensorOk dtype sz x) (hp : x.shape.prod < 2 ^ 64) :
    (∀ idx : List Int, (∀ i ∈ idx, IsInt32 i) →
      (∃ v ∈ x.values, x.get idx = .ok v) ∨ x.get idx = .error (.throw (.invalidArgument .multiIndex))) ∧
    (∀ idx : List Nat, idx.length = x.shape.length →
      (∃ v ∈ x.values, x.getU idx = .ok v) ∨ x.getU idx = .error (.throw (.invalidArgument .multiIndex))) := by
  constructor
  · intro idx hi
    by_cases h : ∃ ks, Denotes x.shape idx ks
    · obtain ⟨ks, h⟩ := h
      obtain ⟨-, -, v, h1, h2⟩ := C21_position x hx hp ks h.inRange
      have hm := List.mem_of_getElem? h1
      exact .inl ⟨v, hm, by rw [(C24_signed_index x hx idx hi ks h v).1, h2]⟩
    · by_cases hv : x.values = []
      · right
        have := ravelI_rejects x hx hi h
        unfold Tensor.get
        rw [this]
      · obtain ⟨v, vs, hv⟩ := List.exists_cons_of_ne_nil hv
        exact .inr (C25_signed_rejects x hx idx hi h v).1
  · intro idx hl
    by_cases h : InRange x.shape idx
    · obtain ⟨-, -, v, h1, h2⟩ := C21_position x hx hp idx h
      exact .inl ⟨v, List.mem_of_getElem? h1, h2⟩
    · right
      have := Tensor.ravelU_throw hx hl h
      unfold Tensor.getU
      rw [this]

/-- **C27** The bound is exact: whenever the extents multiply to 2^64 or more, some in-range multi-index leads outside
the buffer (undefined behaviour). -/
theorem C27_overflow_unsafe (x : Tensor α) (hx : TensorOk dtype sz x) (hp : 2 ^ 64 ≤ x.shape.prod) :
    ∃ idx, InRange x.shape idx ∧ x.getU idx = .error .ub := by
  obtain ⟨idx, h1, h2⟩ := position_surj x.fortranOrder x.shape (2 ^ 64 - 1) (by omega)
  refine ⟨idx, h1, ?_⟩
  unfold Tensor.getU
  rw [Tensor.ravelU_ok hx h1, h2]
  have hl : x.values.length ≤ 2 ^ 64 - 1 := by
    have := Nat.mod_lt x.shape.prod (show 0 < 2 ^ 64 by decide)
    rw [hx.size]; omega
  simp only [Tensor.at?]
  rw [List.getElem?_eq_none (by rw [Nat.mod_eq_of_lt (by decide)]; exact hl)]

/-- **C27** is false without the bound: the constructor accepts such a shape, and reading its first element is undefined. -/
theorem C27_overflow_false :
    ∃ x, Tensor.new (fixedOps .float32) [2 ^ 32, 2 ^ 32] false = .ok x ∧ TensorOk .float32 4 x ∧
      InRange x.shape [0, 0] ∧ x.get [0, 0] = .error .ub := by
  refine ⟨⟨[2 ^ 32, 2 ^ 32], [2 ^ 32, 1], false, .float32, []⟩, by decide, ?_, by decide, by decide⟩
  exact ⟨by decide, by decide, by decide, rfl, rfl, by decide⟩

example : TensorOk .int16 2 exC ∧ exC.shape.prod < 2 ^ 64 ∧ exC.get [2, 0] = .error (.throw (.invalidArgument .multiIndex)) ∧
    exC.get [1, -1] = .ok [5] := ⟨exC_ok, by decide, by decide, by decide⟩

/-! ### C26 -/

/-- **C26** `copy_from` and `move_from` with a source of the right length replace the values and nothing else. -/
theorem C26_copy_move (x : Tensor α) (src : List α) (h : src.length = x.values.length) :
    x.copyFrom src = .ok { x with values := src } ∧
    x.moveFrom src = .ok { x with values := src } ∧
    ∀ more, x.copyFromPtr (src ++ more) src.length = .ok { x with values := src } := by
  refine ⟨?_, ?_, ?_⟩
  · rw [Tensor.copyFrom, if_neg (by simpa using h), List.drop_of_length_le (by omega), List.append_nil]
  · rw [Tensor.moveFrom, if_neg (by simpa using h)]
  · intro more
    rw [Tensor.copyFromPtr, if_neg (by simpa using h), if_neg (by simp), List.drop_of_length_le (by omega),
      List.take_left, List.append_nil]

/-- **C26** With any other length they throw `std::invalid_argument`, and a program that catches it finds every tensor
as it was. -/
theorem C26_rejects (cfg : Cfg) (ops : ElemOps α) (env : TEnv α) (v : Nat) (x : Tensor α) (hv : env v = some x)
    (src : List α) (n : Nat) (h : src.length ≠ x.values.length) (hn : n ≠ x.values.length) :
    x.copyFrom src = .error (.throw (.invalidArgument .sourceSize)) ∧
    x.moveFrom src = .error (.throw (.invalidArgument .sourceSize)) ∧
    x.copyFromPtr src n = .error (.throw (.invalidArgument .nitems)) ∧
    TOp.runAll cfg ops [.copyFrom v src, .moveFrom v src, .copyFromPtr v src n] env = some env := by
  have a : x.copyFrom src = .error (.throw (.invalidArgument .sourceSize)) := by
    rw [Tensor.copyFrom, if_pos (by simpa using h)]
  have b : x.moveFrom src = .error (.throw (.invalidArgument .sourceSize)) := by
    rw [Tensor.moveFrom, if_pos (by simpa using h)]
  have c : x.copyFromPtr src n = .error (.throw (.invalidArgument .nitems)) := by
    rw [Tensor.copyFromPtr, if_pos (by simpa using hn)]
  refine ⟨a, b, c, ?_⟩
  simp [TOp.runAll, TOp.step, hv, a, b, c, Except.map]

example : exC.copyFrom [[9], [8], [7], [6], [5], [4]] = .ok { exC with values := [[9], [8], [7], [6], [5], [4]] } ∧
    exC.moveFrom [[9]] = .error (.throw (.invalidArgument .sourceSize)) := by decide

/-! ### C20 -/

/-- What holds of every tensor object in every history. -/
def Tensor.Inv {α : Type} (ops : ElemOps α) (x : Tensor α) : Prop :=
  TensorOk ops.dtype ops.sizeof x ∨ (MovedFrom x ∧ x.dtype = ops.dtype)

theorem Tensor.Inv.setValues {ops : ElemOps α} {x : Tensor α} (h : x.Inv ops) {vals : List α}
    (hl : vals.length = x.values.length) : Tensor.Inv ops { x with values := vals } := by
  rcases h with h | h
  · exact .inl ⟨h.extents, by simpa [hl] using h.size, by simpa [hl] using h.fits, h.dtype, h.stridesLength, h.strides⟩
  · refine .inr ⟨⟨h.1.1, h.1.2.1, ?_⟩, h.2⟩
    have := h.1.2.2
    rw [this] at hl
    simpa using hl

theorem TEnv.put_inv {ops : ElemOps α} {env : TEnv α} (h : ∀ v x, env v = some x → x.Inv ops) {w : Nat} {y : Tensor α}
    (hy : y.Inv ops) : ∀ v x, env.put w y v = some x → x.Inv ops := by
  intro v x hx
  unfold TEnv.put at hx
  split at hx
  · simp only [Option.some.injEq] at hx; rw [← hx]; exact hy
  · exact h v x hx

theorem Except.map_ok {β γ : Type} {f : β → γ} {x : Except Err β} {c : γ} (h : x.map f = .ok c) : ∃ b, x = .ok b ∧ f b = c := by
  cases x with
  | error e => simp [Except.map] at h
  | ok b => exact ⟨b, rfl, by simpa [Except.map] using h⟩

theorem new_inv {ops : ElemOps α} (hs : 0 < ops.sizeof) {shape : List Nat} (hsh : ∀ n ∈ shape, n < 2 ^ 64) {f : Bool}
    {x : Tensor α} (h : Tensor.new ops shape f = .ok x) : TensorOk ops.dtype ops.sizeof x := by
  unfold Tensor.new at h
  split at h
  · simp at h
  · rename_i hle
    simp only [Except.ok.injEq] at h
    subst h
    refine Tensor.ok_of_strides hsh ?_ ?_ rfl rfl
    · simp [Tensor.getSize_eq, SIZE]
    · rw [Nat.not_lt, Tensor.le_maxSize_iff ops hs] at hle
      simpa using hle

/-- The extents a program passes to constructors are `size_t` values. -/
def TOp.Typed : TOp α → Prop
  | .construct _ shape _ => ∀ n ∈ shape, n < 2 ^ 64
  | _ => True

theorem step_inv (cfg : Cfg) (ops : ElemOps α) (ho : LibOps ops) (env env' : TEnv α)
    (henv : ∀ v x, env v = some x → x.Inv ops) (op : TOp α) (ht : op.Typed)
    (h : op.step cfg ops env = .ok env') : ∀ v x, env' v = some x → x.Inv ops := by
  have hsz : 0 < ops.sizeof := by
    cases ho with
    | fixed t htu => exact size_pos t htu
    | wide => decide
  cases op with
  | construct v shape f =>
    obtain ⟨x, h1, h2⟩ := Except.map_ok h
    rw [← h2]
    exact TEnv.put_inv henv (.inl (new_inv hsz ht h1))
  | load v input =>
    obtain ⟨x, h1, h2⟩ := Except.map_ok h
    rw [← h2]
    apply TEnv.put_inv henv
    have h3 : Npy.load cfg ops (IStream.ofBytes input) = (.ok x, (Npy.load cfg ops (IStream.ofBytes input)).2) := by
      rw [← h1]
    cases ho with
    | fixed t htu =>
      have := (C29_loaded_wellformed cfg t htu _ _ x h3).1
      rw [itemSize_eq t htu] at this
      exact .inl this
    | wide => exact .inl (C29_loaded_wellformed_unicode cfg _ _ x h3).1
  | set v idx val =>
    simp only [TOp.step] at h
    split at h
    · rename_i x hx
      obtain ⟨y, h1, h2⟩ := Except.map_ok h
      rw [← h2]
      apply TEnv.put_inv henv
      unfold Tensor.set at h1
      split at h1
      · split at h1
        · simp only [Except.ok.injEq] at h1
          rw [← h1]
          exact (henv v x hx).setValues (by simp)
        · simp at h1
      · simp at h1
    · simp at h
  | setU v idx val =>
    simp only [TOp.step] at h
    split at h
    · rename_i x hx
      obtain ⟨y, h1, h2⟩ := Except.map_ok h
      rw [← h2]
      apply TEnv.put_inv henv
      unfold Tensor.setU at h1
      split at h1
      · split at h1
        · simp only [Except.ok.injEq] at h1
          rw [← h1]
          exact (henv v x hx).setValues (by simp)
        · simp at h1
      · simp at h1
    · simp at h
  | poke v k val =>
    simp only [TOp.step] at h
    split at h
    · rename_i x hx
      split at h
      · simp only [Except.ok.injEq] at h
        rw [← h]
        exact TEnv.put_inv henv ((henv v x hx).setValues (by simp))
      · simp at h
    · simp at h
  | copyFromPtr v src n =>
    simp only [TOp.step] at h
    split at h
    · rename_i x hx
      obtain ⟨y, h1, h2⟩ := Except.map_ok h
      rw [← h2]
      apply TEnv.put_inv henv
      unfold Tensor.copyFromPtr at h1
      split at h1
      · simp at h1
      · split at h1
        · simp at h1
        · rename_i hn hlt
          simp only [Except.ok.injEq] at h1
          rw [← h1]
          exact (henv v x hx).setValues (by simp; omega)
    · simp at h
  | copyFrom v src =>
    simp only [TOp.step] at h
    split at h
    · rename_i x hx
      obtain ⟨y, h1, h2⟩ := Except.map_ok h
      rw [← h2]
      apply TEnv.put_inv henv
      unfold Tensor.copyFrom at h1
      split at h1
      · simp at h1
      · rename_i hn
        simp only [Except.ok.injEq] at h1
        rw [← h1]
        exact (henv v x hx).setValues (by simp; omega)
    · simp at h
  | moveFrom v src =>
    simp only [TOp.step] at h
    split at h
    · rename_i x hx
      obtain ⟨y, h1, h2⟩ := Except.map_ok h
      rw [← h2]
      apply TEnv.put_inv henv
      unfold Tensor.moveFrom at h1
      split at h1
      · simp at h1
      · rename_i hn
        simp only [Except.ok.injEq] at h1
        rw [← h1]
        exact (henv v x hx).setValues (by omega)
    · simp at h
  | copyTensor dst src =>
    simp only [TOp.step] at h
    split at h
    · rename_i x hx
      simp only [Except.ok.injEq] at h
      rw [← h]
      exact TEnv.put_inv henv (henv src x hx)
    · simp at h
  | moveTensor dst src =>
    simp only [TOp.step] at h
    split at h
    · rename_i x hx
      simp only [Except.ok.injEq] at h
      rw [← h]
      refine TEnv.put_inv (TEnv.put_inv henv (henv src x hx)) (.inr ⟨⟨rfl, rfl, rfl⟩, ?_⟩)
      show x.dtype = _
      rcases henv src x hx with h | h
      · exact h.dtype
      · exact h.2
    · simp at h

/-- **C20** In every history of calls (throwing ones included), every tensor object has as many elements as its extents
multiply to modulo 2^64, the right strides and the dtype of its element type, or it has been moved from and is empty. -/
theorem C20_history (cfg : Cfg) (ops : ElemOps α) (ho : LibOps ops) (prog : List (TOp α)) (ht : ∀ op ∈ prog, op.Typed)
    (env' : TEnv α) (h : TOp.runAll cfg ops prog (fun _ => none) = some env') (v : Nat) (x : Tensor α)
    (hx : env' v = some x) :
    (TensorOk ops.dtype ops.sizeof x ∧ x.values.length = x.shape.prod % 2 ^ 64) ∨ MovedFrom x := by
  have key : ∀ (prog : List (TOp α)), (∀ op ∈ prog, op.Typed) → ∀ env : TEnv α,
      (∀ v x, env v = some x → x.Inv ops) → TOp.runAll cfg ops prog env = some env' →
        ∀ v x, env' v = some x → x.Inv ops := by
    intro prog
    induction prog with
    | nil => intro _ env he h; simp only [TOp.runAll, Option.some.injEq] at h; rw [← h]; exact he
    | cons op rest ih =>
      intro ht env he h
      rw [TOp.runAll] at h
      have hrest : ∀ o ∈ rest, o.Typed := fun o ho => ht o (by simp [ho])
      split at h
      · rename_i env1 h1
        exact ih hrest env1 (step_inv cfg ops ho env env1 he op (ht op (by simp)) h1) h
      · exact ih hrest env he h
      · simp at h
  rcases key prog ht (fun _ => none) (by simp) h v x hx with h | h
  · exact .inl ⟨h, h.size⟩
  · exact .inr h.1

/-- **C20** Writes and `copy_from`/`move_from` change neither the shape, the order nor the dtype of any object, and touch
no other object. -/
theorem C20_shape_stable (cfg : Cfg) (ops : ElemOps α) (env env' : TEnv α) (w : Nat) (op : TOp α)
    (hop : (∃ i a, op = .set w i a) ∨ (∃ i a, op = .setU w i a) ∨ (∃ k a, op = .poke w k a) ∨
      (∃ l n, op = .copyFromPtr w l n) ∨ (∃ l, op = .copyFrom w l) ∨ (∃ l, op = .moveFrom w l))
    (h : op.step cfg ops env = .ok env') :
    (∀ v, v ≠ w → env' v = env v) ∧
    ∃ x y, env w = some x ∧ env' w = some y ∧ y.shape = x.shape ∧ y.fortranOrder = x.fortranOrder ∧ y.dtype = x.dtype ∧
      y.ravelStrides = x.ravelStrides := by
  have fin : ∀ x vals, env w = some x → env' = env.put w { x with values := vals } →
      (∀ v, v ≠ w → env' v = env v) ∧
      ∃ x y, env w = some x ∧ env' w = some y ∧ y.shape = x.shape ∧ y.fortranOrder = x.fortranOrder ∧ y.dtype = x.dtype ∧
        y.ravelStrides = x.ravelStrides := by
    intro x vals hx he
    rw [he]
    refine ⟨fun v hv => by simp [TEnv.put, hv], x, { x with values := vals }, hx, by simp [TEnv.put], rfl, rfl, rfl, rfl⟩
  rcases hop with ⟨i, a, rfl⟩ | ⟨i, a, rfl⟩ | ⟨k, a, rfl⟩ | ⟨l, n, rfl⟩ | ⟨l, rfl⟩ | ⟨l, rfl⟩ <;>
    simp only [TOp.step] at h <;> (split at h <;> [skip; simp at h]) <;> rename_i x hx
  · obtain ⟨y, h1, h2⟩ := Except.map_ok h
    unfold Tensor.set at h1
    repeat' split at h1
    all_goals simp only [Except.ok.injEq, reduceCtorEq] at h1
    rw [← h1] at h2
    exact fin x _ hx h2.symm
  · obtain ⟨y, h1, h2⟩ := Except.map_ok h
    unfold Tensor.setU at h1
    repeat' split at h1
    all_goals simp only [Except.ok.injEq, reduceCtorEq] at h1
    rw [← h1] at h2
    exact fin x _ hx h2.symm
  · split at h
    · simp only [Except.ok.injEq] at h
      exact fin x _ hx h.symm
    · simp at h
  · obtain ⟨y, h1, h2⟩ := Except.map_ok h
    unfold Tensor.copyFromPtr at h1
    repeat' split at h1
    all_goals simp only [Except.ok.injEq, reduceCtorEq] at h1
    rw [← h1] at h2
    exact fin x _ hx h2.symm
  · obtain ⟨y, h1, h2⟩ := Except.map_ok h
    unfold Tensor.copyFrom at h1
    repeat' split at h1
    all_goals simp only [Except.ok.injEq, reduceCtorEq] at h1
    rw [← h1] at h2
    exact fin x _ hx h2.symm
  · obtain ⟨y, h1, h2⟩ := Except.map_ok h
    unfold Tensor.moveFrom at h1
    repeat' split at h1
    all_goals simp only [Except.ok.injEq, reduceCtorEq] at h1
    rw [← h1] at h2
    exact fin x _ hx h2.symm

/-- **C20** Assignment makes the target equal to the source; copying leaves the source, moving empties it. -/
theorem C20_assign (cfg : Cfg) (ops : ElemOps α) (env : TEnv α) (dst src : Nat) (hne : dst ≠ src) (x : Tensor α)
    (hx : env src = some x) :
    (∃ env', (TOp.copyTensor dst src : TOp α).step cfg ops env = .ok env' ∧ env' dst = some x ∧ env' src = some x ∧
      ∀ v, v ≠ dst → env' v = env v) ∧
    ∃ env', (TOp.moveTensor dst src : TOp α).step cfg ops env = .ok env' ∧ env' dst = some x ∧
      (∃ y, env' src = some y ∧ MovedFrom y) ∧ ∀ v, v ≠ dst → v ≠ src → env' v = env v := by
  refine ⟨⟨env.put dst x, by simp [TOp.step, hx]; rfl, by simp [TEnv.put], ?_, fun v h => by simp [TEnv.put, h]⟩,
    ⟨(env.put dst x).put src { x with shape := [], ravelStrides := [], values := [] }, by simp [TOp.step, hx]; rfl, ?_,
      ⟨_, by simp [TEnv.put]; rfl, rfl, rfl, rfl⟩, fun v h h' => by simp [TEnv.put, h, h']⟩⟩
  · simp [TEnv.put, hne.symm, hx]
  · simp [TEnv.put, hne]

/-- **C20** is false of moved-from objects: their shape multiplies to 1 and they have no element. -/
theorem C20_moved_from_false : ∃ env' x,
    TOp.runAll ⟨false, true, false⟩ (fixedOps .int16) [.construct 0 [2, 3] false, .moveTensor 1 0] (fun _ => none) =
      some env' ∧ env' 0 = some x ∧ x.values.length = 0 ∧ x.shape.prod % 2 ^ 64 = 1 := by
  refine ⟨_, _, rfl, rfl, ?_, ?_⟩ <;> decide

example : ∃ env' x, TOp.runAll ⟨false, true, false⟩ (fixedOps .int16)
    [.construct 0 [2, 3] true, .set 0 [1, -1] [7], .set 0 [2, 0] [8], .copyFrom 0 [[1]], .copyTensor 1 0] (fun _ => none) =
      some env' ∧ env' 1 = some x ∧ x.values = [[0], [0], [0], [0], [0], [7]] := by
  refine ⟨_, _, rfl, rfl, ?_⟩; decide

end Npy
