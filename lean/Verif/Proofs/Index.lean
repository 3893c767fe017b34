import Verif.Spec.Tensor
import Verif.Proofs.Tensor
import Mathlib.Tactic.Ring
/-! Ravelling. -/

namespace Npy
open Spec

/-! ### The specification's positions, recursively -/

theorem sum_range_succ (f : Nat → Nat) (n : Nat) :
    ((List.range (n + 1)).map f).sum = f 0 + ((List.range n).map fun k => f (k + 1)).sum := by
  rw [List.range_succ_eq_map]
  simp [Function.comp_def]

theorem sum_map_mul (d : Nat) (f : Nat → Nat) (l : List Nat) : d * (l.map f).sum = (l.map fun k => d * f k).sum := by
  induction l with
  | nil => simp
  | cons a l ih => simp [Nat.mul_add, ih]

theorem rowMajor_cons (d : Nat) (ds : List Nat) (i : Nat) (is : List Nat) :
    rowMajor (d :: ds) (i :: is) = i * ds.prod + rowMajor ds is := by
  simp only [rowMajor, List.length_cons]
  rw [sum_range_succ]
  simp

theorem colMajor_cons (d : Nat) (ds : List Nat) (i : Nat) (is : List Nat) :
    colMajor (d :: ds) (i :: is) = i + d * colMajor ds is := by
  simp only [colMajor, List.length_cons]
  rw [sum_range_succ, sum_map_mul]
  simp only [List.getD_cons_zero, List.take_zero, List.prod_nil, Nat.mul_one, List.getD_cons_succ,
    List.take_succ_cons, List.prod_cons]
  congr 2
  apply List.map_congr_left
  intro k _
  ring

theorem rowMajor_append (ds : List Nat) (d : Nat) (is : List Nat) (i : Nat) (h : is.length = ds.length) :
    rowMajor (ds ++ [d]) (is ++ [i]) = rowMajor ds is * d + i := by
  induction ds generalizing is with
  | nil => cases is with
    | nil => simp [rowMajor]
    | cons _ _ => simp at h
  | cons e es ih => cases is with
    | nil => simp at h
    | cons j js =>
      simp only [List.cons_append]
      rw [rowMajor_cons, rowMajor_cons, ih js (by simpa using h)]
      simp only [List.prod_append, List.prod_cons, List.prod_nil]
      ring

theorem rowMajor_reverse (ds is : List Nat) (h : is.length = ds.length) :
    rowMajor ds.reverse is.reverse = colMajor ds is := by
  induction ds generalizing is with
  | nil => cases is with
    | nil => simp [rowMajor, colMajor]
    | cons _ _ => simp at h
  | cons e es ih => cases is with
    | nil => simp at h
    | cons j js =>
      simp only [List.reverse_cons]
      rw [rowMajor_append _ _ _ _ (by simpa using h), ih js (by simpa using h), colMajor_cons]
      ring

theorem Spec.InRange.length {shape idx : List Nat} (h : InRange shape idx) : idx.length = shape.length :=
  List.Forall₂.length_eq h

theorem Spec.InRange.reverse {shape idx : List Nat} (h : InRange shape idx) : InRange shape.reverse idx.reverse := by
  unfold InRange at *
  exact List.rel_reverse h

theorem rowMajor_lt {shape idx : List Nat} (h : InRange shape idx) : rowMajor shape idx < shape.prod := by
  unfold InRange at h
  induction h with
  | nil => simp [rowMajor]
  | @cons i d is ds hid _ ih =>
    rw [rowMajor_cons, List.prod_cons]
    calc i * ds.prod + rowMajor ds is < i * ds.prod + ds.prod := by omega
      _ = (i + 1) * ds.prod := by ring
      _ ≤ d * ds.prod := Nat.mul_le_mul_right _ hid

theorem rowMajor_inj {shape idx idx' : List Nat} (h : InRange shape idx) (h' : InRange shape idx')
    (e : rowMajor shape idx = rowMajor shape idx') : idx = idx' := by
  unfold InRange at h
  induction h generalizing idx' with
  | nil => cases h'; rfl
  | @cons i d is ds hid hr ih =>
    cases h' with
    | @cons j _ js _ hj hr' =>
      rw [rowMajor_cons, rowMajor_cons] at e
      have h1 := rowMajor_lt (show InRange ds is from hr)
      have h2 := rowMajor_lt (show InRange ds js from hr')
      have hij : i = j := by
        have a : (i * ds.prod + rowMajor ds is) / ds.prod = i := by
          rw [Nat.mul_comm, Nat.mul_add_div (by omega), Nat.div_eq_of_lt h1]; omega
        have b : (j * ds.prod + rowMajor ds js) / ds.prod = j := by
          rw [Nat.mul_comm, Nat.mul_add_div (by omega), Nat.div_eq_of_lt h2]; omega
        rw [← a, ← b, e]
      subst hij
      rw [ih hr' (by omega)]

theorem rowMajor_surj (shape : List Nat) (p : Nat) (hp : p < shape.prod) :
    ∃ idx, InRange shape idx ∧ rowMajor shape idx = p := by
  induction shape generalizing p with
  | nil => exact ⟨[], List.Forall₂.nil, by simp [rowMajor] at *; omega⟩
  | cons d ds ih =>
    rw [List.prod_cons] at hp
    have h0 : 0 < ds.prod := by
      rcases Nat.eq_zero_or_pos ds.prod with h | h
      · rw [h] at hp; omega
      · exact h
    obtain ⟨is, h1, h2⟩ := ih (p % ds.prod) (Nat.mod_lt _ h0)
    refine ⟨p / ds.prod :: is, List.Forall₂.cons ?_ h1, ?_⟩
    · rw [Nat.div_lt_iff_lt_mul h0]; exact hp
    · rw [rowMajor_cons, h2, Nat.mul_comm]
      exact Nat.div_add_mod _ _

theorem position_lt {f : Bool} {shape idx : List Nat} (h : InRange shape idx) : position f shape idx < shape.prod := by
  cases f with
  | false => exact rowMajor_lt h
  | true =>
    simp only [position, if_true]
    rw [← rowMajor_reverse _ _ h.length, ← List.prod_reverse]
    exact rowMajor_lt h.reverse

theorem position_inj {f : Bool} {shape idx idx' : List Nat} (h : InRange shape idx) (h' : InRange shape idx')
    (e : position f shape idx = position f shape idx') : idx = idx' := by
  cases f with
  | false => exact rowMajor_inj h h' e
  | true =>
    simp only [position, if_true] at e
    rw [← rowMajor_reverse _ _ h.length, ← rowMajor_reverse _ _ h'.length] at e
    have := rowMajor_inj h.reverse h'.reverse e
    simpa using congrArg List.reverse this

theorem position_surj (f : Bool) (shape : List Nat) (p : Nat) (hp : p < shape.prod) :
    ∃ idx, InRange shape idx ∧ position f shape idx = p := by
  cases f with
  | false => exact rowMajor_surj shape p hp
  | true =>
    obtain ⟨idx, h1, h2⟩ := rowMajor_surj shape.reverse p (by rwa [List.prod_reverse])
    have h3 := h1.reverse
    rw [List.reverse_reverse] at h3
    refine ⟨idx.reverse, h3, ?_⟩
    simp only [position, if_true]
    rw [← rowMajor_reverse _ _ h3.length, List.reverse_reverse, h2]

/-! ### The loop -/

namespace Tensor

/-- Strides of the row-major order of `ds`. -/
theorem rowStrides_cons (d : Nat) (ds : List Nat) :
    getRavelStrides (d :: ds) false = ds.prod % SIZE :: getRavelStrides ds false := by
  apply List.ext_getElem?
  intro k
  cases k with
  | zero => rw [getRavelStrides_get _ _ _ (by simp)]; simp
  | succ k =>
    by_cases hk : k < ds.length
    · rw [getRavelStrides_get _ _ _ (by simpa using hk), List.getElem?_cons_succ, getRavelStrides_get _ _ _ hk]
      simp
    · rw [List.getElem?_eq_none (by rw [getRavelStrides_length]; simp; omega),
        List.getElem?_eq_none (by simp [getRavelStrides_length]; omega)]

theorem strides_fortran (ds : List Nat) : getRavelStrides ds true = getRavelStrides ds.reverse false := by
  simp [getRavelStrides]

/-- In-range indices: the loop returns the row-major position modulo 2^64. Further components are not looked at. -/
theorem ravelLoop_ok {ds is : List Nat} (h : InRange ds is) (extra : List Nat) (acc : Nat) :
    ravelLoop (getRavelStrides ds false) (is ++ extra) ds (acc % SIZE) = .ok ((acc + rowMajor ds is) % SIZE) := by
  unfold InRange at h
  induction h generalizing acc with
  | nil => simp [getRavelStrides, strideScan, ravelLoop, rowMajor]
  | @cons i d is ds hid _ ih =>
    rw [rowStrides_cons, List.cons_append, ravelLoop, if_neg (by omega)]
    have : (acc % SIZE + i * (ds.prod % SIZE) % SIZE) % SIZE = (acc + i * ds.prod) % SIZE := by
      rw [Nat.mul_mod, Nat.mod_mod, ← Nat.mul_mod, ← Nat.add_mod]
    rw [this, ih, rowMajor_cons, Nat.add_assoc]

/-- Otherwise: if some axis whose predecessors are all in range has an index at or above its extent, the loop throws. -/
theorem ravelLoop_throw {ds is : List Nat} (hl : ds.length ≤ is.length) (h : ¬ InRange ds (is.take ds.length)) (acc : Nat) :
    ravelLoop (getRavelStrides ds false) is ds acc = .error (.throw (.invalidArgument .multiIndex)) := by
  induction ds generalizing is acc with
  | nil => exact absurd (by simp only [List.length_nil, List.take_zero]; exact List.Forall₂.nil) h
  | cons d ds ih =>
    cases is with
    | nil => simp at hl
    | cons i is =>
      rw [rowStrides_cons, ravelLoop]
      by_cases hi : i ≥ d
      · rw [if_pos hi]
      · rw [if_neg hi]
        apply ih (by simpa using hl)
        intro hr
        apply h
        simp only [List.length_cons, List.take_succ_cons]
        exact List.Forall₂.cons (by omega) hr

/-- A multi-index that is too short: undefined unless a component that is there is out of range. -/
theorem ravelLoop_short {ds is : List Nat} (hl : is.length < ds.length) (acc : Nat) :
    ravelLoop (getRavelStrides ds false) is ds acc =
      .error (if InRange (ds.take is.length) is then .ub else .throw (.invalidArgument .multiIndex)) := by
  induction ds generalizing is acc with
  | nil => simp at hl
  | cons d ds ih =>
    cases is with
    | nil =>
      rw [rowStrides_cons, ravelLoop, if_pos]
      · simp only [List.length_nil, List.take_zero]; exact List.Forall₂.nil
      · intros; simp_all
    | cons i is =>
      rw [rowStrides_cons, ravelLoop]
      by_cases hi : i ≥ d
      · rw [if_pos hi, if_neg]
        intro hc
        simp only [List.length_cons, List.take_succ_cons] at hc
        cases hc with
        | cons h _ => omega
      · rw [if_neg hi, ih (by simpa using hl)]
        congr 1
        simp only [List.length_cons, List.take_succ_cons, InRange, List.forall₂_cons]
        congr 1
        simp; omega

variable {α : Type} {dtype : DType} {sz : Nat} {x : Tensor α}

theorem ravelU_ok (hx : TensorOk dtype sz x) {idx : List Nat} (h : InRange x.shape idx) :
    x.ravelU idx = .ok (position x.fortranOrder x.shape idx % SIZE) := by
  unfold ravelU
  rw [ok_strides hx]
  cases hf : x.fortranOrder with
  | false =>
    have := ravelLoop_ok h [] 0
    simp only [List.append_nil, Nat.zero_add, Nat.zero_mod] at this
    simpa [position] using this
  | true =>
    have := ravelLoop_ok h.reverse [] 0
    simp only [List.append_nil, Nat.zero_add, Nat.zero_mod] at this
    rw [rowMajor_reverse _ _ h.length] at this
    simpa [position, strides_fortran] using this

theorem ravelU_throw (hx : TensorOk dtype sz x) {idx : List Nat} (hl : idx.length = x.shape.length)
    (h : ¬ InRange x.shape idx) : x.ravelU idx = .error (.throw (.invalidArgument .multiIndex)) := by
  unfold ravelU
  rw [ok_strides hx]
  cases hf : x.fortranOrder with
  | false =>
    simp only [Bool.false_eq_true, if_false]
    exact ravelLoop_throw (by omega) (by rwa [← hl, List.take_length]) 0
  | true =>
    simp only [if_true, strides_fortran]
    refine ravelLoop_throw (by simp; omega) ?_ 0
    rw [List.take_of_length_le (by simp; omega)]
    intro hc
    apply h
    have := hc.reverse
    simpa using this

end Tensor
end Npy
