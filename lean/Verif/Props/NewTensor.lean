import Verif.Props.Npy
import Verif.Props.Tensor
/-!
# C90: new tensors
-/

namespace Npy

/-- The element that a value-initialised object of the type is: every component zero. -/
def Spec.IsZero (t : DType) (v : Elem) : Prop := v.length = Spec.parts t ∧ ∀ c ∈ v, c = 0

/-- A tensor of the class for `dtype` with this shape and order, in which reading any index that denotes an element gives one satisfying `P`. -/
structure Spec.NewTensor {α : Type} (dtype : DType) (sz : Nat) (shape : List Nat) (f : Bool) (P : α → Prop) (x : Tensor α) : Prop where
  ok : TensorOk dtype sz x
  hasShape : x.shape = shape
  order : x.fortranOrder = f
  hasType : x.dtype = dtype
  get : ∀ i ks, (∀ c ∈ i, IsInt32 c) → Denotes shape i ks → ∃ v, x.get i = .ok v ∧ P v
  getU : ∀ ks, InRange shape ks → ∃ v, x.getU ks = .ok v ∧ P v
  values : x.values.length = shape.prod ∧ ∀ v ∈ x.values, P v

open Spec

theorem new_tensor {α : Type} {ops : ElemOps α} (hs : 0 < ops.sizeof) {shape : List Nat} (hsh : ∀ n ∈ shape, n < 2 ^ 64)
    (hp : shape.prod * ops.sizeof < 2 ^ 63) (f : Bool) :
    ∃ x, Tensor.new ops shape f = .ok x ∧ NewTensor ops.dtype ops.sizeof shape f (· = ops.zero) x := by
  have hlt : shape.prod < 2 ^ 64 := by
    have := Nat.le_mul_of_pos_right shape.prod hs
    omega
  have hg : Tensor.getSize shape = shape.prod := by
    rw [Tensor.getSize_eq]; exact Nat.mod_eq_of_lt (by unfold SIZE; exact hlt)
  have hm : ¬ Tensor.getSize shape > Tensor.maxSize ops := by
    rw [Nat.not_lt, Tensor.le_maxSize_iff ops hs, hg]; exact hp
  have e : Tensor.new ops shape f = .ok
      { shape := shape, ravelStrides := Tensor.getRavelStrides shape f, fortranOrder := f, dtype := ops.dtype,
        values := List.replicate (Tensor.getSize shape) ops.zero } := if_neg hm
  have hx := new_inv hs hsh e
  have hU : ∀ ks, InRange shape ks → ∃ v, Tensor.getU
      { shape := shape, ravelStrides := Tensor.getRavelStrides shape f, fortranOrder := f, dtype := ops.dtype,
        values := List.replicate (Tensor.getSize shape) ops.zero } ks = .ok v ∧ v = ops.zero := by
    intro ks hks
    obtain ⟨-, -, v, h1, h2⟩ := C21_position _ hx hlt ks hks
    exact ⟨v, h2, List.eq_of_mem_replicate (List.mem_of_getElem? h1)⟩
  refine ⟨_, e, hx, rfl, rfl, rfl, ?_, hU, by simp [hg], fun v hv => List.eq_of_mem_replicate hv⟩
  intro i ks hi hd
  obtain ⟨v, h1, h2⟩ := hU ks hd.inRange
  refine ⟨v, ?_, h2⟩
  unfold Tensor.get
  rw [ravelI_denotes _ hx hi hd]
  exact h1

theorem zeroElem_isZero (t : DType) : IsZero t (zeroElem t) := by
  cases t <;> exact ⟨by decide, by decide⟩

theorem Spec.NewTensor.mono {α : Type} {dtype : DType} {sz : Nat} {shape : List Nat} {f : Bool} {P Q : α → Prop} (hPQ : ∀ v, P v → Q v)
    {x : Tensor α} (h : NewTensor dtype sz shape f P x) : NewTensor dtype sz shape f Q x :=
  ⟨h.ok, h.hasShape, h.order, h.hasType, fun i ks hi hd => (h.get i ks hi hd).imp fun _ a => ⟨a.1, hPQ _ a.2⟩,
    fun ks hk => (h.getU ks hk).imp fun _ a => ⟨a.1, hPQ _ a.2⟩, h.values.1, fun v hv => hPQ _ (h.values.2 v hv)⟩

/-- **C90** A tensor made of a shape and an order has them, and every element is zero. -/
theorem C90_zero (t : DType) (ht : t ≠ .unicode) (shape : List Nat) (hsh : ∀ n ∈ shape, n < 2 ^ 64)
    (hp : shape.prod * Spec.itemSize t < 2 ^ 63) (f : Bool) :
    ∃ x, Tensor.new (fixedOps t) shape f = .ok x ∧ NewTensor t (Spec.itemSize t) shape f (IsZero t) x := by
  rw [itemSize_eq t ht] at hp ⊢
  obtain ⟨x, h1, h2⟩ := new_tensor (ops := fixedOps t) (size_pos t ht) hsh hp f
  exact ⟨x, h1, h2.mono fun v hv => hv ▸ zeroElem_isZero t⟩

/-- **C90** The zero of a boolean tensor is what the default constructor of `npy::boolean` stores. -/
theorem C90_boolean (v : Elem) : IsZero .bool v ↔ v = [Boolean.default.value.toNat] := by
  constructor
  · rintro ⟨h1, h2⟩
    exact List.eq_replicate_iff.2 ⟨h1, h2⟩
  · rintro rfl
    exact ⟨rfl, by decide⟩

/-- **C90** Every string of a new string tensor is empty. -/
theorem C90_empty_strings (shape : List Nat) (hsh : ∀ n ∈ shape, n < 2 ^ 64) (hp : shape.prod * 32 < 2 ^ 63) (f : Bool) :
    ∃ x, Tensor.new wideOps shape f = .ok x ∧ NewTensor .unicode 32 shape f (· = ([] : WStr)) x :=
  new_tensor (ops := wideOps) (by decide) hsh hp f

theorem fixedBytes_zero (cfg : Cfg) (t : DType) (ht : t ≠ .unicode) (e : Endian) :
    fixedBytes cfg t e (List.replicate (Spec.parts t) 0) = List.replicate (Spec.itemSize t) 0 := by
  obtain ⟨a, b, c⟩ := cfg
  cases a <;> cases b <;> cases c <;> cases e <;> cases t <;> first | exact absurd rfl ht | decide

theorem flatMap_zeros {β : Type} {g : β → Bytes} {k : Nat} : ∀ {vals : List β}, (∀ v ∈ vals, g v = List.replicate k 0) →
    vals.flatMap g = List.replicate (vals.length * k) 0
  | [], _ => by simp
  | v :: vals, h => by
    rw [List.flatMap_cons, h v (by simp), flatMap_zeros fun u hu => h u (by simp [hu]), List.replicate_append_replicate, List.length_cons,
      Nat.succ_mul, Nat.add_comm]

/-- **C90** Saving a new tensor, in any byte order, gives the NPY file whose data are zero bytes. -/
theorem C90_saved (cfg : Cfg) (t : DType) (ht : t ≠ .unicode) (shape : List Nat) (hsh : ∀ n ∈ shape, n < 2 ^ 64)
    (hp : shape.prod * Spec.itemSize t < 2 ^ 63) (f : Bool) (e : Endian)
    (hlen : (Spec.headerDict (Spec.descr t (Spec.isBig cfg e)) f shape).length ≤ 245) :
    ∃ x bytes, Tensor.new (fixedOps t) shape f = .ok x ∧ saveToString cfg (fixedOps t) x e = .ok bytes ∧
      IsNpyFile (Spec.descr t (Spec.isBig cfg e)) f shape (List.replicate (shape.prod * Spec.itemSize t) 0) bytes := by
  obtain ⟨x, h1, h2⟩ := C90_zero t ht shape hsh hp f
  have h3 : ∀ v ∈ x.values, v = List.replicate (Spec.parts t) 0 := fun v hv =>
    List.eq_replicate_iff.2 (h2.values.2 v hv)
  have h4 : ∀ v ∈ x.values, IsElem t v := by
    intro v hv
    rw [h3 v hv]
    exact ⟨by simp, fun c hc => by rw [List.eq_of_mem_replicate hc]; exact Nat.two_pow_pos _⟩
  refine ⟨x, _, h1, saveToString_fixed ht h4 e, ?_⟩
  unfold savedFixed
  rw [h2.hasShape, h2.order, flatMap_zeros (k := Spec.itemSize t) fun v hv => by rw [h3 v hv]; exact fixedBytes_zero cfg t ht e, h2.values.1]
  exact headerBytes_isNpy hlen _

/-- **C90** Saving a new string tensor gives a file of strings of length 0 and no data. -/
theorem C90_saved_strings (cfg : Cfg) (shape : List Nat) (hsh : ∀ n ∈ shape, n < 2 ^ 64) (hp : shape.prod * 32 < 2 ^ 63) (f : Bool) (e : Endian)
    (hlen : (Spec.headerDict (Spec.descrU 0 (Spec.isBig cfg e)) f shape).length ≤ 245) :
    ∃ x bytes, Tensor.new wideOps shape f = .ok x ∧ saveToString cfg wideOps x e = .ok bytes ∧
      IsNpyFile (Spec.descrU 0 (Spec.isBig cfg e)) f shape [] bytes := by
  obtain ⟨x, h1, h2⟩ := C90_empty_strings shape hsh hp f
  have h0 : Spec.longest x.values = 0 := by
    have : ∀ (l : List WStr), (∀ v ∈ l, v = []) → Spec.longest l = 0 := by
      intro l
      induction l with
      | nil => intro _; rfl
      | cons v l ih =>
        intro h
        have := ih fun u hu => h u (by simp [hu])
        unfold Spec.longest at this ⊢
        rw [h v (by simp), List.map_cons, List.foldr_cons, this]
        rfl
    exact this _ h2.values.2
  obtain ⟨b, h3, h4⟩ := C04_npy_format_unicode cfg x e (by rw [h0, h2.hasShape, h2.order]; exact hlen)
  rw [h0, h2.hasShape, h2.order] at h4
  refine ⟨x, b, h1, h3, ?_⟩
  have h5 : x.values.flatMap (Spec.wideBytes (Spec.isBig cfg e) 0) = [] := by
    rw [List.flatMap_eq_nil_iff]
    intro v hv
    rw [h2.values.2 v hv]
    rfl
  rw [h5] at h4
  exact h4

/-- **C90** A shape whose elements are more than a vector can have (2^63 bytes or more, counted without wrap-around) throws
`std::length_error`. -/
theorem C90_too_large {α : Type} (ops : ElemOps α) (hs : 0 < ops.sizeof) (shape : List Nat) (hlt : shape.prod < 2 ^ 64)
    (hp : 2 ^ 63 ≤ shape.prod * ops.sizeof) (f : Bool) : Tensor.new ops shape f = .error (.throw (.lengthError .std)) := by
  have hg : Tensor.getSize shape = shape.prod := by
    rw [Tensor.getSize_eq]; exact Nat.mod_eq_of_lt (by unfold SIZE; exact hlt)
  have hm : Tensor.getSize shape > Tensor.maxSize ops := by
    by_contra h
    rw [Nat.not_lt, Tensor.le_maxSize_iff ops hs, hg] at h
    omega
  exact if_pos hm

example : ∃ x bytes, Tensor.new (fixedOps .complex64) [2, 3] true = .ok x ∧
    saveToString ⟨false, true, false⟩ (fixedOps .complex64) x .big = .ok bytes ∧
    IsNpyFile (Spec.descr .complex64 true) true [2, 3] (List.replicate 48 0) bytes :=
  C90_saved ⟨false, true, false⟩ .complex64 (by decide) [2, 3] (by decide) (by decide) true .big
    (headerDict_length_le (by unfold Spec.descr; rw [← decimal_eq_spec]; decide))

example : ∃ x bytes, Tensor.new wideOps [4] false = .ok x ∧ saveToString ⟨false, true, false⟩ wideOps x .little = .ok bytes ∧
    IsNpyFile (Spec.descrU 0 false) false [4] [] bytes :=
  C90_saved_strings ⟨false, true, false⟩ [4] (by decide) (by decide) false .little
    (headerDict_length_le (by unfold Spec.descrU; rw [← decimal_eq_spec]; decide))

example : Tensor.new (fixedOps .int16) [2 ^ 31, 2 ^ 31] false = .error (.throw (.lengthError .std)) :=
  C90_too_large (fixedOps .int16) (by decide) _ (by decide) (by decide) false

end Npy
