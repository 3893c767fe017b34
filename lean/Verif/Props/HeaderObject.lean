import Verif.Props.Npy
/-!
# C89: header objects made by hand
-/

namespace Npy

/-- The two objects agree in a member: both values are determined, and equal. -/
def Spec.SameMember {α : Type} (a b : Option α) : Prop := ∃ v, a = some v ∧ b = some v

/-- The byte order that a header made by hand must name in order to agree with the file: none (`NATIVE`) for elements of one byte, and
`BIG` or `LITTLE`, not `NATIVE`, for others. -/
def Spec.namesOrder (cfg : Cfg) (t : DType) (e : Endian) : Prop :=
  if t ≠ .unicode ∧ Spec.itemSize t = 1 then e = .native else e = if Spec.isBig cfg e then .big else .little

open Spec

/-- **C89** The four members given to the constructor are the object's. -/
theorem C89_members (t : DType) (e : Endian) (f : Bool) (shape : List Nat) :
    SameMember (HeaderInfo.mk4 t e f shape).dtype (some t) ∧ SameMember (HeaderInfo.mk4 t e f shape).endianness (some e) ∧
    SameMember (HeaderInfo.mk4 t e f shape).fortranOrder (some f) ∧ (HeaderInfo.mk4 t e f shape).shape = shape :=
  ⟨⟨t, rfl, rfl⟩, ⟨e, rfl, rfl⟩, ⟨f, rfl, rfl⟩, rfl⟩

/-- **C89** The object made of the data type, order and shape of a tensor and the byte order it is saved in agrees with what `peek` gives of the
file; in the byte order exactly if that is named as `peek` names it. -/
theorem C89_saved (cfg : Cfg) (t : DType) (ht : t ≠ .unicode) (x : Tensor Elem)
    (hx : TensorOk t (Spec.itemSize t) x) (hv : ∀ v ∈ x.values, IsElem t v) (e : Endian)
    (hlen : (Spec.headerDict (Spec.descr t (Spec.isBig cfg e)) x.fortranOrder x.shape).length ≤ 245) :
    ∃ bytes info, saveToString cfg (fixedOps t) x e = .ok bytes ∧ peekString cfg bytes = .ok info ∧
      SameMember (HeaderInfo.mk4 t e x.fortranOrder x.shape).dtype info.dtype ∧
      SameMember (HeaderInfo.mk4 t e x.fortranOrder x.shape).fortranOrder info.fortranOrder ∧
      (HeaderInfo.mk4 t e x.fortranOrder x.shape).shape = info.shape ∧
      (SameMember (HeaderInfo.mk4 t e x.fortranOrder x.shape).endianness info.endianness ↔ namesOrder cfg t e) := by
  obtain ⟨bytes, h1, h2⟩ := C07_peek_saved cfg t ht x hx hv e hlen
  refine ⟨bytes, _, h1, h2, ⟨t, rfl, rfl⟩, ⟨_, rfl, rfl⟩, rfl, ?_⟩
  show (∃ v, some e = some v ∧ some (reported t (Spec.isBig cfg e)) = some v) ↔ _
  unfold namesOrder
  constructor
  · rintro ⟨v, a, b⟩
    injection a with a
    injection b with b
    subst a
    revert b
    generalize Spec.isBig cfg e = big
    cases big <;> cases t <;> first | exact absurd rfl ht | (intro b; subst b; decide)
  · intro h
    refine ⟨e, rfl, congrArg some ?_⟩
    revert h
    generalize Spec.isBig cfg e = big
    cases big <;> cases t <;> first | exact absurd rfl ht | (intro h; revert h; cases e <;> decide)

/-- **C89** for string tensors. -/
theorem C89_saved_unicode (cfg : Cfg) (x : Tensor WStr) (hx : TensorOk .unicode 32 x) (e : Endian)
    (hmax : Spec.longest x.values < 2 ^ 31)
    (hlen : (Spec.headerDict (Spec.descrU (Spec.longest x.values) (Spec.isBig cfg e)) x.fortranOrder x.shape).length ≤ 245) :
    ∃ bytes info, saveToString cfg wideOps x e = .ok bytes ∧ peekString cfg bytes = .ok info ∧
      SameMember (HeaderInfo.mk4 .unicode e x.fortranOrder x.shape).dtype info.dtype ∧
      SameMember (HeaderInfo.mk4 .unicode e x.fortranOrder x.shape).fortranOrder info.fortranOrder ∧
      (HeaderInfo.mk4 .unicode e x.fortranOrder x.shape).shape = info.shape ∧
      (SameMember (HeaderInfo.mk4 .unicode e x.fortranOrder x.shape).endianness info.endianness ↔ namesOrder cfg .unicode e) := by
  obtain ⟨bytes, h1, h2⟩ := C07_peek_saved_unicode cfg x hx e hmax hlen
  refine ⟨bytes, _, h1, h2, ⟨_, rfl, rfl⟩, ⟨_, rfl, rfl⟩, rfl, ?_⟩
  show (∃ v, some e = some v ∧ some (if Spec.isBig cfg e then Endian.big else .little) = some v) ↔ _
  have e0 : namesOrder cfg .unicode e = (e = if Spec.isBig cfg e then .big else .little) := if_neg fun h => h.1 rfl
  rw [e0]
  constructor
  · rintro ⟨v, a, b⟩
    injection a with a
    injection b with b
    exact a.trans b.symm
  · intro h
    exact ⟨e, rfl, congrArg some h.symm⟩

/-- **C89** is false of the fifth member: no object made by hand agrees with any object in it, since the constructor does not set it. -/
theorem C89_false_length : ¬ ∃ t e f shape b, SameMember (HeaderInfo.mk4 t e f shape).maxElementLength b := by
  rintro ⟨t, e, f, shape, b, v, h, -⟩
  cases h

example : namesOrder ⟨false, true, false⟩ .int16 .little ∧ ¬ namesOrder ⟨false, true, false⟩ .int16 .native ∧
    namesOrder ⟨false, true, false⟩ .uint8 .native ∧ ¬ namesOrder ⟨false, true, false⟩ .uint8 .little := by
  unfold namesOrder; decide

example := C89_saved ⟨false, true, false⟩ .int16 (by decide) exTensor exTensor_ok exTensor_elems .big (by
  unfold Spec.descr; rw [← dictionaryText_eq_spec, ← decimal_eq_spec]; decide)

end Npy
