import Verif.Proofs.Npy
/-!
# C15, C28: dtype strings and `npy::boolean`
-/

namespace Npy
open Spec

/-! ### C15 -/

/-- The answers of a sequence of calls of `from_dtype`, each on the table left by the previous ones (dtype.cpp:63-65). -/
def fromDtypeCalls : DtypeMap → List Bytes → List (DType × Endian) × DtypeMap
  | m, [] => ([], m)
  | m, d :: ds =>
    let (r, m') := fromDtypeM m d
    let (rs, m'') := fromDtypeCalls m' ds
    (r :: rs, m'')

theorem lookup_append_default (m : DtypeMap) (d k : Bytes) (hm : m.lookup d = none) :
    (fromDtypeM (m ++ [(d, (.int8, .native))]) k).1 = (fromDtypeM m k).1 := by
  unfold fromDtypeM
  rw [List.lookup_append]
  cases h : m.lookup k with
  | some v => simp
  | none =>
    by_cases hk : k = d
    · subst hk; simp [List.lookup]
    · have : (k == d) = false := by simpa using hk
      simp [List.lookup, this]

theorem fromDtypeM_stable (m : DtypeMap) (d k : Bytes) : (fromDtypeM (fromDtypeM m d).2 k).1 = (fromDtypeM m k).1 := by
  cases h : m.lookup d with
  | some v =>
    have e : (fromDtypeM m d).2 = m := by unfold fromDtypeM; rw [h]
    rw [e]
  | none =>
    have e : (fromDtypeM m d).2 = m ++ [(d, (.int8, .native))] := by unfold fromDtypeM; rw [h]
    rw [e]
    exact lookup_append_default m d k h

theorem fromDtypeCalls_eq (m : DtypeMap) (ds : List Bytes) :
    (fromDtypeCalls m ds).1 = ds.map fun d => (fromDtypeM m d).1 := by
  induction ds generalizing m with
  | nil => rfl
  | cons d ds ih =>
    show (fromDtypeM m d).1 :: (fromDtypeCalls (fromDtypeM m d).2 ds).1 = _
    rw [ih, List.map_cons]
    congr 1
    apply List.map_congr_left
    intro k _
    exact fromDtypeM_stable m d k

/-- **C15** `from_dtype` inverts `to_dtype`: for every fixed-size type and every endianness, `to_dtype` returns NumPy's
string for the type in that order, and `from_dtype` of it is the type with the order resolved (`NATIVE` for one-byte
types, which have none). -/
theorem C15_inverse (cfg : Cfg) (t : DType) (ht : t ≠ .unicode) (e : Endian) :
    ∃ s, toDtype cfg t e = .ok s ∧ s = descr t (isBig cfg e) ∧
      fromDtype s = (t, if itemSize t = 1 then .native else if isBig cfg e then .big else .little) := by
  obtain ⟨nb, nd, w⟩ := cfg
  refine ⟨descr t (isBig ⟨nb, nd, w⟩ e), ?_, rfl, ?_⟩ <;> unfold descr <;> rw [← decimal_eq_spec] <;>
    cases nd <;> cases w <;> cases nb <;> cases e <;> cases t <;> first | decide | exact absurd rfl ht

/-- **C15** Two types or orders with the same string are the same type, and the same order unless they have one byte. -/
theorem C15_injective (cfg : Cfg) (t t' : DType) (ht : t ≠ .unicode) (ht' : t' ≠ .unicode) (e e' : Endian)
    (h : toDtype cfg t e = toDtype cfg t' e') : t = t' ∧ (itemSize t = 1 ∨ isBig cfg e = isBig cfg e') := by
  obtain ⟨s, h1, -, h3⟩ := C15_inverse cfg t ht e
  obtain ⟨s', h1', -, h3'⟩ := C15_inverse cfg t' ht' e'
  rw [h1, h1', Except.ok.injEq] at h
  subst h
  rw [h3, Prod.mk.injEq] at h3'
  obtain ⟨rfl, he⟩ := h3'
  refine ⟨rfl, ?_⟩
  by_cases hi : itemSize t = 1
  · exact .inl hi
  · right
    rw [if_neg hi, if_neg hi] at he
    cases h1 : isBig cfg e <;> cases h2 : isBig cfg e' <;> simp_all

/-- **C15** `to_dtype` refuses the string type. -/
theorem C15_unicode_throws (cfg : Cfg) (e : Endian) : toDtype cfg .unicode e = .error (.throw (.invalidArgument .uDtype)) :=
  rfl

/-- **C15** The answers of `from_dtype` do not depend on the calls made before, although unknown strings are inserted in
the global table: in every sequence of calls, each answer is the one a first call would give. -/
theorem C15_history_independent (ds : List Bytes) :
    (fromDtypeCalls DTYPE_MAP ds).1 = ds.map fromDtype :=
  fromDtypeCalls_eq DTYPE_MAP ds

example : toDtype ⟨false, true, false⟩ .complex128 .big = .ok b!">c16" ∧ fromDtype b!">c16" = (.complex128, .big) ∧
    toDtype ⟨true, true, false⟩ .uint8 .little = .ok b!"|u1" ∧ fromDtype b!"|u1" = (.uint8, .native) := by decide

example : (fromDtypeCalls DTYPE_MAP [b!"bogus", b!"<f4", b!"bogus"]).1 =
    [(.int8, .native), (.float32, .little), (.int8, .native)] ∧
    (fromDtypeCalls DTYPE_MAP [b!"bogus", b!"<f4", b!"bogus"]).2.length = 24 := by decide

/-! ### C28 -/

/-- **C28** A C++ `bool` survives a round trip through `npy::boolean`, by construction and by assignment over any earlier
value, and the stored byte is 0 or 1. -/
theorem C28_bool_roundtrip (old : Boolean) (b : Bool) :
    (Boolean.ofBool b).toBool = b ∧ (old.assignBool b).toBool = b ∧
    ((Boolean.ofBool b).value = if b then 1 else 0) ∧ ((old.assignBool b).value = if b then 1 else 0) := by
  cases b <;> exact ⟨rfl, rfl, rfl, rfl⟩

/-- **C28** A default-constructed `npy::boolean` is false, and stores 0. -/
theorem C28_default : Boolean.default.toBool = false ∧ Boolean.default.value = 0 ∧ Boolean.default = Boolean.ofBool false := ⟨rfl, rfl, rfl⟩

/-- **C28** Construction from a number is true exactly for positive numbers, assignment of a number exactly for non-zero
ones; both store 0 or 1, and they disagree exactly on negative numbers. -/
theorem C28_numbers (old : Boolean) (v : Int) :
    ((Boolean.ofInt v).toBool = true ↔ v > 0) ∧ ((old.assignInt v).toBool = true ↔ v ≠ 0) ∧
    ((Boolean.ofInt v).value = 0 ∨ (Boolean.ofInt v).value = 1) ∧
    ((old.assignInt v).value = 0 ∨ (old.assignInt v).value = 1) ∧
    (Boolean.ofInt v ≠ old.assignInt v ↔ v < 0) := by
  rcases lt_trichotomy v 0 with h | h | h
  · have h1 : ¬ v > 0 := by omega
    have h2 : v ≠ 0 := by omega
    simp [Boolean.ofInt, Boolean.assignInt, Boolean.toBool, h1, h2, h]
  · subst h; simp [Boolean.ofInt, Boolean.assignInt, Boolean.toBool]
  · have h2 : v ≠ 0 := by omega
    have h3 : ¬ v < 0 := by omega
    simp [Boolean.ofInt, Boolean.assignInt, Boolean.toBool, h, h2, h3]

/-- **C28** The conversion to `bool` of any stored byte, such as a byte loaded from a file, which need not be 0 or 1: only
0 is false; storing the `bool` again keeps the truth value, and keeps the byte exactly when it was 0 or 1. -/
theorem C28_any_byte (b : Boolean) : (b.toBool = false ↔ b.value = 0) ∧
    (Boolean.ofBool b.toBool).toBool = b.toBool ∧
    (Boolean.ofBool b.toBool = b ↔ b.value = 0 ∨ b.value = 1) := by
  obtain ⟨v⟩ := b
  by_cases h : v = 0
  · subst h; decide
  · have h1 : (Boolean.toBool ⟨v⟩) = true := by simpa [Boolean.toBool] using h
    rw [h1]
    simp only [h, false_or, iff_false]
    refine ⟨by decide, rfl, ?_⟩
    simp [Boolean.ofBool, eq_comm]

/-- The byte 7 from a file is true. -/
example : Boolean.toBool ⟨7⟩ = true ∧ Boolean.ofBool (Boolean.toBool ⟨7⟩) = ⟨1⟩ := by decide

/-- **C28** is false of negative numbers: `boolean b(-1)` is false while `b = -1` makes it true. -/
theorem C28_agree_false : (Boolean.ofInt (-1)).toBool = false ∧ (Boolean.default.assignInt (-1)).toBool = true := by decide

end Npy
