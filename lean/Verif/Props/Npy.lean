import Verif.Props.Api
import Verif.Proofs.Npy
import Verif.Proofs.DictLen
import Verif.Proofs.DescrErr
/-!
# C01, C03-C07, C16, C17, C19: saving and loading NPY data
-/

namespace Npy
open Spec (TensorOk IsElem IsWide IsNpyFile)

theorem saveToString_fixed {cfg : Cfg} {t : DType} (ht : t ≠ .unicode) {x : Tensor Elem}
    (hv : ∀ v ∈ x.values, IsElem t v) (e : Endian) :
    saveToString cfg (fixedOps t) x e = .ok (savedFixed cfg t x e) := by
  unfold saveToString
  rw [save_fixed ht (fun v h => (validElem_iff t ht v).2 (hv v h)) e OStream.empty_healthy,
    OStream.write_healthy OStream.empty_healthy]
  rfl

theorem saveToString_wide {cfg : Cfg} (x : Tensor WStr) (e : Endian) :
    saveToString cfg wideOps x e = .ok (savedWide cfg x e) := by
  unfold saveToString
  rw [save_wide x e OStream.empty_healthy, OStream.write_healthy OStream.empty_healthy]
  rfl

/-- **C01** `npy::save` then `npy::load` gives the same tensor, for the 13 fixed-size element types, every shape, storage
order, endianness argument, host and build, when the dictionary text has at most 245 characters. Bytes after the file
(`extra`) are left in the stream, which stays usable. -/
theorem C01_npy_roundtrip (cfg : Cfg) (t : DType) (ht : t ≠ .unicode) (x : Tensor Elem)
    (hx : TensorOk t (Spec.itemSize t) x) (hv : ∀ v ∈ x.values, IsElem t v) (e : Endian)
    (hlen : (Spec.headerDict (Spec.descr t (Spec.isBig cfg e)) x.fortranOrder x.shape).length ≤ 245) :
    ∃ bytes, saveToString cfg (fixedOps t) x e = .ok bytes ∧
      ∀ extra, load cfg (fixedOps t) (IStream.ofBytes (bytes ++ extra)) =
        (.ok x, { IStream.ofBytes (bytes ++ extra) with rest := extra }) := by
  refine ⟨_, saveToString_fixed ht hv e, fun extra => ?_⟩
  rw [itemSize_eq t ht] at hx
  exact load_fixed ht hx (fun v h => (validElem_iff t ht v).2 (hv v h)) e hlen
    (IStream.ofBytes_good (savedFixed cfg t x e ++ extra)) extra

/-- **C01** for tensors of up to eight axes: the dictionary always fits, whatever the extents. -/
theorem C01_eight_axes (cfg : Cfg) (t : DType) (ht : t ≠ .unicode) (x : Tensor Elem)
    (hx : TensorOk t (Spec.itemSize t) x) (hv : ∀ v ∈ x.values, IsElem t v) (e : Endian) (hr : x.shape.length ≤ 8) :
    ∃ bytes, saveToString cfg (fixedOps t) x e = .ok bytes ∧
      ∀ extra, load cfg (fixedOps t) (IStream.ofBytes (bytes ++ extra)) =
        (.ok x, { IStream.ofBytes (bytes ++ extra) with rest := extra }) :=
  C01_npy_roundtrip cfg t ht x hx hv e (headerDict_rank8 t ht _ _ _ hx.extents hr)

/-- A 2 x 3 column-major tensor of int16 with non-trivial values. -/
def exTensor : Tensor Elem :=
  { shape := [2, 3], ravelStrides := [2, 1], fortranOrder := true, dtype := .int16,
    values := [[1], [65535], [256], [32768], [7], [4660]] }

theorem exTensor_ok : TensorOk .int16 2 exTensor :=
  Tensor.ok_of_strides (by decide) (by decide) (by decide) rfl (by decide)

theorem exTensor_elems : ∀ v ∈ exTensor.values, IsElem .int16 v := by
  intro v hv
  simp only [exTensor, List.mem_cons, List.not_mem_nil, or_false] at hv
  rcases hv with rfl | rfl | rfl | rfl | rfl | rfl <;> exact ⟨rfl, by decide⟩

theorem headerDict_length_le {d : Bytes} {f : Bool} {ns : List Nat} {n : Nat}
    (h : (dictionaryText d f ns).length ≤ n) : (Spec.headerDict d f ns).length ≤ n := by
  rw [← dictionaryText_eq_spec]; exact h

example : ∃ bytes, saveToString ⟨false, true, false⟩ (fixedOps .int16) exTensor .big = .ok bytes ∧
    load ⟨false, true, false⟩ (fixedOps .int16) (IStream.ofBytes (bytes ++ [1, 2])) =
      (.ok exTensor, { IStream.ofBytes (bytes ++ [1, 2]) with rest := [1, 2] }) := by
  obtain ⟨b, h1, h2⟩ := C01_npy_roundtrip ⟨false, true, false⟩ .int16 (by decide) exTensor exTensor_ok exTensor_elems .big
    (headerDict_length_le (by unfold Spec.descr; rw [← decimal_eq_spec]; decide))
  exact ⟨b, h1, h2 _⟩

/-- **C03**, general form: a tensor of `std::wstring` comes back with the NUL units of each string removed, everything
else unchanged. -/
theorem C03_unicode_load (cfg : Cfg) (x : Tensor WStr) (hx : TensorOk .unicode 32 x)
    (hw : ∀ v ∈ x.values, IsWide cfg v) (e : Endian) (hmax : Spec.longest x.values < 2 ^ 31)
    (hlen : (Spec.headerDict (Spec.descrU (Spec.longest x.values) (Spec.isBig cfg e)) x.fortranOrder x.shape).length
      ≤ 245) :
    ∃ bytes, saveToString cfg wideOps x e = .ok bytes ∧
      ∀ extra, load cfg wideOps (IStream.ofBytes (bytes ++ extra)) =
        (.ok { x with values := x.values.map fun v => v.filter (· ≠ 0) },
          { IStream.ofBytes (bytes ++ extra) with rest := extra }) := by
  refine ⟨_, saveToString_wide x e, fun extra => ?_⟩
  rw [← maxLength_eq] at hmax hlen
  have h1 := load_wide hx (fun v hv => isWide_lt (hw v hv)) e hmax hlen
    (IStream.ofBytes_good (savedWide cfg x e ++ extra)) extra
  have h2 : x.values.map (dropNul cfg) = x.values.map fun v => v.filter (· ≠ 0) :=
    List.map_congr_left fun v hv => dropNul_eq (hw v hv)
  rw [h2] at h1
  exact h1

/-- **C03** Tensors of `std::wstring` round trip when no string holds a NUL and every code unit fits `wchar_t`. -/
theorem C03_unicode_roundtrip (cfg : Cfg) (x : Tensor WStr) (hx : TensorOk .unicode 32 x)
    (hw : ∀ v ∈ x.values, IsWide cfg v) (h0 : ∀ v ∈ x.values, 0 ∉ v) (e : Endian)
    (hmax : Spec.longest x.values < 2 ^ 31)
    (hlen : (Spec.headerDict (Spec.descrU (Spec.longest x.values) (Spec.isBig cfg e)) x.fortranOrder x.shape).length
      ≤ 245) :
    ∃ bytes, saveToString cfg wideOps x e = .ok bytes ∧
      ∀ extra, load cfg wideOps (IStream.ofBytes (bytes ++ extra)) =
        (.ok x, { IStream.ofBytes (bytes ++ extra) with rest := extra }) := by
  obtain ⟨b, h1, h2⟩ := C03_unicode_load cfg x hx hw e hmax hlen
  refine ⟨b, h1, fun extra => ?_⟩
  rw [h2 extra]
  have : (x.values.map fun v => v.filter (· ≠ 0)) = x.values := by
    conv_rhs => rw [← List.map_id x.values]
    apply List.map_congr_left
    intro v hv
    rw [List.filter_eq_self.2]
    · rfl
    · intro c hc
      simp only [ne_eq, decide_not, Bool.not_eq_eq_eq_not, Bool.not_true, decide_eq_false_iff_not]
      rintro rfl
      exact h0 v hv hc
  rw [this]

/-- **C03** for tensors of up to eight axes: the dictionary always fits. -/
theorem C03_eight_axes (cfg : Cfg) (x : Tensor WStr) (hx : TensorOk .unicode 32 x)
    (hw : ∀ v ∈ x.values, IsWide cfg v) (h0 : ∀ v ∈ x.values, 0 ∉ v) (e : Endian)
    (hmax : Spec.longest x.values < 2 ^ 31) (hr : x.shape.length ≤ 8) :
    ∃ bytes, saveToString cfg wideOps x e = .ok bytes ∧
      ∀ extra, load cfg wideOps (IStream.ofBytes (bytes ++ extra)) =
        (.ok x, { IStream.ofBytes (bytes ++ extra) with rest := extra }) :=
  C03_unicode_roundtrip cfg x hx hw h0 e hmax (headerDict_rank8_unicode _ hmax _ _ _ hx.extents hr)

/-- **C03** The limit on the length is exact: if the longest string has `2^31` characters or more, the tensor is saved, but what is
saved cannot be loaded or peeked at: `std::out_of_range`. -/
theorem C03_limit (cfg : Cfg) (x : Tensor WStr) (hx : TensorOk .unicode 32 x) (e : Endian)
    (hmax : 2 ^ 31 ≤ Spec.longest x.values)
    (hlen : (Spec.headerDict (Spec.descrU (Spec.longest x.values) (Spec.isBig cfg e)) x.fortranOrder x.shape).length
      ≤ 245) :
    ∃ bytes, saveToString cfg wideOps x e = .ok bytes ∧
      loadFromString cfg wideOps bytes = .error (.throw (.outOfRange .std)) ∧
      peekString cfg bytes = .error (.throw (.outOfRange .std)) := by
  refine ⟨_, saveToString_wide x e, ?_⟩
  rw [← maxLength_eq] at hmax hlen
  rw [← dictionaryText_eq_spec] at hlen
  have hh : (readNpyHeader cfg (IStream.ofBytes (savedWide cfg x e))).1 = .error (.throw (.outOfRange .std)) :=
    readNpyHeader_saved_err cfg (IStream.ofBytes_good (savedWide cfg x e)) (descrU_no_quote _ _)
      (setDescr_wide_big HeaderInfo.uninit _ hmax _) hx.extents hlen (x.values.flatMap (wideBytes cfg e (maxLength x.values)))
  generalize savedWide cfg x e = b at *
  unfold loadFromString peekString load peek
  refine ⟨?_, hh⟩
  have h2 : readNpyHeader cfg (IStream.ofBytes b) = (.error (.throw (.outOfRange .std)), (readNpyHeader cfg (IStream.ofBytes b)).2) :=
    Prod.ext hh rfl
  rw [SM.bind_error h2]

/-- An array of one string of `2^31` characters, whatever they are. -/
example (str : WStr) (hs : str.length = 2 ^ 31) :
    ∃ bytes, saveToString ⟨false, true, false⟩ wideOps ⟨[1], [1], false, .unicode, [str]⟩ .native = .ok bytes ∧
      loadFromString ⟨false, true, false⟩ wideOps bytes = .error (.throw (.outOfRange .std)) := by
  have hl : Spec.longest [str] = 2 ^ 31 := by simp [Spec.longest, hs]
  obtain ⟨b, h1, h2, -⟩ := C03_limit ⟨false, true, false⟩ ⟨[1], [1], false, .unicode, [str]⟩
    (Tensor.ok_of_strides (by simp) (by simp) (by simp) rfl (by show [1] = Tensor.getRavelStrides [1] false; decide)) .native (le_of_eq hl.symm)
    (by
      show (Spec.headerDict (Spec.descrU (Spec.longest [str]) _) false [1]).length ≤ 245
      rw [hl]; exact headerDict_length_le (by unfold Spec.descrU; rw [← decimal_eq_spec]; decide +kernel))
  exact ⟨b, h1, h2⟩

/-- Two strings of different lengths with a character outside the BMP. -/
def exWide : Tensor WStr :=
  { shape := [2], ravelStrides := [1], fortranOrder := false, dtype := .unicode,
    values := [[104, 105], [128512]] }

/-- A string with a NUL inside. -/
def exNul : Tensor WStr :=
  { shape := [1], ravelStrides := [1], fortranOrder := false, dtype := .unicode, values := [[104, 0, 105]] }

example : ∃ bytes, saveToString ⟨true, false, false⟩ wideOps exWide .little = .ok bytes ∧
    loadFromString ⟨true, false, false⟩ wideOps bytes = .ok exWide := by
  obtain ⟨b, h1, h2⟩ := C03_unicode_roundtrip ⟨true, false, false⟩ exWide
    (Tensor.ok_of_strides (by decide) (by decide) (by decide) rfl (by decide)) (by unfold IsWide; decide) (by decide) .little (by decide)
    (headerDict_length_le (by unfold Spec.descrU; rw [← decimal_eq_spec]; decide))
  refine ⟨b, h1, ?_⟩
  have := h2 []
  rw [List.append_nil] at this
  rw [loadFromString, this]

/-- **C03** fails for strings containing NUL: `"h\0i"` comes back as `"hi"`. -/
theorem C03_nul_false : ∃ bytes, saveToString ⟨false, true, false⟩ wideOps exNul .native = .ok bytes ∧
    loadFromString ⟨false, true, false⟩ wideOps bytes = .ok { exNul with values := [[104, 105]] } ∧
    loadFromString ⟨false, true, false⟩ wideOps bytes ≠ .ok exNul := by
  obtain ⟨b, h1, h2⟩ := C03_unicode_load ⟨false, true, false⟩ exNul
    (Tensor.ok_of_strides (by decide) (by decide) (by decide) rfl (by decide)) (by unfold IsWide; decide) .native (by decide)
    (headerDict_length_le (by unfold Spec.descrU; rw [← decimal_eq_spec]; decide))
  have h3 := h2 []
  rw [List.append_nil] at h3
  have h4 : loadFromString ⟨false, true, false⟩ wideOps b = .ok { exNul with values := [[104, 105]] } := by
    rw [loadFromString, h3]; rfl
  exact ⟨b, h1, h4, by rw [h4]; decide⟩

/-! ### Format -/

theorem headerBytes_isNpy {d : Bytes} {f : Bool} {ns : List Nat} (hlen : (Spec.headerDict d f ns).length ≤ 245)
    (data : Bytes) : IsNpyFile d f ns data (headerBytes d f ns ++ data) := by
  rw [← dictionaryText_eq_spec] at hlen
  have hp := paddedDictLength_gt (dictionaryText d f ns).length
  have hl := (paddedDictLength_lt_256 _).2 hlen
  have hm := paddedDictLength_mod (dictionaryText d f ns).length
  refine ⟨paddedDictLength (dictionaryText d f ns).length - (dictionaryText d f ns).length - 1, ?_⟩
  simp only []
  rw [← dictionaryText_eq_spec]
  have hL : (dictionaryText d f ns ++
      List.replicate (paddedDictLength (dictionaryText d f ns).length - (dictionaryText d f ns).length - 1) 32 ++
      [(10 : UInt8)]).length = paddedDictLength (dictionaryText d f ns).length := by
    simp only [List.length_append, List.length_replicate, List.length_cons, List.length_nil]; omega
  rw [hL]
  refine ⟨by omega, hm, ?_⟩
  have h2 : Spec.littleBytes 2 (paddedDictLength (dictionaryText d f ns).length) =
      [UInt8.ofNat (paddedDictLength (dictionaryText d f ns).length), 0] := by
    rw [← leBytes_eq, leBytes, leBytes, leBytes, Nat.div_eq_of_lt hl]; rfl
  rw [h2]
  simp [headerBytes, staticHeader, headerEnd]

/-- **C04** The output of `save` is a version 1.0 NPY file: magic, version, length, NumPy's dictionary, spaces and newline up
to a multiple of 64 bytes, data of the right length. -/
theorem C04_npy_format (cfg : Cfg) (t : DType) (ht : t ≠ .unicode) (x : Tensor Elem)
    (hv : ∀ v ∈ x.values, IsElem t v) (e : Endian)
    (hlen : (Spec.headerDict (Spec.descr t (Spec.isBig cfg e)) x.fortranOrder x.shape).length ≤ 245) :
    ∃ bytes data, saveToString cfg (fixedOps t) x e = .ok bytes ∧
      IsNpyFile (Spec.descr t (Spec.isBig cfg e)) x.fortranOrder x.shape data bytes ∧
      data.length = x.values.length * Spec.itemSize t := by
  refine ⟨_, _, saveToString_fixed ht hv e, headerBytes_isNpy hlen _, ?_⟩
  rw [itemSize_eq t ht]
  exact flatMap_length _ _ _ fun v h => fixedBytes_length ((validElem_iff t ht v).2 (hv v h))

/-- **C04** for tensors of strings: the data holds each string as 32-bit units in the named order, zero filled to the
length of the longest. -/
theorem C04_npy_format_unicode (cfg : Cfg) (x : Tensor WStr) (e : Endian)
    (hlen : (Spec.headerDict (Spec.descrU (Spec.longest x.values) (Spec.isBig cfg e)) x.fortranOrder x.shape).length
      ≤ 245) :
    ∃ bytes, saveToString cfg wideOps x e = .ok bytes ∧
      IsNpyFile (Spec.descrU (Spec.longest x.values) (Spec.isBig cfg e)) x.fortranOrder x.shape
        (x.values.flatMap (Spec.wideBytes (Spec.isBig cfg e) (Spec.longest x.values))) bytes := by
  refine ⟨_, saveToString_wide x e, ?_⟩
  have h := headerBytes_isNpy hlen (x.values.flatMap (wideBytes cfg e (maxLength x.values)))
  rw [savedWide]
  rw [← maxLength_eq] at h ⊢
  have h1 : wideBytes cfg e (maxLength x.values) = Spec.wideBytes (Spec.isBig cfg e) (maxLength x.values) :=
    funext fun v => wideBytes_spec cfg e _ v
  rw [h1] at h ⊢
  exact h

/-- Whatever the shape, the data begins at a multiple of 64 bytes. -/
theorem C04_data_aligned (cfg : Cfg) (t : DType) (ht : t ≠ .unicode) (x : Tensor Elem)
    (hv : ∀ v ∈ x.values, IsElem t v) (e : Endian) :
    ∃ header data, saveToString cfg (fixedOps t) x e = .ok (header ++ data) ∧ header.length % 64 = 0 ∧
      data.length = x.values.length * Spec.itemSize t := by
  refine ⟨_, _, saveToString_fixed ht hv e, ?_, ?_⟩
  · rw [headerBytes_length]; exact paddedDictLength_mod _
  · rw [itemSize_eq t ht]
    exact flatMap_length _ _ _ fun v h => fixedBytes_length ((validElem_iff t ht v).2 (hv v h))

example : ∃ bytes data, saveToString ⟨false, true, false⟩ (fixedOps .int16) exTensor .big = .ok bytes ∧
      IsNpyFile (Spec.descr .int16 true) true [2, 3] data bytes ∧ data.length = 12 :=
  C04_npy_format ⟨false, true, false⟩ .int16 (by decide) exTensor exTensor_elems .big
    (headerDict_length_le (by unfold Spec.descr; rw [← decimal_eq_spec]; decide))

/-! ### Byte order -/

/-- **C05** The payload holds each element's bytes in the order the header names: for every real type, and for complex
types when that order is the host's. -/
theorem C05_data_order (cfg : Cfg) (t : DType) (ht : t ≠ .unicode) (x : Tensor Elem)
    (hv : ∀ v ∈ x.values, IsElem t v) (e : Endian)
    (hc : Spec.parts t = 1 ∨ Spec.isBig cfg e = cfg.nativeBig) :
    ∃ header, saveToString cfg (fixedOps t) x e =
        .ok (header ++ x.values.flatMap (Spec.elemBytes t (Spec.isBig cfg e))) ∧
      ((Spec.headerDict (Spec.descr t (Spec.isBig cfg e)) x.fortranOrder x.shape).length ≤ 245 →
        IsNpyFile (Spec.descr t (Spec.isBig cfg e)) x.fortranOrder x.shape [] header) := by
  refine ⟨headerBytes (Spec.descr t (Spec.isBig cfg e)) x.fortranOrder x.shape, ?_, ?_⟩
  · rw [saveToString_fixed ht hv e, savedFixed]
    congr 2
    simp only [List.flatMap_def]
    congr 1
    exact List.map_congr_left fun v h => fixedBytes_eq cfg t ht e ((validElem_iff t ht v).2 (hv v h)) hc
  · intro hlen
    have := headerBytes_isNpy hlen []
    rwa [List.append_nil] at this

/-- **C05**, all cases: when the requested order is not the host's the components of an element come out in reverse
order, that is, real and imaginary parts are swapped. -/
theorem C05_data_order_exact (cfg : Cfg) (t : DType) (ht : t ≠ .unicode) (x : Tensor Elem)
    (hv : ∀ v ∈ x.values, IsElem t v) (e : Endian) :
    ∃ header, header.length % 64 = 0 ∧ saveToString cfg (fixedOps t) x e =
      .ok (header ++ x.values.flatMap fun v => Spec.elemBytes t (Spec.isBig cfg e)
        (if Spec.isBig cfg e = cfg.nativeBig then v else v.reverse)) := by
  refine ⟨headerBytes (Spec.descr t (Spec.isBig cfg e)) x.fortranOrder x.shape, ?_, ?_⟩
  · rw [headerBytes_length]; exact paddedDictLength_mod _
  · rw [saveToString_fixed ht hv e, savedFixed]
    congr 2
    simp only [List.flatMap_def]
    congr 1
    exact List.map_congr_left fun v h => fixedBytes_exact cfg t ht e ((validElem_iff t ht v).2 (hv v h))

/-- A complex number with different parts. -/
def exComplex : Tensor Elem :=
  { shape := [1], ravelStrides := [1], fortranOrder := false, dtype := .complex64, values := [[1, 2]] }

theorem exComplex_ok : TensorOk .complex64 8 exComplex :=
  Tensor.ok_of_strides (by decide) (by decide) (by decide) rfl (by decide)

theorem exComplex_elems : ∀ v ∈ exComplex.values, IsElem .complex64 v := by
  intro v hv
  simp only [exComplex, List.mem_cons, List.not_mem_nil, or_false] at hv
  subst hv
  exact ⟨rfl, by decide⟩

/-- **C05** fails for complex numbers in the other order: on a little-endian host, saving `1 + 2i` (bit patterns) as big
endian does not end with the big-endian bytes of 1 and 2. -/
theorem C05_complex_false : ∃ bytes, saveToString ⟨false, true, false⟩ (fixedOps .complex64) exComplex .big = .ok bytes ∧
    ¬ ∃ header, bytes = header ++ exComplex.values.flatMap (Spec.elemBytes .complex64 true) := by
  obtain ⟨h, _, h2⟩ := C05_data_order_exact ⟨false, true, false⟩ .complex64 (by decide) exComplex exComplex_elems .big
  refine ⟨_, h2, ?_⟩
  rintro ⟨h', e⟩
  have := List.append_inj_right' e (by decide)
  revert this
  decide

/-! ### Other hosts -/

/-- **C06** A file written on one host and read on another, of any byte orders (`cfg` writes, `cfg'` reads): every real
element type comes back unchanged. -/
theorem C06_between_hosts (cfg cfg' : Cfg) (t : DType) (ht : t ≠ .unicode) (hr : Spec.parts t = 1) (x : Tensor Elem)
    (hx : TensorOk t (Spec.itemSize t) x) (hv : ∀ v ∈ x.values, IsElem t v) (e : Endian)
    (hlen : (Spec.headerDict (Spec.descr t (Spec.isBig cfg e)) x.fortranOrder x.shape).length ≤ 245) :
    ∃ bytes, saveToString cfg (fixedOps t) x e = .ok bytes ∧ loadFromString cfg' (fixedOps t) bytes = .ok x := by
  refine ⟨_, saveToString_fixed ht hv e, ?_⟩
  have hv' := fun v h => (validElem_iff t ht v).2 (hv v h)
  have hid : x.values.map (crossElem cfg cfg') = x.values := by
    conv_rhs => rw [← List.map_id x.values]
    apply List.map_congr_left
    intro v hvx
    have hl := (hv v hvx).1
    rw [hr] at hl
    match v, hl with
    | [c], _ => simp [crossElem]
  rw [itemSize_eq t ht] at hx
  have h := load_fixed (cfg := cfg') ht hx hv' (orderOf (Spec.isBig cfg e)) (by rw [isBig_orderOf]; exact hlen)
    (IStream.ofBytes_good (savedFixed cfg t x e)) []
  rw [List.append_nil] at h
  have hc := savedFixed_cross cfg cfg' t ht e hv'
  rw [hid] at hc
  rw [loadFromString]
  rw [← hc] at h
  exact congrArg Prod.fst h

/-- **C06**, complex types: between hosts of different byte orders, real and imaginary parts come back swapped. -/
theorem C06_between_hosts_exact (cfg cfg' : Cfg) (t : DType) (ht : t ≠ .unicode) (x : Tensor Elem)
    (hx : TensorOk t (Spec.itemSize t) x) (hv : ∀ v ∈ x.values, IsElem t v) (e : Endian)
    (hlen : (Spec.headerDict (Spec.descr t (Spec.isBig cfg e)) x.fortranOrder x.shape).length ≤ 245) :
    ∃ bytes, saveToString cfg (fixedOps t) x e = .ok bytes ∧ loadFromString cfg' (fixedOps t) bytes =
      .ok { x with values := x.values.map fun v => if cfg.nativeBig = cfg'.nativeBig then v else v.reverse } := by
  refine ⟨_, saveToString_fixed ht hv e, ?_⟩
  have hv' := fun v h => (validElem_iff t ht v).2 (hv v h)
  rw [itemSize_eq t ht] at hx
  have hx2 : TensorOk t t.size { x with values := x.values.map (crossElem cfg cfg') } :=
    { extents := hx.extents, size := by simpa using hx.size, fits := by simpa using hx.fits, dtype := hx.dtype
      stridesLength := hx.stridesLength, strides := hx.strides }
  have hv2 : ∀ v ∈ ({ x with values := x.values.map (crossElem cfg cfg') } : Tensor Elem).values, ValidElem t v := by
    intro v hvx
    simp only [List.mem_map] at hvx
    obtain ⟨w, hw, rfl⟩ := hvx
    unfold crossElem
    split
    · exact hv' w hw
    · exact validElem_reverse (hv' w hw)
  have h := load_fixed (cfg := cfg') ht hx2 hv2 (orderOf (Spec.isBig cfg e))
    (by rw [isBig_orderOf]; exact hlen) (IStream.ofBytes_good (savedFixed cfg t x e)) []
  rw [List.append_nil, ← savedFixed_cross cfg cfg' t ht e hv'] at h
  exact congrArg Prod.fst h

theorem C06_complex_false : ∃ bytes,
    saveToString ⟨false, true, false⟩ (fixedOps .complex64) exComplex .native = .ok bytes ∧
    loadFromString ⟨true, true, false⟩ (fixedOps .complex64) bytes = .ok { exComplex with values := [[2, 1]] } := by
  obtain ⟨b, h1, h2⟩ := C06_between_hosts_exact ⟨false, true, false⟩ ⟨true, true, false⟩ .complex64 (by decide) exComplex
    exComplex_ok exComplex_elems .native (headerDict_length_le (by unfold Spec.descr; rw [← decimal_eq_spec]; decide))
  exact ⟨b, h1, h2⟩

example : ∃ bytes, saveToString ⟨false, true, false⟩ (fixedOps .int16) exTensor .native = .ok bytes ∧
    loadFromString ⟨true, false, true⟩ (fixedOps .int16) bytes = .ok exTensor :=
  C06_between_hosts ⟨false, true, false⟩ ⟨true, false, true⟩ .int16 (by decide) rfl exTensor exTensor_ok exTensor_elems .native
    (headerDict_length_le (by unfold Spec.descr; rw [← decimal_eq_spec]; decide))

/-- Strings also move between hosts, as long as the reader's `wchar_t` holds their units. -/
theorem C06_unicode_between_hosts (cfg cfg' : Cfg) (x : Tensor WStr) (hx : TensorOk .unicode 32 x)
    (hw' : ∀ v ∈ x.values, IsWide cfg' v) (h0 : ∀ v ∈ x.values, 0 ∉ v) (e : Endian)
    (hmax : Spec.longest x.values < 2 ^ 31)
    (hlen : (Spec.headerDict (Spec.descrU (Spec.longest x.values) (Spec.isBig cfg e)) x.fortranOrder x.shape).length
      ≤ 245) :
    ∃ bytes, saveToString cfg wideOps x e = .ok bytes ∧ loadFromString cfg' wideOps bytes = .ok x := by
  have hb : savedWide cfg x e = savedWide cfg' x (orderOf (Spec.isBig cfg e)) := by
    unfold savedWide
    rw [isBig_orderOf]
    congr 1
    have : wideBytes cfg e (maxLength x.values) =
        wideBytes cfg' (orderOf (Spec.isBig cfg e)) (maxLength x.values) := by
      funext v
      rw [wideBytes_spec, wideBytes_spec, isBig_orderOf]
    rw [this]
  obtain ⟨b, h1, h2⟩ := C03_unicode_roundtrip cfg' x hx hw' h0 (orderOf (Spec.isBig cfg e)) hmax
    (by rw [isBig_orderOf]; exact hlen)
  rw [saveToString_wide] at h1
  refine ⟨savedWide cfg x e, saveToString_wide x e, ?_⟩
  rw [hb, Except.ok.inj h1]
  have := h2 []
  rw [List.append_nil] at this
  rw [loadFromString, this]

/-! ### peek -/

/-- The endianness a header reports for a type: NATIVE for single bytes. -/
def reported (t : DType) (big : Bool) : Endian :=
  if Spec.itemSize t = 1 then .native else if big then .big else .little

/-- **C07** `peek` on saved bytes reports dtype, shape, order and resolved endianness, and leaves the stream at the data. -/
theorem C07_peek_saved (cfg : Cfg) (t : DType) (ht : t ≠ .unicode) (x : Tensor Elem)
    (hx : TensorOk t (Spec.itemSize t) x) (hv : ∀ v ∈ x.values, IsElem t v) (e : Endian)
    (hlen : (Spec.headerDict (Spec.descr t (Spec.isBig cfg e)) x.fortranOrder x.shape).length ≤ 245) :
    ∃ bytes, saveToString cfg (fixedOps t) x e = .ok bytes ∧ peekString cfg bytes = .ok
      { dtype := some t, endianness := some (reported t (Spec.isBig cfg e)), fortranOrder := some x.fortranOrder,
        shape := x.shape, maxElementLength := some 0 } := by
  refine ⟨_, saveToString_fixed ht hv e, ?_⟩
  rw [← dictionaryText_eq_spec] at hlen
  have hh := readNpyHeader_saved cfg (IStream.ofBytes_good (savedFixed cfg t x e)) (descr_no_quote t _)
    (setDescr_fixed HeaderInfo.uninit t ht _) hx.extents hlen (x.values.flatMap (fixedBytes cfg t e))
  have hrep : reported t (Spec.isBig cfg e) = storedEndian t (Spec.isBig cfg e) := by
    cases t <;> rfl
  rw [hrep]
  exact congrArg Prod.fst hh

/-- **C07** for strings: also the length of the longest string. -/
theorem C07_peek_saved_unicode (cfg : Cfg) (x : Tensor WStr) (hx : TensorOk .unicode 32 x) (e : Endian)
    (hmax : Spec.longest x.values < 2 ^ 31)
    (hlen : (Spec.headerDict (Spec.descrU (Spec.longest x.values) (Spec.isBig cfg e)) x.fortranOrder x.shape).length
      ≤ 245) :
    ∃ bytes, saveToString cfg wideOps x e = .ok bytes ∧ peekString cfg bytes = .ok
      { dtype := some .unicode, endianness := some (if Spec.isBig cfg e then .big else .little),
        fortranOrder := some x.fortranOrder, shape := x.shape,
        maxElementLength := some (Spec.longest x.values) } := by
  refine ⟨_, saveToString_wide x e, ?_⟩
  rw [← maxLength_eq] at hmax hlen ⊢
  rw [← dictionaryText_eq_spec] at hlen
  have hh := readNpyHeader_saved cfg (IStream.ofBytes_good (savedWide cfg x e)) (descrU_no_quote _ _)
    (setDescr_wide HeaderInfo.uninit _ hmax _) hx.extents hlen
    (x.values.flatMap (wideBytes cfg e (maxLength x.values)))
  exact congrArg Prod.fst hh

example : ∃ bytes, saveToString ⟨false, true, false⟩ (fixedOps .int16) exTensor .big = .ok bytes ∧
    peekString ⟨false, true, false⟩ bytes = .ok
      { dtype := some .int16, endianness := some .big, fortranOrder := some true, shape := [2, 3],
        maxElementLength := some 0 } :=
  C07_peek_saved ⟨false, true, false⟩ .int16 (by decide) exTensor exTensor_ok exTensor_elems .big
    (headerDict_length_le (by unfold Spec.descr; rw [← decimal_eq_spec]; decide))

/-- Whatever the stream holds: a tensor returned by `load` has the shape and order `peek` reports on the same stream, its
dtype is the requested one and is the one `peek` reports. -/
theorem load_inv {α : Type} {cfg : Cfg} {ops : ElemOps α} {s s' : IStream} {x : Tensor α}
    (h : load cfg ops s = (.ok x, s')) :
    ∃ info s1 vals, peek cfg s = (.ok info, s1) ∧ info.fortranOrder = some x.fortranOrder ∧ info.shape = x.shape ∧
      info.dtype = some ops.dtype ∧ x.dtype = ops.dtype ∧ Tensor.getSize x.shape ≤ Tensor.maxSize ops ∧
      x.ravelStrides = Tensor.getRavelStrides x.shape x.fortranOrder ∧
      ops.read cfg info (Tensor.getSize x.shape) s1 = (.ok vals, s') ∧ x.values = vals := by
  unfold load at h
  obtain ⟨info, s1, hp, h2⟩ := SM.of_bind_ok h
  unfold Tensor.load at h2
  match hf : info.fortranOrder with
  | none => rw [hf] at h2; simp at h2
  | some f =>
    rw [hf] at h2
    simp only [] at h2
    obtain ⟨r, s2, hn, h3⟩ := SM.of_bind_ok h2
    simp only [SM.lift_apply, Prod.mk.injEq] at hn
    obtain ⟨hn, rfl⟩ := hn
    unfold Tensor.new at hn
    split at hn
    · simp at hn
    · rename_i hsz
      simp only [Except.ok.injEq] at hn
      subst hn
      match hd : info.dtype with
      | none => rw [hd] at h3; simp at h3
      | some d =>
        rw [hd] at h3
        simp only [] at h3
        split at h3
        · simp at h3
        · rename_i hde
          obtain ⟨vals, s3, hr, h4⟩ := SM.of_bind_ok h3
          simp only [SM.pure_apply, Prod.mk.injEq, Except.ok.injEq] at h4
          obtain ⟨rfl, rfl⟩ := h4
          simp only [ne_eq, not_not] at hde
          simp only [List.length_replicate] at hr
          exact ⟨info, s1, vals, hp, hf, rfl, by rw [hd, hde], rfl, by simpa using hsz, rfl, hr, rfl⟩

/-- **C07** second half: for every stream contents and state on which `load` succeeds, `peek` succeeds on the same stream
and reports the shape, order and dtype of the returned tensor. -/
theorem C07_load_agrees_with_peek {α : Type} (cfg : Cfg) (ops : ElemOps α) (s s' : IStream) (x : Tensor α)
    (h : load cfg ops s = (.ok x, s')) :
    ∃ info s1, peek cfg s = (.ok info, s1) ∧ info.shape = x.shape ∧ info.fortranOrder = some x.fortranOrder ∧
      info.dtype = some x.dtype := by
  obtain ⟨info, s1, vals, h1, h2, h3, h4, h5, _⟩ := load_inv h
  exact ⟨info, s1, h1, h3, h2, by rw [h4, h5]⟩

/-! ### NATIVE -/

/-- **C16** Saving with NATIVE is saving with the host's order (any tensor, any stream, healthy or not). -/
theorem C16_native_is_host (cfg : Cfg) (t : DType) (x : Tensor Elem) (o : OStream) :
    save cfg (fixedOps t) x .native o =
      save cfg (fixedOps t) x (if cfg.nativeBig then .big else .little) o := by
  obtain ⟨nb, nd, w⟩ := cfg
  cases nb <;> simp [save, fixedOps, toDtype, writeFixed, nativeEndian]

theorem C16_native_is_host_unicode (cfg : Cfg) (x : Tensor WStr) (o : OStream) :
    save cfg wideOps x .native o = save cfg wideOps x (if cfg.nativeBig then .big else .little) o := by
  obtain ⟨nb, nd, w⟩ := cfg
  have hu : ∀ c, writeUnit ⟨nb, nd, w⟩ .native c = writeUnit ⟨nb, nd, w⟩ (if nb then .big else .little) c := by
    intro c
    cases nb <;> simp [writeUnit, nativeEndian]
  cases nb <;> simp [save, wideOps, wideDtypeStr, nativeEndian, writeWide] at hu ⊢ <;> simp [hu]

/-! ### Files determine tensors -/

/-- **C17** Tensors saved to the same bytes are equal. -/
theorem C17_save_injective (cfg : Cfg) (t : DType) (ht : t ≠ .unicode) (x y : Tensor Elem)
    (hx : TensorOk t (Spec.itemSize t) x) (hy : TensorOk t (Spec.itemSize t) y)
    (hvx : ∀ v ∈ x.values, IsElem t v) (hvy : ∀ v ∈ y.values, IsElem t v) (e : Endian)
    (hlx : (Spec.headerDict (Spec.descr t (Spec.isBig cfg e)) x.fortranOrder x.shape).length ≤ 245)
    (hly : (Spec.headerDict (Spec.descr t (Spec.isBig cfg e)) y.fortranOrder y.shape).length ≤ 245)
    (h : saveToString cfg (fixedOps t) x e = saveToString cfg (fixedOps t) y e) : x = y := by
  obtain ⟨b, h1, h2⟩ := C01_npy_roundtrip cfg t ht x hx hvx e hlx
  obtain ⟨c, h3, h4⟩ := C01_npy_roundtrip cfg t ht y hy hvy e hly
  rw [h1, h3] at h
  cases h
  have := (h2 []).symm.trans (h4 [])
  simpa using this

/-- **C17** for strings without NUL. -/
theorem C17_save_injective_unicode (cfg : Cfg) (x y : Tensor WStr)
    (hx : TensorOk .unicode 32 x) (hy : TensorOk .unicode 32 y)
    (hwx : ∀ v ∈ x.values, IsWide cfg v) (hwy : ∀ v ∈ y.values, IsWide cfg v)
    (h0x : ∀ v ∈ x.values, 0 ∉ v) (h0y : ∀ v ∈ y.values, 0 ∉ v) (e : Endian)
    (hmx : Spec.longest x.values < 2 ^ 31) (hmy : Spec.longest y.values < 2 ^ 31)
    (hlx : (Spec.headerDict (Spec.descrU (Spec.longest x.values) (Spec.isBig cfg e)) x.fortranOrder x.shape).length ≤ 245)
    (hly : (Spec.headerDict (Spec.descrU (Spec.longest y.values) (Spec.isBig cfg e)) y.fortranOrder y.shape).length ≤ 245)
    (h : saveToString cfg wideOps x e = saveToString cfg wideOps y e) : x = y := by
  obtain ⟨b, h1, h2⟩ := C03_unicode_roundtrip cfg x hx hwx h0x e hmx hlx
  obtain ⟨c, h3, h4⟩ := C03_unicode_roundtrip cfg y hy hwy h0y e hmy hly
  rw [h1, h3] at h
  cases h
  have := (h2 []).symm.trans (h4 [])
  simpa using this

/-- Different values, different bytes. -/
example : saveToString ⟨false, true, false⟩ (fixedOps .int16) exTensor .big ≠
    saveToString ⟨false, true, false⟩ (fixedOps .int16) { exTensor with values := [[1], [65535], [256], [32768], [7], [0]] } .big := by
  intro h
  have := C17_save_injective ⟨false, true, false⟩ .int16 (by decide) exTensor _ exTensor_ok
    (Tensor.ok_of_strides (by decide) (by decide) (by decide) rfl (by decide)) exTensor_elems
    (by
      intro v hv
      simp only [List.mem_cons, List.not_mem_nil, or_false] at hv
      rcases hv with rfl | rfl | rfl | rfl | rfl | rfl <;> exact ⟨rfl, by decide⟩) .big
    (headerDict_length_le (by unfold Spec.descr; rw [← decimal_eq_spec]; decide))
    (headerDict_length_le (by unfold Spec.descr; rw [← decimal_eq_spec]; decide)) h
  revert this
  decide

/-! ### Several tensors in one stream -/

/-- A tensor of any element type. -/
inductive SeqTensor
  | fixed (t : DType) (x : Tensor Elem)
  | wide (x : Tensor WStr)

/-- An element type. -/
inductive SeqType
  | fixed (t : DType)
  | wide

def SeqTensor.type : SeqTensor → SeqType
  | .fixed t _ => .fixed t
  | .wide _ => .wide

/-- `npy::save(out, x, e)` for each in turn -/
def saveAll (cfg : Cfg) : List (SeqTensor × Endian) → OStream → Except Err OStream
  | [], o => .ok o
  | (.fixed t x, e) :: l, o => (save cfg (fixedOps t) x e o).bind (saveAll cfg l)
  | (.wide x, e) :: l, o => (save cfg wideOps x e o).bind (saveAll cfg l)

/-- `npy::load<tensor<T>>(in)` for each type in turn -/
def loadAll (cfg : Cfg) : List SeqType → IM (List SeqTensor)
  | [] => pure []
  | .fixed t :: l => do
    let x ← load cfg (fixedOps t)
    let xs ← loadAll cfg l
    pure (.fixed t x :: xs)
  | .wide :: l => do
    let x ← load cfg wideOps
    let xs ← loadAll cfg l
    pure (.wide x :: xs)

/-- The conditions of C01 or C03. -/
def Savable (cfg : Cfg) : SeqTensor × Endian → Prop
  | (.fixed t x, e) => t ≠ .unicode ∧ TensorOk t (Spec.itemSize t) x ∧ (∀ v ∈ x.values, IsElem t v) ∧
      (Spec.headerDict (Spec.descr t (Spec.isBig cfg e)) x.fortranOrder x.shape).length ≤ 245
  | (.wide x, e) => TensorOk .unicode 32 x ∧ (∀ v ∈ x.values, IsWide cfg v) ∧ (∀ v ∈ x.values, 0 ∉ v) ∧
      Spec.longest x.values < 2 ^ 31 ∧
      (Spec.headerDict (Spec.descrU (Spec.longest x.values) (Spec.isBig cfg e)) x.fortranOrder x.shape).length ≤ 245

theorem saveAll_loadAll (cfg : Cfg) (l : List (SeqTensor × Endian)) (h : ∀ p ∈ l, Savable cfg p) :
    ∃ bytes, (∀ o : OStream, o.Healthy → saveAll cfg l o = .ok (o.write bytes)) ∧
      ∀ (s : IStream), s.good = true → ∀ extra,
        loadAll cfg (l.map fun p => p.1.type) (s.withRest (bytes ++ extra)) = (.ok (l.map (·.1)), s.withRest extra) := by
  induction l with
  | nil =>
    refine ⟨[], fun o ho => ?_, fun s _ extra => rfl⟩
    rw [OStream.write_healthy ho]
    simp [saveAll]
  | cons p l ih =>
    obtain ⟨b, h1, h2⟩ := ih (fun q hq => h q (by simp [hq]))
    have hp := h p (by simp)
    match p, hp with
    | (.fixed t x, e), ⟨ht, hx, hv, hlen⟩ =>
      have hv' := fun v hm => (validElem_iff t ht v).2 (hv v hm)
      rw [itemSize_eq t ht] at hx
      refine ⟨savedFixed cfg t x e ++ b, fun o ho => ?_, fun s hs extra => ?_⟩
      · rw [saveAll, save_fixed ht hv' e ho]
        simp only [Except.bind]
        rw [h1 _ (ho.write _), OStream.write_write ho]
      · rw [List.map_cons, SeqTensor.type, loadAll, List.append_assoc,
          SM.bind_ok (load_fixed ht hx hv' e hlen hs (b ++ extra)), SM.bind_ok (h2 s hs extra)]
        rfl
    | (.wide x, e), ⟨hx, hw, h0, hmax, hlen⟩ =>
      refine ⟨savedWide cfg x e ++ b, fun o ho => ?_, fun s hs extra => ?_⟩
      · rw [saveAll, save_wide x e ho]
        simp only [Except.bind]
        rw [h1 _ (ho.write _), OStream.write_write ho]
      · rw [← maxLength_eq] at hmax hlen
        have hl := load_wide hx (fun v hv => isWide_lt (hw v hv)) e hmax hlen hs (b ++ extra)
        have hid : x.values.map (dropNul cfg) = x.values := by
          conv_rhs => rw [← List.map_id x.values]
          apply List.map_congr_left
          intro v hv
          rw [dropNul_eq (hw v hv), List.filter_eq_self.2]
          · rfl
          · intro c hc
            simp only [ne_eq, decide_not, Bool.not_eq_eq_eq_not, Bool.not_true, decide_eq_false_iff_not]
            rintro rfl
            exact h0 v hv hc
        rw [hid] at hl
        rw [List.map_cons, SeqTensor.type, loadAll, List.append_assoc, SM.bind_ok hl, SM.bind_ok (h2 s hs extra)]
        rfl

/-- **C19** Any sequence of tensors, of any mixture of element types, saved to one stream is loaded back in sequence, and
what follows stays in the stream. -/
theorem C19_sequences (cfg : Cfg) (l : List (SeqTensor × Endian)) (h : ∀ p ∈ l, Savable cfg p) :
    ∃ o, saveAll cfg l OStream.empty = .ok o ∧ ∀ extra,
      loadAll cfg (l.map fun p => p.1.type) (IStream.ofBytes (o.buf ++ extra)) =
        (.ok (l.map (·.1)), { IStream.ofBytes (o.buf ++ extra) with rest := extra }) := by
  obtain ⟨b, h1, h2⟩ := saveAll_loadAll cfg l h
  refine ⟨_, h1 _ OStream.empty_healthy, fun extra => ?_⟩
  rw [OStream.write_healthy OStream.empty_healthy]
  exact h2 _ (IStream.ofBytes_good _) extra

example : ∃ o, saveAll ⟨false, true, false⟩
      [(.fixed .int16 exTensor, .big), (.fixed .complex64 exComplex, .big), (.wide exWide, .native)]
      OStream.empty = .ok o ∧
    loadAll ⟨false, true, false⟩ [.fixed .int16, .fixed .complex64, .wide] (IStream.ofBytes (o.buf ++ [9])) =
      (.ok [.fixed .int16 exTensor, .fixed .complex64 exComplex, .wide exWide],
        { IStream.ofBytes (o.buf ++ [9]) with rest := [9] }) := by
  obtain ⟨o, h1, h2⟩ := C19_sequences ⟨false, true, false⟩
    [(.fixed .int16 exTensor, .big), (.fixed .complex64 exComplex, .big), (.wide exWide, .native)] (by
      intro p hp
      simp only [List.mem_cons, List.not_mem_nil, or_false] at hp
      rcases hp with rfl | rfl | rfl
      · exact ⟨by decide, exTensor_ok, exTensor_elems,
          headerDict_length_le (by unfold Spec.descr; rw [← decimal_eq_spec]; decide)⟩
      · exact ⟨by decide, exComplex_ok, exComplex_elems,
          headerDict_length_le (by unfold Spec.descr; rw [← decimal_eq_spec]; decide)⟩
      · exact ⟨Tensor.ok_of_strides (by decide) (by decide) (by decide) rfl (by decide), by unfold IsWide; decide,
          by decide, by decide, headerDict_length_le (by unfold Spec.descrU; rw [← decimal_eq_spec]; decide)⟩)
  exact ⟨o, h1, h2 [9]⟩

end Npy
