import Verif.Props.Npy
import Verif.Proofs.LocaleText
/-!
# C80: the program's locale
-/

namespace Npy
open Spec (TensorOk IsElem IsNpyFile)

/-- `std::ostringstream out; npy::save(out, x, e); out.str()` in a program running in this locale -/
def saveToStringL {α : Type} (loc : Locale) (cfg : Cfg) (ops : ElemOps α) (x : Tensor α) (e : Endian) : Except Err Bytes :=
  (saveL loc cfg ops x e OStream.empty).map (·.buf)

theorem saveToStringL_fixed {loc : Locale} {cfg : Cfg} {t : DType} (ht : t ≠ .unicode) {x : Tensor Elem}
    (hv : ∀ v ∈ x.values, IsElem t v) (e : Endian) :
    saveToStringL loc cfg (fixedOps t) x e = .ok (savedFixedL loc cfg t x e) := by
  unfold saveToStringL
  rw [saveL_fixed ht (fun v h => (validElem_iff t ht v).2 (hv v h)) e OStream.empty_healthy,
    OStream.write_healthy OStream.empty_healthy]
  rfl

/-- **C80** In a locale that does not group digits, such as the C locale, saving, loading and peeking are what the other
properties describe. -/
theorem C80_classic {α : Type} (cfg : Cfg) (ops : ElemOps α) :
    (∀ x e o, saveL none cfg ops x e o = save cfg ops x e o) ∧ loadL none cfg ops = load cfg ops ∧
      peekL none cfg = peek cfg :=
  ⟨fun x e o => saveL_none cfg ops x e o, loadL_none cfg ops, readNpyHeaderL_none cfg⟩

theorem savedFixedL_isNpy {p : Numpunct} (hk : 0 < p.group) {cfg : Cfg} {t : DType} {x : Tensor Elem} {e : Endian}
    {data : Bytes} (hdata : data = x.values.flatMap (fixedBytes cfg t e))
    (h : IsNpyFile (Spec.descr t (Spec.isBig cfg e)) x.fortranOrder x.shape data (savedFixedL (some p) cfg t x e)) :
    ∀ n ∈ x.shape, n < 10 ^ p.group := by
  obtain ⟨pad, h1⟩ := h
  simp only [] at h1
  obtain ⟨-, -, h1⟩ := h1
  rw [savedFixedL, hdata] at h1
  have h2 := List.append_cancel_right h1
  clear h1
  rw [← dictionaryText_eq_spec, ← dictionaryTextL_none] at h2
  obtain ⟨a, ha, hal⟩ := dictionaryTextL_brace (some p) (Spec.descr t (Spec.isBig cfg e)) x.fortranOrder x.shape
  obtain ⟨b, hb, hbl⟩ := dictionaryTextL_brace none (Spec.descr t (Spec.isBig cfg e)) x.fortranOrder x.shape
  generalize hD : dictionaryTextL none (Spec.descr t (Spec.isBig cfg e)) x.fortranOrder x.shape = D at *
  generalize hL : dictionaryTextL (some p) (Spec.descr t (Spec.isBig cfg e)) x.fortranOrder x.shape = L at *
  have h3 := congrArg (List.drop 10) h2
  rw [headerBytesL, hL, List.append_assoc, List.drop_left' (by rfl), List.drop_left' (by simp [Spec.littleBytes]), ha, hb] at h3
  have h4 := dict_length_unique (a := a) (b := b) (ea := headerEnd (a ++ [125]).length)
    (eb := List.replicate pad 32 ++ b!"\n") (headerEnd_no_brace _) (by
      rw [List.mem_append]
      rintro (h | h)
      · exact absurd (List.eq_of_mem_replicate h) (by decide)
      · simp at h) (by simpa only [List.append_assoc, List.cons_append, List.nil_append] using h3)
  rw [shapeTextL_none] at hbl
  have h5 : (shapeTextL (some p) x.shape).length = (shapeText x.shape).length := by omega
  intro n hn
  by_contra hc
  have := (shapeTextL_longer hk x.shape).2 ⟨n, hn, Nat.le_of_not_lt hc⟩
  omega

/-- **C80** What is saved in a locale whose last group has `k` digits (whatever the others have) is the NPY file that any program expects exactly if all extents
have at most `k` digits; then it is the same file as in the C locale. -/
theorem C80_save_iff (cfg : Cfg) (p : Numpunct) (hk : 0 < p.group) (t : DType) (ht : t ≠ .unicode)
    (x : Tensor Elem) (hv : ∀ v ∈ x.values, IsElem t v) (e : Endian)
    (hlen : (Spec.headerDict (Spec.descr t (Spec.isBig cfg e)) x.fortranOrder x.shape).length ≤ 245) :
    ∃ bytes standard data, saveToStringL (some p) cfg (fixedOps t) x e = .ok bytes ∧
      saveToString cfg (fixedOps t) x e = .ok standard ∧
      IsNpyFile (Spec.descr t (Spec.isBig cfg e)) x.fortranOrder x.shape data standard ∧
      (IsNpyFile (Spec.descr t (Spec.isBig cfg e)) x.fortranOrder x.shape data bytes ↔
        ∀ n ∈ x.shape, n < 10 ^ p.group) ∧
      (bytes = standard ↔ ∀ n ∈ x.shape, n < 10 ^ p.group) := by
  have hsame : (∀ n ∈ x.shape, n < 10 ^ p.group) → savedFixedL (some p) cfg t x e = savedFixed cfg t x e := by
    intro h
    unfold savedFixedL savedFixed headerBytesL headerBytes dictionaryTextL dictionaryText
    rw [shapeTextL_small hk h]
  have hstd : IsNpyFile (Spec.descr t (Spec.isBig cfg e)) x.fortranOrder x.shape _ (savedFixed cfg t x e) :=
    headerBytes_isNpy hlen (x.values.flatMap (fixedBytes cfg t e))
  have hnec := savedFixedL_isNpy (p := p) hk (cfg := cfg) (t := t) (x := x) (e := e) rfl
  refine ⟨_, _, _, saveToStringL_fixed ht hv e, saveToString_fixed ht hv e, hstd, ⟨hnec, fun h => ?_⟩, ⟨fun h => ?_, hsame⟩⟩
  · rw [hsame h]; exact hstd
  · exact hnec (by rw [h]; exact hstd)

/-- **C80** A program that saves and loads in the same locale gets its tensors back, if the separator is not a comma, a closing
parenthesis or a digit, and the dictionary, with the separators, has at most 245 characters. -/
theorem C80_roundtrip (cfg : Cfg) (loc : Locale) (hloc : Spec.Readable loc) (t : DType) (ht : t ≠ .unicode)
    (x : Tensor Elem) (hx : TensorOk t (Spec.itemSize t) x) (hv : ∀ v ∈ x.values, IsElem t v) (e : Endian)
    (hlen : (Spec.headerDictIn loc (Spec.descr t (Spec.isBig cfg e)) x.fortranOrder x.shape).length ≤ 245) :
    ∃ bytes, saveToStringL loc cfg (fixedOps t) x e = .ok bytes ∧
      ∀ extra, loadL loc cfg (fixedOps t) (IStream.ofBytes (bytes ++ extra)) =
        (.ok x, { IStream.ofBytes (bytes ++ extra) with rest := extra }) := by
  refine ⟨_, saveToStringL_fixed ht hv e, fun extra => ?_⟩
  rw [itemSize_eq t ht] at hx
  rw [← dictionaryTextL_spec] at hlen
  exact loadL_fixed ht hx (fun v h => (validElem_iff t ht v).2 (hv v h)) e hlen (decimalL_no_paren (sepOk_of hloc))
    (fun n hn => readsAs_decimalL (sepOk_of hloc) (hx.extents n hn))
    (IStream.ofBytes_good (savedFixedL loc cfg t x e ++ extra)) extra

/-- **C80** Files saved in the C locale are read correctly in every locale whose separator is not a comma, a closing
parenthesis or a digit. -/
theorem C80_load_saved (cfg : Cfg) (loc : Locale) (hloc : Spec.Readable loc) (t : DType) (ht : t ≠ .unicode)
    (x : Tensor Elem) (hx : TensorOk t (Spec.itemSize t) x) (hv : ∀ v ∈ x.values, IsElem t v) (e : Endian)
    (hlen : (Spec.headerDict (Spec.descr t (Spec.isBig cfg e)) x.fortranOrder x.shape).length ≤ 245) :
    ∃ bytes, saveToString cfg (fixedOps t) x e = .ok bytes ∧
      ∀ extra, loadL loc cfg (fixedOps t) (IStream.ofBytes (bytes ++ extra)) =
        (.ok x, { IStream.ofBytes (bytes ++ extra) with rest := extra }) := by
  refine ⟨_, saveToString_fixed ht hv e, fun extra => ?_⟩
  rw [itemSize_eq t ht] at hx
  rw [← dictionaryText_eq_spec, ← dictionaryTextL_none] at hlen
  have he : savedFixed cfg t x e = savedFixedL none cfg t x e := by
    unfold savedFixedL savedFixed headerBytesL headerBytes
    rw [dictionaryTextL_none]
  rw [he]
  exact loadL_fixed ht hx (fun v h => (validElem_iff t ht v).2 (hv v h)) e hlen
    (decimalL_no_paren (loc := none) trivial)
    (fun n hn => readsAs_decimal (sepOk_of hloc) (hx.extents n hn))
    (IStream.ofBytes_good (savedFixedL none cfg t x e ++ extra)) extra

/-- **C80** Any header text at all, well-formed or not, gives the same result or error in every locale, if nowhere in it a
digit is directly followed by the locale's separator (and the separator is not a digit or a sign). -/
theorem C80_dictionary (cfg : Cfg) (p : Numpunct) (hd : ¬ (48 ≤ p.sep.toNat ∧ p.sep.toNat ≤ 57)) (h43 : p.sep ≠ 43)
    (h45 : p.sep ≠ 45) (text : Bytes) (ht : Spec.Apart p.sep text) :
    parseHeaderL (some p) cfg text = parseHeader cfg text :=
  parseHeaderL_apart (by rw [← Bool.not_eq_true, isDigit_iff]; exact hd) h43 h45 cfg text ht

/-- **C80** is false for locales that separate groups with a comma, such as en_US: of every file with at least one axis that
the program saved in that locale or in the C locale, `load` returns a tensor without axes that holds the first element only,
and reports nothing; the rest of the data stays in the stream. -/
theorem C80_false_comma (cfg : Cfg) (p : Numpunct) (hp : p.sep = 44) (hk : 0 < p.group) (l : Locale)
    (hl : l = none ∨ l = some p) (t : DType) (ht : t ≠ .unicode) (x : Tensor Elem)
    (hr : x.shape ≠ []) (v : Elem) (vs : List Elem) (hx : x.values = v :: vs)
    (hv : ∀ v ∈ x.values, IsElem t v) (e : Endian)
    (hlen : (Spec.headerDictIn l (Spec.descr t (Spec.isBig cfg e)) x.fortranOrder x.shape).length ≤ 245) :
    ∃ bytes data, saveToStringL l cfg (fixedOps t) x e = .ok bytes ∧
      data.length = vs.length * Spec.itemSize t ∧
      loadL (some p) cfg (fixedOps t) (IStream.ofBytes bytes) =
        (.ok ⟨[], [], x.fortranOrder, t, [v]⟩,
          { IStream.ofBytes bytes with rest := data }) := by
  refine ⟨_, vs.flatMap (fixedBytes cfg t e), saveToStringL_fixed ht hv e, ?_, ?_⟩
  · rw [itemSize_eq t ht]
    exact flatMap_length _ _ _ fun w hw => fixedBytes_length ((validElem_iff t ht w).2 (hv w (by rw [hx]; simp [hw])))
  rw [← dictionaryTextL_spec] at hlen
  have h41 : ∀ n, 41 ∉ decimalL l n := by
    intro n h
    rcases hl with rfl | rfl
    · exact decimalL_no_paren (loc := none) trivial n h
    · rcases addGrouping_mem _ h with h | h
      · rw [hp] at h; exact absurd h (by decide)
      · exact absurd (isDigit_decimal n _ h) (by decide)
  have hx1 : ∀ w ∈ [v], ValidElem t w := by
    intro w hw
    rw [List.mem_singleton.1 hw]
    exact (validElem_iff t ht v).2 (hv v (by rw [hx]; simp))
  have hs := IStream.ofBytes_good (savedFixedL l cfg t x e)
  have hh := readNpyHeaderL_saved cfg hs (f := x.fortranOrder) (descr_no_quote t _) (setDescr_fixed HeaderInfo.uninit t ht _)
    h41 hlen (readShapeLoopL_comma hp hk cfg hl hr) (x.values.flatMap (fixedBytes cfg t e))
  have hok : TensorOk t t.size (⟨[], [], x.fortranOrder, t, [v]⟩ : Tensor Elem) :=
    { extents := by simp, size := by rw [List.prod_nil]; rfl, fits := by show 1 * t.size < 2 ^ 63; cases t <;> decide
      dtype := rfl, stridesLength := rfl, strides := by simp }
  have := loadL_of_header (ops := fixedOps t) (size_pos t ht) hok hh rfl rfl rfl
    (vals := [v]) (s2 := (IStream.ofBytes (savedFixedL l cfg t x e)).withRest (vs.flatMap (fixedBytes cfg t e)))
    (by
      have hb : x.values.flatMap (fixedBytes cfg t e) = [v].flatMap (fixedBytes cfg t e) ++ vs.flatMap (fixedBytes cfg t e) := by
        rw [hx]; simp
      rw [hb]
      exact readFixed_ok ht hx1 (.inr (by simp)) (swaps_stored cfg t e) hs (vs.flatMap (fixedBytes cfg t e)))
  exact this

/-- A little-endian host, release build, 32-bit `wchar_t`. -/
def exLinux : Cfg := ⟨false, true, false⟩

/-- A tensor of 1000 bytes. -/
def exThousand : Tensor Elem := ⟨[1000], [1], false, .uint8, (List.range 1000).map fun i => [i % 256]⟩

theorem exThousand_elems : ∀ v ∈ exThousand.values, IsElem .uint8 v := by
  intro v hv
  simp only [exThousand, List.mem_map] at hv
  obtain ⟨i, _, rfl⟩ := hv
  refine ⟨rfl, ?_⟩
  intro c hc
  rw [List.mem_singleton.1 hc]
  exact Nat.mod_lt _ (by decide)

/-- German: `1.000` -/
def exGerman : Numpunct := ⟨46, 3, []⟩

/-- American: `1,000` -/
def exAmerican : Numpunct := ⟨44, 3, []⟩

set_option maxRecDepth 20000 in
/-- **C80** is false also for saving: what a program running in a German locale saves, a program running in the C locale loads
without any error as a tensor with one element instead of 1000. -/
theorem C80_false_write : ∃ bytes, saveToStringL (some exGerman) exLinux (fixedOps .uint8) exThousand .little = .ok bytes ∧
    loadFromString exLinux (fixedOps .uint8) bytes = .ok ⟨[1], [1], false, .uint8, [[0]]⟩ ∧
    exThousand.values.length = 1000 :=
  ⟨_, saveToStringL_fixed (by decide) exThousand_elems .little, by unfold savedFixedL Spec.descr; rw [← decimal_eq_spec]; decide +kernel,
    by decide +kernel⟩

set_option maxRecDepth 20000 in
/-- In the German locale itself the 1000 elements come back. -/
example : ∃ bytes, saveToStringL (some exGerman) exLinux (fixedOps .uint8) exThousand .little = .ok bytes ∧
    loadL (some exGerman) exLinux (fixedOps .uint8) (IStream.ofBytes (bytes ++ [])) =
      (.ok exThousand, { IStream.ofBytes (bytes ++ []) with rest := [] }) := by
  obtain ⟨b, h1, h2⟩ := C80_roundtrip exLinux (some exGerman) (by unfold Spec.Readable; decide) .uint8 (by decide) exThousand
    (Tensor.ok_of_strides (by decide) (by decide +kernel) (by decide +kernel) rfl (by decide))
    exThousand_elems .little
    (by rw [← dictionaryTextL_spec, Spec.descr, ← decimal_eq_spec]; decide +kernel)
  exact ⟨b, h1, h2 []⟩

/-- An Indian grouping, the last three digits and then pairs, with full stops: `12.34.567`. -/
def exIndian : Numpunct := ⟨46, 3, [2]⟩

/-- A tensor with 1234567 columns and no rows. -/
def exColumns : Tensor Elem := ⟨[0, 1234567], [1234567, 1], false, .uint8, []⟩

example : decimalL (some exIndian) 1234567 = b!"12.34.567" := by decide +kernel

set_option maxRecDepth 20000 in
/-- Irregular groups come back too. -/
example : ∃ bytes, saveToStringL (some exIndian) exLinux (fixedOps .uint8) exColumns .little = .ok bytes ∧
    loadL (some exIndian) exLinux (fixedOps .uint8) (IStream.ofBytes (bytes ++ [])) =
      (.ok exColumns, { IStream.ofBytes (bytes ++ []) with rest := [] }) := by
  obtain ⟨b, h1, h2⟩ := C80_roundtrip exLinux (some exIndian) (by unfold Spec.Readable; decide) .uint8 (by decide) exColumns
    (Tensor.ok_of_strides (by decide) (by decide +kernel) (by decide +kernel) rfl (by decide))
    (by intro v hv; cases hv) .little
    (by rw [← dictionaryTextL_spec, Spec.descr, ← decimal_eq_spec]; decide +kernel)
  exact ⟨b, h1, h2 []⟩

/-- In an American locale the 2 x 3 tensor comes back as its first element. -/
example : ∃ bytes data, saveToStringL (some exAmerican) exLinux (fixedOps .int16) exTensor .little = .ok bytes ∧
    data.length = 5 * Spec.itemSize .int16 ∧
    loadL (some exAmerican) exLinux (fixedOps .int16) (IStream.ofBytes bytes) =
      (.ok ⟨[], [], true, .int16, [[1]]⟩, { IStream.ofBytes bytes with rest := data }) :=
  C80_false_comma exLinux exAmerican rfl (by decide) (some exAmerican) (.inr rfl) .int16 (by decide) exTensor (by decide) [1]
    [[65535], [256], [32768], [7], [4660]] rfl exTensor_elems .little
    (by rw [← dictionaryTextL_spec, Spec.descr, ← decimal_eq_spec]; decide +kernel)

/-- A NumPy header contains no digit followed by a full stop. -/
example : parseHeaderL (some exGerman) exLinux b!"{'descr': '<f8', 'fortran_order': False, 'shape': (1000, 2), }" =
    parseHeader exLinux b!"{'descr': '<f8', 'fortran_order': False, 'shape': (1000, 2), }" :=
  C80_dictionary exLinux exGerman (by decide) (by decide) (by decide) _ (by
    intro a d b h
    have : exGerman.sep ∈ a ++ d :: exGerman.sep :: b := by simp
    rw [← h] at this
    exact absurd this (by decide))

end Npy
