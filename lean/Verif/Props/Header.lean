import Verif.Props.Npy
import Verif.Proofs.DescrErr
import Verif.Proofs.Cut
import Mathlib.Data.List.Permutation
/-!
# C02, C09-C12, C14, C18: headers
-/

namespace Npy
open Spec (TensorOk IsElem IsNpyFile npyV1 npyV2 ItemsLayout Field)

/-! ### C02: the length field -/

/-- **C02** The length field (bytes 8 and 9, little endian) of a saved file is the number of header bytes after it exactly
when the dictionary text has at most 245 characters; otherwise it is too small, by a multiple of 256. -/
theorem C02_length_field (cfg : Cfg) (t : DType) (ht : t ≠ .unicode) (x : Tensor Elem)
    (hv : ∀ v ∈ x.values, IsElem t v) (e : Endian) :
    ∃ header data lo hi, saveToString cfg (fixedOps t) x e = .ok (header ++ data) ∧
      data.length = x.values.length * Spec.itemSize t ∧
      header[8]? = some lo ∧ header[9]? = some hi ∧
      (header.length = 10 + (lo.toNat + 256 * hi.toNat) ↔
        (Spec.headerDict (Spec.descr t (Spec.isBig cfg e)) x.fortranOrder x.shape).length ≤ 245) ∧
      (∃ k, header.length = 10 + (lo.toNat + 256 * hi.toNat) + 256 * k) := by
  refine ⟨headerBytes (Spec.descr t (Spec.isBig cfg e)) x.fortranOrder x.shape,
    x.values.flatMap (fixedBytes cfg t e), _, _, saveToString_fixed ht hv e, ?_, rfl, rfl, ?_, ?_⟩
  · rw [itemSize_eq t ht]
    exact flatMap_length _ _ _ fun v h => fixedBytes_length ((validElem_iff t ht v).2 (hv v h))
  · rw [headerBytes_length, ← dictionaryText_eq_spec, ← paddedDictLength_lt_256, STATIC_HEADER_LENGTH]
    simp only [UInt8.toNat_ofNat']
    have := paddedDictLength_gt (dictionaryText (Spec.descr t (Spec.isBig cfg e)) x.fortranOrder x.shape).length
    simp
    omega
  · rw [headerBytes_length, STATIC_HEADER_LENGTH]
    simp only [UInt8.toNat_ofNat']
    exact ⟨paddedDictLength (dictionaryText (Spec.descr t (Spec.isBig cfg e)) x.fortranOrder x.shape).length / 256, by
      simp; omega⟩

/-- A tensor of one byte with 70 axes. -/
def exManyAxes : Tensor Elem :=
  { shape := List.replicate 70 1, ravelStrides := List.replicate 70 1, fortranOrder := false, dtype := .int8,
    values := [[5]] }

/-- **C02** fails: there is a tensor whose saved length field is wrong. -/
theorem C02_length_field_false : ∃ header data lo hi,
    saveToString ⟨false, true, false⟩ (fixedOps .int8) exManyAxes .native = .ok (header ++ data) ∧ data.length = 1 ∧
    header[8]? = some lo ∧ header[9]? = some hi ∧ header.length ≠ 10 + (lo.toNat + 256 * hi.toNat) := by
  obtain ⟨h, d, lo, hi, h1, h2, h3, h4, h5, _⟩ := C02_length_field ⟨false, true, false⟩ .int8 (by decide) exManyAxes (by
    intro v hv
    simp only [exManyAxes, List.mem_cons, List.not_mem_nil, or_false] at hv
    subst hv
    exact ⟨rfl, by decide⟩) .native
  refine ⟨h, d, lo, hi, h1, h2, h3, h4, ?_⟩
  intro hc
  have := h5.1 hc
  rw [← dictionaryText_eq_spec] at this
  revert this
  unfold Spec.descr
  rw [← decimal_eq_spec]
  set_option maxRecDepth 4000 in decide

/-! Overlong headers cannot be loaded back. -/

/-- **C02** Every file with an overlong header is refused on loading: a release build throws, a debug build trips over an
indeterminate character in an `assert`. -/
theorem C02_overlong_unloadable (cfg : Cfg) (t : DType) (ht : t ≠ .unicode) (x : Tensor Elem)
    (hv : ∀ v ∈ x.values, IsElem t v) (e : Endian)
    (hlen : 245 < (Spec.headerDict (Spec.descr t (Spec.isBig cfg e)) x.fortranOrder x.shape).length) :
    ∃ bytes, saveToString cfg (fixedOps t) x e = .ok bytes ∧
      ∀ {α : Type} (ops : ElemOps α), loadFromString cfg ops bytes =
        .error (if cfg.ndebug then .throw (.runtimeError .unsupportedKey) else .ub) := by
  refine ⟨_, saveToString_fixed ht hv e, fun ops => ?_⟩
  rw [← dictionaryText_eq_spec] at hlen
  have hd4 : (Spec.descr t (Spec.isBig cfg e)).length ≤ 4 := by
    unfold Spec.descr
    rw [← decimal_eq_spec]
    generalize Spec.isBig cfg e = b
    cases b <;> cases t <;> decide
  obtain ⟨tok, h1, h2, h3⟩ := overlong_take (f := x.fortranOrder) (ns := x.shape) hd4 hlen
  have hhead : (readNpyHeader cfg (IStream.ofBytes (savedFixed cfg t x e))).1 = .error (earlyEnd cfg) := by
    generalize hD : dictionaryText (Spec.descr t (Spec.isBig cfg e)) x.fortranOrder x.shape = D at *
    generalize hP : paddedDictLength D.length = P at *
    have hbytes : savedFixed cfg t x e = [0x93, 78, 85, 77, 80, 89, 1, 0, UInt8.ofNat P, 0] ++
        (((D ++ headerEnd D.length).take (P % 256)) ++
          ((D ++ headerEnd D.length).drop (P % 256) ++ x.values.flatMap (fixedBytes cfg t e))) := by
      rw [savedFixed, headerBytes, hD, hP, staticHeader, ← List.append_assoc ((D ++ headerEnd D.length).take _),
        List.take_append_drop]
      simp
    have hl : ((D ++ headerEnd D.length).take (P % 256)).length = (UInt8.ofNat P).toNat + 256 * (0 : UInt8).toNat := by
      have := headerEnd_length D.length
      rw [List.length_take, List.length_append]
      simp only [UInt8.toNat_ofNat']
      simp
      omega
    have hr := readNpyHeader_v1 cfg (IStream.ofBytes_good (savedFixed cfg t x e)) (UInt8.ofNat P) 0
      ((D ++ headerEnd D.length).take (P % 256))
      ((D ++ headerEnd D.length).drop (P % 256) ++ x.values.flatMap (fixedBytes cfg t e)) hl
    rw [← hbytes] at hr
    have hr' := congrArg Prod.fst hr
    refine hr'.trans ?_
    simp only []
    rw [h3]
    exact parseHeader_cut cfg x.fortranOrder (descr_no_quote t _) (setDescr_fixed HeaderInfo.uninit t ht _) (by omega) tok h1
      (by rw [BUFFER_SIZE]; omega)
  unfold loadFromString load
  match hq : readNpyHeader cfg (IStream.ofBytes (savedFixed cfg t x e)), hhead with
  | (.error er, s2), hh =>
    rw [SM.bind_error hq]
    simp only [Except.error.injEq] at hh
    subst hh
    rfl

example : ∃ bytes, saveToString ⟨false, true, false⟩ (fixedOps .int8) exManyAxes .native = .ok bytes ∧
    loadFromString ⟨false, true, false⟩ (fixedOps .int8) bytes = .error (.throw (.runtimeError .unsupportedKey)) := by
  obtain ⟨b, h1, h2⟩ := C02_overlong_unloadable ⟨false, true, false⟩ .int8 (by decide) exManyAxes (by
    intro v hv
    simp only [exManyAxes, List.mem_cons, List.not_mem_nil, or_false] at hv
    subst hv
    exact ⟨rfl, by decide⟩) .native (by
      rw [← dictionaryText_eq_spec]
      unfold Spec.descr
      rw [← decimal_eq_spec]
      set_option maxRecDepth 4000 in decide)
  exact ⟨b, h1, h2 _⟩

/-! ### C09: all layouts of the dictionary -/

theorem perm3 {α : Type} {a b c : α} {l : List α} (h : l.Perm [a, b, c]) :
    l = [a, b, c] ∨ l = [a, c, b] ∨ l = [b, a, c] ∨ l = [b, c, a] ∨ l = [c, a, b] ∨ l = [c, b, a] := by
  have := List.mem_permutations.2 h
  simp [List.permutations, List.permutationsAux_cons, List.permutationsAux_nil, List.permutationsAux2] at this
  tauto

theorem setDescr_frame {t : Option DType} {e : Option Endian} {m : Option Nat} (h : HeaderInfo) (d : Bytes) (hd : setDescr HeaderInfo.uninit d = .ok
    { HeaderInfo.uninit with dtype := t, endianness := e, maxElementLength := m }) :
    setDescr h d = .ok { h with dtype := t, endianness := e, maxElementLength := m } := by
  unfold setDescr at hd ⊢
  match d with
  | [] => simp at hd
  | c0 :: rest =>
    simp only [] at hd ⊢
    split at hd
    · rename_i hu
      rw [if_pos hu]
      split at hd
      · simp only [Except.ok.injEq, HeaderInfo.mk.injEq] at hd
        obtain ⟨rfl, rfl, _, _, rfl⟩ := hd
        rfl
      · simp at hd
    · rename_i hu
      rw [if_neg hu]
      simp only [Except.ok.injEq, HeaderInfo.mk.injEq] at hd
      obtain ⟨rfl, rfl, _, _, rfl⟩ := hd
      rfl

/-- What the three fields set, in any order. -/
theorem applyFields_perm {d : Bytes} {f : Bool} {ns : List Nat} {t : Option DType} {e : Option Endian} {m : Option Nat}
    (hd : setDescr HeaderInfo.uninit d =
      .ok { HeaderInfo.uninit with dtype := t, endianness := e, maxElementLength := m })
    {fs : List Field} (hp : fs.Perm [.descr d, .fortranOrder f, .shape ns]) :
    applyFields HeaderInfo.uninit fs =
      .ok { dtype := t, endianness := e, fortranOrder := some f, shape := ns, maxElementLength := m } := by
  rcases perm3 hp with rfl | rfl | rfl | rfl | rfl | rfl <;>
    simp [applyFields, applyField, setDescr_frame _ d hd, HeaderInfo.uninit]

theorem fieldOk_perm {d : Bytes} {f : Bool} {ns : List Nat} (hd : 39 ∉ d) (hn : ∀ n ∈ ns, n < 2 ^ 64)
    {fs : List Field} (hp : fs.Perm [.descr d, .fortranOrder f, .shape ns]) : ∀ g ∈ fs, FieldOk g := by
  intro g hg
  have := hp.mem_iff.1 hg
  simp only [List.mem_cons, List.not_mem_nil, or_false] at this
  rcases this with rfl | rfl | rfl
  · exact hd
  · trivial
  · exact hn

/-- **C09** Whatever the order of the keys, the white space and what follows the closing brace, the parser returns the values
the dictionary denotes. -/
theorem C09_dictionary_layouts (cfg : Cfg) (t : DType) (ht : t ≠ .unicode) (big : Bool) (f : Bool) (ns : List Nat)
    (hn : ∀ n ∈ ns, n < 2 ^ 64) (fs : List Field)
    (hp : fs.Perm [.descr (Spec.descr t big), .fortranOrder f, .shape ns])
    (items : Bytes) (hi : ItemsLayout fs items) (hlen : items.length < 65536) (padding : Bytes) :
    parseHeader cfg (b!"{" ++ items ++ b!"}" ++ padding) = .ok
      { dtype := some t, endianness := some (reported t big), fortranOrder := some f, shape := ns,
        maxElementLength := some 0 } := by
  have hrep : reported t big = storedEndian t big := by cases t <;> rfl
  rw [hrep]
  exact parseHeader_items cfg hi (fieldOk_perm (descr_no_quote t big) hn hp) hlen padding _
    (applyFields_perm (setDescr_fixed HeaderInfo.uninit t ht big) hp)

/-- **C09** for string arrays. -/
theorem C09_dictionary_layouts_unicode (cfg : Cfg) (len : Nat) (hl : len < 2 ^ 31) (big : Bool) (f : Bool) (ns : List Nat)
    (hn : ∀ n ∈ ns, n < 2 ^ 64) (fs : List Field)
    (hp : fs.Perm [.descr (Spec.descrU len big), .fortranOrder f, .shape ns])
    (items : Bytes) (hi : ItemsLayout fs items) (hlen : items.length < 65536) (padding : Bytes) :
    parseHeader cfg (b!"{" ++ items ++ b!"}" ++ padding) = .ok
      { dtype := some .unicode, endianness := some (if big then .big else .little), fortranOrder := some f, shape := ns,
        maxElementLength := some len } :=
  parseHeader_items cfg hi (fieldOk_perm (descrU_no_quote len big) hn hp) hlen padding _
    (applyFields_perm (setDescr_wide HeaderInfo.uninit len hl big) hp)

theorem applyFields_perm_err {d : Bytes} {f : Bool} {ns : List Nat} {err : Err}
    (hd : ∀ h, setDescr h d = .error err) {fs : List Field} (hp : fs.Perm [.descr d, .fortranOrder f, .shape ns]) :
    applyFields HeaderInfo.uninit fs = .error err := by
  rcases perm3 hp with rfl | rfl | rfl | rfl | rfl | rfl <;> simp [applyFields, applyField, hd]

/-- **C09** The limit on the length of the strings is exact: from `2^31` on, every layout of the dictionary throws
`std::out_of_range`. -/
theorem C09_unicode_limit (cfg : Cfg) (len : Nat) (hl : 2 ^ 31 ≤ len) (big : Bool) (f : Bool) (ns : List Nat)
    (hn : ∀ n ∈ ns, n < 2 ^ 64) (fs : List Field)
    (hp : fs.Perm [.descr (Spec.descrU len big), .fortranOrder f, .shape ns])
    (items : Bytes) (hi : ItemsLayout fs items) (hlen : items.length < 65536) (padding : Bytes) :
    parseHeader cfg (b!"{" ++ items ++ b!"}" ++ padding) = .error (.throw (.outOfRange .std)) :=
  parseHeader_items_err cfg hi (fieldOk_perm (descrU_no_quote len big) hn hp) hlen padding
    (applyFields_perm_err (fun h => setDescr_wide_big h len hl big) hp)

theorem headerDict_items (d : Bytes) (f : Bool) (ns : List Nat) :
    ∃ items, ItemsLayout [.descr d, .fortranOrder f, .shape ns] items ∧
      Spec.headerDict d f ns = b!"{" ++ items ++ b!"}" := by
  obtain ⟨items, padding, h1, h2⟩ := headerDict_layout d f ns []
  have hw0 : Spec.White [] := by simp [Spec.White]
  have hw1 : Spec.White [32] := by simp [Spec.White]
  refine ⟨_, .cons hw0 hw0 hw1 hw1 .descr (.cons hw0 hw0 hw1 hw1 .fortranOrder
    (.cons hw0 hw0 hw1 hw1 (.shape (shapeText_layout ns)) .nil)), ?_⟩
  rw [← dictionaryText_eq_spec]
  simp [dictionaryText, Spec.Field.key, Spec.pyBool]

/-- **C09** In particular the header NumPy writes, with any padding. -/
theorem C09_numpy_header (cfg : Cfg) (t : DType) (ht : t ≠ .unicode) (big : Bool) (f : Bool) (ns : List Nat)
    (hn : ∀ n ∈ ns, n < 2 ^ 64) (hlen : (Spec.headerDict (Spec.descr t big) f ns).length < 65536) (padding : Bytes) :
    parseHeader cfg (Spec.headerDict (Spec.descr t big) f ns ++ padding) = .ok
      { dtype := some t, endianness := some (reported t big), fortranOrder := some f, shape := ns,
        maxElementLength := some 0 } := by
  obtain ⟨items, h1, h2⟩ := headerDict_items (Spec.descr t big) f ns
  rw [h2] at hlen ⊢
  exact C09_dictionary_layouts cfg t ht big f ns hn _ (.refl _) items h1
    (by simp only [List.length_append] at hlen; omega) padding

example : parseHeader ⟨false, false, false⟩ (Spec.headerDict (Spec.descrU (2 ^ 31) false) false [3] ++ b!" ") =
    .error (.throw (.outOfRange .std)) := by
  obtain ⟨items, h1, h2⟩ := headerDict_items (Spec.descrU (2 ^ 31) false) false [3]
  have hl : (Spec.headerDict (Spec.descrU (2 ^ 31) false) false [3]).length < 65536 := by
    rw [← dictionaryText_eq_spec]; unfold Spec.descrU; rw [← decimal_eq_spec]; decide +kernel
  rw [h2] at hl ⊢
  exact C09_unicode_limit _ _ (le_refl _) false false [3] (by decide) _ (.refl _) items h1
    (by simp only [List.length_append] at hl; omega) _

/-- Keys in another order with odd white space. -/
theorem exItems : ItemsLayout [.shape [2, 3], .descr b!">i2", .fortranOrder true]
    b!"\n 'shape' :\t( 2,\n3 ),  'descr':'>i2',  'fortran_order' : True," := by
  have w (l : Bytes) (h : ∀ b ∈ l, b.toNat = 32 ∨ (9 ≤ b.toNat ∧ b.toNat ≤ 13)) : Spec.White l := h
  have n2 : Spec.IsNumeral b!"2" 2 := ⟨by decide, by decide, by decide⟩
  have n3 : Spec.IsNumeral b!"3" 3 := ⟨by decide, by decide, by decide⟩
  have hs : Spec.ShapeLayout [2, 3] b!" 2,\n3 " :=
    .cons (ws := b!" ") (rest := b!"\n3 ") (w _ (by decide)) n2 (.last (ws := b!"\n") (ws' := b!" ") (w _ (by decide)) n3 (w _ (by decide)))
  exact .cons (w1 := b!"\n ") (w2 := b!" ") (w3 := b!"\t") (w4 := b!"  ") (v := b!"( 2,\n3 )")
    (w _ (by decide)) (w _ (by decide)) (w _ (by decide)) (w _ (by decide)) (.shape hs)
    (.cons (w1 := []) (w2 := []) (w3 := []) (w4 := b!"  ") (v := b!"'>i2'")
      (w _ (by decide)) (w _ (by decide)) (w _ (by decide)) (w _ (by decide)) (.descr (code := b!">i2"))
      (.cons (w1 := []) (w2 := b!" ") (w3 := b!" ") (w4 := []) (v := b!"True")
        (w _ (by decide)) (w _ (by decide)) (w _ (by decide)) (w _ (by decide)) (.fortranOrder (b := true)) .nil))

example : parseHeader ⟨false, false, false⟩
    (b!"{" ++ b!"\n 'shape' :\t( 2,\n3 ),  'descr':'>i2',  'fortran_order' : True," ++ b!"}" ++ b!" trailing") = .ok
      { dtype := some .int16, endianness := some .big, fortranOrder := some true, shape := [2, 3],
        maxElementLength := some 0 } := by
  have hd : Spec.descr .int16 true = b!">i2" := by
    unfold Spec.descr; rw [← decimal_eq_spec]; decide
  exact C09_dictionary_layouts _ .int16 (by decide) true true [2, 3] (by decide) _
    (by rw [hd]; exact (List.Perm.swap _ _ _).trans (.cons _ (.swap _ _ _))) _ exItems (by decide) _

end Npy
