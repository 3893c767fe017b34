import Verif.Props.Accept
/-!
# C83: saving again what was loaded
-/

namespace Npy
open Spec

/-- **C83**, any file: a tensor that was loaded, from whatever bytes, can be saved in any byte order and loaded again, and is the
same. (Up to eight axes; see C02 for the limit.) Saving it once more makes the same file. -/
theorem C83_resave (cfg : Cfg) (t : DType) (ht : t ≠ .unicode) (s s' : IStream) (x : Tensor Elem)
    (h : load cfg (fixedOps t) s = (.ok x, s')) (hr : x.shape.length ≤ 8) (e : Endian) :
    ∃ b, saveToString cfg (fixedOps t) x e = .ok b ∧
      ∀ y, loadFromString cfg (fixedOps t) b = .ok y ↔ y = x := by
  obtain ⟨ok, hv⟩ := C29_loaded_wellformed cfg t ht s s' x h
  obtain ⟨b, h1, h2⟩ := C01_eight_axes cfg t ht x ok hv e hr
  refine ⟨b, h1, fun y => ?_⟩
  have h3 := h2 []
  rw [List.append_nil] at h3
  rw [loadFromString, h3]
  simp only [Except.ok.injEq]
  exact eq_comm

theorem exists_data (cfg : Cfg) (t : DType) (ht : t ≠ .unicode) (e : Endian) (n : Nat) (data : Bytes)
    (h : data.length = n * Spec.itemSize t) :
    ∃ vals : List Elem, vals.length = n ∧ (∀ v ∈ vals, IsElem t v) ∧ vals.flatMap (fixedBytes cfg t e) = data := by
  rw [itemSize_eq t ht] at h
  obtain ⟨c1, c2⟩ := chunks_flatten _ _ _ h
  refine ⟨(chunks t.size n data).map fun m => memElem cfg t (if Swaps cfg t (some e) then m.reverse else m), ?_, ?_, ?_⟩
  · rw [List.length_map]
    clear h c1 c2
    induction n generalizing data with
    | zero => rfl
    | succ n ih => simp [chunks, ih]
  · intro v hv
    obtain ⟨m, -, rfl⟩ := List.mem_map.1 hv
    exact (validElem_iff t ht _).1 (memElem_valid cfg t _)
  · rw [flatMap_fixed cfg t e _ c2, c1]

theorem data_kept (cfg : Cfg) (t : DType) (ht : t ≠ .unicode) (big f : Bool) (ns : List Nat) (hn : ∀ n ∈ ns, n < 2 ^ 64)
    (fs : List Field) (hp : fs.Perm [.descr (descr t big), .fortranOrder f, .shape ns]) (items : Bytes) (hi : ItemsLayout fs items)
    (hlen : items.length < 65536) (padding data more file : Bytes)
    (hfile : IsFile (b!"{" ++ items ++ b!"}" ++ padding) (data ++ more) file)
    (hdata : data.length = ns.prod * itemSize t) (hfits : data.length < 2 ^ 63) (e : Endian)
    (he : isBig cfg e = big ∨ itemSize t = 1) :
    ∃ x, loadFromString cfg (fixedOps t) file = .ok x ∧
      saveToString cfg (fixedOps t) x e = .ok (headerBytes (descr t big) f ns ++ data) := by
  have hd : descr t (isBig cfg e) = descr t big := by
    rcases he with he | he
    · rw [he]
    · cases t <;> first | rfl | exact absurd he (by decide)
  obtain ⟨vals, h1, h2, h3⟩ := exists_data cfg t ht e ns.prod data hdata
  have hsz : 0 < itemSize t := by rw [itemSize_eq t ht]; exact size_pos t ht
  have hprod : ns.prod < 2 ^ 63 := by
    rw [hdata] at hfits
    exact Nat.lt_of_le_of_lt (Nat.le_mul_of_pos_right _ hsz) hfits
  have hx : TensorOk t (itemSize t) (⟨ns, Tensor.getRavelStrides ns f, f, t, vals⟩ : Tensor Elem) :=
    Tensor.ok_of_strides hn (by show vals.length = _; rw [h1]; exact (Nat.mod_eq_of_lt (Nat.lt_trans hprod (by norm_num))).symm)
      (by show vals.length * _ < _; rw [h1, ← hdata]; exact hfits) rfl rfl
  refine ⟨⟨ns, Tensor.getRavelStrides ns f, f, t, vals⟩, ?_, (saveToString_fixed ht h2 e).trans ?_⟩
  · have hs := IStream.ofBytes_good file
    have e1 : IStream.ofBytes file = (IStream.ofBytes file).withRest file := rfl
    have hpk := peek_file cfg hs hfile
    rw [← e1, C09_dictionary_layouts cfg t ht big f ns hn fs hp items hi hlen padding, ← h3] at hpk
    have hx' := hx
    rw [itemSize_eq t ht] at hx'
    have hsw : Swaps cfg t (some (reported t big)) ↔ Swaps cfg t (some e) := by
      rw [swaps_reported, swaps_iff, swaps_iff, isBig_orderOf]
      rcases he with rfl | he
      · rfl
      · have : t.oneByte = true := by cases t <;> first | rfl | exact absurd he (by decide)
        simp [this]
    have := load_of_header (ops := fixedOps t) (size_pos t ht) hx' hpk rfl rfl rfl
      (readFixed_ok ht (fun v h => (validElem_iff t ht v).2 (h2 v h)) (.inr (by simp)) hsw hs more)
    rw [loadFromString, this]
  · unfold savedFixed
    rw [hd, h3]

/-- **C83**, files of any origin: an NPY file whose header is laid out in any way the format allows, of version 1 or 2 and with any
padding, is saved again with its data byte for byte, if the byte order asked for is the one of the file. -/
theorem C83_data_kept (cfg : Cfg) (t : DType) (ht : t ≠ .unicode) (big f : Bool) (ns : List Nat) (hn : ∀ n ∈ ns, n < 2 ^ 64)
    (fs : List Field) (hp : fs.Perm [.descr (descr t big), .fortranOrder f, .shape ns]) (items : Bytes) (hi : ItemsLayout fs items)
    (hlen : items.length < 65536) (padding data more file : Bytes)
    (hfile : IsFile (b!"{" ++ items ++ b!"}" ++ padding) (data ++ more) file)
    (hdata : data.length = ns.prod * itemSize t) (hfits : data.length < 2 ^ 63) (e : Endian)
    (he : isBig cfg e = big ∨ itemSize t = 1) (hdict : (headerDict (descr t big) f ns).length ≤ 245) :
    ∃ x b, loadFromString cfg (fixedOps t) file = .ok x ∧ saveToString cfg (fixedOps t) x e = .ok b ∧
      IsNpyFile (descr t big) f ns data b := by
  obtain ⟨x, h1, h2⟩ := data_kept cfg t ht big f ns hn fs hp items hi hlen padding data more file hfile hdata hfits e he
  exact ⟨x, _, h1, h2, headerBytes_isNpy hdict data⟩

theorem shortest_padding {d : Bytes} {f : Bool} {ns : List Nat} {data file : Bytes} (h : IsNpyFile d f ns data file)
    (hdict : (headerDict d f ns).length ≤ 245) :
    (headerBytes d f ns ++ data).length ≤ file.length ∧
      (headerBytes d f ns ++ data = file ↔ file.length < (headerBytes d f ns ++ data).length + 64) := by
  obtain ⟨pad, h1, h2, h3⟩ := h
  obtain ⟨pad', h1', h2', h3'⟩ := headerBytes_isNpy hdict data
  have hb : (headerBytes d f ns).length ≤ STATIC_HEADER_LENGTH + ((headerDict d f ns).length + 64) := by
    rw [headerBytes_length, dictionaryText_eq_spec]
    have := paddedDictLength_le (headerDict d f ns).length
    omega
  have l1 : file.length = 11 + (headerDict d f ns).length + pad + data.length := by
    rw [h3]
    simp only [List.length_append, List.length_replicate, List.length_cons, List.length_nil, ← leBytes_eq, leBytes_length]
    omega
  have l2 : (headerBytes d f ns ++ data).length = 11 + (headerDict d f ns).length + pad' + data.length := by
    rw [h3']
    simp only [List.length_append, List.length_replicate, List.length_cons, List.length_nil, ← leBytes_eq, leBytes_length]
    omega
  simp only [List.length_append, List.length_replicate, List.length_cons, List.length_nil] at h1 h2 h1' h2'
  have l3 := l2
  rw [List.length_append] at l3
  have hle : pad' ≤ pad := by unfold STATIC_HEADER_LENGTH at hb; omega
  refine ⟨by omega, fun h => by rw [← h]; omega, fun h => ?_⟩
  have : pad = pad' := by omega
  subst this
  rw [h3, h3']

/-- **C83**, files in NumPy's form: the file made from what was loaded has the same header text and data and at most the padding, and
it is the same file byte for byte exactly if the padding was the shortest. -/
theorem C83_reproduced (cfg : Cfg) (t : DType) (ht : t ≠ .unicode) (big f : Bool) (ns : List Nat) (hn : ∀ n ∈ ns, n < 2 ^ 64)
    (data file : Bytes) (hfile : IsNpyFile (descr t big) f ns data file)
    (hdata : data.length = ns.prod * itemSize t) (hfits : data.length < 2 ^ 63) (e : Endian)
    (he : isBig cfg e = big ∨ itemSize t = 1) (hdict : (headerDict (descr t big) f ns).length ≤ 245) :
    ∃ x b, loadFromString cfg (fixedOps t) file = .ok x ∧ saveToString cfg (fixedOps t) x e = .ok b ∧
      IsNpyFile (descr t big) f ns data b ∧ b.length ≤ file.length ∧ (b = file ↔ file.length < b.length + 64) := by
  obtain ⟨items, hi, hitems⟩ := headerDict_items (descr t big) f ns
  obtain ⟨pad, h1, h2, h3⟩ := id hfile
  obtain ⟨x, hl, hs⟩ := data_kept cfg t ht big f ns hn _ (.refl _) items hi
    (by rw [hitems] at hdict; simp only [List.length_append] at hdict; omega) (List.replicate pad 32 ++ b!"\n") data [] file
    (.inl ⟨by rw [← hitems, ← List.append_assoc, List.append_nil]; exact h3, by
      rw [← hitems, ← List.append_assoc]; exact h1⟩) hdata hfits e he
  exact ⟨x, _, hl, hs, headerBytes_isNpy hdict data, shortest_padding hfile hdict⟩

/-! ### Strings -/

theorem readUnits_noNul {cfg : Cfg} (hw : cfg.wchar16 = false) {e : Endian} {n : Nat} {acc v : WStr} {s s' : IStream}
    (ha : 0 ∉ acc) (h : readUnits cfg e n acc s = (.ok v, s')) : 0 ∉ v := by
  induction n generalizing acc s with
  | zero =>
    simp only [readUnits, SM.pure_apply, Prod.mk.injEq, Except.ok.injEq] at h
    rw [← h.1]; exact ha
  | succ n ih =>
    rw [readUnits] at h
    simp only [] at h
    obtain ⟨m, s1, h1, h⟩ := SM.of_bind_ok h
    split at h
    · exact ih ha h
    · rename_i hz
      refine ih ?_ h
      simp only [List.mem_append, List.mem_cons, List.not_mem_nil, or_false, not_or]
      refine ⟨ha, ?_⟩
      unfold toWchar
      rw [hw]
      exact fun h => hz h.symm

theorem readWideLoop_noNul {cfg : Cfg} (hw : cfg.wchar16 = false) {e : Endian} {len n : Nat} {l : List WStr} {s s' : IStream}
    (h : readWideLoop cfg e len n s = (.ok l, s')) : ∀ w ∈ l, 0 ∉ w := by
  induction n generalizing s s' l with
  | zero => simp only [readWideLoop, SM.pure_apply, Prod.mk.injEq, Except.ok.injEq] at h; rw [← h.1]; simp
  | succ n ih =>
    rw [readWideLoop] at h
    obtain ⟨w, s1, h1, h⟩ := SM.of_bind_ok h
    obtain ⟨l', s2, h2, h⟩ := SM.of_bind_ok h
    simp only [SM.pure_apply, Prod.mk.injEq, Except.ok.injEq] at h
    rw [← h.1]
    intro v hv
    rcases List.mem_cons.1 hv with rfl | hv
    · exact readUnits_noNul hw (by simp) h1
    · exact ih h2 v hv

theorem readWide_noNul {cfg : Cfg} (hw : cfg.wchar16 = false) {info : HeaderInfo} {n : Nat} {l : List WStr} {s s' : IStream}
    (h : readWide cfg info n s = (.ok l, s')) : ∀ w ∈ l, 0 ∉ w := by
  unfold readWide at h
  split at h
  · simp only [SM.pure_apply, Prod.mk.injEq, Except.ok.injEq] at h
    rw [← h.1]; simp
  · split at h
    · simp at h
    · split at h
      · simp only [SM.pure_apply, Prod.mk.injEq, Except.ok.injEq] at h
        rw [← h.1]
        intro w hw
        rw [List.mem_replicate] at hw
        rw [hw.2]; simp
      · split at h
        · simp at h
        · exact readWideLoop_noNul hw h

/-- **C83** for tensors of strings, where `wchar_t` has 32 bits. -/
theorem C83_resave_unicode (cfg : Cfg) (hw : cfg.wchar16 = false) (s s' : IStream) (x : Tensor WStr)
    (h : load cfg wideOps s = (.ok x, s')) (hr : x.shape.length ≤ 8) (hmax : longest x.values < 2 ^ 31) (e : Endian) :
    ∃ b, saveToString cfg wideOps x e = .ok b ∧ ∀ y, loadFromString cfg wideOps b = .ok y ↔ y = x := by
  obtain ⟨ok, hv⟩ := C29_loaded_wellformed_unicode cfg s s' x h
  obtain ⟨info, s1, vals, h1, h2, h3, h4, h5, h6, h7, h8, h9⟩ := load_inv h
  obtain ⟨b, g1, g2⟩ := C03_eight_axes cfg x ok hv (by rw [h9]; exact readWide_noNul hw h8) e hmax hr
  refine ⟨b, g1, fun y => ?_⟩
  have h3 := g2 []
  rw [List.append_nil] at h3
  rw [loadFromString, h3]
  simp only [Except.ok.injEq]
  exact eq_comm

/-- One string of the units 'a', 0x10000, 'b'. -/
def exAstral : Bytes := [0x93] ++ b!"NUMPY" ++ [1, 0, 63, 0] ++ b!"{'descr': '<U3', 'fortran_order': False, 'shape': (1, ), }    \n" ++
  [97, 0, 0, 0, 0, 0, 1, 0, 98, 0, 0, 0]

/-- **C83** fails for strings where `wchar_t` has 16 bits: a character whose low half is zero is loaded as a NUL, and a NUL is lost
when the tensor is saved and loaded again. -/
theorem C83_false_wide16 (cfg : Cfg) (hb : cfg.nativeBig = false) (hw : cfg.wchar16 = true) :
    ∃ x b y, loadFromString cfg wideOps exAstral = .ok x ∧ x.values = [[97, 0, 98]] ∧
      saveToString cfg wideOps x .little = .ok b ∧ loadFromString cfg wideOps b = .ok y ∧ y.values = [[97, 98]] := by
  obtain ⟨big, nd, w16⟩ := cfg
  obtain rfl : big = false := hb
  obtain rfl : w16 = true := hw
  obtain ⟨x, hx, hv⟩ : ∃ x, loadFromString ⟨false, nd, true⟩ wideOps exAstral = .ok x ∧ x.values = [[97, 0, 98]] := by
    have : ∀ r : Except Err (Tensor WStr), r.map (·.values) = .ok [[97, 0, 98]] → ∃ x, r = .ok x ∧ x.values = [[97, 0, 98]] := by
      rintro (e | x) h
      · simp [Except.map] at h
      · exact ⟨x, rfl, by simpa [Except.map] using h⟩
    refine this _ ?_
    cases nd <;> decide +kernel
  obtain ⟨ok, hwd⟩ := C29_loaded_wellformed_unicode _ _ _ x (Prod.ext hx rfl)
  have hsh : x.shape = [1] := by
    have : ∀ r : Except Err (Tensor WStr), r.map (·.shape) = .ok [1] → r = .ok x → x.shape = [1] := by
      rintro (e | x) h h'
      · simp [Except.map] at h
      · cases h'; simpa [Except.map] using h
    refine this _ ?_ hx
    cases nd <;> decide +kernel
  obtain ⟨b, g1, g2⟩ := C03_unicode_load ⟨false, nd, true⟩ x ok hwd .little (by rw [hv]; decide)
    (headerDict_rank8_unicode _ (by rw [hv]; decide) _ _ _ ok.extents (by rw [hsh]; decide))
  have h3 := g2 []
  rw [List.append_nil] at h3
  exact ⟨x, b, _, hx, hv, g1, by rw [loadFromString, h3], by simp [hv]⟩

/-! ### Examples -/

/-- A file with one byte too few, in an odd layout, becomes a proper one. -/
example : ∃ x b, loadFromString ⟨false, true, false⟩ (fixedOps .int16) exShort = .ok x ∧
    saveToString ⟨false, true, false⟩ (fixedOps .int16) x .big = .ok b ∧
    loadFromString ⟨false, true, false⟩ (fixedOps .int16) b = .ok x := by
  obtain ⟨x, hx⟩ : ∃ x, loadFromString ⟨false, true, false⟩ (fixedOps .int16) exShort = .ok x :=
    (C72_load _ _ (.fixed _ (by decide)) _).2 ⟨_, _, ((C72_peek _ _ ⟨some .int16, some .big, some false, [2], some 0⟩).1
      (by decide +kernel)).choose_spec, by decide, rfl, by decide⟩
  have hl : ∀ bs : Bytes, loadFromString ⟨false, true, false⟩ (fixedOps .int16) bs = .ok x →
      ∃ s', load ⟨false, true, false⟩ (fixedOps .int16) (IStream.ofBytes bs) = (.ok x, s') := fun bs h => ⟨_, Prod.ext h rfl⟩
  obtain ⟨s', hl⟩ := hl _ hx
  obtain ⟨b, h1, h2⟩ := C83_resave ⟨false, true, false⟩ .int16 (by decide) _ s' x hl (by
    have : ∀ r : Except Err (Tensor Elem), r.map (·.shape) = .ok [2] → r = .ok x → x.shape.length ≤ 8 := by
      rintro (e | x) h h'
      · simp [Except.map] at h
      · cases h'; rw [show x.shape = [2] by simpa [Except.map] using h]; decide
    generalize hr : loadFromString ⟨false, true, false⟩ (fixedOps .int16) exShort = r at hx
    exact this r (by rw [← hr]; decide +kernel) hx) .big
  exact ⟨x, b, hx, h1, (h2 x).2 rfl⟩

/-- What `save` makes is reproduced byte for byte. -/
example : ∃ x, loadFromString ⟨false, true, false⟩ (fixedOps .uint8)
      (headerBytes (descr .uint8 false) true [2, 3] ++ [1, 2, 3, 4, 5, 6]) = .ok x ∧
    saveToString ⟨false, true, false⟩ (fixedOps .uint8) x .big =
      .ok (headerBytes (descr .uint8 false) true [2, 3] ++ [1, 2, 3, 4, 5, 6]) := by
  have hd : (headerDict (descr .uint8 false) true [2, 3]).length ≤ 245 :=
    headerDict_length_le (by unfold descr; rw [← decimal_eq_spec]; decide)
  obtain ⟨x, b, h1, h2, h3, h4, h5⟩ := C83_reproduced ⟨false, true, false⟩ .uint8 (by decide) false true [2, 3] (by decide) [1, 2, 3, 4, 5, 6] _
    (headerBytes_isNpy hd _) (by decide) (by decide) .big (.inr (by decide)) hd
  have h6 := shortest_padding h3 hd
  rw [h5.2 (by have := h6.1; omega)] at h2
  exact ⟨x, h1, h2⟩

/-- Strings. -/
example : ∃ b, saveToString ⟨false, true, false⟩ wideOps exWide .big = .ok b ∧ ∀ y, loadFromString ⟨false, true, false⟩ wideOps b = .ok y ↔ y = exWide := by
  obtain ⟨b, _, h2⟩ := C03_eight_axes ⟨false, true, false⟩ exWide (Tensor.ok_of_strides (by decide) (by decide) (by decide) rfl (by decide))
    (by unfold IsWide; decide) (by decide) .little (by decide) (by decide)
  exact C83_resave_unicode ⟨false, true, false⟩ rfl _ _ exWide (h2 []) (by decide) (by decide) .big

end Npy
