import Verif.Proofs.Loaded
import Verif.Props.Parse
/-!
# C13, C29: truncated data and what `load` returns on arbitrary input
-/

namespace Npy
open Spec (TensorOk IsElem IsWide)

/-! ### C29 -/

/-- **C29** Whatever the stream holds and whatever its state, a tensor returned by `load` has as many elements as its
shape, which is the one in the header, says (modulo 2^64): the amount of data in the stream does not matter. -/
theorem C29_size_from_header {α : Type} (cfg : Cfg) (ops : ElemOps α) (ho : LibOps ops) (s s' : IStream) (x : Tensor α)
    (h : load cfg ops s = (.ok x, s')) :
    x.values.length = x.shape.prod % 2 ^ 64 ∧
      ∃ info s1, peek cfg s = (.ok info, s1) ∧ info.shape = x.shape := by
  obtain ⟨info, s1, vals, h1, h2, h3, h4, h5, h6, h7, h8, h9⟩ := load_inv h
  refine ⟨?_, info, s1, h1, h3⟩
  rw [h9]
  have : vals.length = Tensor.getSize x.shape := by
    cases ho with
    | fixed t => exact (readFixed_inv h8).1
    | wide => exact (readWide_inv h8).1
  rw [this, Tensor.getSize_eq]
  rfl

/-- **C29** Every fixed-size tensor returned by `load`, from any stream whatsoever, is well formed and its elements are
values of its type. -/
theorem C29_loaded_wellformed (cfg : Cfg) (t : DType) (ht : t ≠ .unicode) (s s' : IStream) (x : Tensor Elem)
    (h : load cfg (fixedOps t) s = (.ok x, s')) :
    TensorOk t (Spec.itemSize t) x ∧ ∀ v ∈ x.values, IsElem t v := by
  obtain ⟨hl, _⟩ := C29_size_from_header cfg _ (.fixed t ht) s s' x h
  obtain ⟨info, s1, vals, h1, h2, h3, h4, h5, h6, h7, h8, h9⟩ := load_inv h
  have hsz : Tensor.getSize x.shape = x.values.length := by rw [hl, Tensor.getSize_eq]; rfl
  refine ⟨Tensor.ok_of_strides ?_ hl ?_ h5 h7, ?_⟩
  · have := readNpyHeader_shape h1
    rw [h3] at this
    exact this
  · rw [Tensor.le_maxSize_iff _ (size_pos t ht), hsz] at h6
    rw [itemSize_eq t ht]
    exact h6
  · rw [h9]
    intro v hv
    exact (validElem_iff t ht v).1 ((readFixed_inv h8).2 v hv)

/-- **C29** The same for strings. -/
theorem C29_loaded_wellformed_unicode (cfg : Cfg) (s s' : IStream) (x : Tensor WStr)
    (h : load cfg wideOps s = (.ok x, s')) :
    TensorOk .unicode 32 x ∧ ∀ v ∈ x.values, IsWide cfg v := by
  obtain ⟨hl, _⟩ := C29_size_from_header cfg _ .wide s s' x h
  obtain ⟨info, s1, vals, h1, h2, h3, h4, h5, h6, h7, h8, h9⟩ := load_inv h
  have hsz : Tensor.getSize x.shape = x.values.length := by rw [hl, Tensor.getSize_eq]; rfl
  refine ⟨Tensor.ok_of_strides ?_ hl ?_ h5 h7, ?_⟩
  · have := readNpyHeader_shape h1
    rw [h3] at this
    exact this
  · rw [Tensor.le_maxSize_iff _ (by decide), hsz] at h6
    exact h6
  · rw [h9]
    exact (readWide_inv h8).2

/-- Three bytes of data for a tensor of two 16-bit elements: two elements come back. -/
example : ∃ x, loadFromString ⟨false, true, false⟩ (fixedOps .int16)
    (Spec.npyV1 (dictionaryText b!"<i2" false [2]) [1, 2, 3]) = .ok x ∧ x.values = [[513], [3]] := by
  refine ⟨_, rfl, ?_⟩
  decide

/-! ### C13 -/

/-- The byte that stands for missing data: zero when the elements are read as one block, all ones when they are read
byte by byte. -/
def fillByte (cfg : Cfg) (t : DType) (big : Bool) : Byte :=
  if Spec.itemSize t = 1 ∨ big = cfg.nativeBig then 0 else 0xFF

/-- The component all of whose bytes are the fill byte. -/
def fillPart (cfg : Cfg) (t : DType) (big : Bool) : Nat :=
  if Spec.itemSize t = 1 ∨ big = cfg.nativeBig then 0 else 2 ^ (8 * Spec.width t) - 1

theorem fill_swaps (cfg : Cfg) (t : DType) (ht : t ≠ .unicode) (e : Endian) :
    Swaps cfg t (some (storedEndian t (Spec.isBig cfg e))) ↔ ¬ (Spec.itemSize t = 1 ∨ Spec.isBig cfg e = cfg.nativeBig) := by
  obtain ⟨nb, nd, w⟩ := cfg
  cases nd <;> cases w <;> cases nb <;> cases e <;> cases t <;> first | decide | exact absurd rfl ht

theorem leValue_replicate (n : Nat) (b : Byte) : leValue (List.replicate n b) * 255 = b.toNat * (256 ^ n - 1) := by
  induction n with
  | zero => simp [leValue]
  | succ n ih =>
    rw [List.replicate_succ, leValue, Nat.pow_succ]
    have : 0 < 256 ^ n := Nat.pow_pos (by decide)
    obtain ⟨k, hk⟩ : ∃ k, 256 ^ n = k + 1 := ⟨256 ^ n - 1, by omega⟩
    rw [hk] at ih ⊢
    simp only [Nat.add_sub_cancel] at ih
    have e : (k + 1) * 256 - 1 = k * 256 + 255 := by omega
    rw [e, Nat.add_mul, Nat.mul_assoc 256, ih, Nat.mul_add]
    ring

theorem memElem_fill (cfg : Cfg) (t : DType) (b : Byte) :
    memElem cfg t (List.replicate t.size b) = List.replicate t.comps (leValue (List.replicate t.csize b)) := by
  apply List.ext_getElem
  · simp [memElem]
  · intro i h1 h2
    have hi : i < t.comps := by simpa [memElem] using h1
    simp only [memElem, List.getElem_map, List.getElem_range, List.drop_replicate, List.take_replicate,
      List.getElem_replicate]
    have : min t.csize (t.size - i * t.csize) = t.csize := by
      rw [DType.size]
      have : i * t.csize + t.csize ≤ t.comps * t.csize := by
        rw [← Nat.succ_mul]; exact Nat.mul_le_mul_right _ hi
      omega
    rw [this]
    unfold hostValue
    split <;> simp

/-- The elements read from data `d` that may be too short for the `n` elements the header promises. -/
def truncValues (cfg : Cfg) (t : DType) (en : Endian) (n : Nat) (d : Bytes) : List Elem :=
  if Swaps cfg t (some en) then
    (chunks t.size n (d.take (n * t.size) ++ List.replicate (n * t.size - d.length) 0xFF)).map
      fun m => memElem cfg t m.reverse
  else (chunks t.size n (d.take (n * t.size) ++ List.replicate (n * t.size - d.length) 0)).map (memElem cfg t)

/-- The loaded values when only `d` of the data is there. -/
theorem load_truncated {cfg : Cfg} {t : DType} (ht : t ≠ .unicode) {x : Tensor Elem} (hx : TensorOk t t.size x) (e : Endian)
    (hlen : (Spec.headerDict (Spec.descr t (Spec.isBig cfg e)) x.fortranOrder x.shape).length ≤ 245) (d : Bytes) :
    loadFromString cfg (fixedOps t) (headerBytes (Spec.descr t (Spec.isBig cfg e)) x.fortranOrder x.shape ++ d) =
      .ok { x with values := truncValues cfg t (storedEndian t (Spec.isBig cfg e)) x.values.length d } := by
  rw [← dictionaryText_eq_spec] at hlen
  have hs := IStream.ofBytes_good (headerBytes (Spec.descr t (Spec.isBig cfg e)) x.fortranOrder x.shape ++ d)
  have hh := readNpyHeader_saved cfg hs (descr_no_quote t _) (setDescr_fixed HeaderInfo.uninit t ht _) hx.extents hlen d
  have hr := readFixed_gen (cfg := cfg) ht (info := { HeaderInfo.uninit with
      dtype := some t, endianness := some (storedEndian t (Spec.isBig cfg e)), maxElementLength := some 0,
      fortranOrder := some x.fortranOrder, shape := x.shape }) x.values.length (.inr (by simp))
      (s := (IStream.ofBytes (headerBytes (Spec.descr t (Spec.isBig cfg e)) x.fortranOrder x.shape ++ d)).withRest d)
      (.inl (by simpa using hs))
  have := load_of_header (ops := fixedOps t) (size_pos t ht) hx hh rfl rfl rfl hr
  unfold loadFromString
  exact congrArg Prod.fst this

/-- **C13** (what happens instead) A file whose data ends early is never refused. For every place `j` in the data at
which a saved file is cut, `load` returns a tensor of the full shape: the elements before the cut are those saved, the
elements entirely after the cut have all their bytes zero (or all ones, if the byte order differs from the host's), and
altogether the result is what the file filled up with such bytes loads to. -/
theorem C13_truncated (cfg : Cfg) (t : DType) (ht : t ≠ .unicode) (x : Tensor Elem)
    (hx : TensorOk t (Spec.itemSize t) x) (hv : ∀ v ∈ x.values, IsElem t v) (e : Endian)
    (hlen : (Spec.headerDict (Spec.descr t (Spec.isBig cfg e)) x.fortranOrder x.shape).length ≤ 245) :
    ∃ header data, saveToString cfg (fixedOps t) x e = .ok (header ++ data) ∧
      data.length = x.values.length * Spec.itemSize t ∧
      ∀ j ≤ data.length, ∃ y, loadFromString cfg (fixedOps t) (header ++ data.take j) = .ok y ∧
        y.shape = x.shape ∧ y.fortranOrder = x.fortranOrder ∧ y.dtype = x.dtype ∧ y.values.length = x.values.length ∧
        (∀ i, (i + 1) * Spec.itemSize t ≤ j → y.values[i]? = x.values[i]?) ∧
        (∀ i < x.values.length, j ≤ i * Spec.itemSize t →
          y.values[i]? = some (List.replicate (Spec.parts t) (fillPart cfg t (Spec.isBig cfg e)))) ∧
        loadFromString cfg (fixedOps t)
          (header ++ data.take j ++ List.replicate (data.length - j) (fillByte cfg t (Spec.isBig cfg e))) = .ok y := by
  rw [itemSize_eq t ht] at hx ⊢
  have hv' : ∀ v ∈ x.values, ValidElem t v := fun v h => (validElem_iff t ht v).2 (hv v h)
  have hdl : (x.values.flatMap (fixedBytes cfg t e)).length = x.values.length * t.size :=
    flatMap_length _ _ _ fun v h => fixedBytes_length (hv' v h)
  refine ⟨_, _, saveToString_fixed ht hv e, hdl, ?_⟩
  have hch := chunks_flatMap t.size (fixedBytes cfg t e) x.values (fun v h => fixedBytes_length (hv' v h)) []
  rw [List.append_nil] at hch
  generalize hD : x.values.flatMap (fixedBytes cfg t e) = D at hdl hch
  intro j hj
  have hfs := fill_swaps cfg t ht e
  obtain ⟨B, hB⟩ : ∃ B, B = D.take j ++ List.replicate (D.length - j) (fillByte cfg t (Spec.isBig cfg e)) := ⟨_, rfl⟩
  have hBl : B.length = x.values.length * t.size := by rw [hB, ← hdl]; simp; omega
  -- the values in terms of `B`
  obtain ⟨dec, hdec⟩ : ∃ dec : Bytes → Elem, dec = if Swaps cfg t (some (storedEndian t (Spec.isBig cfg e))) then
      (fun m => memElem cfg t m.reverse) else memElem cfg t := ⟨_, rfl⟩
  have hy1 : loadFromString cfg (fixedOps t)
      (headerBytes (Spec.descr t (Spec.isBig cfg e)) x.fortranOrder x.shape ++ D.take j) =
        .ok { x with values := (chunks t.size x.values.length B).map dec } := by
    rw [load_truncated ht hx e hlen, hdec, hB, truncValues]
    congr 2
    have e1 : List.take (x.values.length * t.size) (D.take j) = D.take j := by
      rw [List.take_of_length_le]; simp; omega
    have e2 : x.values.length * t.size - (D.take j).length = D.length - j := by simp; omega
    rw [e1, e2]
    by_cases hsw : Swaps cfg t (some (storedEndian t (Spec.isBig cfg e)))
    · rw [if_pos hsw, if_pos hsw, fillByte, if_neg (hfs.1 hsw)]
    · rw [if_neg hsw, if_neg hsw, fillByte, if_pos (by by_contra hc; exact hsw (hfs.2 hc))]
  have hy2 : loadFromString cfg (fixedOps t)
      (headerBytes (Spec.descr t (Spec.isBig cfg e)) x.fortranOrder x.shape ++ B) =
        .ok { x with values := (chunks t.size x.values.length B).map dec } := by
    rw [load_truncated ht hx e hlen, hdec, truncValues]
    congr 2
    have e1 : List.take (x.values.length * t.size) B = B := by
      rw [List.take_of_length_le]; omega
    have e2 : x.values.length * t.size - B.length = 0 := by omega
    rw [e1, e2]
    by_cases hsw : Swaps cfg t (some (storedEndian t (Spec.isBig cfg e)))
    · simp [hsw]
    · simp [hsw]
  refine ⟨_, hy1, rfl, rfl, rfl, by simp [chunks_length], ?_, ?_, by rw [List.append_assoc, ← hB]; exact hy2⟩
  · intro i hi
    have hsp := size_pos t ht
    have hin : i < x.values.length := by
      by_contra hc
      have : x.values.length * t.size ≤ i * t.size := Nat.mul_le_mul_right _ (by omega)
      rw [Nat.succ_mul] at hi
      omega
    have e1 : (B.drop (i * t.size)).take t.size = (D.drop (i * t.size)).take t.size := by
      rw [Nat.succ_mul] at hi
      rw [hB, List.drop_append, List.drop_take, List.take_append_of_le_length (by simp; omega), List.take_take]
      congr 1
      omega
    have hci := chunks_get t.size x.values.length D i hin
    rw [hch] at hci
    simp only [List.getElem?_map, chunks_get t.size x.values.length B i hin, Option.map_some, e1]
    rw [List.getElem?_map, List.getElem?_eq_getElem hin, Option.map_some, Option.some.injEq] at hci
    rw [← hci, List.getElem?_eq_getElem hin, Option.some.injEq, hdec]
    have hvi := hv' _ (List.getElem_mem hin)
    rw [fixedBytes_swaps]
    by_cases hsw : Swaps cfg t (some (storedEndian t (Spec.isBig cfg e)))
    · rw [if_pos hsw, if_pos ((swaps_stored cfg t e).1 hsw), List.reverse_reverse, memElem_memBytes hvi]
    · rw [if_neg hsw, if_neg (fun h => hsw ((swaps_stored cfg t e).2 h)), memElem_memBytes hvi]
  · intro i hin hji
    have hm : i * t.size + t.size ≤ x.values.length * t.size := by
      rw [← Nat.succ_mul]; exact Nat.mul_le_mul_right _ hin
    have e1 : (B.drop (i * t.size)).take t.size = List.replicate t.size (fillByte cfg t (Spec.isBig cfg e)) := by
      rw [hB, List.drop_append, List.drop_eq_nil_of_le (by simp; omega), List.nil_append, List.drop_replicate,
        List.take_replicate]
      congr 1
      simp; omega
    simp only [List.getElem?_map, chunks_get t.size x.values.length B i hin, Option.map_some, e1, Option.some.injEq]
    have e2 : dec (List.replicate t.size (fillByte cfg t (Spec.isBig cfg e))) =
        memElem cfg t (List.replicate t.size (fillByte cfg t (Spec.isBig cfg e))) := by
      rw [hdec]; split <;> simp
    rw [e2, memElem_fill, parts_eq]
    congr 1
    have h3 := leValue_replicate t.csize (fillByte cfg t (Spec.isBig cfg e))
    unfold fillByte at h3 ⊢
    unfold fillPart
    rw [width_eq t ht, Nat.pow_mul]
    split
    · rename_i hc
      rw [if_pos hc] at h3
      simpa using h3
    · rename_i hc
      rw [if_neg hc] at h3
      have : ((0xFF : Byte)).toNat = 255 := rfl
      rw [this] at h3
      have h4 : (2 : Nat) ^ 8 = 256 := rfl
      rw [h4]
      omega

/-- **C13** is false: a file of six elements cut after two of them loads. -/
theorem C13_rejected_false : ∃ header data, saveToString ⟨false, true, false⟩ (fixedOps .int16) exTensor .big = .ok (header ++ data) ∧
    data.length = 12 ∧ ∃ y, loadFromString ⟨false, true, false⟩ (fixedOps .int16) (header ++ data.take 4) = .ok y ∧
      y.values.length = 6 ∧ y.values[2]? = some [65535] := by
  obtain ⟨h, d, h1, h2, h3⟩ := C13_truncated ⟨false, true, false⟩ .int16 (by decide) exTensor exTensor_ok exTensor_elems .big
    (headerDict_length_le (by unfold Spec.descr; rw [← decimal_eq_spec]; decide))
  have h2' : d.length = 12 := by rw [h2]; rfl
  obtain ⟨y, a1, _, _, _, a2, _, a3, _⟩ := h3 4 (by omega)
  exact ⟨h, d, h1, h2', y, a1, a2, a3 2 (by decide) (by decide)⟩

/-! ### C13 for strings -/

/-- The unit all of whose bytes are ones, as a `wchar_t`. -/
def fillUnit (cfg : Cfg) : Nat := if cfg.wchar16 then 2 ^ 16 - 1 else 2 ^ 32 - 1

/-- The strings read from data `d` that may be too short for the `n` strings the header promises. -/
def wideValues (cfg : Cfg) (e : Endian) (len n : Nat) (d : Bytes) : List WStr :=
  (chunks (len * 4) n (d.take (n * (len * 4)) ++ List.replicate (n * (len * 4) - d.length) 0xFF)).map
    fun m => dropNul cfg (unitsOf cfg e len m)

theorem load_wide_any {cfg : Cfg} {x : Tensor WStr} (hx : TensorOk .unicode 32 x) (e : Endian)
    (hm : maxLength x.values < 2 ^ 31)
    (hlen : (Spec.headerDict (Spec.descrU (maxLength x.values) (Spec.isBig cfg e)) x.fortranOrder x.shape).length ≤ 245)
    (d : Bytes) :
    ∃ e', (wideSwaps cfg e' ↔ wideSwaps cfg e) ∧
    loadFromString cfg wideOps (headerBytes (Spec.descrU (maxLength x.values) (Spec.isBig cfg e)) x.fortranOrder x.shape ++ d) =
      .ok { x with values := wideValues cfg e' (maxLength x.values) x.values.length d } := by
  rw [← dictionaryText_eq_spec] at hlen
  have hs := IStream.ofBytes_good (headerBytes (Spec.descrU (maxLength x.values) (Spec.isBig cfg e)) x.fortranOrder x.shape ++ d)
  have hh := readNpyHeader_saved cfg hs (descrU_no_quote _ _) (setDescr_wide HeaderInfo.uninit _ hm _) hx.extents hlen d
  refine ⟨_, wideSwaps_stored cfg e, ?_⟩
  have := load_of_header (ops := wideOps) (by decide) hx hh rfl rfl rfl
    (readWide_gen x.values.length rfl rfl (.inl (by simpa using hs)))
  unfold loadFromString
  exact congrArg Prod.fst this

theorem unitsOf_congr {cfg : Cfg} {e e' : Endian} (h : wideSwaps cfg e' ↔ wideSwaps cfg e) : unitsOf cfg e' = unitsOf cfg e := by
  have hu : unitMem cfg e' = unitMem cfg e := by
    funext m; unfold unitMem
    by_cases hw : wideSwaps cfg e
    · rw [if_pos hw, if_pos (h.2 hw)]
    · rw [if_neg hw, if_neg (fun x => hw (h.1 x))]
  funext n m; unfold unitsOf; rw [hu]

theorem unitsOf_ones (cfg : Cfg) (e : Endian) (n : Nat) :
    dropNul cfg (unitsOf cfg e n (List.replicate (n * 4) 0xFF)) = List.replicate n (fillUnit cfg) := by
  have h4 : hostValue cfg (unitMem cfg e (List.replicate 4 0xFF)) = 2 ^ 32 - 1 := by
    obtain ⟨a, b, c⟩ := cfg
    unfold unitMem
    have : (List.replicate 4 (0xFF : Byte)).reverse = List.replicate 4 0xFF := rfl
    rw [this, ite_self]
    cases a <;> rfl
  have h1 : unitsOf cfg e n (List.replicate (n * 4) 0xFF) = List.replicate n (2 ^ 32 - 1) := by
    induction n with
    | zero => rfl
    | succ n ih =>
      have e1 : (n + 1) * 4 = 4 + n * 4 := by omega
      unfold unitsOf at ih ⊢
      rw [chunks, List.map_cons, List.drop_replicate, List.take_replicate, e1, Nat.add_sub_cancel_left,
        Nat.min_eq_left (by omega), h4, ih, ← List.replicate_succ]
  rw [h1]
  unfold dropNul
  rw [List.filter_eq_self.2 (by intro a ha; rw [(List.mem_replicate.1 ha).2]; decide), List.map_replicate]
  congr 1

/-- **C13** for tensors of strings: a file cut anywhere in its data loads; the strings before the cut are those saved, the
strings entirely after the cut consist of units all of whose bits are ones (as many as the longest string has), and
altogether the result is what the file filled up with bytes 0xFF loads to, in either byte order. -/
theorem C13_truncated_unicode (cfg : Cfg) (x : Tensor WStr) (hx : TensorOk .unicode 32 x) (hw : ∀ v ∈ x.values, IsWide cfg v)
    (h0 : ∀ v ∈ x.values, 0 ∉ v) (e : Endian) (hmax : Spec.longest x.values < 2 ^ 31)
    (hlen : (Spec.headerDict (Spec.descrU (Spec.longest x.values) (Spec.isBig cfg e)) x.fortranOrder x.shape).length ≤ 245) :
    ∃ header data, saveToString cfg wideOps x e = .ok (header ++ data) ∧
      data.length = x.values.length * (4 * Spec.longest x.values) ∧
      ∀ j ≤ data.length, ∃ y, loadFromString cfg wideOps (header ++ data.take j) = .ok y ∧
        y.shape = x.shape ∧ y.fortranOrder = x.fortranOrder ∧ y.dtype = x.dtype ∧ y.values.length = x.values.length ∧
        (∀ i, (i + 1) * (4 * Spec.longest x.values) ≤ j → y.values[i]? = x.values[i]?) ∧
        (∀ i < x.values.length, j ≤ i * (4 * Spec.longest x.values) →
          y.values[i]? = some (List.replicate (Spec.longest x.values) (fillUnit cfg))) ∧
        loadFromString cfg wideOps (header ++ data.take j ++ List.replicate (data.length - j) 0xFF) = .ok y := by
  rw [← maxLength_eq] at hmax hlen ⊢
  obtain ⟨L, hL⟩ : ∃ L, L = maxLength x.values := ⟨_, rfl⟩
  have hdl : (x.values.flatMap (wideBytes cfg e (maxLength x.values))).length = x.values.length * (maxLength x.values * 4) :=
    flatMap_length _ _ _ fun v hx => wideBytes_length cfg e (le_maxLength hx)
  refine ⟨_, _, saveToString_wide x e, by rw [hdl, Nat.mul_comm (maxLength _)], ?_⟩
  have hch := chunks_flatMap (maxLength x.values * 4) (wideBytes cfg e (maxLength x.values)) x.values
    (fun v hx => wideBytes_length cfg e (le_maxLength hx)) []
  rw [List.append_nil] at hch
  have hback := fun d => load_wide_any hx e hmax hlen d
  have hwb : ∀ v ∈ x.values, ∀ e', (wideSwaps cfg e' ↔ wideSwaps cfg e) →
      dropNul cfg (unitsOf cfg e' (maxLength x.values) (wideBytes cfg e (maxLength x.values) v)) = v := by
    intro v hv e' he'
    have hu' : unitsOf cfg e' = unitsOf cfg e := unitsOf_congr he'
    have hle := le_maxLength hv
    have h3 := unitsOf_flatMap cfg e (v ++ List.replicate (maxLength x.values - v.length) 0) (by
      intro u hu
      rw [List.mem_append, List.mem_replicate] at hu
      cases hu with
      | inl hu => exact isWide_lt (hw v hv) u hu
      | inr hu => rw [hu.2]; decide)
    rw [List.length_append, List.length_replicate, Nat.add_sub_cancel' hle] at h3
    rw [hu', wideBytes, h3]
    have h4 : dropNul cfg (v ++ List.replicate (maxLength x.values - v.length) 0) = dropNul cfg v := by simp [dropNul]
    rw [h4, dropNul_eq (hw v hv), List.filter_eq_self.2]
    intro c hc
    simp only [ne_eq, decide_not, Bool.not_eq_eq_eq_not, Bool.not_true, decide_eq_false_iff_not]
    rintro rfl
    exact h0 v hv hc
  rw [← hL] at hdl hch hback hwb ⊢
  generalize hD : x.values.flatMap (wideBytes cfg e L) = D at hdl hch
  intro j hj
  obtain ⟨B, hB⟩ : ∃ B, B = D.take j ++ List.replicate (D.length - j) 0xFF := ⟨_, rfl⟩
  have hBl : B.length = x.values.length * (L * 4) := by rw [hB, ← hdl]; simp; omega
  obtain ⟨e1, he1, l1⟩ := hback (D.take j)
  obtain ⟨e2, he2, l2⟩ := hback B
  have hee : unitsOf cfg e1 = unitsOf cfg e2 := (unitsOf_congr he1).trans (unitsOf_congr he2).symm
  have p1 : List.take (x.values.length * (L * 4)) (D.take j) = D.take j := by
    rw [List.take_of_length_le]; simp; omega
  have p2 : x.values.length * (L * 4) - (D.take j).length = D.length - j := by simp; omega
  have p3 : List.take (x.values.length * (L * 4)) B = B := by
    rw [List.take_of_length_le]; omega
  rw [wideValues, p1, p2, ← hB] at l1
  rw [wideValues, p3, ← hBl, Nat.sub_self, List.replicate_zero, List.append_nil, ← hee] at l2
  refine ⟨_, l1, rfl, rfl, rfl, by simp [chunks_length], ?_, ?_, by rw [List.append_assoc, ← hB]; exact l2⟩
  · intro i hi
    rw [Nat.mul_comm 4] at hi
    by_cases hin : i < x.values.length
    · have q1 : (B.drop (i * (L * 4))).take (L * 4) = (D.drop (i * (L * 4))).take (L * 4) := by
        rw [Nat.succ_mul] at hi
        rw [hB, List.drop_append, List.drop_take, List.take_append_of_le_length (by simp; omega), List.take_take]
        congr 1
        omega
      have hci := chunks_get (L * 4) x.values.length D i hin
      rw [hch] at hci
      rw [List.getElem?_map, List.getElem?_eq_getElem hin, Option.map_some, Option.some.injEq] at hci
      simp only [List.getElem?_map, chunks_get (L * 4) x.values.length B i hin, Option.map_some, q1]
      rw [← hci, List.getElem?_eq_getElem hin, hwb _ (List.getElem_mem hin) e1 he1]
    · rw [List.getElem?_eq_none (by simp [chunks_length]; omega), List.getElem?_eq_none (by omega)]
  · intro i hin hji
    rw [Nat.mul_comm 4] at hji
    have hm : i * (L * 4) + L * 4 ≤ x.values.length * (L * 4) := by
      rw [← Nat.succ_mul]; exact Nat.mul_le_mul_right _ hin
    have q1 : (B.drop (i * (L * 4))).take (L * 4) = List.replicate (L * 4) 0xFF := by
      rw [hB, List.drop_append, List.drop_eq_nil_of_le (by simp; omega), List.nil_append, List.drop_replicate,
        List.take_replicate]
      congr 1
      simp; omega
    simp only [List.getElem?_map, chunks_get (L * 4) x.values.length B i hin, Option.map_some, q1, unitsOf_ones]

/-- Two strings, the second one cut off. -/
example : ∃ header data, saveToString ⟨false, true, false⟩ wideOps exWide .big = .ok (header ++ data) ∧ data.length = 16 ∧
    ∃ y, loadFromString ⟨false, true, false⟩ wideOps (header ++ data.take 8) = .ok y ∧
      y.values = [[104, 105], [4294967295, 4294967295]] := by
  obtain ⟨h, d, h1, h2, h3⟩ := C13_truncated_unicode ⟨false, true, false⟩ exWide
    (Tensor.ok_of_strides (by decide) (by decide) (by decide) rfl (by decide)) (by unfold IsWide; decide) (by decide) .big (by decide)
    (headerDict_length_le (by unfold Spec.descrU; rw [← decimal_eq_spec]; decide))
  have h2' : d.length = 16 := by rw [h2]; rfl
  obtain ⟨y, a1, _, _, _, a2, a3, a4, _⟩ := h3 8 (by omega)
  refine ⟨h, d, h1, h2', y, a1, List.ext_getElem? fun i => ?_⟩
  match i with
  | 0 => rw [a3 0 (by decide)]; rfl
  | 1 => rw [a4 1 (by decide) (by decide)]; rfl
  | i + 2 => rw [List.getElem?_eq_none (by rw [a2]; show 2 ≤ _; omega), List.getElem?_eq_none (by simp)]

end Npy
