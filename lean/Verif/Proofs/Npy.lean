import Verif.Proofs.Tensor
import Verif.Proofs.Header
import Verif.Proofs.Wide
/-! `save` and `load` on streams. -/

namespace Npy

theorem width_eq (t : DType) (h : t ≠ .unicode) : Spec.width t = t.csize := by
  cases t <;> first | rfl | exact absurd rfl h

theorem parts_eq (t : DType) : Spec.parts t = t.comps := by cases t <;> rfl

theorem itemSize_eq (t : DType) (h : t ≠ .unicode) : Spec.itemSize t = t.size := by
  rw [Spec.itemSize, DType.size, width_eq t h, parts_eq]

theorem size_pos (t : DType) (h : t ≠ .unicode) : 0 < t.size := by
  cases t <;> first | decide | exact absurd rfl h

theorem validElem_iff (t : DType) (h : t ≠ .unicode) (v : Elem) : ValidElem t v ↔ Spec.IsElem t v := by
  have h2 : 2 ^ (8 * t.csize) = 256 ^ t.csize := by rw [Nat.pow_mul]
  rw [ValidElem, Spec.IsElem, parts_eq, width_eq t h, h2]

/-! ### dtype strings -/

theorem toDtype_eq (cfg : Cfg) (t : DType) (h : t ≠ .unicode) (e : Endian) :
    toDtype cfg t e = .ok (Spec.descr t (Spec.isBig cfg e)) := by
  obtain ⟨nb, nd, w⟩ := cfg
  unfold Spec.descr
  rw [← decimal_eq_spec]
  cases nb <;> cases e <;> cases t <;> first | rfl | exact absurd rfl h

/-- The endianness `from_dtype` gives for the dtype string of a type. -/
def storedEndian (t : DType) (big : Bool) : Endian :=
  if t.oneByte then .native else if big then .big else .little

theorem setDescr_fixed (h : HeaderInfo) (t : DType) (ht : t ≠ .unicode) (big : Bool) :
    setDescr h (Spec.descr t big) = .ok { h with
      dtype := some t, endianness := some (storedEndian t big), maxElementLength := some 0 } := by
  unfold Spec.descr
  rw [← decimal_eq_spec]
  cases big <;> cases t <;> first | rfl | exact absurd rfl ht

theorem descr_no_quote (t : DType) (big : Bool) : 39 ∉ Spec.descr t big := by
  unfold Spec.descr
  rw [← decimal_eq_spec]
  cases big <;> cases t <;> decide

theorem swaps_stored (cfg : Cfg) (t : DType) (e : Endian) :
    Swaps cfg t (some (storedEndian t (Spec.isBig cfg e))) ↔ Swaps cfg t (some e) := by
  obtain ⟨nb, nd, w⟩ := cfg
  cases nd <;> cases w <;> cases nb <;> cases e <;> cases t <;> decide

/-! ### Fixed-size types -/

/-- The bytes of a saved tensor. -/
def savedFixed (cfg : Cfg) (t : DType) (x : Tensor Elem) (e : Endian) : Bytes :=
  headerBytes (Spec.descr t (Spec.isBig cfg e)) x.fortranOrder x.shape ++ x.values.flatMap (fixedBytes cfg t e)

theorem OStream.write_write {o : OStream} (h : o.Healthy) (a b : Bytes) : (o.write a).write b = o.write (a ++ b) := by
  rw [OStream.write_healthy (h.write _), OStream.write_healthy h, OStream.write_healthy h]
  simp

theorem save_fixed {cfg : Cfg} {t : DType} (ht : t ≠ .unicode) {x : Tensor Elem}
    (hv : ∀ v ∈ x.values, ValidElem t v) (e : Endian) {o : OStream} (ho : o.Healthy) :
    save cfg (fixedOps t) x e o = .ok (o.write (savedFixed cfg t x e)) := by
  unfold save
  have : (fixedOps t).dtypeStr cfg e x.values = .ok (Spec.descr t (Spec.isBig cfg e)) := toDtype_eq cfg t ht e
  rw [this]
  simp only [fixedOps]
  rw [writeNpyHeader_ok ho, writeFixed_ok ht e hv (ho.write _), OStream.write_write ho]
  rfl

/-- What `load` does once the header has been read. -/
theorem load_of_header {α : Type} {cfg : Cfg} {ops : ElemOps α} (hs : 0 < ops.sizeof) {x : Tensor α}
    (hx : Spec.TensorOk ops.dtype ops.sizeof x) {s s1 s2 : IStream} {info : HeaderInfo}
    (hh : readNpyHeader cfg s = (.ok info, s1)) (hf : info.fortranOrder = some x.fortranOrder)
    (hsh : info.shape = x.shape) (hd : info.dtype = some ops.dtype) {vals : List α}
    (hr : ops.read cfg info x.values.length s1 = (.ok vals, s2)) :
    load cfg ops s = (.ok { x with values := vals }, s2) := by
  unfold load
  rw [SM.bind_ok hh]
  unfold Tensor.load
  rw [hf, hsh, hd]
  simp only []
  rw [Tensor.new_of_ok hs hx]
  have : (SM.lift (.ok { x with values := List.replicate x.values.length ops.zero }) : IM (Tensor α)) s1 =
    (.ok { x with values := List.replicate x.values.length ops.zero }, s1) := rfl
  rw [SM.bind_ok this, if_neg (by simp [hx.dtype])]
  simp only [List.length_replicate]
  rw [SM.bind_ok hr]
  rfl

theorem load_fixed {cfg : Cfg} {t : DType} (ht : t ≠ .unicode) {x : Tensor Elem}
    (hx : Spec.TensorOk t t.size x) (hv : ∀ v ∈ x.values, ValidElem t v) (e : Endian)
    (hlen : (Spec.headerDict (Spec.descr t (Spec.isBig cfg e)) x.fortranOrder x.shape).length ≤ 245)
    {s : IStream} (h : s.good = true) (r : Bytes) :
    load cfg (fixedOps t) (s.withRest (savedFixed cfg t x e ++ r)) = (.ok x, s.withRest r) := by
  rw [← dictionaryText_eq_spec] at hlen
  rw [savedFixed, List.append_assoc]
  have hh := readNpyHeader_saved cfg h (descr_no_quote t _) (setDescr_fixed HeaderInfo.uninit t ht _) hx.extents hlen
    (x.values.flatMap (fixedBytes cfg t e) ++ r)
  have := load_of_header (ops := fixedOps t) (size_pos t ht) hx hh rfl rfl rfl
    (vals := x.values) (s2 := s.withRest r) (readFixed_ok ht hv (.inr (by simp)) (swaps_stored cfg t e) h r)
  rw [this]

/-! ### Byte orders -/

theorem leBytes_eq (k n : Nat) : leBytes k n = Spec.littleBytes k n := by
  unfold Spec.littleBytes
  induction k generalizing n with
  | zero => rfl
  | succ k ih =>
    rw [leBytes, ih, List.range_succ_eq_map, List.map_cons, List.map_map]
    congr 1
    · apply UInt8.toNat.inj
      simp [Spec.byteAt]
    · apply List.map_congr_left
      intro i _
      simp only [Spec.byteAt, Function.comp, Nat.succ_eq_add_one, Nat.pow_succ, Nat.mul_comm, Nat.div_div_eq_div_mul]

theorem littleBytes_reverse (k n : Nat) : (Spec.littleBytes k n).reverse = Spec.bigBytes k n := by
  unfold Spec.littleBytes Spec.bigBytes
  apply List.ext_getElem
  · simp
  · intro i h1 h2
    simp

theorem bigBytes_reverse (k n : Nat) : (Spec.bigBytes k n).reverse = Spec.littleBytes k n := by
  rw [← littleBytes_reverse, List.reverse_reverse]

theorem hostBytes_eq (cfg : Cfg) (k n : Nat) : hostBytes cfg k n = Spec.intBytes cfg.nativeBig k n := by
  unfold hostBytes Spec.intBytes
  split
  · rw [leBytes_eq, littleBytes_reverse]
  · rw [leBytes_eq]

theorem intBytes_reverse (big : Bool) (k n : Nat) :
    (Spec.intBytes big k n).reverse = Spec.intBytes (!big) k n := by
  cases big <;> simp [Spec.intBytes, littleBytes_reverse, bigBytes_reverse]

theorem memBytes_eq (cfg : Cfg) (t : DType) (ht : t ≠ .unicode) (v : Elem) :
    memBytes cfg t v = Spec.elemBytes t cfg.nativeBig v := by
  unfold memBytes Spec.elemBytes
  rw [width_eq t ht]
  congr 1
  funext n
  exact hostBytes_eq cfg _ n

theorem swaps_iff (cfg : Cfg) (t : DType) (e : Endian) :
    Swaps cfg t (some e) ↔ t.oneByte = false ∧ Spec.isBig cfg e = !cfg.nativeBig := by
  obtain ⟨nb, nd, w⟩ := cfg
  cases nd <;> cases w <;> cases nb <;> cases e <;> cases t <;> decide

theorem fixedBytes_swaps (cfg : Cfg) (t : DType) (e : Endian) (v : Elem) :
    fixedBytes cfg t e v = if Swaps cfg t (some e) then (memBytes cfg t v).reverse else memBytes cfg t v := by
  unfold fixedBytes
  by_cases hs : Swaps cfg t (some e)
  · have : ¬ (t.oneByte = true ∨ e = .native ∨ e = nativeEndian cfg) := by
      simp only [Swaps, ne_eq, Option.some.injEq] at hs
      simp only [hs.1, not_or]
      exact ⟨by simp, hs.2⟩
    rw [if_pos hs, if_neg this]
  · have : t.oneByte = true ∨ e = .native ∨ e = nativeEndian cfg := by
      by_contra hc
      simp only [not_or] at hc
      exact hs ⟨by simpa using hc.1, by simpa using hc.2.1, by simpa using hc.2.2⟩
    rw [if_neg hs, if_pos this]

theorem oneByte_order (t : DType) (h : t.oneByte = true) (a b : Bool) (v : Elem) :
    Spec.elemBytes t a v = Spec.elemBytes t b v := by
  have hw : Spec.width t = 1 := by cases t <;> first | rfl | exact absurd h (by decide)
  unfold Spec.elemBytes
  rw [hw]
  congr 1
  funext n
  cases a <;> cases b <;> rfl

/-- The payload is in the order named by the header for real types, and for all types in the host's order. -/
theorem fixedBytes_eq (cfg : Cfg) (t : DType) (ht : t ≠ .unicode) (e : Endian) {v : Elem} (hv : ValidElem t v)
    (hc : Spec.parts t = 1 ∨ Spec.isBig cfg e = cfg.nativeBig) :
    fixedBytes cfg t e v = Spec.elemBytes t (Spec.isBig cfg e) v := by
  rw [fixedBytes_swaps, memBytes_eq cfg t ht]
  by_cases hs : Swaps cfg t (some e)
  · rw [if_pos hs]
    rw [swaps_iff] at hs
    rw [hs.2]
    cases hc with
    | inl hc =>
      have hl := hv.1
      rw [← parts_eq, hc] at hl
      match v, hl with
      | [c], _ => simp [Spec.elemBytes, intBytes_reverse]
    | inr hc => rw [hs.2] at hc; cases h : cfg.nativeBig <;> simp [h] at hc
  · rw [if_neg hs]
    rw [swaps_iff, not_and] at hs
    by_cases ho : t.oneByte = true
    · exact oneByte_order t ho _ _ v
    · have := hs (by simpa using ho)
      have : Spec.isBig cfg e = cfg.nativeBig := by
        cases h1 : Spec.isBig cfg e <;> cases h2 : cfg.nativeBig <;> simp [h1, h2] at this ⊢
      rw [this]

/-! ### Wide strings -/

theorem stoi_decimal (n : Nat) (hn : n < 2 ^ 31) : stoi (decimal n) = .ok (n : Int) := by
  have hd := isDigit_decimal n
  have hne := decimal_ne_nil n
  have hv := decValue_decimal n
  match hdec : decimal n, hne with
  | d :: ds, _ =>
    rw [hdec] at hd hv
    have h0 := hd d (by simp)
    have h1 : isSpace d = false := digit_not_space h0
    have h2 : d ≠ 45 := by rintro rfl; exact absurd h0 (by decide)
    have h3 : d ≠ 43 := by rintro rfl; exact absurd h0 (by decide)
    have h4 : (d :: ds).takeWhile isDigit = d :: ds := by
      rw [List.takeWhile_eq_self_iff]; exact hd
    unfold stoi
    simp only [List.dropWhile_cons, h1, Bool.false_eq_true, if_false]
    split
    · rename_i hq; exact absurd (List.cons.inj hq).1 h2
    · rename_i hq; exact absurd (List.cons.inj hq).1 h3
    · simp only [h4, hv, List.isEmpty_cons, Bool.false_eq_true, if_false]
      rw [if_neg]
      omega

theorem setDescr_wide (h : HeaderInfo) (len : Nat) (hl : len < 2 ^ 31) (big : Bool) :
    setDescr h (Spec.descrU len big) = .ok { h with
      dtype := some .unicode, endianness := some (if big then .big else .little), maxElementLength := some len } := by
  have hm : ((len : Int) % (SIZE : Int)).toNat = len := by
    have : (len : Int) % (SIZE : Int) = len := Int.emod_eq_of_lt (by omega) (by simp only [SIZE]; omega)
    rw [this]; rfl
  unfold Spec.descrU
  rw [← decimal_eq_spec]
  cases big
  · simp only [Bool.false_eq_true, if_false, List.cons_append, List.nil_append, setDescr, List.head?_cons, if_true,
      List.drop_succ_cons, List.drop_zero, stoi_decimal len hl, hm]
    rw [if_neg (by decide)]
  · simp only [if_true, List.cons_append, List.nil_append, setDescr, List.head?_cons,
      List.drop_succ_cons, List.drop_zero, stoi_decimal len hl, hm]

theorem descrU_no_quote (len : Nat) (big : Bool) : 39 ∉ Spec.descrU len big := by
  unfold Spec.descrU
  rw [← decimal_eq_spec]
  have : 39 ∉ decimal len := by
    intro h
    exact absurd (isDigit_decimal len 39 h) (by decide)
  cases big <;> simp [this]

theorem wideDtypeStr_eq (cfg : Cfg) (e : Endian) (vals : List WStr) :
    wideDtypeStr cfg e vals = Spec.descrU (maxLength vals) (Spec.isBig cfg e) := by
  obtain ⟨nb, nd, w⟩ := cfg
  unfold wideDtypeStr Spec.descrU
  rw [← decimal_eq_spec]
  cases nb <;> cases e <;> rfl

theorem wideSwaps_iff (cfg : Cfg) (e : Endian) : wideSwaps cfg e ↔ Spec.isBig cfg e = !cfg.nativeBig := by
  obtain ⟨nb, nd, w⟩ := cfg
  cases nd <;> cases w <;> cases nb <;> cases e <;> decide

theorem wideSwaps_stored (cfg : Cfg) (e : Endian) :
    wideSwaps cfg (if Spec.isBig cfg e = true then .big else .little) ↔ wideSwaps cfg e := by
  obtain ⟨nb, nd, w⟩ := cfg
  cases nd <;> cases w <;> cases nb <;> cases e <;> decide

theorem writeUnit_spec (cfg : Cfg) (e : Endian) (c : Nat) :
    writeUnit cfg e c = Spec.intBytes (Spec.isBig cfg e) 4 c := by
  rw [writeUnit_eq, unitMem, hostBytes_eq]
  by_cases h : wideSwaps cfg e
  · rw [if_pos h, intBytes_reverse, (wideSwaps_iff cfg e).1 h]
  · rw [if_neg h]
    rw [wideSwaps_iff] at h
    have : Spec.isBig cfg e = cfg.nativeBig := by
      cases h1 : Spec.isBig cfg e <;> cases h2 : cfg.nativeBig <;> simp [h1, h2] at h ⊢
    rw [this]

theorem wideBytes_spec (cfg : Cfg) (e : Endian) (len : Nat) (v : WStr) :
    wideBytes cfg e len v = Spec.wideBytes (Spec.isBig cfg e) len v := by
  unfold wideBytes Spec.wideBytes
  congr 1
  funext c
  exact writeUnit_spec cfg e c

theorem maxLength_eq (vals : List WStr) : maxLength vals = Spec.longest vals := by
  have main : ∀ (vals : List WStr) (m : Nat),
      vals.foldl (fun m v => if v.length > m then v.length else m) m = max m (Spec.longest vals) := by
    intro vals
    induction vals with
    | nil => intro m; simp [Spec.longest]
    | cons v l ih =>
      intro m
      rw [List.foldl_cons, ih]
      simp only [Spec.longest, List.map_cons, List.foldr_cons]
      split <;> omega
  rw [maxLength, main]
  simp

/-- The bytes of a saved tensor of strings. -/
def savedWide (cfg : Cfg) (x : Tensor WStr) (e : Endian) : Bytes :=
  headerBytes (Spec.descrU (maxLength x.values) (Spec.isBig cfg e)) x.fortranOrder x.shape ++
    x.values.flatMap (wideBytes cfg e (maxLength x.values))

theorem save_wide {cfg : Cfg} (x : Tensor WStr) (e : Endian) {o : OStream} (ho : o.Healthy) :
    save cfg wideOps x e o = .ok (o.write (savedWide cfg x e)) := by
  unfold save
  simp only [wideOps]
  rw [wideDtypeStr_eq, writeNpyHeader_ok ho, writeWide_ok (ho.write _), OStream.write_write ho]
  rfl

theorem load_wide {cfg : Cfg} {x : Tensor WStr} (hx : Spec.TensorOk .unicode 32 x)
    (hv : ∀ v ∈ x.values, ∀ u ∈ v, u < 2 ^ 32) (e : Endian) (hm : maxLength x.values < 2 ^ 31)
    (hlen : (Spec.headerDict (Spec.descrU (maxLength x.values) (Spec.isBig cfg e)) x.fortranOrder x.shape).length ≤ 245)
    {s : IStream} (h : s.good = true) (r : Bytes) :
    load cfg wideOps (s.withRest (savedWide cfg x e ++ r)) =
      (.ok { x with values := x.values.map (dropNul cfg) }, s.withRest r) := by
  rw [← dictionaryText_eq_spec] at hlen
  rw [savedWide, List.append_assoc]
  have hh := readNpyHeader_saved cfg h (descrU_no_quote _ _) (setDescr_wide HeaderInfo.uninit _ hm _) hx.extents hlen
    (x.values.flatMap (wideBytes cfg e (maxLength x.values)) ++ r)
  exact load_of_header (ops := wideOps) (by decide) hx hh rfl rfl rfl
    (readWide_ok rfl rfl (wideSwaps_stored cfg e) hv h r)

theorem dropNul_eq {cfg : Cfg} {v : WStr} (hw : Spec.IsWide cfg v) : dropNul cfg v = v.filter (· ≠ 0) := by
  unfold dropNul
  conv_rhs => rw [← List.map_id (v.filter _)]
  apply List.map_congr_left
  intro c hc
  have := hw c (List.mem_of_mem_filter hc)
  unfold toWchar
  cases hcw : cfg.wchar16
  · simp
  · rw [hcw] at this
    simp only [if_true] at this ⊢
    exact Nat.mod_eq_of_lt this

theorem isWide_lt {cfg : Cfg} {v : WStr} (hw : Spec.IsWide cfg v) : ∀ u ∈ v, u < 2 ^ 32 := by
  intro u hu
  have := hw u hu
  split at this <;> omega

/-! ### Exact order of the bytes of an element -/

theorem elemBytes_reverse (t : DType) (big : Bool) (v : Elem) :
    (Spec.elemBytes t big v).reverse = Spec.elemBytes t (!big) v.reverse := by
  unfold Spec.elemBytes
  induction v with
  | nil => rfl
  | cons c v ih => simp [ih, intBytes_reverse]

/-- In the order that is not the host's the components come out in reverse order. -/
theorem fixedBytes_exact (cfg : Cfg) (t : DType) (ht : t ≠ .unicode) (e : Endian) {v : Elem} (hv : ValidElem t v) :
    fixedBytes cfg t e v =
      Spec.elemBytes t (Spec.isBig cfg e) (if Spec.isBig cfg e = cfg.nativeBig then v else v.reverse) := by
  by_cases hb : Spec.isBig cfg e = cfg.nativeBig
  · rw [if_pos hb]; exact fixedBytes_eq cfg t ht e hv (.inr hb)
  · rw [if_neg hb]
    have hb' : Spec.isBig cfg e = !cfg.nativeBig := by
      cases h1 : Spec.isBig cfg e <;> cases h2 : cfg.nativeBig <;> simp [h1, h2] at hb ⊢
    by_cases ho : t.oneByte = true
    · have hc : Spec.parts t = 1 := by cases t <;> first | rfl | exact absurd ho (by decide)
      rw [fixedBytes_eq cfg t ht e hv (.inl hc)]
      have hl := hv.1
      rw [← parts_eq, hc] at hl
      match v, hl with
      | [c], _ => rfl
    · have hs : Swaps cfg t (some e) := (swaps_iff cfg t e).2 ⟨by simpa using ho, hb'⟩
      rw [fixedBytes_swaps, if_pos hs, memBytes_eq cfg t ht, elemBytes_reverse, hb']

/-- The explicit order meant by an endianness argument. -/
def orderOf (big : Bool) : Endian := if big then .big else .little

theorem isBig_orderOf (cfg : Cfg) (big : Bool) : Spec.isBig cfg (orderOf big) = big := by
  cases big <;> rfl

theorem validElem_reverse {t : DType} {v : Elem} (h : ValidElem t v) : ValidElem t v.reverse :=
  ⟨by simp [h.1], fun c hc => h.2 c (by simpa using hc)⟩

/-- The element a reader with host `cfg'` gets from an element written on host `cfg`. -/
def crossElem (cfg cfg' : Cfg) (v : Elem) : Elem := if cfg.nativeBig = cfg'.nativeBig then v else v.reverse

theorem fixedBytes_cross (cfg cfg' : Cfg) (t : DType) (ht : t ≠ .unicode) (e : Endian) {v : Elem} (hv : ValidElem t v) :
    fixedBytes cfg t e v = fixedBytes cfg' t (orderOf (Spec.isBig cfg e)) (crossElem cfg cfg' v) := by
  have hv' : ValidElem t (crossElem cfg cfg' v) := by
    unfold crossElem; split
    · exact hv
    · exact validElem_reverse hv
  rw [fixedBytes_exact cfg t ht e hv, fixedBytes_exact cfg' t ht _ hv', isBig_orderOf]
  congr 1
  unfold crossElem
  cases h1 : Spec.isBig cfg e <;> cases h2 : cfg.nativeBig <;> cases h3 : cfg'.nativeBig <;> simp

theorem savedFixed_cross (cfg cfg' : Cfg) (t : DType) (ht : t ≠ .unicode) (e : Endian) {x : Tensor Elem}
    (hv : ∀ v ∈ x.values, ValidElem t v) :
    savedFixed cfg t x e =
      savedFixed cfg' t { x with values := x.values.map (crossElem cfg cfg') } (orderOf (Spec.isBig cfg e)) := by
  unfold savedFixed
  rw [isBig_orderOf]
  congr 1
  simp only [List.flatMap_def, List.map_map]
  congr 1
  apply List.map_congr_left
  intro v hx
  exact fixedBytes_cross cfg cfg' t ht e (hv v hx)

end Npy
