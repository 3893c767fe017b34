import Verif.Model.Images
import Verif.Props.Fs
import Verif.Props.Peek
import Verif.Props.Damage
import Verif.Props.Fill
import Verif.Proofs.Crash
/-!
# C75: the sample program of the README
-/

namespace Npy
open Spec

/-! ### Loops -/

theorem forInt_inv {σ : Type} (I : Nat → σ → Prop) {n : Nat} {body : Nat → σ → Except Err σ} {s : σ} (h0 : I 0 s)
    (hstep : ∀ i s, i < n → I i s → ∃ s', body i s = .ok s' ∧ I (i + 1) s') : ∃ s', forInt n body s = .ok s' ∧ I n s' := by
  induction n with
  | zero => exact ⟨s, rfl, h0⟩
  | succ n ih =>
    obtain ⟨s1, e1, i1⟩ := ih fun i s hi => hstep i s (by omega)
    obtain ⟨s2, e2, i2⟩ := hstep n s1 (by omega) i1
    refine ⟨s2, ?_, i2⟩
    unfold forInt at e1 ⊢
    rw [List.range_succ, List.foldlM_append, e1]
    show (List.foldlM (fun s i => body i s) s1 [n]) = _
    rw [List.foldlM_cons, e2]
    rfl

/-! ### One element -/

theorem denotes_cast {shape ks : List Nat} (h : InRange shape ks) : Denotes shape (ks.map Int.ofNat) ks := by
  refine ⟨by rw [List.length_map]; exact h.length_eq, h.length_eq, ?_⟩
  intro a ha
  have hk : a < ks.length := by rw [h.length_eq]; exact ha
  refine ⟨Int.ofNat ks[a], ks[a], ?_, List.getElem?_eq_getElem hk, ?_, .inl rfl⟩
  · rw [List.getElem?_map, List.getElem?_eq_getElem hk]; rfl
  · exact List.forall₂_iff_get.1 h |>.2 a hk ha

theorem int32_cast {ks : List Nat} (h : ∀ k ∈ ks, k < 2 ^ 31) : ∀ i ∈ ks.map Int.ofNat, IsInt32 i := by
  intro i hi
  obtain ⟨k, hk, rfl⟩ := List.mem_map.1 hi
  have := h k hk
  unfold IsInt32
  simp only [Int.ofNat_eq_natCast]
  omega

/-- Reading an element by nonnegative `int` indices. -/
theorem get_cast {α : Type} {dtype : DType} {sz : Nat} {x : Tensor α} (hx : TensorOk dtype sz x) {ks : List Nat}
    (hr : InRange x.shape ks) (hk : ∀ k ∈ ks, k < 2 ^ 31) : x.get (ks.map Int.ofNat) = x.getU ks := by
  match hc : x.values with
  | v :: _ => exact (C24_signed_index x hx _ (int32_cast hk) ks (denotes_cast hr) v).1
  | [] =>
    have := ravelI_denotes x hx (int32_cast hk) (denotes_cast hr)
    unfold Tensor.get Tensor.getU
    rw [this]

/-- Assigning an element by nonnegative `int` indices. -/
theorem set_cast {α : Type} {dtype : DType} {sz : Nat} {x : Tensor α} (hx : TensorOk dtype sz x) (hp : x.shape.prod < 2 ^ 64)
    {ks : List Nat} (hr : InRange x.shape ks) (hk : ∀ k ∈ ks, k < 2 ^ 31) (v : α) :
    ∃ y, x.set (ks.map Int.ofNat) v = .ok y ∧ y.shape = x.shape ∧ y.fortranOrder = x.fortranOrder ∧ TensorOk dtype sz y ∧
      (∀ u ∈ y.values, u ∈ x.values ∨ u = v) ∧ y.getU ks = .ok v ∧
      ∀ ks', InRange x.shape ks' → ks' ≠ ks → y.getU ks' = x.getU ks' := by
  obtain ⟨h1, h2, -⟩ := C21_position x hx hp ks hr
  have hs : x.set (ks.map Int.ofNat) v = .ok { x with values := x.values.set (position x.fortranOrder x.shape ks) v } := by
    rw [(C24_signed_index x hx _ (int32_cast hk) ks (denotes_cast hr) v).2]
    unfold Tensor.setU
    rw [h1]
    exact if_pos h2
  have e : ∀ ks', Tensor.ravelU { x with values := x.values.set (position x.fortranOrder x.shape ks) v } ks' = x.ravelU ks' :=
    fun _ => rfl
  refine ⟨_, hs, rfl, rfl, ?_, ?_, ?_, ?_⟩
  · exact ⟨hx.extents, by simpa using hx.size, by simpa using hx.fits, hx.dtype, hx.stridesLength, hx.strides⟩
  · intro u hu
    exact List.mem_or_eq_of_mem_set hu
  · unfold Tensor.getU
    rw [e, h1]
    simp [Tensor.at?, h2]
  · intro ks' hr' hne
    obtain ⟨g1, g2, -⟩ := C21_position x hx hp ks' hr'
    unfold Tensor.getU
    rw [e, g1]
    simp only [Tensor.at?]
    rw [List.getElem?_set_ne]
    intro hc
    exact hne (position_inj hr' hr hc.symm)

/-! ### Filling -/

/-- A tensor of this shape, with values in `P`, whose elements at the indices in `D` are those of `px`. -/
structure Grid {α : Type} (dtype : DType) (sz : Nat) (shape : List Nat) (P : α → Prop) (px : List Nat → α) (D : List Nat → Prop)
    (x : Tensor α) : Prop where
  ok : TensorOk dtype sz x
  shp : x.shape = shape
  order : x.fortranOrder = false
  vals : ∀ v ∈ x.values, P v
  done : ∀ ks, InRange shape ks → D ks → x.getU ks = .ok (px ks)

section
variable {α : Type} {dtype : DType} {sz : Nat} {shape : List Nat} {P : α → Prop} {px : List Nat → α} {D D' : List Nat → Prop}

theorem Grid.mono {x : Tensor α} (g : Grid dtype sz shape P px D x) (h : ∀ ks, InRange shape ks → D' ks → D ks) :
    Grid dtype sz shape P px D' x :=
  ⟨g.ok, g.shp, g.order, g.vals, fun ks hr hd => g.done ks hr (h ks hr hd)⟩

theorem Grid.set {x : Tensor α} (g : Grid dtype sz shape P px D x) (hp : shape.prod < 2 ^ 64) {ks : List Nat}
    (hr : InRange shape ks) (hk : ∀ k ∈ ks, k < 2 ^ 31) {v : α} (hv : v = px ks) (hP : P v) :
    ∃ y, x.set (ks.map Int.ofNat) v = .ok y ∧ Grid dtype sz shape P px (fun k => D k ∨ k = ks) y := by
  have hs := g.shp
  obtain ⟨y, e1, e2, e3, e4, e5, e6, e7⟩ := set_cast g.ok (by rw [hs]; exact hp) (ks := ks) (by rw [hs]; exact hr) hk v
  refine ⟨y, e1, e4, e2.trans hs, e3.trans g.order, ?_, ?_⟩
  · intro u hu
    rcases e5 u hu with h | rfl
    · exact g.vals u h
    · exact hP
  · intro k hkr hd
    by_cases hc : k = ks
    · rw [hc, e6, hv]
    · rw [e7 k (by rw [hs]; exact hkr) hc]
      exact g.done k hkr (hd.resolve_right hc)

theorem Grid.get {x : Tensor α} (g : Grid dtype sz shape P px D x) {ks : List Nat} (hr : InRange shape ks)
    (hk : ∀ k ∈ ks, k < 2 ^ 31) (hd : D ks) : x.get (ks.map Int.ofNat) = .ok (px ks) := by
  rw [get_cast g.ok (by rw [g.shp]; exact hr) hk]
  exact g.done ks hr hd

/-- The elements that two nested loops have been through, before the step `i`, `j`. -/
def Before (i j : Nat) (ks : List Nat) : Prop := ks.getD 0 0 < i ∨ (ks.getD 0 0 = i ∧ ks.getD 1 0 < j)

theorem Grid.loops {h w : Nat} {rest : List Nat} {body : Nat → Nat → Tensor α → Except Err (Tensor α)} {x : Tensor α}
    (g : Grid dtype sz (h :: w :: rest) P px (fun _ => False) x)
    (hbody : ∀ i j x, i < h → j < w → Grid dtype sz (h :: w :: rest) P px (Before i j) x →
      ∃ y, body i j x = .ok y ∧ Grid dtype sz (h :: w :: rest) P px (Before i (j + 1)) y) :
    ∃ y, forInt h (fun i => forInt w fun j => body i j) x = .ok y ∧ Grid dtype sz (h :: w :: rest) P px (fun _ => True) y := by
  obtain ⟨y, e, gy⟩ := forInt_inv (n := h) (body := fun i => forInt w fun j => body i j) (s := x)
    (fun i x => Grid dtype sz (h :: w :: rest) P px (Before i 0) x)
    (g.mono fun ks _ hd => by unfold Before at hd; omega) (by
      intro i x hi gi
      obtain ⟨y, e, gy⟩ := forInt_inv (n := w) (body := fun j => body i j) (s := x)
        (fun j x => Grid dtype sz (h :: w :: rest) P px (Before i j) x) gi (fun j x hj gj => hbody i j x hi hj gj)
      refine ⟨y, e, gy.mono ?_⟩
      intro ks hr hd
      unfold Before at hd ⊢
      match ks, hr with
      | a :: b :: ks, .cons h1 (.cons h2 _) =>
        simp only [List.getD_cons_zero, List.getD_cons_succ] at hd ⊢
        omega)
  refine ⟨y, e, gy.mono ?_⟩
  intro ks hr _
  match ks, hr with
  | a :: b :: ks, .cons h1 (.cons h2 _) =>
    unfold Before
    simp only [List.getD_cons_zero, List.getD_cons_succ]
    omega

end

/-- A new tensor. -/
theorem new_grid {ops : ElemOps Elem} (hs : 0 < ops.sizeof) {shape : List Nat} (hsh : ∀ n ∈ shape, n < 2 ^ 64)
    (hp : shape.prod * ops.sizeof < 2 ^ 63) {P : Elem → Prop} (h0 : P ops.zero) (px : List Nat → Elem) :
    ∃ x, Tensor.new ops shape false = .ok x ∧ Grid ops.dtype ops.sizeof shape P px (fun _ => False) x := by
  have hlt : shape.prod < 2 ^ 64 := by
    have := Nat.le_mul_of_pos_right shape.prod hs
    omega
  have hg : Tensor.getSize shape = shape.prod := by
    rw [Tensor.getSize_eq]; exact Nat.mod_eq_of_lt (by unfold SIZE; exact hlt)
  have hm : ¬ Tensor.getSize shape > Tensor.maxSize ops := by
    rw [Nat.not_lt, Tensor.le_maxSize_iff ops hs, hg]; exact hp
  have e : Tensor.new ops shape false = .ok
      { shape := shape, ravelStrides := Tensor.getRavelStrides shape false, fortranOrder := false, dtype := ops.dtype,
        values := List.replicate (Tensor.getSize shape) ops.zero } := if_neg hm
  refine ⟨_, e, new_inv hs hsh e, rfl, rfl, ?_, fun _ _ h => h.elim⟩
  intro v hv
  rw [List.eq_of_mem_replicate hv]
  exact h0

/-! ### The pictures -/

/-- The value of a channel of the colour picture. -/
def Spec.colorAt (row col channel : Nat) : Nat := if channel = 0 then 8 * row % 256 else if channel = 1 then 8 * col % 256 else 128

/-- The element of the colour picture at a multi-index. -/
def colorPx (ks : List Nat) : Elem := [colorAt (ks.getD 0 0) (ks.getD 1 0) (ks.getD 2 0)]

/-- The element of the gray picture at a multi-index. -/
def grayPx (luma : Elem → Elem → Elem → Nat) (ks : List Nat) : Elem :=
  [luma [colorAt (ks.getD 0 0) (ks.getD 1 0) 0] [colorAt (ks.getD 0 0) (ks.getD 1 0) 1] [colorAt (ks.getD 0 0) (ks.getD 1 0) 2]]

theorem colorPx_elem (ks : List Nat) : IsElem .uint8 (colorPx ks) := by
  refine ⟨rfl, ?_⟩
  intro c hc
  unfold colorPx colorAt at hc
  rw [List.mem_singleton] at hc
  subst hc
  show _ < 256
  split
  · omega
  · split <;> omega

theorem paintColor_ok {h w : Nat} {x : Tensor Elem} {sz : Nat} (hh : h < 2 ^ 28) (hw : w < 2 ^ 28) (hhw : h * w < 2 ^ 28)
    (g : Grid .uint8 sz [h, w, 3] (IsElem .uint8) colorPx (fun _ => False) x) :
    ∃ y, paintColor x = .ok y ∧ Grid .uint8 sz [h, w, 3] (IsElem .uint8) colorPx (fun _ => True) y := by
  have hp : [h, w, 3].prod < 2 ^ 64 := by
    rw [show [h, w, 3].prod = h * w * 3 by simp [Nat.mul_assoc]]; omega
  obtain ⟨y, e, gy⟩ := g.loops (body := paintColorPixel) (by
    intro i j x hi hj g
    have hr : ∀ k, k < 3 → InRange [h, w, 3] [i, j, k] := fun k hk => .cons hi (.cons hj (.cons hk .nil))
    have hk : ∀ k, k < 3 → ∀ n ∈ [i, j, k], n < 2 ^ 31 := by
      intro k hk n hn
      simp only [List.mem_cons, List.not_mem_nil, or_false] at hn
      omega
    have e0 : [i * 2 ^ 3 % 256] = colorPx [i, j, 0] := by
      show [i * 8 % 256] = [8 * i % 256]
      rw [Nat.mul_comm]
    have e1 : [j * 2 ^ 3 % 256] = colorPx [i, j, 1] := by
      show [j * 8 % 256] = [8 * j % 256]
      rw [Nat.mul_comm]
    obtain ⟨x1, s1, g1⟩ := g.set hp (hr 0 (by decide)) (hk 0 (by decide)) e0 (e0 ▸ colorPx_elem _)
    obtain ⟨x2, s2, g2⟩ := g1.set hp (hr 1 (by decide)) (hk 1 (by decide)) e1 (e1 ▸ colorPx_elem _)
    obtain ⟨x3, s3, g3⟩ := g2.set hp (hr 2 (by decide)) (hk 2 (by decide)) (v := [128]) rfl (colorPx_elem [i, j, 2])
    refine ⟨x3, ?_, g3.mono ?_⟩
    · unfold paintColorPixel
      have s1' : x.set [(i : Int), (j : Int), 0] [i * 2 ^ 3 % 256] = .ok x1 := s1
      have s2' : x1.set [(i : Int), (j : Int), 1] [j * 2 ^ 3 % 256] = .ok x2 := s2
      have s3' : x2.set [(i : Int), (j : Int), 2] [128] = .ok x3 := s3
      rw [s1']
      show (do let color ← x1.set [(i : Int), (j : Int), 1] [j * 2 ^ 3 % 256]; color.set [(i : Int), (j : Int), 2] [128]) = _
      rw [s2']
      exact s3'
    · intro ks hr hd
      match ks, hr with
      | [a, b, c], .cons h1 (.cons h2 (.cons h3 .nil)) =>
        unfold Before at hd ⊢
        simp only [List.getD_cons_zero, List.getD_cons_succ] at hd ⊢
        by_cases hab : a < i ∨ a = i ∧ b < j
        · exact .inl (.inl (.inl hab))
        · have ha : a = i := by omega
          have hb : b = j := by omega
          subst ha hb
          rcases (by omega : c = 0 ∨ c = 1 ∨ c = 2) with rfl | rfl | rfl
          · exact .inl (.inl (.inr rfl))
          · exact .inl (.inr rfl)
          · exact .inr rfl)
  refine ⟨y, ?_, gy⟩
  unfold paintColor
  have s0 : x.shapeAt 0 = .ok h := by unfold Tensor.shapeAt; rw [g.shp]; rfl
  have s1 : x.shapeAt 1 = .ok w := by unfold Tensor.shapeAt; rw [g.shp]; rfl
  rw [s0, s1]
  exact e

theorem paintGray_ok {luma : Elem → Elem → Elem → Nat} (hl : ∀ r g b, luma r g b < 2 ^ 32) {h w : Nat} {color x : Tensor Elem}
    {sz sz' : Nat} (hh : h < 2 ^ 28) (hw : w < 2 ^ 28) (hhw : h * w < 2 ^ 28)
    (gc : Grid .uint8 sz' [h, w, 3] (IsElem .uint8) colorPx (fun _ => True) color)
    (g : Grid .float32 sz [h, w] (IsElem .float32) (grayPx luma) (fun _ => False) x) :
    ∃ y, paintGray luma color x = .ok y ∧ Grid .float32 sz [h, w] (IsElem .float32) (grayPx luma) (fun _ => True) y := by
  have hp : [h, w].prod < 2 ^ 64 := by
    rw [show [h, w].prod = h * w by simp]; omega
  obtain ⟨y, e, gy⟩ := g.loops (body := paintGrayPixel luma color) (by
    intro i j x hi hj g
    have hg : ∀ k, k < 3 → color.get ([i, j, k].map Int.ofNat) = .ok (colorPx [i, j, k]) := fun k hk =>
      gc.get (.cons hi (.cons hj (.cons hk .nil))) (by
        intro n hn
        simp only [List.mem_cons, List.not_mem_nil, or_false] at hn
        omega) trivial
    have c0 : color.get [(i : Int), (j : Int), 0] = .ok (colorPx [i, j, 0]) := hg 0 (by decide)
    have c1 : color.get [(i : Int), (j : Int), 1] = .ok (colorPx [i, j, 1]) := hg 1 (by decide)
    have c2 : color.get [(i : Int), (j : Int), 2] = .ok (colorPx [i, j, 2]) := hg 2 (by decide)
    obtain ⟨y, s, gy⟩ := g.set hp (ks := [i, j]) (.cons hi (.cons hj .nil)) (by
        intro n hn
        simp only [List.mem_cons, List.not_mem_nil, or_false] at hn
        omega) (v := [luma (colorPx [i, j, 0]) (colorPx [i, j, 1]) (colorPx [i, j, 2])]) rfl
        ⟨rfl, by intro c hc; rw [List.mem_singleton] at hc; subst hc; exact hl _ _ _⟩
    refine ⟨y, ?_, gy.mono ?_⟩
    · unfold paintGrayPixel
      rw [c0]
      show (do let g ← color.get [(i : Int), (j : Int), 1]; let b ← color.get [(i : Int), (j : Int), 2]
               x.set [(i : Int), (j : Int)] [luma (colorPx [i, j, 0]) g b]) = _
      rw [c1]
      show (do let b ← color.get [(i : Int), (j : Int), 2]
               x.set [(i : Int), (j : Int)] [luma (colorPx [i, j, 0]) (colorPx [i, j, 1]) b]) = _
      rw [c2]
      exact s
    · intro ks hr hd
      match ks, hr with
      | [a, b], .cons h1 (.cons h2 .nil) =>
        unfold Before at hd ⊢
        simp only [List.getD_cons_zero, List.getD_cons_succ] at hd ⊢
        by_cases hab : a < i ∨ a = i ∧ b < j
        · exact .inl hab
        · have ha : a = i := by omega
          have hb : b = j := by omega
          exact .inr (by rw [ha, hb]))
  refine ⟨y, ?_, gy⟩
  unfold paintGray
  have s0 : x.shapeAt 0 = .ok h := by unfold Tensor.shapeAt; rw [g.shp]; rfl
  have s1 : x.shapeAt 1 = .ok w := by unfold Tensor.shapeAt; rw [g.shp]; rfl
  rw [s0, s1]
  exact e

/-! ### The archive -/

/-- The length of a stored archive before its directory. -/
theorem stored_length {cfg : Cfg} {codec : Codec} {puts : List (Bytes × AnyTensor)} {w0 w1 : Writer} (h0 : WInv w0 [])
    (hm : w0.method = STORED) (h1 : Writer.writeAll cfg codec puts w0 = (.ok (), w1)) (size : Bytes × AnyTensor → Nat)
    (hsize : ∀ p ∈ puts, ∀ f, saveToString cfg p.2.ops p.2.x w0.endianness = .ok f → f.length ≤ size p) :
    w1.str.length ≤ (puts.map fun p => 50 + (storedName p.1).length + size p).sum := by
  obtain ⟨items, hi, -, hf⟩ := writeAll_inv h0 h1
  rw [List.nil_append] at hi
  have e : w1.str = items.flatMap recBytes := hi.buf
  rw [e]
  clear e hi h1
  induction hf with
  | nil => simp
  | @cons p i puts items hpi _ ih =>
    obtain ⟨f, hs, hio⟩ := hpi
    rw [List.flatMap_cons, List.length_append, List.map_cons, List.sum_cons]
    have := ih fun q hq => hsize q (List.mem_cons_of_mem _ hq)
    have hl := hsize p (by simp) f hs
    obtain ⟨d, c1, c2, c3⟩ := hio.comp
    rw [hm, compressWith, if_pos rfl, Except.ok.injEq] at c1
    subst c1
    have hh := localHeader_stored_length (e := i.1) (by rw [hio.usize, c2])
      (decide (i.1.uncompressedSize > ZIP64_LIMIT ∨ i.1.compressedSize > ZIP64_LIMIT))
    have hr : (recBytes i).length ≤ 50 + (storedName p.1).length + f.length := by
      unfold recBytes
      rw [List.length_append, hh, hio.filename, c3, List.length_take]
      split <;> omega
    omega

theorem newFile_inv (method : Nat) (e : Endian) : WInv (Writer.newFile OStream.empty method e) [] where
  healthy := ⟨rfl, rfl, rfl⟩
  closed := rfl
  buf := rfl
  entries := rfl
  offs := by intro a i c h; simp at h

/-- A fixed-size tensor of up to eight axes: its file is at most 400 bytes longer than its data. -/
theorem saved_length {cfg : Cfg} {t : DType} (ht : t ≠ .unicode) {x : Tensor Elem} (hx : TensorOk t (itemSize t) x)
    (hv : ∀ v ∈ x.values, IsElem t v) {e : Endian} (hr : x.shape.length ≤ 8) {f : Bytes}
    (hf : saveToString cfg (fixedOps t) x e = .ok f) : f.length ≤ 400 + x.values.length * itemSize t := by
  rw [saveToString_fixed ht hv e, Except.ok.injEq] at hf
  subst hf
  have hd := headerDict_rank8 t ht (isBig cfg e) x.fortranOrder x.shape hx.extents hr
  obtain ⟨pad, n, h1, -, h3, -⟩ := headerBytes_split hd
  unfold savedFixed
  rw [List.length_append, h1, flatMap_length (itemSize t) _ _ fun v h => by
    rw [itemSize_eq t ht]; exact fixedBytes_length ((validElem_iff t ht v).2 (hv v h))]
  omega

/-- Writing two tensors to an archive on a path and reading them back, as the program does. -/
theorem images_archive (cfg : Cfg) (codec : Codec) (color gray : Tensor Elem) (hc : Storable cfg .native ⟨Elem, fixedOps .uint8, color⟩)
    (hg : Storable cfg .native ⟨Elem, fixedOps .float32, gray⟩)
    (lc : ∀ f, saveToString cfg (fixedOps .uint8) color .native = .ok f → f.length < 2 ^ 30)
    (lg : ∀ f, saveToString cfg (fixedOps .float32) gray .native = .ok f → f.length < 2 ^ 30 + 1000) (fs : Fs) (p : Bytes)
    (hw : fs.writable p = true) (hr : fs.readable p = true) (hroom : fs.room = none) (header : HeaderInfo) :
    ∃ bytes r, imagesWrite cfg codec color gray p fs = (.ok (), (fs.put p []).put p bytes) ∧
      npzReadPath p ((fs.put p []).put p bytes) = (.ok r, (fs.put p []).put p bytes) ∧
      (imagesRead cfg codec header r).1 = .ok
        ({ dtype := some .uint8, endianness := some .native, fortranOrder := some color.fortranOrder, shape := color.shape,
           maxElementLength := some 0 }, color, gray) := by
  let puts : List (Bytes × AnyTensor) :=
    [(b!"color.npy", ⟨Elem, fixedOps .uint8, color⟩), (b!"gray.npy", ⟨Elem, fixedOps .float32, gray⟩)]
  have hok : ∀ q ∈ puts, Storable cfg .native q.2 := by
    intro q hq
    simp only [puts, List.mem_cons, List.not_mem_nil, or_false] at hq
    rcases hq with rfl | rfl
    · exact hc
    · exact hg
  have hfile : ∀ q ∈ puts, ∀ f, saveToString cfg q.2.ops q.2.x .native = .ok f → f.length ≤ 2 ^ 30 + 1000 := by
    intro q hq f hf
    simp only [puts, List.mem_cons, List.not_mem_nil, or_false] at hq
    rcases hq with rfl | rfl
    · have := lc f hf; omega
    · have := lg f hf; omega
  obtain ⟨w, h1⟩ := writeAll_ok (cfg := cfg) (codec := codec) puts (newFile_inv STORED .native) (by
    intro p hp
    obtain ⟨f, h1, -⟩ := storable_roundtrip (hok p hp)
    exact ⟨f, f, h1, rfl⟩)
  have sc : storedName b!"color.npy" = b!"color.npy" := by decide
  have sg : storedName b!"gray.npy" = b!"gray.npy" := by decide
  have hlen : w.str.length < 2 ^ 32 := by
    have := stored_length (newFile_inv STORED .native) rfl h1 (fun _ => 2 ^ 30 + 1000) hfile
    simp only [puts, List.map_cons, List.map_nil, List.sum_cons, List.sum_nil, sc, sg, List.length_cons, List.length_nil] at this
    omega
  have hnames : ∀ p ∈ puts, (Spec.storedName p.1).length < 2 ^ 16 := by
    intro q hq
    simp only [puts, List.mem_cons, List.not_mem_nil, or_false] at hq
    rcases hq with rfl | rfl
    · show (storedName b!"color.npy").length < _
      decide
    · show (storedName b!"gray.npy").length < _
      decide
  obtain ⟨w', c1, c2, c3⟩ := writer_reads (newFile_inv STORED .native) (show STORED < 2 ^ 16 by decide) h1 hlen hnames
  obtain ⟨r, o1, -, o3⟩ := c3 _ (ready_ofFile w'.str)
  have etake : puts.take (puts.length % 2 ^ 16) = puts := rfl
  have l1 : Spec.lookup puts b!"color.npy" = some ⟨Elem, fixedOps .uint8, color⟩ := rfl
  have l2 : Spec.lookup puts b!"gray.npy" = some ⟨Elem, fixedOps .float32, gray⟩ := rfl
  have l3 : (Spec.lastWrite puts b!"color.npy").isSome = true := rfl
  obtain ⟨fc, s1, s2⟩ := storable_roundtrip hc
  obtain ⟨fg, s3, s4⟩ := storable_roundtrip hg
  obtain ⟨fc', info, s5, s6, s7⟩ := storable_peek hc
  simp only at s1 s2 s3 s4 s5 s7
  rw [s1, Except.ok.injEq] at s5
  subst s5
  have rc : ∀ calls, (Reader.readFile codec b!"color.npy" (r.after cfg codec calls)).1 = .ok fc := by
    intro calls
    rw [(o3 calls _).1, etake, l1]
    show (saveToString cfg (fixedOps .uint8) color .native).bind (readBack codec STORED) = _
    rw [s1]
    exact readBack_stored codec (by have := lc fc s1; omega)
  have rg : ∀ calls, (Reader.readFile codec b!"gray.npy" (r.after cfg codec calls)).1 = .ok fg := by
    intro calls
    rw [(o3 calls _).1, etake, l2]
    show (saveToString cfg (fixedOps .float32) gray .native).bind (readBack codec STORED) = _
    rw [s3]
    exact readBack_stored codec (by have := lg fg s3; omega)
  have hopen : fs.openOut p = (OStream.empty, fs.put p []) := by
    unfold Fs.openOut; rw [if_pos hw, hroom]; rfl
  have hinfo : info =
      { dtype := some .uint8, endianness := some .native, fortranOrder := some color.fortranOrder, shape := color.shape,
        maxElementLength := some 0 } := by
    obtain ⟨g, g1, g2⟩ : ∃ g, saveToString cfg (fixedOps .uint8) color .native = .ok g ∧ peekString cfg g = .ok
        { dtype := some .uint8, endianness := some (reported .uint8 (Spec.isBig cfg .native)), fortranOrder := some color.fortranOrder,
          shape := color.shape, maxElementLength := some 0 } := by
      cases hc with
      | fixed dt hd x hx hv hlen => exact C07_peek_saved cfg .uint8 (by decide) color (by exact hx) (by exact hv) .native (by exact hlen)
    rw [s1, Except.ok.injEq] at g1
    subst g1
    rw [s7, Except.ok.injEq] at g2
    exact g2
  refine ⟨w'.str, r, ?_, ?_, ?_⟩
  · unfold imagesWrite
    simp only [hopen]
    have h1' : Writer.writeAll cfg codec
      [(b!"color.npy", ⟨Elem, fixedOps .uint8, color⟩), (b!"gray.npy", ⟨Elem, fixedOps .float32, gray⟩)]
      (Writer.newFile OStream.empty STORED .native) = (.ok (), w) := h1
    rw [h1']
    simp only [destroy_eq_close, c1]
    rfl
  · unfold npzReadPath
    simp only []
    rw [Fs.openIn_file (bs := w'.str) (by simp [Fs.put]) (by exact hr), o1]
  · unfold imagesRead
    have hcont : r.contains b!"color.npy" = true := by
      have := (o3 [] b!"color.npy").2.1
      rw [etake, l3] at this
      exact this
    have hpeek : Reader.peek cfg codec b!"color.npy" r = (.ok info, (Reader.peek cfg codec b!"color.npy" r).2) := by
      refine Prod.ext ?_ rfl
      unfold Reader.peek
      have := rc []
      obtain ⟨r1, e1⟩ : ∃ r1, Reader.readFile codec b!"color.npy" r = (.ok fc, r1) := ⟨_, Prod.ext this rfl⟩
      rw [SM.bind_ok e1]
      exact s7
    have hrd1 : ∀ calls, Reader.read cfg codec (fixedOps .uint8) b!"color.npy" (r.after cfg codec calls) =
        (.ok color, (Reader.read cfg codec (fixedOps .uint8) b!"color.npy" (r.after cfg codec calls)).2) := by
      intro calls
      refine Prod.ext ?_ rfl
      unfold Reader.read
      obtain ⟨r1, e1⟩ : ∃ r1, Reader.readFile codec b!"color.npy" (r.after cfg codec calls) = (.ok fc, r1) := ⟨_, Prod.ext (rc calls) rfl⟩
      rw [SM.bind_ok e1]
      exact s2
    have hrd2 : ∀ calls, Reader.read cfg codec (fixedOps .float32) b!"gray.npy" (r.after cfg codec calls) =
        (.ok gray, (Reader.read cfg codec (fixedOps .float32) b!"gray.npy" (r.after cfg codec calls)).2) := by
      intro calls
      refine Prod.ext ?_ rfl
      unfold Reader.read
      obtain ⟨r1, e1⟩ : ∃ r1, Reader.readFile codec b!"gray.npy" (r.after cfg codec calls) = (.ok fg, r1) := ⟨_, Prod.ext (rg calls) rfl⟩
      rw [SM.bind_ok e1]
      exact s4
    have e0 : (SM.mk fun r => (.ok (r.contains b!"color.npy"), r) : RM Bool) r = (.ok true, r) := by
      show (Except.ok (r.contains b!"color.npy"), r) = _
      rw [hcont]
    obtain ⟨r1, k1, k2⟩ : ∃ r1, r.after cfg codec [.peek b!"color.npy"] = r1 ∧ Reader.peek cfg codec b!"color.npy" r = (.ok info, r1) :=
      ⟨_, rfl, hpeek⟩
    have k3 := hrd1 [.peek b!"color.npy"]
    rw [k1] at k3
    obtain ⟨r2, k4, k5⟩ : ∃ r2, r.after cfg codec [.peek b!"color.npy", .read Elem (fixedOps .uint8) b!"color.npy"] = r2 ∧
        Reader.read cfg codec (fixedOps .uint8) b!"color.npy" r1 = (.ok color, r2) := by
      refine ⟨_, rfl, ?_⟩
      rw [k3, ← k1]
      rfl
    have k6 := hrd2 [.peek b!"color.npy", .read Elem (fixedOps .uint8) b!"color.npy"]
    rw [k4] at k6
    rw [SM.bind_ok e0, if_pos rfl, SM.bind_ok k2]
    simp only []
    rw [SM.bind_ok k5, SM.bind_ok k6, hinfo]
    rfl

theorem Grid.storable {t : DType} (ht : t ≠ .unicode) {shape : List Nat} {px : List Nat → Elem} {D : List Nat → Prop} {x : Tensor Elem}
    (g : Grid t (itemSize t) shape (IsElem t) px D x) (hr : shape.length ≤ 8) (cfg : Cfg) (e : Endian) :
    Storable cfg e ⟨Elem, fixedOps t, x⟩ :=
  .fixed t ht x g.ok g.vals (headerDict_rank8 t ht _ _ _ g.ok.extents (by rw [g.shp]; exact hr))

theorem savePath_env {α : Type} (cfg : Cfg) (ops : ElemOps α) (x : Tensor α) (e : Endian) (p : Bytes) (fs : Fs) :
    (savePath cfg ops x e p fs).2.readable = fs.readable ∧ (savePath cfg ops x e p fs).2.writable = fs.writable ∧
    (savePath cfg ops x e p fs).2.room = fs.room := by
  unfold savePath Fs.openOut
  by_cases h : fs.writable p = true
  · simp only [h, if_true]
    match save cfg ops x e { buf := [], bad := false, isOpen := true, cap := fs.room } with
    | .ok o => exact ⟨rfl, rfl, rfl⟩
    | .error er => exact ⟨rfl, rfl, rfl⟩
  · simp only [h]
    exact ⟨rfl, rfl, rfl⟩

/-- **C75** The program of the README (`examples/images/images.cpp`), for pictures of any size that fits in the archive, any state of the
file system in which the two files can be created and read back, any build and any rounding of the gray values: it ends normally; the
headers it peeks at are those of a row-major `uint8` array of the shape it made; the pictures it holds at the end have in every pixel the
values it painted; the file it saved holds the colour picture, and other files are as before. -/
theorem C75_sample_program (cfg : Cfg) (codec : Codec) (luma : Elem → Elem → Elem → Nat) (hl : ∀ r g b, luma r g b < 2 ^ 32) (h w : Nat)
    (hh : h < 2 ^ 28) (hw : w < 2 ^ 28) (hhw : h * w < 2 ^ 28) (fs : Fs)
    (hopen : ∀ p, p = b!"color.npy" ∨ p = b!"test.npz" → fs.writable p = true ∧ fs.readable p = true) (hroom : fs.room = none) :
    ∃ res fs' bytes, imagesMain cfg codec luma h w fs = (.ok res, fs') ∧
      res.first = { dtype := some .uint8, endianness := some .native, fortranOrder := some false, shape := [h, w, 3],
                    maxElementLength := some 0 } ∧
      res.header = res.first ∧ res.color.shape = [h, w, 3] ∧ res.gray.shape = [h, w] ∧
      (∀ row col : Nat, row < h → col < w →
        (∀ channel : Nat, channel < 3 → res.color.get [row, col, channel] = .ok [colorAt row col channel]) ∧
        res.gray.get [row, col] = .ok [luma [colorAt row col 0] [colorAt row col 1] [colorAt row col 2]]) ∧
      fs'.file b!"color.npy" = some bytes ∧ saveToString cfg (fixedOps .uint8) res.color .native = .ok bytes ∧
      ∀ q, q ≠ b!"color.npy" → q ≠ b!"test.npz" → fs'.file q = fs.file q := by
  have hs3 : ∀ n ∈ [h, w, 3], n < 2 ^ 64 := by
    intro n hn; simp only [List.mem_cons, List.not_mem_nil, or_false] at hn; omega
  have hs2 : ∀ n ∈ [h, w], n < 2 ^ 64 := by
    intro n hn; simp only [List.mem_cons, List.not_mem_nil, or_false] at hn; omega
  have p3 : [h, w, 3].prod = h * w * 3 := by simp [Nat.mul_assoc]
  have p2 : [h, w].prod = h * w := by simp
  obtain ⟨c0, e1, g0⟩ := new_grid (ops := fixedOps .uint8) (shape := [h, w, 3]) (P := IsElem .uint8) (by decide) hs3
    (by rw [p3]; show h * w * 3 * 1 < _; omega) (by exact ⟨rfl, by decide⟩) colorPx
  obtain ⟨c1, e2, g1⟩ := paintColor_ok hh hw hhw g0
  have ho := hopen b!"color.npy" (.inl rfl)
  have hz := hopen b!"test.npz" (.inr rfl)
  have st : ∀ e, Storable cfg e ⟨Elem, fixedOps .uint8, c1⟩ := fun e => Grid.storable (by decide) g1 (by show 3 ≤ 8; decide) cfg e
  obtain ⟨f1, b1, a1, -, -, a4, -⟩ := C53_save_load cfg .native _ (st .native) fs b!"color.npy" ho.1 ho.2 hroom
  obtain ⟨v1, v2, v3⟩ := savePath_env cfg (fixedOps .uint8) c1 .native b!"color.npy" fs
  rw [show savePath cfg (fixedOps .uint8) c1 .native b!"color.npy" fs = (.ok (), f1) from a1] at v1 v2 v3
  obtain ⟨f2, b2, a5, -, -, a6, -⟩ := C53_save_load cfg .big _ (st .big) f1 b!"color.npy" (by rw [v2]; exact ho.1)
    (by rw [v1]; exact ho.2) (by rw [v3]; exact hroom)
  obtain ⟨v4, v5, v6⟩ := savePath_env cfg (fixedOps .uint8) c1 .big b!"color.npy" f1
  rw [show savePath cfg (fixedOps .uint8) c1 .big b!"color.npy" f1 = (.ok (), f2) from a5] at v4 v5 v6
  obtain ⟨f3, b3, a7, a8, a9, a10, a11, a12⟩ := C53_save_load cfg .native _ (st .native) f2 b!"color.npy" (by rw [v5, v2]; exact ho.1)
    (by rw [v4, v1]; exact ho.2) (by rw [v6, v3]; exact hroom)
  obtain ⟨v7, v8, v9⟩ := savePath_env cfg (fixedOps .uint8) c1 .native b!"color.npy" f2
  rw [show savePath cfg (fixedOps .uint8) c1 .native b!"color.npy" f2 = (.ok (), f3) from a7] at v7 v8 v9
  simp only at a1 a5 a7 a8 a11 a12
  have hpk : peekString cfg b3 = .ok
      { dtype := some .uint8, endianness := some .native, fortranOrder := some false, shape := [h, w, 3],
        maxElementLength := some 0 } := by
    obtain ⟨b, i1, i2⟩ := C07_peek_saved cfg .uint8 (by decide) c1 g1.ok g1.vals .native
      (headerDict_rank8 _ (by decide) _ _ _ g1.ok.extents (by rw [g1.shp]; show 3 ≤ 8; decide))
    rw [a8, Except.ok.injEq] at i1
    subst i1
    rw [i2, g1.shp, g1.order]
    rfl
  rw [hpk] at a12
  obtain ⟨y0, e3, g2⟩ := new_grid (ops := fixedOps .float32) (shape := [h, w]) (P := IsElem .float32) (by decide) hs2
    (by rw [p2]; show h * w * 4 < _; omega) (by exact ⟨rfl, by decide⟩) (grayPx luma)
  obtain ⟨y1, e4, g3⟩ := paintGray_ok hl hh hw hhw g1 g2
  have stg : Storable cfg .native ⟨Elem, fixedOps .float32, y1⟩ := Grid.storable (by decide) g3 (by show 2 ≤ 8; decide) cfg .native
  obtain ⟨az, r, z1, z2, z3⟩ := images_archive cfg codec c1 y1 (st .native) stg
    (fun f hf => by
      have := saved_length (by decide) g1.ok g1.vals (by rw [g1.shp]; show 3 ≤ 8; decide) hf
      rw [g1.ok.size, g1.shp, p3, Nat.mod_eq_of_lt (by omega)] at this
      have e : itemSize .uint8 = 1 := rfl
      rw [e] at this
      omega)
    (fun f hf => by
      have := saved_length (by decide) g3.ok g3.vals (by rw [g3.shp]; show 2 ≤ 8; decide) hf
      rw [g3.ok.size, g3.shp, p2, Nat.mod_eq_of_lt (by omega)] at this
      have e : itemSize .float32 = 4 := rfl
      rw [e] at this
      omega)
    f3 b!"test.npz" (by rw [v8, v5, v2]; exact hz.1) (by rw [v7, v4, v1]; exact hz.2) (by rw [v9, v6, v3]; exact hroom)
    { dtype := some .uint8, endianness := some .native, fortranOrder := some false, shape := [h, w, 3],
      maxElementLength := some 0 }
  have lift : ∀ {β : Type} (a : β) (g : Fs), (SM.lift (.ok a) : SM Fs β) g = (.ok a, g) := fun _ _ => rfl
  have a12' : peekPath cfg b!"color.npy" f3 = (.ok
    { dtype := some .uint8, endianness := some .native, fortranOrder := some false, shape := [h, w, 3],
      maxElementLength := some 0 }, f3) := a12
  rw [g1.shp, g1.order] at z3
  refine ⟨⟨_, _, c1, y1⟩, (f3.put b!"test.npz" []).put b!"test.npz" az, b3, ?_, rfl, rfl, g1.shp, g3.shp, ?_, ?_, a8, ?_⟩
  · unfold imagesMain Tensor.savePath
    rw [e1, SM.bind_ok (lift _ _), e2, SM.bind_ok (lift _ _), SM.bind_ok a1, SM.bind_ok a5, SM.bind_ok a7, SM.bind_ok a12',
      SM.bind_ok a11, e3, SM.bind_ok (lift _ _), e4, SM.bind_ok (lift _ _), SM.bind_ok z1, SM.bind_ok z2, z3, SM.bind_ok (lift _ _)]
    rfl
  · intro row col hrow hcol
    refine ⟨fun ch hch => ?_, ?_⟩
    · exact g1.get (ks := [row, col, ch]) (.cons hrow (.cons hcol (.cons hch .nil))) (by
        intro n hn
        simp only [List.mem_cons, List.not_mem_nil, or_false] at hn
        omega) trivial
    · exact g3.get (ks := [row, col]) (.cons hrow (.cons hcol .nil)) (by
        intro n hn
        simp only [List.mem_cons, List.not_mem_nil, or_false] at hn
        omega) trivial
  · simp only [Fs.put]
    rw [if_neg (by decide), if_neg (by decide)]
    exact a9
  · intro q h1 h2
    simp only [Fs.put]
    rw [if_neg h2, if_neg h2, a10 q h1, a6 q h1, a4 q h1]

/-- Any rounding at all: the case of the source, 32 by 32. -/
example : ∃ res fs', imagesMain exCfg noCodec (fun _ _ _ => 0x43000000) 32 32 exFs = (.ok res, fs') ∧
    res.color.get [31, 2, 0] = .ok [248] ∧ res.color.get [31, 2, 1] = .ok [16] ∧ res.gray.get [3, 4] = .ok [0x43000000] ∧
    fs'.file b!"/a" = some [1, 2, 3] := by
  obtain ⟨res, fs', b, h1, -, -, -, -, h6, -, -, h9⟩ := C75_sample_program exCfg noCodec (fun _ _ _ => 0x43000000) (by intros; decide) 32 32
    (by decide) (by decide) (by decide) exFs (by rintro p (rfl | rfl) <;> exact ⟨rfl, rfl⟩) rfl
  exact ⟨res, fs', h1, (h6 31 2 (by decide) (by decide)).1 0 (by decide), (h6 31 2 (by decide) (by decide)).1 1 (by decide),
    (h6 3 4 (by decide) (by decide)).2, by rw [h9 _ (by decide) (by decide)]; rfl⟩

end Npy
