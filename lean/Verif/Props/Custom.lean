import Verif.Proofs.Custom
import Verif.Props.Deflate
import Verif.Props.Tensor
import Verif.Proofs.DictLen
/-!
# C60, C61: tensor classes of the user
-/

namespace Npy
open Spec (IsNpyFile IsElem)

/-- An object reports this shape. -/
def HasShape {β : Type} (cls : TensorClass β) (x : β) (ns : List Nat) : Prop :=
  cls.ndim x = ns.length ∧ ∀ k (hk : k < ns.length), cls.shape x k = .ok ns[k]

/-- The `save` of a class writes exactly these bytes. -/
def WritesData {β : Type} (cfg : Cfg) (cls : TensorClass β) (e : Endian) (x : β) (p : Bytes) : Prop :=
  ∀ o : OStream, o.Healthy → cls.save cfg e x o = (.ok (), o.write p)

theorem saveAs_write {β : Type} {cfg : Cfg} {cls : TensorClass β} {x : β} {e : Endian} {ns : List Nat} {d p : Bytes}
    (hs : HasShape cls x ns) (hd : cls.dtype cfg e x = .ok d) (hp : WritesData cfg cls e x p) {o : OStream}
    (ho : o.Healthy) : saveAs cfg cls x e o = (.ok (), o.write (headerBytes d (cls.fortranOrder x) ns ++ p)) := by
  rw [saveAs_ok hs.1 hs.2 hd, writeNpyHeader_ok ho, hp _ (ho.write _), OStream.write_write ho]

theorem saveAsToString_eq {β : Type} {cfg : Cfg} {cls : TensorClass β} {x : β} {e : Endian} {ns : List Nat} {d p : Bytes}
    (hs : HasShape cls x ns) (hd : cls.dtype cfg e x = .ok d) (hp : WritesData cfg cls e x p) :
    saveAsToString cfg cls x e = .ok (headerBytes d (cls.fortranOrder x) ns ++ p) := by
  unfold saveAsToString
  rw [saveAs_write hs hd hp OStream.empty_healthy, OStream.write_healthy OStream.empty_healthy]
  rfl

/-- **C60** Saving an object of any tensor class makes an NPY file with the shape, storage order and dtype string the object
reports and the data its `save` writes. -/
theorem C60_file {β : Type} (cfg : Cfg) (cls : TensorClass β) (x : β) (e : Endian) (ns : List Nat) (d p : Bytes)
    (hs : HasShape cls x ns) (hd : cls.dtype cfg e x = .ok d) (hp : WritesData cfg cls e x p)
    (hlen : (Spec.headerDict d (cls.fortranOrder x) ns).length ≤ 245) :
    ∃ bytes, saveAsToString cfg cls x e = .ok bytes ∧ IsNpyFile d (cls.fortranOrder x) ns p bytes :=
  ⟨_, saveAsToString_eq hs hd hp, headerBytes_isNpy hlen p⟩

/-- **C60**, loading: whatever class is asked for, on whatever host, its `load` is given exactly what the saved object
reported, with the stream at the first byte of the data. -/
theorem C60_load {β γ : Type} (cfg cfg' : Cfg) (cls : TensorClass β) (cls' : TensorClass γ) (x : β) (e : Endian)
    (ns : List Nat) (t : DType) (ht : t ≠ .unicode) (big : Bool) (p : Bytes) (hs : HasShape cls x ns)
    (hd : cls.dtype cfg e x = .ok (Spec.descr t big)) (hp : WritesData cfg cls e x p) (hn : ∀ n ∈ ns, n < 2 ^ 64)
    (hlen : (Spec.headerDict (Spec.descr t big) (cls.fortranOrder x) ns).length ≤ 245) :
    ∃ bytes, saveAsToString cfg cls x e = .ok bytes ∧ ∀ extra,
      loadAs cfg' cls' (IStream.ofBytes (bytes ++ extra)) =
        cls'.load cfg' ⟨some t, some (reported t big), some (cls.fortranOrder x), ns, some 0⟩
          { IStream.ofBytes (bytes ++ extra) with rest := p ++ extra } := by
  refine ⟨_, saveAsToString_eq hs hd hp, fun extra => ?_⟩
  have hrep : reported t big = storedEndian t big := by cases t <;> rfl
  rw [← dictionaryText_eq_spec] at hlen
  have hh := readNpyHeader_saved cfg' (IStream.ofBytes_good (headerBytes (Spec.descr t big) (cls.fortranOrder x) ns ++ p ++ extra))
    (descr_no_quote t big) (setDescr_fixed HeaderInfo.uninit t ht big) hn hlen (p ++ extra)
  unfold loadAs
  have e1 : (IStream.ofBytes (headerBytes (Spec.descr t big) (cls.fortranOrder x) ns ++ p ++ extra)).withRest
      (headerBytes (Spec.descr t big) (cls.fortranOrder x) ns ++ (p ++ extra)) =
      IStream.ofBytes (headerBytes (Spec.descr t big) (cls.fortranOrder x) ns ++ p ++ extra) := by
    rw [List.append_assoc]; rfl
  rw [e1] at hh
  rw [SM.bind_ok hh, hrep]
  rfl

/-- **C60**, loading data of strings: as `C60_load`, with the length of the strings in the header. -/
theorem C60_load_unicode {β γ : Type} (cfg cfg' : Cfg) (cls : TensorClass β) (cls' : TensorClass γ) (x : β) (e : Endian)
    (ns : List Nat) (len : Nat) (hl : len < 2 ^ 31) (big : Bool) (p : Bytes) (hs : HasShape cls x ns)
    (hd : cls.dtype cfg e x = .ok (Spec.descrU len big)) (hp : WritesData cfg cls e x p) (hn : ∀ n ∈ ns, n < 2 ^ 64)
    (hlen : (Spec.headerDict (Spec.descrU len big) (cls.fortranOrder x) ns).length ≤ 245) :
    ∃ bytes, saveAsToString cfg cls x e = .ok bytes ∧ ∀ extra,
      loadAs cfg' cls' (IStream.ofBytes (bytes ++ extra)) =
        cls'.load cfg' ⟨some .unicode, some (if big then .big else .little), some (cls.fortranOrder x), ns, some len⟩
          { IStream.ofBytes (bytes ++ extra) with rest := p ++ extra } := by
  refine ⟨_, saveAsToString_eq hs hd hp, fun extra => ?_⟩
  rw [← dictionaryText_eq_spec] at hlen
  have hh := readNpyHeader_saved cfg' (IStream.ofBytes_good (headerBytes (Spec.descrU len big) (cls.fortranOrder x) ns ++ p ++ extra))
    (descrU_no_quote len big) (setDescr_wide HeaderInfo.uninit len hl big) hn hlen (p ++ extra)
  unfold loadAs
  have e1 : (IStream.ofBytes (headerBytes (Spec.descrU len big) (cls.fortranOrder x) ns ++ p ++ extra)).withRest
      (headerBytes (Spec.descrU len big) (cls.fortranOrder x) ns ++ (p ++ extra)) =
      IStream.ofBytes (headerBytes (Spec.descrU len big) (cls.fortranOrder x) ns ++ p ++ extra) := by
    rw [List.append_assoc]; rfl
  rw [e1] at hh
  rw [SM.bind_ok hh]
  rfl

/-- **C60**: `npy::tensor<T>` is not special. The templates do to it what they do to any class. -/
theorem C60_tensor {α : Type} (cfg : Cfg) (ops : ElemOps α) :
    (∀ x e o, saveAs cfg (tensorClass ops) x e o =
      match save cfg ops x e o with
      | .ok o' => (.ok (), o')
      | .error err => (.error err, o)) ∧
    (∀ x e, saveAsToString cfg (tensorClass ops) x e = saveToString cfg ops x e) ∧
    ∀ s, loadAs cfg (tensorClass ops) s = load cfg ops s := by
  refine ⟨saveAs_tensor cfg ops, fun x e => ?_, loadAs_tensor cfg ops⟩
  unfold saveAsToString saveToString
  rw [saveAs_tensor]
  match save cfg ops x e OStream.empty with
  | .ok o => rfl
  | .error err => rfl

/-- **C60**, exceptions: an exception of the object's `dtype` reaches the caller of `save`, with nothing written; one of its
`save` too, with whatever was written; and an archive writer whose `write` fails is as if the call had not been made. -/
theorem C60_throws {β : Type} (cfg : Cfg) (cls : TensorClass β) (x : β) (e : Endian) :
    (∀ ns err o, HasShape cls x ns → cls.dtype cfg e x = .error err → saveAs cfg cls x e o = (.error err, o)) ∧
    (∀ d err o, d < cls.ndim x → (∀ k < d, ∃ n, cls.shape x k = .ok n) → cls.shape x d = .error err →
      saveAs cfg cls x e o = (.error err, o)) ∧
    (∀ (codec : Codec) (name : Bytes) (w w' : Writer) err,
      Writer.writeObj cfg codec name ⟨β, cls, x⟩ w = (.error err, w') → w' = w) := by
  refine ⟨fun ns err o hs hd => ?_, fun d err o hd hk hf => ?_, fun codec name w w' err h => ?_⟩
  · unfold saveAs
    have h1 : collectShape cls x 0 (cls.ndim x) = .ok ns := by
      rw [hs.1]; exact collectShape_ok 0 fun k hk => by rw [Nat.zero_add]; exact hs.2 k hk
    rw [SM.bind_ok (s' := o) (a := ns) (by rw [SM.lift_apply, h1]),
      SM.bind_error (s' := o) (e := err) (by rw [SM.lift_apply, hd])]
  · have key : ∀ n a, (∀ k, a ≤ k → k < d → ∃ n, cls.shape x k = .ok n) → a ≤ d → d < a + n →
        collectShape cls x a n = .error err := by
      intro n
      induction n with
      | zero => intro a _ h1 h2; omega
      | succ n ih =>
        intro a hok h1 h2
        by_cases had : a = d
        · subst had; simp only [collectShape, hf]
        · obtain ⟨m, hm⟩ := hok a (by omega) (by omega)
          simp only [collectShape, hm, ih (a + 1) (fun k h => hok k (by omega)) (by omega) (by omega)]
    unfold saveAs
    rw [SM.bind_error (s' := o) (e := err)]
    rw [SM.lift_apply, key _ 0 (fun k _ h => hk k h) (by omega) (by omega)]
  · unfold Writer.writeObj at h
    dsimp only at h
    split at h
    · simp only [Prod.mk.injEq] at h; exact h.2.symm
    · split at h
      · simp only [Prod.mk.injEq] at h; exact h.2.symm
      · unfold Writer.writeFile at h
        dsimp only at h
        split at h
        · simp only [Prod.mk.injEq] at h; exact h.2.symm
        · split at h
          · simp at h
          · simp only [Prod.mk.injEq] at h; exact h.2.symm

/-! ### Archives -/

theorem archive_objs (cfg : Cfg) (codec : Codec) (method : Nat) (hm : method < 2 ^ 16) (e : Endian)
    (puts : List (Bytes × AnyObject)) (w : Writer)
    (hw : Writer.writeObjs cfg codec puts (Writer.newString method e) = (.ok (), w))
    (hlen : w.str.length < 2 ^ 32) (hcount : puts.length < 65536)
    (hnames : ∀ p ∈ puts, (Spec.storedName p.1).length < 65536)
    (hback : ∀ p ∈ puts, ∀ f, saveAsToString cfg p.2.cls p.2.x e = .ok f → GivesBack codec method f) :
    ∃ w', Writer.close w = (.ok (), w') ∧
      ∀ s : IStream, s = IStream.ofBytes w'.str ∨ s = IStream.ofFile w'.str → ∃ r, Reader.open s = .ok r ∧
        ∀ (calls : List RdCall) (name : Bytes) (β : Type) (cls : TensorClass β),
          (Reader.readObj cfg codec cls name (r.after cfg codec calls)).1 =
            match Spec.lookup puts name with
            | some t => (saveAsToString cfg t.cls t.x e).bind (loadAsFromString cfg cls)
            | none => .error (.throw (.invalidArgument .filename)) := by
  rw [writeObjs_eq] at hw
  obtain ⟨w', c1, -, c3⟩ := writer_reads (newString_inv method e) hm hw hlen (by
    intro p hp
    obtain ⟨q, hq, rfl⟩ := List.mem_map.1 hp
    exact hnames q hq)
  refine ⟨w', c1, ?_⟩
  intro s hs
  have hs' : s.Ready w'.str := by rcases hs with rfl | rfl; exacts [ready_ofBytes _, ready_ofFile _]
  obtain ⟨r, o1, -, o3⟩ := c3 s hs'
  refine ⟨r, o1, ?_⟩
  intro calls name β cls
  rw [reader_readObj_eq, (o3 calls name).1, List.length_map, Nat.mod_eq_of_lt (b := 2 ^ 16) hcount,
    List.take_of_length_le (by simp), lookup_map (asTensor cfg)]
  match hl : Spec.lookup puts name with
  | none => rfl
  | some t =>
    obtain ⟨n, hn⟩ := lookup_mem hl
    simp only [Option.map_some]
    rw [saveToString_asTensor]
    change ((saveAsToString cfg t.cls t.x e).bind (readBack codec method)).bind _ = _
    match hf : saveAsToString cfg t.cls t.x e with
    | .error er => rfl
    | .ok f =>
      have := hback _ hn f hf
      unfold GivesBack at this
      simp only [Except.bind, this]

/-- **C60**, archives: objects of any classes, mixed, written to a STORED archive: `read<T>(name)` for any class does what
`load<T>` does on the NPY file of the object last written under that name. -/
theorem C60_npz (cfg : Cfg) (codec : Codec) (e : Endian) (puts : List (Bytes × AnyObject)) (w : Writer)
    (hw : Writer.writeObjs cfg codec puts (Writer.newString STORED e) = (.ok (), w))
    (hlen : w.str.length < 2 ^ 32) (hcount : puts.length < 65536)
    (hnames : ∀ p ∈ puts, (Spec.storedName p.1).length < 65536)
    (hfiles : ∀ p ∈ puts, ∀ f, saveAsToString cfg p.2.cls p.2.x e = .ok f → f.length < 2 ^ 32) :
    ∃ w', Writer.close w = (.ok (), w') ∧
      ∀ s : IStream, s = IStream.ofBytes w'.str ∨ s = IStream.ofFile w'.str → ∃ r, Reader.open s = .ok r ∧
        ∀ (calls : List RdCall) (name : Bytes) (β : Type) (cls : TensorClass β),
          (Reader.readObj cfg codec cls name (r.after cfg codec calls)).1 =
            match Spec.lookup puts name with
            | some t => (saveAsToString cfg t.cls t.x e).bind (loadAsFromString cfg cls)
            | none => .error (.throw (.invalidArgument .filename)) :=
  archive_objs cfg codec STORED (by decide) e puts w hw hlen hcount hnames
    fun p hp f hf => readBack_stored codec (hfiles p hp f hf)

/-- **C60**, DEFLATED archives, for objects whose files have a size in `SafeSize` (as C31). -/
theorem C60_npz_deflated (cfg : Cfg) (j : Junk) (n : Nat) (hn : 2 ^ 36 ≤ n) (hbig : cfg.nativeBig = false) (e : Endian) (puts : List (Bytes × AnyObject))
    (w : Writer) (hw : Writer.writeObjs cfg (miniz cfg j n) puts (Writer.newString DEFLATED e) = (.ok (), w))
    (hlen : w.str.length < 2 ^ 32) (hcount : puts.length < 65536)
    (hnames : ∀ p ∈ puts, (Spec.storedName p.1).length < 65536)
    (hfiles : ∀ p ∈ puts, ∀ f, saveAsToString cfg p.2.cls p.2.x e = .ok f → Spec.Deflate.SafeSize f.length) :
    ∃ w', Writer.close w = (.ok (), w') ∧
      ∀ s : IStream, s = IStream.ofBytes w'.str ∨ s = IStream.ofFile w'.str → ∃ r, Reader.open s = .ok r ∧
        ∀ (calls : List RdCall) (name : Bytes) (β : Type) (cls : TensorClass β),
          (Reader.readObj cfg (miniz cfg j n) cls name (r.after cfg (miniz cfg j n) calls)).1 =
            match Spec.lookup puts name with
            | some t => (saveAsToString cfg t.cls t.x e).bind (loadAsFromString cfg cls)
            | none => .error (.throw (.invalidArgument .filename)) :=
  archive_objs cfg (miniz cfg j n) DEFLATED (by decide) e puts w hw hlen hcount hnames
    fun p hp f hf => miniz_givesBack cfg j n hn hbig f (hfiles p hp f hf)

/-! ### The class of the example (examples/custom_tensors/custom.cpp) -/

/-- A matrix of `float` or `double`: as many elements as rows times columns, each of its type, in memory. -/
structure EigenOk (t : DType) (m : EigenMatrix) : Prop where
  float : t = .float32 ∨ t = .float64
  size : m.data.length = m.rows * m.cols
  elems : ∀ v ∈ m.data, IsElem t v
  rows : m.rows < 2 ^ 63
  cols : m.cols < 2 ^ 63
  fits : m.data.length * Spec.itemSize t < 2 ^ 63

theorem EigenOk.notU {t : DType} {m : EigenMatrix} (h : EigenOk t m) : t ≠ .unicode := by
  rcases h.float with rfl | rfl <;> decide

theorem EigenOk.extents {t : DType} {m : EigenMatrix} (h : EigenOk t m) : ∀ n ∈ [m.rows, m.cols], n < 2 ^ 64 := by
  have h1 := h.rows
  have h2 := h.cols
  intro n hn
  simp only [List.mem_cons, List.not_mem_nil, or_false] at hn
  rcases hn with rfl | rfl <;> omega

theorem EigenOk.dict {t : DType} {m : EigenMatrix} (h : EigenOk t m) (big f : Bool) :
    (Spec.headerDict (Spec.descr t big) f [m.rows, m.cols]).length ≤ 245 :=
  headerDict_rank8 t h.notU big f _ h.extents (by simp)

theorem eigen_shape (t : DType) (a : Bool) (m : EigenMatrix) : HasShape (eigenClass t a) m [m.rows, m.cols] := by
  refine ⟨rfl, fun k hk => ?_⟩
  match k, hk with
  | 0, _ => rfl
  | 1, _ => rfl

theorem EigenOk.dtype {t : DType} {m : EigenMatrix} (h : EigenOk t m) (cfg : Cfg) (a : Bool) (e : Endian) :
    (eigenClass t a).dtype cfg e m = .ok (Spec.descr t (Spec.isBig cfg e)) := by
  simp only [eigenClass]
  rw [if_pos h.float, toDtype_eq cfg t h.notU e]

theorem EigenOk.data {t : DType} {m : EigenMatrix} (h : EigenOk t m) (cfg : Cfg) (a : Bool) (e : Endian) :
    WritesData cfg (eigenClass t a) e m (m.data.flatMap (fixedBytes cfg t e)) := by
  intro o ho
  simp only [eigenClass, SM.modify_apply]
  rw [writeFixed_ok h.notU e (fun v hv => (validElem_iff t h.notU v).2 (h.elems v hv)) ho]

/-- The saved matrix, read by the example's class with the other or the same storage order. -/
theorem eigen_load {t : DType} {m : EigenMatrix} (h : EigenOk t m) (cfg : Cfg) (a b : Bool) (e : Endian) :
    ∃ bytes, saveAsToString cfg (eigenClass t a) m e = .ok bytes ∧
      loadAsFromString cfg (eigenClass t b) bytes = .ok (eigenOf a b m) := by
  obtain ⟨bytes, h1, h2⟩ := C60_load cfg cfg (eigenClass t a) (eigenClass t b) m e _ t h.notU _ _
    (eigen_shape t a m) (h.dtype cfg a e) (h.data cfg a e) h.extents (h.dict _ _)
  refine ⟨bytes, h1, ?_⟩
  have h3 := h2 []
  rw [List.append_nil] at h3
  unfold loadAsFromString
  rw [h3]
  have hrep : reported t (Spec.isBig cfg e) = storedEndian t (Spec.isBig cfg e) := by cases t <;> rfl
  have hr := readFixed_ok (cfg := cfg) (t := t) h.notU (e := e)
    (info := ⟨some t, some (reported t (Spec.isBig cfg e)), some a, [m.rows, m.cols], some 0⟩)
    (vals := m.data) (fun v hv => (validElem_iff t h.notU v).2 (h.elems v hv)) (.inr (by simp))
    (by rw [hrep]; exact swaps_stored cfg t e) (IStream.ofBytes_good bytes) []
  rw [h.size] at hr
  have := eigenLoad_ok (colMajor := b) (f := a) rfl rfl hr
  exact congrArg Prod.fst this

/-- **C61** The matrix class of the example: a matrix saved with one storage order and loaded with the same or the other one
has the same extents and the same coefficients. -/
theorem C61_eigen (cfg : Cfg) (t : DType) (a b : Bool) (m : EigenMatrix) (hm : EigenOk t m) (e : Endian) :
    ∃ bytes m', saveAsToString cfg (eigenClass t a) m e = .ok bytes ∧
      loadAsFromString cfg (eigenClass t b) bytes = .ok m' ∧ m'.rows = m.rows ∧ m'.cols = m.cols ∧
      ∀ i j, i < m.rows → j < m.cols → ∃ v, m.coeff a i j = some v ∧ m'.coeff b i j = some v := by
  obtain ⟨bytes, h1, h2⟩ := eigen_load hm cfg a b e
  obtain ⟨s1, s2, -, s4⟩ := eigenOf_spec (fortran := a) (colMajor := b) hm.size
  refine ⟨bytes, _, h1, h2, s1, s2, fun i j hi hj => ?_⟩
  have hin : ∃ v, m.coeff a i j = some v := by
    unfold EigenMatrix.coeff
    refine ⟨_, List.getElem?_eq_getElem (h := ?_)⟩
    rw [hm.size]
    cases a with
    | true =>
      simp only [if_true]
      calc i + j * m.rows < m.rows + j * m.rows := by omega
        _ = (j + 1) * m.rows := by ring
        _ ≤ m.cols * m.rows := Nat.mul_le_mul_right _ hj
        _ = m.rows * m.cols := Nat.mul_comm _ _
    | false =>
      simp only [Bool.false_eq_true, if_false]
      calc i * m.cols + j < i * m.cols + m.cols := by omega
        _ = (i + 1) * m.cols := by ring
        _ ≤ m.rows * m.cols := Nat.mul_le_mul_right _ hi
  obtain ⟨v, hv⟩ := hin
  exact ⟨v, hv, by rw [s4 i j hi hj, hv]⟩

/-- The `npy::tensor<T>` with the elements of a matrix. -/
def EigenMatrix.tensor (t : DType) (a : Bool) (m : EigenMatrix) : Tensor Elem :=
  { shape := [m.rows, m.cols], ravelStrides := Tensor.getRavelStrides [m.rows, m.cols] a, fortranOrder := a, dtype := t,
    values := m.data }

theorem EigenOk.tensorOk {t : DType} {m : EigenMatrix} (h : EigenOk t m) (a : Bool) :
    Spec.TensorOk t (Spec.itemSize t) (m.tensor t a) := by
  have hs := h.size
  have hf := h.fits
  have hpos : 1 ≤ Spec.itemSize t := by rcases h.float with rfl | rfl <;> decide
  have hl : m.data.length < 2 ^ 63 := lt_of_le_of_lt (Nat.le_mul_of_pos_right _ hpos) hf
  refine Tensor.ok_of_strides h.extents ?_ hf rfl rfl
  simp only [EigenMatrix.tensor, List.prod_cons, List.prod_nil, Nat.mul_one]
  rw [hs, Nat.mod_eq_of_lt (by omega)]

/-- **C61**, exchange with `npy::tensor<T>`: the file of a matrix, loaded as `tensor<T>`, gives a tensor of that shape with
the same elements at the same indices; and it is the same file as that tensor's, so a tensor saved by the library loads
as the matrix (`C61_eigen`). -/
theorem C61_tensor (cfg : Cfg) (t : DType) (a : Bool) (m : EigenMatrix) (hm : EigenOk t m) (e : Endian) :
    ∃ bytes x, saveAsToString cfg (eigenClass t a) m e = .ok bytes ∧ loadFromString cfg (fixedOps t) bytes = .ok x ∧
      saveToString cfg (fixedOps t) x e = .ok bytes ∧ x.shape = [m.rows, m.cols] ∧ x.fortranOrder = a ∧
      ∀ i j, i < m.rows → j < m.cols → ∃ v, m.coeff a i j = some v ∧ x.getU [i, j] = .ok v := by
  have hx := hm.tensorOk a
  have hb := saveAsToString_eq (eigen_shape t a m) (hm.dtype cfg a e) (hm.data cfg a e)
  obtain ⟨bytes, h1, h2⟩ := C01_npy_roundtrip cfg t hm.notU (m.tensor t a) hx hm.elems e (hm.dict _ _)
  have hsame : bytes = headerBytes (Spec.descr t (Spec.isBig cfg e)) a [m.rows, m.cols] ++ m.data.flatMap (fixedBytes cfg t e) := by
    have := saveToString_fixed (cfg := cfg) (t := t) hm.notU (x := m.tensor t a) hm.elems e
    rw [h1] at this
    exact Except.ok.inj this
  refine ⟨bytes, m.tensor t a, by rw [hb, hsame]; rfl, ?_, h1, rfl, rfl, fun i j hi hj => ?_⟩
  · have := h2 []
    rw [List.append_nil] at this
    simp only [loadFromString, this]
  · have hprod : (m.tensor t a).shape.prod < 2 ^ 64 := by
      have h3 := hm.fits
      have hpos : 1 ≤ Spec.itemSize t := by rcases hm.float with rfl | rfl <;> decide
      have hl : m.data.length < 2 ^ 63 := lt_of_le_of_lt (Nat.le_mul_of_pos_right _ hpos) h3
      simp only [EigenMatrix.tensor, List.prod_cons, List.prod_nil, Nat.mul_one]
      rw [← hm.size]; omega
    obtain ⟨-, -, v, hv1, hv2⟩ := C21_position (m.tensor t a) hx hprod [i, j] (by
      simp [Spec.InRange, EigenMatrix.tensor, hi, hj])
    refine ⟨v, ?_, hv2⟩
    rw [← hv1]
    cases a with
    | true =>
      simp [EigenMatrix.coeff, EigenMatrix.tensor, Spec.position, Spec.colMajor, List.range_succ]
    | false =>
      simp [EigenMatrix.coeff, EigenMatrix.tensor, Spec.position, Spec.rowMajor, List.range_succ]

/-- **C61** does not extend to files of another element type: the class ignores the dtype of the header. Every matrix of
`double` loads as a matrix of `float` of the same extents without an error (where `tensor<float>` throws). -/
theorem C61_dtype_unchecked (cfg : Cfg) (a b : Bool) (m : EigenMatrix) (hm : EigenOk .float64 m) (e : Endian) :
    ∃ bytes m', saveAsToString cfg (eigenClass .float64 a) m e = .ok bytes ∧
      loadAsFromString cfg (eigenClass .float32 b) bytes = .ok m' ∧ m'.rows = m.rows ∧ m'.cols = m.cols ∧
      loadFromString cfg (fixedOps .float32) bytes = .error (.throw (.runtimeError .dtypeMismatch)) := by
  obtain ⟨bytes, h1, h2⟩ := C60_load cfg cfg (eigenClass .float64 a) (eigenClass .float32 b) m e _ .float64 (by decide) _ _
    (eigen_shape _ a m) (hm.dtype cfg a e) (hm.data cfg a e) hm.extents (hm.dict _ _)
  obtain ⟨bytes', h1', h2'⟩ := C60_load cfg cfg (eigenClass .float64 a) (tensorClass (fixedOps .float32)) m e _ .float64
    (by decide) _ _ (eigen_shape _ a m) (hm.dtype cfg a e) (hm.data cfg a e) hm.extents (hm.dict _ _)
  obtain rfl : bytes' = bytes := by rw [h1] at h1'; exact (Except.ok.inj h1').symm
  have h3 := h2 []
  have h3' := h2' []
  rw [List.append_nil] at h3 h3'
  have hr := readFixed_gen (cfg := cfg) (t := .float32) (by decide)
    (info := ⟨some .float64, some (reported .float64 (Spec.isBig cfg e)), some a, [m.rows, m.cols], some 0⟩)
    (m.rows * m.cols) (.inr (by simp)) (s := { IStream.ofBytes bytes' with rest := m.data.flatMap (fixedBytes cfg .float64 e) ++ [] })
    (.inl rfl)
  have hl := eigenLoad_ok (colMajor := b) (f := a) rfl rfl hr
  refine ⟨bytes', _, h1, by unfold loadAsFromString; rw [h3]; exact congrArg Prod.fst hl, ?_, ?_, ?_⟩
  · exact eigenOf_rows _ _ _
  · exact eigenOf_cols _ _ _
  · have hl2 : loadFromString cfg (fixedOps .float32) bytes' =
        (loadAs cfg (tensorClass (fixedOps .float32)) (IStream.ofBytes bytes')).1 := rfl
    rw [hl2, h3']
    simp only [tensorClass, Tensor.load]
    have hx := hm.tensorOk a
    have hpos : (0 : Nat) < (fixedOps .float32).sizeof := by decide
    have hsz : Tensor.getSize [m.rows, m.cols] = m.data.length := by
      rw [Tensor.getSize_eq]; exact hx.size.symm
    have hnew : ∃ r, Tensor.new (fixedOps .float32) [m.rows, m.cols] a = .ok r ∧ r.dtype = .float32 := by
      unfold Tensor.new
      rw [hsz, if_neg]
      · exact ⟨_, rfl, rfl⟩
      · rw [Nat.not_lt, Tensor.le_maxSize_iff _ hpos]
        have hf := hm.fits
        have h4 : (fixedOps .float32).sizeof = 4 := rfl
        have h8 : Spec.itemSize .float64 = 8 := rfl
        rw [h4]; rw [h8] at hf; omega
    obtain ⟨r, hr1, hr2⟩ := hnew
    rw [SM.bind_ok (s' := _) (a := r) (by rw [SM.lift_apply]; simp only [eigenClass, hr1]; rfl)]
    rw [if_pos (by rw [hr2]; decide)]
    rfl

/-- **C61** does not extend to tensors without axes: loading the file of one as a matrix is undefined behaviour
(`info.shape[0]` of an empty vector). -/
theorem C61_scalar_false (cfg : Cfg) (t u : DType) (ht : t ≠ .unicode) (b : Bool) (x : Tensor Elem)
    (hx : Spec.TensorOk t (Spec.itemSize t) x) (hv : ∀ v ∈ x.values, IsElem t v) (hs : x.shape = []) (e : Endian) :
    ∃ bytes, saveToString cfg (fixedOps t) x e = .ok bytes ∧
      loadAsFromString cfg (eigenClass u b) bytes = .error .ub := by
  have hv' := fun v h => (validElem_iff t ht v).2 (hv v h)
  obtain ⟨bytes, h1, h2⟩ := C60_load cfg cfg (tensorClass (fixedOps t)) (eigenClass u b) x e [] t ht _
    (x.values.flatMap (fixedBytes cfg t e)) ⟨by simp [tensorClass, hs], fun k hk => by simp at hk⟩ (toDtype_eq cfg t ht e)
    (fun o ho => by simp only [tensorClass, fixedOps, SM.modify_apply]; rw [writeFixed_ok ht e hv' ho])
    (by simp) (headerDict_rank8 t ht _ _ _ (by simp) (by simp))
  refine ⟨bytes, by rw [← (C60_tensor cfg (fixedOps t)).2.1]; exact h1, ?_⟩
  have h3 := h2 []
  rw [List.append_nil] at h3
  unfold loadAsFromString
  rw [h3]
  rfl

/-- **C61**, the example program: three matrices written to an archive under different names and read back, the third with
the other storage order. If the archive stays under 4 GiB, every coefficient comes back. -/
theorem C61_program (cfg : Cfg) (codec : Codec) (ma mb mc : EigenMatrix) (ha : EigenOk .float32 ma) (hb : EigenOk .float32 mb)
    (hc : EigenOk .float64 mc) (w : Writer)
    (hw : Writer.writeObjs cfg codec [(b!"a", ⟨_, eigenClass .float32 true, ma⟩), (b!"b", ⟨_, eigenClass .float32 true, mb⟩),
      (b!"c", ⟨_, eigenClass .float64 false, mc⟩)] (Writer.newString STORED .native) = (.ok (), w))
    (hlen : w.str.length < 2 ^ 32)
    (hfiles : ∀ p ∈ ([(.float32, true, ma), (.float32, true, mb), (.float64, false, mc)] : List (DType × Bool × EigenMatrix)),
      ∀ f, saveAsToString cfg (eigenClass p.1 p.2.1) p.2.2 .native = .ok f → f.length < 2 ^ 32) :
    ∃ w' r a' b' c', Writer.close w = (.ok (), w') ∧ Reader.open (IStream.ofFile w'.str) = .ok r ∧
      (Reader.readObj cfg codec (eigenClass .float32 true) b!"a" r).1 = .ok a' ∧
      (∀ calls, (Reader.readObj cfg codec (eigenClass .float32 true) b!"b" (r.after cfg codec calls)).1 = .ok b') ∧
      (∀ calls, (Reader.readObj cfg codec (eigenClass .float64 true) b!"c" (r.after cfg codec calls)).1 = .ok c') ∧
      a' = ma ∧ b' = mb ∧ c'.rows = mc.rows ∧ c'.cols = mc.cols ∧
      ∀ i j, i < mc.rows → j < mc.cols → c'.coeff true i j = mc.coeff false i j := by
  obtain ⟨w', c1, c2⟩ := C60_npz cfg codec .native _ w hw hlen (by simp) (by
      intro p hp
      have : (Spec.storedName p.1).length ≤ p.1.length + 4 := storedName_length _
      simp only [List.mem_cons, List.not_mem_nil, or_false] at hp
      rcases hp with rfl | rfl | rfl <;> exact lt_of_le_of_lt this (by simp)) (by
      intro p hp
      simp only [List.mem_cons, List.not_mem_nil, or_false] at hp
      rcases hp with rfl | rfl | rfl
      · exact hfiles (.float32, true, ma) (by simp)
      · exact hfiles (.float32, true, mb) (by simp)
      · exact hfiles (.float64, false, mc) (by simp))
  obtain ⟨r, o1, o2⟩ := c2 _ (.inr rfl)
  obtain ⟨fa, a1, a2⟩ := eigen_load ha cfg true true .native
  obtain ⟨fb, b1, b2⟩ := eigen_load hb cfg true true .native
  obtain ⟨fc, d1, d2⟩ := eigen_load hc cfg false true .native
  obtain ⟨s1, s2, -, s4⟩ := eigenOf_spec (fortran := false) (colMajor := true) hc.size
  refine ⟨w', r, ma, mb, _, c1, o1, ?_, fun calls => ?_, fun calls => ?_, rfl, rfl, s1, s2, s4⟩
  · have := o2 [] b!"a" _ (eigenClass .float32 true)
    rw [Reader.after, List.foldl_nil] at this
    rw [this]
    have hl : ∀ (x y z : AnyObject), Spec.lookup [(b!"a", x), (b!"b", y), (b!"c", z)] b!"a" = some x := by
      intro x y z; rfl
    rw [hl]
    simp only [a1, Except.bind, a2]
    simp [eigenOf]
  · rw [o2 calls b!"b" _ (eigenClass .float32 true)]
    have hl : ∀ (x y z : AnyObject), Spec.lookup [(b!"a", x), (b!"b", y), (b!"c", z)] b!"b" = some y := by
      intro x y z; rfl
    rw [hl]
    simp only [b1, Except.bind, b2]
    simp [eigenOf]
  · rw [o2 calls b!"c" _ (eigenClass .float64 true)]
    have hl : ∀ (x y z : AnyObject), Spec.lookup [(b!"a", x), (b!"b", y), (b!"c", z)] b!"c" = some z := by
      intro x y z; rfl
    rw [hl]
    simp only [d1, Except.bind, d2]

/-! ### The form of `read` with two template arguments -/

/-- **C62** `read<T, TENSOR>(name)` of `npzstringreader` is `read<TENSOR<T>>(name)`: the same result, the same effect. -/
theorem C62_string_reader {β : Type} (cfg : Cfg) (codec : Codec) (cls : TensorClass β) (name : Bytes) (r : Reader) :
    StringReader.readT cfg codec cls name r = Reader.readObj cfg codec cls name r := rfl

/-- **C62** (what `npzfilereader` does instead) `read<T, TENSOR>(name)` never returns: it is undefined behaviour where
`read<TENSOR<T>>(name)` returns, and throws the same exception where that throws. -/
theorem C62_file_reader {β : Type} (cfg : Cfg) (codec : Codec) (cls : TensorClass β) (name : Bytes) (r : Reader) :
    (FileReader.readT cfg codec cls name r).1 =
      match (Reader.readObj cfg codec cls name r).1 with
      | .ok _ => .error .ub
      | .error err => .error err := by
  unfold FileReader.readT
  match h : Reader.readObj cfg codec cls name r with
  | (.ok a, r') => rw [SM.bind_ok h]; rfl
  | (.error err, r') => rw [SM.bind_error h]

/-- **C62** is false of `npzfilereader`: of every tensor that was written to an archive, after any calls, the form with one
template argument gives the tensor and so does the form with two on a string reader, but on a file reader the form with two is
undefined behaviour. -/
theorem C62_false (cfg : Cfg) (codec : Codec) (e : Endian) (puts : List (Bytes × AnyTensor))
    (hok : ∀ p ∈ puts, Spec.Storable cfg e p.2) :
    ∃ w, Writer.writeAll cfg codec puts (Writer.newString STORED e) = (.ok (), w) ∧
      (w.str.length < 2 ^ 32 → puts.length < 65536 → (∀ p ∈ puts, (Spec.storedName p.1).length < 65536) →
        (∀ p ∈ puts, ∀ f, saveToString cfg p.2.ops p.2.x e = .ok f → f.length < 2 ^ 32) →
        ∃ w' rs rf, Writer.close w = (.ok (), w') ∧ Reader.open (IStream.ofBytes w'.str) = .ok rs ∧
          Reader.open (IStream.ofFile w'.str) = .ok rf ∧
            ∀ (calls : List RdCall) (name : Bytes) (t : AnyTensor), Spec.lookup puts name = some t →
              (StringReader.readT cfg codec (tensorClass t.ops) name (rs.after cfg codec calls)).1 = .ok t.x ∧
              (Reader.readObj cfg codec (tensorClass t.ops) name (rf.after cfg codec calls)).1 = .ok t.x ∧
              (FileReader.readT cfg codec (tensorClass t.ops) name (rf.after cfg codec calls)).1 = .error .ub) := by
  obtain ⟨w, hw, h⟩ := C30_npz_roundtrip cfg codec e puts hok
  refine ⟨w, hw, fun h1 h2 h3 h4 => ?_⟩
  obtain ⟨w', c1, c2⟩ := h h1 h2 h3 h4
  obtain ⟨rs, s1, s2⟩ := c2 _ (.inl rfl)
  obtain ⟨rf, f1, f2⟩ := c2 _ (.inr rfl)
  have one : ∀ {α : Type} (ops : ElemOps α) name r, (Reader.readObj cfg codec (tensorClass ops) name r).1 =
      (Reader.read cfg codec ops name r).1 := fun _ _ _ => rfl
  refine ⟨w', rs, rf, c1, s1, f1, fun calls name t hl => ⟨?_, ?_, ?_⟩⟩
  · rw [C62_string_reader, one]; exact s2 calls name t hl
  · rw [one]; exact f2 calls name t hl
  · rw [C62_file_reader, one, f2 calls name t hl]

/-! ### Concrete cases -/

/-- A 2 x 3 matrix of `double`, row-major data. -/
def exMatrix : EigenMatrix :=
  { rows := 2, cols := 3, data := [[4607182418800017408], [2], [3], [4], [5], [18446744073709551615]] }

theorem exMatrix_ok : EigenOk .float64 exMatrix where
  float := .inr rfl
  size := rfl
  elems := by
    intro v hv
    simp only [exMatrix, List.mem_cons, List.not_mem_nil, or_false] at hv
    rcases hv with rfl | rfl | rfl | rfl | rfl | rfl <;> exact ⟨rfl, by decide⟩
  rows := by decide
  cols := by decide
  fits := by decide

example : ∃ bytes m', saveAsToString ⟨false, true, false⟩ (eigenClass .float64 false) exMatrix .big = .ok bytes ∧
    loadAsFromString ⟨false, true, false⟩ (eigenClass .float64 true) bytes = .ok m' ∧
    m'.coeff true 1 0 = some [4] := by
  obtain ⟨b, m', h1, h2, -, -, h5⟩ := C61_eigen ⟨false, true, false⟩ .float64 false true exMatrix exMatrix_ok .big
  obtain ⟨v, h6, h7⟩ := h5 1 0 (by decide) (by decide)
  have : exMatrix.coeff false 1 0 = some [4] := rfl
  rw [this] at h6
  exact ⟨b, m', h1, h2, by rw [h7, ← h6]⟩

/-- The two-argument class in action: the data are transposed on the way. -/
example : (eigenOf false true exMatrix).data = [[4607182418800017408], [4], [2], [5], [3], [18446744073709551615]] := by
  decide

/-- The file of the `double` 1.0 read as `float` is a zero. -/
example : EigenOk .float64 ⟨1, 1, [[4607182418800017408]]⟩ ∧
    loadAsFromString ⟨false, true, false⟩ (eigenClass .float32 true)
      (match saveAsToString ⟨false, true, false⟩ (eigenClass .float64 true) ⟨1, 1, [[4607182418800017408]]⟩ .native with
        | .ok b => b | .error _ => []) = .ok ⟨1, 1, [[0]]⟩ := by
  refine ⟨⟨.inr rfl, rfl, ?_, by decide, by decide, by decide⟩, by decide +kernel⟩
  intro v hv
  simp only [List.mem_cons, List.not_mem_nil, or_false] at hv
  subst hv
  exact ⟨rfl, by decide⟩

/-- Two objects of different classes in one archive: the writes succeed, and the sizes are small. -/
example : ∃ w, Writer.writeObjs ⟨false, true, false⟩ ⟨fun _ => .error .diverge, fun _ => .error .diverge⟩
    [(b!"m", ⟨_, eigenClass .float64 false, exMatrix⟩), (b!"t", ⟨_, tensorClass (fixedOps .int16), exTensor⟩)]
    (Writer.newString STORED .little) = (.ok (), w) ∧ w.str.length < 2 ^ 32 := by
  refine ⟨_, rfl, ?_⟩
  decide +kernel

/-- A class whose `dtype` throws: nothing is written. -/
example : saveAs ⟨false, true, false⟩ (eigenClass .int16 true) exMatrix .little OStream.empty =
    (.error (.throw (.invalidArgument .user)), OStream.empty) :=
  (C60_throws _ _ _ _).1 [2, 3] _ _ (eigen_shape .int16 true exMatrix) rfl

/-- On an archive of three tensors the hypotheses of `C62_false` hold, so reading `"a"` in the two-argument form is undefined
behaviour. -/
example : ∃ w w' rf, Writer.writeAll exCfg noCodec exPuts (Writer.newString STORED .little) = (.ok (), w) ∧
    Writer.close w = (.ok (), w') ∧ Reader.open (IStream.ofFile w'.str) = .ok rf ∧
    (FileReader.readT exCfg noCodec (tensorClass (fixedOps .float64)) b!"x.npy" rf).1 = .error .ub := by
  obtain ⟨w, h1, h⟩ := C62_false exCfg noCodec .little exPuts exPuts_storable
  have hw : w = (Writer.writeAll exCfg noCodec exPuts (Writer.newString STORED .little)).2 := by rw [h1]
  obtain ⟨w', rs, rf, c1, -, c3, c4⟩ := h (by rw [hw]; decide +kernel) (by decide) (by decide) exPuts_files
  exact ⟨w, w', rf, h1, c1, c3, (c4 [] b!"x.npy" ⟨Elem, fixedOps .float64, exTensor2⟩ rfl).2.2⟩

end Npy
