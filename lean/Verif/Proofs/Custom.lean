import Verif.Model.Custom
import Verif.Proofs.Npy
import Verif.Proofs.Archive
import Verif.Props.Api
/-! Tensor classes of the user. -/

namespace Npy

/-! ### Saving -/

theorem collectShape_ok {β : Type} {cls : TensorClass β} {x : β} {ns : List Nat} (d : Nat)
    (h : ∀ k (hk : k < ns.length), cls.shape x (d + k) = .ok ns[k]) : collectShape cls x d ns.length = .ok ns := by
  induction ns generalizing d with
  | nil => rfl
  | cons n ns ih =>
    have h0 := h 0 (by simp)
    simp only [Nat.add_zero, List.getElem_cons_zero] at h0
    have := ih (d + 1) fun k hk => by
      have := h (k + 1) (by simpa using hk)
      rw [show d + 1 + k = d + (k + 1) by omega]
      simpa using this
    simp only [List.length_cons, collectShape, h0, this]

theorem saveAs_ok {β : Type} {cfg : Cfg} {cls : TensorClass β} {x : β} {e : Endian} {ns : List Nat} {d : Bytes}
    (hn : cls.ndim x = ns.length) (hs : ∀ k (hk : k < ns.length), cls.shape x k = .ok ns[k])
    (hd : cls.dtype cfg e x = .ok d) (o : OStream) :
    saveAs cfg cls x e o = cls.save cfg e x (writeNpyHeader o d (cls.fortranOrder x) ns) := by
  have h1 : collectShape cls x 0 (cls.ndim x) = .ok ns := by
    rw [hn]; exact collectShape_ok 0 fun k hk => by rw [Nat.zero_add]; exact hs k hk
  unfold saveAs
  rw [SM.bind_ok (s' := o) (a := ns) (by rw [SM.lift_apply, h1]), SM.bind_ok (s' := o) (a := d) (by rw [SM.lift_apply, hd]),
    SM.bind_ok (SM.modify_apply _ _)]

/-! ### `npy::tensor<T>` is one of the classes -/

theorem tensorClass_shape {α : Type} (ops : ElemOps α) (x : Tensor α) (k : Nat) (hk : k < x.shape.length) :
    (tensorClass ops).shape x k = .ok x.shape[k] := by
  simp [tensorClass, List.getElem?_eq_getElem hk]

theorem saveAs_tensor {α : Type} (cfg : Cfg) (ops : ElemOps α) (x : Tensor α) (e : Endian) (o : OStream) :
    saveAs cfg (tensorClass ops) x e o =
      match save cfg ops x e o with
      | .ok o' => (.ok (), o')
      | .error err => (.error err, o) := by
  have h1 : collectShape (tensorClass ops) x 0 ((tensorClass ops).ndim x) = .ok x.shape :=
    collectShape_ok 0 fun k hk => by rw [Nat.zero_add]; exact tensorClass_shape ops x k hk
  unfold saveAs save
  rw [SM.bind_ok (s' := o) (a := x.shape) (by rw [SM.lift_apply, h1])]
  match hd : ops.dtypeStr cfg e x.values with
  | .ok d =>
    rw [SM.bind_ok (s' := o) (a := d) (by rw [SM.lift_apply]; simp only [tensorClass, hd]),
      SM.bind_ok (SM.modify_apply _ _)]
    rfl
  | .error err =>
    rw [SM.bind_error (s' := o) (e := err) (by rw [SM.lift_apply]; simp only [tensorClass, hd])]

theorem loadAs_tensor {α : Type} (cfg : Cfg) (ops : ElemOps α) (s : IStream) :
    loadAs cfg (tensorClass ops) s = load cfg ops s := rfl

/-! ### Archives: an object of any class as a tensor of a made-up element type -/

/-- A tensor whose file is given. Only for proofs: its "elements" are the object, its `write` writes the whole file. -/
def asTensor (cfg : Cfg) (t : AnyObject) : AnyTensor where
  α := Unit
  ops :=
    { dtype := .int8, zero := (), sizeof := 1
      dtypeStr := fun _ e _ => (saveAsToString cfg t.cls t.x e).map fun _ => []
      write := fun _ e _ o => { o with buf := match saveAsToString cfg t.cls t.x e with | .ok b => b | .error _ => [] }
      read := fun _ _ _ => SM.fail .ub }
  x := { shape := [], ravelStrides := [], fortranOrder := false, dtype := .int8, values := [] }

theorem saveToString_asTensor (cfg : Cfg) (t : AnyObject) (e : Endian) :
    saveToString cfg (asTensor cfg t).ops (asTensor cfg t).x e = saveAsToString cfg t.cls t.x e := by
  unfold saveToString save
  simp only [asTensor]
  match saveAsToString cfg t.cls t.x e with
  | .ok b => rfl
  | .error err => rfl

theorem writeObj_eq (cfg : Cfg) (codec : Codec) (name : Bytes) (t : AnyObject) (w : Writer) :
    Writer.writeObj cfg codec name t w = Writer.write cfg codec (asTensor cfg t).ops name (asTensor cfg t).x w := by
  unfold Writer.writeObj Writer.write
  dsimp only
  by_cases hc : w.closed = true
  · rw [if_pos hc, if_pos hc]
  · rw [if_neg hc, if_neg hc]
    have h := saveToString_asTensor cfg t w.endianness
    unfold saveToString saveAsToString at h
    match h1 : saveAs cfg t.cls t.x w.endianness OStream.empty,
      h2 : save cfg (asTensor cfg t).ops (asTensor cfg t).x w.endianness OStream.empty with
    | (.ok (), o), .ok o' =>
      rw [h1, h2] at h
      simp only [Except.map, Except.ok.injEq] at h
      simp only [h]
    | (.ok (), o), .error e' => rw [h1, h2] at h; simp [Except.map] at h
    | (.error e, o), .ok o' => rw [h1, h2] at h; simp [Except.map] at h
    | (.error e, o), .error e' =>
      rw [h1, h2] at h
      simp only [Except.map, Except.error.injEq] at h
      simp only [h]

theorem writeObjs_eq (cfg : Cfg) (codec : Codec) (puts : List (Bytes × AnyObject)) (w : Writer) :
    Writer.writeObjs cfg codec puts w =
      Writer.writeAll cfg codec (puts.map fun p => (p.1, asTensor cfg p.2)) w := by
  induction puts generalizing w with
  | nil => rfl
  | cons p rest ih =>
    obtain ⟨name, t⟩ := p
    rw [List.map_cons, Writer.writeObjs, Writer.writeAll, SM.bind_apply, SM.bind_apply, writeObj_eq]
    split
    · rename_i heq; rw [heq]; exact ih _
    · rename_i heq; rw [heq]

theorem reader_readObj_eq {β : Type} (cfg : Cfg) (codec : Codec) (cls : TensorClass β) (name : Bytes) (r : Reader) :
    (Reader.readObj cfg codec cls name r).1 =
      ((Reader.readFile codec name r).1).bind (loadAsFromString cfg cls) := by
  unfold Reader.readObj
  rw [SM.bind_apply]
  match h : Reader.readFile codec name r with
  | (.ok b, s) => rfl
  | (.error e, s) => rfl

/-! ### The class of the example -/

theorem EigenMatrix.flip_coeff {m : EigenMatrix} (h : m.data.length = m.rows * m.cols) (a : Bool) {i j : Nat}
    (hi : i < m.rows) (hj : j < m.cols) : (m.flip a).coeff (!a) i j = m.coeff a i j := by
  cases a with
  | true =>
    have hk : i * m.cols + j < m.rows * m.cols := by
      calc i * m.cols + j < i * m.cols + m.cols := by omega
        _ = (i + 1) * m.cols := by ring
        _ ≤ m.rows * m.cols := Nat.mul_le_mul_right _ hi
    have hk' : i + j * m.rows < m.rows * m.cols := by
      calc i + j * m.rows < m.rows + j * m.rows := by omega
        _ = (j + 1) * m.rows := by ring
        _ ≤ m.cols * m.rows := Nat.mul_le_mul_right _ hj
        _ = m.rows * m.cols := Nat.mul_comm _ _
    have e1 : (i * m.cols + j) / m.cols = i := by
      rw [Nat.mul_comm, Nat.mul_add_div (by omega), Nat.div_eq_of_lt hj, Nat.add_zero]
    have e2 : (i * m.cols + j) % m.cols = j := by
      rw [Nat.mul_comm, Nat.mul_add_mod, Nat.mod_eq_of_lt hj]
    simp only [EigenMatrix.coeff, EigenMatrix.flip, Bool.not_true, Bool.false_eq_true, if_false, if_true]
    rw [List.getElem?_map, List.getElem?_range hk, Option.map_some, e1, e2]
    rw [List.getElem?_eq_getElem (by rw [h]; exact hk')]
    rfl
  | false =>
    have hk : i * m.cols + j < m.rows * m.cols := by
      calc i * m.cols + j < i * m.cols + m.cols := by omega
        _ = (i + 1) * m.cols := by ring
        _ ≤ m.rows * m.cols := Nat.mul_le_mul_right _ hi
    have hk' : i + j * m.rows < m.rows * m.cols := by
      calc i + j * m.rows < m.rows + j * m.rows := by omega
        _ = (j + 1) * m.rows := by ring
        _ ≤ m.cols * m.rows := Nat.mul_le_mul_right _ hj
        _ = m.rows * m.cols := Nat.mul_comm _ _
    have e1 : (i + j * m.rows) / m.rows = j := by
      rw [Nat.mul_comm, Nat.add_mul_div_left _ _ (by omega), Nat.div_eq_of_lt hi, Nat.zero_add]
    have e2 : (i + j * m.rows) % m.rows = i := by
      rw [Nat.mul_comm, Nat.add_mul_mod_self_left, Nat.mod_eq_of_lt hi]
    simp only [EigenMatrix.coeff, EigenMatrix.flip, Bool.not_false, Bool.false_eq_true, if_false, if_true]
    rw [List.getElem?_map, List.getElem?_range hk', Option.map_some, e1, e2]
    rw [List.getElem?_eq_getElem (by rw [h]; exact hk)]
    rfl

theorem EigenMatrix.flip_length (a : Bool) (m : EigenMatrix) : (m.flip a).data.length = m.rows * m.cols := by
  simp [EigenMatrix.flip]

/-- A single column is laid out in the same way in both orders. -/
theorem EigenMatrix.column_coeff {m : EigenMatrix} (h : m.cols = 1) (a b : Bool) {i j : Nat} (hj : j < m.cols) :
    m.coeff a i j = m.coeff b i j := by
  have : j = 0 := by omega
  subst this
  cases a <;> cases b <;> simp [EigenMatrix.coeff, h]

/-- What `load` of the example makes of a file with this header and these elements. -/
def eigenOf (fortran colMajor : Bool) (m : EigenMatrix) : EigenMatrix :=
  if colMajor = fortran ∨ m.cols = 1 then m else m.flip fortran

theorem eigenOf_spec {fortran colMajor : Bool} {m : EigenMatrix} (h : m.data.length = m.rows * m.cols) :
    (eigenOf fortran colMajor m).rows = m.rows ∧ (eigenOf fortran colMajor m).cols = m.cols ∧
      (eigenOf fortran colMajor m).data.length = m.rows * m.cols ∧
      ∀ i j, i < m.rows → j < m.cols → (eigenOf fortran colMajor m).coeff colMajor i j = m.coeff fortran i j := by
  unfold eigenOf
  split
  · rename_i hc
    refine ⟨rfl, rfl, h, fun i j _ hj => ?_⟩
    rcases hc with rfl | hc
    · rfl
    · exact m.column_coeff hc _ _ hj
  · rename_i hc
    have hne : colMajor = !fortran := by
      have : colMajor ≠ fortran := fun hh => hc (.inl hh)
      revert this; cases colMajor <;> cases fortran <;> simp
    refine ⟨rfl, rfl, m.flip_length _, fun i j hi hj => ?_⟩
    rw [hne]
    exact EigenMatrix.flip_coeff h fortran hi hj

theorem eigenOf_rows (f b : Bool) (m : EigenMatrix) : (eigenOf f b m).rows = m.rows := by unfold eigenOf; split <;> rfl
theorem eigenOf_cols (f b : Bool) (m : EigenMatrix) : (eigenOf f b m).cols = m.cols := by unfold eigenOf; split <;> rfl

theorem eigenLoad_ok {t : DType} {colMajor : Bool} {cfg : Cfg} {info : HeaderInfo} {rows cols : Nat} {f : Bool}
    (hs : info.shape = [rows, cols]) (hf : info.fortranOrder = some f) {vals : List Elem} {s s' : IStream}
    (hr : readFixed cfg t info (rows * cols) s = (.ok vals, s')) :
    eigenLoad t colMajor cfg info s = (.ok (eigenOf f colMajor ⟨rows, cols, vals⟩), s') := by
  unfold eigenLoad
  simp only [hs, List.length_cons, List.length_nil, Nat.zero_add, Nat.reduceAdd, gt_iff_lt, Nat.lt_irrefl, if_false,
    List.headD_cons, if_true, hf]
  cases f with
  | true =>
    simp only []
    rw [SM.bind_ok hr]
    unfold eigenOf
    cases colMajor <;> by_cases h1 : cols = 1 <;> simp [h1]
  | false =>
    simp only []
    rw [SM.bind_ok hr]
    unfold eigenOf
    cases colMajor <;> by_cases h1 : cols = 1 <;> simp [h1]

end Npy
