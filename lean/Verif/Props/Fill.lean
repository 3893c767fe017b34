import Verif.Props.Tensor
import Verif.Props.Npy
/-!
# C69, C70: programs that assign elements, and the order of the elements in memory
-/

namespace Npy
open Spec

variable {α : Type} {dtype : DType} {sz : Nat}

/-! ### C70 -/

/-- All multi-indices of a shape, the last component running fastest (the order of nested loops, the first axis
outermost). -/
def Spec.multiIndices : List Nat → List (List Nat)
  | [] => [[]]
  | d :: ds => (List.range d).flatMap fun i => (multiIndices ds).map (i :: ·)

/-- The order of the elements in memory: the last index fastest, or the first index fastest for FORTRAN order. -/
def Spec.storageOrder (fortran : Bool) (shape : List Nat) : List (List Nat) :=
  if fortran then (multiIndices shape.reverse).map List.reverse else multiIndices shape

theorem multiIndices_mem (shape idx : List Nat) : idx ∈ multiIndices shape ↔ InRange shape idx := by
  induction shape generalizing idx with
  | nil =>
    simp only [multiIndices, List.mem_singleton, InRange]
    constructor
    · rintro rfl; exact .nil
    · intro h; cases h; rfl
  | cons d ds ih =>
    simp only [multiIndices, List.mem_flatMap, List.mem_range, List.mem_map]
    constructor
    · rintro ⟨i, hi, r, hr, rfl⟩
      exact .cons hi ((ih r).1 hr)
    · intro h
      cases h with
      | @cons i _ is _ hi hr => exact ⟨i, hi, is, (ih is).2 hr, rfl⟩

theorem multiIndices_positions (shape : List Nat) :
    (multiIndices shape).map (rowMajor shape) = List.range shape.prod := by
  induction shape with
  | nil => simp [multiIndices, rowMajor]
  | cons d ds ih =>
    have key : ∀ n, ((List.range n).flatMap fun i => (multiIndices ds).map (i :: ·)).map (rowMajor (d :: ds)) =
        List.range (n * ds.prod) := by
      intro n
      induction n with
      | zero => simp
      | succ n ihn =>
        rw [List.range_succ, List.flatMap_append, List.map_append, ihn]
        simp only [List.flatMap_cons, List.flatMap_nil, List.append_nil, List.map_map]
        have e : (rowMajor (d :: ds) ∘ fun x => n :: x) = fun x => n * ds.prod + rowMajor ds x := by
          funext x
          simp [rowMajor_cons]
        have e' : (multiIndices ds).map (fun x => n * ds.prod + rowMajor ds x) =
            ((multiIndices ds).map (rowMajor ds)).map (n * ds.prod + ·) := by rw [List.map_map]; rfl
        rw [e, e', ih, show (n + 1) * ds.prod = n * ds.prod + ds.prod by ring, List.range_add]
    rw [multiIndices, key, List.prod_cons]

theorem storageOrder_mem (f : Bool) (shape idx : List Nat) : idx ∈ storageOrder f shape ↔ InRange shape idx := by
  cases f with
  | false => exact multiIndices_mem shape idx
  | true =>
    simp only [storageOrder, if_true, List.mem_map]
    constructor
    · rintro ⟨r, hr, rfl⟩
      have := ((multiIndices_mem _ _).1 hr).reverse
      rwa [List.reverse_reverse] at this
    · intro h
      exact ⟨idx.reverse, (multiIndices_mem _ _).2 h.reverse, List.reverse_reverse _⟩

theorem storageOrder_positions (f : Bool) (shape : List Nat) :
    (storageOrder f shape).map (position f shape) = List.range shape.prod := by
  cases f with
  | false => exact multiIndices_positions shape
  | true =>
    simp only [storageOrder, if_true, List.map_map]
    rw [← List.prod_reverse, ← multiIndices_positions]
    apply List.map_congr_left
    intro r hr
    have h := ((multiIndices_mem _ _).1 hr).reverse
    rw [List.reverse_reverse] at h
    simp only [Function.comp_apply, position, if_true]
    rw [← rowMajor_reverse _ _ h.length, List.reverse_reverse]

/-- **C70** Going through the tensor with `begin()`/`end()`, `data()` or `values()` visits the elements in storage
order: the `k`-th value is the element at the `k`-th multi-index, the last index running fastest (the first index for
FORTRAN order). -/
theorem C70_iteration (x : Tensor α) (hx : TensorOk dtype sz x) (hp : x.shape.prod < 2 ^ 64) :
    (storageOrder x.fortranOrder x.shape).map x.getU = x.values.map .ok := by
  have hlen : x.values.length = x.shape.prod := by rw [hx.size, Nat.mod_eq_of_lt hp]
  have e : (storageOrder x.fortranOrder x.shape).map x.getU =
      ((storageOrder x.fortranOrder x.shape).map (position x.fortranOrder x.shape)).map
        fun p => match x.values[p]? with
          | some v => .ok v
          | none => .error .ub := by
    rw [List.map_map]
    apply List.map_congr_left
    intro idx hm
    obtain ⟨-, -, v, h1, h2⟩ := C21_position x hx hp idx ((storageOrder_mem _ _ _).1 hm)
    simp only [Function.comp_apply]
    rw [h1, h2]
  rw [e, storageOrder_positions, ← hlen]
  apply List.ext_getElem
  · simp
  · intro k h1 h2
    simp at h1
    simp [h1]

/-- **C70** Every in-range multi-index is visited, and none twice. -/
theorem C70_visits_all (f : Bool) (shape : List Nat) :
    (storageOrder f shape).Nodup ∧ (∀ idx, idx ∈ storageOrder f shape ↔ InRange shape idx) ∧
      (storageOrder f shape).length = shape.prod := by
  have h := storageOrder_positions f shape
  refine ⟨?_, storageOrder_mem f shape, ?_⟩
  · have : ((storageOrder f shape).map (position f shape)).Nodup := by rw [h]; exact List.nodup_range
    exact this.of_map
  · have := congrArg List.length h
    simpa using this

example : storageOrder false [2, 3] = [[0, 0], [0, 1], [0, 2], [1, 0], [1, 1], [1, 2]] ∧
    storageOrder true [2, 3] = [[0, 0], [1, 0], [0, 1], [1, 1], [0, 2], [1, 2]] ∧
    (storageOrder true [2, 3]).map exF.getU = exF.values.map .ok :=
  ⟨by decide, by decide, C70_iteration exF exF_ok (by decide)⟩

/-! ### C69 -/

/-- A call that assigns one element of the tensor in variable `w`, whose shape has `rank` axes: `set` and the variadic
`operator()` with any 32-bit indices, the unsigned `operator()` with one index per axis, a store through an iterator or
`data()` inside the buffer. -/
def Spec.AssignsElement (w rank size : Nat) : TOp α → Prop
  | .set v idx _ => v = w ∧ ∀ i ∈ idx, IsInt32 i
  | .setU v idx _ => v = w ∧ idx.length = rank
  | .poke v k _ => v = w ∧ k < size
  | _ => False

/-- The element of a tensor a call assigns to (if it is in range), and the value. -/
def Spec.Stores (fortran : Bool) (shape : List Nat) (op : TOp α) (ks : List Nat) (a : α) : Prop :=
  match op with
  | .set _ idx v => Denotes shape idx ks ∧ v = a
  | .setU _ idx v => InRange shape ks ∧ idx = ks ∧ v = a
  | .poke _ k v => InRange shape ks ∧ position fortran shape ks = k ∧ v = a
  | _ => False

theorem TEnv.put_self (env : TEnv α) (w : Nat) (x : Tensor α) : env.put w x w = some x := by simp [TEnv.put]

theorem TEnv.put_ne (env : TEnv α) (w v : Nat) (x : Tensor α) (h : v ≠ w) : env.put w x v = env v := by
  simp [TEnv.put, h]

theorem denotes_unique {shape : List Nat} {idx : List Int} {a b : List Nat} (h : Denotes shape idx a)
    (h' : Denotes shape idx b) : a = b := by
  apply List.ext_getElem?
  intro k
  by_cases hk : k < shape.length
  · obtain ⟨i, p, e1, e2, h1⟩ := h.2.2 k hk
    obtain ⟨j, q, e3, e4, h2⟩ := h'.2.2 k hk
    rw [e1, Option.some.injEq] at e3
    subst e3
    rw [e2, e4]
    unfold Resolves at h1 h2
    congr 1
    omega
  · rw [List.getElem?_eq_none (by have := h.2.1; omega), List.getElem?_eq_none (by have := h'.2.1; omega)]

theorem assign_step (cfg : Cfg) (ops : ElemOps α) (env : TEnv α) (w : Nat) (x : Tensor α) (hw : env w = some x)
    (hx : TensorOk dtype sz x) (hp : x.shape.prod < 2 ^ 64) (op : TOp α)
    (hop : AssignsElement w x.shape.length x.values.length op) :
    ((∃ m, op.step cfg ops env = .error (.throw m)) ∧ ∀ ks a, ¬ Stores x.fortranOrder x.shape op ks a) ∨
    ∃ y, op.step cfg ops env = .ok (env.put w y) ∧ y.shape = x.shape ∧ y.fortranOrder = x.fortranOrder ∧
      y.dtype = x.dtype ∧ y.values.length = x.values.length ∧ TensorOk dtype sz y ∧
      (∀ v ∈ y.values, v ∈ x.values ∨ ∃ ks, Stores x.fortranOrder x.shape op ks v) ∧
      ∀ ks, InRange x.shape ks → (∀ a, Stores x.fortranOrder x.shape op ks a → y.getU ks = .ok a) ∧
        ((∀ a, ¬ Stores x.fortranOrder x.shape op ks a) → y.getU ks = x.getU ks) := by
  have hlen : x.values.length = x.shape.prod := by rw [hx.size, Nat.mod_eq_of_lt hp]
  -- storing at the place of `ki`
  have store : ∀ (ki : List Nat) (a : α), InRange x.shape ki →
      (∀ ks b, Stores x.fortranOrder x.shape op ks b ↔ ks = ki ∧ b = a) →
      op.step cfg ops env = .ok (env.put w { x with values := x.values.set (position x.fortranOrder x.shape ki) a }) →
      ∃ y, op.step cfg ops env = .ok (env.put w y) ∧ y.shape = x.shape ∧ y.fortranOrder = x.fortranOrder ∧
      y.dtype = x.dtype ∧ y.values.length = x.values.length ∧ TensorOk dtype sz y ∧
      (∀ v ∈ y.values, v ∈ x.values ∨ ∃ ks, Stores x.fortranOrder x.shape op ks v) ∧
      ∀ ks, InRange x.shape ks → (∀ a, Stores x.fortranOrder x.shape op ks a → y.getU ks = .ok a) ∧
        ((∀ a, ¬ Stores x.fortranOrder x.shape op ks a) → y.getU ks = x.getU ks) := by
    intro ki a hki hst hstep
    obtain ⟨h1, h2, -⟩ := C21_position x hx hp ki hki
    refine ⟨_, hstep, rfl, rfl, rfl, by simp, ?_, ?_, ?_⟩
    · exact ⟨hx.extents, by simpa using hx.size, by simpa using hx.fits, hx.dtype, hx.stridesLength, hx.strides⟩
    · intro v hv
      rcases List.mem_or_eq_of_mem_set hv with hv | rfl
      · exact .inl hv
      · exact .inr ⟨ki, (hst _ _).2 ⟨rfl, rfl⟩⟩
    · intro ks hks
      have e : Tensor.ravelU { x with values := x.values.set (position x.fortranOrder x.shape ki) a } ks = x.ravelU ks := rfl
      constructor
      · intro b hb
        obtain ⟨rfl, rfl⟩ := (hst _ _).1 hb
        unfold Tensor.getU
        rw [e, h1]
        simp [Tensor.at?, h2]
      · intro hn
        have hne : ks ≠ ki := fun h => hn a ((hst _ _).2 ⟨h, rfl⟩)
        unfold Tensor.getU
        rw [e, (C21_position x hx hp ks hks).1]
        simp only [Tensor.at?]
        rw [List.getElem?_set_ne]
        intro hc
        exact hne (position_inj hks hki hc.symm)
  cases op with
  | set v idx a =>
    obtain ⟨rfl, hi⟩ := hop
    by_cases h : ∃ ks, Denotes x.shape idx ks
    · right
      obtain ⟨ki, h⟩ := h
      apply store ki a h.inRange
      · intro ks b
        simp only [Stores]
        constructor
        · rintro ⟨h', rfl⟩; exact ⟨denotes_unique h' h, rfl⟩
        · rintro ⟨rfl, rfl⟩; exact ⟨h, rfl⟩
      · obtain ⟨h1, h2, -⟩ := C21_position x hx hp ki h.inRange
        simp only [TOp.step, hw, Tensor.set, ravelI_denotes x hx hi h, h1, if_pos h2]
        rfl
    · left
      refine ⟨⟨.invalidArgument .multiIndex, ?_⟩, fun ks b hs => h ⟨ks, hs.1⟩⟩
      · simp only [TOp.step, hw, (C25_signed_rejects x hx idx hi h a).2]
        rfl
  | setU v idx a =>
    obtain ⟨rfl, hl⟩ := hop
    by_cases h : InRange x.shape idx
    · right
      apply store idx a h
      · intro ks b
        simp only [Stores]
        constructor
        · rintro ⟨-, rfl, rfl⟩; exact ⟨rfl, rfl⟩
        · rintro ⟨rfl, rfl⟩; exact ⟨h, rfl, rfl⟩
      · obtain ⟨h1, h2, -⟩ := C21_position x hx hp idx h
        simp only [TOp.step, hw, Tensor.setU, h1, if_pos h2]
        rfl
    · left
      refine ⟨⟨.invalidArgument .multiIndex, ?_⟩, fun ks b hs => h (hs.2.1 ▸ hs.1)⟩
      · simp only [TOp.step, hw, (C25_unsigned_rejects x hx idx hl h a).2]
        rfl
  | poke v k a =>
    obtain ⟨rfl, hk⟩ := hop
    right
    obtain ⟨ki, h, rfl⟩ := position_surj x.fortranOrder x.shape k (by omega)
    apply store ki a h
    · intro ks b
      simp only [Stores]
      constructor
      · rintro ⟨h', h'', rfl⟩; exact ⟨position_inj h' h h'', rfl⟩
      · rintro ⟨rfl, rfl⟩; exact ⟨h, rfl, rfl⟩
    · simp only [TOp.step, hw, if_pos hk]
  | construct => exact hop.elim
  | load => exact hop.elim
  | copyFromPtr => exact hop.elim
  | copyFrom => exact hop.elim
  | moveFrom => exact hop.elim
  | copyTensor => exact hop.elim
  | moveTensor => exact hop.elim

/-- **C69** After any sequence of element assignments to a tensor, by signed or unsigned indices or through iterators, those
out of range throwing and being caught: every element holds the value of the last assignment to it, and the one it had
before if there was none. Shape, order and data type stay, and no other tensor changes. -/
theorem C69_last_assignment (cfg : Cfg) (ops : ElemOps α) (env : TEnv α) (w : Nat) (x : Tensor α) (hw : env w = some x)
    (hx : TensorOk dtype sz x) (hp : x.shape.prod < 2 ^ 64) (prog : List (TOp α))
    (hprog : ∀ op ∈ prog, AssignsElement w x.shape.length x.values.length op) :
    ∃ env' y, TOp.runAll cfg ops prog env = some env' ∧ env' w = some y ∧ (∀ v, v ≠ w → env' v = env v) ∧
      y.shape = x.shape ∧ y.fortranOrder = x.fortranOrder ∧ y.dtype = x.dtype ∧
      y.values.length = x.values.length ∧ TensorOk dtype sz y ∧
      (∀ v ∈ y.values, v ∈ x.values ∨ ∃ op ∈ prog, ∃ ks, Stores x.fortranOrder x.shape op ks v) ∧
      ∀ ks, InRange x.shape ks →
        (∀ pre op post a, prog = pre ++ op :: post → Stores x.fortranOrder x.shape op ks a →
          (∀ op' ∈ post, ∀ b, ¬ Stores x.fortranOrder x.shape op' ks b) → y.getU ks = .ok a) ∧
        ((∀ op ∈ prog, ∀ a, ¬ Stores x.fortranOrder x.shape op ks a) → y.getU ks = x.getU ks) := by
  induction prog generalizing env x with
  | nil =>
    refine ⟨env, x, rfl, hw, fun _ _ => rfl, rfl, rfl, rfl, rfl, hx, fun v hv => .inl hv, fun ks _ => ⟨?_, fun _ => rfl⟩⟩
    intro pre op post a h
    simp at h
  | cons op0 rest ih =>
    have hrest : ∀ op ∈ rest, AssignsElement w x.shape.length x.values.length op := fun op h => hprog op (by simp [h])
    rcases assign_step cfg ops env w x hw hx hp op0 (hprog op0 (by simp)) with ⟨⟨m, he⟩, hno⟩ | ⟨y, he, q1, q2, q3, q4, q5, q6, q7⟩
    · obtain ⟨env', z, r1, r2, r3, r4, r5, r6, r7, r8, r9, r10⟩ := ih env x hw hx hp hrest
      refine ⟨env', z, ?_, r2, r3, r4, r5, r6, r7, r8, ?_, ?_⟩
      · rw [TOp.runAll, he]; exact r1
      · intro v hv
        rcases r9 v hv with h | ⟨op, h, ks, h'⟩
        · exact .inl h
        · exact .inr ⟨op, by simp [h], ks, h'⟩
      · intro ks hks
        refine ⟨?_, fun h => (r10 ks hks).2 fun op hm => h op (by simp [hm])⟩
        intro pre op post a h hs hn
        cases pre with
        | nil =>
          simp only [List.nil_append, List.cons.injEq] at h
          exact absurd (h.1 ▸ hs) (hno ks a)
        | cons p pre =>
          simp only [List.cons_append, List.cons.injEq] at h
          exact (r10 ks hks).1 pre op post a h.2 hs hn
    · have hrest' : ∀ op ∈ rest, AssignsElement w y.shape.length y.values.length op := by rw [q1, q4]; exact hrest
      obtain ⟨env', z, r1, r2, r3, r4, r5, r6, r7, r8, r9, r10⟩ :=
        ih (env.put w y) y (TEnv.put_self _ _ _) q5 (by rw [q1]; exact hp) hrest'
      rw [q1, q2] at r9
      rw [q1] at r10
      rw [q2] at r10
      refine ⟨env', z, ?_, r2, ?_, r4.trans q1, r5.trans q2, r6.trans q3, r7.trans q4, r8, ?_, ?_⟩
      · rw [TOp.runAll, he]; exact r1
      · intro v hv
        rw [r3 v hv, TEnv.put_ne _ _ _ _ hv]
      · intro v hv
        rcases r9 v hv with h | ⟨op, h, ks, h'⟩
        · rcases q6 v h with h | ⟨ks, h⟩
          · exact .inl h
          · exact .inr ⟨op0, by simp, ks, h⟩
        · exact .inr ⟨op, by simp [h], ks, h'⟩
      · intro ks hks
        refine ⟨?_, fun h => ?_⟩
        · intro pre op post a h hs hn
          cases pre with
          | nil =>
            simp only [List.nil_append, List.cons.injEq] at h
            obtain ⟨h1, h2⟩ := h
            subst h1 h2
            rw [(r10 ks hks).2 hn]
            exact (q7 ks hks).1 a hs
          | cons p pre =>
            simp only [List.cons_append, List.cons.injEq] at h
            exact (r10 ks hks).1 pre op post a h.2 hs hn
        · rw [(r10 ks hks).2 fun op hm => h op (by simp [hm])]
          exact (q7 ks hks).2 (h op0 (by simp))

/-- **C69** Filling a tensor: a loop that assigns `f` of every in-range multi-index (in any order, perhaps some of them
several times) leaves a tensor whose element at each multi-index is `f` of it, whatever was there before. -/
theorem C69_fill (cfg : Cfg) (ops : ElemOps α) (env : TEnv α) (w : Nat) (x : Tensor α) (hw : env w = some x)
    (hx : TensorOk dtype sz x) (hp : x.shape.prod < 2 ^ 64) (f : List Nat → α) (loop : List (List Nat))
    (hl : ∀ idx, idx ∈ loop ↔ InRange x.shape idx) :
    ∃ env' y, TOp.runAll cfg ops (loop.map fun idx => .setU w idx (f idx)) env = some env' ∧ env' w = some y ∧
      y.shape = x.shape ∧ y.fortranOrder = x.fortranOrder ∧ y.dtype = x.dtype ∧ TensorOk dtype sz y ∧
      (∀ idx, InRange x.shape idx → y.getU idx = .ok (f idx)) ∧
      y.values = (storageOrder x.fortranOrder x.shape).map f := by
  obtain ⟨env', y, r1, r2, -, r4, r5, r6, r7, r8, -, r10⟩ := C69_last_assignment cfg ops env w x hw hx hp
    (loop.map fun idx => .setU w idx (f idx)) (by
      intro op hop
      obtain ⟨idx, hi, rfl⟩ := List.mem_map.1 hop
      exact ⟨rfl, ((hl idx).1 hi).length⟩)
  have key : ∀ idx, InRange x.shape idx → y.getU idx = .ok (f idx) := by
    intro idx hidx
    have split : ∀ l : List (List Nat), idx ∈ l → ∃ pre post, l = pre ++ idx :: post ∧ idx ∉ post := by
      intro l
      induction l with
      | nil => intro h; simp at h
      | cons a l ih =>
        intro h
        by_cases hm : idx ∈ l
        · obtain ⟨pre, post, e, hn⟩ := ih hm
          exact ⟨a :: pre, post, by rw [e]; rfl, hn⟩
        · have : idx = a := by simpa [hm] using h
          exact ⟨[], l, by rw [this]; rfl, hm⟩
    obtain ⟨pre, post, e, hn⟩ := split loop ((hl idx).2 hidx)
    apply (r10 idx hidx).1 (pre.map fun idx => .setU w idx (f idx)) (.setU w idx (f idx))
      (post.map fun idx => .setU w idx (f idx)) (f idx)
    · rw [e]; simp
    · exact ⟨hidx, rfl, rfl⟩
    · intro op' hop b hs
      obtain ⟨j, hj, rfl⟩ := List.mem_map.1 hop
      exact hn (hs.2.1 ▸ hj)
  refine ⟨env', y, r1, r2, r4, r5, r6, r8, key, ?_⟩
  have h := C70_iteration y r8 (by rw [r4]; exact hp)
  rw [r4, r5] at h
  have h' : (storageOrder x.fortranOrder x.shape).map y.getU =
      ((storageOrder x.fortranOrder x.shape).map f).map Except.ok := by
    rw [List.map_map]
    apply List.map_congr_left
    intro idx hm
    exact key idx ((storageOrder_mem _ _ _).1 hm)
  rw [h'] at h
  have inj : Function.Injective (Except.ok : α → Except Err α) := fun a b e => by cases e; rfl
  exact (List.map_injective_iff.2 inj h).symm

/-- **C69** The whole life of an array: construct it with any shape and order, assign `f` of every multi-index in a loop,
save it, load the file on any host of the same byte order: the element at each multi-index is `f` of it. -/
theorem C69_saved (cfg : Cfg) (t : DType) (ht : t ≠ .unicode) (env : TEnv Elem) (w : Nat) (shape : List Nat) (fortran : Bool)
    (hext : ∀ n ∈ shape, n < 2 ^ 64) (hp : shape.prod * Spec.itemSize t < 2 ^ 63) (hr : shape.length ≤ 8)
    (f : List Nat → Elem) (hf : ∀ idx, IsElem t (f idx)) (loop : List (List Nat))
    (hl : ∀ idx, idx ∈ loop ↔ InRange shape idx) (e : Endian) :
    ∃ env' y bytes z,
      TOp.runAll cfg (fixedOps t) (.construct w shape fortran :: loop.map fun idx => .setU w idx (f idx)) env = some env' ∧
      env' w = some y ∧ saveToString cfg (fixedOps t) y e = .ok bytes ∧
      loadFromString cfg (fixedOps t) bytes = .ok z ∧ z.shape = shape ∧ z.fortranOrder = fortran ∧ z.dtype = t ∧
      ∀ idx, InRange shape idx → z.getU idx = .ok (f idx) := by
  have hsz : Spec.itemSize t = (fixedOps t).sizeof := by rw [itemSize_eq t ht]; rfl
  have hpos : 0 < (fixedOps t).sizeof := by
    show 0 < t.size
    cases t <;> first | decide | exact absurd rfl ht
  have hp64 : shape.prod < 2 ^ 64 := by
    have : shape.prod * 1 ≤ shape.prod * Spec.itemSize t := Nat.mul_le_mul_left _ (by omega)
    omega
  have hnew : ∃ x, Tensor.new (fixedOps t) shape fortran = .ok x := by
    unfold Tensor.new
    rw [if_neg]
    · exact ⟨_, rfl⟩
    · rw [Nat.not_lt, Tensor.le_maxSize_iff _ hpos, Tensor.getSize_eq, ← hsz]
      unfold SIZE
      rw [Nat.mod_eq_of_lt hp64]
      exact hp
  obtain ⟨x, hx⟩ := hnew
  have hok := new_inv hpos hext hx
  rw [← hsz] at hok
  have hdt : (fixedOps t).dtype = t := rfl
  rw [hdt] at hok
  have hshape : x.shape = shape ∧ x.fortranOrder = fortran := by
    unfold Tensor.new at hx
    split at hx
    · simp at hx
    · simp only [Except.ok.injEq] at hx
      subst hx
      exact ⟨rfl, rfl⟩
  obtain ⟨hsh, hfo⟩ := hshape
  obtain ⟨env', y, r1, r2, r3, r4, r5, r6, r7, r8⟩ := C69_fill cfg (fixedOps t) (env.put w x) w x (TEnv.put_self _ _ _) hok
    (by rw [hsh]; exact hp64) f loop (by rw [hsh]; exact hl)
  have hv : ∀ v ∈ y.values, IsElem t v := by
    intro v hv
    rw [r8] at hv
    obtain ⟨idx, -, rfl⟩ := List.mem_map.1 hv
    exact hf idx
  obtain ⟨bytes, s1, s2⟩ := C01_eight_axes cfg t ht y r6 hv e (by rw [r3, hsh]; exact hr)
  refine ⟨env', y, bytes, y, ?_, r2, s1, ?_, r3.trans hsh, r4.trans hfo, by rw [r5]; exact hok.dtype, ?_⟩
  · rw [TOp.runAll, TOp.step, hx]
    exact r1
  · have := s2 []
    rw [List.append_nil] at this
    unfold loadFromString
    rw [this]
  · rw [← hsh]; exact r7

/-- A loop over a 2×3 FORTRAN-order tensor; and a program that assigns the same element three times, once out of range. -/
example : ∃ env' y bytes z,
    TOp.runAll ⟨false, true, false⟩ (fixedOps .int16)
      (.construct 4 [2, 3] true :: (multiIndices [2, 3]).map fun idx => .setU 4 idx [100 * (idx.sum % 600)]) (fun _ => none) = some env' ∧
    env' 4 = some y ∧ saveToString ⟨false, true, false⟩ (fixedOps .int16) y .big = .ok bytes ∧
    loadFromString ⟨false, true, false⟩ (fixedOps .int16) bytes = .ok z ∧ z.shape = [2, 3] ∧ z.fortranOrder = true ∧
    z.dtype = .int16 ∧ ∀ idx, InRange [2, 3] idx → z.getU idx = .ok [(fun i => 100 * (i.sum % 600)) idx] := by
  have h := C69_saved ⟨false, true, false⟩ .int16 (by decide) (fun _ => none) 4 [2, 3] true (by decide) (by decide) (by decide)
    (fun i => [100 * (i.sum % 600)]) (fun idx => by
      have := Nat.mod_lt idx.sum (show 600 > 0 by decide)
      refine ⟨rfl, ?_⟩
      intro v hv
      simp only [List.mem_singleton] at hv
      subst hv
      show _ < 65536
      omega) (multiIndices [2, 3]) (multiIndices_mem _) .big
  exact h

example : (∀ op ∈ [TOp.setU 0 [1, 2] ([7] : Elem), .set 0 [-1, -1] [8], .set 0 [2, 0] [9], .poke 0 5 [10]],
      AssignsElement 0 exF.shape.length exF.values.length op) ∧
    Stores exF.fortranOrder exF.shape (.poke 0 5 ([10] : Elem)) [1, 2] [10] := by
  constructor
  · intro op h
    simp only [List.mem_cons, List.not_mem_nil, or_false] at h
    rcases h with rfl | rfl | rfl | rfl <;> simp [AssignsElement, IsInt32, exF]
  · exact ⟨by decide, by decide, rfl⟩

end Npy
