import Verif.Model.Values
import Verif.Proofs.Bytes
import Verif.Proofs.Stream
/-! Writing and reading element data. -/

namespace Npy

/-! ### Output -/

theorem OStream.write_healthy {o : OStream} (h : o.Healthy) (bs : Bytes) :
    o.write bs = { o with buf := o.buf ++ bs } := by
  obtain ⟨h1, h2, h3⟩ := h
  simp [OStream.write, h1, h2, h3]

theorem OStream.Healthy.write {o : OStream} (h : o.Healthy) (bs : Bytes) : (o.write bs).Healthy := by
  rw [OStream.write_healthy h]
  exact h

theorem OStream.empty_healthy : OStream.empty.Healthy := ⟨rfl, rfl, rfl⟩

/-- A sequence of writes is one write of the concatenation. -/
theorem OStream.foldl_write {β : Type} (f : β → Bytes) (l : List β) {o : OStream} (h : o.Healthy) :
    l.foldl (fun o x => o.write (f x)) o = o.write (l.flatMap f) := by
  induction l generalizing o with
  | nil => simp [OStream.write_healthy h]
  | cons x l ih =>
    rw [List.foldl_cons, ih (h.write _), List.flatMap_cons, OStream.write_healthy (h.write _),
      OStream.write_healthy h, OStream.write_healthy h]
    simp

/-! ### Elements of fixed size -/

/-- An element of type `t`: as many components as the type has, each fitting its size. -/
def ValidElem (t : DType) (v : Elem) : Prop := v.length = t.comps ∧ ∀ c ∈ v, c < 256 ^ t.csize

theorem memBytes_length (cfg : Cfg) (t : DType) (v : Elem) : (memBytes cfg t v).length = v.length * t.csize := by
  simp only [memBytes, List.length_flatMap, hostBytes_length]
  induction v with
  | nil => simp
  | cons c v ih => simp only [List.map_cons, List.sum_cons, ih, List.length_cons, Nat.succ_mul]; omega

theorem memBytes_length' {cfg : Cfg} {t : DType} {v : Elem} (h : ValidElem t v) :
    (memBytes cfg t v).length = t.size := by
  rw [memBytes_length, h.1, DType.size]

theorem memElem_memBytes {cfg : Cfg} {t : DType} {v : Elem} (h : ValidElem t v) :
    memElem cfg t (memBytes cfg t v) = v := by
  obtain ⟨hl, hc⟩ := h
  have main : ∀ (v : Elem), (∀ c ∈ v, c < 256 ^ t.csize) →
      ((List.range v.length).map fun i =>
        hostValue cfg (((memBytes cfg t v).drop (i * t.csize)).take t.csize)) = v := by
    intro v
    induction v with
    | nil => simp
    | cons c v ih =>
      intro hc
      rw [List.length_cons, List.range_succ_eq_map, List.map_cons, List.map_map]
      congr 1
      · have : (memBytes cfg t (c :: v)).take t.csize = hostBytes cfg t.csize c := by
          rw [memBytes, List.flatMap_cons, List.take_append_of_le_length (by simp), List.take_of_length_le (by simp)]
        simp only [Nat.zero_mul, List.drop_zero, this]
        exact hostValue_hostBytes cfg (hc c (by simp))
      · conv_rhs => rw [← ih (fun d hd => hc d (by simp [hd]))]
        apply List.map_congr_left
        intro i _
        have : (memBytes cfg t (c :: v)).drop ((i + 1) * t.csize) = (memBytes cfg t v).drop (i * t.csize) := by
          rw [Nat.succ_mul, Nat.add_comm, ← List.drop_drop, memBytes, List.flatMap_cons,
            List.drop_left' (by simp), memBytes]
        simp only [Function.comp, Nat.succ_eq_add_one, this]
  unfold memElem
  rw [← hl]
  exact main v hc

/-- Every memory block of the right size is the image of the element it reads as. -/
theorem memBytes_memElem {cfg : Cfg} {t : DType} {m : Bytes} (h : m.length = t.size) :
    memBytes cfg t (memElem cfg t m) = m := by
  have main : ∀ (n : Nat) (m : Bytes), m.length = n * t.csize →
      ((List.range n).map fun i => hostValue cfg ((m.drop (i * t.csize)).take t.csize)).flatMap
        (hostBytes cfg t.csize) = m := by
    intro n
    induction n with
    | zero => intro m hm; simp at hm; simp [hm]
    | succ n ih =>
      intro m hm
      rw [List.range_succ_eq_map, List.map_cons, List.map_map, List.flatMap_cons]
      have h1 : (m.take t.csize).length = t.csize := by
        rw [List.length_take, hm, Nat.succ_mul]; omega
      have e1 : hostBytes cfg t.csize (hostValue cfg ((m.drop (0 * t.csize)).take t.csize)) = m.take t.csize := by
        have := hostBytes_hostValue cfg (m.take t.csize)
        rw [h1] at this
        simpa using this
      have e2 := ih (m.drop t.csize) (by rw [List.length_drop, hm, Nat.succ_mul]; omega)
      rw [e1]
      conv_rhs => rw [← List.take_append_drop t.csize m, ← e2]
      congr 2
      apply List.map_congr_left
      intro i _
      simp only [Function.comp, Nat.succ_eq_add_one, List.drop_drop]
      rw [Nat.succ_mul, Nat.add_comm]
  exact main t.comps m h

theorem memElem_valid (cfg : Cfg) (t : DType) (m : Bytes) : ValidElem t (memElem cfg t m) := by
  constructor
  · simp [memElem]
  · intro c hc
    simp only [memElem, List.mem_map, List.mem_range] at hc
    obtain ⟨i, hi, rfl⟩ := hc
    refine Nat.lt_of_lt_of_le (hostValue_lt _ _) (Nat.pow_le_pow_right (by omega) ?_)
    simp only [List.length_take]
    omega

theorem chunks_flatMap {β : Type} (k : Nat) (f : β → Bytes) (l : List β) (h : ∀ x ∈ l, (f x).length = k)
    (r : Bytes) : chunks k l.length (l.flatMap f ++ r) = l.map f := by
  induction l with
  | nil => rfl
  | cons x l ih =>
    have hx := h x (by simp)
    rw [List.length_cons, chunks, List.flatMap_cons, List.append_assoc, List.take_left' hx, List.drop_left' hx,
      ih (fun y hy => h y (by simp [hy])), List.map_cons]

theorem flatMap_length {β : Type} (k : Nat) (f : β → Bytes) (l : List β) (h : ∀ x ∈ l, (f x).length = k) :
    (l.flatMap f).length = l.length * k := by
  induction l with
  | nil => simp
  | cons x l ih =>
    rw [List.flatMap_cons, List.length_append, h x (by simp), ih (fun y hy => h y (by simp [hy])), List.length_cons,
      Nat.succ_mul, Nat.add_comm]

/-! ### The tables of the byte orders -/

theorem blockFactor_eq (t : DType) : t.blockFactor = t.size := by
  cases t <;> rfl

theorem putOrder_eq (t : DType) (h : t.oneByte = false) (hu : t ≠ .unicode) :
    t.putOrder = (List.range t.size).reverse := by
  cases t <;> first | rfl | (exact absurd rfl hu) | (exact absurd h (by decide))

theorem getOrder_eq (t : DType) (h : t.oneByte = false) (hu : t ≠ .unicode) :
    t.getOrder = (List.range t.size).reverse := by
  cases t <;> first | rfl | (exact absurd rfl hu) | (exact absurd h (by decide))

theorem range_map_getD (m : Bytes) : ((List.range m.length).map fun i => m.getD i 0) = m := by
  apply List.ext_getElem
  · simp
  · intro i h1 h2
    simp at h1
    simp [h1]

theorem put_reverse (m : Bytes) (n : Nat) (h : m.length = n) :
    ((List.range n).reverse.map fun i => m.getD i 0) = m.reverse := by
  subst h
  rw [List.map_reverse, range_map_getD]

/-- What `writeFixed` writes. -/
def fixedBytes (cfg : Cfg) (t : DType) (e : Endian) (v : Elem) : Bytes :=
  if t.oneByte ∨ e = .native ∨ e = nativeEndian cfg then memBytes cfg t v else (memBytes cfg t v).reverse

theorem fixedBytes_length {cfg : Cfg} {t : DType} {e : Endian} {v : Elem} (h : ValidElem t v) :
    (fixedBytes cfg t e v).length = t.size := by
  unfold fixedBytes
  split <;> simp [memBytes_length' h]

theorem writeFixed_ok {cfg : Cfg} {t : DType} (hu : t ≠ .unicode) (e : Endian) {vals : List Elem}
    (hv : ∀ v ∈ vals, ValidElem t v) {o : OStream} (ho : o.Healthy) :
    writeFixed cfg t e vals o = o.write (vals.flatMap (fixedBytes cfg t e)) := by
  unfold writeFixed
  split
  · rename_i hc
    have : fixedBytes cfg t e = memBytes cfg t := by
      funext v; simp only [fixedBytes]; rw [if_pos hc]
    rw [this, List.take_of_length_le]
    rw [flatMap_length t.size _ _ (fun v hx => memBytes_length' (hv v hx)), blockFactor_eq]
  · rename_i hc
    have h1 : t.oneByte = false := by
      simp only [not_or] at hc; simpa using hc.1
    have e1 : ∀ v ∈ vals, (t.putOrder.map fun i => (memBytes cfg t v).getD i 0) = fixedBytes cfg t e v := by
      intro v hx
      rw [putOrder_eq t h1 hu, put_reverse _ _ (memBytes_length' (hv v hx)), fixedBytes, if_neg hc]
    have e2 := OStream.foldl_write (fun v : Elem => t.putOrder.map fun i => (memBytes cfg t v).getD i 0) vals ho
    simp only [] at e2 ⊢
    rw [e2]
    congr 1
    rw [List.flatMap, List.flatMap, List.map_congr_left e1]

/-! ### Reading -/

theorem getcFF_cons {s : IStream} (h : s.good = true) (b : Byte) (r : Bytes) :
    getcFF (s.withRest (b :: r)) = (.ok b, s.withRest r) := by
  unfold getcFF
  rw [SM.bind_ok (IStream.getc_cons h b r)]
  rfl

theorem readSwapElem_ok {s : IStream} (h : s.good = true) (is : List Nat) (m a r : Bytes) (ha : a.length = is.length) :
    readSwapElem is m (s.withRest (a ++ r)) =
      (.ok ((is.zip a).foldl (fun m ib => m.set ib.1 ib.2) m), s.withRest r) := by
  induction is generalizing m a with
  | nil =>
    simp at ha
    subst ha
    rfl
  | cons i is ih =>
    match a, ha with
    | b :: a, ha =>
      rw [readSwapElem, List.cons_append, SM.bind_ok (getcFF_cons h b _), ih _ _ (by simpa using ha)]
      rfl

theorem set_reverse (n : Nat) (m a : Bytes) (ha : a.length = n) (hm : n ≤ m.length) :
    (((List.range n).reverse.zip a).foldl (fun m ib => m.set ib.1 ib.2) m) = a.reverse ++ m.drop n := by
  induction n generalizing m a with
  | zero => simp at ha; subst ha; simp
  | succ n ih =>
    match a, ha with
    | b :: a, ha =>
      rw [List.range_succ, List.reverse_append, List.reverse_singleton, List.singleton_append, List.zip_cons_cons,
        List.foldl_cons, ih _ _ (by simpa using ha) (by simp; omega), List.reverse_cons, List.append_assoc]
      congr 1
      have hn : n < m.length := by omega
      rw [List.drop_eq_getElem_cons (by simpa using hn), List.getElem_set_self, List.drop_set_of_lt (by omega)]
      rfl

end Npy
