import Verif.Model.Throwing
import Verif.Proofs.Values
/-!
# Streams that throw: proofs
-/

namespace Npy

/-! ### Input: the throwing form follows the silent one until failbit is set -/

/-- `y` is `x` on a stream that throws. -/
structure Raises {α : Type} (x y : IM α) : Prop where
  stuck : ∀ s, s.fail = true → (x s).2.fail = true
  same : ∀ s, s.fail = false → (x s).2.fail = false → y s = x s
  raise : ∀ s, s.fail = false → (x s).2.fail = true → (y s).1 = .error ioFailure

theorem Raises.pure {α : Type} (a : α) : Raises (Pure.pure a : IM α) (Pure.pure a) :=
  ⟨fun _ h => h, fun _ _ _ => rfl, fun s h h' => by simp [h] at h'⟩

theorem Raises.fail {α : Type} (e : Err) : Raises (SM.fail e : IM α) (SM.fail e) :=
  ⟨fun _ h => h, fun _ _ _ => rfl, fun s h h' => by simp [h] at h'⟩

theorem Raises.lift {α : Type} (x : Except Err α) : Raises (SM.lift x : IM α) (SM.lift x) :=
  ⟨fun _ h => h, fun _ _ _ => rfl, fun s h h' => by simp [h] at h'⟩

theorem Raises.bind {α β : Type} {x y : IM α} {f g : α → IM β} (h : Raises x y) (hf : ∀ a, Raises (f a) (g a)) :
    Raises (x >>= f) (y >>= g) := by
  constructor
  · intro s hs
    have h1 := h.stuck s hs
    match hx : x s with
    | (.ok a, s') => rw [hx] at h1; rw [SM.bind_ok hx]; exact (hf a).stuck s' h1
    | (.error e, s') => rw [hx] at h1; rw [SM.bind_error hx]; exact h1
  · intro s hs h2
    match hx : x s with
    | (.ok a, s') =>
      rw [SM.bind_ok hx] at h2 ⊢
      have hs' : s'.fail = false := by
        cases hc : s'.fail with
        | false => rfl
        | true => rw [(hf a).stuck s' hc] at h2; exact h2
      rw [SM.bind_ok ((h.same s hs (by rw [hx]; exact hs')).trans hx)]
      exact (hf a).same s' hs' h2
    | (.error e, s') =>
      rw [SM.bind_error hx] at h2 ⊢
      rw [SM.bind_error ((h.same s hs (by rw [hx]; exact h2)).trans hx)]
  · intro s hs h2
    cases hc : (x s).2.fail with
    | true =>
      have h3 := h.raise s hs hc
      match hy : y s with
      | (.ok a, s') => rw [hy] at h3; simp at h3
      | (.error e, s') =>
        rw [hy] at h3
        rw [SM.bind_error hy]
        simp only [Except.error.injEq] at h3 ⊢
        exact h3
    | false =>
      have h3 := h.same s hs hc
      match hx : x s with
      | (.ok a, s') =>
        rw [SM.bind_ok hx] at h2
        rw [SM.bind_ok (h3.trans hx)]
        rw [hx] at hc
        exact (hf a).raise s' hc h2
      | (.error e, s') =>
        rw [SM.bind_error hx] at h2
        rw [hx] at hc
        simp only [] at h2 hc
        rw [hc] at h2
        cases h2

/-- A call on the stream. -/
theorem Raises.raising {α : Type} {x : IM α} (hok : ∀ s, ∃ a, (x s).1 = .ok a) (hst : ∀ s, s.fail = true → (x s).2.fail = true) :
    Raises x (raising x) := by
  refine ⟨hst, fun s _ h2 => ?_, fun s _ h2 => ?_⟩
  · obtain ⟨a, ha⟩ := hok s
    unfold Npy.raising
    match hx : x s with
    | (.ok a, s') => rw [hx] at h2; simp only [hx]; rw [if_neg (by simp_all)]
    | (.error e, s') => rw [hx] at ha; simp at ha
  · obtain ⟨a, ha⟩ := hok s
    unfold Npy.raising
    match hx : x s with
    | (.ok a, s') => rw [hx] at h2; simp only [hx]; rw [if_pos (by simp_all)]
    | (.error e, s') => rw [hx] at ha; simp at ha

theorem good_of_fail {s : IStream} (h : s.fail = true) : s.good = false := by simp [IStream.good, h]

theorem raises_read (n : Nat) : Raises (IStream.read n) (readX n) := by
  refine Raises.raising (fun s => ?_) (fun s h => ?_)
  · unfold IStream.read
    simp only []
    split
    · split <;> exact ⟨_, rfl⟩
    · exact ⟨_, rfl⟩
  · unfold IStream.read
    simp [good_of_fail h, IStream.setFail]

theorem getcFF_run (s : IStream) : getcFF s = if s.good then
    match s.rest with
    | [] => (.ok 0xFF, s.setEofFail)
    | b :: r => (.ok b, { s with rest := r })
  else (.ok 0xFF, s.setFail) := by
  unfold getcFF
  rw [SM.bind_apply]
  unfold IStream.getc
  simp only []
  by_cases hg : s.good = true
  · rw [if_pos hg, if_pos hg]
    match s.rest with
    | [] => rfl
    | b :: r => rfl
  · rw [if_neg hg, if_neg hg]
    rfl

theorem raises_getc : Raises getcFF getcX := by
  refine Raises.raising (fun s => ?_) (fun s h => ?_)
  · rw [getcFF_run]
    split
    · split <;> exact ⟨_, rfl⟩
    · exact ⟨_, rfl⟩
  · rw [getcFF_run, good_of_fail h]
    rfl

theorem raises_dictionary (n : Nat) : Raises (readDictionary n) (readDictionaryX n) := by
  unfold readDictionary readDictionaryX
  split
  · exact Raises.fail _
  · exact (raises_read n).bind fun bs => Raises.pure _

theorem raises_header (cfg : Cfg) : Raises (readNpyHeader cfg) (readNpyHeaderX cfg) := by
  unfold readNpyHeader readNpyHeaderX
  refine (raises_read _).bind fun header => ?_
  split
  · dsimp only
    split
    · exact Raises.fail _
    · split
      · exact (raises_dictionary _).bind fun d => Raises.lift _
      · split
        · refine (raises_read 2).bind fun extra => ?_
          split
          · exact (raises_dictionary _).bind fun d => Raises.lift _
          · rename_i hne
            split
            · exact absurd rfl (hne _ _)
            · exact Raises.fail _
        · exact (raises_dictionary _).bind fun d => Raises.lift _
  · rename_i hne
    split
    · rename_i hc
      split
      · exact absurd rfl (hne _ _ _ _ _ _ _ _ _ _)
      · rw [if_pos hc]; exact Raises.fail _
    · rename_i hc
      split
      · exact absurd rfl (hne _ _ _ _ _ _ _ _ _ _)
      · rw [if_neg hc]; exact Raises.fail _

theorem raises_swapElem : ∀ (is : List Nat) (m : Bytes), Raises (readSwapElem is m) (readSwapElemX is m)
  | [], m => Raises.pure m
  | i :: is, m => raises_getc.bind fun c => raises_swapElem is (m.set i c)

theorem raises_swapped (t : DType) : ∀ n, Raises (readSwapped t n) (readSwappedX t n)
  | 0 => Raises.pure _
  | n + 1 => (raises_swapElem _ _).bind fun _ => (raises_swapped t n).bind fun _ => Raises.pure _

theorem raises_fixed (cfg : Cfg) (t : DType) (info : HeaderInfo) (n : Nat) :
    Raises (readFixed cfg t info n) (readFixedX cfg t info n) := by
  unfold readFixed readFixedX
  simp only []
  split
  · exact (raises_read _).bind fun _ => Raises.pure _
  · match info.endianness with
    | none => exact Raises.fail _
    | some e =>
      dsimp only
      split
      · exact (raises_read _).bind fun _ => Raises.pure _
      · exact (raises_swapped t n).bind fun _ => Raises.pure _

theorem raises_units (cfg : Cfg) (e : Endian) : ∀ n acc, Raises (readUnits cfg e n acc) (readUnitsX cfg e n acc)
  | 0, acc => Raises.pure acc
  | n + 1, acc => by
    rw [readUnits, readUnitsX]
    refine (raises_swapElem _ _).bind fun m => ?_
    dsimp only
    split
    · exact raises_units cfg e n _
    · exact raises_units cfg e n _

theorem raises_wideLoop (cfg : Cfg) (e : Endian) (len : Nat) : ∀ n, Raises (readWideLoop cfg e len n) (readWideLoopX cfg e len n)
  | 0 => Raises.pure _
  | n + 1 => (raises_units cfg e len []).bind fun _ => (raises_wideLoop cfg e len n).bind fun _ => Raises.pure _

theorem raises_wide (cfg : Cfg) (info : HeaderInfo) (n : Nat) : Raises (readWide cfg info n) (readWideX cfg info n) := by
  unfold readWide readWideX
  split
  · exact Raises.pure _
  · match info.maxElementLength with
    | none => exact Raises.fail _
    | some len =>
      dsimp only
      split
      · exact Raises.pure _
      · match info.endianness with
        | none => exact Raises.fail _
        | some e => exact raises_wideLoop _ _ _ _

theorem StdOps.raises {α : Type} {ops : ElemOpsX α} (h : StdOps ops) (cfg : Cfg) (info : HeaderInfo) (n : Nat) :
    Raises (ops.read cfg info n) (ops.readX cfg info n) := by
  cases h with
  | fixed t => exact raises_fixed cfg t info n
  | wide => exact raises_wide cfg info n

theorem raises_load {α : Type} {ops : ElemOpsX α} (h : StdOps ops) (cfg : Cfg) :
    Raises (load cfg ops.toElemOps) (loadX cfg ops) := by
  unfold load loadX
  refine (raises_header cfg).bind fun info => ?_
  unfold Tensor.load tensorLoadX
  match info.fortranOrder with
  | none => exact Raises.fail _
  | some f =>
    refine (Raises.lift _).bind fun result => ?_
    match info.dtype with
    | none => exact Raises.fail _
    | some t =>
      dsimp only
      split
      · exact Raises.fail _
      · exact (h.raises cfg info _).bind fun _ => Raises.pure _

/-! ### Input: cutting the data short -/

/-- On data that end after `a`, `y` throws, or does what it does when more data follow. -/
def CutRaises {α : Type} (y : IM α) : Prop := ∀ (s : IStream) (z a b : Bytes), s.good = true → s.rest = a ++ b →
  (y { s with all := z, rest := a }).1 = .error ioFailure ∨
  ((y { s with all := z, rest := a }).1 = (y s).1 ∧ (y { s with all := z, rest := a }).2.good = true ∧
    (y s).2 = { (y { s with all := z, rest := a }).2 with
      all := s.all, rest := (y { s with all := z, rest := a }).2.rest ++ b })

theorem CutRaises.pure {α : Type} (a : α) : CutRaises (Pure.pure a : IM α) := by
  intro s z a' b hs hr
  refine .inr ⟨rfl, hs, ?_⟩
  cases s
  simp_all

theorem CutRaises.fail {α : Type} (e : Err) : CutRaises (SM.fail e : IM α) := by
  intro s z a' b hs hr
  refine .inr ⟨rfl, hs, ?_⟩
  cases s
  simp_all

theorem CutRaises.lift {α : Type} (x : Except Err α) : CutRaises (SM.lift x : IM α) := by
  intro s z a' b hs hr
  refine .inr ⟨rfl, hs, ?_⟩
  cases s
  simp_all

theorem CutRaises.bind {α β : Type} {y : IM α} {g : α → IM β} (h : CutRaises y) (hg : ∀ a, CutRaises (g a)) :
    CutRaises (y >>= g) := by
  intro s z a b hs hr
  rcases h s z a b hs hr with h1 | ⟨h1, h2, h3⟩
  · left
    match hy : y { s with all := z, rest := a } with
    | (.ok v, s') => rw [hy] at h1; simp at h1
    | (.error e, s') =>
      rw [hy] at h1
      rw [SM.bind_error hy]
      simp only [Except.error.injEq] at h1 ⊢
      exact h1
  · match hy : y { s with all := z, rest := a }, hx : y s with
    | (.ok v, s'), (r, t) =>
      rw [hy, hx] at h1 h3
      rw [hy] at h2
      simp only [] at h1 h2 h3
      subst h1
      rw [SM.bind_ok hy, SM.bind_ok hx]
      have h4 := hg v t s'.all s'.rest b (by rw [h3]; exact h2) (by rw [h3])
      have e1 : ({ t with all := s'.all, rest := s'.rest } : IStream) = s' := by rw [h3]
      rw [e1] at h4
      have e2 : t.all = s.all := by rw [h3]
      rw [e2] at h4
      exact h4
    | (.error e, s'), (r, t) =>
      rw [hy, hx] at h1 h3
      rw [hy] at h2
      simp only [] at h1 h2 h3
      subst h1
      rw [SM.bind_error hy, SM.bind_error hx]
      exact .inr ⟨rfl, h2, h3⟩

theorem cut_read (n : Nat) : CutRaises (readX n) := by
  intro s z a b hs hr
  have hg : ({ s with all := z, rest := a } : IStream).good = true := hs
  have hf : s.fail = false := by
    cases h : s.fail with
    | false => rfl
    | true => rw [good_of_fail h] at hs; cases hs
  unfold readX raising IStream.read
  simp only [hg, hs, if_true]
  by_cases h : n ≤ a.length
  · right
    have h' : n ≤ s.rest.length := by rw [hr, List.length_append]; omega
    simp only [if_pos h, if_pos h', hf, Bool.false_eq_true, if_false]
    refine ⟨by rw [hr, List.take_append_of_le_length h], by simpa [IStream.good, hf] using hs, ?_⟩
    rw [hr, List.drop_append_of_le_length h]
  · left
    simp only [if_neg h, if_true]

theorem cut_getc : CutRaises getcX := by
  intro s z a b hs hr
  have hg : ({ s with all := z, rest := a } : IStream).good = true := hs
  have hf : s.fail = false := by
    cases h : s.fail with
    | false => rfl
    | true => rw [good_of_fail h] at hs; cases hs
  unfold getcX raising
  simp only [getcFF_run, hg, hs, if_true]
  match a with
  | [] =>
    left
    simp [IStream.setEofFail]
  | c :: r =>
    right
    simp only [hr, List.cons_append, hf, Bool.false_eq_true, if_false]
    exact ⟨trivial, by simpa [IStream.good, hf] using hs, trivial⟩

theorem cut_dictionary (n : Nat) : CutRaises (readDictionaryX n) := by
  unfold readDictionaryX
  split
  · exact CutRaises.fail _
  · exact (cut_read n).bind fun bs => CutRaises.pure _

theorem cut_header (cfg : Cfg) : CutRaises (readNpyHeaderX cfg) := by
  unfold readNpyHeaderX
  refine (cut_read _).bind fun header => ?_
  split
  · split
    · exact CutRaises.fail _
    · split
      · exact (cut_dictionary _).bind fun d => CutRaises.lift _
      · split
        · refine (cut_read 2).bind fun extra => ?_
          split
          · exact (cut_dictionary _).bind fun d => CutRaises.lift _
          · exact CutRaises.fail _
        · exact (cut_dictionary _).bind fun d => CutRaises.lift _
  · split <;> exact CutRaises.fail _

theorem cut_swapElem : ∀ (is : List Nat) (m : Bytes), CutRaises (readSwapElemX is m)
  | [], m => CutRaises.pure m
  | i :: is, m => cut_getc.bind fun c => cut_swapElem is (m.set i c)

theorem cut_swapped (t : DType) : ∀ n, CutRaises (readSwappedX t n)
  | 0 => CutRaises.pure _
  | n + 1 => (cut_swapElem _ _).bind fun _ => (cut_swapped t n).bind fun _ => CutRaises.pure _

theorem cut_fixed (cfg : Cfg) (t : DType) (info : HeaderInfo) (n : Nat) : CutRaises (readFixedX cfg t info n) := by
  unfold readFixedX
  simp only []
  split
  · exact (cut_read _).bind fun _ => CutRaises.pure _
  · split
    · exact CutRaises.fail _
    · split
      · exact (cut_read _).bind fun _ => CutRaises.pure _
      · exact (cut_swapped t n).bind fun _ => CutRaises.pure _

theorem cut_units (cfg : Cfg) (e : Endian) : ∀ n acc, CutRaises (readUnitsX cfg e n acc)
  | 0, acc => CutRaises.pure acc
  | n + 1, acc => by
    rw [readUnitsX]
    refine (cut_swapElem _ _).bind fun m => ?_
    dsimp only
    split
    · exact cut_units cfg e n _
    · exact cut_units cfg e n _

theorem cut_wideLoop (cfg : Cfg) (e : Endian) (len : Nat) : ∀ n, CutRaises (readWideLoopX cfg e len n)
  | 0 => CutRaises.pure _
  | n + 1 => (cut_units cfg e len []).bind fun _ => (cut_wideLoop cfg e len n).bind fun _ => CutRaises.pure _

theorem cut_wide (cfg : Cfg) (info : HeaderInfo) (n : Nat) : CutRaises (readWideX cfg info n) := by
  unfold readWideX
  split
  · exact CutRaises.pure _
  · split
    · exact CutRaises.fail _
    · split
      · exact CutRaises.pure _
      · split
        · exact CutRaises.fail _
        · exact cut_wideLoop _ _ _ _

theorem cut_load {α : Type} {ops : ElemOpsX α} (h : StdOps ops) (cfg : Cfg) : CutRaises (loadX cfg ops) := by
  unfold loadX
  refine (cut_header cfg).bind fun info => ?_
  unfold tensorLoadX
  split
  · exact CutRaises.fail _
  · refine (CutRaises.lift _).bind fun result => ?_
    split
    · exact CutRaises.fail _
    · split
      · exact CutRaises.fail _
      · refine CutRaises.bind ?_ fun _ => CutRaises.pure _
        cases h with
        | fixed t => exact cut_fixed cfg t info _
        | wide => exact cut_wide cfg info _

/-! ### Output -/

/-- Nothing has gone wrong yet. -/
structure BufOut.Good (b : BufOut) : Prop where
  bad : b.dev.bad = false
  isOpen : b.dev.isOpen = true
  fits : ∀ c, b.dev.cap = some c → b.dev.buf.length ≤ c

/-- `y` hands the bytes `w` to the stream, or throws because the device does not take all that was handed over. -/
def Gives (y : XM Unit) (w : Bytes) : Prop := ∀ b : BufOut, b.Good →
  (∃ b', y b = (.ok (), b') ∧ b'.Good ∧ b'.dev.cap = b.dev.cap ∧ b'.dev.buf ++ b'.pend = b.dev.buf ++ b.pend ++ w) ∨
  ∃ c b', y b = (.error ioFailure, b') ∧ b.dev.cap = some c ∧ c < (b.dev.buf ++ b.pend ++ w).length ∧
    b'.dev.buf = (b.dev.buf ++ b.pend ++ w).take c

theorem send_cases (k : Nat) (b : BufOut) (hb : b.Good) :
    (∃ b', BufOut.send k b = (.ok (), b') ∧ b'.Good ∧ b'.dev.cap = b.dev.cap ∧ b'.dev.buf ++ b'.pend = b.dev.buf ++ b.pend ∧
      b'.pend = b.pend.drop (b.pend.length - k)) ∨
    ∃ c b', BufOut.send k b = (.error ioFailure, b') ∧ b.dev.cap = some c ∧ c < (b.dev.buf ++ b.pend).length ∧
      b'.dev.buf = (b.dev.buf ++ b.pend).take c := by
  obtain ⟨h1, h2, h3⟩ := hb
  unfold BufOut.send OStream.write
  simp only [h1, h2, Bool.not_true, Bool.or_self, Bool.false_eq_true, if_false]
  match hc : b.dev.cap with
  | none =>
    left
    refine ⟨_, if_neg (by simp), ⟨rfl, rfl, fun c h => by cases h⟩, rfl, ?_, rfl⟩
    simp [List.append_assoc, List.take_append_drop]
  | some c =>
    by_cases hl : b.dev.buf.length + (b.pend.take (b.pend.length - k)).length ≤ c
    · left
      simp only [if_pos hl]
      refine ⟨_, if_neg (by simp), ⟨rfl, rfl, fun c' h => ?_⟩, rfl, ?_, rfl⟩
      · cases h
        simp only [List.length_append]
        exact hl
      · simp [List.append_assoc, List.take_append_drop]
    · right
      simp only [if_neg hl, if_true]
      refine ⟨c, _, rfl, rfl, ?_, ?_⟩
      · rw [List.length_append]
        have : (b.pend.take (b.pend.length - k)).length ≤ b.pend.length := by rw [List.length_take]; omega
        omega
      · simp only []
        have := h3 c hc
        conv_rhs => rw [← List.take_append_drop (b.pend.length - k) b.pend, ← List.append_assoc]
        rw [List.take_append_of_le_length (l₁ := b.dev.buf ++ _) (by rw [List.length_append]; omega)]

theorem gives_write (bs : Bytes) : Gives (writeX bs) bs := by
  intro b hb
  unfold writeX
  have h := send_cases (b.keep b.calls) { b with pend := b.pend ++ bs, calls := b.calls + 1 } ⟨hb.bad, hb.isOpen, hb.fits⟩
  rcases h with ⟨b', h1, h2, h3, h4, -⟩ | ⟨c, b', h1, h2, h3, h4⟩
  · exact .inl ⟨b', h1, h2, h3, by rw [h4, List.append_assoc]⟩
  · exact .inr ⟨c, b', h1, h2, by rw [List.append_assoc]; exact h3, by rw [List.append_assoc]; exact h4⟩

theorem Gives.pure : Gives (Pure.pure ()) [] := fun b hb => .inl ⟨b, rfl, hb, rfl, by simp⟩

theorem Gives.bind {y z : XM Unit} {v w : Bytes} (h : Gives y v) (hz : Gives z w) : Gives (y >>= fun _ => z) (v ++ w) := by
  intro b hb
  rcases h b hb with ⟨b', h1, h2, h3, h4⟩ | ⟨c, b', h1, h2, h3, h4⟩
  · rw [SM.bind_ok h1]
    rcases hz b' h2 with ⟨b2, g1, g2, g3, g4⟩ | ⟨c, b2, g1, g2, g3, g4⟩
    · exact .inl ⟨b2, g1, g2, g3.trans h3, by rw [g4, h4]; simp⟩
    · rw [h4] at g3 g4
      exact .inr ⟨c, b2, g1, h3 ▸ g2, by simpa using g3, by rw [g4]; simp⟩
  · rw [SM.bind_error h1]
    refine .inr ⟨c, b', rfl, h2, ?_, ?_⟩
    · rw [← List.append_assoc, List.length_append]; omega
    · rw [h4, ← List.append_assoc, List.take_append_of_le_length (l₁ := _ ++ v) (by omega)]

theorem gives_puts : ∀ bs, Gives (putsX bs) bs
  | [] => Gives.pure
  | c :: r => (gives_write [c]).bind (gives_puts r)

theorem gives_each {α : Type} {f : α → XM Unit} {w : α → Bytes} (h : ∀ a, Gives (f a) (w a)) : ∀ l, Gives (eachX f l) (l.flatMap w)
  | [] => Gives.pure
  | v :: vs => by
    rw [List.flatMap_cons]
    exact (h v).bind (gives_each h vs)

/-- `f` writes to a healthy stream what `y` hands to a throwing one. -/
def Emits (f : OStream → OStream) (y : XM Unit) : Prop := ∃ w, (∀ o : OStream, o.Healthy → f o = o.write w) ∧ Gives y w

theorem write_write {o : OStream} (h : o.Healthy) (v w : Bytes) : (o.write v).write w = o.write (v ++ w) := by
  rw [OStream.write_healthy (h.write _), OStream.write_healthy h, OStream.write_healthy h]
  simp

theorem foldl_emit {α : Type} {f : OStream → α → OStream} {w : α → Bytes} (h : ∀ (o : OStream), o.Healthy → ∀ a, f o a = o.write (w a)) :
    ∀ (l : List α) (o : OStream), o.Healthy → l.foldl f o = o.write (l.flatMap w)
  | [], o, ho => by rw [OStream.write_healthy ho]; simp
  | a :: l, o, ho => by
    rw [List.foldl_cons, h o ho a, foldl_emit h l _ (ho.write _), write_write ho, List.flatMap_cons]

theorem emits_header (d : Bytes) (f : Bool) (ns : List Nat) : Emits (fun o => writeNpyHeader o d f ns) (writeNpyHeaderX d f ns) := by
  refine ⟨_, fun o ho => ?_, (gives_write _).bind ((gives_write _).bind (gives_write _))⟩
  unfold writeNpyHeader
  simp only []
  rw [write_write ho, write_write ho, List.append_assoc]

theorem emits_fixed (cfg : Cfg) (t : DType) (e : Endian) (vals : List Elem) :
    Emits (fun o => writeFixed cfg t e vals o) (writeFixedX cfg t e vals) := by
  unfold writeFixed writeFixedX
  split
  · exact ⟨_, fun o _ => rfl, gives_write _⟩
  · exact ⟨_, fun o ho => foldl_emit (fun o _ v => rfl) vals o ho, gives_each (fun v => gives_puts _) vals⟩

theorem emits_wide (cfg : Cfg) (e : Endian) (vals : List WStr) :
    Emits (fun o => writeWide cfg e vals o) (writeWideX cfg e vals) := by
  unfold writeWide writeWideX
  refine ⟨vals.flatMap fun v => v.flatMap (writeUnit cfg e) ++ (List.range (maxLength vals - v.length)).flatMap fun _ => [0, 0, 0, 0],
    fun o ho => foldl_emit (fun o ho v => ?_) vals o ho, gives_each (fun v => ?_) vals⟩
  · simp only []
    rw [foldl_emit (w := writeUnit cfg e) (fun o _ c => rfl) v o ho,
      foldl_emit (w := fun _ => [0, 0, 0, 0]) (fun o _ c => rfl) _ _ (ho.write _), write_write ho]
  · exact (gives_each (fun c => gives_puts _) v).bind (gives_each (fun _ => gives_puts _) _)

theorem StdOps.emits {α : Type} {ops : ElemOpsX α} (h : StdOps ops) (cfg : Cfg) (e : Endian) (vals : List α) :
    Emits (fun o => ops.write cfg e vals o) (ops.writeX cfg e vals) := by
  cases h with
  | fixed t => exact emits_fixed cfg t e vals
  | wide => exact emits_wide cfg e vals

/-- `save` and a flush: all or an exception. -/
theorem saveFlush_cases {α : Type} {ops : ElemOpsX α} (h : StdOps ops) (cfg : Cfg) (x : Tensor α) (e : Endian) (dev : OStream)
    (keep : Nat → Nat) (hd : dev.buf = [] ∧ dev.bad = false ∧ dev.isOpen = true) :
    match save cfg ops.toElemOps x e OStream.empty with
    | .error err => saveFlushX cfg ops x e ⟨dev, [], 0, keep⟩ = (.error err, ⟨dev, [], 0, keep⟩)
    | .ok o =>
      (∃ b', saveFlushX cfg ops x e ⟨dev, [], 0, keep⟩ = (.ok (), b') ∧ b'.dev.buf = o.buf ∧
        ∀ c, dev.cap = some c → o.buf.length ≤ c) ∨
      ∃ c b', saveFlushX cfg ops x e ⟨dev, [], 0, keep⟩ = (.error ioFailure, b') ∧ dev.cap = some c ∧ c < o.buf.length ∧
        b'.dev.buf = o.buf.take c := by
  unfold save saveFlushX saveX
  match ops.dtypeStr cfg e x.values with
  | .error err => rfl
  | .ok d =>
    simp only []
    obtain ⟨v, hv1, hv2⟩ := emits_header d x.fortranOrder x.shape
    obtain ⟨w, hw1, hw2⟩ := h.emits cfg e x.values
    simp only [] at hv1 hw1
    have he : OStream.empty.Healthy := ⟨rfl, rfl, rfl⟩
    rw [hv1 _ he, hw1 _ (he.write _), write_write he, OStream.write_healthy he]
    simp only [OStream.empty, List.nil_append]
    have hb : BufOut.Good ⟨dev, [], 0, keep⟩ := ⟨hd.2.1, hd.2.2, fun c _ => by simp [hd.1]⟩
    rcases (hv2.bind hw2) _ hb with ⟨b', h1, h2, h3, h4⟩ | ⟨c, b', h1, h2, h3, h4⟩
    · rw [SM.bind_ok h1]
      simp only [hd.1, List.nil_append] at h4 h3
      unfold flushX
      rcases send_cases 0 b' h2 with ⟨b2, g1, g2, g3, g4, g5⟩ | ⟨c, b2, g1, g2, g3, g4⟩
      · left
        refine ⟨b2, g1, ?_, fun c hc => ?_⟩
        · rw [g5] at g4
          simp only [Nat.sub_zero, List.drop_length, List.append_nil] at g4
          rw [g4, h4]
        · rw [g5] at g4
          simp only [Nat.sub_zero, List.drop_length, List.append_nil] at g4
          rw [← h4, ← g4]
          exact g2.fits c ((g3.trans h3).trans hc)
      · right
        rw [h4] at g3 g4
        exact ⟨c, b2, g1, h3 ▸ g2, g3, g4⟩
    · right
      rw [SM.bind_error h1]
      simp only [hd.1, List.nil_append] at h3 h4
      exact ⟨c, b', rfl, h2, h3, h4⟩

end Npy
