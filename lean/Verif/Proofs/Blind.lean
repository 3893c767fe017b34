import Verif.Proofs.Parse
import Verif.Model.Tensor
/-!
# Loading does not look back

`load` never seeks, so what was in the stream before the current position does not matter.
-/

namespace Npy

/-- The same stream over another buffer, of another kind, at the same rest. -/
def IStream.over (s : IStream) (a : Bytes) (k : Bool := s.isFile) : IStream := { s with all := a, isFile := k }

/-- `m` does not use the whole buffer, and does not care whether it is a file. -/
def Blind {α : Type} (m : IM α) : Prop := ∀ s a k, m (s.over a k) = ((m s).1, (m s).2.over a k)

theorem Blind.bind {α β : Type} {x : IM α} {f : α → IM β} (hx : Blind x) (hf : ∀ a, Blind (f a)) : Blind (x >>= f) := by
  intro s a k
  rw [SM.bind_apply, SM.bind_apply, hx s a k]
  match x s with
  | (.ok v, s') => exact hf v s' a k
  | (.error e, s') => rfl

theorem Blind.pure {α : Type} (a : α) : Blind (Pure.pure a : IM α) := fun _ _ _ => rfl
theorem Blind.fail {α : Type} (e : Err) : Blind (SM.fail e : IM α) := fun _ _ _ => rfl
theorem Blind.lift {α : Type} (x : Except Err α) : Blind (SM.lift x : IM α) := fun _ _ _ => rfl
theorem Blind.ite {α : Type} {c : Prop} [Decidable c] {x y : IM α} (hx : Blind x) (hy : Blind y) :
    Blind (if c then x else y) := by split <;> assumption

theorem blind_getc : Blind IStream.getc := by
  intro s a k
  obtain ⟨al, re, eo, fa, op, fi⟩ := s
  cases eo <;> cases fa <;> cases re <;> rfl

theorem blind_peek : Blind IStream.peek := by
  intro s a k
  obtain ⟨al, re, eo, fa, op, fi⟩ := s
  cases eo <;> cases fa <;> cases re <;> rfl

theorem blind_read (n : Nat) : Blind (IStream.read n) := by
  intro s a k
  obtain ⟨al, re, eo, fa, op, fi⟩ := s
  simp only [IStream.read, IStream.over, IStream.good, IStream.setFail]
  cases eo <;> cases fa <;> simp <;> split <;> rfl

theorem blind_readDictionary (n : Nat) : Blind (readDictionary n) := by
  unfold readDictionary
  exact .ite (.fail _) ((blind_read _).bind fun _ => .pure _)

theorem blind_readNpyHeader (cfg : Cfg) : Blind (readNpyHeader cfg) := by
  unfold readNpyHeader
  refine (blind_read _).bind fun header => ?_
  split
  · refine .ite (.fail _) (.ite ?_ (.ite ?_ ?_))
    · exact (blind_readDictionary _).bind fun _ => .lift _
    · refine (blind_read _).bind fun e => ?_
      split
      · exact (blind_readDictionary _).bind fun _ => .lift _
      · exact .fail _
    · exact (blind_readDictionary _).bind fun _ => .lift _
  · exact .ite (.fail _) (.fail _)

theorem blind_getcFF : Blind getcFF := by
  unfold getcFF
  refine blind_getc.bind fun a => ?_
  cases a <;> exact .pure _

theorem blind_readSwapElem (is : List Nat) (m : Bytes) : Blind (readSwapElem is m) := by
  induction is generalizing m with
  | nil => exact .pure _
  | cons i is ih => exact blind_getcFF.bind fun c => ih _

theorem blind_readSwapped (t : DType) (n : Nat) : Blind (readSwapped t n) := by
  induction n with
  | zero => exact .pure _
  | succ n ih => exact (blind_readSwapElem _ _).bind fun _ => ih.bind fun _ => .pure _

theorem blind_readFixed (cfg : Cfg) (t : DType) (info : HeaderInfo) (n : Nat) : Blind (readFixed cfg t info n) := by
  have block : Blind (do
    let bs ← IStream.read (n * t.blockFactor)
    let mem := bs ++ List.replicate (n * t.size - bs.length) 0
    pure ((chunks t.size n mem).map (memElem cfg t)) : IM (List Elem)) := (blind_read _).bind fun _ => .pure _
  unfold readFixed
  refine .ite block ?_
  split
  · exact .fail _
  · exact .ite block ((blind_readSwapped _ _).bind fun _ => .pure _)

theorem blind_readUnits (cfg : Cfg) (e : Endian) (n : Nat) (acc : WStr) : Blind (readUnits cfg e n acc) := by
  induction n generalizing acc with
  | zero => exact .pure _
  | succ n ih =>
    unfold readUnits
    exact (blind_readSwapElem _ _).bind fun _ => .ite (ih _) (ih _)

theorem blind_readWideLoop (cfg : Cfg) (e : Endian) (len n : Nat) : Blind (readWideLoop cfg e len n) := by
  induction n with
  | zero => exact .pure _
  | succ n ih => exact (blind_readUnits _ _ _ _).bind fun _ => ih.bind fun _ => .pure _

theorem blind_readWide (cfg : Cfg) (info : HeaderInfo) (n : Nat) : Blind (readWide cfg info n) := by
  unfold readWide
  refine .ite (.pure _) ?_
  split
  · exact .fail _
  · refine .ite (.pure _) ?_
    split
    · exact .fail _
    · exact blind_readWideLoop _ _ _ _

/-- The element types of the library. -/
inductive LibOps : {α : Type} → ElemOps α → Prop
  | fixed (t : DType) : t ≠ .unicode → LibOps (fixedOps t)
  | wide : LibOps wideOps

theorem LibOps.blind {α : Type} {ops : ElemOps α} (h : LibOps ops) (cfg : Cfg) (info : HeaderInfo) (n : Nat) :
    Blind (ops.read cfg info n) := by
  cases h with
  | fixed t => exact blind_readFixed cfg t info n
  | wide => exact blind_readWide cfg info n

theorem blind_tensorLoad {α : Type} (cfg : Cfg) {ops : ElemOps α} (ho : LibOps ops) (info : HeaderInfo) :
    Blind (Tensor.load cfg ops info) := by
  unfold Tensor.load
  split
  · exact .fail _
  · refine (Blind.lift _).bind fun r => ?_
    split
    · exact .fail _
    · exact .ite (.fail _) ((ho.blind cfg _ _).bind fun _ => .pure _)

theorem blind_load {α : Type} (cfg : Cfg) {ops : ElemOps α} (ho : LibOps ops) : Blind (load cfg ops) :=
  (blind_readNpyHeader cfg).bind fun info => blind_tensorLoad cfg ho info

end Npy
