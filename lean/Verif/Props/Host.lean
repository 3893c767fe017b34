import Lean.Elab.Tactic
import Verif.Props.Inflate
import Verif.Props.Deflate
import Verif.Props.Npz
/-!
# Compression on hosts of either byte order (C77)

miniz.h:197-199 define `MINIZ_USE_UNALIGNED_LOADS_AND_STORES`, `MINIZ_LITTLE_ENDIAN` and `MINIZ_HAS_64BIT_REGISTERS` as 1
on every host. The first argument of `npyInflate` and `npyDeflate` says whether the host is big-endian.
-/

namespace Npy
open Spec.Deflate

/-- Proves `a = b` by `rfl` and leaves the whole check of it to the kernel. -/
local elab "kernel_rfl" : tactic => do
  let g ← Lean.Elab.Tactic.getMainGoal
  let some (α, a, _) := (← g.getType).eq? | throwError "not an equation"
  g.assign (Lean.mkApp2 (Lean.mkConst ``Eq.refl [← Lean.Meta.getLevel α]) α a)

/-- **C77**, what does not depend on the host: a stream that consists of stored blocks only (what `Z_NO_COMPRESSION`
produces) is expanded to its data on every host, under the same condition on the size as in C55. -/
theorem C77_stored (big : Bool) (z out : Bytes) (blocks : List Block) (rest : List Bool) (h0 : blocks ≠ [])
    (hstored : ∀ b ∈ blocks, ∃ pad data, b = .stored pad data) (hok : StreamOk 0 blocks)
    (hz : Spec.bits z = streamBits blocks ++ rest) (he : expandBlocks [] blocks = some out) (hout : SafeSize out.length)
    (fuel : Nat) (hf : 8 * z.length + out.length + 2 ≤ fuel) : npyInflate big fuel z = .ok out := by
  have hh : ∀ blk ∈ blocks, HostFree big blk := fun b hb => .inr (hstored b hb)
  rcases hout with h1 | ⟨h1, h2⟩
  · rcases npyInflate_run' (T := 0) h0 hh hok hz he (Or.inl rfl) (Or.inr (h1.trans (by simp [CHUNK]))) hf with h | ⟨_, _, h⟩
    · exact h
    · omega
  · exact npyInflate_far' h0 hh hok hz he h2 (.inr h1) hf

/-- Two stored blocks, "hi" and "!", and three more bytes. -/
example (big : Bool) : npyInflate big 1000 [0, 2, 0, 0xFD, 0xFF, 104, 105, 1, 1, 0, 0xFE, 0xFF, 33, 7, 8, 9] = .ok [104, 105, 33] :=
  C77_stored big _ _ [.stored [false, false, false, false, false] [104, 105], .stored [false, false, false, false, false] [33]]
    (Spec.bits [7, 8, 9]) (by simp) (by simp) (by simp [StreamOk, Block.Ok]; decide) (by decide) (by decide) (by decide) _ (by decide)

/-- The compressed form of "aba": one fixed block with three literals. -/
theorem aba_inflates : InflatesExactly [75, 76, 74, 4, 0] [97, 98, 97] :=
  ⟨[.fixed [.lit 97, .lit 98, .lit 97]], List.replicate 6 false, by simp,
    ⟨by intro t ht; simp only [List.mem_cons, List.not_mem_nil, or_false] at ht; rcases ht with rfl | rfl | rfl <;> (show _ ≠ 0; decide), trivial⟩,
    by decide +kernel, by decide, by decide +kernel⟩

/-- **C77** is false of decompression: five bytes that stand for "aba" are expanded to "`" on big-endian hosts, with no
error. -/
theorem C77_false_inflate : ∃ z out out', InflatesExactly z out ∧ out' ≠ out ∧ z.length = 5 ∧
    (∀ fuel, 45 ≤ fuel → npyInflate false fuel z = .ok out) ∧ ∀ fuel, 10 ≤ fuel → npyInflate true fuel z = .ok out' := by
  refine ⟨[75, 76, 74, 4, 0], [97, 98, 97], [96], aba_inflates, by decide, rfl, fun fuel hf => ?_, fun fuel hf => ?_⟩
  · obtain ⟨b, r, h0, h1, h2, _, h3⟩ := aba_inflates
    exact C55_window _ _ ⟨b, r, h0, h1, h2, h3⟩ (by decide) fuel (by exact hf)
  · obtain ⟨F, rfl⟩ := Nat.exists_eq_add_of_le hf
    rw [Nat.add_comm]
    show npyInflate true (F + 10) [75, 76, 74, 4, 0] = .ok [96]
    kernel_rfl

/-- The memory of the compressor, full of zeros. -/
def zeroJunk : Junk := ⟨fun _ => 0, fun _ => 0, 0⟩

/-- **C77** is false of compression: on big-endian hosts, seven bytes "a" are compressed, in every build and with no error, to five bytes that are not the
compressed form of them: every conforming decoder rejects them, and so does the library itself on hosts of either kind. -/
theorem C77_false_deflate : ∃ (j : Junk) (data z : Bytes), data.length = 7 ∧
    (∀ dbg fuel, 20 ≤ fuel → npyDeflate true dbg j fuel data = .ok z) ∧ ¬Inflates z data ∧ Breaks z [] ∧
    ∀ big fuel, 50 ≤ fuel → npyInflate big fuel z = .error (.throw (.runtimeError .inflateError)) := by
  have hb : Breaks [0, 0, 0, 3, 0] [] := by
    refine ⟨[], Spec.bits [0, 0, 0, 3, 0], trivial, rfl, ?_, rfl⟩
    have := BadBlock.storedLength (pos := 0) false [false, false, false, false, false] 0 3 [] (by decide) (by decide) (by decide) (by decide)
      (by decide)
    have e : Spec.bits [0, 0, 0, 3, 0] = false :: lsb 2 0 ++ [false, false, false, false, false] ++ lsb 16 0 ++ lsb 16 3 ++ [] := by
      decide +kernel
    rw [e]
    exact this
  have hl : ∀ fuel, 42 ≤ fuel → npyInflate false fuel [0, 0, 0, 3, 0] = .error (.throw (.runtimeError .inflateError)) :=
    fun fuel hf => C63_rejected _ _ hb (.inl (by decide)) fuel (by exact hf)
  refine ⟨zeroJunk, [97, 97, 97, 97, 97, 97, 97], [0, 0, 0, 3, 0], rfl, fun dbg fuel hf => ?_, fun h => ?_, hb, fun big fuel hf => ?_⟩
  · obtain ⟨F, rfl⟩ := Nat.exists_eq_add_of_le hf
    rw [Nat.add_comm]
    cases dbg
    · show npyDeflate true false zeroJunk (F + 20) [97, 97, 97, 97, 97, 97, 97] = .ok [0, 0, 0, 3, 0]
      kernel_rfl
    · show npyDeflate true true zeroJunk (F + 20) [97, 97, 97, 97, 97, 97, 97] = .ok [0, 0, 0, 3, 0]
      kernel_rfl
  · have := C55_window _ _ h (by decide) 50 (by decide)
    rw [hl 50 (by decide)] at this
    simp at this
  · cases big
    · exact hl fuel (by omega)
    · obtain ⟨F, rfl⟩ := Nat.exists_eq_add_of_le hf
      rw [Nat.add_comm]
      show npyInflate true (F + 50) [0, 0, 0, 3, 0] = .error (.throw (.runtimeError .inflateError))
      kernel_rfl

/-- **C77** is false of archives: a debug build for a big-endian host is stopped by an assertion of the compressor when it puts a
2 × 3 tensor of `int16_t` into a compressed archive. -/
theorem C77_false_archive : ∃ (cfg : Cfg) (j : Junk) (t : Tensor Elem), Spec.TensorOk .int16 2 t ∧ cfg.nativeBig = true ∧ cfg.ndebug = false ∧
    ∀ n, 300 ≤ n →
      (Writer.write cfg (miniz cfg j n) (fixedOps .int16) b!"x" t (Writer.newString DEFLATED .native)).1 = .error .abort := by
  refine ⟨⟨true, false, false⟩, zeroJunk, exTensor, exTensor_ok, rfl, rfl, fun n hn => ?_⟩
  obtain ⟨F, rfl⟩ := Nat.exists_eq_add_of_le hn
  rw [Nat.add_comm]
  kernel_rfl

end Npy
