import Verif.Proofs.InflateStall
import Verif.Proofs.InflateLoss
import Verif.Proofs.InflateSample
import Verif.Proofs.InflateReject
/-!
# Properties of decompression (C51, C55, C56, C57, C63)

`npyInflate` is the model of `npy_inflate` with the bundled miniz (`Model/Inflate`), `Spec.Deflate` the grammar of
RFC 1951 (`Spec/Deflate`). The parameter `fuel` bounds the number of rounds of every loop of the model; the answer
`.error .diverge` says that it ran out.
-/

namespace Npy
open Spec.Deflate

/-! ### C55: streams that follow the standard -/

/-- **C55** for output that fits the 32 KiB window: every DEFLATE stream that follows RFC 1951 (stored, fixed and dynamic
blocks, in any number and of any size, from whatever compressor) is expanded to the bytes it stands for. -/
theorem C55_window (z out : Bytes) (h : Inflates z out) (hout : out.length ≤ 32768) (fuel : Nat)
    (hf : 8 * z.length + out.length + 2 ≤ fuel) : npyInflate false fuel z = .ok out := by
  obtain ⟨blocks, R, h0, hok, hz, he⟩ := h
  rcases npyInflate_run (T := 0) h0 hok hz he (Or.inl rfl) (Or.inr (hout.trans (by simp [CHUNK]))) hf with h | ⟨_, _, h⟩
  · exact h
  · omega

/-- **C55** beyond the window: output whose size is not one of the 8127 sizes behind a multiple of 32768 is expanded, as long as the
compressed or the expanded data are at most 1 MiB. (Exact multiples of 32768 are fine.) -/
theorem C55_most_sizes (z out : Bytes) (h : Inflates z out) (hout : 8127 ≤ (out.length - 1) % 32768)
    (hsize : z.length ≤ 1048576 ∨ out.length ≤ 1048576) (fuel : Nat) (hf : 8 * z.length + out.length + 2 ≤ fuel) :
    npyInflate false fuel z = .ok out := by
  obtain ⟨blocks, R, h0, hok, hz, he⟩ := h
  exact npyInflate_far h0 hok hz he hout hsize hf

/-- Both together. -/
theorem C55_safe (z out : Bytes) (h : Inflates z out) (hout : SafeSize out.length) (fuel : Nat)
    (hf : 8 * z.length + out.length + 2 ≤ fuel) : npyInflate false fuel z = .ok out := by
  rcases hout with h1 | ⟨h1, h2⟩
  · exact C55_window z out h h1 fuel hf
  · exact C55_most_sizes z out h h2 (.inr h1) fuel hf

/-- **C55** with something behind the end of the stream: when at least 63 bits follow the last block, output of any size is expanded, as long as the compressed or the expanded
data are at most 1 MiB. -/
theorem C55_padded (z out : Bytes) (blocks : List Block) (rest : List Bool) (h0 : blocks ≠ []) (hok : StreamOk 0 blocks)
    (hz : Spec.bits z = streamBits blocks ++ rest) (he : expandBlocks [] blocks = some out) (hrest : 63 ≤ rest.length)
    (hsize : z.length ≤ 1048576 ∨ out.length ≤ 1048576) (fuel : Nat) (hf : 8 * z.length + out.length + 2 ≤ fuel) :
    npyInflate false fuel z = .ok out := by
  rcases npyInflate_run (T := 1) h0 hok hz he (Or.inr hrest) hsize hf with h | ⟨_, h, _⟩
  · exact h
  · omega

/-- **C55**, the other sizes: the answer is the right one or the exception, never other bytes, undefined behaviour or an
endless loop. -/
theorem C55_never_wrong (z out : Bytes) (h : Inflates z out) (hsize : z.length ≤ 1048576 ∨ out.length ≤ 1048576)
    (fuel : Nat) (hf : 8 * z.length + out.length + 2 ≤ fuel) :
    npyInflate false fuel z = .ok out ∨ npyInflate false fuel z = .error (.throw (.runtimeError .inflateError)) := by
  obtain ⟨blocks, R, h0, hok, hz, he⟩ := h
  rcases npyInflate_run (T := 0) h0 hok hz he (Or.inl rfl) hsize hf with h | ⟨h, _⟩
  · exact Or.inl h
  · exact Or.inr h

/-- **C55** is false in general: there is a stream of 606 bytes that follows the standard, stands for 32908 zeros and is
rejected, whatever the fuel. (The last symbol of the stream is in the bit buffer and no input is left when the window of
32768 bytes is full; `npy_inflate` takes that for a truncated stream.) -/
theorem C55_false : ∃ z out, InflatesExactly z out ∧ z.length = 606 ∧ out.length = 32908 ∧
    ∀ fuel, 527 ≤ fuel → npyInflate false fuel z = .error (.throw (.runtimeError .inflateError)) :=
  ⟨stallBytes, List.replicate 32908 0, stall_inflates, stall_length, List.length_replicate, stall_fails⟩

/-- **C55_never_wrong** is false without its bound: there is a stream of 3 MiB that follows the standard, of which
decompression returns a result that is more than a million bytes short, without an error. (The second chunk of 1 MiB
expands to more than the output buffer of 1 MiB takes, and the first chunk did not end at a multiple of the window. Then
`mz_inflate` once returns the rest of the window only, with room left in the output buffer, which `npy_inflate` takes for
the end of the chunk: the unread part of it is overwritten by the third chunk.) -/
theorem C55_wrong_data : ∃ z out, InflatesExactly z out ∧ z.length = 3142154 ∧ out.length = 4182009 ∧
    ∀ fuel, 8388608 ≤ fuel → ∃ out', npyInflate false fuel z = .ok out' ∧ out'.length + 1039848 ≤ out.length :=
  ⟨lossBytes, lossOut, loss_inflates, loss_length, List.length_replicate, loss_wrong⟩

/-- A stream made by zlib, with a dynamic, a stored and a fixed block. -/
example : npyInflate false 1000 sampleBytes = .ok sampleOut :=
  C55_window _ _ (let ⟨b, r, h0, h1, h2, _, h3⟩ := sample_inflates; ⟨b, r, h0, h1, h2, h3⟩) (by decide +kernel) _
    (by decide +kernel)

/-- The rejected stream followed by eight bytes of any kind. -/
example (tail : Bytes) (ht : tail.length = 8) : npyInflate false 50000 (stallBytes ++ tail) = .ok (List.replicate 32908 0) := by
  apply C55_padded _ _ [.fixed stallToks] (Spec.bits tail) (by simp) ⟨stall_ok, trivial⟩
  · rw [bits_append, stall_bits]; rfl
  · show (expandToks [] stallToks).bind _ = _
    rw [stall_expand]; rfl
  · rw [bits_length, ht]; omega
  · left; rw [List.length_append, stall_length, ht]; omega
  · rw [List.length_append, stall_length, ht, List.length_replicate]; omega

/-! ### C57: truncated streams -/

/-- **C57** A stream that follows the standard and lost bytes at its end, among them bits of the last block, is rejected
with an exception: decompression never returns a part of the data. -/
theorem C57_truncated (z lost out : Bytes) (blocks : List Block) (rest : List Bool) (h0 : blocks ≠ [])
    (hok : StreamOk 0 blocks) (hz : Spec.bits (z ++ lost) = streamBits blocks ++ rest)
    (he : expandBlocks [] blocks = some out) (hlost : rest.length < 8 * lost.length)
    (hsize : z.length ≤ 1048576 ∨ out.length ≤ 1048576) (fuel : Nat)
    (hf : 8 * (z ++ lost).length + out.length + 2 ≤ fuel) :
    npyInflate false fuel z = .error (.throw (.runtimeError .inflateError)) := by
  rcases npyInflate_cut (T := 0) h0 hok hz he (Or.inl rfl) hsize hf with ⟨_, h⟩ | ⟨h, _⟩
  · omega
  · exact h

/-- The sample without its last byte, in which the last block ends. -/
example : npyInflate false 1000 (sampleBytes.take 79) = .error (.throw (.runtimeError .inflateError)) :=
  C57_truncated (sampleBytes.take 79) (sampleBytes.drop 79) sampleOut sampleBlocks sampleRest (by decide) sample_ok
    (by rw [List.take_append_drop]; exact sample_bits) sample_expand (by decide +kernel) (by decide +kernel) _
    (by decide +kernel)

/-- The sample cut in the middle of its first block. -/
example : npyInflate false 1000 (sampleBytes.take 40) = .error (.throw (.runtimeError .inflateError)) :=
  C57_truncated (sampleBytes.take 40) (sampleBytes.drop 40) sampleOut sampleBlocks sampleRest (by decide) sample_ok
    (by rw [List.take_append_drop]; exact sample_bits) sample_expand (by decide +kernel) (by decide +kernel) _
    (by decide +kernel)

/-! ### C51, C56: hostile input -/

/-- **C51** is false: there are 28 bytes on which decompression goes on for ever, writing zeros (the block has a code with
one symbol; bits that are no code are taken for the literal 0 with a code of no bits). -/
theorem C51_false : ∃ z : Bytes, z.length = 28 ∧ ∀ fuel, npyInflate false fuel z = .error .diverge :=
  ⟨loopBytes, loop_length, loop_diverges⟩

/-- **C51** holds of all streams that follow the standard and of all their prefixes: they are decompressed or rejected
after a bounded number of rounds. -/
theorem C51_standard (z later out : Bytes) (h : Inflates (z ++ later) out)
    (hsize : z.length ≤ 1048576 ∨ out.length ≤ 1048576) (fuel : Nat)
    (hf : 8 * (z ++ later).length + out.length + 2 ≤ fuel) : npyInflate false fuel z ≠ .error .diverge := by
  obtain ⟨blocks, R, h0, hok, hz, he⟩ := h
  rcases npyInflate_cut (T := 0) h0 hok hz he (Or.inl rfl) hsize hf with ⟨h, _⟩ | ⟨h, _⟩ <;> rw [h] <;> simp

example : npyInflate false 1000 (sampleBytes.take 50) ≠ .error .diverge :=
  C51_standard (sampleBytes.take 50) (sampleBytes.drop 50) sampleOut
    (by rw [List.take_append_drop]; obtain ⟨b, r, h0, h1, h2, _, h3⟩ := sample_inflates; exact ⟨b, r, h0, h1, h2, h3⟩)
    (by decide +kernel) _ (by decide +kernel)

/-- **C56** holds of all streams that follow the standard and of all their prefixes: no access outside of a buffer, no use
of bytes that were never written. -/
theorem C56_standard (z later out : Bytes) (h : Inflates (z ++ later) out)
    (hsize : z.length ≤ 1048576 ∨ out.length ≤ 1048576) (fuel : Nat)
    (hf : 8 * (z ++ later).length + out.length + 2 ≤ fuel) : npyInflate false fuel z ≠ .error .ub := by
  obtain ⟨blocks, R, h0, hok, hz, he⟩ := h
  rcases npyInflate_cut (T := 0) h0 hok hz he (Or.inl rfl) hsize hf with ⟨h, _⟩ | ⟨h, _⟩ <;> rw [h] <;> simp

example : npyInflate false 1000 (sampleBytes.take 50) ≠ .error .ub :=
  C56_standard (sampleBytes.take 50) (sampleBytes.drop 50) sampleOut
    (by rw [List.take_append_drop]; obtain ⟨b, r, h0, h1, h2, _, h3⟩ := sample_inflates; exact ⟨b, r, h0, h1, h2, h3⟩)
    (by decide +kernel) _ (by decide +kernel)

/-- **C56** is false in general: three bytes make the decompressor copy bytes of the window that were never written (a
match that reaches back before the beginning). -/
theorem C56_false : ∃ z : Bytes, z.length = 3 ∧ ∀ fuel, 1 ≤ fuel → npyInflate false fuel z = .error .ub :=
  ⟨wildBytes, wild_length, wild_ub⟩

/-! ### C63: data that cannot be DEFLATE -/

/-- **C63** Data that break the format in a block header are rejected: after any number of legal blocks (that stand for
`out`), a block of the reserved type, a stored block whose length fields contradict each other, a dynamic block with an
over-subscribed or incomplete code of any of its three kinds, with a repetition of nothing, or with more code lengths than
announced makes decompression throw `std::runtime_error`, whatever follows. -/
theorem C63_rejected (z out : Bytes) (h : Breaks z out) (hsize : z.length ≤ 1048576 ∨ out.length ≤ 1048576) (fuel : Nat)
    (hf : 8 * z.length + out.length + 2 ≤ fuel) :
    npyInflate false fuel z = .error (.throw (.runtimeError .inflateError)) :=
  npyInflate_breaks h hsize hf

/-- A stored block "hi", then a block of type 3, then anything. -/
example (more : Bytes) (hm : more.length ≤ 1000) :
    npyInflate false 10000 ([0, 2, 0, 0xFD, 0xFF, 104, 105, 7] ++ more) = .error (.throw (.runtimeError .inflateError)) := by
  refine C63_rejected _ [104, 105] ⟨[.stored [false, false, false, false, false] [104, 105]], _, ?_, ?_,
    .reserved true (List.replicate 5 false ++ Spec.bits more), by decide +kernel⟩ (Or.inr (by simp)) _ (by simp; omega)
  · simp [StreamOk, Block.Ok]
  · rw [show Spec.bits ([0, 2, 0, 0xFD, 0xFF, 104, 105, 7] ++ more) = Spec.bits [0, 2, 0, 0xFD, 0xFF, 104, 105, 7] ++ Spec.bits more
      from by simp [Spec.bits]]
    rw [show Spec.bits [0, 2, 0, 0xFD, 0xFF, 104, 105, 7]
      = [Block.stored [false, false, false, false, false] [104, 105]].flatMap (Block.bits false)
        ++ (true :: lsb 2 3 ++ List.replicate 5 false) from by decide +kernel]
    simp only [List.append_assoc, List.cons_append]

/-- A stored block whose length fields are both 2. -/
example : npyInflate false 1000 [1, 2, 0, 2, 0, 104, 105] = .error (.throw (.runtimeError .inflateError)) :=
  C63_rejected _ [] ⟨[], _, trivial, by decide +kernel,
    .storedLength true (List.replicate 5 false) 2 2 (Spec.bits [104, 105]) (by decide) (by decide) (by decide) (by decide)
      (by decide), rfl⟩ (Or.inr (by simp)) _ (by decide)

/-- A dynamic block whose code length code has four codes of one bit. -/
example : npyInflate false 1000 [5, 0, 0x92, 4, 0, 0] = .error (.throw (.runtimeError .inflateError)) :=
  C63_rejected _ [] ⟨[], _, trivial, by decide +kernel,
    .codeLengthCode true ⟨257, 1, [1, 0, 0, 0, 0, 0, 0, 0, 0, 0, 0, 0, 0, 0, 0, 0, 1, 1, 1], 4⟩
      (List.replicate 19 false) ⟨by decide, by decide, by decide, by decide, by decide, by decide, by decide, by decide,
        by decide⟩ (by unfold Usable Complete used; decide), rfl⟩ (Or.inr (by simp)) _ (by decide)

end Npy
