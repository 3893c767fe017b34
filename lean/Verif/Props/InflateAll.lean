import Verif.Props.Inflate
import Verif.Proofs.InflateTotal
import Verif.Proofs.InflateUnique
import Verif.Proofs.InflateMem
/-!
# Properties of decompression on any input (C51, C56, C68)

`Faulty` (`Spec/DeflateFault`) says that the bytes break the format of RFC 1951 in the middle of a block: bits that are no
code, symbols that may not occur, a match that reaches back before the beginning, 287 or 288 literal/length codes.
-/

namespace Npy
open Spec.Deflate

/-! ### C68: what decompression returns -/

/-- **C68** Whatever the bytes (up to 1 MiB): unless they have a fault of the four kinds above, decompression returns what
RFC 1951 says they stand for, or throws `std::runtime_error`. -/
theorem C68_sound (z : Bytes) (hz : ¬Faulty z) (hsize : z.length ≤ 1048576) (fuel : Nat) (hf : 2064 * z.length + 3 ≤ fuel) :
    npyInflate false fuel z = .error (.throw (.runtimeError .inflateError)) ∨
    ∃ out, Inflates z out ∧ npyInflate false fuel z = .ok out :=
  npyInflate_sound hz hsize hf

/-- **C68** The same of the decompressor as the code has it: the dictionary is 32768 bytes of memory, not initialised, written
cyclically; a match is copied byte by byte, in words of 4 bytes or 3 bytes at a time (`Model/InflateMem`). For all bytes it
gives what the decompressor of the other theorems gives, on hosts of either byte order. -/
theorem C68_memory (big : Bool) (fuel : Nat) (z : Bytes) : npyInflateM big fuel z = npyInflate big fuel z := npyInflateM_eq fuel z

/-- **C68** So that also holds of it: it returns what the bytes stand for, or throws. -/
theorem C68_memory_sound (z : Bytes) (hz : ¬Faulty z) (hsize : z.length ≤ 1048576) (fuel : Nat)
    (hf : 2064 * z.length + 3 ≤ fuel) :
    npyInflateM false fuel z = .error (.throw (.runtimeError .inflateError)) ∨
    ∃ out, Inflates z out ∧ npyInflateM false fuel z = .ok out := by
  rw [C68_memory]
  exact C68_sound z hz hsize fuel hf

/-- A match of 9 bytes at distance 9, copied by words, and one of 5 bytes at distance 2, which overlaps itself, copied 3
bytes at a time. -/
example : ∃ m m' c c', DictMem.copyFast (fun i => if i < 9 then some (UInt8.ofNat i) else none) 9 0 9 9 = some (m, c) ∧
    c = 18 ∧ (List.range 20).map m = [0, 1, 2, 3, 4, 5, 6, 7, 8, 0, 1, 2, 3, 4, 5, 6, 7, 8].map some ++ [none, none] ∧
    m.copyFast 18 16 2 5 = some (m', c') ∧ c' = 23 ∧ [18, 19, 20, 21, 22].map m' = [7, 8, 7, 8, 7].map some := by
  refine ⟨_, _, _, _, rfl, rfl, ?_, rfl, rfl, ?_⟩ <;> decide +kernel

/-- **C68** Whenever decompression returns something, it is what the bytes stand for, or they have a fault. -/
theorem C68_returned (z out : Bytes) (hsize : z.length ≤ 1048576) (fuel : Nat) (hf : 2064 * z.length + 3 ≤ fuel)
    (h : npyInflate false fuel z = .ok out) : Inflates z out ∨ Faulty z := by
  by_cases hz : Faulty z
  · exact Or.inr hz
  · left
    rcases npyInflate_sound hz hsize hf with h' | ⟨o, h1, h2⟩
    · rw [h] at h'; cases h'
    · rw [h] at h2; cases h2; exact h1

/-- **C68** The standard gives bytes one meaning at most. -/
theorem C68_unique (z a b : Bytes) (ha : Inflates z a) (hb : Inflates z b) : a = b := inflates_unique ha hb

/-- **C68** Data that follow the standard have no fault, nor have their prefixes. -/
theorem C68_standard_has_no_fault (z later out : Bytes) (h : Inflates (z ++ later) out) : ¬Faulty z :=
  fun hf => inflates_not_faulty h (Faulty.append hf later)

/-- **C68** Data with a fault do not follow the standard, whatever comes after them. -/
theorem C68_fault_breaks_standard (z later out : Bytes) (h : Faulty z) : ¬Inflates (z ++ later) out :=
  fun hi => inflates_not_faulty hi (Faulty.append h later)

/-! ### C51, C56 -/

/-- **C51** for any bytes up to 1 MiB without a fault: decompression ends. -/
theorem C51_any (z : Bytes) (hz : ¬Faulty z) (hsize : z.length ≤ 1048576) (fuel : Nat) (hf : 2064 * z.length + 3 ≤ fuel) :
    npyInflate false fuel z ≠ .error .diverge := by
  rcases npyInflate_sound hz hsize hf with h | ⟨o, _, h⟩ <;> rw [h] <;> simp

/-- **C56** for any bytes up to 1 MiB without a fault: no access outside of a buffer, no use of bytes that were never
written. -/
theorem C56_any (z : Bytes) (hz : ¬Faulty z) (hsize : z.length ≤ 1048576) (fuel : Nat) (hf : 2064 * z.length + 3 ≤ fuel) :
    npyInflate false fuel z ≠ .error .ub := by
  rcases npyInflate_sound hz hsize hf with h | ⟨o, _, h⟩ <;> rw [h] <;> simp

/-- The 28 bytes on which decompression goes on for ever have a fault, and so have the three bytes that make it read what
was never written: both are invalid. -/
theorem C68_known_faults : Faulty loopBytes ∧ Faulty wildBytes := by
  constructor
  · by_contra h
    have := C51_any loopBytes h (by rw [loop_length]; omega) 57795 (by rw [loop_length])
    exact this (loop_diverges _)
  · by_contra h
    have := C56_any wildBytes h (by rw [wild_length]; omega) 6195 (by rw [wild_length])
    exact this (wild_ub _ (by omega))

/-- Every prefix of the sample made by zlib is expanded to what it stands for, or rejected. -/
example (n : Nat) : npyInflate false 200000 (sampleBytes.take n) = .error (.throw (.runtimeError .inflateError)) ∨
    ∃ out, Inflates (sampleBytes.take n) out ∧ npyInflate false 200000 (sampleBytes.take n) = .ok out := by
  have hl : (sampleBytes.take n).length ≤ 80 := by
    rw [List.length_take]; exact (Nat.min_le_right _ _).trans (by decide +kernel)
  refine C68_sound _ (C68_standard_has_no_fault _ (sampleBytes.drop n) sampleOut ?_) (by omega) _ (by omega)
  rw [List.take_append_drop]
  obtain ⟨b, r, h0, h1, h2, _, h3⟩ := sample_inflates
  exact ⟨b, r, h0, h1, h2, h3⟩

/-- Bytes that follow the standard in no way need not have a fault: a block of the reserved type 3, then anything. -/
example (more : Bytes) : ¬Faulty (7 :: more) := by
  rintro ⟨bs, o, bad, -, h2, -, h4⟩
  have h7 : Spec.bits (7 :: more) = true :: lsb 2 3 ++ (List.replicate 5 false ++ Spec.bits more) := by
    rw [bits_cons, show Spec.byteBits 7 = true :: lsb 2 3 ++ List.replicate 5 false from by decide +kernel]
    simp
  rw [h7] at h2
  cases bs with
  | nil =>
    rw [List.flatMap_nil, List.nil_append] at h2
    cases h4 <;> simp only [List.append_assoc] at h2 <;> have := (kind_app (by omega) (by omega) h2).2.1 <;> omega
  | cons b bs =>
    obtain ⟨x, hx, -⟩ := Block.bits_head b false
    rw [List.flatMap_cons, hx] at h2
    simp only [List.append_assoc] at h2
    have := (kind_app (by omega) (type_lt b) h2).1
    simp at this

end Npy
