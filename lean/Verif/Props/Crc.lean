import Verif.Proofs.Crc
/-!
# Properties of the checksum (C41)
-/

namespace Npy

/-- **C41**. For every byte string shorter than 4 GiB, the checksum the library computes (with a table of 16 entries, half a
byte at a time) is CRC-32/ISO-HDLC, defined bit by bit in `Spec/Crc`. -/
theorem C41_crc32 (bs : Bytes) (h : bs.length < 2 ^ 32) : npyCrc32 bs = Spec.crc32 bs := by
  unfold npyCrc32 mzCrc32 Spec.crc32
  rw [Nat.mod_eq_of_lt h, List.take_length, foldl_crcByte]
  rfl

/-- Check value of the CRC catalogue: CRC-32 of "123456789" is 0xCBF43926. -/
example : npyCrc32 b!"123456789" = 0xCBF43926 := by decide +kernel

/-- **C41**, pieces: feeding the data in two pieces, starting the second with the result of the first, gives the checksum
of the whole. -/
theorem C41_pieces (crc : BitVec 32) (a b : Bytes) : mzCrc32 (mzCrc32 crc a) b = mzCrc32 crc (a ++ b) := by
  unfold mzCrc32
  rw [BitVec.not_not, List.foldl_append]

example : mzCrc32 (mzCrc32 0 b!"12345") b!"6789" = 0xCBF43926#32 := by decide +kernel

/-- **C41**, at 4 GiB and above only the first (length mod 2^32) bytes count. -/
theorem C41_long (bs : Bytes) : npyCrc32 bs = Spec.crc32 (bs.take (bs.length % 2 ^ 32)) := by
  unfold npyCrc32 mzCrc32 Spec.crc32
  rw [foldl_crcByte]
  rfl

/-- **C41**, consequence: above 4 GiB the tail of the data is not covered by the checksum at all. -/
theorem C41_long_collision (bs : Bytes) (b : Byte) (h : bs.length = 2 ^ 32) : npyCrc32 (bs ++ [b]) = npyCrc32 (bs.take 1) := by
  rw [C41_long, C41_long]
  congr 1
  have h1 : (bs ++ [b]).length % 2 ^ 32 = 1 := by rw [List.length_append, h, List.length_singleton]
  have h2 : (bs.take 1).length % 2 ^ 32 = 1 := by rw [List.length_take, h]; decide
  rw [h1, h2, List.take_append_of_le_length (by rw [h]; decide), List.take_take]
  rfl

/-- The burst property of the checksum: two byte strings that differ, and differ only within 32 consecutive bits, have
different checksums. -/
theorem crc_burst {p p' : Bytes} (hl : p.length = p'.length) (h32 : p.length < 2 ^ 32)
    {A X X' B : List Bool} (h1 : Spec.bits p = A ++ X ++ B) (h2 : Spec.bits p' = A ++ X' ++ B) (hx : X.length = X'.length)
    (hw : X.length ≤ 32) (hne : X ≠ X') : npyCrc32 p ≠ npyCrc32 p' := by
  rw [C41_crc32 p h32, C41_crc32 p' (by omega)]
  unfold Spec.crc32
  rw [h1, h2]
  intro h
  have := BitVec.eq_of_toNat_eq h
  have h3 := congrArg (fun x : BitVec 32 => ~~~x) this
  simp only [BitVec.not_not] at h3
  exact burst hx hw hne _ h3

end Npy
