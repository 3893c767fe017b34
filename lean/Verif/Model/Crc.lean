import Verif.Model.Basic
/-!
# CRC-32 (miniz.cpp:67-75, zip.cpp:21-26)
-/

namespace Npy

/-- miniz.cpp:69-70 -/
def S_CRC32 : List (BitVec 32) :=
  [0x00000000, 0x1db71064, 0x3b6e20c8, 0x26d930ac, 0x76dc4190, 0x6b6b51f4, 0x4db26158, 0x5005713c,
   0xedb88320, 0xf00f9344, 0xd6d6a3e8, 0xcb61b38c, 0x9b64c2b0, 0x86d3d2d4, 0xa00ae278, 0xbdbdf21c]

/-- miniz.cpp:73: `crcu32 = (crcu32 >> 4) ^ s_crc32[(crcu32 & 0xF) ^ n]` for a nibble `n` -/
def crcNibble (crc : BitVec 32) (n : BitVec 32) : BitVec 32 :=
  (crc >>> 4) ^^^ S_CRC32.getD ((crc &&& 0xF) ^^^ n).toNat 0

/-- miniz.cpp:73: the body of the loop for a byte `b` -/
def crcByte (crc : BitVec 32) (b : Byte) : BitVec 32 :=
  let w := b.toBitVec.setWidth 32
  crcNibble (crcNibble crc (w &&& 0xF)) (w >>> 4)

/-- miniz.cpp:67-75 `mz_crc32(crc, ptr, buf_len)` for a non-null pointer -/
def mzCrc32 (crc : BitVec 32) (bs : Bytes) : BitVec 32 := ~~~ (bs.foldl crcByte (~~~ crc))

/-- zip.cpp:21-26 `npy_crc32`: the length is converted to `uInt`, so only the first `size mod 2^32` bytes count. -/
def npyCrc32 (bs : Bytes) : Nat := (mzCrc32 0 (bs.take (bs.length % 2 ^ 32))).toNat

end Npy
