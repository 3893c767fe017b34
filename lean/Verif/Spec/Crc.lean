import Verif.Model.Basic
/-!
# Specification: CRC-32/ISO-HDLC, bit by bit

Reflected polynomial 0xEDB88320, register initially all ones, result complemented; bits of each byte least significant
first.
-/

namespace Npy.Spec

/-- The bits of a byte, least significant first. -/
def byteBits (b : UInt8) : List Bool := (List.range 8).map fun i => b.toNat.testBit i

/-- The bits of a byte string in the order in which CRC-32 (and a serial line) takes them. -/
def bits (bs : List UInt8) : List Bool := bs.flatMap byteBits

/-- One bit goes into the register. -/
def crcBit (reg : BitVec 32) (bit : Bool) : BitVec 32 :=
  if reg.getLsbD 0 != bit then (reg >>> 1) ^^^ 0xEDB88320#32 else reg >>> 1

/-- CRC-32 of a byte string. -/
def crc32 (bs : List UInt8) : Nat := (~~~ ((bits bs).foldl crcBit 0xFFFFFFFF#32)).toNat

end Npy.Spec
