import Verif.Spec.Deflate
/-!
# Specification: data that visibly are not DEFLATE

The ways in which RFC 1951 lets a decoder see, from the header of a block alone, that the data cannot be compressed data.
-/

namespace Npy.Spec.Deflate

/-- The beginning of a dynamic block: the three counts and the code lengths of the code length alphabet (3.2.7). -/
structure DynHead where
  /-- HLIT + 257 -/
  nlit : Nat
  /-- HDIST + 1 -/
  ndist : Nat
  /-- code lengths of the code length alphabet, for symbols 0..18 -/
  cl : List Nat
  /-- HCLEN + 4: how many of them are given, in the order `clOrder` -/
  hclen : Nat

/-- The numbers can be written in the bits they have. -/
def DynHead.Fits (d : DynHead) : Prop :=
  257 ≤ d.nlit ∧ d.nlit < 257 + 2 ^ 5 ∧ 1 ≤ d.ndist ∧ d.ndist < 1 + 2 ^ 5 ∧
  d.cl.length = 19 ∧ (∀ l ∈ d.cl, l ≤ 7) ∧ 4 ≤ d.hclen ∧ d.hclen ≤ 19 ∧ ∀ s ∈ clOrder.drop d.hclen, lenOf d.cl s = 0

def DynHead.bits (d : DynHead) : List Bool :=
  lsb 5 (d.nlit - 257) ++ lsb 5 (d.ndist - 1) ++ lsb 4 (d.hclen - 4) ++
  (clOrder.take d.hclen).flatMap (fun s => lsb 3 (lenOf d.cl s))

/-- Bits at position `pos` of the stream that cannot be a block: -/
inductive BadBlock (pos : Nat) : List Bool → Prop
  /-- the reserved block type 3; -/
  | reserved (final : Bool) (more : List Bool) : BadBlock pos (final :: lsb 2 3 ++ more)
  /-- a stored block whose two length fields are not each other's complement; -/
  | storedLength (final : Bool) (pad : List Bool) (len nlen : Nat) (more : List Bool)
      (align : (pos + 3 + pad.length) % 8 = 0) (short : pad.length < 8) (h1 : len < 2 ^ 16) (h2 : nlen < 2 ^ 16)
      (bad : len + nlen ≠ 2 ^ 16 - 1) :
      BadBlock pos (final :: lsb 2 0 ++ pad ++ lsb 16 len ++ lsb 16 nlen ++ more)
  /-- a dynamic block whose code length code is over-subscribed or incomplete; -/
  | codeLengthCode (final : Bool) (d : DynHead) (more : List Bool) (fits : d.Fits) (bad : ¬Usable d.cl) :
      BadBlock pos (final :: lsb 2 2 ++ d.bits ++ more)
  /-- one whose first code length is "repeat the previous one"; -/
  | repeatFirst (final : Bool) (d : DynHead) (more : List Bool) (fits : d.Fits) (ok : Usable d.cl) (has : lenOf d.cl 16 ≠ 0) :
      BadBlock pos (final :: lsb 2 2 ++ d.bits ++ huff d.cl 16 ++ more)
  /-- one with more code lengths than announced: a repetition at the end goes beyond the last one; -/
  | tooManyLengths (final : Bool) (d : DynHead) (ops : List ClOp) (last : ClOp) (lens lens' : List Nat) (more : List Bool)
      (fits : d.Fits) (ok : Usable d.cl) (ops_ok : ∀ o ∈ ops ++ [last], o.Ok d.cl) (before : expandCl [] ops = some lens)
      (after : expandCl [] (ops ++ [last]) = some lens') (few : lens.length < d.nlit + d.ndist)
      (bad : d.nlit + d.ndist < lens'.length) :
      BadBlock pos (final :: lsb 2 2 ++ d.bits ++ (ops ++ [last]).flatMap (ClOp.bits d.cl) ++ more)
  /-- one whose literal/length code or distance code is over-subscribed or incomplete. -/
  | codes (final : Bool) (d : DynHead) (ops : List ClOp) (lit dist : List Nat) (more : List Bool)
      (fits : d.Fits) (ok : Usable d.cl) (ops_ok : ∀ o ∈ ops, o.Ok d.cl) (lens : expandCl [] ops = some (lit ++ dist))
      (hlit : lit.length = d.nlit) (hdist : dist.length = d.ndist) (bad : ¬Usable lit ∨ ¬Usable dist) :
      BadBlock pos (final :: lsb 2 2 ++ d.bits ++ ops.flatMap (ClOp.bits d.cl) ++ more)

/-- The bytes `z` begin with legal blocks that stand for `out`, none of them marked as the last, and go on with bits that
cannot be a block. -/
def Breaks (z out : List UInt8) : Prop :=
  ∃ blocks bad, StreamOk 0 blocks ∧ Spec.bits z = blocks.flatMap (Block.bits false) ++ bad ∧
    BadBlock (blocks.flatMap (Block.bits false)).length bad ∧ expandBlocks [] blocks = some out

end Npy.Spec.Deflate
