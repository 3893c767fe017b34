import Verif.Spec.DeflateBad
/-!
# Specification: data that break the DEFLATE format in the middle of a block

The ways in which data that are made of bits which mean something to a decoder still violate RFC 1951: bits that are no
code, symbols that may not occur, a match that reaches back before the beginning, too many literal/length codes. (The
violations that show in a block header are in `Spec/DeflateBad`.)
-/

namespace Npy.Spec.Deflate

/-- The bits do not begin with the code of a symbol, and they are not the beginning of such a code either. -/
def NoCode (lens : List Nat) (more : List Bool) : Prop :=
  ∀ s, lenOf lens s ≠ 0 → ¬huff lens s <+: more ∧ ¬more <+: huff lens s

/-- Among the literals and matches of a block, with `out` written so far: bits that cannot be the next one, nor the end of
the block. -/
inductive FaultAt (lit dist : List Nat) (out : List UInt8) : List Bool → Prop
  /-- no literal, length or end of block; -/
  | noSymbol (more : List Bool) (none : NoCode lit more) : FaultAt lit dist out more
  /-- the symbols 286 and 287, which "will never actually occur in the compressed data" (3.2.6); -/
  | badLength (ls : Nat) (more : List Bool) (has : lenOf lit ls ≠ 0) (bad : 286 ≤ ls) :
      FaultAt lit dist out (huff lit ls ++ more)
  /-- a length without a distance; -/
  | noDistance (ls le : Nat) (more : List Bool) (has : lenOf lit ls ≠ 0) (h1 : 257 ≤ ls) (h2 : ls ≤ 285)
      (h3 : le < 2 ^ lenExtra.getD (ls - 257) 0) (none : NoCode dist more) :
      FaultAt lit dist out (huff lit ls ++ lsb (lenExtra.getD (ls - 257) 0) le ++ more)
  /-- the distance symbols 30 and 31, likewise; -/
  | badDistance (ls le ds : Nat) (more : List Bool) (has : lenOf lit ls ≠ 0) (h1 : 257 ≤ ls) (h2 : ls ≤ 285)
      (h3 : le < 2 ^ lenExtra.getD (ls - 257) 0) (hasd : lenOf dist ds ≠ 0) (bad : 30 ≤ ds) :
      FaultAt lit dist out (huff lit ls ++ lsb (lenExtra.getD (ls - 257) 0) le ++ huff dist ds ++ more)
  /-- a match that reaches back before the beginning. -/
  | tooFar (t : Tok) (more : List Bool) (ok : t.Ok lit dist) (bad : t.expand out = none) :
      FaultAt lit dist out (t.bits lit dist ++ more)

/-- With `out` written by the blocks before it, a block that goes wrong: -/
inductive FaultyBlock (out : List UInt8) : List Bool → Prop
  /-- among the literals and matches of a block with the fixed codes; -/
  | fixed (final : Bool) (toks : List Tok) (out' : List UInt8) (more : List Bool)
      (ok : ∀ t ∈ toks, t.Ok fixedLit fixedDist) (exp : expandToks out toks = some out')
      (bad : FaultAt fixedLit fixedDist out' more) :
      FaultyBlock out (final :: lsb 2 1 ++ toks.flatMap (Tok.bits fixedLit fixedDist) ++ more)
  /-- among the literals and matches of a block with codes of its own; -/
  | dynamic (final : Bool) (d : DynHead) (ops : List ClOp) (lit dist : List Nat) (toks : List Tok) (out' : List UInt8)
      (more : List Bool) (fits : d.Fits) (ok : Usable d.cl) (ops_ok : ∀ o ∈ ops, o.Ok d.cl)
      (lens : expandCl [] ops = some (lit ++ dist)) (hlit : lit.length = d.nlit) (hdist : dist.length = d.ndist)
      (ulit : Usable lit) (udist : Usable dist) (toks_ok : ∀ t ∈ toks, t.Ok lit dist)
      (exp : expandToks out toks = some out') (bad : FaultAt lit dist out' more) :
      FaultyBlock out (final :: lsb 2 2 ++ d.bits ++ ops.flatMap (ClOp.bits d.cl) ++ toks.flatMap (Tok.bits lit dist) ++ more)
  /-- among the code lengths: bits that are no symbol of the code length alphabet; -/
  | noLength (final : Bool) (d : DynHead) (ops : List ClOp) (lens : List Nat) (more : List Bool) (fits : d.Fits)
      (ok : Usable d.cl) (ops_ok : ∀ o ∈ ops, o.Ok d.cl) (exp : expandCl [] ops = some lens)
      (few : lens.length < d.nlit + d.ndist) (none : NoCode d.cl more) :
      FaultyBlock out (final :: lsb 2 2 ++ d.bits ++ ops.flatMap (ClOp.bits d.cl) ++ more)
  /-- 287 or 288 literal/length codes are announced; 3.2.7 allows 257 to 286. -/
  | tooManyCodes (final : Bool) (d : DynHead) (more : List Bool) (fits : d.Fits) (bad : 286 < d.nlit) :
      FaultyBlock out (final :: lsb 2 2 ++ d.bits ++ more)

/-- The bytes begin with legal blocks, none of them marked as the last, and go on with a block that goes wrong. -/
def Faulty (z : List UInt8) : Prop :=
  ∃ blocks out bad, StreamOk 0 blocks ∧ Spec.bits z = blocks.flatMap (Block.bits false) ++ bad ∧
    expandBlocks [] blocks = some out ∧ FaultyBlock out bad

end Npy.Spec.Deflate
