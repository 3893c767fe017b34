import Verif.Spec.Crc
/-!
# Specification: the DEFLATE compressed data format (RFC 1951)

The format is given as a grammar: an abstract syntax for streams, the bits that stand for it, and the bytes it
expands to. Nothing here refers to the model of the code.

Bits are in stream order: the bits of each byte from the least significant (`Spec.bits`); numbers are packed least
significant bit first, Huffman codes most significant bit first (RFC 1951, 3.1.1).
-/

namespace Npy.Spec.Deflate

/-- A number in `n` bits, least significant first. -/
def lsb : Nat → Nat → List Bool
  | 0, _ => []
  | n + 1, v => (v % 2 == 1) :: lsb n (v / 2)

/-- A number in `n` bits, most significant first. -/
def msb (n v : Nat) : List Bool := (lsb n v).reverse

/-! ### Huffman codes from code lengths (3.2.2) -/

/-- `bl_count[l]`: how many symbols have a code of `l` bits; length 0 means "not used". -/
def blCount (lens : List Nat) (l : Nat) : Nat := if l = 0 then 0 else lens.count l

/-- `next_code[l]` of 3.2.2, step 2: the smallest code of `l` bits. -/
def firstCode (lens : List Nat) : Nat → Nat
  | 0 => 0
  | l + 1 => 2 * (firstCode lens l + blCount lens l)

/-- The length of the code of a symbol (0 for symbols outside of the list). -/
def lenOf (lens : List Nat) (s : Nat) : Nat := lens.getD s 0

/-- The code of a symbol (step 3): the symbols with codes of the same length are numbered in order. -/
def codeOf (lens : List Nat) (s : Nat) : Nat := firstCode lens (lenOf lens s) + (lens.take s).count (lenOf lens s)

/-- The bits of a symbol. -/
def huff (lens : List Nat) (s : Nat) : List Bool := msb (lenOf lens s) (codeOf lens s)

/-- The symbols that have a code. -/
def used (lens : List Nat) : Nat := lens.countP (· ≠ 0)

/-- The code tree is full: the weights `2^-len` add up to one. -/
def Complete (lens : List Nat) : Prop := (lens.map fun l => if l = 0 then 0 else 2 ^ (15 - l)).sum = 2 ^ 15

/-- Code lengths a decoder must accept: at most 15 bits, and a full tree, or at most one code (3.2.7: "if only one
distance code is used, it is encoded using one bit"). -/
def Usable (lens : List Nat) : Prop := (∀ l ∈ lens, l ≤ 15) ∧ (Complete lens ∨ used lens ≤ 1)

/-! ### Literals and matches (3.2.5) -/

/-- A literal byte, or a match given by the length symbol and its extra bits, the distance symbol and its extra
bits. -/
inductive Tok
  | lit (b : UInt8)
  | copy (ls le ds de : Nat)
  deriving DecidableEq, Repr

/-- Number of extra bits of length symbols 257..285. -/
def lenExtra : List Nat := [0,0,0,0,0,0,0,0, 1,1,1,1, 2,2,2,2, 3,3,3,3, 4,4,4,4, 5,5,5,5, 0]
/-- First length of length symbols 257..285. -/
def lenBase : List Nat := [3,4,5,6,7,8,9,10, 11,13,15,17, 19,23,27,31, 35,43,51,59, 67,83,99,115, 131,163,195,227, 258]
/-- Number of extra bits of distance symbols 0..29. -/
def distExtra : List Nat := [0,0,0,0, 1,1, 2,2, 3,3, 4,4, 5,5, 6,6, 7,7, 8,8, 9,9, 10,10, 11,11, 12,12, 13,13]
/-- First distance of distance symbols 0..29. -/
def distBase : List Nat := [1,2,3,4, 5,7, 9,13, 17,25, 33,49, 65,97, 129,193, 257,385, 513,769, 1025,1537, 2049,3073,
  4097,6145, 8193,12289, 16385,24577]

/-- The token can be written with these two codes. -/
def Tok.Ok (lit dist : List Nat) : Tok → Prop
  | .lit b => lenOf lit b.toNat ≠ 0
  | .copy ls le ds de =>
    257 ≤ ls ∧ ls ≤ 285 ∧ lenOf lit ls ≠ 0 ∧ le < 2 ^ lenExtra.getD (ls - 257) 0 ∧
    ds ≤ 29 ∧ lenOf dist ds ≠ 0 ∧ de < 2 ^ distExtra.getD ds 0

/-- The bits of a token. -/
def Tok.bits (lit dist : List Nat) : Tok → List Bool
  | .lit b => huff lit b.toNat
  | .copy ls le ds de =>
    huff lit ls ++ lsb (lenExtra.getD (ls - 257) 0) le ++ huff dist ds ++ lsb (distExtra.getD ds 0) de

/-- `n` times: append the byte that is `d` from the end. -/
def copyBack : Nat → Nat → List UInt8 → Option (List UInt8)
  | 0, _, out => some out
  | n + 1, d, out =>
    if d = 0 ∨ out.length < d then none
    else match out[out.length - d]? with
      | none => none
      | some b => copyBack n d (out ++ [b])

/-- What a token appends to the output; a match may not reach back before the beginning. -/
def Tok.expand (out : List UInt8) : Tok → Option (List UInt8)
  | .lit b => some (out ++ [b])
  | .copy ls le ds de => copyBack (lenBase.getD (ls - 257) 0 + le) (distBase.getD ds 0 + de) out

/-- A sequence of tokens. -/
def expandToks (out : List UInt8) : List Tok → Option (List UInt8)
  | [] => some out
  | t :: ts => (t.expand out).bind fun out => expandToks out ts

/-! ### Code lengths of dynamic blocks (3.2.7) -/

/-- One symbol of the code length alphabet: a length; 16 "copy the previous length 3-6 times"; 17 "3-10 zeros";
18 "11-138 zeros". -/
inductive ClOp
  | len (l : Nat)
  | rep (extra : Nat)
  | zeros (extra : Nat)
  | manyZeros (extra : Nat)
  deriving DecidableEq, Repr

/-- The symbol's number. -/
def ClOp.sym : ClOp → Nat
  | .len l => l
  | .rep _ => 16
  | .zeros _ => 17
  | .manyZeros _ => 18

def ClOp.Ok (cl : List Nat) (o : ClOp) : Prop :=
  lenOf cl o.sym ≠ 0 ∧
  match o with
  | .len l => l ≤ 15
  | .rep e => e < 4
  | .zeros e => e < 8
  | .manyZeros e => e < 128

def ClOp.bits (cl : List Nat) (o : ClOp) : List Bool :=
  huff cl o.sym ++
  match o with
  | .len _ => []
  | .rep e => lsb 2 e
  | .zeros e => lsb 3 e
  | .manyZeros e => lsb 7 e

/-- The code lengths a sequence of such symbols stands for. -/
def expandCl (acc : List Nat) : List ClOp → Option (List Nat)
  | [] => some acc
  | .len l :: os => expandCl (acc ++ [l]) os
  | .rep e :: os =>
    match acc.getLast? with
    | none => none
    | some l => expandCl (acc ++ List.replicate (3 + e) l) os
  | .zeros e :: os => expandCl (acc ++ List.replicate (3 + e) 0) os
  | .manyZeros e :: os => expandCl (acc ++ List.replicate (11 + e) 0) os

/-- The order in which the code lengths of the code length alphabet are given. -/
def clOrder : List Nat := [16, 17, 18, 0, 8, 7, 9, 6, 10, 5, 11, 4, 12, 3, 13, 2, 14, 1, 15]

/-- The header of a dynamic block. -/
structure Dyn where
  /-- code lengths of the code length alphabet, for symbols 0..18 -/
  cl : List Nat
  /-- how many of them are given, in the order `clOrder`; the others are 0 -/
  hclen : Nat
  /-- the code lengths of the two alphabets, as they are written -/
  ops : List ClOp
  /-- code lengths of literals, end of block and length symbols -/
  lit : List Nat
  /-- code lengths of distance symbols -/
  dist : List Nat
  deriving DecidableEq, Repr

/-- The header is a legal one. -/
def Dyn.Ok (d : Dyn) : Prop :=
  d.cl.length = 19 ∧ (∀ l ∈ d.cl, l ≤ 7) ∧ Usable d.cl ∧
  4 ≤ d.hclen ∧ d.hclen ≤ 19 ∧ (∀ s ∈ clOrder.drop d.hclen, lenOf d.cl s = 0) ∧
  (∀ o ∈ d.ops, o.Ok d.cl) ∧ expandCl [] d.ops = some (d.lit ++ d.dist) ∧
  257 ≤ d.lit.length ∧ d.lit.length ≤ 286 ∧ 1 ≤ d.dist.length ∧ d.dist.length ≤ 32 ∧
  Usable d.lit ∧ Usable d.dist ∧ lenOf d.lit 256 ≠ 0

/-- Its bits, after the three bits every block begins with. -/
def Dyn.bits (d : Dyn) : List Bool :=
  lsb 5 (d.lit.length - 257) ++ lsb 5 (d.dist.length - 1) ++ lsb 4 (d.hclen - 4) ++
  (clOrder.take d.hclen).flatMap (fun s => lsb 3 (lenOf d.cl s)) ++
  d.ops.flatMap (ClOp.bits d.cl)

/-! ### Blocks (3.2.3, 3.2.4, 3.2.6) -/

/-- The literal/length code of fixed blocks. -/
def fixedLit : List Nat :=
  List.replicate 144 8 ++ List.replicate 112 9 ++ List.replicate 24 7 ++ List.replicate 8 8
/-- The distance code of fixed blocks. -/
def fixedDist : List Nat := List.replicate 32 5

inductive Block
  /-- not compressed; `pad` are the ignored bits up to the next byte boundary -/
  | stored (pad : List Bool) (data : List UInt8)
  | fixed (toks : List Tok)
  | dynamic (d : Dyn) (toks : List Tok)
  deriving DecidableEq, Repr

/-- The block may be written at bit position `pos` of the stream. -/
def Block.Ok (pos : Nat) : Block → Prop
  | .stored pad data => (pos + 3 + pad.length) % 8 = 0 ∧ pad.length < 8 ∧ data.length < 2 ^ 16
  | .fixed toks => ∀ t ∈ toks, t.Ok fixedLit fixedDist
  | .dynamic d toks => d.Ok ∧ ∀ t ∈ toks, t.Ok d.lit d.dist

/-- The bits of a block. -/
def Block.bits (final : Bool) : Block → List Bool
  | .stored pad data =>
    final :: lsb 2 0 ++ pad ++ lsb 16 data.length ++ lsb 16 (2 ^ 16 - 1 - data.length) ++ Spec.bits data
  | .fixed toks =>
    final :: lsb 2 1 ++ toks.flatMap (Tok.bits fixedLit fixedDist) ++ huff fixedLit 256
  | .dynamic d toks =>
    final :: lsb 2 2 ++ d.bits ++ toks.flatMap (Tok.bits d.lit d.dist) ++ huff d.lit 256

/-- What a block appends to the output. -/
def Block.expand (out : List UInt8) : Block → Option (List UInt8)
  | .stored _ data => some (out ++ data)
  | .fixed toks => expandToks out toks
  | .dynamic _ toks => expandToks out toks

/-- A sequence of blocks at a bit position; exactly the last one has the final bit. -/
def streamBits : List Block → List Bool
  | [] => []
  | [b] => b.bits true
  | b :: bs => b.bits false ++ streamBits bs

def StreamOk : Nat → List Block → Prop
  | _, [] => True
  | pos, b :: bs => b.Ok pos ∧ StreamOk (pos + (b.bits false).length) bs

def expandBlocks (out : List UInt8) : List Block → Option (List UInt8)
  | [] => some out
  | b :: bs => (b.expand out).bind fun out => expandBlocks out bs

/-- The bytes `z` begin with a DEFLATE stream that stands for the bytes `out`: a non-empty sequence of legal blocks,
followed by the bits that fill the last byte and possibly by more bytes. -/
def Inflates (z out : List UInt8) : Prop :=
  ∃ blocks rest, blocks ≠ [] ∧ StreamOk 0 blocks ∧ Spec.bits z = streamBits blocks ++ rest ∧
    expandBlocks [] blocks = some out

/-- The same with nothing after the end but the bits that fill the last byte. -/
def InflatesExactly (z out : List UInt8) : Prop :=
  ∃ blocks rest, blocks ≠ [] ∧ StreamOk 0 blocks ∧ Spec.bits z = streamBits blocks ++ rest ∧ rest.length < 8 ∧
    expandBlocks [] blocks = some out

/-- Sizes of which C55 promises that the data come back: what fits in the window of 32768 bytes, and, up to 1 MiB, all sizes but
those from 1 to 8127 more than a multiple of 32768. -/
def SafeSize (n : Nat) : Prop := n ≤ 32768 ∨ n ≤ 1048576 ∧ 8127 ≤ (n - 1) % 32768

instance (n : Nat) : Decidable (SafeSize n) := inferInstanceAs (Decidable (_ ∨ _))

end Npy.Spec.Deflate
