import Verif.Proofs.BitList
/-!
# A stream made by zlib

197 bytes of text, a synchronisation point and four more bytes, compressed by zlib: a block with dynamic codes, an
empty stored block, a final block with fixed codes. Used to show that hypotheses about DEFLATE streams can be met.
-/

namespace Npy
open Spec.Deflate

instance (lens : List Nat) : Decidable (Complete lens) := by unfold Complete; infer_instance
instance (lens : List Nat) : Decidable (Usable lens) := by unfold Usable; infer_instance
instance (lit dist : List Nat) (t : Tok) : Decidable (t.Ok lit dist) := by
  cases t <;> unfold Tok.Ok <;> infer_instance
instance (cl : List Nat) (o : ClOp) : Decidable (o.Ok cl) := by
  cases o <;> unfold ClOp.Ok <;> infer_instance
instance (d : Dyn) : Decidable d.Ok := by unfold Dyn.Ok; infer_instance
instance (pos : Nat) (b : Block) : Decidable (b.Ok pos) := by
  cases b <;> unfold Block.Ok <;> infer_instance
instance decStreamOk : (bs : List Block) → (pos : Nat) → Decidable (StreamOk pos bs)
  | [], _ => isTrue trivial
  | b :: bs, pos => by
    unfold StreamOk
    exact @instDecidableAnd _ _ _ (decStreamOk bs _)

def sampleBytes : Bytes :=
  [92, 141, 49, 10, 0, 48, 8, 3, 95, 212, 71, 69, 16, 28, 28, 58, 244, 255, 20, 141, 173, 165, 139, 196, 36,
   158, 16, 245, 1, 215, 105, 99, 65, 92, 75, 59, 194, 167, 243, 234, 234, 240, 104, 26, 42, 20, 93, 173, 112,
   73, 81, 72, 131, 146, 232, 175, 27, 235, 195, 235, 128, 59, 81, 221, 60, 136, 243, 57, 231, 6, 0, 0, 255,
   255, 75, 203, 204, 227, 2, 0]

def sampleOut : Bytes :=
  [97, 98, 101, 108, 45, 97, 108, 101, 112, 104, 45, 116, 97, 98, 108, 101, 45, 97, 108, 101, 112, 104, 45,
   108, 97, 98, 101, 108, 45, 116, 97, 98, 108, 101, 45, 108, 97, 98, 101, 108, 45, 116, 97, 98, 108, 101, 45,
   116, 97, 98, 108, 101, 45, 97, 98, 101, 108, 45, 97, 108, 112, 104, 97, 45, 108, 97, 98, 101, 108, 45, 98,
   101, 116, 45, 108, 97, 98, 101, 108, 45, 98, 101, 116, 97, 45, 116, 97, 98, 108, 101, 45, 97, 108, 112, 104,
   97, 45, 98, 101, 116, 97, 45, 97, 108, 112, 104, 97, 45, 97, 108, 101, 112, 104, 45, 98, 101, 116, 45, 108,
   97, 98, 101, 108, 45, 98, 101, 116, 97, 45, 98, 101, 116, 45, 97, 98, 101, 108, 45, 97, 108, 112, 104, 97,
   45, 97, 98, 101, 108, 45, 98, 101, 116, 97, 45, 97, 108, 112, 104, 97, 45, 116, 97, 98, 108, 101, 45, 98,
   101, 116, 97, 45, 98, 101, 116, 45, 97, 108, 101, 112, 104, 45, 98, 101, 116, 97, 45, 108, 97, 98, 101, 108,
   45, 108, 97, 98, 101, 108, 102, 105, 110, 10]

def sampleDyn : Dyn where
  cl := [2, 0, 4, 3, 2, 3, 0, 0, 0, 0, 0, 0, 0, 0, 0, 0, 0, 3, 4]
  hclen := 16
  ops := [.manyZeros 34, .len 5, .manyZeros 40, .len 3, .len 4, .len 0, .len 0, .len 4, .len 0, .len 0, .len 4,
          .zeros 0, .len 4, .zeros 0, .len 5, .zeros 0, .len 5, .manyZeros 127, .len 0, .len 5, .len 0, .len 4,
          .len 4, .len 3, .len 4, .len 5, .len 5, .len 4, .len 5, .len 0, .len 5, .zeros 1, .len 4, .len 0,
          .len 3, .len 4, .len 3, .len 3, .len 3, .len 4, .len 2, .len 4]
  lit := [0, 0, 0, 0, 0, 0, 0, 0, 0, 0, 0, 0, 0, 0, 0, 0, 0, 0, 0, 0, 0, 0, 0, 0, 0, 0, 0, 0, 0, 0, 0, 0, 0, 0,
          0, 0, 0, 0, 0, 0, 0, 0, 0, 0, 0, 5, 0, 0, 0, 0, 0, 0, 0, 0, 0, 0, 0, 0, 0, 0, 0, 0, 0, 0, 0, 0, 0, 0,
          0, 0, 0, 0, 0, 0, 0, 0, 0, 0, 0, 0, 0, 0, 0, 0, 0, 0, 0, 0, 0, 0, 0, 0, 0, 0, 0, 0, 0, 3, 4, 0, 0, 4,
          0, 0, 4, 0, 0, 0, 4, 0, 0, 0, 5, 0, 0, 0, 5, 0, 0, 0, 0, 0, 0, 0, 0, 0, 0, 0, 0, 0, 0, 0, 0, 0, 0, 0,
          0, 0, 0, 0, 0, 0, 0, 0, 0, 0, 0, 0, 0, 0, 0, 0, 0, 0, 0, 0, 0, 0, 0, 0, 0, 0, 0, 0, 0, 0, 0, 0, 0, 0,
          0, 0, 0, 0, 0, 0, 0, 0, 0, 0, 0, 0, 0, 0, 0, 0, 0, 0, 0, 0, 0, 0, 0, 0, 0, 0, 0, 0, 0, 0, 0, 0, 0, 0,
          0, 0, 0, 0, 0, 0, 0, 0, 0, 0, 0, 0, 0, 0, 0, 0, 0, 0, 0, 0, 0, 0, 0, 0, 0, 0, 0, 0, 0, 0, 0, 0, 0, 0,
          0, 0, 0, 0, 0, 0, 0, 0, 0, 0, 0, 0, 0, 0, 0, 0, 0, 0, 5, 0, 4, 4, 3, 4, 5, 5, 4, 5, 0, 5]
  dist := [0, 0, 0, 0, 4, 0, 3, 4, 3, 3, 3, 4, 2, 4]

def sampleToks : List Tok :=
  [.lit 97, .lit 98, .lit 101, .lit 108, .lit 45, .lit 97, .lit 108, .lit 101, .lit 112, .lit 104, .lit 45,
   .lit 116, .lit 97, .lit 98, .lit 108, .lit 101, .copy 261 0 6 3, .lit 108, .lit 97, .copy 258 0 8 7,
   .copy 260 0 8 1, .copy 265 1 6 3, .copy 261 0 10 3, .copy 260 0 11 4, .lit 112, .lit 104, .lit 97,
   .copy 261 0 9 4, .lit 98, .lit 101, .lit 116, .copy 264 0 6 1, .lit 97, .copy 263 0 12 9, .copy 258 0 10 0,
   .copy 259 0 8 0, .copy 260 0 6 2, .copy 260 0 12 26, .copy 267 0 10 11, .copy 258 0 7 2, .copy 265 0 12 15,
   .copy 264 0 9 0, .copy 260 0 7 3, .copy 260 0 12 10, .copy 264 0 10 9, .copy 262 0 12 2, .copy 262 0 13 25,
   .copy 259 0 4 1]

def sampleBlocks : List Block :=
  [.dynamic sampleDyn sampleToks,
   .stored [false, false] [],
   .fixed [.lit 102, .lit 105, .lit 110, .lit 10]]

def sampleRest : List Bool := [false, false, false, false, false, false]

theorem sample_ok : StreamOk 0 sampleBlocks := by decide +kernel
theorem sample_bits : Spec.bits sampleBytes = streamBits sampleBlocks ++ sampleRest := by decide +kernel
theorem sample_expand : expandBlocks [] sampleBlocks = some sampleOut := by decide +kernel

theorem sample_inflates : InflatesExactly sampleBytes sampleOut :=
  ⟨sampleBlocks, sampleRest, by decide, sample_ok, sample_bits, by decide, sample_expand⟩

end Npy
