import Verif.Proofs.DeflZeros
/-!
# Zeros, compressed: the stream, and its decompression
-/

set_option maxRecDepth 8000

namespace Npy
open Spec.Deflate

/-! ### The block -/

/-- How often the literals and lengths occur. -/
def zeroLit (s : Nat) : Nat := if s = 0 then 3 else if s = 285 then 127 else 0
/-- How often the distances occur. -/
def zeroDist (s : Nat) : Nat := if s = 0 then 127 else 0

theorem zero_counts {lit dist : Nat → Nat} (h : Counts lit dist zeroToks) : lit = zeroLit ∧ dist = zeroDist := by
  have e1 : lenSymTab.getD 255 0 = 285 := by decide +kernel
  have e2 : distSym 0 = 0 := by decide +kernel
  constructor
  · funext s
    rw [h.lit]
    simp only [zeroToks, zeroPre, List.countP_append, List.countP_cons, List.countP_nil, List.countP_replicate, LzTok.litSym, e1,
      decide_eq_true_eq]
    unfold zeroLit
    by_cases h0 : s = 0
    · subst h0; simp
    · have : (0 : UInt8).toNat = 0 := rfl
      by_cases h1 : s = 285
      · subst h1; simp
      · simp [h0, h1, Ne.symm h0, Ne.symm h1]
  · funext s
    rw [h.dist]
    simp only [zeroToks, zeroPre, List.countP_append, List.countP_cons, List.countP_nil, List.countP_replicate, LzTok.hasDist, e2]
    unfold zeroDist
    by_cases h0 : s = 0
    · subst h0; simp
    · simp [h0, Ne.symm h0]

def zeroLitSizes : List Nat := [2] ++ List.replicate 255 0 ++ [2] ++ List.replicate 28 0 ++ [1, 0, 0]

theorem zero_dynamic : (startDynamic zeroLit zeroDist ⟨[], 1, 1, false⟩).toOption.map
    (fun r => (r.1.sizes, r.2.1.sizes.take 1, r.2.2.out.length, r.2.2.n)) = some (zeroLitSizes, [1], 12, 7) := by
  decide +kernel

theorem flatMap_replicate_length {α : Type} (f : α → List Bool) (a : α) (n : Nat) :
    ((List.replicate n a).flatMap f).length = n * (f a).length := by
  induction n with
  | zero => simp
  | succ n ih => rw [List.replicate_succ, List.flatMap_cons, List.length_append, ih, Nat.succ_mul, Nat.add_comm]

/-- What is known of the block. -/
structure ZBlock (D : Dyn) : Prop where
  ok : D.Ok
  toks : ∀ t ∈ zeroToks.map LzTok.tok, t.Ok D.lit D.dist
  l256 : lenOf D.lit 256 = 2
  len : ((Block.dynamic D (zeroToks.map LzTok.tok)).bits true).length = 365

theorem zeros_block {d : Tdefl} (h : ZState d zeroToks 32769) (hl : d.lookaheadSize = 0) :
    ∃ D w, putBlock false dbg d (BitOut.put { out := [], buf := d.bitBuf, n := d.bitsIn } 1 1) = .ok w ∧
      w.Good ((Block.dynamic D (zeroToks.map LzTok.tok)).bits true) ∧
      w.view = (Block.dynamic D (zeroToks.map LzTok.tok)).bits true ∧ w.out.length < OUT_LIMIT ∧ ZBlock D := by
  have hb := congrArg List.length h.inv.bits
  simp only [List.flatMap_nil, List.length_append, List.length_nil, lsb_length] at hb
  have hn : d.bitsIn = 0 := by omega
  have hbuf : d.bitBuf = 0 := by have := h.inv.buf; rw [hn] at this; omega
  rw [hn, hbuf, show BitOut.put { out := [], buf := 0, n := 0 } 1 1 = ⟨[], 1, 1, false⟩ by decide]
  have hg : BitOut.Good ⟨[], 1, 1, false⟩ ([] ++ [true]) := ⟨by norm_num, by norm_num, rfl, .inl (by decide)⟩
  obtain ⟨c1, c2⟩ := zero_counts h.inv.counts
  have hpos : d.lz.pos ≤ 65532 := by
    have h1 := h.inv.holds.pos_eq
    have h2 := lzBytes_le zeroToks
    have h3 : zeroToks.length = 130 := by decide
    omega
  obtain ⟨w, ok, blk, e1, e2, e3, -, -, e6⟩ := compressBlock_ok ⟨h.inv.holds, h.inv.rng, h.inv.counts, hpos⟩ false hg (by simp) 0
  obtain ⟨tl, td, w1, D, s1, rfl, s3, s4, s5, s6⟩ := e6 rfl
  have htot : d.totalLzBytes = 32769 := by have := h.inv.total; rw [h.start, h.pos] at this; omega
  have hdyn := zero_dynamic
  rw [c1, c2] at s1
  rw [s1] at hdyn
  simp only [Except.toOption, Option.map_some, Option.some.injEq, Prod.mk.injEq] at hdyn
  obtain ⟨t1, t2, t3, t4⟩ := hdyn
  have hlit : ∀ s, lenOf D.lit s = lenOf zeroLitSizes s := fun s => by rw [s4, t1]
  have hdist : lenOf D.dist 0 = 1 := by
    rw [s5]
    have := congrArg (fun l => l[0]?) t2
    simp only [List.getElem?_take_of_lt (show 0 < 1 by omega)] at this
    rw [lenOf, List.getD, this]
    rfl
  have hD : D.bits.length = 100 := by
    have := congrArg List.length (s3.exact (by rw [t3]; decide))
    rw [BitOut.view_length, t3, t4] at this
    simp only [List.length_append, List.length_singleton, lsb_length, List.length_nil] at this
    omega
  have hlen : ((Block.dynamic D (zeroToks.map LzTok.tok)).bits true).length = 365 := by
    have k1 : ((LzTok.lit 0).tok.bits D.lit D.dist).length = 2 := by
      simp only [LzTok.tok, Tok.bits, huff_length, hlit]
      decide
    have k2 : ((LzTok.mat 255 0).tok.bits D.lit D.dist).length = 2 := by
      have e1 : lenSymTab.getD 255 0 = 285 := by decide +kernel
      have e2 : distSym 0 = 0 := by decide +kernel
      simp only [LzTok.tok, Tok.bits, List.length_append, lsb_length, huff_length, hlit, e1, e2, hdist]
      decide +kernel
    have k3 : (huff D.lit 256).length = 2 := by
      rw [huff_length, hlit]
      decide +kernel
    rw [Block.bits, ← flatMap_tok]
    simp only [zeroToks, zeroPre, List.flatMap_append, List.flatMap_cons, List.flatMap_nil, List.length_append, List.length_cons,
      flatMap_replicate_length, k1, k2, k3, hD, lsb_length, List.length_nil]
  have hok : ok = true := s6 (by rw [List.nil_append, hlen, OUT_LIMIT, OUT_BUF_SIZE]; norm_num)
  obtain ⟨g1, g2, g3⟩ := e2 hok
  rw [List.nil_append] at g1 g2
  refine ⟨D, w, ?_, g1, g2, g3, e3.1, e3.2, ?_, hlen⟩
  · unfold putBlock
    rw [htot, show decide (32769 < 48) = false by decide, e1]
    have hraw : useRaw d ⟨[], 1, 1, false⟩ w = false := by
      have := h.inv.win.size
      rw [h.pos] at this
      have hds := h.inv.ds
      rw [h.pos] at hds
      unfold useRaw
      rw [h.pos, h.start]
      simp only [Bool.and_eq_false_iff]
      right
      exact decide_eq_false (by omega)
    simp only [bind, Except.bind, pure, Except.pure]
    rw [hraw, if_neg (by simp), if_pos hok]
  · rw [hlit]; decide +kernel

/-! ### The stream -/

theorem zState_init (j : Junk) : ZState { Tdefl.init j with wantsToFinish := true } [] 0 := by
  constructor
  case inv =>
    have h := manyZeros_length
    generalize manyZeros = Z at h
    constructor
    case small => rw [h]; norm_num
    case ls => simp [Tdefl.init]
    case ds => simp [Tdefl.init]
    case win => exact win_empty Z _ 0 (by omega)
    case holds => exact LzBuf.holds_empty j
    case rng => simp
    case counts => exact counts_empty
    case expandToks => simp [Tdefl.init, expandToks]
    case total => simp [Tdefl.init]
    case saved => rfl
    case buf => simp [Tdefl.init]
    case bitsIn => simp [Tdefl.init]
    case bits => simp [Tdefl.init, bits_nil, lsb]
    case sok => trivial
    case expand => simp [Tdefl.init, expandBlocks]
    case fin => rfl
    case size => simp [Tdefl.init]
    case dlow => simp [Tdefl.init]
  case pend => rfl
  case chain => exact ⟨fun q hq => by simp [Tdefl.init] at hq, rfl⟩
  case got => exact .inr ⟨rfl, rfl⟩
  case pos => rfl
  case start => rfl

theorem read_short {b : Bytes} (h : b.length < CHUNK) : IStream.read CHUNK (IStream.ofBytes b) =
    (.ok b, { IStream.ofBytes b with rest := [], eof := true, fail := true }) := by
  show (if _ then _ else _) = _
  rw [if_neg (by show ¬CHUNK ≤ b.length; omega)]
  rfl

/-- The drivers, when one call does it all. -/
theorem drive_once (dbg : Bool) (j : Junk) (F : Nat) {Z : Bytes} (hZ : Z.length < CHUNK) {d' : Tdefl} {w : BitOut}
    (e1 : compressNormal false dbg j true CHUNK (F + 131) Z [] { Tdefl.init j with wantsToFinish := true } = .ok ([], [], d'))
    (l1 : d'.lookaheadSize = 0) (hp : d'.pending = [])
    (b1 : putBlock false dbg d' (BitOut.put { out := [], buf := d'.bitBuf, n := d'.bitsIn } 1 1) = .ok w)
    (hchk : w.align.check dbg = .ok w.align) (hlen : w.align.out.length < OUT_LIMIT) : npyDeflate false dbg j (F + 131) Z = .ok w.align.out := by
  unfold npyDeflate
  rw [npyDeflateOuter, read_short hZ]
  dsimp only
  rw [npyDeflateInner]
  have hfl : ∃ d'', finishUp false dbg j true CHUNK [] [] d' = .ok (w.align.out, d'') ∧ d''.pending = [] ∧ d''.finished = true := by
    unfold finishUp
    rw [if_pos ⟨rfl, l1, rfl, hp⟩]
    unfold flushBlock
    rw [if_pos rfl, b1]
    simp only [bind, Except.bind, pure, Except.pure, if_true, mzAssert_ok hp, hchk,
      mzAssert_ok (show w.align.out.length < OUT_LIMIT ∨ (True ∧ w.align.out.length = OUT_LIMIT ∧ d'.totalLzBytes > 32510) from .inl hlen)]
    rw [if_pos (by decide)]
    exact ⟨_, rfl, rfl, rfl⟩
  obtain ⟨d'', f1, f2, f3⟩ := hfl
  have htd : tdeflCompress false dbg j (F + 131) true CHUNK Z .okay (Tdefl.init j) = .ok ([], w.align.out, { d'' with pending := [] }, .done) := by
    unfold tdeflCompress
    rw [if_neg (by simp [Tdefl.init])]
    dsimp only
    rw [if_neg (by simp [Tdefl.init])]
    have e0 : ({ Tdefl.init j with wantsToFinish := (Tdefl.init j).wantsToFinish || true } : Tdefl) =
      { Tdefl.init j with wantsToFinish := true } := rfl
    rw [e0, e1]
    dsimp only
    rw [f1]
    dsimp only
    unfold flushOutput
    simp only [f2, f3, List.length_nil, Nat.min_zero, List.take_nil, List.append_nil, List.drop_nil, and_self, if_true]
  have hmz : mzDeflate false dbg j (F + 131) true ⟨Tdefl.init j, .okay, Z, CHUNK, []⟩ =
      .ok (.streamEnd, ⟨{ d'' with pending := [] }, .done, [], CHUNK - w.align.out.length, w.align.out⟩) := by
    unfold mzDeflate
    dsimp only
    rw [if_neg (by decide), if_neg (by simp), show F + 131 = F + 130 + 1 by omega, mzDeflateLoop]
    dsimp only
    rw [htd]
    dsimp only
    rw [if_neg (by simp), if_pos rfl]
    rfl
  rw [hmz]
  dsimp only
  have hc : CHUNK - w.align.out.length ≠ 0 := by
    rw [CHUNK]
    simp only [OUT_LIMIT, OUT_BUF_SIZE] at hlen
    omega
  rw [if_neg (by simp), if_neg hc, if_neg (by simp)]
  dsimp only
  rw [if_pos rfl, if_neg (by simp)]
  rfl

/-- The bytes that `npy_deflate` makes of the zeros. -/
theorem zeros_made (dbg : Bool) (j : Junk) (fuel : Nat) (hf : 200 ≤ fuel) :
    ∃ D z pad, npyDeflate false dbg j fuel manyZeros = .ok z ∧ ZBlock D ∧ pad.length < 8 ∧
      Spec.bits z = (Block.dynamic D (zeroToks.map LzTok.tok)).bits true ++ pad := by
  obtain ⟨F, rfl⟩ : ∃ F, fuel = F + 131 := ⟨fuel - 131, by omega⟩
  obtain ⟨d', e1, s1, l1⟩ := zeros_all j CHUNK F _ (zState_init j) rfl
  obtain ⟨D, w, b1, b2, b3, b4, b5⟩ := zeros_block s1 l1
  obtain ⟨pad, p1, p2, p3, p4⟩ := b2.align_exact b4
  refine ⟨D, w.align.out, pad, ?_, b5, p1, ?_⟩
  · have hl := congrArg List.length b3
    rw [b5.len, BitOut.view_length] at hl
    obtain ⟨pad2, -, ha, -⟩ := b2.align
    exact drive_once dbg j F (by rw [manyZeros_length, CHUNK]; norm_num) e1 l1 s1.pend b1 ha.check (by
      simp only [OUT_LIMIT, OUT_BUF_SIZE]; omega)
  · rw [← b3, ← p2, BitOut.view, p3]
    simp [lsb]

/-- What `npy_deflate` makes of 32769 zeros, `npy_inflate` refuses. -/
theorem zeros_fail (dbg : Bool) (j : Junk) (fuel : Nat) (hf : 200 ≤ fuel) :
    ∃ z, npyDeflate false dbg j fuel manyZeros = .ok z ∧
      ∀ fuel', 200 ≤ fuel' → npyInflate false fuel' z = .error (.throw (.runtimeError .inflateError)) := by
  obtain ⟨D, z, pad, h1, h2, h3, h4⟩ := zeros_made dbg j fuel hf
  refine ⟨z, h1, fun fuel' hf' => ?_⟩
  have hlen := congrArg List.length h4
  rw [bits_length, List.length_append, h2.len] at hlen
  have hpre : expandToks [] (zeroPre.map LzTok.tok) = some (List.replicate 32768 0) := by
    have e1 : (LzTok.mat 255 0).tok = .copy 285 0 0 0 := by decide +kernel
    have e2 : (LzTok.lit 0).tok = .lit 0 := rfl
    have e3 : zeroPre.map LzTok.tok = [.lit 0, .lit 0] ++ List.replicate 127 (.copy 285 0 0 0) := by
      rw [zeroPre, List.map_append, List.map_replicate, e1]
      rfl
    rw [e3, expandToks_append, show expandToks [] [.lit 0, .lit 0] = some (List.replicate 2 0) by decide, Option.bind_some,
      expand_copyZeros 127 2 (by omega)]
  have hsplit : zeroToks.map LzTok.tok = zeroPre.map LzTok.tok ++ [.lit 0] := by rw [zeroToks, List.map_append]; rfl
  have hall : expandToks [] (zeroToks.map LzTok.tok) = some (List.replicate 32769 0) := by
    rw [hsplit, expandToks_append, hpre, Option.bind_some]
    have := expand_litZeros 1 32768
    exact this
  have hl : (zeroToks.map LzTok.tok).length = 130 := by rw [List.length_map]; decide
  apply npyInflate_stall (L := pad.length) (out := List.replicate 32769 0) _ (by rw [CHUNK]; omega)
    (by rw [List.length_replicate]; omega) _ (by omega)
  · rintro rfl
    simp only [List.length_nil] at hlen
    omega
  · apply wp_dynamic h4 h2.ok h2.toks hall _ (by omega)
    rw [List.length_append, huff_length, h2.l256, hsplit]
    exact waitsOk_stall (by omega) hpre (by rw [List.length_replicate])

end Npy
