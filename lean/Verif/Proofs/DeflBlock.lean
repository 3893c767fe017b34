import Verif.Proofs.DeflLz
/-!
# One block of the compressor's output
-/

namespace Npy
open Spec.Deflate

/-- The symbol a token counts for in the literal/length alphabet. -/
def LzTok.litSym : LzTok → Nat
  | .lit b => b.toNat
  | .mat l _ => lenSymTab.getD l 0

/-- Does it count for the distance symbol? -/
def LzTok.hasDist (s : Nat) : LzTok → Bool
  | .lit _ => false
  | .mat _ d => distSym d == s

/-- The counts of the two alphabets. -/
structure Counts (lit dist : Nat → Nat) (toks : List LzTok) : Prop where
  lit : ∀ s, lit s = toks.countP fun t => t.litSym = s
  dist : ∀ s, dist s = toks.countP (LzTok.hasDist s)

theorem counts_empty : Counts (fun _ => 0) (fun _ => 0) [] := ⟨fun _ => rfl, fun _ => rfl⟩

theorem LzTok.litSym_lt {t : LzTok} (h : t.Rng) : t.litSym < 286 := by
  cases t with
  | lit b => have := b.toNat_lt; simp only [LzTok.litSym]; omega
  | mat l d => have := (lenTab_ok l h.1).2.1; simp only [LzTok.litSym]; omega

theorem LzTok.litSym_ne {t : LzTok} (h : t.Rng) : t.litSym ≠ 256 := by
  cases t with
  | lit b => have := b.toNat_lt; simp only [LzTok.litSym]; omega
  | mat l d => have := (lenTab_ok l h.1).1; simp only [LzTok.litSym]; omega

theorem sum_countP_le' (toks : List LzTok) (p : Nat → LzTok → Bool)
    (hp : ∀ t s s', p s t = true → p s' t = true → s = s') (k : Nat) :
    ∑ s ∈ Finset.range k, toks.countP (p s) ≤ toks.length := by
  induction toks with
  | nil => simp
  | cons t ts ih =>
    simp only [List.countP_cons, Finset.sum_add_distrib, List.length_cons]
    have : ∑ s ∈ Finset.range k, (if p s t = true then 1 else 0) ≤ 1 := by
      rw [Finset.sum_ite, Finset.sum_const_zero, Finset.sum_const, nsmul_eq_mul, mul_one, add_zero, Nat.cast_id, Finset.card_le_one]
      intro a ha b hb
      simp only [Finset.mem_filter] at ha hb
      exact hp t a b ha.2 hb.2
    omega

/-- The bits of the tokens with the fixed codes. -/
theorem fixedBits_le (t : LzTok) (hr : t.Rng) : 4 * (t.tok.bits fixedLit fixedDist).length ≤ 40 * t.bytes.length + 5 := by
  have hle : ∀ s, (huff fixedLit s).length ≤ 9 := by
    intro s
    unfold huff msb
    rw [List.length_reverse, lsb_length]
    by_cases hs : s < 288
    · exact (by decide +kernel : ∀ s < 288, lenOf fixedLit s ≤ 9) s hs
    · have : lenOf fixedLit s = 0 := by
        have : fixedLit.length = 288 := by decide +kernel
        unfold lenOf
        rw [List.getD, List.getElem?_eq_none (by omega)]
        rfl
      omega
  have hle5 : ∀ s, (huff fixedDist s).length ≤ 5 := by
    intro s
    unfold huff msb
    rw [List.length_reverse, lsb_length]
    by_cases hs : s < 32
    · exact (by decide +kernel : ∀ s < 32, lenOf fixedDist s ≤ 5) s hs
    · have : lenOf fixedDist s = 0 := by
        have : fixedDist.length = 32 := by decide +kernel
        unfold lenOf
        rw [List.getD, List.getElem?_eq_none (by omega)]
        rfl
      omega
  cases t with
  | lit b =>
    simp only [LzTok.tok, Tok.bits, LzTok.bytes, List.length_singleton]
    have := hle b.toNat
    omega
  | mat l d =>
    simp only [LzTok.tok, Tok.bits, LzTok.bytes, List.length_append, lsb_length, List.length_cons, List.length_nil]
    obtain ⟨-, -, h3, -, h5⟩ := lenTab_ok l hr.1
    obtain ⟨-, g2, -, g4⟩ := distTab_ok d hr.2
    have h7 : (huff fixedLit (lenSymTab.getD l 0)).length ≤ 8 := by
      have : ∀ l < 256, lenOf fixedLit (lenSymTab.getD l 0) ≤ 8 := by decide +kernel
      have := this l hr.1
      unfold huff msb
      rw [List.length_reverse, lsb_length]
      exact this
    have := hle5 (distSym d)
    omega

theorem fixedBits_sum_le (toks : List LzTok) (hr : ∀ t ∈ toks, t.Rng) :
    4 * (toks.flatMap fun t => t.tok.bits fixedLit fixedDist).length ≤
      40 * (toks.flatMap LzTok.bytes).length + 5 * toks.length := by
  induction toks with
  | nil => simp
  | cons t ts ih =>
    have := ih (fun t ht => hr t (by simp [ht]))
    have := fixedBits_le t (hr t (by simp))
    simp only [List.flatMap_cons, List.length_append, List.length_cons]
    omega

theorem fixedLit_out : (staticTable fixedLit).Out := ⟨staticTable_codes _ (by decide +kernel), by decide +kernel⟩
theorem fixedDist_out : (staticTable fixedDist).Out := ⟨staticTable_codes _ (by decide +kernel), by decide +kernel⟩

/-- What is known about the tokens of a block. -/
structure BlockIn (lz : LzBuf) (lit dist : Nat → Nat) (toks : List LzTok) : Prop where
  holds : lz.Holds toks
  rng : ∀ t ∈ toks, t.Rng
  counts : Counts lit dist toks
  pos : lz.pos ≤ 65532

theorem LzTok.ok_fixed {t : LzTok} (h : t.Rng) : t.tok.Ok fixedLit fixedDist := by
  have hl : ∀ s < 288, lenOf fixedLit s ≠ 0 := by decide +kernel
  have hd : ∀ s < 32, lenOf fixedDist s ≠ 0 := by decide +kernel
  refine LzTok.ok h ?_
  cases t with
  | lit b => exact hl _ (by have := b.toNat_lt; omega)
  | mat l d =>
    have := (lenTab_ok l h.1).2.1
    have := (distTab_ok d h.2).1
    exact ⟨hl _ (by omega), hd _ (by omega)⟩

theorem lsb_one (b : Bool) : lsb 1 (if b then 1 else 0) = [b] := by cases b <;> rfl

theorem flatMap_tok (toks : List LzTok) (lit dist : List Nat) :
    (toks.flatMap fun t => t.tok.bits lit dist) = (toks.map LzTok.tok).flatMap (Tok.bits lit dist) := by
  rw [List.flatMap_map]

/-- `tdefl_compress_block`. -/
theorem compressBlock_ok {lz : LzBuf} {lit dist : Nat → Nat} {toks : List LzTok} (hb : BlockIn lz lit dist toks)
    (static : Bool) {w : BitOut} {pre : List Bool} {fin : Bool} (h : w.Good (pre ++ [fin])) (hpre : pre.length < 8) (pos : Nat) :
    ∃ w' ok blk, compressBlock false dbg lit dist lz.codes static w = .ok (w', ok) ∧
      (ok = true → w'.Good (pre ++ Block.bits fin blk) ∧ w'.view = pre ++ Block.bits fin blk ∧ w'.out.length < OUT_LIMIT) ∧
      Block.Ok pos blk ∧ (∀ out, Block.expand out blk = expandToks out (toks.map LzTok.tok)) ∧
      (static = true → ok = true ∧ blk = .fixed (toks.map LzTok.tok)) ∧
      (static = false → ∃ tl td w1 D, startDynamic lit dist w = .ok (tl, td, w1) ∧ blk = .dynamic D (toks.map LzTok.tok) ∧
        w1.Good (pre ++ [fin] ++ lsb 2 2 ++ D.bits) ∧ (∀ s, lenOf D.lit s = lenOf tl.sizes s) ∧
        (∀ s, lenOf D.dist s = lenOf td.sizes s) ∧ ((pre ++ Block.bits fin blk).length < 8 * OUT_LIMIT → ok = true)) := by
  unfold compressBlock
  obtain ⟨hb1, hb2, -⟩ := hb.holds.pos_eq
  have hb3 := hb.pos
  cases static with
  | true =>
    simp only [if_true, startStatic]
    have hg : (w.put 1 2).Good (pre ++ [fin] ++ lsb 2 1) := h.put (by norm_num) (by norm_num)
    have hok : ∀ t ∈ toks, t.tok.Ok fixedLit fixedDist := fun t ht => LzTok.ok_fixed (hb.rng t ht)
    obtain ⟨w', ok, e1, e2, e3⟩ := compressLzCodes_ok fixedLit_out fixedDist_out hb.holds hb.rng hok
      (by decide +kernel : lenOf fixedLit 256 ≠ 0) hg
    have hsz : (staticTable fixedLit).sizes = fixedLit ∧ (staticTable fixedDist).sizes = fixedDist := ⟨rfl, rfl⟩
    rw [hsz.1, hsz.2] at e2 e3
    have hbits : pre ++ [fin] ++ lsb 2 1 ++ (toks.flatMap fun t => t.tok.bits fixedLit fixedDist) ++ huff fixedLit 256 =
        pre ++ Block.bits fin (.fixed (toks.map LzTok.tok)) := by
      rw [flatMap_tok]
      simp [Block.bits, List.append_assoc]
    rw [hbits] at e2 e3
    have hfit : ok = true := by
      apply e3
      rw [← hbits]
      have := fixedBits_sum_le toks hb.rng
      have h256 : (huff fixedLit 256).length = 7 := by decide +kernel
      simp only [List.length_append, lsb_length, List.length_singleton, h256, OUT_LIMIT, OUT_BUF_SIZE] at *
      omega
    exact ⟨w', ok, .fixed (toks.map LzTok.tok), e1, e2, by
      intro t ht
      obtain ⟨t', ht', rfl⟩ := List.mem_map.1 ht
      exact hok t' ht', fun out => rfl, fun _ => ⟨hfit, rfl⟩, by simp⟩
  | false =>
    simp only [Bool.false_eq_true, if_false]
    have hcl : ∀ s, setAt lit 256 1 s = (if s = 256 then 1 else 0) + toks.countP (fun t => t.litSym = s) := by
      intro s
      by_cases hs : s = 256
      · subst hs
        rw [setAt_self, if_pos rfl, List.countP_eq_zero.2]
        intro t ht
        simpa using LzTok.litSym_ne (hb.rng t ht)
      · rw [setAt_ne _ _ hs, if_neg hs, hb.counts.lit, Nat.zero_add]
    have hl0 : ∀ s, 286 ≤ s → lit s = 0 := by
      intro s hs
      rw [hb.counts.lit, List.countP_eq_zero]
      intro t ht
      have := LzTok.litSym_lt (hb.rng t ht)
      simp only [decide_eq_true_eq]
      omega
    have hd0 : ∀ s, 30 ≤ s → dist s = 0 := by
      intro s hs
      rw [hb.counts.dist, List.countP_eq_zero]
      intro t ht
      have hr := hb.rng t ht
      cases t with
      | lit b => simp [LzTok.hasDist]
      | mat l d =>
        have := (distTab_ok d hr.2).1
        simp only [LzTok.hasDist, beq_iff_eq]
        omega
    have hsl : ∑ i ∈ Finset.range 288, setAt lit 256 1 i < 65536 := by
      simp only [hcl, Finset.sum_add_distrib]
      have h1 := sum_countP_le' toks (fun s t => decide (t.litSym = s)) (by
        intro t s s' h1 h2
        simp only [decide_eq_true_eq] at h1 h2
        omega) 288
      have h2 : ∑ i ∈ Finset.range 288, (if i = 256 then 1 else 0) = 1 := by decide +kernel
      omega
    have hsd : ∑ i ∈ Finset.range 32, dist i < 65536 := by
      simp only [hb.counts.dist]
      have h1 := sum_countP_le' toks LzTok.hasDist (by
        intro t s s' h1 h2
        cases t with
        | lit b => simp [LzTok.hasDist] at h1
        | mat l d =>
          simp only [LzTok.hasDist, beq_iff_eq] at h1 h2
          omega) 32
      omega
    obtain ⟨tl, td, w1, D, s1, s2, s3, s4, s5, s6, s7, s8, s9, s10, s11⟩ := startDynamic_ok lit dist w _ h hsl hsd hl0 hd0
    have hok : ∀ t ∈ toks, t.tok.Ok tl.sizes td.sizes := by
      intro t ht
      have hr := hb.rng t ht
      have hlit : lenOf tl.sizes t.litSym ≠ 0 := by
        rw [s10 _ (by have := LzTok.litSym_lt hr; omega), hcl]
        have : 0 < toks.countP (fun t' => t'.litSym = t.litSym) := List.countP_pos_iff.2 ⟨t, ht, by simp⟩
        omega
      refine LzTok.ok hr ?_
      cases t with
      | lit b => exact hlit
      | mat l d =>
        refine ⟨hlit, ?_⟩
        rw [s11 _ (by have := (distTab_ok d hr.2).1; omega), hb.counts.dist]
        have : 0 < toks.countP (LzTok.hasDist (distSym d)) := List.countP_pos_iff.2 ⟨_, ht, by simp [LzTok.hasDist]⟩
        omega
    have h256 : lenOf tl.sizes 256 ≠ 0 := by
      rw [s10 256 (by norm_num), hcl, if_pos rfl]
      omega
    obtain ⟨w', ok, e1, e2, e3⟩ := compressLzCodes_ok ⟨s4, s6⟩ ⟨s5, s7⟩ hb.holds hb.rng hok h256 s3
    have htb : ∀ t : Tok, t.bits tl.sizes td.sizes = t.bits D.lit D.dist := by
      intro t
      cases t <;> simp only [Tok.bits, (s8 _).1, (s9 _).1]
    have hbits : pre ++ [fin] ++ lsb 2 2 ++ D.bits ++ (toks.flatMap fun t => t.tok.bits tl.sizes td.sizes) ++ huff tl.sizes 256 =
        pre ++ Block.bits fin (.dynamic D (toks.map LzTok.tok)) := by
      rw [flatMap_tok, ← (s8 256).1]
      have : Tok.bits tl.sizes td.sizes = Tok.bits D.lit D.dist := funext htb
      rw [this]
      simp [Block.bits, List.append_assoc]
    rw [hbits] at e2 e3
    refine ⟨w', ok, .dynamic D (toks.map LzTok.tok), ?_, e2, ⟨s2, ?_⟩, fun out => rfl, by simp,
      fun _ => ⟨tl, td, w1, D, s1, rfl, s3, fun s => (s8 s).2, fun s => (s9 s).2, e3⟩⟩
    · rw [s1]; exact e1
    · intro t ht
      obtain ⟨t', ht', rfl⟩ := List.mem_map.1 ht
      have := hok t' ht'
      revert this
      generalize t'.tok = t
      cases t <;> simp only [Tok.Ok, (s8 _).2, (s9 _).2] <;> exact id

/-- Bytes of the dictionary. -/
def dictBytes (dict : Nat → UInt8) (from_ : Nat) : Nat → Nat → Bytes
  | 0, _ => []
  | k + 1, i => dict ((from_ + i) % 32768) :: dictBytes dict from_ k (i + 1)

theorem dictBytes_length (dict : Nat → UInt8) (from_ k i : Nat) : (dictBytes dict from_ k i).length = k := by
  induction k generalizing i with
  | zero => rfl
  | succ k ih => rw [dictBytes, List.length_cons, ih]

theorem putRaw_ok (dict : Nat → UInt8) (from_ k i : Nat) {w : BitOut} {v : List Bool} (h : w.Good v) :
    (putRaw dict from_ k i w).Good (v ++ Spec.bits (dictBytes dict from_ k i)) := by
  induction k generalizing i w v with
  | zero => simpa [putRaw, dictBytes, bits_nil] using h
  | succ k ih =>
    have := ih (i + 1) (h.put (b := (dict ((from_ + i) % 32768)).toNat) (l := 8) (UInt8.toNat_lt _) (by norm_num))
    rw [dictBytes, bits_cons, byteBits_eq, ← List.append_assoc]
    exact this

theorem dl_xor_ffff {x : Nat} (h : x < 2 ^ 16) : x ^^^ 0xFFFF = 2 ^ 16 - 1 - x := by
  have h1 : (~~~(BitVec.ofNat 16 x)).toNat = 2 ^ 16 - 1 - x := by
    rw [BitVec.toNat_not, BitVec.toNat_ofNat, Nat.mod_eq_of_lt h]
  rw [BitVec.not_def, BitVec.toNat_xor, BitVec.toNat_ofNat, Nat.mod_eq_of_lt h, BitVec.toNat_allOnes, Nat.xor_comm] at h1
  exact h1

theorem rawBlock_ok (d : Tdefl) (ht : d.totalLzBytes ≤ 32768) {w : BitOut} {pre : List Bool} {fin : Bool}
    (h : w.Good (pre ++ [fin])) (hpre : pre.length < 8) (pos : Nat) (hpos : pos % 8 = pre.length) :
    ∃ pad, let blk := Block.stored pad (dictBytes d.dict d.codeBufDictPos d.totalLzBytes 0)
      (rawBlock d w).Good (pre ++ blk.bits fin) ∧ (rawBlock d w).view = pre ++ blk.bits fin ∧ (rawBlock d w).out.length < OUT_LIMIT ∧ blk.Ok pos := by
  unfold rawBlock
  have h1 : (w.put 0 2).Good (pre ++ [fin] ++ lsb 2 0) := h.put (by norm_num) (by norm_num)
  obtain ⟨pad, p1, p2, p3⟩ := h1.align
  have hv : (w.put 0 2).view = pre ++ [fin] ++ lsb 2 0 := h1.fits (by
    simp only [List.length_append, List.length_singleton, lsb_length, OUT_LIMIT, OUT_BUF_SIZE]
    omega)
  have p4 := p3 hv
  have e1 : d.totalLzBytes &&& 0xFFFF = d.totalLzBytes := by
    rw [show 0xFFFF = 2 ^ 16 - 1 by norm_num, Nat.and_two_pow_sub_one_eq_mod]
    exact Nat.mod_eq_of_lt (by omega)
  have e2 : (d.totalLzBytes ^^^ 0xFFFF) &&& 0xFFFF = 2 ^ 16 - 1 - d.totalLzBytes := by
    have hx := dl_xor_ffff (x := d.totalLzBytes) (by omega)
    rw [hx, show 0xFFFF = 2 ^ 16 - 1 by norm_num, Nat.and_two_pow_sub_one_eq_mod]
    exact Nat.mod_eq_of_lt (by omega)
  have h2 := p2.put (b := d.totalLzBytes) (l := 16) (by omega) le_rfl
  have h3 := h2.put (b := 2 ^ 16 - 1 - d.totalLzBytes) (l := 16) (by omega) le_rfl
  have h4 := putRaw_ok d.dict d.codeBufDictPos d.totalLzBytes 0 h3
  refine ⟨pad, ?_⟩
  dsimp only
  rw [e1, e2]
  have hb : pre ++ [fin] ++ lsb 2 0 ++ pad ++ lsb 16 d.totalLzBytes ++ lsb 16 (2 ^ 16 - 1 - d.totalLzBytes) ++
      Spec.bits (dictBytes d.dict d.codeBufDictPos d.totalLzBytes 0) =
      pre ++ Block.bits fin (.stored pad (dictBytes d.dict d.codeBufDictPos d.totalLzBytes 0)) := by
    simp [Block.bits, dictBytes_length, List.append_assoc]
  rw [hb] at h4
  have hlen : (pre ++ Block.bits fin (.stored pad (dictBytes d.dict d.codeBufDictPos d.totalLzBytes 0))).length < 8 * OUT_LIMIT := by
    rw [← hb]
    simp only [List.length_append, List.length_singleton, lsb_length, bits_length, dictBytes_length, OUT_LIMIT, OUT_BUF_SIZE]
    omega
  refine ⟨h4, h4.fits hlen, ?_, ?_, p1, by rw [dictBytes_length]; omega⟩
  · have hv := h4.fits hlen
    rw [← hv, BitOut.view_length] at hlen
    omega
  · simp only [List.length_append, List.length_singleton, lsb_length] at p4
    omega


/-- The size of a block with the fixed codes. -/
theorem fixedBlock_size {toks : List LzTok} (hr : ∀ t ∈ toks, t.Rng) {total : Nat} (ht : (toks.flatMap LzTok.bytes).length ≤ total)
    {w : BitOut} {pre : List Bool} {fin : Bool} (hpre : pre.length < 8)
    (hv : w.view = pre ++ Block.bits fin (.fixed (toks.map LzTok.tok))) : w.out.length ≤ 2 * total + 8 := by
  have h1 := congrArg List.length hv
  have h2 := fixedBits_sum_le toks hr
  have h3 : toks.length ≤ (toks.flatMap LzTok.bytes).length := by
    clear h1 h2 hv ht
    induction toks with
    | nil => simp
    | cons t l ih =>
      rw [List.flatMap_cons, List.length_append, List.length_cons]
      have := ih (fun t ht => hr t (by simp [ht]))
      have : 1 ≤ t.bytes.length := by cases t <;> simp [LzTok.bytes]
      omega
  have h256 : (huff fixedLit 256).length = 7 := by decide +kernel
  rw [flatMap_tok] at h2
  rw [BitOut.view_length] at h1
  simp only [Block.bits, List.length_append, List.length_cons, lsb_length, h256] at h1
  omega

/-- One block, whatever its type: with the bits `pre` already in the buffer it is appended, and it expands to what the tokens
expand to. -/
theorem putBlock_ok {d : Tdefl} {toks : List LzTok} (hb : BlockIn d.lz d.litCount d.distCount toks) {w : BitOut} {pre : List Bool}
    {fin : Bool} (h : w.Good (pre ++ [fin])) (hpre : pre.length < 8) (pos : Nat) (hpos : pos % 8 = pre.length) (out : Bytes)
    (hraw : d.totalLzBytes ≠ 0 → d.lookaheadPos - d.codeBufDictPos ≤ d.dictSize → d.totalLzBytes ≤ 32768 ∧
      expandToks out (toks.map LzTok.tok) = some (out ++ dictBytes d.dict d.codeBufDictPos d.totalLzBytes 0))
    (htot : (toks.flatMap LzTok.bytes).length ≤ d.totalLzBytes) :
    ∃ w' blk, putBlock false dbg d w = .ok w' ∧ w'.Good (pre ++ Block.bits fin blk) ∧ w'.view = pre ++ Block.bits fin blk ∧
      w'.out.length < OUT_LIMIT ∧ Block.Ok pos blk ∧ Block.expand out blk = expandToks out (toks.map LzTok.tok) ∧
      (d.lookaheadPos - d.codeBufDictPos ≤ d.dictSize → w'.out.length ≤ 2 * d.totalLzBytes + 8) := by
  unfold putBlock
  have hw0 : w.out.length ≤ 1 := by
    have := congrArg List.length (h.fits (by simp only [List.length_append, List.length_singleton, OUT_LIMIT, OUT_BUF_SIZE]; omega))
    rw [BitOut.view_length, List.length_append, List.length_singleton] at this
    omega
  obtain ⟨w1, ok, blk, e1, e2, e3, e4, e5, -⟩ := compressBlock_ok hb (decide (d.totalLzBytes < 48)) h hpre pos
  rw [e1]
  simp only [bind, Except.bind, pure, Except.pure]
  split
  · rename_i hu
    simp only [useRaw, Bool.and_eq_true, decide_eq_true_eq] at hu
    obtain ⟨r1, r2⟩ := hraw hu.1.1 hu.2
    obtain ⟨pad, q1, q2, q3, q4⟩ := rawBlock_ok d r1 h hpre pos hpos
    refine ⟨_, _, rfl, q1, q2, q3, q4, by rw [r2]; rfl, fun _ => ?_⟩
    have hl := congrArg List.length q2
    have hp := q4.2.1
    rw [BitOut.view_length] at hl
    simp only [Block.bits, List.length_append, List.length_cons, lsb_length, bits_length, dictBytes_length] at hl
    omega
  · split
    · rename_i hu hok
      refine ⟨w1, blk, rfl, (e2 hok).1, (e2 hok).2.1, (e2 hok).2.2, e3, e4 out, fun hwin => ?_⟩
      by_cases h0 : d.totalLzBytes = 0
      · have hb' := (e5 (by rw [h0]; rfl)).2
        rw [hb'] at e2
        exact fixedBlock_size hb.rng htot hpre (e2 hok).2.1
      · have : ¬(w1.out.length - w.out.length + 1 ≥ d.totalLzBytes) := by
          intro hc
          apply hu
          simp only [useRaw, Bool.and_eq_true, decide_eq_true_eq]
          exact ⟨⟨h0, hc⟩, hwin⟩
        omega
    · obtain ⟨w2, ok2, blk2, g1, g2, g3, g4, g5, -⟩ := compressBlock_ok hb true h hpre pos
      rw [g1]
      obtain ⟨hok, hb'⟩ := g5 rfl
      refine ⟨w2, blk2, rfl, (g2 hok).1, (g2 hok).2.1, (g2 hok).2.2, g3, g4 out, fun _ => ?_⟩
      rw [hb'] at g2
      exact fixedBlock_size hb.rng htot hpre (g2 hok).2.1

end Npy
