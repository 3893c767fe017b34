import Verif.Proofs.DeflMatch
/-!
# The compression loop
-/

namespace Npy
open Spec.Deflate

/-! ### Filling the lookahead -/

theorem fillFast_ok {input : Bytes} (cs : Bytes) (dst ins hash : Nat) (d : Tdefl) (lo hi : Nat)
    (hw : Win input d.dict lo hi) (hd : dst = hi % 32768) (hcs : cs <+: input.drop hi) :
    ∃ dict' next' hash', fillFastP cs dst ins hash d = { d with dict := dict', next := next', hash := hash' } ∧
      Win input dict' (max lo (hi + cs.length - 32768)) (hi + cs.length) := by
  induction cs generalizing dst ins hash d lo hi with
  | nil =>
    refine ⟨d.dict, d.next, d.hash, rfl, ?_⟩
    have := hw.size
    have := hw.le
    rw [List.length_nil, Nat.add_zero]
    exact hw.mono (by omega) (by omega)
  | cons c cs ih =>
    rw [fillFastP]
    have hc : input[hi]? = some c := by
      obtain ⟨t, ht⟩ := hcs
      have := congrArg (fun l => l[0]?) ht
      simp only [List.cons_append, List.getElem?_cons_zero, List.getElem?_drop, Nat.add_zero] at this
      exact this.symm
    have hcs' : cs <+: input.drop (hi + 1) := by
      obtain ⟨t, ht⟩ := hcs
      refine ⟨t, ?_⟩
      have := congrArg (List.drop 1) ht
      rw [List.drop_drop] at this
      simpa using this
    subst hd
    have hp := hw.put hc
    obtain ⟨dict', next', hash', e1, e2⟩ := ih ((hi % 32768 + 1) % 32768) (ins + 1) (((hash <<< 5) ^^^ c.toNat) % 32768)
      (insertHashP (((hash <<< 5) ^^^ c.toNat) % 32768) ins { d with dict := putDictP d.dict (hi % 32768) c }) _ (hi + 1) hp
      (by omega) hcs'
    refine ⟨dict', next', hash', by rw [e1]; rfl, ?_⟩
    rw [List.length_cons]
    have h1 := e2.le
    have h2 := e2.size
    rw [show hi + (cs.length + 1) = hi + 1 + cs.length by omega]
    exact e2.mono (by omega) (by omega)

theorem fillSlow_ok {input : Bytes} (src : Bytes) (d : Tdefl) (lo : Nat)
    (hw : Win input d.dict lo (d.lookaheadPos + d.lookaheadSize)) (hls : d.lookaheadSize ≤ 258)
    (hsrc : src <+: input.drop (d.lookaheadPos + d.lookaheadSize)) :
    ∃ n dict' next' hash', fillSlowP src d =
        (src.drop n, { d with dict := dict', next := next', hash := hash', lookaheadSize := d.lookaheadSize + n }) ∧
      n ≤ src.length ∧ d.lookaheadSize + n ≤ 258 ∧ (n < src.length → d.lookaheadSize + n = 258) ∧
      Win input dict' (max lo (d.lookaheadPos + (d.lookaheadSize + n) - 32768)) (d.lookaheadPos + (d.lookaheadSize + n)) := by
  induction src generalizing d lo with
  | nil =>
    refine ⟨0, d.dict, d.next, d.hash, rfl, le_rfl, hls, by simp, ?_⟩
    have := hw.size
    have := hw.le
    exact hw.mono (by omega) (by omega)
  | cons c src ih =>
    rw [fillSlowP]
    split
    · rename_i hlt
      have hc : input[d.lookaheadPos + d.lookaheadSize]? = some c := by
        obtain ⟨t, ht⟩ := hsrc
        have := congrArg (fun l => l[0]?) ht
        simp only [List.cons_append, List.getElem?_cons_zero, List.getElem?_drop, Nat.add_zero] at this
        exact this.symm
      have hcs' : src <+: input.drop (d.lookaheadPos + (d.lookaheadSize + 1)) := by
        obtain ⟨t, ht⟩ := hsrc
        refine ⟨t, ?_⟩
        have := congrArg (List.drop 1) ht
        rw [List.drop_drop] at this
        simpa [Nat.add_assoc] using this
      have hp := hw.put hc
      rw [Nat.add_assoc] at hp
      -- one step, then the rest
      have key : ∀ d' : Tdefl, (∃ next' hash', d' = { d with
          dict := putDictP d.dict ((d.lookaheadPos + d.lookaheadSize) % 32768) c, next := next', hash := hash',
          lookaheadSize := d.lookaheadSize + 1 }) →
          ∃ n dict' next' hash', fillSlowP src d' =
            ((c :: src).drop n, { d with dict := dict', next := next', hash := hash', lookaheadSize := d.lookaheadSize + n }) ∧
            n ≤ (c :: src).length ∧ d.lookaheadSize + n ≤ 258 ∧ (n < (c :: src).length → d.lookaheadSize + n = 258) ∧
            Win input dict' (max lo (d.lookaheadPos + (d.lookaheadSize + n) - 32768)) (d.lookaheadPos + (d.lookaheadSize + n)) := by
        rintro d' ⟨next', hash', rfl⟩
        obtain ⟨n, dict2, next2, hash2, e1, e2, e3, e4, e5⟩ := ih { d with
            dict := putDictP d.dict ((d.lookaheadPos + d.lookaheadSize) % 32768) c, next := next', hash := hash',
            lookaheadSize := d.lookaheadSize + 1 } _ hp (show d.lookaheadSize + 1 ≤ 258 by omega) hcs'
        dsimp only at e1 e2 e3 e4 e5
        refine ⟨n + 1, dict2, next2, hash2, ?_, ?_, ?_, ?_, ?_⟩
        · rw [e1, List.drop_succ_cons, show d.lookaheadSize + (n + 1) = d.lookaheadSize + 1 + n by omega]
        · rw [List.length_cons]; omega
        · omega
        · rw [List.length_cons]
          intro h
          have := e4 (by omega)
          omega
        · have h1 := e5.le
          have h2 := e5.size
          rw [show d.lookaheadSize + (n + 1) = d.lookaheadSize + 1 + n by omega]
          exact e5.mono (by omega) (by omega)
      dsimp only
      split
      · exact key _ ⟨_, _, rfl⟩
      · exact key _ ⟨d.next, d.hash, rfl⟩
    · refine ⟨0, d.dict, d.next, d.hash, rfl, by simp, hls, by omega, ?_⟩
      have := hw.size
      have := hw.le
      exact hw.mono (by omega) (by omega)

theorem fill_ok {input : Bytes} (src : Bytes) (d : Tdefl) (lo : Nat)
    (hw : Win input d.dict lo (d.lookaheadPos + d.lookaheadSize)) (hls : d.lookaheadSize ≤ 258)
    (hsrc : src <+: input.drop (d.lookaheadPos + d.lookaheadSize)) :
    ∃ n dict' next' hash', fillP src d =
        (src.drop n, { d with dict := dict', next := next', hash := hash', lookaheadSize := d.lookaheadSize + n }) ∧
      n ≤ src.length ∧ d.lookaheadSize + n ≤ 258 ∧ (n < src.length → d.lookaheadSize + n = 258) ∧
      Win input dict' (max lo (d.lookaheadPos + (d.lookaheadSize + n) - 32768)) (d.lookaheadPos + (d.lookaheadSize + n)) := by
  rw [fillP]
  split
  · dsimp only
    have htl : (src.take (min src.length (258 - d.lookaheadSize))).length = min src.length (258 - d.lookaheadSize) := by
      rw [List.length_take]; omega
    obtain ⟨dict', next', hash', e1, e2⟩ := fillFast_ok (input := input) (src.take (min src.length (258 - d.lookaheadSize)))
      ((d.lookaheadPos + d.lookaheadSize) % 32768) (d.lookaheadPos + d.lookaheadSize - 2)
      (((d.dict ((d.lookaheadPos + d.lookaheadSize - 2) % 32768)).toNat <<< 5) ^^^
        (d.dict ((d.lookaheadPos + d.lookaheadSize - 2 + 1) % 32768)).toNat) d lo _ hw rfl
      ((List.take_prefix _ _).trans hsrc)
    rw [htl] at e2
    refine ⟨min src.length (258 - d.lookaheadSize), dict', next', hash', by rw [e1], by omega, by omega, by omega, ?_⟩
    rw [← Nat.add_assoc]
    exact e2
  · exact fillSlow_ok src d lo hw hls hsrc

/-! ### The invariant of the loop -/

/-- The state of the compressor: `sent` was given to the caller; the blocks `blocks` were made (some of their bits may be in the
pending bytes and the bit buffer), and the tokens `toks` are recorded for the next one. -/
structure CInv (input sent : Bytes) (d : Tdefl) (toks : List LzTok) (blocks : List Block) : Prop where
  small : input.length < 2 ^ 32
  ls : d.lookaheadSize ≤ 258
  ds : d.dictSize ≤ d.lookaheadPos
  win : Win input d.dict (d.lookaheadPos - d.dictSize) (d.lookaheadPos + d.lookaheadSize)
  holds : d.lz.Holds toks
  rng : ∀ t ∈ toks, t.Rng
  counts : Counts d.litCount d.distCount toks
  expandToks : expandToks (input.take d.codeBufDictPos) (toks.map LzTok.tok) = some (input.take d.lookaheadPos)
  total : d.codeBufDictPos + d.totalLzBytes = d.lookaheadPos
  saved : d.savedLen = 0
  buf : d.bitBuf < 2 ^ d.bitsIn
  bitsIn : d.bitsIn < 8
  bits : Spec.bits (sent ++ d.pending) ++ lsb d.bitsIn d.bitBuf = blocks.flatMap (Block.bits false)
  sok : StreamOk 0 blocks
  expand : expandBlocks [] blocks = some (input.take d.codeBufDictPos)
  fin : d.finished = false
  size : (sent ++ d.pending).length ≤ 3 * d.codeBufDictPos
  dlow : min d.lookaheadPos 32510 ≤ d.dictSize

theorem Counts.snoc {lit dist : Nat → Nat} {toks : List LzTok} (h : Counts lit dist toks) (hn : toks.length < 65535) (b : UInt8) :
    Counts (bumpP lit b.toNat) dist (toks ++ [.lit b]) := by
  refine ⟨fun s => ?_, fun s => ?_⟩
  · unfold bumpP
    have hle := List.countP_le_length (p := fun t : LzTok => decide (t.litSym = s)) (l := toks)
    rw [List.countP_append]
    by_cases hs : s = b.toNat
    · subst hs
      rw [setAt_self, h.lit]
      have e : [LzTok.lit b].countP (fun t => decide (t.litSym = b.toNat)) = 1 := by simp [LzTok.litSym]
      omega
    · rw [setAt_ne _ _ hs, h.lit]
      have e : [LzTok.lit b].countP (fun t => decide (t.litSym = s)) = 0 := by simp [LzTok.litSym, Ne.symm hs]
      omega
  · rw [h.dist, List.countP_append]
    simp [LzTok.hasDist]

theorem Counts.snocMat {lit dist : Nat → Nat} {toks : List LzTok} (h : Counts lit dist toks) (hn : toks.length < 65535) (l d : Nat) :
    Counts (bumpP lit (lenSymTab.getD l 0)) (bumpP dist (distSym d)) (toks ++ [.mat l d]) := by
  refine ⟨fun s => ?_, fun s => ?_⟩
  · unfold bumpP
    have hle := List.countP_le_length (p := fun t : LzTok => decide (t.litSym = s)) (l := toks)
    rw [List.countP_append]
    by_cases hs : s = lenSymTab.getD l 0
    · subst hs
      rw [setAt_self, h.lit]
      have e : [LzTok.mat l d].countP (fun t => decide (t.litSym = lenSymTab.getD l 0)) = 1 := by
        rw [List.countP_singleton, if_pos]
        exact decide_eq_true rfl
      omega
    · rw [setAt_ne _ _ hs, h.lit]
      have e : [LzTok.mat l d].countP (fun t => decide (t.litSym = s)) = 0 := by
        rw [List.countP_singleton, if_neg]
        exact fun h => hs (of_decide_eq_true h).symm
      omega
  · unfold bumpP
    have hle := List.countP_le_length (p := LzTok.hasDist s) (l := toks)
    rw [List.countP_append]
    by_cases hs : s = distSym d
    · subst hs
      rw [setAt_self, h.dist]
      simp only [List.countP_singleton, LzTok.hasDist, beq_self_eq_true, if_true]
      omega
    · rw [setAt_ne _ _ hs, h.dist]
      simp only [List.countP_singleton, LzTok.hasDist, beq_iff_eq, if_neg (Ne.symm hs), Nat.add_zero]

theorem expandToks_snoc {o o' o'' : Bytes} {toks : List LzTok} {t : LzTok} (h : expandToks o (toks.map LzTok.tok) = some o')
    (ht : t.tok.expand o' = some o'') : expandToks o ((toks ++ [t]).map LzTok.tok) = some o'' := by
  rw [List.map_append, expandToks_append, h]
  simp [expandToks, ht]

theorem min_succ_le {p k d : Nat} (h : min p k ≤ d) : min (p + 1) k ≤ d + 1 := by omega

/-- What is recorded for a match (distance, length): its length and the token. -/
def tokenOf (d : Tdefl) (m : Nat × Nat) : Nat × LzTok :=
  if m.1 = 0 then (1, .lit (d.dict (d.lookaheadPos % 32768))) else (m.2, .mat (m.2 - 3) (m.1 - 1))

/-- Finding and recording a literal or a match. -/
theorem matchStep_ok (j : Junk) {input sent : Bytes} {d : Tdefl} {toks : List LzTok} {blocks : List Block}
    (h : CInv input sent d toks blocks) (hpos : d.lz.pos ≤ 65528) (hls : 1 ≤ d.lookaheadSize) :
    ∃ len t d', matchStep dbg j d = .ok d' ∧ CInv input sent d' (toks ++ [t]) blocks ∧ d'.lz.pos ≤ 65532 ∧ 1 ≤ len ∧
      len ≤ d.lookaheadSize ∧ d'.lookaheadPos = d.lookaheadPos + len ∧ d'.lookaheadSize = d.lookaheadSize - len ∧
      d'.pending = d.pending ∧ d'.wantsToFinish = d.wantsToFinish ∧ d'.codeBufDictPos = d.codeBufDictPos ∧
      d'.dict = d.dict ∧ d'.next = d.next ∧ d'.hash = d.hash ∧
      ∃ m, findMatch dbg d 2 = .ok m ∧ (len, t) = tokenOf d (dropMatch (d.lookaheadPos % 32768) m) := by
  have hds := h.ds
  have hsz := h.win.size
  have hfits := h.win.fits
  have hsmall := h.small
  have htot := h.total
  obtain ⟨hn1, hn2, -⟩ := h.holds.pos_eq
  obtain ⟨dist, len, e1, e2⟩ := findMatch_ok h.win (by omega) h.ls
  have hm : matchStep dbg j d = (do
      let (len, d) ← parseStep dbg j (dropMatch (d.lookaheadPos % 32768) (dist, len)) d
      mzAssert dbg (len ≤ d.lookaheadSize)
      pure (moveOn len d)) := by
    unfold matchStep
    rw [if_neg (by rw [h.saved]; simp), e1]
    rfl
  rw [hm]
  simp only [bind, Except.bind, pure, Except.pure]
  unfold parseStep
  dsimp only
  rw [if_neg (by rw [h.saved]; simp)]
  have hd' : MatchOk input (d.lookaheadPos - d.dictSize) d.lookaheadPos (d.lookaheadPos + d.lookaheadSize)
      (dropMatch (d.lookaheadPos % 32768) (dist, len)).1 (dropMatch (d.lookaheadPos % 32768) (dist, len)).2 := by
    unfold dropMatch
    split
    · exact .inl rfl
    · exact e2
  have hex : ∃ m, findMatch dbg d 2 = .ok m ∧
      dropMatch (d.lookaheadPos % 32768) (dist, len) = dropMatch (d.lookaheadPos % 32768) m := ⟨_, e1, rfl⟩
  clear e1 e2
  generalize dropMatch (d.lookaheadPos % 32768) (dist, len) = m at hd' hex ⊢
  obtain ⟨dist, len⟩ := m
  dsimp only at hd' ⊢
  by_cases h0 : dist = 0
  · -- a literal
    rw [if_pos h0, recordLiteral_pure]
    have hmin : min (d.lookaheadPos % 32768) 33024 = d.lookaheadPos % 32768 := by omega
    rw [hmin]
    clear hmin
    have hc := h.win.cell d.lookaheadPos (by omega) (by omega)
    obtain ⟨b', r1, r2, r3, -⟩ := h.holds.record j (.lit (d.dict (d.lookaheadPos % 32768))) (by simp only [LZ_CODE_BUF_SIZE]; omega)
    simp only [LzTok.bytes, List.length_singleton] at r1 r3
    simp only [bind, Except.bind, pure, Except.pure]
    rw [show d.lz.record j [d.dict (d.lookaheadPos % 32768)] false = .ok b' from r1]
    dsimp only
    rw [mzAssert_ok hls]
    have hmin1 : min (d.dictSize + 1) 32768 = d.dictSize + 1 := Nat.min_eq_left (by omega)
    have e32 : (d.lookaheadPos + 1) % 2 ^ 32 = d.lookaheadPos + 1 := Nat.mod_eq_of_lt (by omega)
    have hlast : ∃ m, findMatch dbg d 2 = .ok m ∧
        ((1 : Nat), LzTok.lit (d.dict (d.lookaheadPos % 32768))) = tokenOf d (dropMatch (d.lookaheadPos % 32768) m) := by
      obtain ⟨m, g1, g2⟩ := hex
      exact ⟨m, g1, by rw [← g2, tokenOf, if_pos h0]⟩
    refine ⟨1, .lit (d.dict (d.lookaheadPos % 32768)), _, rfl, ?_, ?_, le_rfl, hls, ?_, rfl, rfl, rfl, rfl, rfl, rfl, rfl, hlast⟩
    · constructor <;> try simp only [moveOn]
      case small => exact hsmall
      case ls => have := h.ls; omega
      case ds => rw [e32, hmin1]; exact Nat.succ_le_succ hds
      case win =>
        rw [e32, show d.lookaheadPos + 1 + (d.lookaheadSize - 1) = d.lookaheadPos + d.lookaheadSize by omega]
        rw [hmin1, Nat.add_sub_add_right]
        exact h.win
      case holds => exact r2
      case rng =>
        intro t ht
        rcases List.mem_append.1 ht with ht | ht
        · exact h.rng t ht
        · rw [List.mem_singleton.1 ht]; trivial
      case counts => exact h.counts.snoc (by omega) _
      case expandToks =>
        rw [e32]
        exact expandToks_snoc h.expandToks (LzTok.expand_lit hc)
      case total =>
        rw [e32, Nat.mod_eq_of_lt (by omega)]
        omega
      case saved => exact h.saved
      case buf => exact h.buf
      case bitsIn => exact h.bitsIn
      case bits => exact h.bits
      case sok => exact h.sok
      case expand => exact h.expand
      case fin => exact h.fin
      case size => exact h.size
      case dlow =>
        rw [e32, hmin1]
        exact min_succ_le h.dlow
    · simp only [moveOn]; omega
    · exact e32
  · -- a match
    rcases hd' with hd' | ⟨m1, m2, m3, m4, m5⟩
    · exact absurd hd' h0
    rw [if_neg h0, if_pos (by left; decide), recordMatch_pure _ _ _ m3]
    obtain ⟨b', r1, r2, r3, -⟩ := h.holds.record j (.mat (len - 3) (dist - 1)) (by simp only [LZ_CODE_BUF_SIZE]; omega)
    simp only [LzTok.bytes, List.length_cons, List.length_nil] at r1 r3
    rw [mzAssert_ok ⟨m2, by omega, by omega⟩]
    simp only [bind, Except.bind, pure, Except.pure]
    rw [show d.lz.record j [UInt8.ofNat (len - 3), UInt8.ofNat ((dist - 1) &&& 0xFF), UInt8.ofNat ((dist - 1) >>> 8)] true =
      .ok b' from r1]
    dsimp only
    rw [if_pos m2]
    dsimp only
    rw [mzAssert_ok (show len ≤ d.lookaheadSize by omega)]
    have e32 : (d.lookaheadPos + len) % 2 ^ 32 = d.lookaheadPos + len := Nat.mod_eq_of_lt (by omega)
    have hlast : ∃ m, findMatch dbg d 2 = .ok m ∧
        (len, LzTok.mat (len - 3) (dist - 1)) = tokenOf d (dropMatch (d.lookaheadPos % 32768) m) := by
      obtain ⟨m, g1, g2⟩ := hex
      exact ⟨m, g1, by rw [← g2, tokenOf, if_neg h0]⟩
    refine ⟨len, .mat (len - 3) (dist - 1), _, rfl, ?_, ?_, by omega, by omega, ?_, rfl, rfl, rfl, rfl, rfl, rfl, rfl, hlast⟩
    · constructor <;> try simp only [moveOn]
      case small => exact hsmall
      case ls => have := h.ls; omega
      case ds => rw [e32]; omega
      case win =>
        rw [e32, show d.lookaheadPos + len + (d.lookaheadSize - len) = d.lookaheadPos + d.lookaheadSize by omega]
        exact h.win.mono (by omega) (by omega)
      case holds => exact r2
      case rng =>
        intro t ht
        rcases List.mem_append.1 ht with ht | ht
        · exact h.rng t ht
        · rw [List.mem_singleton.1 ht]
          exact ⟨by omega, by omega⟩
      case counts => exact h.counts.snocMat (by omega) _ _
      case expandToks =>
        rw [e32]
        exact expandToks_snoc h.expandToks (LzTok.expand_mat h0 (by omega) (by omega) m2 m3 (by omega) m5)
      case total =>
        rw [e32, Nat.mod_eq_of_lt (by omega)]
        omega
      case saved => exact h.saved
      case buf => exact h.buf
      case bitsIn => exact h.bitsIn
      case bits => exact h.bits
      case sok => exact h.sok
      case expand => exact h.expand
      case fin => exact h.fin
      case size => exact h.size
      case dlow => have := h.dlow; rw [e32]; omega
    · simp only [moveOn]; omega
    · exact e32


/-! ### Flushing a block -/

theorem dictBytes_eq (input : Bytes) (dict : Nat → UInt8) (from_ k i : Nat)
    (h : ∀ t < k, input[from_ + i + t]? = some (dict ((from_ + i + t) % 32768))) :
    dictBytes dict from_ k i = (input.drop (from_ + i)).take k := by
  induction k generalizing i with
  | zero => simp [dictBytes]
  | succ k ih =>
    have h0 := h 0 (by omega)
    rw [Nat.add_zero] at h0
    obtain ⟨h1, h2⟩ := List.getElem?_eq_some_iff.1 h0
    rw [dictBytes, ih (i + 1) (fun t ht => by
      have := h (t + 1) (by omega)
      rw [show from_ + (i + 1) + t = from_ + i + (t + 1) by omega]
      exact this), List.drop_eq_getElem_cons h1, List.take_succ_cons, h2]
    rfl

theorem streamOk_snoc (pos : Nat) (bs : List Block) (b : Block) (h : StreamOk pos bs)
    (hb : b.Ok (pos + (bs.flatMap (Block.bits false)).length)) : StreamOk pos (bs ++ [b]) := by
  induction bs generalizing pos with
  | nil => exact ⟨by simpa using hb, trivial⟩
  | cons c cs ih =>
    refine ⟨h.1, ih _ h.2 ?_⟩
    rw [List.flatMap_cons, List.length_append] at hb
    rwa [Nat.add_assoc]

theorem expandBlocks_snoc (o o' o'' : Bytes) (bs : List Block) (b : Block) (h : expandBlocks o bs = some o')
    (hb : b.expand o' = some o'') : expandBlocks o (bs ++ [b]) = some o'' := by
  induction bs generalizing o with
  | nil =>
    simp only [expandBlocks, Option.some.injEq] at h
    subst h
    simp [expandBlocks, hb]
  | cons c cs ih =>
    rw [expandBlocks] at h
    rw [List.cons_append, expandBlocks]
    cases hc : c.expand o with
    | none => rw [hc] at h; simp at h
    | some x =>
      rw [hc] at h
      exact ih x h

theorem streamBits_snoc (bs : List Block) (b : Block) :
    streamBits (bs ++ [b]) = bs.flatMap (Block.bits false) ++ b.bits true := by
  induction bs with
  | nil => simp [streamBits]
  | cons c cs ih =>
    rw [List.flatMap_cons, List.append_assoc, ← ih, List.cons_append]
    cases h : cs ++ [b] with
    | nil => simp at h
    | cons x xs => rw [streamBits]; simp

theorem cinv_raw {input sent : Bytes} {d : Tdefl} {toks : List LzTok} {blocks : List Block}
    (h : CInv input sent d toks blocks) (hd : d.lookaheadPos - d.codeBufDictPos ≤ d.dictSize) : d.totalLzBytes ≤ 32768 ∧
      expandToks (input.take d.codeBufDictPos) (toks.map LzTok.tok) =
        some (input.take d.codeBufDictPos ++ dictBytes d.dict d.codeBufDictPos d.totalLzBytes 0) := by
  have h1 := h.total
  have h2 := h.ds
  have h3 := h.win.size
  refine ⟨by omega, ?_⟩
  rw [h.expandToks, dictBytes_eq input d.dict d.codeBufDictPos d.totalLzBytes 0 (fun t ht => by
    rw [Nat.add_zero]
    exact h.win.cell _ (by omega) (by omega)), Nat.add_zero, ← h1, List.take_add]

theorem LzTok.expand_bytes {t : LzTok} (hr : t.Rng) {o o' : Bytes} (h : t.tok.expand o = some o') :
    o.length + t.bytes.length ≤ o'.length := by
  cases t with
  | lit b =>
    simp only [LzTok.tok, Tok.expand, Option.some.injEq] at h
    rw [← h]
    simp [LzTok.bytes]
  | mat l d =>
    simp only [LzTok.tok, Tok.expand] at h
    have h1 := copyBack_length h
    obtain ⟨-, -, -, h4, -⟩ := lenTab_ok l hr.1
    simp only [LzTok.bytes, List.length_cons, List.length_nil]
    omega

theorem expandToks_bytes {toks : List LzTok} (hr : ∀ t ∈ toks, t.Rng) {o o' : Bytes}
    (h : expandToks o (toks.map LzTok.tok) = some o') : o.length + (toks.flatMap LzTok.bytes).length ≤ o'.length := by
  induction toks generalizing o with
  | nil => simp only [List.map_nil, expandToks, Option.some.injEq] at h; rw [h]; simp
  | cons t ts ih =>
    obtain ⟨o1, h1, h2⟩ := expandToks_cons h
    have := LzTok.expand_bytes (hr t (by simp)) h1
    have := ih (fun t ht => hr t (by simp [ht])) h2
    rw [List.flatMap_cons, List.length_append]
    omega

/-- The bytes of the tokens are no more than the bytes they stand for. -/
theorem CInv.bytes_le {input sent : Bytes} {d : Tdefl} {toks : List LzTok} {blocks : List Block}
    (h : CInv input sent d toks blocks) : (toks.flatMap LzTok.bytes).length ≤ d.totalLzBytes := by
  have h1 := expandToks_bytes h.rng h.expandToks
  have h2 := h.total
  have h3 := h.win.fits
  rw [List.length_take, List.length_take] at h1
  omega

/-- The block that `tdefl_flush_block` makes. -/
theorem flush_core {input sent : Bytes} {d : Tdefl} {toks : List LzTok} {blocks : List Block}
    (h : CInv input sent d toks blocks) (hp : d.pending = []) (hpos : d.lz.pos ≤ 65532) (fin : Bool) :
    ∃ w blk, putBlock false dbg d (BitOut.put { out := [], buf := d.bitBuf, n := d.bitsIn } (if fin then 1 else 0) 1) = .ok w ∧
      w.Good (lsb d.bitsIn d.bitBuf ++ Block.bits fin blk) ∧ w.view = lsb d.bitsIn d.bitBuf ++ Block.bits fin blk ∧
      w.out.length < OUT_LIMIT ∧ StreamOk 0 (blocks ++ [blk]) ∧
      expandBlocks [] (blocks ++ [blk]) = some (input.take d.lookaheadPos) ∧
      w.out.length ≤ max (2 * d.totalLzBytes + 8) (3 * d.totalLzBytes) ∧
      (d.totalLzBytes ≤ 32510 → w.out.length ≤ 2 * d.totalLzBytes + 8) := by
  have hg0 : BitOut.Good { out := [], buf := d.bitBuf, n := d.bitsIn } (lsb d.bitsIn d.bitBuf) :=
    ⟨h.buf, h.bitsIn, rfl, .inl (by simp [BitOut.view, bits_nil])⟩
  have hg := hg0.put (b := if fin then 1 else 0) (l := 1) (by split <;> norm_num) (by norm_num)
  rw [lsb_one] at hg
  have hbl := congrArg List.length h.bits
  rw [hp, List.append_nil, List.length_append, bits_length, lsb_length] at hbl
  have hbi := h.bitsIn
  obtain ⟨w, blk, e1, e2, e3, e4, e5, e6, e7⟩ := putBlock_ok ⟨h.holds, h.rng, h.counts, hpos⟩ hg (by rw [lsb_length]; exact hbi)
    (blocks.flatMap (Block.bits false)).length (by rw [lsb_length]; omega) (input.take d.codeBufDictPos)
    (fun _ hd => cinv_raw h hd) h.bytes_le
  refine ⟨w, blk, e1, e2, e3, e4, streamOk_snoc 0 blocks blk h.sok (by rwa [Nat.zero_add]), ?_⟩
  refine ⟨expandBlocks_snoc _ _ _ _ _ h.expand (by rw [e6, h.expandToks]), ?_⟩
  by_cases hw : d.lookaheadPos - d.codeBufDictPos ≤ d.dictSize
  · have := e7 hw
    exact ⟨by omega, fun _ => this⟩
  · have h1 := h.dlow
    have h2 := h.total
    refine ⟨?_, fun _ => by omega⟩
    simp only [OUT_LIMIT, OUT_BUF_SIZE] at e4
    omega

/-- A block that is not the last. -/
theorem flushBlock_ok (j : Junk) {input sent : Bytes} {d : Tdefl} {toks : List LzTok} {blocks : List Block}
    (h : CInv input sent d toks blocks) (hp : d.pending = []) (hpos : d.lz.pos ≤ 65532)
    (hlt : 8 ≤ d.totalLzBytes) (room : Nat) :
    ∃ o d' blk, flushBlock false dbg j false room d = .ok (o, d') ∧ CInv input (sent ++ o) d' [] (blocks ++ [blk]) ∧
      d'.lz = LzBuf.empty j ∧ d'.lookaheadPos = d.lookaheadPos ∧ d'.lookaheadSize = d.lookaheadSize ∧
      d'.wantsToFinish = d.wantsToFinish ∧ o.length ≤ room ∧ (d'.pending ≠ [] → o.length = room) ∧
      d'.pending.length < OUT_LIMIT := by
  obtain ⟨w, blk, e1, e2, e3, e4, e5, e6, e7, -⟩ := flush_core h hp hpos false
  have hbits := h.bits
  have htot := h.total
  have hsmall := h.small
  have hfits := h.win.fits
  unfold flushBlock
  rw [e1]
  simp only [bind, Except.bind, pure, Except.pure, Bool.false_eq_true, if_false, mzAssert_ok hp, e2.check,
    mzAssert_ok (show w.out.length < OUT_LIMIT ∨ (False ∧ w.out.length = OUT_LIMIT ∧ d.totalLzBytes > 32510) from .inl e4)]
  have key : ∀ a b : Bytes, a ++ b = w.out → CInv input (sent ++ a) { d with
      litCount := fun _ => 0, distCount := fun _ => 0, lz := LzBuf.empty j,
      codeBufDictPos := (d.codeBufDictPos + d.totalLzBytes) % 2 ^ 32, totalLzBytes := 0, bitBuf := w.buf, bitsIn := w.n,
      pending := b } [] (blocks ++ [blk]) := by
    intro a b hab
    have hlp : (d.codeBufDictPos + d.totalLzBytes) % 2 ^ 32 = d.lookaheadPos := by
      rw [htot]; exact Nat.mod_eq_of_lt (by omega)
    constructor <;> try simp only
    case small => exact h.small
    case ls => exact h.ls
    case ds => exact h.ds
    case win => exact h.win
    case holds => exact LzBuf.holds_empty j
    case rng => simp
    case counts => exact counts_empty
    case expandToks => rw [hlp]; rfl
    case total => rw [hlp]; rfl
    case saved => exact h.saved
    case buf => exact e2.buf
    case bitsIn => exact e2.n
    case bits =>
      rw [List.append_assoc, hab, bits_append, List.append_assoc]
      have : Spec.bits w.out ++ lsb w.n w.buf = lsb d.bitsIn d.bitBuf ++ Block.bits false blk := e3
      rw [this, ← List.append_assoc, List.flatMap_append]
      rw [hp, List.append_nil] at hbits
      rw [hbits]
      simp
    case sok => exact e5
    case expand => rw [hlp]; exact e6
    case fin => exact h.fin
    case size =>
      have hs := h.size
      rw [hp, List.append_nil] at hs
      rw [hlp, List.append_assoc, hab, List.length_append]
      omega
    case dlow => exact h.dlow
  split
  · rename_i hroom
    refine ⟨_, _, blk, rfl, key w.out [] (by simp), rfl, rfl, rfl, rfl, ?_, by simp, by simp [OUT_LIMIT, OUT_BUF_SIZE]⟩
    simp only [OUT_LIMIT, OUT_BUF_SIZE] at *
    omega
  · refine ⟨_, _, blk, rfl, key _ _ (List.take_append_drop room w.out), rfl, rfl, rfl, rfl, ?_, ?_, ?_⟩
    · rw [List.length_take]; omega
    · intro hne
      simp only [ne_eq, List.drop_eq_nil_iff, not_le] at hne
      rw [List.length_take]
      omega
    · simp only [List.length_drop]; omega

theorem BitOut.Good.align_exact {w : BitOut} {v : List Bool} (h : w.Good v) (hlt : w.out.length < OUT_LIMIT) :
    ∃ pad : List Bool, pad.length < 8 ∧ w.align.view = w.view ++ pad ∧ w.align.n = 0 ∧
      w.align.out.length ≤ w.out.length + 1 := by
  have hn := h.n
  have hb := h.buf
  unfold BitOut.align
  split
  · rename_i h0
    have hb8 : w.buf < 256 := lt_of_lt_of_le hb (by
      have : 2 ^ w.n ≤ 2 ^ 8 := Nat.pow_le_pow_right (by norm_num) (by omega)
      omega)
    have e : w.put 0 (8 - w.n) = ⟨w.out ++ [UInt8.ofNat w.buf], w.buf >>> 8, 0, false⟩ := by
      rw [BitOut.put, BitOut.require_true _ (decide_eq_true (Nat.zero_le _))]
      have : (w.buf ||| 0 <<< w.n) % 2 ^ 32 = w.buf := by simp; omega
      rw [this, show w.n + (8 - w.n) = 8 by omega]
      simp [BitOut.drain, hlt, h.fine]
    rw [e]
    refine ⟨lsb (8 - w.n) 0, by rw [lsb_length]; omega, ?_, rfl, by simp⟩
    have hl := lsb_add w.n (8 - w.n) w.buf 0 hb
    rw [Nat.mul_zero, Nat.add_zero, show w.n + (8 - w.n) = 8 by omega] at hl
    simp only [BitOut.view, bits_append, bits_cons, bits_nil, uint8_lsb, List.append_nil, lsb, List.append_assoc]
    rw [← hl]
    rfl
  · exact ⟨[], by simp, by simp, by omega, by omega⟩

/-- The last block: all bits are out. -/
theorem flushLast_ok (j : Junk) {input sent : Bytes} {d : Tdefl} {toks : List LzTok} {blocks : List Block}
    (h : CInv input sent d toks blocks) (hp : d.pending = []) (hpos : d.lz.pos ≤ 65532) (room : Nat) :
    ∃ o d', flushBlock false dbg j true room d = .ok (o, d') ∧ InflatesExactly (sent ++ o ++ d'.pending) (input.take d.lookaheadPos) ∧
      (sent ++ o ++ d'.pending).length ≤ 3 * input.length + 9 ∧
      d'.wantsToFinish = d.wantsToFinish ∧ o.length ≤ room ∧ (d'.pending ≠ [] → o.length = room) ∧
      d'.pending.length ≤ OUT_LIMIT := by
  obtain ⟨w, blk, e1, e2, e3, e4, e5, e6, e7, e8⟩ := flush_core h hp hpos true
  have hbits := h.bits
  unfold flushBlock
  rw [e1]
  obtain ⟨pad, p1, a3, a2, a1⟩ := e2.align_exact e4
  obtain ⟨pad2, -, ha, -⟩ := e2.align
  have hassert : w.align.out.length < OUT_LIMIT ∨ (True ∧ w.align.out.length = OUT_LIMIT ∧ d.totalLzBytes > 32510) := by
    by_cases hs : d.totalLzBytes ≤ 32510
    · left
      have := e8 hs
      simp only [OUT_LIMIT, OUT_BUF_SIZE]
      omega
    · by_cases hl : w.align.out.length < OUT_LIMIT
      · exact .inl hl
      · exact .inr ⟨trivial, by omega, by omega⟩
  simp only [bind, Except.bind, pure, Except.pure, if_true, mzAssert_ok hp, ha.check, mzAssert_ok hassert]
  rw [e3] at a3
  have a4 := a1
  have a1 : w.align.out.length ≤ OUT_LIMIT := by omega
  have key : ∀ a b : Bytes, a ++ b = w.align.out → InflatesExactly (sent ++ a ++ b) (input.take d.lookaheadPos) := by
    intro a b hab
    refine ⟨blocks ++ [blk], pad, by simp, e5, ?_, p1, e6⟩
    rw [List.append_assoc, hab, streamBits_snoc, bits_append]
    have : Spec.bits w.align.out = w.align.view := by rw [BitOut.view, a2]; simp [lsb]
    rw [this, a3]
    rw [hp, List.append_nil] at hbits
    rw [← hbits]
    simp only [List.append_assoc]
  have hsize : ∀ a b : Bytes, a ++ b = w.align.out → (sent ++ a ++ b).length ≤ 3 * input.length + 9 := by
    intro a b hab
    have hs := h.size
    have ht := h.total
    have hfi := h.win.fits
    rw [hp, List.append_nil] at hs
    rw [List.append_assoc, hab, List.length_append]
    omega
  split
  · rename_i hroom
    refine ⟨_, _, rfl, key w.align.out [] (by simp), hsize w.align.out [] (by simp), rfl, ?_, by simp, by simp⟩
    simp only [OUT_LIMIT, OUT_BUF_SIZE] at *
    omega
  · refine ⟨_, _, rfl, key _ _ (List.take_append_drop room w.align.out), hsize _ _ (List.take_append_drop room w.align.out), rfl, ?_, ?_, ?_⟩
    · rw [List.length_take]; omega
    · intro hne
      simp only [ne_eq, List.drop_eq_nil_iff, not_le] at hne
      rw [List.length_take]
      omega
    · simp only [List.length_drop]; omega

/-! ### The loop -/

theorem flushDue_total {input sent : Bytes} {d : Tdefl} {toks : List LzTok} {blocks : List Block}
    (h : CInv input sent d toks blocks) (hfl : flushDue d = true) : 8 ≤ d.totalLzBytes := by
  have h1 := h.bytes_le
  obtain ⟨-, h2, h3⟩ := h.holds.pos_eq
  simp only [flushDue, Bool.or_eq_true, Bool.and_eq_true, decide_eq_true_eq, LZ_CODE_BUF_SIZE] at hfl
  rcases hfl with hfl | ⟨hfl, -⟩
  · have : 65536 - 8 < d.lz.pos := of_decide_eq_true hfl
    omega
  · omega

/-- The state after filling the lookahead. -/
theorem CInv.filled {input sent : Bytes} {d : Tdefl} {toks : List LzTok} {blocks : List Block} (h : CInv input sent d toks blocks)
    {n : Nat} {dict' : Nat → UInt8} {next' hash' : Nat → Nat} (e3 : d.lookaheadSize + n ≤ 258)
    (e5 : Win input dict' (max (d.lookaheadPos - d.dictSize) (d.lookaheadPos + (d.lookaheadSize + n) - 32768))
      (d.lookaheadPos + (d.lookaheadSize + n))) :
    CInv input sent { d with
      dict := dict', next := next', hash := hash', lookaheadSize := d.lookaheadSize + n,
      dictSize := min (32768 - (d.lookaheadSize + n)) d.dictSize } toks blocks := by
  have hds := h.ds
  have hsz := h.win.size
  constructor <;> try simp only
  case small => exact h.small
  case ls => exact e3
  case ds => omega
  case win => exact e5.mono (by omega) (by omega)
  case holds => exact h.holds
  case rng => exact h.rng
  case counts => exact h.counts
  case expandToks => exact h.expandToks
  case total => exact h.total
  case saved => exact h.saved
  case buf => exact h.buf
  case bitsIn => exact h.bitsIn
  case bits => exact h.bits
  case sok => exact h.sok
  case expand => exact h.expand
  case fin => exact h.fin
  case size => exact h.size
  case dlow => have := h.dlow; omega

theorem compressNormal_ok (j : Junk) (fin : Bool) (outSize : Nat) {input sent : Bytes} (fuel : Nat) (src out : Bytes) (d : Tdefl)
    (toks : List LzTok) (blocks : List Block) (h : CInv input (sent ++ out) d toks blocks) (hp : d.pending = [])
    (hpos : d.lz.pos ≤ 65528) (later : Bytes) (hsrc : input.drop (d.lookaheadPos + d.lookaheadSize) = src ++ later)
    (hout : out.length ≤ outSize) (hf : src.length + d.lookaheadSize < fuel) :
    ∃ src' out' d' toks' blocks', compressNormal false dbg j fin outSize fuel src out d = .ok (src', out', d') ∧
      CInv input (sent ++ out') d' toks' blocks' ∧ d'.lz.pos ≤ 65528 ∧
      input.drop (d'.lookaheadPos + d'.lookaheadSize) = src' ++ later ∧ out'.length ≤ outSize ∧
      src'.length + d'.lookaheadSize ≤ src.length + d.lookaheadSize ∧
      (d'.pending ≠ [] → out'.length = outSize ∧ src'.length + d'.lookaheadSize < src.length + d.lookaheadSize) ∧
      (d'.pending = [] → src' = [] ∧ (fin = true → d'.lookaheadSize = 0)) ∧ d'.pending.length < OUT_LIMIT ∧
      d'.wantsToFinish = d.wantsToFinish := by
  induction fuel generalizing src out d toks blocks with
  | zero => omega
  | succ f ih =>
    rw [compressNormal_succ]
    by_cases hgo : src ≠ [] ∨ (fin = true ∧ d.lookaheadSize ≠ 0)
    · rw [if_pos (by simpa using hgo)]
      obtain ⟨n, dict', next', hash', e1, e2, e3, e4, e5⟩ := fill_ok src d (d.lookaheadPos - d.dictSize) h.win h.ls
        (by rw [hsrc]; exact List.prefix_append _ _)
      rw [e1]
      dsimp only
      have hds := h.ds
      have hsz := h.win.size
      -- the state after filling
      have hinv := h.filled (next' := next') (hash' := hash') e3 e5
      have hdrop : (src.drop n).length = src.length - n := List.length_drop
      have hsrc' : input.drop (d.lookaheadPos + (d.lookaheadSize + n)) = src.drop n ++ later := by
        rw [← Nat.add_assoc, ← List.drop_drop, hsrc, List.drop_append_of_le_length e2]
      by_cases hret : ¬fin = true ∧ d.lookaheadSize + n < 258
      · rw [if_pos hret]
        refine ⟨_, _, _, toks, blocks, rfl, hinv, hpos, hsrc', hout, ?_, ?_, ?_, ?_, rfl⟩
        · simp only [hdrop]; omega
        · simp only; intro hne; exact absurd hp hne
        · intro _
          refine ⟨?_, fun hfin => absurd hfin hret.1⟩
          have : ¬n < src.length := fun hlt => by have := e4 hlt; omega
          rw [List.drop_eq_nil_iff]
          omega
        · simp only [hp, List.length_nil, OUT_LIMIT, OUT_BUF_SIZE]; norm_num
      · rw [if_neg hret]
        have hls1 : 1 ≤ d.lookaheadSize + n := by
          rcases hgo with hgo | hgo
          · have : src.length ≠ 0 := by simpa using hgo
            by_cases hn : n < src.length
            · have := e4 hn; omega
            · omega
          · omega
        obtain ⟨len, t, d2, g1, g2, g3, g4, g5, g6, g7, g8, g9, g10, -⟩ := matchStep_ok j hinv hpos hls1
        rw [g1]
        dsimp only at g5 g6 g7 g8 g9 g10 ⊢
        rw [hp] at g8
        have hsrc2 : input.drop (d2.lookaheadPos + d2.lookaheadSize) = src.drop n ++ later := by
          rw [← hsrc']
          congr 1
          omega
        by_cases hfl : flushDue d2 = true
        · rw [if_pos hfl]
          obtain ⟨o, d3, blk, k1, k2, k3, k4, k5, k6, k7, k8, k9⟩ := flushBlock_ok j g2 g8 g3 (flushDue_total g2 hfl) (outSize - out.length)
          rw [k1]
          dsimp only
          have hpos3 : d3.lz.pos ≤ 65528 := by rw [k3]; simp [LzBuf.empty, LzBuf.pos]
          rw [List.append_assoc] at k2
          by_cases hpe : d3.pending ≠ []
          · rw [if_pos hpe]
            refine ⟨_, _, _, _, _, rfl, k2, hpos3, by rw [k4, k5]; exact hsrc2, ?_, ?_, ?_, ?_, k9, by rw [k6, g9]⟩
            · rw [List.length_append]; omega
            · rw [hdrop]; omega
            · intro _
              have := k8 hpe
              rw [List.length_append, hdrop]
              omega
            · intro he; exact absurd he hpe
          · rw [if_neg hpe]
            obtain ⟨src', out', d', toks', blocks', q1, q2, q3, q4, q5, q6, q7, q8, q9, q10⟩ := ih (src.drop n) (out ++ o) d3 _ _ k2
              (not_not.1 hpe) hpos3 (by rw [k4, k5]; exact hsrc2) (by rw [List.length_append]; omega) (by rw [hdrop]; omega)
            rw [hdrop] at q6 q7
            refine ⟨src', out', d', toks', blocks', q1, q2, q3, q4, q5, by omega, fun hne => ?_, q8, q9, by rw [q10, k6, g9]⟩
            have := q7 hne
            omega
        · rw [if_neg hfl]
          have hpos2 : d2.lz.pos ≤ 65528 := by
            simp only [flushDue, Bool.or_eq_true, not_or, LZ_CODE_BUF_SIZE] at hfl
            have : ¬d2.lz.pos > 65536 - 8 := fun h => hfl.1 (decide_eq_true h)
            omega
          obtain ⟨src', out', d', toks', blocks', q1, q2, q3, q4, q5, q6, q7, q8, q9, q10⟩ := ih (src.drop n) out d2 _ _ g2
              g8 hpos2 hsrc2 hout (by rw [hdrop]; omega)
          rw [hdrop] at q6 q7
          refine ⟨src', out', d', toks', blocks', q1, q2, q3, q4, q5, by omega, fun hne => ?_, q8, q9, by rw [q10, g9]⟩
          have := q7 hne
          omega
    · rw [if_neg (by simpa using hgo)]
      rw [not_or] at hgo
      refine ⟨src, out, d, toks, blocks, rfl, h, hpos, hsrc, hout, le_rfl, fun hne => absurd hp hne, fun _ => ⟨not_not.1 hgo.1, ?_⟩,
        ?_, rfl⟩
      · intro hfin
        by_contra hne
        exact hgo.2 ⟨hfin, hne⟩
      · rw [hp]; simp [OUT_LIMIT, OUT_BUF_SIZE]

end Npy
