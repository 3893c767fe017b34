import Verif.Proofs.DeflAll
import Verif.Proofs.InflateStall
/-!
# Zeros, compressed: the tokens
-/

set_option maxRecDepth 8000

namespace Npy
open Spec.Deflate

/-- 32769 zeros. -/
def manyZeros : Bytes := List.replicate 32769 0

theorem manyZeros_length : manyZeros.length = 32769 := List.length_replicate

theorem manyZeros_get {a : Nat} {x : UInt8} (h : manyZeros[a]? = some x) : x = 0 := by
  obtain ⟨h1, h2⟩ := List.getElem?_eq_some_iff.1 h
  rw [← h2]
  exact List.getElem_replicate _

theorem manyZeros_drop (k : Nat) : manyZeros.drop k = List.replicate (32769 - k) 0 := List.drop_replicate

/-- The hash chain of zeros: every position is followed by the one before. -/
structure Chain (ins : Nat) (d : Tdefl) : Prop where
  next : ∀ q < ins, d.next q = q - 1
  hash : d.hash 0 = ins - 1

theorem Chain.insert {ins : Nat} {d : Tdefl} (h : Chain ins d) (hi : ins < 32768) : Chain (ins + 1) (insertHashP 0 ins d) := by
  have e1 : ins % 32768 = ins := Nat.mod_eq_of_lt hi
  have e2 : ins % 65536 = ins := Nat.mod_eq_of_lt (by omega)
  constructor
  · intro q hq
    simp only [insertHashP, e1]
    by_cases hc : q = ins
    · subst hc; rw [setAt_self, h.hash]
    · rw [setAt_ne _ _ hc, h.next q (by omega)]
  · simp only [insertHashP, e2, setAt_self]
    omega

theorem fillFast_chain (n dst ins : Nat) (d : Tdefl) (h : Chain ins d) (hn : ins + n ≤ 32768) :
    Chain (ins + n) (fillFastP (List.replicate n 0) dst ins 0 d) := by
  induction n generalizing dst ins d with
  | zero => exact h
  | succ n ih =>
    rw [List.replicate_succ, fillFastP]
    have e : ((0 <<< 5) ^^^ (0 : UInt8).toNat) % 32768 = 0 := by decide
    rw [e]
    have h1 : Chain ins { d with dict := putDictP d.dict dst 0 } := ⟨h.next, h.hash⟩
    have := ih ((dst + 1) % 32768) (ins + 1) _ (h1.insert (by omega)) (by omega)
    rw [show ins + (n + 1) = ins + 1 + n by omega]
    exact this

theorem putDict_zero {dict : Nat → UInt8} {dst a : Nat} (h : a ≠ dst → dict a = 0) : putDictP dict dst 0 a = 0 := by
  unfold putDictP setAt
  by_cases hc : a = dst
  · split <;> simp [hc]
  · split <;> simp [hc, h hc]

theorem fillSlow_chain (n : Nat) (d : Tdefl) (hl : d.lookaheadPos = 0) (hz : ∀ a < d.lookaheadSize, d.dict a = 0)
    (h : Chain (d.lookaheadSize - 2) d) (hds : d.dictSize = 0) :
    Chain ((fillSlowP (List.replicate n 0) d).2.lookaheadSize - 2) (fillSlowP (List.replicate n 0) d).2 := by
  induction n generalizing d with
  | zero => exact h
  | succ n ih =>
    rw [List.replicate_succ, fillSlowP]
    split
    · rename_i hlt
      dsimp only
      have e1 : (d.lookaheadPos + d.lookaheadSize) % 32768 = d.lookaheadSize := by rw [hl]; omega
      have hz' : ∀ a < d.lookaheadSize + 1, putDictP d.dict d.lookaheadSize 0 a = 0 :=
        fun a ha => putDict_zero fun hne => hz a (by omega)
      rw [e1]
      split
      · rename_i hge
        have e2 : d.lookaheadPos + (d.lookaheadSize + 1 - 1) - 2 = d.lookaheadSize - 2 := by rw [hl]; omega
        have e3 : (d.lookaheadSize - 2) % 32768 = d.lookaheadSize - 2 := Nat.mod_eq_of_lt (by omega)
        have e4 : (d.lookaheadSize - 2 + 1) % 32768 = d.lookaheadSize - 2 + 1 := Nat.mod_eq_of_lt (by omega)
        rw [e2, e3, e4, hz' _ (by omega), hz' _ (by omega)]
        have e : (((0 : UInt8).toNat <<< 10) ^^^ ((0 : UInt8).toNat <<< 5) ^^^ (0 : UInt8).toNat) % 32768 = 0 := by decide
        rw [e]
        have h1 : Chain (d.lookaheadSize - 2) { d with
          dict := putDictP d.dict d.lookaheadSize 0, lookaheadSize := d.lookaheadSize + 1 } := ⟨h.next, h.hash⟩
        refine ih _ hl hz' ?_ hds
        show Chain (d.lookaheadSize + 1 - 2) _
        rw [show d.lookaheadSize + 1 - 2 = d.lookaheadSize - 2 + 1 by omega]
        exact h1.insert (by omega)
      · rename_i hge
        refine ih _ hl hz' ?_ hds
        show Chain (d.lookaheadSize + 1 - 2) _
        rw [show d.lookaheadSize + 1 - 2 = d.lookaheadSize - 2 by omega]
        exact ⟨h.next, h.hash⟩
    · exact h

theorem fill_chain {sent : Bytes} {d : Tdefl} {toks : List LzTok} {blocks : List Block} (h : CInv manyZeros sent d toks blocks)
    (hc : Chain (d.lookaheadPos + d.lookaheadSize - 2) d)
    (hin : 2 ≤ d.lookaheadPos + d.lookaheadSize ∨ (d.lookaheadPos = 0 ∧ d.lookaheadSize = 0)) :
    Chain (d.lookaheadPos + (fillP (List.replicate (32769 - (d.lookaheadPos + d.lookaheadSize)) 0) d).2.lookaheadSize - 2)
      (fillP (List.replicate (32769 - (d.lookaheadPos + d.lookaheadSize)) 0) d).2 := by
  have hds := h.ds
  have hlow := h.dlow
  have hfit := h.win.fits
  rw [manyZeros_length] at hfit
  have hls := h.ls
  have hsz := h.win.size
  rw [fillP]
  rcases hin with hin | ⟨h1, h2⟩
  · rw [if_pos (by omega)]
    dsimp only
    have key : ∀ a, d.lookaheadPos + d.lookaheadSize - 2 ≤ a → a < d.lookaheadPos + d.lookaheadSize → d.dict (a % 32768) = 0 :=
      fun a g1 g2 => manyZeros_get (h.win.cell a (by omega) g2)
    rw [key _ le_rfl (by omega), key _ (by omega) (by omega)]
    have e : ((0 : UInt8).toNat <<< 5) ^^^ (0 : UInt8).toNat = 0 := by decide
    rw [e, List.length_replicate, List.take_replicate]
    have hm : min (min (32769 - (d.lookaheadPos + d.lookaheadSize)) (258 - d.lookaheadSize)) (32769 - (d.lookaheadPos + d.lookaheadSize)) =
      min (32769 - (d.lookaheadPos + d.lookaheadSize)) (258 - d.lookaheadSize) := by omega
    rw [hm]
    have := fillFast_chain (min (32769 - (d.lookaheadPos + d.lookaheadSize)) (258 - d.lookaheadSize))
      ((d.lookaheadPos + d.lookaheadSize) % 32768) _ d hc (by omega)
    rw [show d.lookaheadPos + (d.lookaheadSize + min (32769 - (d.lookaheadPos + d.lookaheadSize)) (258 - d.lookaheadSize)) - 2 =
      d.lookaheadPos + d.lookaheadSize - 2 + min (32769 - (d.lookaheadPos + d.lookaheadSize)) (258 - d.lookaheadSize) by omega]
    exact ⟨this.next, this.hash⟩
  · have h0 : d.dictSize = 0 := by omega
    rw [if_neg (by omega)]
    have := fillSlow_chain (32769 - (d.lookaheadPos + d.lookaheadSize)) d h1 (by intro a ha; omega)
      (by rw [h2]; rw [h1, h2] at hc; exact hc) h0
    rw [h1, Nat.zero_add, Nat.zero_add]
    rw [h1, Nat.zero_add] at this
    exact this

/-! ### The search -/

theorem cmpWords_zeros (dict : Nat → UInt8) (s q : Nat) (hs : ∀ i ≤ 257, dict (s + i) = 0) (hq : ∀ i ≤ 257, dict (q + i) = 0)
    (h1 : s < 32768) (h2 : q < 32768) (f k : Nat) (hf : f + k = 129) : cmpWords dict s q f k = .ok 129 := by
  induction f generalizing k with
  | zero => rw [cmpWords]; congr 1; omega
  | succ f ih =>
    rw [cmpWords, rdWord_ok _ (by omega), rdWord_ok _ (by omega)]
    simp only [bind, Except.bind]
    rw [Nat.add_assoc, Nat.add_assoc, hs _ (by omega), hs _ (by omega), hq _ (by omega), hq _ (by omega), if_pos rfl]
    exact ih (k + 1) (by omega)

theorem findMatch_zeros {d : Tdefl} {lo : Nat} (hw : Win manyZeros d.dict lo (d.lookaheadPos + d.lookaheadSize))
    (hlo : lo + 1 ≤ d.lookaheadPos) (h2 : 2 ≤ d.lookaheadPos) (hlt : d.lookaheadPos < 32768) (hls : d.lookaheadSize = 258)
    (hn : d.next d.lookaheadPos = d.lookaheadPos - 1) (hds : 1 ≤ d.dictSize) : findMatch dbg d 2 = .ok (1, 258) := by
  have z1 : ∀ i ≤ 257, d.dict (d.lookaheadPos + i) = 0 := by
    intro i hi
    have := manyZeros_get (hw.at (a := d.lookaheadPos) (i := i) (by omega) (by omega) hi)
    rwa [Nat.mod_eq_of_lt hlt] at this
  have z2 : ∀ i ≤ 257, d.dict (d.lookaheadPos - 1 + i) = 0 := by
    intro i hi
    have := manyZeros_get (hw.at (a := d.lookaheadPos - 1) (i := i) (by omega) (by omega) hi)
    rwa [Nat.mod_eq_of_lt (by omega)] at this
  generalize hp : d.lookaheadPos = p at *
  unfold findMatch
  dsimp only
  rw [hp, Nat.mod_eq_of_lt hlt, rdWord_ok _ (by omega), rdWord_ok _ (by omega)]
  simp only [bind, Except.bind, pure, Except.pure]
  rw [if_neg (by omega), show p + 2 - 1 = p + 1 by omega, z1 1 (by omega), show p + 1 + 1 = p + 2 by omega, z1 2 (by omega)]
  have z0 := z1 0 (by omega)
  rw [Nat.add_zero] at z0
  rw [z0, show maxProbes (decide (2 ≥ 32)) = 43 + 1 by decide, findLoop, if_neg (by omega), probes]
  have e0 : (0 : UInt8).toNat + 256 * (0 : UInt8).toNat = 0 := by decide
  have hpr : probe d d.dictSize ⟨p, 2, (0 : UInt8).toNat + 256 * (0 : UInt8).toNat, 0, 2⟩ p = .ok (.hit (p - 1) 1) := by
    unfold probe
    dsimp only
    have e1 : (d.lookaheadPos + 2 ^ 32 - (p - 1)) % 65536 = 1 := by omega
    rw [rdArr_ok _ hlt, ok_bind, hn, e1, if_neg (by omega), Nat.mod_eq_of_lt (show p - 1 < 32768 by omega), rdWord_ok _ (by omega)]
    simp only [bind, Except.bind]
    rw [show p - 1 + 2 - 1 = p - 1 + 1 by omega, z2 1 (by omega), show p - 1 + 1 + 1 = p - 1 + 2 by omega, z2 2 (by omega), if_pos rfl]
  rw [hpr]
  simp only [bind, Except.bind]
  have htr : tryMatch d 258 p 0 ⟨p, 2, 0, 0, 2⟩ (p - 1) 1 =
      .ok (true, ⟨p - 1, 2, 0, 1, 258⟩) := by
    unfold tryMatch
    dsimp only
    have z20 := z2 0 (by omega)
    rw [Nat.add_zero] at z20
    rw [if_neg (by omega), rdWord_ok _ (by omega), z20, z2 1 (by omega)]
    simp only [bind, Except.bind]
    rw [e0, if_neg (by simp), cmpWords_zeros d.dict p (p - 1) z1 z2 hlt (by omega) 128 1 rfl]
    rfl
  rw [e0, hls, htr, mzAssert_ok (Nat.le_refl _)]
  rfl

/-- At the first two positions there is no match. -/
theorem findMatch_first {d : Tdefl} (hlt : d.lookaheadPos < 32768) (hn : d.next d.lookaheadPos = 0)
    (hls : d.lookaheadSize ≤ 258) : ∃ l, findMatch dbg d 2 = .ok (0, l) := by
  generalize hp : d.lookaheadPos = p at *
  unfold findMatch
  dsimp only
  rw [hp, Nat.mod_eq_of_lt hlt, rdWord_ok _ (by omega), rdWord_ok _ (by omega), mzAssert_ok hls]
  simp only [bind, Except.bind, pure, Except.pure]
  split
  · exact ⟨2, rfl⟩
  · rw [show maxProbes (decide (2 ≥ 32)) = 43 + 1 by decide, findLoop, if_neg (by omega), probes, probe]
    dsimp only
    rw [rdArr_ok _ hlt, ok_bind, hn, if_pos (.inl rfl)]
    exact ⟨2, rfl⟩

theorem findMatch_short {d : Tdefl} (h : d.lookaheadSize ≤ 2) : findMatch dbg d 2 = .ok (0, 2) := by
  have hp : d.lookaheadPos % 32768 < 32768 := Nat.mod_lt _ (by norm_num)
  unfold findMatch
  dsimp only
  rw [rdWord_ok _ (by omega), rdWord_ok _ (by omega), mzAssert_ok (show d.lookaheadSize ≤ 258 by omega)]
  simp only [bind, Except.bind, pure, Except.pure]
  rw [if_pos h]

/-! ### One token -/

theorem lzBytes_le (toks : List LzTok) : (toks.flatMap LzTok.bytes).length ≤ 3 * toks.length := by
  induction toks with
  | nil => simp
  | cons t ts ih =>
    have : t.bytes.length ≤ 3 := by cases t <;> simp [LzTok.bytes]
    rw [List.flatMap_cons, List.length_append, List.length_cons]
    omega

/-- The token at a position, and its length. -/
def zeroTok (p : Nat) : Nat × LzTok := if p < 2 ∨ p = 32768 then (1, .lit 0) else (258, .mat 255 0)

theorem zeros_step (j : Junk) (outSize f : Nat) {d : Tdefl} {toks : List LzTok} (h : CInv manyZeros [] d toks [])
    (hp : d.pending = []) (hc : Chain (d.lookaheadPos + d.lookaheadSize - 2) d) (hsm : toks.length ≤ 200)
    (hin : 2 ≤ d.lookaheadPos + d.lookaheadSize ∨ (d.lookaheadPos = 0 ∧ d.lookaheadSize = 0))
    (hat : d.lookaheadPos < 2 ∨ d.lookaheadPos = 32768 ∨ d.lookaheadPos + 258 ≤ 32769) :
    ∃ d', compressNormal false dbg j true outSize (f + 1) (manyZeros.drop (d.lookaheadPos + d.lookaheadSize)) [] d =
        compressNormal false dbg j true outSize f (manyZeros.drop (d'.lookaheadPos + d'.lookaheadSize)) [] d' ∧
      CInv manyZeros [] d' (toks ++ [(zeroTok d.lookaheadPos).2]) [] ∧ d'.pending = [] ∧
      Chain (d'.lookaheadPos + d'.lookaheadSize - 2) d' ∧ 2 ≤ d'.lookaheadPos + d'.lookaheadSize ∧
      d'.lookaheadPos = d.lookaheadPos + (zeroTok d.lookaheadPos).1 ∧ d'.codeBufDictPos = d.codeBufDictPos := by
  have hfit := h.win.fits
  rw [manyZeros_length] at hfit
  have hls := h.ls
  have hlow := h.dlow
  have hds := h.ds
  rw [manyZeros_drop]
  have hch := fill_chain h hc hin
  obtain ⟨n, dict', next', hash', e1, e2, e3, e4, e5⟩ := fill_ok (List.replicate (32769 - (d.lookaheadPos + d.lookaheadSize)) 0) d
    (d.lookaheadPos - d.dictSize) h.win h.ls (by rw [← manyZeros_drop])
  rw [List.length_replicate] at e2 e4
  rw [compressNormal_succ, if_pos ?go, e1]
  case go =>
    by_cases hg : d.lookaheadSize = 0
    · left
      intro hc
      have := congrArg List.length hc
      rw [List.length_replicate, List.length_nil] at this
      omega
    · exact .inr ⟨rfl, hg⟩
  rw [e1] at hch
  dsimp only at hch ⊢
  rw [if_neg (by simp)]
  have hinv := h.filled (next' := next') (hash' := hash') e3 e5
  have hn : d.lookaheadSize + n = min 258 (32769 - d.lookaheadPos) := by
    by_cases hlt : n < 32769 - (d.lookaheadPos + d.lookaheadSize)
    · have := e4 hlt; omega
    · omega
  have hpos : d.lz.pos ≤ 65528 := by
    have := h.holds.pos_eq
    have hb := lzBytes_le toks
    omega
  generalize hd1 : ({ d with
      dict := dict', next := next', hash := hash', lookaheadSize := d.lookaheadSize + n,
      dictSize := min (32768 - (d.lookaheadSize + n)) d.dictSize } : Tdefl) = d1 at hinv ⊢
  have a1 : d1.lookaheadPos = d.lookaheadPos := by rw [← hd1]
  have a2 : d1.lookaheadSize = d.lookaheadSize + n := by rw [← hd1]
  have a3 : d1.lz = d.lz := by rw [← hd1]
  have a4 : d1.pending = [] := by rw [← hd1]; exact hp
  have a5 : d1.dictSize = min (32768 - (d.lookaheadSize + n)) d.dictSize := by rw [← hd1]
  have a6 : Chain (d1.lookaheadPos + d1.lookaheadSize - 2) d1 := by rw [← hd1]; exact ⟨hch.next, hch.hash⟩
  have a7 : d1.codeBufDictPos = d.codeBufDictPos := by rw [← hd1]
  clear hd1 hch e1 e5 hc
  obtain ⟨len, t, d2, g1, g2, g3, g4, g5, g6, g7, g8, g9, g10, g11, g12, g13, m, g14, g15⟩ := matchStep_ok j hinv (by rw [a3]; exact hpos)
    (by omega)
  rw [g1]
  dsimp only
  have htok : (len, t) = zeroTok d.lookaheadPos := by
    rw [g15]
    unfold zeroTok tokenOf
    by_cases hlit : d.lookaheadPos < 2 ∨ d.lookaheadPos = 32768
    · have hf : ∃ l, findMatch dbg d1 2 = .ok (0, l) := by
        rcases hlit with hlit | hlit
        · exact findMatch_first (by omega) (by rw [a6.next _ (by omega)]; omega) (by omega)
        · exact ⟨2, findMatch_short (by omega)⟩
      obtain ⟨l, hf⟩ := hf
      rw [hf] at g14
      cases g14
      rw [if_pos hlit, if_pos (by unfold dropMatch; split <;> rfl)]
      rw [manyZeros_get (hinv.win.cell d1.lookaheadPos (by omega) (by omega))]
    · rw [not_or] at hlit
      rw [findMatch_zeros hinv.win (by omega) (by omega) (by omega) (by omega) (a6.next _ (by omega)) (by omega)] at g14
      cases g14
      have hdm : dropMatch (d1.lookaheadPos % 32768) (1, 258) = (1, 258) := by
        unfold dropMatch
        rw [if_neg (by omega)]
      rw [hdm, if_neg (by omega), if_neg (by omega)]
      rfl
  rw [← htok]
  have hfl : flushDue d2 = false := by
    have := g2.holds.pos_eq
    have hb := lzBytes_le (toks ++ [t])
    have hl : (toks ++ [t]).length ≤ 201 := by rw [List.length_append, List.length_singleton]; omega
    unfold flushDue LZ_CODE_BUF_SIZE
    rw [Bool.or_eq_false_iff, Bool.and_eq_false_iff]
    refine ⟨decide_eq_false (by omega), ?_⟩
    by_cases h31 : d2.totalLzBytes > 31 * 1024
    · right
      apply decide_eq_false
      rw [Nat.shiftRight_eq_div_pow]
      omega
    · left
      exact decide_eq_false h31
  rw [hfl, if_neg (by simp), List.drop_replicate]
  refine ⟨d2, ?_, g2, by rw [g8, a4], ?_, by omega, by rw [g6, a1], by rw [g10, a7]⟩
  · rw [manyZeros_drop]
    congr 2
    omega
  · have e : d2.lookaheadPos + d2.lookaheadSize = d1.lookaheadPos + d1.lookaheadSize := by omega
    rw [e]
    exact ⟨by rw [g12]; exact a6.next, by rw [g13]; exact a6.hash⟩

/-! ### All of them -/

/-- The tokens of the zeros before the last. -/
def zeroPre : List LzTok := [.lit 0, .lit 0] ++ List.replicate 127 (.mat 255 0)

/-- The tokens of the zeros. -/
def zeroToks : List LzTok := zeroPre ++ [.lit 0]

/-- The state after some tokens. -/
structure ZState (d : Tdefl) (toks : List LzTok) (p : Nat) : Prop where
  inv : CInv manyZeros [] d toks []
  pend : d.pending = []
  chain : Chain (d.lookaheadPos + d.lookaheadSize - 2) d
  got : 2 ≤ d.lookaheadPos + d.lookaheadSize ∨ (d.lookaheadPos = 0 ∧ d.lookaheadSize = 0)
  pos : d.lookaheadPos = p
  start : d.codeBufDictPos = 0

theorem ZState.step (j : Junk) (outSize f : Nat) {d : Tdefl} {toks : List LzTok} {p : Nat} (h : ZState d toks p)
    (hsm : toks.length ≤ 200) (hat : p < 2 ∨ p = 32768 ∨ p + 258 ≤ 32769) :
    ∃ d', compressNormal false dbg j true outSize (f + 1) (manyZeros.drop (d.lookaheadPos + d.lookaheadSize)) [] d =
        compressNormal false dbg j true outSize f (manyZeros.drop (d'.lookaheadPos + d'.lookaheadSize)) [] d' ∧
      ZState d' (toks ++ [(zeroTok p).2]) (p + (zeroTok p).1) := by
  obtain ⟨h1, h2, h3, h4, rfl, h6⟩ := h
  obtain ⟨d', e1, e2, e3, e4, e5, e6, e7⟩ := zeros_step j outSize f h1 h2 h3 hsm h4 hat
  exact ⟨d', e1, e2, e3, e4, .inl e5, e6, by rw [e7, h6]⟩

theorem ZState.matches (j : Junk) (outSize f : Nat) {d : Tdefl} {toks : List LzTok} {p : Nat} (k : Nat) (h : ZState d toks p)
    (h2 : 2 ≤ p) (hsm : toks.length + k ≤ 200) (hat : p + 258 * k ≤ 32769) :
    ∃ d', compressNormal false dbg j true outSize (f + k) (manyZeros.drop (d.lookaheadPos + d.lookaheadSize)) [] d =
        compressNormal false dbg j true outSize f (manyZeros.drop (d'.lookaheadPos + d'.lookaheadSize)) [] d' ∧
      ZState d' (toks ++ List.replicate k (.mat 255 0)) (p + 258 * k) := by
  induction k generalizing d toks p with
  | zero => exact ⟨d, rfl, by simpa using h⟩
  | succ k ih =>
    obtain ⟨d1, e1, e2⟩ := h.step j outSize (f + k) (by omega) (by omega)
    have hz : zeroTok p = (258, .mat 255 0) := by
      unfold zeroTok
      rw [if_neg (by omega)]
    rw [hz] at e2
    obtain ⟨d2, e3, e4⟩ := ih e2 (by omega) (by rw [List.length_append, List.length_singleton]; omega) (by omega)
    refine ⟨d2, by rw [← Nat.add_assoc, e1, e3], ?_⟩
    rw [List.append_assoc, List.singleton_append, ← List.replicate_succ, show p + 258 + 258 * k = p + 258 * (k + 1) by omega] at e4
    exact e4

theorem zeros_all (j : Junk) (outSize f : Nat) (d : Tdefl) (h : ZState d [] 0) (hl : d.lookaheadSize = 0) :
    ∃ d', compressNormal false dbg j true outSize (f + 131) manyZeros [] d = .ok ([], [], d') ∧ ZState d' zeroToks 32769 ∧
      d'.lookaheadSize = 0 := by
  obtain ⟨d1, e1, s1⟩ := h.step j outSize (f + 130) (by simp) (by omega)
  obtain ⟨d2, e2, s2⟩ := s1.step j outSize (f + 129) (by simp) (by simp [zeroTok])
  obtain ⟨d3, e3, s3⟩ := s2.matches j outSize (f + 2) 127 (by simp [zeroTok]) (by simp) (by simp [zeroTok])
  have hp3 : 0 + (zeroTok 0).1 + (zeroTok (0 + (zeroTok 0).1)).1 + 258 * 127 = 32768 := by simp [zeroTok]
  rw [hp3] at s3
  obtain ⟨d4, e4, s4⟩ := s3.step j outSize (f + 1) (by simp) (by omega)
  have ht : [] ++ [(zeroTok 0).2] ++ [(zeroTok (0 + (zeroTok 0).1)).2] ++ List.replicate 127 (LzTok.mat 255 0) ++
      [(zeroTok 32768).2] = zeroToks := rfl
  rw [ht, show 32768 + (zeroTok 32768).1 = 32769 by rfl] at s4
  have hf := s4.inv.win.fits
  rw [manyZeros_length, s4.pos] at hf
  have hl4 : d4.lookaheadSize = 0 := by omega
  have hd0 : manyZeros.drop (d.lookaheadPos + d.lookaheadSize) = manyZeros := by rw [h.pos, hl]; rfl
  rw [hd0] at e1
  rw [show f + 131 = f + 130 + 1 by omega, e1, show f + 130 = f + 129 + 1 by omega, e2, show f + 129 = f + 2 + 127 by omega, e3,
    show f + 2 = f + 1 + 1 by omega, e4, s4.pos, hl4, manyZeros_drop]
  refine ⟨d4, ?_, s4, hl4⟩
  rw [compressNormal_succ, if_neg (by simp [hl4])]
  rfl

end Npy
