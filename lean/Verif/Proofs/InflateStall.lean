import Verif.Proofs.InflateBad
/-!
# Streams made for the counterexamples
-/

set_option maxRecDepth 8000

namespace Npy
open Spec.Deflate

/-! ### Bits into bytes -/

def packN : Nat → List Bool → Bytes
  | 0, _ => []
  | n + 1, l => UInt8.ofNat (bval (l.take 8)) :: packN n (l.drop 8)

theorem packN_length (n : Nat) (l : List Bool) : (packN n l).length = n := by
  induction n generalizing l with
  | zero => rfl
  | succ n ih => rw [packN, List.length_cons, ih]

theorem bits_packN (n : Nat) (l : List Bool) (h : l.length = 8 * n) : Spec.bits (packN n l) = l := by
  induction n generalizing l with
  | zero => rw [List.eq_nil_of_length_eq_zero (by omega : l.length = 0)]; rfl
  | succ n ih =>
    rw [packN, bits_cons, ih _ (by rw [List.length_drop]; omega), byteBits_eq]
    have hl : (l.take 8).length = 8 := by rw [List.length_take]; omega
    have hlt := bval_lt (l.take 8)
    rw [hl] at hlt
    rw [UInt8.toNat_ofNat_of_lt' (by exact hlt)]
    have := lsb_bval (l.take 8)
    rw [hl] at this
    rw [this, List.take_append_drop]

/-! ### Runs of zeros -/

theorem expandToks_append {o : List UInt8} {a b : List Tok} :
    expandToks o (a ++ b) = (expandToks o a).bind fun o => expandToks o b := by
  induction a generalizing o with
  | nil => rfl
  | cons t ts ih =>
    rw [List.cons_append, expandToks, expandToks]
    cases t.expand o with
    | none => rfl
    | some o' => simp only [Option.bind_some]; exact ih

theorem copyBack_zeros (n k : Nat) (hk : k ≠ 0) :
    copyBack n 1 (List.replicate k 0) = some (List.replicate (k + n) 0) := by
  induction n generalizing k with
  | zero => rfl
  | succ n ih =>
    rw [copyBack, if_neg (by rw [List.length_replicate]; omega)]
    rw [List.length_replicate, List.getElem?_replicate, if_pos (by omega)]
    dsimp only
    rw [← List.replicate_succ', ih (k + 1) (by omega), show k + 1 + n = k + (n + 1) by omega]

theorem expand_litZeros (m k : Nat) :
    expandToks (List.replicate k 0) (List.replicate m (.lit 0)) = some (List.replicate (k + m) 0) := by
  induction m generalizing k with
  | zero => rfl
  | succ m ih =>
    rw [List.replicate_succ, expandToks]
    simp only [Tok.expand, Option.bind_some]
    rw [← List.replicate_succ', ih, show k + 1 + m = k + (m + 1) by omega]

theorem expand_copyZeros (m k : Nat) (hk : k ≠ 0) :
    expandToks (List.replicate k 0) (List.replicate m (.copy 285 0 0 0)) = some (List.replicate (k + 258 * m) 0) := by
  induction m generalizing k with
  | zero => rfl
  | succ m ih =>
    rw [List.replicate_succ, expandToks]
    have : Tok.expand (List.replicate k 0) (.copy 285 0 0 0) = some (List.replicate (k + 258) 0) :=
      copyBack_zeros 258 k hk
    rw [this, Option.bind_some, ih _ (by omega), show k + 258 + 258 * m = k + 258 * (m + 1) by omega]

/-! ### Highly compressible data -/

/-- 400 zeros and 125 times 258 zeros. -/
def stallPre : List Tok := List.replicate 400 (.lit 0) ++ List.replicate 125 (.copy 285 0 0 0)

/-- And another 258 zeros. -/
def stallToks : List Tok := stallPre ++ [.copy 285 0 0 0]

/-- The stream, 606 bytes. -/
def stallBytes : Bytes := packN 606 ((Block.fixed stallToks).bits true)

theorem stall_bits : Spec.bits stallBytes = (Block.fixed stallToks).bits true := by
  apply bits_packN
  have h1 : ∀ n, ((List.replicate n (Tok.lit 0)).flatMap (Tok.bits fixedLit fixedDist)).length = 8 * n := by
    intro n
    induction n with
    | zero => rfl
    | succ n ih =>
      rw [List.replicate_succ, List.flatMap_cons, List.length_append, ih,
        show (Tok.bits fixedLit fixedDist (.lit 0)).length = 8 by decide +kernel]
      omega
  have h2 : ∀ n, ((List.replicate n (Tok.copy 285 0 0 0)).flatMap (Tok.bits fixedLit fixedDist)).length = 13 * n := by
    intro n
    induction n with
    | zero => rfl
    | succ n ih =>
      rw [List.replicate_succ, List.flatMap_cons, List.length_append, ih,
        show (Tok.bits fixedLit fixedDist (.copy 285 0 0 0)).length = 13 by decide +kernel]
      omega
  rw [Block.bits, stallToks, stallPre]
  simp only [List.flatMap_append, List.length_append, List.length_cons, h1, h2]
  rw [show (lsb 2 1).length = 2 from rfl, show (huff fixedLit 256).length = 7 by decide +kernel,
    List.flatMap_cons, List.flatMap_nil, List.append_nil,
    show (Tok.bits fixedLit fixedDist (.copy 285 0 0 0)).length = 13 by decide +kernel]

theorem stall_length : stallBytes.length = 606 := packN_length _ _

theorem stall_ok : ∀ t ∈ stallToks, t.Ok fixedLit fixedDist := by
  intro t ht
  have : t = .lit 0 ∨ t = .copy 285 0 0 0 := by
    simp only [stallToks, stallPre, List.mem_append, List.mem_replicate, List.mem_singleton] at ht
    tauto
  rcases this with rfl | rfl
  · show lenOf fixedLit 0 ≠ 0
    decide +kernel
  · simp only [Tok.Ok]
    decide +kernel

theorem stallPre_expand : expandToks [] stallPre = some (List.replicate 32650 0) := by
  rw [stallPre, expandToks_append]
  have h := expand_litZeros 400 0
  rw [List.replicate_zero] at h
  rw [h, Option.bind_some, expand_copyZeros 125 (0 + 400) (by omega)]

theorem stall_expand : expandToks [] stallToks = some (List.replicate 32908 0) := by
  rw [stallToks, expandToks_append, stallPre_expand, Option.bind_some]
  exact expand_copyZeros 1 32650 (by omega)

theorem stall_inflates : InflatesExactly stallBytes (List.replicate 32908 0) := by
  refine ⟨[.fixed stallToks], [], by simp, ⟨stall_ok, trivial⟩, ?_, by simp, ?_⟩
  · rw [List.append_nil]; exact stall_bits
  · show (expandToks [] stallToks).bind _ = _
    rw [stall_expand]; rfl

theorem stall_fails (fuel : Nat) (hf : 527 ≤ fuel) :
    npyInflate false fuel stallBytes = .error (.throw (.runtimeError .inflateError)) := by
  apply npyInflate_stall (L := ([] : List Bool).length) (out := List.replicate 32908 0) _ (by rw [stall_length, CHUNK]; omega)
    (by rw [List.length_replicate]; omega) _ (by omega)
  · intro h
    have := stall_length
    rw [h] at this
    simp at this
  · apply wp_fixed (R := []) (toks := stallToks) (by rw [List.append_nil]; exact stall_bits) stall_ok stall_expand
    · rw [List.append_nil, show (huff fixedLit 256).length = 7 by decide +kernel]
      exact waitsOk_stall (by omega) stallPre_expand (by rw [List.length_replicate]; omega)
    · rw [stallToks, stallPre]
      simp only [List.length_append, List.length_replicate, List.length_cons, List.length_nil]
      omega

/-! ### A code with unused bit patterns -/

/-- A dynamic block whose literal/length code and distance code have one symbol each: the end of the block is the bit 0,
and no code begins with the bit 1. -/
def loopDyn : Dyn where
  cl := [0, 1, 0, 0, 0, 0, 0, 0, 0, 0, 0, 0, 0, 0, 0, 0, 0, 0, 1]
  hclen := 18
  ops := [.manyZeros 127, .manyZeros 107, .len 1, .len 1]
  lit := List.replicate 256 0 ++ [1]
  dist := [1]

theorem loopDyn_ok : loopDyn.Ok := by
  unfold Dyn.Ok Usable Complete ClOp.Ok
  refine ⟨rfl, by decide +kernel, ⟨by decide +kernel, Or.inl (by decide +kernel)⟩, by decide +kernel, by decide +kernel,
    by decide +kernel, ?_, by decide +kernel, by decide +kernel, by decide +kernel, by decide +kernel, by decide +kernel,
    ⟨by decide +kernel, Or.inr (by decide +kernel)⟩, ⟨by decide +kernel, Or.inr (by decide +kernel)⟩,
    by decide +kernel⟩
  intro o ho
  simp only [loopDyn, List.mem_cons, List.not_mem_nil, or_false] at ho
  rcases ho with rfl | rfl | rfl | rfl <;> exact ⟨by decide +kernel, by decide +kernel⟩

/-- The block followed by bits 1 only. -/
def loopBytes : Bytes := packN 28 (lsb 3 5 ++ (loopDyn.bits ++ List.replicate 135 true))

theorem loop_bits : Spec.bits loopBytes = lsb 3 5 ++ (loopDyn.bits ++ List.replicate 135 true) :=
  bits_packN _ _ (by decide +kernel)

theorem loop_length : loopBytes.length = 28 := packN_length _ _

theorem loop_lookAt {t0 : HuffTable} (hT : TableOf loopDyn.lit t0) {b : BitBuf} {rest : Bytes} {n : Nat}
    (hs : strm b rest = List.replicate n true) (hn : 10 ≤ b.num) : t0.lookAt b.buf = 0 := by
  apply hT.lookAt_none
  · intro s
    by_cases h : s < 257
    · exact (by decide +kernel : ∀ s < 257, lenOf loopDyn.lit s ≤ 10) s h
    · simp [lenOf, List.getD, List.getElem?_eq_none (show loopDyn.lit.length ≤ s by
        rw [show loopDyn.lit.length = 257 by decide +kernel]; omega)]
  · intro s h0 hp
    have hlt : s < 257 := by
      have := lenOf_lt h0
      rwa [show loopDyn.lit.length = 257 by decide +kernel] at this
    have hs256 : s = 256 := (by decide +kernel : ∀ s < 257, lenOf loopDyn.lit s ≠ 0 → s = 256) s hlt h0
    subst hs256
    rw [show huff loopDyn.lit 256 = [false] by decide +kernel] at hp
    have h1 : [false] <+: strm b rest := (hp.trans (lsb_prefix hn b.buf)).trans (List.prefix_append _ _)
    rw [hs] at h1
    have := h1.subset (List.mem_singleton.mpr rfl)
    simp at this

theorem loops_first {t0 t1 : HuffTable} (hT : TableOf loopDyn.lit t0) {b : BitBuf} {k : BitBuf → Co Unit} {inp : Bytes}
    {n : Nat} (hb : b.Good) (hs : strm b inp = List.replicate n true) (hn : 94 ≤ n) (f : Nat) {hist : Bytes} {room : Nat}
    (hr : 2 ≤ room) : Loops (symLoop false t0 t1 f b >>= k) inp hist room := by
  have hl := congrArg List.length hs
  rw [strm_length, List.length_replicate] at hl
  have h62 := hb.2
  match f with
  | 0 => exact ⟨_, Or.inl rfl⟩
  | f + 1 =>
    obtain ⟨b', inp', hist', room', c', e, ⟨e1, e2, e3, rfl⟩, -, e6⟩ := Co.resume_bind
      (Q := fun b' r h _ => b'.Good ∧ strm b' r = List.replicate n true ∧ 30 ≤ b'.num ∧ h = hist) (refill4 false b)
      (inp := inp) (hist := hist) (c := 0) (room := room)
      (wp_refill4 hb (by omega) fun b' r g1 g2 g3 => ⟨g1, by rw [g3, hs], g2, rfl⟩) (Nat.zero_le _)
    obtain rfl : room' = room := by omega
    have hlook := loop_lookAt hT e2 (by omega)
    have hstep : (symLoop false t0 t1 (f + 1) b >>= k).resume inp hist' room' =
        (Co.put 0 (.put 0 (symLoop false t0 t1 f b' >>= k))).resume inp' hist' room' := by
      rw [symLoop]
      show (Co.bind (Co.bind (coAvailIn) _) k).resume _ hist' room' = _
      simp only [coAvailIn, Co.bind, Co.resume]
      show (Co.bind (Co.bind (coAvailOut) _) k).resume _ hist' room' = _
      simp only [coAvailOut, Co.bind, Co.resume]
      rw [if_neg (by omega)]
      show ((refill4 false b >>= _) >>= k).resume inp hist' room' = _
      rw [Co.bind_assoc, e]
      simp only [decodeRaw_none hlook, BitBuf.drop_zero]
      rfl
    have hl2 := congrArg List.length e2
    rw [strm_length, List.length_replicate] at hl2
    have h62' := e1.2
    obtain ⟨r, rfl⟩ : ∃ r, room' = r + 2 := ⟨room' - 2, by omega⟩
    obtain ⟨t, ht⟩ := loops_sym (t1 := t1) (k := k) hlook e3 (inp := inp') (by omega) f (hist := 0 :: 0 :: hist') (room := r)
    unfold Loops
    rw [hstep]
    refine ⟨t, ht.imp id fun ⟨e1, e2, e3, e4⟩ => ⟨e1, ?_, e3, e4⟩⟩
    rw [e2]; simp only [List.length_cons]; omega

theorem loop_loops (fuel : Nat) : Loops (tinfl false fuel) loopBytes [] 32768 := by
  unfold tinfl
  match fuel with
  | 0 => exact ⟨_, Or.inl rfl⟩
  | F + 1 =>
    rw [blockLoop]
    obtain ⟨⟨h, b1⟩, r1, hist1, room1, c1, e, ⟨rfl, g1, s1, rfl⟩, -, e6⟩ := Co.resume_bind
      (Q := fun hb r h _ => hb.1 = 5 ∧ hb.2.Good ∧ strm hb.2 r = loopDyn.bits ++ List.replicate 135 true ∧ h = [])
      (getBits 3 ⟨0, 0⟩) (inp := loopBytes) (hist := []) (c := 0) (room := 32768)
      (wp_getBits (v := 5) ⟨by simp [BitBuf.Ok], by simp⟩ ((strm_zero rfl _).trans loop_bits) (by omega) (by omega)
        fun b' r g s => ⟨rfl, g, s, rfl⟩) (Nat.zero_le _)
    unfold Loops
    rw [e]
    dsimp only
    unfold inflateBlock
    rw [if_neg (by decide), if_neg (by decide), if_neg (by decide), Co.bind_assoc]
    obtain ⟨⟨t0, t1, b2⟩, r2, hist2, room2, c2, e', ⟨hT, g2, s2, rfl⟩, -, e7⟩ := Co.resume_bind
      (Q := fun p r h _ => TableOf loopDyn.lit p.1 ∧ p.2.2.Good ∧ strm p.2.2 r = List.replicate 135 true ∧ h = [])
      (dynamicTables b1) (inp := r1) (hist := []) (c := 0) (room := room1)
      (wp_dynamicTables loopDyn_ok g1 s1 fun t0 t1 b' r h1 _ g s => ⟨h1, g, s, rfl⟩) (Nat.zero_le _)
    rw [e']
    dsimp only
    simp only [List.length_nil, Nat.zero_add] at e6 e7
    obtain rfl : room2 = 32768 := by omega
    exact loops_first hT g2 s2 (by omega) _ (by omega)

theorem loop_diverges (fuel : Nat) : npyInflate false fuel loopBytes = .error .diverge :=
  npyInflate_endless (by intro h; have := loop_length; rw [h] at this; simp at this)
    (by rw [loop_length, CHUNK]; omega) (loop_loops fuel)

/-! ### A match before the beginning -/

/-- A block with fixed codes that begins with a match of three bytes at distance 1. -/
def wildBytes : Bytes := packN 3 (lsb 3 3 ++ (huff fixedLit 257 ++ (huff fixedDist 0 ++ List.replicate 9 false)))

theorem wild_bits : Spec.bits wildBytes =
    lsb 3 3 ++ (huff fixedLit 257 ++ (huff fixedDist 0 ++ List.replicate 9 false)) :=
  bits_packN _ _ (by decide +kernel)

theorem wild_length : wildBytes.length = 3 := packN_length _ _

theorem wild_resume (F : Nat) : ∃ t, (tinfl false (F + 1)).resume wildBytes [] 32768 = (.ub, t) := by
  unfold tinfl
  rw [blockLoop]
  obtain ⟨⟨h, b1⟩, r1, hist1, room1, c1, e, ⟨rfl, g1, s1, rfl, rl⟩, -, e6⟩ := Co.resume_bind
    (Q := fun hb r h _ => hb.1 = 3 ∧ hb.2.Good ∧
      strm hb.2 r = huff fixedLit 257 ++ (huff fixedDist 0 ++ List.replicate 9 false) ∧ h = [] ∧ r.length < 4)
    (getBits 3 ⟨0, 0⟩) (inp := wildBytes) (hist := []) (c := 0) (room := 32768)
    (wp_getBits (v := 3) ⟨by simp [BitBuf.Ok], by simp⟩ ((strm_zero rfl _).trans wild_bits) (by omega) (by omega)
      fun b' r g s => ⟨rfl, g, s, rfl, by
        have := congrArg List.length s
        rw [strm_length] at this
        simp only [List.length_append, huff_length, List.length_replicate] at this
        have h1 : lenOf fixedLit 257 = 7 := by decide +kernel
        have h2 : lenOf fixedDist 0 = 5 := by decide +kernel
        omega⟩) (Nat.zero_le _)
  rw [e]
  dsimp only
  unfold inflateBlock
  rw [if_neg (by decide), if_neg (by decide), if_pos (by decide), staticDist_eq, staticLit_eq, Co.bind_assoc]
  obtain ⟨t1, r2, hist2, room2, c2, e2, ⟨hT1, rfl, rfl⟩, -, e7⟩ := Co.resume_bind
    (Q := fun t r h _ => TableOf fixedDist t ∧ r = r1 ∧ h = []) (coTable fixedDist) (inp := r1) (hist := []) (c := 0)
    (room := room1) (wp_coTable fixedDist_ok fun t h => ⟨h, rfl, rfl⟩) (Nat.zero_le _)
  rw [e2, Co.bind_assoc]
  obtain ⟨t0, r3, hist3, room3, c3, e3, ⟨hT0, rfl, rfl⟩, -, e8⟩ := Co.resume_bind
    (Q := fun t r h _ => TableOf fixedLit t ∧ r = r2 ∧ h = []) (coTable fixedLit) (inp := r2) (hist := []) (c := 0)
    (room := room2) (wp_coTable fixedLit_ok fun t h => ⟨h, rfl, rfl⟩) (Nat.zero_le _)
  rw [e3, symLoop]
  simp only [List.length_nil, Nat.zero_add] at e6 e7 e8
  obtain rfl : room3 = 32768 := by omega
  generalize (fun b => if 3 &&& 1 = 0 then blockLoop false (F + 1) F b else pure ()) = k
  show ∃ t, (Co.bind (Co.bind (coAvailIn) _) k).resume _ [] 32768 = (.ub, t)
  simp only [coAvailIn, Co.bind, Co.resume]
  show ∃ t, (Co.bind (Co.bind (coAvailOut) _) k).resume _ [] 32768 = (.ub, t)
  simp only [coAvailOut, Co.bind, Co.resume]
  rw [if_pos (Or.inl rl)]
  show ∃ t, ((huffDecode t0 b1 >>= _) >>= k).resume _ [] 32768 = (.ub, t)
  rw [Co.bind_assoc]
  obtain ⟨⟨h, b4⟩, r4, hist4, room4, c4, e4, ⟨rfl, g4, s4, rfl⟩, -, e9⟩ := Co.resume_bind
    (Q := fun hb r h _ => hb.1 = 257 ∧ hb.2.Good ∧ strm hb.2 r = huff fixedDist 0 ++ List.replicate 9 false ∧ h = [])
    (huffDecode t0 b1) (inp := r3) (hist := []) (c := 0) (room := 32768)
    (wp_huffDecode fixedLit_ok hT0 (by decide +kernel) g1 s1 fun b' r g s => ⟨rfl, g, s, rfl⟩) (Nat.zero_le _)
  rw [e4]
  dsimp only
  rw [if_pos (by omega), if_neg (by omega), Co.bind_assoc]
  unfold doMatch extraBits
  rw [if_neg (by decide), Co.pure_bind']
  dsimp only
  rw [Co.bind_assoc]
  obtain ⟨⟨h, b5⟩, r5, hist5, room5, c5, e5, ⟨rfl, g5, s5, rfl⟩, -, e10⟩ := Co.resume_bind
    (Q := fun hb r h _ => hb.1 = 0 ∧ hb.2.Good ∧ strm hb.2 r = List.replicate 9 false ∧ h = [])
    (huffDecode t1 b4) (inp := r4) (hist := []) (c := 0) (room := room4)
    (wp_huffDecode fixedDist_ok hT1 (by decide +kernel) g4 s4 fun b' r g s => ⟨rfl, g, s, rfl⟩) (Nat.zero_le _)
  rw [e5]
  dsimp only
  simp only [List.length_nil, Nat.zero_add] at e9 e10
  obtain rfl : room5 = 32768 := by omega
  rw [if_neg (by decide), Co.pure_bind']
  exact ⟨_, rfl⟩

theorem wild_ub (fuel : Nat) (hf : 1 ≤ fuel) : npyInflate false fuel wildBytes = .error .ub := by
  obtain ⟨F, rfl⟩ : ∃ F, fuel = F + 1 := ⟨fuel - 1, by omega⟩
  obtain ⟨input', h1, h2, h3⟩ := StreamAt.read (input := IStream.ofBytes wildBytes) (later := wildBytes)
    (Or.inl ⟨rfl, rfl⟩)
  rw [List.take_of_length_le (by rw [wild_length, CHUNK]; omega)] at h1
  obtain ⟨t, ht⟩ := wild_resume F
  unfold npyInflate
  rw [npyInflateOuter, h1]
  dsimp only
  rw [if_neg (by rw [h3]; simp), if_neg (by intro h; have := wild_length; rw [h] at this; simp at this)]
  have hmz : ∃ s', mzInflate (F + 1) { inflateInit false (F + 1) with inp := wildBytes, availOut := CHUNK, out := [] } =
      (.error .ub, s') := by
    unfold mzInflate
    generalize hs : ({ inflateInit false (F + 1) with inp := wildBytes, availOut := CHUNK, out := [] } : InflateState) = s
    have e1 : s.lastStatus ≠ .failed := by rw [← hs]; simp [inflateInit]
    have e2 : ¬ s.dictAvail ≠ 0 := by rw [← hs]; simp [inflateInit]
    have e3 : s.co.resume s.inp s.hist (32768 - s.dictOfs) = (.ub, t) := by rw [← hs]; exact ht
    rw [if_neg e1, if_neg e2, mzLoop_step e3]
    exact ⟨_, rfl⟩
  obtain ⟨s', hmz⟩ := hmz
  rw [npyInflateInner, hmz]

end Npy
