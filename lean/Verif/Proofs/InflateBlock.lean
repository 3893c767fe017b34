import Verif.Proofs.InflateSym
/-!
# Blocks
-/

set_option maxRecDepth 8000

namespace Npy
open Spec.Deflate

/-- Fewer than `N` bytes are written and at least `T` bytes are unread. -/
def Need (N T : Nat) (h r : Nat) : Prop := h < N ∧ T ≤ r

/-- `T` bytes are unread when that many bits are still to come. -/
def Slack (T tl : Nat) : Prop := T = 0 ∨ 55 + 8 * T ≤ tl

/-- `W` holds of a wait with `h` bytes written and at least `tl` bits to come, of which those before the last `tl` make up for
the bytes missing to `M`: no bit stands for more than 129 bytes. -/
def Roomy (W : Nat → Nat → Prop) (N M tl : Nat) : Prop :=
  ∀ h L, h < N → tl ≤ L → M ≤ h + 129 + 129 * (L - tl) → WaitAt W h L

theorem Slack.roomy {N T tl : Nat} (hS : Slack T tl) (M : Nat) : Roomy (Need N T) N M tl := by
  intro h L hN hL _ r h1 h2
  exact ⟨hN, by rcases hS with h | h <;> omega⟩

theorem tok_rate {lit dist : List Nat} {t : Tok} (hok : t.Ok lit dist) {o o' : List UInt8} (h : t.expand o = some o') :
    o'.length ≤ o.length + 258 ∧ o'.length ≤ o.length + 129 * (t.bits lit dist).length := by
  cases t with
  | lit b =>
    simp only [Tok.expand, Option.some.injEq] at h
    have h1 : lenOf lit b.toNat ≠ 0 := hok
    rw [← h, List.length_append, List.length_singleton, Tok.bits, huff_length]
    omega
  | copy ls le ds de =>
    obtain ⟨h1, h2, h3, h4, h5, h6, h7⟩ := hok
    have hl := copyBack_length h
    have e4 : ∀ i ≤ 28, lenBase.getD i 0 + 2 ^ lenExtra.getD i 0 ≤ 259 := by decide
    have e5 := e4 (ls - 257) (by omega)
    rw [hl, Tok.bits]
    simp only [List.length_append, huff_length, lsb_length]
    omega

theorem toks_rate {lit dist : List Nat} {toks : List Tok} (hok : ∀ t ∈ toks, t.Ok lit dist) {o out : List UInt8}
    (he : expandToks o toks = some out) : out.length ≤ o.length + 129 * (toks.flatMap (Tok.bits lit dist)).length := by
  induction toks generalizing o with
  | nil => simp only [expandToks, Option.some.injEq] at he; rw [he]; omega
  | cons t ts ih =>
    obtain ⟨o1, e1, e2⟩ := expandToks_cons he
    have h1 := ih (fun t ht => hok t (by simp [ht])) e2
    have h2 := (tok_rate (hok t (by simp)) e1).2
    rw [List.flatMap_cons, List.length_append]
    omega

theorem Roomy.waitsOk {W : Nat → Nat → Prop} {N M tl L : Nat} {lit dist : List Nat} {out : List UInt8} (hS : Roomy W N M tl)
    (hN : out.length ≤ N) (hL : tl < L) (hM : M + 129 ≤ out.length + 129 * (L - tl)) {toks : List Tok}
    (hok : ∀ t ∈ toks, t.Ok lit dist) {o : List UInt8} (he : expandToks o toks = some out) :
    WaitsOk W lit dist L o toks := by
  induction toks generalizing o with
  | nil => trivial
  | cons t ts ih =>
    obtain ⟨o1, e1, e2⟩ := expandToks_cons he
    constructor
    · intro o' e h h1 h2
      rw [e1] at e
      cases e
      have := expandToks_length_le e2
      have h3 := (tok_rate (hok t (by simp)) e1).1
      have h4 := toks_rate (fun t ht => hok t (by simp [ht])) e2
      exact hS _ _ (by omega) (by omega) (by omega)
    · intro o' e
      rw [e1] at e
      cases e
      exact ih (fun t ht => hok t (by simp [ht])) e2

section
variable {N M tl : Nat} {W : Nat → Nat → Prop} {hist : Bytes} {c : Nat}

theorem strm_num_mod {b : BitBuf} {rest : Bytes} {R : List Bool} (h : strm b rest = R) : b.num % 8 = R.length % 8 := by
  rw [← h, strm_length]; omega

/-! ### Stored blocks -/

theorem strm_zero {b : BitBuf} (h : b.num = 0) (rest : Bytes) : strm b rest = Spec.bits rest := by
  rw [strm, BitBuf.bits, h]; rfl

theorem byteBits_inj {a b : UInt8} (h : Spec.byteBits a = Spec.byteBits b) : a = b := by
  rw [byteBits_eq, byteBits_eq] at h
  exact UInt8.toNat_inj.mp (lsb_inj a.toNat_lt b.toNat_lt h)

theorem bits_head {rest : Bytes} {x : UInt8} {R : List Bool} (h : Spec.bits rest = Spec.byteBits x ++ R) :
    ∃ xs, rest = x :: xs ∧ Spec.bits xs = R := by
  match rest with
  | [] =>
    have := congrArg List.length h
    rw [bits_nil, List.length_append, byteBits_length] at this
    simp at this; omega
  | y :: ys =>
    rw [bits_cons] at h
    obtain ⟨h1, h2⟩ := List.append_inj h (by rw [byteBits_length, byteBits_length])
    exact ⟨ys, by rw [byteBits_inj h1], h2⟩

theorem wp_rawByte {v : Nat} {b : BitBuf} {rest : Bytes} {R : List Bool} (hb : b.Good)
    (hs : strm b rest = lsb 8 v ++ R) (hv : v < 256) {Q : Post (Nat × BitBuf)}
    (hQ : ∀ b' rest', b'.Good → strm b' rest' = R → Q (v, b') rest' hist c) :
    (rawByte b).wp W Q rest hist c := by
  unfold rawByte
  by_cases h : b.num = 0
  · rw [if_neg (by simpa using h)]
    rw [strm_zero h] at hs
    have e : lsb 8 v = Spec.byteBits (UInt8.ofNat v) := by
      rw [byteBits_eq, UInt8.toNat_ofNat_of_lt' (by exact hv)]
    rw [e] at hs
    obtain ⟨xs, rfl, h2⟩ := bits_head hs
    apply Co.wp_byte
    rw [UInt8.toNat_ofNat_of_lt' (by exact hv)]
    exact hQ b xs hb (by rw [strm_zero h]; exact h2)
  · rw [if_pos h]
    exact wp_getBits hb hs hv (by omega) hQ

theorem wp_storedBits (hS : Roomy W N M tl) (data : Bytes) {b : BitBuf} {rest : Bytes} {R : List Bool} (hb : b.Good)
    (hs : strm b rest = Spec.bits data ++ R) (hR : tl ≤ R.length) (hN : hist.length + data.length ≤ N) (hM : M ≤ hist.length + data.length + 129 * (R.length - tl))
    {Q : Post (Nat × BitBuf)}
    (hQ : ∀ b' rest' hist' c' d2, b'.Good → strm b' rest' = Spec.bits d2 ++ R → (d2 = [] ∨ b'.num = 0) →
      hist'.reverse ++ d2 = hist.reverse ++ data → Q (d2.length, b') rest' hist' c') :
    (storedBits data.length b).wp W Q rest hist c := by
  induction data generalizing b rest hist c with
  | nil => exact hQ b rest hist c [] hb hs (Or.inl rfl) rfl
  | cons x xs ih =>
    rw [List.length_cons, storedBits]
    by_cases h : b.num = 0
    · rw [if_neg (by simpa using h)]
      exact hQ b rest hist c (x :: xs) hb hs (Or.inr h) rfl
    · rw [if_pos h, Co.wp_bind]
      apply wp_getBits (v := x.toNat) hb (by rw [hs, bits_cons, byteBits_eq, List.append_assoc]) x.toNat_lt (by omega)
      intro b' rest' g s
      dsimp only
      rw [List.length_cons] at hN
      rw [List.length_cons] at hM
      have hW := (hS hist.length _ (by omega) (by rw [List.length_append]; omega)
        (by rw [List.length_append, bits_length]; omega) : WaitAt W hist.length (Spec.bits xs ++ R).length).rest g s
      apply Co.wp_waitOut hW
      apply Co.wp_put (by omega) hW
      rw [UInt8.ofNat_toNat]
      apply ih g s (by rw [List.length_cons]; omega) (by rw [List.length_cons]; omega)
      intro b2 rest2 hist2 c2 d2 h1 h2 h3 h4
      exact hQ b2 rest2 hist2 c2 d2 h1 h2 h3 (by rw [h4]; simp)

theorem wp_storedBytes (hS : Roomy W N M tl) (data : Bytes) {rest : Bytes} {R : List Bool}
    (hs : Spec.bits rest = Spec.bits data ++ R) (hR : tl ≤ R.length) (hN : hist.length + data.length ≤ N) (hM : M ≤ hist.length + data.length + 129 * (R.length - tl))
    {Q : Post Unit} (hQ : ∀ rest' hist' c', Spec.bits rest' = R → hist'.reverse = hist.reverse ++ data →
      Q () rest' hist' c') :
    (storedBytes data.length).wp W Q rest hist c := by
  induction data generalizing rest hist c with
  | nil => exact hQ rest hist c hs (by simp)
  | cons x xs ih =>
    rw [List.length_cons, storedBytes]
    rw [List.length_cons] at hN
    have hl := congrArg List.length hs
    rw [List.length_append, bits_length, bits_length] at hl
    rw [List.length_cons] at hM hl
    apply Co.wp_waitOut (hS hist.length (8 * rest.length) (by omega) (by omega) (by omega) rest.length (by omega) (by omega))
    rw [bits_cons, List.append_assoc] at hs
    obtain ⟨ys, rfl, h2⟩ := bits_head hs
    apply Co.wp_byte
    rw [List.length_cons] at hl
    apply Co.wp_put (by omega) (hS hist.length (8 * ys.length) (by omega) (by omega) (by omega) ys.length (by omega) (by omega))
    apply ih h2 (by rw [List.length_cons]; omega) (by rw [List.length_cons]; omega)
    intro rest' hist' c' h3 h4
    exact hQ rest' hist' c' h3 (by rw [h4]; simp)

theorem lsb16 {n : Nat} : lsb 16 n = lsb 8 (n % 256) ++ lsb 8 (n / 256) := by
  rw [show (16 : Nat) = 8 + 8 from rfl, lsb_append, ← lsb_mod 8 n]; rfl

theorem or_shift8 {n : Nat} : n % 256 ||| ((n / 256) <<< 8) = n := by
  rw [or_shift_eq _ (by omega)]; omega

theorem xor_ffff {n : Nat} (h : n < 65536) : 0xFFFF ^^^ (65535 - n) = n := by
  have h1 := Nat.testBit_two_pow_sub_succ (n := 16) h
  apply Nat.eq_of_testBit_eq
  intro i
  rw [Nat.testBit_xor, show 65535 - n = 2 ^ 16 - (n + 1) by omega, h1 i,
    show (0xFFFF : Nat) = 2 ^ 16 - 1 from rfl, Nat.testBit_two_pow_sub_one]
  by_cases hi : i < 16
  · simp [hi]
  · have : n.testBit i = false := Nat.testBit_lt_two_pow
      (lt_of_lt_of_le h (by rw [show (65536:Nat) = 2 ^ 16 from rfl]; exact Nat.pow_le_pow_right (by omega) (by omega)))
    simp [hi, this]

theorem wp_storedBlock (hS : Roomy W N M tl) {pad : List Bool} {data : Bytes} {b : BitBuf} {rest : Bytes} {R : List Bool}
    (hb : b.Good) (hs : strm b rest = pad ++ (lsb 16 data.length ++ (lsb 16 (2 ^ 16 - 1 - data.length) ++
      (Spec.bits data ++ R)))) (hpad : b.num % 8 = pad.length) (hd : data.length < 2 ^ 16) (hR : tl ≤ R.length)
    (hN : hist.length + data.length ≤ N) (hM : M ≤ hist.length + data.length + 129 * (R.length - tl)) {Q : Post BitBuf}
    (hQ : ∀ b' rest' hist' c', b'.Good → strm b' rest' = R → hist'.reverse = hist.reverse ++ data →
      Q b' rest' hist' c') :
    (storedBlock b).wp W Q rest hist c := by
  have hand : b.num &&& 7 = pad.length := by
    rw [show (7 : Nat) = 2 ^ 3 - 1 from rfl, Nat.and_two_pow_sub_one_eq_mod]; exact hpad
  have hle : pad.length ≤ b.num := by omega
  have hs1 := strm_drop hs hle
  have hb1 : (b.drop pad.length).Good := ⟨hb.1.drop hle, by rw [BitBuf.drop_num]; have := hb.2; omega⟩
  unfold storedBlock
  rw [hand]
  rw [lsb16, lsb16 (n := 2 ^ 16 - 1 - data.length)] at hs1
  simp only [List.append_assoc] at hs1
  dsimp only
  rw [Co.wp_bind]
  apply wp_rawByte hb1 hs1 (by omega)
  intro b2 r2 g2 s2
  dsimp only
  rw [Co.wp_bind]
  apply wp_rawByte g2 s2 (by omega)
  intro b3 r3 g3 s3
  dsimp only
  rw [Co.wp_bind]
  apply wp_rawByte g3 s3 (by omega)
  intro b4 r4 g4 s4
  dsimp only
  rw [Co.wp_bind]
  apply wp_rawByte g4 s4 (by omega)
  intro b5 r5 g5 s5
  dsimp only
  rw [or_shift8, or_shift8, show 2 ^ 16 - 1 - data.length = 65535 - data.length from rfl, xor_ffff hd,
    if_neg (by simp), Co.wp_bind]
  apply wp_storedBits hS data g5 s5 hR hN hM
  intro b6 r6 h6 c6 d6 g6 s6 o6 e6
  dsimp only
  rw [Co.wp_bind]
  have hlen := congrArg List.length e6
  simp only [List.length_append, List.length_reverse] at hlen
  rcases o6 with rfl | hz
  · rw [List.length_nil, storedBytes]
    exact hQ b6 r6 h6 c6 g6 (by simpa [bits_nil] using s6) (by simpa using e6)
  · rw [strm_zero hz] at s6
    apply wp_storedBytes hS d6 s6 hR (by omega) (by omega)
    intro r7 h7 c7 s7 e7
    exact hQ b6 r7 h7 c7 g6 (by rw [strm_zero hz]; exact s7) (by rw [e7, e6])

/-! ### Dynamic blocks -/

theorem wp_readClLens (cl : List Nat) (h7 : ∀ l ∈ cl, l ≤ 7) (is : List Nat) (sizes : List Nat) {b : BitBuf}
    {rest : Bytes} {R : List Bool} (hb : b.Good)
    (hs : strm b rest = is.flatMap (fun s => lsb 3 (lenOf cl s)) ++ R) {Q : Post (List Nat × BitBuf)}
    (hQ : ∀ b' rest', b'.Good → strm b' rest' = R →
      Q (is.foldl (fun l i => l.set i (lenOf cl i)) sizes, b') rest' hist c) :
    (readClLens is sizes b).wp W Q rest hist c := by
  induction is generalizing sizes b rest with
  | nil => exact hQ b rest hb (by simpa using hs)
  | cons i is ih =>
    rw [readClLens, Co.wp_bind]
    rw [List.flatMap_cons, List.append_assoc] at hs
    have hle : lenOf cl i ≤ 7 := by
      by_cases h : i < cl.length
      · rw [lenOf_eq h]; exact h7 _ (List.getElem_mem h)
      · simp [lenOf, List.getD, List.getElem?_eq_none (Nat.le_of_not_lt h)]
    apply wp_getBits hb hs (by omega) (by omega)
    intro b' rest' g s
    exact ih (sizes.set i (lenOf cl i)) g s hQ

theorem foldl_set_length (cl is sizes : List Nat) :
    (is.foldl (fun l i => l.set i (lenOf cl i)) sizes).length = sizes.length := by
  induction is generalizing sizes with
  | nil => rfl
  | cons i is ih => rw [List.foldl_cons, ih, List.length_set]

theorem foldl_set_getD (cl is sizes : List Nat) (j : Nat) (hj : j < sizes.length) :
    (is.foldl (fun l i => l.set i (lenOf cl i)) sizes).getD j 0 = if j ∈ is then lenOf cl j else sizes.getD j 0 := by
  induction is generalizing sizes with
  | nil => simp
  | cons i is ih =>
    rw [List.foldl_cons, ih _ (by rw [List.length_set]; exact hj)]
    by_cases h1 : j ∈ is
    · simp [h1]
    · rw [if_neg h1]
      by_cases h2 : j = i
      · subst h2; simp [List.getD, hj]
      · rw [if_neg (by simp [h1, h2])]
        simp only [List.getD]
        rw [List.getElem?_set_ne (Ne.symm h2)]

theorem clLens_eq {cl : List Nat} {n : Nat} (hl : cl.length = 19)
    (h0 : ∀ s ∈ clOrder.drop n, lenOf cl s = 0) :
    (clOrder.take n).foldl (fun l i => l.set i (lenOf cl i)) (List.replicate 19 0) = cl := by
  apply List.ext_getElem
  · rw [foldl_set_length, List.length_replicate, hl]
  · intro j h1 h2
    have h := foldl_set_getD cl (clOrder.take n) (List.replicate 19 0) j (by rw [List.length_replicate]; omega)
    rw [List.getD_eq_getElem?_getD, List.getElem?_eq_getElem h1, Option.getD_some] at h
    rw [h, ← lenOf_eq h2]
    by_cases hj : j ∈ clOrder.take n
    · rw [if_pos hj]
    · rw [if_neg hj]
      have hmem : j ∈ clOrder := by
        have : ∀ j < 19, j ∈ clOrder := by decide
        exact this j (by omega)
      rw [← List.take_append_drop n clOrder, List.mem_append] at hmem
      rw [h0 j (hmem.resolve_left hj)]
      have : ∀ j < 19, (List.replicate 19 0).getD j 0 = 0 := by decide
      exact this j (by omega)

theorem expandCl_length_le {os : List ClOp} {acc res : List Nat} (h : expandCl acc os = some res) :
    acc.length + os.length ≤ res.length := by
  induction os generalizing acc with
  | nil => simp only [expandCl, Option.some.injEq] at h; rw [h]; simp
  | cons o os ih =>
    cases o with
    | len l => have := ih (by simpa [expandCl] using h); simp at this ⊢; omega
    | rep e =>
      rw [expandCl] at h
      split at h
      · exact absurd h (by simp)
      · have := ih h; simp at this ⊢; omega
    | zeros e => have := ih (by simpa [expandCl] using h); simp at this ⊢; omega
    | manyZeros e => have := ih (by simpa [expandCl] using h); simp at this ⊢; omega

theorem wp_readLens {cl : List Nat} {t : HuffTable} (hL : LensOk cl) (hT : TableOf cl t) {res : List Nat} (f : Nat) :
    ∀ {ops : List ClOp} {acc : List Nat} {b : BitBuf} {rest : Bytes} {R : List Bool}, b.Good →
    strm b rest = ops.flatMap (ClOp.bits cl) ++ R → (∀ o ∈ ops, o.Ok cl) → expandCl acc ops = some res →
    res.length ≤ acc.length + f → ∀ {Q : Post (List Nat × BitBuf)},
    (∀ b' rest', b'.Good → strm b' rest' = R → Q (res, b') rest' hist c) →
    (readLens t res.length f acc b).wp W Q rest hist c := by
  induction f with
  | zero =>
    intro ops acc b rest R hb hs hok he hf Q hQ
    have hl := expandCl_length_le he
    have : ops = [] := List.eq_nil_of_length_eq_zero (by omega)
    subst this
    simp only [expandCl, Option.some.injEq] at he
    subst he
    rw [readLens, if_neg (by omega)]
    exact hQ b rest hb (by simpa using hs)
  | succ f ih =>
    intro ops acc b rest R hb hs hok he hf Q hQ
    have hl := expandCl_length_le he
    rw [readLens]
    match ops, hs, hok, he, hl with
    | [], hs, hok, he, hl =>
      simp only [expandCl, Option.some.injEq] at he
      subst he
      rw [if_neg (by omega)]
      exact hQ b rest hb (by simpa using hs)
    | o :: os, hs, hok, he, hl =>
      rw [List.length_cons] at hl
      rw [if_pos (by omega), Co.wp_bind]
      rw [List.flatMap_cons, List.append_assoc] at hs
      have ho := hok o (by simp)
      have hoks : ∀ o ∈ os, o.Ok cl := fun o h => hok o (by simp [h])
      rw [show ClOp.bits cl o = _ from ClOp.bits.eq_def cl o, List.append_assoc] at hs
      apply wp_huffDecode hL hT ho.1 hb hs
      intro b' rest' g s
      cases o with
      | len l =>
        have hl15 : l ≤ 15 := ho.2
        dsimp only [ClOp.sym]
        rw [if_pos (by omega)]
        exact ih g (by simpa using s) hoks (by simpa [expandCl] using he) (by simp; omega) hQ
      | rep e =>
        have he4 : e < 4 := ho.2
        dsimp only [ClOp.sym]
        rw [expandCl] at he
        split at he
        · exact absurd he (by simp)
        · rename_i l hlast
          have hne : acc.length ≠ 0 := by
            intro h0
            rw [List.eq_nil_of_length_eq_zero h0] at hlast
            simp at hlast
          rw [if_neg (by omega), if_neg (by omega), Co.wp_bind]
          apply wp_getBits (v := e) g s he4 (by simp)
          intro b2 r2 g2 s2
          dsimp only
          rw [if_pos rfl, hlast]
          exact ih g2 s2 hoks (by rw [Nat.add_comm] at he; exact he)
            (by simp; omega) hQ
      | zeros e =>
        have he4 : e < 8 := ho.2
        dsimp only [ClOp.sym]
        rw [expandCl] at he
        rw [if_neg (by omega), if_neg (by omega), Co.wp_bind]
        apply wp_getBits (v := e) g s he4 (by simp)
        intro b2 r2 g2 s2
        dsimp only
        rw [if_neg (by omega)]
        exact ih g2 s2 hoks (by rw [Nat.add_comm] at he; exact he) (by simp; omega) hQ
      | manyZeros e =>
        have he4 : e < 128 := ho.2
        dsimp only [ClOp.sym]
        rw [expandCl] at he
        rw [if_neg (by omega), if_neg (by omega), Co.wp_bind]
        apply wp_getBits (v := e) g s he4 (by simp)
        intro b2 r2 g2 s2
        dsimp only
        rw [if_neg (by omega)]
        exact ih g2 s2 hoks (by rw [Nat.add_comm] at he; exact he) (by simp; omega) hQ

theorem wp_coTable {lens : List Nat} (hL : LensOk lens) {rest : Bytes} {Q : Post HuffTable}
    (hQ : ∀ t, TableOf lens t → Q t rest hist c) : (coTable lens).wp W Q rest hist c := by
  obtain ⟨t, h1, h2⟩ := buildTable_ok hL
  unfold coTable
  rw [h1]
  exact hQ t h2

theorem dezigzag_eq : sLengthDezigzag = clOrder := rfl

theorem wp_dynamicTables {d : Dyn} (hd : d.Ok) {b : BitBuf} {rest : Bytes} {R : List Bool} (hb : b.Good)
    (hs : strm b rest = d.bits ++ R) {Q : Post (HuffTable × HuffTable × BitBuf)}
    (hQ : ∀ t0 t1 b' rest', TableOf d.lit t0 → TableOf d.dist t1 → b'.Good → strm b' rest' = R →
      Q (t0, t1, b') rest' hist c) :
    (dynamicTables b).wp W Q rest hist c := by
  obtain ⟨d1, d2, d3, d4, d5, d6, d7, d8, d9, d10, d11, d12, d13, d14, d15⟩ := hd
  unfold dynamicTables
  rw [Dyn.bits] at hs
  simp only [List.append_assoc] at hs
  rw [Co.wp_bind]
  apply wp_getBits hb hs (by omega) (by omega)
  intro b1 r1 g1 s1
  dsimp only
  rw [Co.wp_bind]
  apply wp_getBits g1 s1 (by omega) (by omega)
  intro b2 r2 g2 s2
  dsimp only
  rw [Co.wp_bind]
  apply wp_getBits g2 s2 (by omega) (by omega)
  intro b3 r3 g3 s3
  dsimp only
  rw [show d.lit.length - 257 + 257 = d.lit.length by omega, show d.dist.length - 1 + 1 = d.dist.length by omega,
    show d.hclen - 4 + 4 = d.hclen by omega, dezigzag_eq, Co.wp_bind]
  apply wp_readClLens d.cl d2 _ _ g3 s3
  intro b4 r4 g4 s4
  dsimp only
  rw [clLens_eq d1 d6, Co.wp_bind]
  have hLc : LensOk d.cl := ⟨d3.1, d3.2, by omega⟩
  apply wp_coTable hLc
  intro t2 ht2
  have hlen : d.lit.length + d.dist.length = (d.lit ++ d.dist).length := by rw [List.length_append]
  rw [hlen, Co.wp_bind]
  apply wp_readLens hLc ht2 _ g4 s4 d7 d8 (by simp)
  intro b5 r5 g5 s5
  dsimp only
  rw [if_neg (by simp), List.drop_left, List.take_left, Co.wp_bind]
  apply wp_coTable ⟨d14.1, d14.2, by omega⟩
  intro t1 ht1
  rw [Co.wp_bind]
  apply wp_coTable ⟨d13.1, d13.2, by omega⟩
  intro t0 ht0
  exact hQ t0 t1 b5 r5 ht0 ht1 g5 s5

/-! ### The stream -/

theorem staticLit_eq : staticLit = fixedLit := rfl
theorem staticDist_eq : staticDist = fixedDist := rfl

theorem fixedLit_ok : LensOk fixedLit :=
  ⟨by decide +kernel, Or.inl (by unfold Complete; decide +kernel), by decide +kernel⟩
theorem fixedDist_ok : LensOk fixedDist :=
  ⟨by decide +kernel, Or.inl (by unfold Complete; decide +kernel), by decide +kernel⟩
theorem fixedLit_256 : lenOf fixedLit 256 ≠ 0 := by decide +kernel

theorem header_bits (final : Bool) (k : Nat) : final :: lsb 2 k = lsb 3 (final.toNat + 2 * k) := by
  rw [show (3 : Nat) = 1 + 2 from rfl, show final.toNat + 2 * k = final.toNat + 2 ^ 1 * k by ring,
    lsb_add 1 2 _ _ (by cases final <;> decide)]
  cases final <;> rfl

theorem expandBlock_length_le {b : Block} {out out' : List UInt8} (h : b.expand out = some out') :
    out.length ≤ out'.length := by
  cases b with
  | stored pad data => simp only [Block.expand, Option.some.injEq] at h; rw [← h]; simp
  | fixed toks => exact expandToks_length_le h
  | dynamic d toks => exact expandToks_length_le h

theorem expandBlocks_cons {b : Block} {bs : List Block} {out out' : List UInt8}
    (h : expandBlocks out (b :: bs) = some out') : ∃ o, b.expand out = some o ∧ expandBlocks o bs = some out' := by
  rw [expandBlocks] at h
  exact Option.bind_eq_some_iff.mp h

theorem expandBlocks_length_le {bs : List Block} {out out' : List UInt8} (h : expandBlocks out bs = some out') :
    out.length ≤ out'.length := by
  induction bs generalizing out with
  | nil => simp only [expandBlocks, Option.some.injEq] at h; rw [h]
  | cons b bs ih =>
    obtain ⟨o, h1, h2⟩ := expandBlocks_cons h
    exact (expandBlock_length_le h1).trans (ih h2)

/-- The number of tokens of a block. -/
def Spec.Deflate.Block.toks : Block → Nat
  | .stored _ _ => 0
  | .fixed toks => toks.length
  | .dynamic _ toks => toks.length

/-- The type of a block. -/
def Spec.Deflate.Block.kind : Block → Nat
  | .stored _ _ => 0
  | .fixed _ => 1
  | .dynamic _ _ => 2

/-- The bits after the first three. -/
def Spec.Deflate.Block.body : Block → List Bool
  | .stored pad data =>
    pad ++ lsb 16 data.length ++ lsb 16 (2 ^ 16 - 1 - data.length) ++ Spec.bits data
  | .fixed toks => toks.flatMap (Tok.bits fixedLit fixedDist) ++ huff fixedLit 256
  | .dynamic d toks => d.bits ++ toks.flatMap (Tok.bits d.lit d.dist) ++ huff d.lit 256

theorem Spec.Deflate.Block.bits_eq (b : Block) (final : Bool) : b.bits final = lsb 3 (final.toNat + 2 * b.kind) ++ b.body := by
  cases b <;> (rw [← header_bits]; simp only [Block.bits, Block.body, Block.kind]; simp [List.append_assoc])

theorem Spec.Deflate.Block.bits_length (b : Block) (final : Bool) : (b.bits final).length = 3 + b.body.length := by
  rw [b.bits_eq, List.length_append, lsb_length]

/-- Blocks that do not depend on the byte order of the host. -/
def HostFree (big : Bool) (blk : Block) : Prop := big = false ∨ ∃ pad data, blk = .stored pad data

theorem wp_inflateBlock' {big : Bool} (hS : Roomy W N M tl) {F : Nat} {blk : Block} (hh : HostFree big blk) (hF : blk.toks < F) {pos : Nat} (hok : blk.Ok pos)
    {b : BitBuf} {rest : Bytes} {R : List Bool} (hb : b.Good) (hs : strm b rest = blk.body ++ R)
    (hpos : (pos + 3 + (strm b rest).length) % 8 = 0) (hR : tl ≤ R.length) {out : List UInt8}
    (he : blk.expand hist.reverse = some out) (hN : out.length ≤ N) (hM : M ≤ out.length + 129 * (R.length - tl)) {Q : Post BitBuf}
    (hQ : ∀ b' rest' hist' c', b'.Good → strm b' rest' = R → hist'.reverse = out → Q b' rest' hist' c') :
    (inflateBlock big F blk.kind b).wp W Q rest hist c := by
  unfold inflateBlock
  cases blk with
  | stored pad data =>
    obtain ⟨h1, h2, h3⟩ := hok
    rw [show (Block.stored pad data).kind = 0 from rfl, if_pos rfl]
    simp only [Block.expand, Option.some.injEq] at he
    have hl := congrArg List.length he
    simp only [List.length_append, List.length_reverse] at hl
    simp only [Block.body, List.append_assoc] at hs
    rw [strm_length] at hpos
    apply wp_storedBlock hS hb hs (by omega) h3 hR (by omega) (by omega)
    intro b' rest' hist' c' g s e
    exact hQ b' rest' hist' c' g s (by rw [e, he])
  | fixed toks =>
    obtain rfl : big = false := by rcases hh with h | ⟨_, _, h⟩; exacts [h, nomatch h]
    rw [show (Block.fixed toks).kind = 1 from rfl, if_neg (by omega), if_neg (by omega), if_pos rfl, staticDist_eq, staticLit_eq, Co.wp_bind]
    apply wp_coTable fixedDist_ok
    intro t1 ht1
    rw [Co.wp_bind]
    apply wp_coTable fixedLit_ok
    intro t0 ht0
    have h256 := fixedLit_256
    apply wp_symLoop fixedLit_ok ht0 fixedDist_ok ht1 fixedLit_256 hQ
    · exact ⟨hb, by rw [hs]; simp only [Block.body, List.append_assoc], hok, he, hS.waitsOk hN (by rw [List.length_append, huff_length]; omega)
        (by rw [List.length_append, huff_length]; omega) hok he⟩
    · exact hF
  | dynamic d toks =>
    obtain rfl : big = false := by rcases hh with h | ⟨_, _, h⟩; exacts [h, nomatch h]
    obtain ⟨hd, htoks⟩ := hok
    rw [if_neg (by simp [Block.kind]), if_neg (by simp [Block.kind]), if_neg (by simp [Block.kind]), Co.wp_bind]
    apply wp_dynamicTables hd hb (by rw [hs]; simp only [Block.body, List.append_assoc]; rfl)
    intro t0 t1 b' rest' ht0 ht1 g s
    dsimp only
    have hd' := hd
    obtain ⟨d1, d2, d3, d4, d5, d6, d7, d8, d9, d10, d11, d12, d13, d14, d15⟩ := hd'
    apply wp_symLoop ⟨d13.1, d13.2, by omega⟩ ht0 ⟨d14.1, d14.2, by omega⟩ ht1 d15 hQ
    · exact ⟨g, s, htoks, he, hS.waitsOk hN (by rw [List.length_append, huff_length]; omega)
        (by rw [List.length_append, huff_length]; omega) htoks he⟩
    · exact hF

theorem wp_inflateBlock (hS : Roomy W N M tl) {F : Nat} {blk : Block} (hF : blk.toks < F) {pos : Nat} (hok : blk.Ok pos)
    {b : BitBuf} {rest : Bytes} {R : List Bool} (hb : b.Good) (hs : strm b rest = blk.body ++ R)
    (hpos : (pos + 3 + (strm b rest).length) % 8 = 0) (hR : tl ≤ R.length) {out : List UInt8}
    (he : blk.expand hist.reverse = some out) (hN : out.length ≤ N) (hM : M ≤ out.length + 129 * (R.length - tl)) {Q : Post BitBuf}
    (hQ : ∀ b' rest' hist' c', b'.Good → strm b' rest' = R → hist'.reverse = out → Q b' rest' hist' c') :
    (inflateBlock false F blk.kind b).wp W Q rest hist c :=
  wp_inflateBlock' hS (.inl rfl) hF hok hb hs hpos hR he hN hM hQ

theorem header_shift (final : Bool) (k : Nat) : (final.toNat + 2 * k) >>> 1 = k := by
  rw [Nat.shiftRight_eq_div_pow]; cases final
  · simp
  · simp; omega

theorem header_and (final : Bool) (k : Nat) : (final.toNat + 2 * k) &&& 1 = final.toNat := by
  rw [Nat.and_one_is_mod]; cases final <;> simp

theorem Spec.Deflate.Block.kind_lt (b : Block) : b.kind < 3 := by cases b <;> simp [Block.kind]

theorem block_rate {blk : Block} {pos : Nat} (hok : blk.Ok pos) {o o' : List UInt8} (h : blk.expand o = some o') (final : Bool) :
    o'.length ≤ o.length + 129 * (blk.bits final).length := by
  rw [blk.bits_length]
  cases blk with
  | stored pad data =>
    simp only [Block.expand, Option.some.injEq] at h
    rw [← h]
    simp only [Block.body, List.length_append, bits_length]
    omega
  | fixed toks =>
    have := toks_rate hok h
    simp only [Block.body, List.length_append]
    omega
  | dynamic d toks =>
    have := toks_rate hok.2 h
    simp only [Block.body, List.length_append]
    omega

theorem blocks_rate {blocks : List Block} {pos : Nat} (hok : StreamOk pos blocks) {o o' : List UInt8}
    (h : expandBlocks o blocks = some o') : o'.length ≤ o.length + 129 * (streamBits blocks).length := by
  induction blocks generalizing pos o with
  | nil => simp only [expandBlocks, Option.some.injEq] at h; rw [h]; omega
  | cons b bs ih =>
    obtain ⟨h1, h2⟩ := hok
    obtain ⟨o1, e1, e2⟩ := expandBlocks_cons h
    have h3 := ih h2 e2
    obtain ⟨final, hb⟩ : ∃ final, (streamBits (b :: bs)).length = (b.bits final).length + (streamBits bs).length := by
      cases bs with
      | nil => exact ⟨true, by simp [streamBits]⟩
      | cons b2 bs2 => exact ⟨false, by rw [streamBits, List.length_append]; simp⟩
    have h4 := block_rate h1 e1 final
    omega

/-- **A whole stream.** -/
theorem wp_blockLoop' {big : Bool} (hS : Roomy W N M tl) {F : Nat} {out : List UInt8} {R : List Bool} (hR : tl ≤ R.length)
    (hN : out.length ≤ N) (hM : M ≤ out.length) {Q : Post Unit}
    (hQ : ∀ rest' hist' c', hist'.reverse = out → 8 * rest'.length ≤ R.length → Q () rest' hist' c') (blocks : List Block) :
    ∀ {f pos : Nat} {b : BitBuf} {rest hist : Bytes} {c : Nat}, blocks ≠ [] → blocks.length ≤ f → (∀ blk ∈ blocks, HostFree big blk) →
    (∀ blk ∈ blocks, blk.toks < F) → StreamOk pos blocks → b.Good → strm b rest = streamBits blocks ++ R →
    (pos + (strm b rest).length) % 8 = 0 → expandBlocks hist.reverse blocks = some out →
    (blockLoop big F f b).wp W Q rest hist c := by
  induction blocks with
  | nil => intro f pos b rest hist c h; exact absurd rfl h
  | cons blk bs ih =>
    intro f pos b rest hist c _ hf hh hF hok hb hs hpos he
    match f, hf with
    | f + 1, hf =>
      obtain ⟨hok1, hok2⟩ := hok
      obtain ⟨o, e1, e2⟩ := expandBlocks_cons he
      rw [blockLoop, Co.wp_bind]
      -- final or not
      obtain ⟨final, R', hbits, hfin, hR'⟩ : ∃ final R', streamBits (blk :: bs) ++ R = blk.bits final ++ R' ∧
          (final = true → bs = [] ∧ R' = R) ∧ (final = false → bs ≠ [] ∧ R' = streamBits bs ++ R) ∧
          tl ≤ R'.length ∧ out.length ≤ o.length + 129 * (R'.length - tl) := by
        cases bs with
        | nil =>
          simp only [expandBlocks, Option.some.injEq] at e2
          exact ⟨true, R, rfl, fun _ => ⟨rfl, rfl⟩, by simp, hR, by rw [e2]; omega⟩
        | cons b2 bs2 =>
          refine ⟨false, streamBits (b2 :: bs2) ++ R, ?_, by simp, fun _ => ⟨by simp, rfl⟩, ?_, ?_⟩
          · rw [streamBits, List.append_assoc]; simp
          · rw [List.length_append]; omega
          · have := blocks_rate hok2 e2
            rw [List.length_append]; omega
      rw [hs, hbits, List.length_append, blk.bits_length] at hpos
      rw [hbits, blk.bits_eq, List.append_assoc] at hs
      have hk := blk.kind_lt
      apply wp_getBits hb hs (by cases final <;> simp <;> omega) (by omega)
      intro b1 r1 g1 s1
      dsimp only
      rw [header_shift, header_and, Co.wp_bind]
      have hpos1 : (pos + 3 + (strm b1 r1).length) % 8 = 0 := by
        rw [s1, List.length_append, ← hpos]; congr 1; omega
      apply wp_inflateBlock' hS (hh blk (by simp)) (hF blk (by simp)) hok1 g1 s1 hpos1 hR'.2.1 e1
        ((expandBlocks_length_le e2).trans hN) (hM.trans hR'.2.2)
      intro b2 r2 h2 c2 g2 s2 e3
      cases final with
      | true =>
        rw [if_neg (by simp)]
        obtain ⟨rfl, rfl⟩ := hfin rfl
        simp only [expandBlocks, Option.some.injEq] at e2
        exact hQ _ _ _ (e3.trans e2) (by rw [← s2, strm_length]; omega)
      | false =>
        rw [if_pos (by simp)]
        obtain ⟨hne, hR2⟩ := hR'.1 rfl
        rw [hR2] at s2
        apply ih hne (by simpa using hf) (fun x hx => hh x (by simp [hx])) (fun x hx => hF x (by simp [hx])) hok2 g2 s2
        · rw [s2, blk.bits_length, ← hR2, ← hpos]; congr 1; omega
        · rw [e3]; exact e2

/-- The same on a little-endian host. -/
theorem wp_blockLoop (hS : Roomy W N M tl) {F : Nat} {out : List UInt8} {R : List Bool} (hR : tl ≤ R.length)
    (hN : out.length ≤ N) (hM : M ≤ out.length) {Q : Post Unit}
    (hQ : ∀ rest' hist' c', hist'.reverse = out → 8 * rest'.length ≤ R.length → Q () rest' hist' c') (blocks : List Block) :
    ∀ {f pos : Nat} {b : BitBuf} {rest hist : Bytes} {c : Nat}, blocks ≠ [] → blocks.length ≤ f →
    (∀ blk ∈ blocks, blk.toks < F) → StreamOk pos blocks → b.Good → strm b rest = streamBits blocks ++ R →
    (pos + (strm b rest).length) % 8 = 0 → expandBlocks hist.reverse blocks = some out →
    (blockLoop false F f b).wp W Q rest hist c :=
  fun h0 h1 h2 h3 h4 h5 h6 h7 => wp_blockLoop' hS hR hN hM hQ blocks h0 h1 (fun _ _ => .inl rfl) h2 h3 h4 h5 h6 h7

end

end Npy
