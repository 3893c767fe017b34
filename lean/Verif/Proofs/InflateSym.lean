import Verif.Proofs.InflateWp
/-!
# Literals and matches
-/

set_option maxRecDepth 8000

namespace Npy
open Spec.Deflate

/-! ### The specification, on histories -/

theorem copyBack_length {n d : Nat} {out out' : List UInt8} (h : copyBack n d out = some out') :
    out'.length = out.length + n := by
  induction n generalizing out with
  | zero => simp only [copyBack, Option.some.injEq] at h; rw [h]; rfl
  | succ n ih =>
    rw [copyBack] at h
    split at h
    · exact absurd h (by simp)
    · split at h
      · exact absurd h (by simp)
      · rw [ih h, List.length_append, List.length_singleton]; omega

theorem Tok.expand_length_le {t : Tok} {out out' : List UInt8} (h : t.expand out = some out') :
    out.length ≤ out'.length := by
  cases t with
  | lit b => simp only [Tok.expand, Option.some.injEq] at h; rw [← h]; simp
  | copy ls le ds de => rw [copyBack_length h]; omega

theorem expandToks_cons {t : Tok} {ts : List Tok} {out out' : List UInt8} (h : expandToks out (t :: ts) = some out') :
    ∃ o, t.expand out = some o ∧ expandToks o ts = some out' := by
  rw [expandToks] at h
  exact Option.bind_eq_some_iff.mp h

theorem expandToks_length_le {ts : List Tok} {out out' : List UInt8} (h : expandToks out ts = some out') :
    out.length ≤ out'.length := by
  induction ts generalizing out with
  | nil => simp only [expandToks, Option.some.injEq] at h; rw [h]
  | cons t ts ih =>
    obtain ⟨o, h1, h2⟩ := expandToks_cons h
    exact (Tok.expand_length_le h1).trans (ih h2)

/-- `W` holds whenever there is a wait with `h` bytes written and `L` bits to come after the current token. -/
def WaitAt (W : Nat → Nat → Prop) (h L : Nat) : Prop := ∀ r, 8 * r ≤ L → L ≤ 8 * r + 62 → W h r

theorem WaitAt.rest {W : Nat → Nat → Prop} {h : Nat} {R : List Bool} (hW : WaitAt W h R.length) {b : BitBuf}
    {rest : Bytes} (hb : b.Good) (hs : strm b rest = R) : W h rest.length := by
  have := hb.2
  have h2 := strm_length b rest
  rw [hs] at h2
  exact hW rest.length (by omega) (by omega)

section
variable {W : Nat → Nat → Prop} {hist : Bytes} {c : Nat}

theorem wp_copyMatch (n d : Nat) (hd : d ≤ 32768) {rest : Bytes} {out : List UInt8}
    (hr : ∀ h, hist.length ≤ h → h < out.length → W h rest.length)
    (he : copyBack n d hist.reverse = some out) {Q : Post Unit}
    (hQ : ∀ hist' c', hist'.reverse = out → Q () rest hist' c') :
    (copyMatch d n).wp W Q rest hist c := by
  induction n generalizing hist c with
  | zero =>
    simp only [copyBack, Option.some.injEq] at he
    exact hQ _ _ he
  | succ n ih =>
    have hl := copyBack_length he
    rw [List.length_reverse] at hl
    rw [copyBack] at he
    split at he
    · exact absurd he (by simp)
    · rename_i h1
      rw [List.length_reverse] at h1 he
      split at he
      · exact absurd he (by simp)
      · rename_i b hb
        rw [copyMatch]
        apply Co.wp_waitOut (hr _ (by omega) (by omega))
        rw [Co.wp_bind]
        refine ⟨by omega, hr _ (by omega) (by omega), b, ?_, ?_⟩
        · rw [show (d + 32767) % 32768 = d - 1 by omega]
          rw [List.getElem?_reverse (by omega)] at hb
          rwa [show hist.length - 1 - (hist.length - d) = d - 1 by omega] at hb
        · exact ih (fun h h1 h2 => hr h (by rw [List.length_cons] at h1; omega) h2) (by rw [List.reverse_cons]; exact he)

theorem wp_extraBits {n base v : Nat} {b : BitBuf} {rest : Bytes} {R : List Bool} (hb : b.Good)
    (hs : strm b rest = lsb n v ++ R) (hv : v < 2 ^ n) (h16 : n ≤ 16) {Q : Post (Nat × BitBuf)}
    (hQ : ∀ b' rest', b'.Good → strm b' rest' = R → Q (base + v, b') rest' hist c) :
    (extraBits n base b).wp W Q rest hist c := by
  unfold extraBits
  by_cases h : n = 0
  · subst h
    rw [if_neg (by simp)]
    have : v = 0 := by simpa using hv
    subst this
    exact hQ b rest hb hs
  · rw [if_pos h, Co.wp_bind]
    apply wp_getBits hb hs hv h16
    intro b' rest' h1 h2
    exact hQ b' rest' h1 h2

theorem lengthTables {i : Nat} (h : i ≤ 28) : sLengthExtra.getD i 0 = lenExtra.getD i 0 ∧
    sLengthBase.getD i 0 = lenBase.getD i 0 ∧ lenExtra.getD i 0 ≤ 5 ∧ lenBase.getD i 0 ≠ 0 := by
  revert i; decide

theorem distTables {i : Nat} (h : i ≤ 29) : sDistExtra.getD i 0 = distExtra.getD i 0 ∧
    sDistBase.getD i 0 = distBase.getD i 0 ∧ distExtra.getD i 0 ≤ 13 ∧
    distBase.getD i 0 + 2 ^ distExtra.getD i 0 ≤ 32769 := by
  revert i; decide

variable {lit dist : List Nat} {t0 t1 : HuffTable}

/-- A match, after its first symbol. -/
theorem wp_doMatch (hL1 : LensOk dist) (hT1 : TableOf dist t1) {ls le ds de : Nat}
    (h1 : 257 ≤ ls) (h2 : ls ≤ 285) (h3 : le < 2 ^ lenExtra.getD (ls - 257) 0) (h4 : ds ≤ 29)
    (h5 : lenOf dist ds ≠ 0) (h6 : de < 2 ^ distExtra.getD ds 0) {b : BitBuf} {rest : Bytes} {R : List Bool}
    (hb : b.Good)
    (hs : strm b rest = lsb (lenExtra.getD (ls - 257) 0) le ++ huff dist ds ++ lsb (distExtra.getD ds 0) de ++ R)
    {out : List UInt8} (he : (Tok.copy ls le ds de).expand hist.reverse = some out)
    (hW : ∀ h, hist.length ≤ h → h < out.length → WaitAt W h R.length) {Q : Post BitBuf}
    (hQ : ∀ b' rest' hist' c', b'.Good → strm b' rest' = R → hist'.reverse = out → Q b' rest' hist' c') :
    (doMatch t1 ls b).wp W Q rest hist c := by
  obtain ⟨e1, e2, e3, e4⟩ := lengthTables (i := ls - 257) (by omega)
  obtain ⟨e5, e6, e7, e8⟩ := distTables h4
  unfold doMatch
  rw [e1, e2, Co.wp_bind]
  apply wp_extraBits (R := huff dist ds ++ (lsb (distExtra.getD ds 0) de ++ R)) hb
    (by rw [hs]; simp only [List.append_assoc]) h3 (by omega)
  intro b2 rest2 g2 s2
  dsimp only
  rw [Co.wp_bind]
  apply wp_huffDecode hL1 hT1 h5 g2 s2
  intro b3 rest3 g3 s3
  dsimp only
  rw [e5, e6, Co.wp_bind]
  apply wp_extraBits g3 s3 h6 (by omega)
  intro b4 rest4 g4 s4
  dsimp only
  rw [Co.wp_bind]
  unfold putMatch
  rw [if_neg (by omega)]
  apply wp_copyMatch _ _ (by omega) (fun h h1 h2 => (hW h h1 h2).rest g4 s4) he
  intro hist' c' hh
  exact hQ _ _ _ _ g4 s4 hh

theorem and_256 {raw s : Nat} (h : raw % 512 = s) : raw &&& 256 ≠ 0 ↔ 256 ≤ s := by
  have h1 : raw.testBit 8 = s.testBit 8 := by
    rw [← h, show (512 : Nat) = 2 ^ 9 from rfl, Nat.testBit_mod_two_pow]; simp
  have h2 : (raw &&& 256).testBit 8 = s.testBit 8 := by
    rw [Nat.testBit_and, h1, show (256 : Nat) = 2 ^ 8 from rfl, Nat.testBit_two_pow_self, Bool.and_true]
  have hs : s < 512 := by omega
  rw [Nat.testBit_eq_decide_div_mod_eq (x := s)] at h2
  constructor
  · intro h3
    by_contra h4
    apply h3
    apply Nat.eq_of_testBit_eq
    intro i
    rw [Nat.testBit_and, show (256 : Nat) = 2 ^ 8 from rfl, Nat.testBit_two_pow, Nat.zero_testBit]
    by_cases hi : 8 = i
    · subst hi
      rw [h1, Nat.testBit_lt_two_pow (by omega), Bool.false_and]
    · simp [hi]
  · intro h3 h4
    rw [h4, Nat.zero_testBit] at h2
    have : s / 2 ^ 8 % 2 = 1 := by omega
    simp at h2; omega

theorem and_511 {raw s : Nat} (h : raw % 512 = s) : raw &&& 511 = s := by
  rw [show (511 : Nat) = 2 ^ 9 - 1 from rfl, Nat.and_two_pow_sub_one_eq_mod]; exact h

theorem ofNat_raw {raw : Nat} {x : UInt8} (h : raw % 512 = x.toNat) : UInt8.ofNat raw = x := by
  apply UInt8.toNat_inj.mp
  rw [UInt8.toNat_ofNat']
  have := x.toNat_lt
  omega

theorem wp_refill4 {b : BitBuf} {rest : Bytes} (hb : b.Good) (hr : 4 ≤ rest.length) {Q : Post BitBuf}
    (hQ : ∀ b' rest', b'.Good → 30 ≤ b'.num → strm b' rest' = strm b rest → Q b' rest' hist c) :
    (refill4 false b).wp W Q rest hist c := by
  unfold refill4
  by_cases h : b.num < 30
  · rw [if_pos h]
    match rest, hr with
    | w :: x :: y :: z :: zs, _ =>
      apply Co.wp_byte
      apply Co.wp_byte
      apply Co.wp_byte
      apply Co.wp_byte
      have o0 := hb.1
      have o1 := o0.feed w
      have o2 := o1.feed x
      have o3 := o2.feed y
      have o4 := o3.feed z
      simp only [Bool.false_eq_true, if_false]
      refine hQ _ _ ⟨o4, ?_⟩ ?_ ?_
      · simp only [BitBuf.feed_num]; omega
      · simp only [BitBuf.feed_num]; omega
      · rw [strm_feed o3, strm_feed o2, strm_feed o1, strm_feed o0]
  · rw [if_neg h]
    exact hQ b rest hb (by omega) rfl

/-- A symbol that is in the bit buffer. -/
theorem decode_now (hL : LensOk lit) (hT : TableOf lit t0) {s : Nat} (h0 : lenOf lit s ≠ 0) {b : BitBuf}
    {rest : Bytes} {R : List Bool} (hb : b.Good) (h15 : 15 ≤ b.num) (hs : strm b rest = huff lit s ++ R) :
    ∃ raw, decodeRaw t0 b.buf = (raw, lenOf lit s) ∧ raw % 512 = s ∧ (b.drop (lenOf lit s)).Good ∧
      strm (b.drop (lenOf lit s)) rest = R ∧ b.num - 15 ≤ (b.drop (lenOf lit s)).num := by
  have hle := lenOf_le hL.h15 s
  have h6 : huff lit s <+: lsb b.num b.buf := strm_prefix hs (by rw [huff_length]; omega)
  obtain ⟨raw, h7, h8⟩ := decodeRaw_ok hL hT h0 h6
  refine ⟨raw, h7, h8, ⟨hb.1.drop (by omega), ?_⟩, ?_, ?_⟩
  · rw [BitBuf.drop_num]; have := hb.2; omega
  · have := strm_drop hs (by rw [huff_length]; omega)
    rwa [huff_length] at this
  · rw [BitBuf.drop_num]; omega

/-- The first symbol of a token. -/
def Tok.head : Tok → Nat
  | .lit b => b.toNat
  | .copy ls _ _ _ => ls

theorem toksBits_cons (t : Tok) (ts : List Tok) (R : List Bool) :
    (t :: ts).flatMap (Tok.bits lit dist) ++ R = t.bits lit dist ++ (ts.flatMap (Tok.bits lit dist) ++ R) := by
  rw [List.flatMap_cons, List.append_assoc]

/-- All the waits in a sequence of tokens. -/
def WaitsOk (W : Nat → Nat → Prop) (lit dist : List Nat) (L : Nat) : List UInt8 → List Tok → Prop
  | _, [] => True
  | o, t :: ts => (∀ o', t.expand o = some o' → ∀ h, o.length ≤ h → h < o'.length →
      WaitAt W h ((ts.flatMap (Tok.bits lit dist)).length + L)) ∧
    ∀ o', t.expand o = some o' → WaitsOk W lit dist L o' ts

/-- What is known of the rest of a block at a bit position. -/
structure BlockRest (W : Nat → Nat → Prop) (lit dist : List Nat) (b : BitBuf) (rest hist : Bytes) (toks : List Tok)
    (R : List Bool) (out : List UInt8) : Prop where
  good : b.Good
  strm : strm b rest = toks.flatMap (Tok.bits lit dist) ++ (huff lit 256 ++ R)
  ok : ∀ t ∈ toks, t.Ok lit dist
  exp : expandToks hist.reverse toks = some out
  waits : WaitsOk W lit dist (huff lit 256 ++ R).length hist.reverse toks

/-- **The symbols of a block.** -/
theorem wp_symLoop (hL0 : LensOk lit) (hT0 : TableOf lit t0) (hL1 : LensOk dist)
    (hT1 : TableOf dist t1) (h256 : lenOf lit 256 ≠ 0) {out : List UInt8} {R : List Bool} {Q : Post BitBuf}
    (hQ : ∀ b' rest' hist' c', b'.Good → strm b' rest' = R → hist'.reverse = out → Q b' rest' hist' c') (f : Nat) :
    ∀ {b : BitBuf} {rest hist : Bytes} {c : Nat} {toks : List Tok}, BlockRest W lit dist b rest hist toks R out →
    toks.length < f → (symLoop false t0 t1 f b).wp W Q rest hist c := by
  -- a match, then the rest
  have hmatch : ∀ {f : Nat} {b : BitBuf} {rest hist : Bytes} {c : Nat} {ls le ds de : Nat} {ts : List Tok},
      (∀ {b : BitBuf} {rest hist : Bytes} {c : Nat}, BlockRest W lit dist b rest hist ts R out →
        (symLoop false t0 t1 f b).wp W Q rest hist c) →
      b.Good → (Tok.copy ls le ds de).Ok lit dist → (∀ t ∈ ts, t.Ok lit dist) →
      strm b rest = lsb (lenExtra.getD (ls - 257) 0) le ++ huff dist ds ++ lsb (distExtra.getD ds 0) de ++
        (ts.flatMap (Tok.bits lit dist) ++ (huff lit 256 ++ R)) →
      expandToks hist.reverse (Tok.copy ls le ds de :: ts) = some out →
      WaitsOk W lit dist (huff lit 256 ++ R).length hist.reverse (Tok.copy ls le ds de :: ts) →
      (doMatch t1 ls b >>= fun b => symLoop false t0 t1 f b).wp W Q rest hist c := by
    intro f b rest hist c ls le ds de ts ih hb hok hoks hs he hw
    obtain ⟨o, e1, e2⟩ := expandToks_cons he
    obtain ⟨a1, a2, _, a3, a4, a5, a6⟩ := hok
    rw [Co.wp_bind]
    apply wp_doMatch hL1 hT1 a1 a2 a3 a4 a5 a6 hb hs e1
      (fun h h1 h2 => by rw [List.length_append]; exact hw.1 _ e1 h (by rw [List.length_reverse]; exact h1) h2)
    intro b' rest' hist' c' g s e
    exact ih ⟨g, s, hoks, e ▸ e2, e ▸ hw.2 _ e1⟩
  induction f with
  | zero => intro b rest hist c toks _ h; omega
  | succ f ih =>
    intro b rest hist c toks H hf
    rw [symLoop]
    apply Co.wp_availIn
    intro nIn hIn
    apply Co.wp_availOut
    intro nOut hOut
    by_cases hslow : nIn < 4 ∨ nOut < 2
    · rw [if_pos hslow, Co.wp_bind]
      match toks, H, hf with
      | [], H, _ =>
        apply wp_huffDecode hL0 hT0 h256 H.good (by simpa using H.strm)
        intro b' rest' g s
        dsimp only
        rw [if_pos (by omega), if_pos rfl]
        have := H.exp
        simp only [expandToks, Option.some.injEq] at this
        exact hQ _ _ _ _ g s this
      | .lit x :: ts, H, hf =>
        have hok := H.ok (.lit x) (by simp)
        apply wp_huffDecode (s := x.toNat) hL0 hT0 hok H.good (by rw [H.strm, toksBits_cons]; rfl)
        intro b' rest' g s
        dsimp only
        have hx := x.toNat_lt
        rw [if_neg (by omega)]
        obtain ⟨o, e1, e2⟩ := expandToks_cons H.exp
        simp only [Tok.expand, Option.some.injEq] at e1
        have hW := (by rw [List.length_append]; exact H.waits.1 _ rfl hist.length (by simp) (by simp) : WaitAt W hist.length _).rest g s
        apply Co.wp_waitOut hW
        apply Co.wp_put (by omega) hW
        rw [UInt8.ofNat_toNat]
        exact ih ⟨g, s, fun t ht => H.ok t (by simp [ht]), by rw [List.reverse_cons, e1]; exact e2,
          by rw [List.reverse_cons]; exact H.waits.2 _ rfl⟩
          (by simpa using hf)
      | .copy ls le ds de :: ts, H, hf =>
        have hok := H.ok (.copy ls le ds de) (by simp)
        apply wp_huffDecode (s := ls) hL0 hT0 hok.2.2.1 H.good
          (by rw [H.strm, toksBits_cons, Tok.bits]; simp only [List.append_assoc]; rfl)
        intro b' rest' g s
        dsimp only
        have := hok.1
        rw [if_pos (by omega), if_neg (by omega)]
        exact hmatch (fun H => ih H (by simpa using hf)) g hok (fun t ht => H.ok t (by simp [ht]))
          (by rw [s]; simp only [List.append_assoc]) H.exp H.waits
    · rw [if_neg hslow, Co.wp_bind]
      apply wp_refill4 H.good (by omega)
      intro b rest hb hnum hs0
      have hs := hs0.trans H.strm
      match toks, H, hf with
      | [], H, _ =>
        obtain ⟨raw, d1, d2, d3, d4, _⟩ := decode_now hL0 hT0 h256 hb (by omega) (by simpa using hs)
        simp only [d1]
        rw [if_pos ((and_256 d2).mpr (by omega)), if_pos (and_511 d2)]
        have := H.exp
        simp only [expandToks, Option.some.injEq] at this
        exact hQ _ _ _ _ d3 d4 this
      | .copy ls le ds de :: ts, H, hf =>
        have hok := H.ok (.copy ls le ds de) (by simp)
        have h257 := hok.1
        obtain ⟨raw, d1, d2, d3, d4, _⟩ := decode_now (s := ls) hL0 hT0 hok.2.2.1 hb (by omega)
          (by rw [hs, toksBits_cons, Tok.bits]; simp only [List.append_assoc]; rfl)
        simp only [d1]
        rw [if_pos ((and_256 d2).mpr (by omega)), and_511 d2, if_neg (by omega)]
        exact hmatch (fun H => ih H (by simpa using hf)) d3 hok (fun t ht => H.ok t (by simp [ht]))
          (by rw [d4]; simp only [List.append_assoc]) H.exp H.waits
      | .lit x :: ts, H, hf =>
        have hok := H.ok (.lit x) (by simp)
        have hx := x.toNat_lt
        obtain ⟨raw, d1, d2, d3, d4, d5⟩ := decode_now (s := x.toNat) hL0 hT0 hok hb (by omega)
          (by rw [hs, toksBits_cons]; rfl)
        simp only [d1]
        rw [if_neg (by rw [and_256 d2]; omega)]
        obtain ⟨o, e1, e2⟩ := expandToks_cons H.exp
        simp only [Tok.expand, Option.some.injEq] at e1
        subst e1
        have hw1 := (by rw [List.length_append]; exact H.waits.1 _ rfl hist.length (by simp) (by simp) : WaitAt W hist.length _).rest d3 d4
        have hw2 := H.waits.2 _ rfl
        rw [← List.reverse_cons] at e2 hw2
        have hoks : ∀ t ∈ ts, t.Ok lit dist := fun t ht => H.ok t (by simp [ht])
        rw [ofNat_raw d2]
        generalize hbb : b.drop (lenOf lit x.toNat) = bb at d3 d4 d5
        match ts, e2, hoks, d4, hf, hw2 with
        | [], e2, hoks, d4, hf, _ =>
          obtain ⟨raw2, c1, c2, c3, c4, _⟩ := decode_now hL0 hT0 h256 d3 (by omega) (by simpa using d4)
          simp only [c1]
          apply Co.wp_put (by omega) hw1
          rw [if_pos ((and_256 c2).mpr (by omega)), if_pos (and_511 c2)]
          simp only [expandToks, Option.some.injEq] at e2
          exact hQ _ _ _ _ c3 c4 e2
        | .copy ls le ds de :: ts, e2, hoks, d4, hf, hw2 =>
          have hok := hoks (.copy ls le ds de) (by simp)
          have h257 := hok.1
          obtain ⟨raw2, c1, c2, c3, c4, _⟩ := decode_now (s := ls) hL0 hT0 hok.2.2.1 d3 (by omega)
            (by rw [d4, toksBits_cons, Tok.bits]; simp only [List.append_assoc]; rfl)
          simp only [c1]
          apply Co.wp_put (by omega) hw1
          rw [if_pos ((and_256 c2).mpr (by omega)), and_511 c2, if_neg (by omega)]
          exact hmatch (fun H => ih H (by simp at hf; omega)) c3 hok (fun t ht => hoks t (by simp [ht]))
            (by rw [c4]; simp only [List.append_assoc]) e2 hw2
        | .lit y :: ts, e2, hoks, d4, hf, hw2 =>
          have hok := hoks (.lit y) (by simp)
          have hy := y.toNat_lt
          obtain ⟨raw2, c1, c2, c3, c4, _⟩ := decode_now (s := y.toNat) hL0 hT0 hok d3 (by omega)
            (by rw [d4, toksBits_cons]; rfl)
          simp only [c1]
          apply Co.wp_put (by omega) hw1
          rw [if_neg (by rw [and_256 c2]; omega)]
          apply Co.wp_put (by omega)
            ((by rw [List.length_append]; exact hw2.1 _ rfl _ (by simp) (by simp) : WaitAt W _ _).rest c3 c4)
          rw [ofNat_raw c2]
          obtain ⟨o, e3, e4⟩ := expandToks_cons e2
          simp only [Tok.expand, Option.some.injEq] at e3
          subst e3
          have hw3 := hw2.2 _ rfl
          rw [← List.reverse_cons] at e4 hw3
          exact ih ⟨c3, c4, fun t ht => hoks t (by simp [ht]), e4, hw3⟩ (by simp at hf; omega)

end

end Npy
