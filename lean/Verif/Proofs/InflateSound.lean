import Verif.Proofs.InflateSp
/-!
# Decompression of any bytes
-/

set_option maxRecDepth 8000

namespace Npy
open Spec.Deflate

section
variable {N : Nat} {hist : Bytes} {c : Nat}

/-! ### Stored blocks -/

theorem sp_storedBits (n : Nat) : ∀ {b : BitBuf} {rest hist : Bytes} {c : Nat}, b.Good →
    hist.length + 258 * (strm b rest).length < N → ∀ {Q : Post (Nat × BitBuf)},
    (∀ m data b' rest' hist' c', b'.Good → strm b rest = Spec.bits data ++ strm b' rest' → n = data.length + m →
      (m = 0 ∨ b'.num = 0) → hist'.reverse = hist.reverse ++ data → Q (m, b') rest' hist' c') →
    (storedBits n b).sp N Q rest hist c := by
  induction n with
  | zero =>
    intro b rest hist c hb hN Q hQ
    exact hQ 0 [] b rest hist c hb rfl rfl (Or.inl rfl) (by simp)
  | succ n ih =>
    intro b rest hist c hb hN Q hQ
    rw [storedBits]
    by_cases h : b.num = 0
    · rw [if_neg (by simpa using h)]
      exact hQ (n + 1) [] b rest hist c hb rfl (by simp) (Or.inr h) (by simp)
    · rw [if_pos h, Co.sp_bind]
      apply sp_getBits hb (by omega)
      intro v b' rest' hv g s
      dsimp only
      have hl := congrArg List.length s
      rw [List.length_append, lsb_length] at hl
      apply Co.sp_waitOut (by omega)
      apply Co.sp_put (by omega) (by omega)
      apply ih g (by rw [List.length_cons]; omega)
      intro m data b2 rest2 hist2 c2 g2 s2 e2 o2 h2
      refine hQ m (UInt8.ofNat v :: data) b2 rest2 hist2 c2 g2 ?_ (by rw [List.length_cons]; omega) o2 (by rw [h2]; simp)
      rw [s, s2, bits_cons, byteBits_eq, UInt8.toNat_ofNat_of_lt' (by exact hv), List.append_assoc]

theorem sp_storedBytes (n : Nat) : ∀ {rest hist : Bytes} {c : Nat},
    hist.length + 258 * (8 * rest.length) < N → ∀ {Q : Post Unit},
    (∀ data rest' hist' c', rest = data ++ rest' → n = data.length → hist'.reverse = hist.reverse ++ data →
      Q () rest' hist' c') →
    (storedBytes n).sp N Q rest hist c := by
  induction n with
  | zero =>
    intro rest hist c hN Q hQ
    exact hQ [] rest hist c rfl rfl (by simp)
  | succ n ih =>
    intro rest hist c hN Q hQ
    rw [storedBytes]
    apply Co.sp_waitOut (by omega)
    apply Co.sp_byte
    rintro x xs rfl
    rw [List.length_cons] at hN
    apply Co.sp_put (by omega) (by omega)
    apply ih (by rw [List.length_cons]; omega)
    intro data rest' hist' c' e1 e2 e3
    exact hQ (x :: data) rest' hist' c' (by rw [e1]; rfl) (by rw [e2]; rfl) (by rw [e3]; simp)

theorem xor_ffff_inv {a b : Nat} (hb : b < 65536) (h : a = 0xFFFF ^^^ b) : a < 65536 ∧ b = 65535 - a := by
  have h1 := xor_ffff (n := 65535 - b) (by omega)
  rw [show 65535 - (65535 - b) = b by omega] at h1
  omega

theorem sp_storedBlock {b : BitBuf} {rest : Bytes} (hb : b.Good) (hN : hist.length + 258 * (strm b rest).length ≤ N)
    {Q : Post BitBuf}
    (hQ : ∀ pad data b' rest' hist' c', b'.Good → pad.length = b.num % 8 → data.length < 2 ^ 16 →
      strm b rest = pad ++ lsb 16 data.length ++ lsb 16 (2 ^ 16 - 1 - data.length) ++ Spec.bits data ++ strm b' rest' →
      hist'.reverse = hist.reverse ++ data → Q b' rest' hist' c') :
    (storedBlock b).sp N Q rest hist c := by
  have hand : b.num &&& 7 = b.num % 8 := by
    rw [show (7 : Nat) = 2 ^ 3 - 1 from rfl, Nat.and_two_pow_sub_one_eq_mod]
  have hle : b.num % 8 ≤ b.num := by omega
  obtain ⟨pad, R, hs0, hpl⟩ : ∃ pad R, strm b rest = pad ++ R ∧ pad.length = b.num % 8 :=
    ⟨(strm b rest).take (b.num % 8), (strm b rest).drop (b.num % 8), (List.take_append_drop _ _).symm,
      by rw [List.length_take, strm_length]; omega⟩
  have hs1 := strm_drop hs0 (by omega)
  rw [hpl] at hs1
  have hb1 : (b.drop (b.num % 8)).Good := ⟨hb.1.drop hle, by rw [BitBuf.drop_num]; have := hb.2; omega⟩
  unfold storedBlock
  rw [hand]
  generalize b.drop (b.num % 8) = b1 at hs1 hb1
  rw [← hs1] at hs0
  dsimp only
  rw [Co.sp_bind]
  apply sp_rawByte hb1
  intro v0 b2 r2 w0 g2 s2
  dsimp only
  rw [Co.sp_bind]
  apply sp_rawByte g2
  intro v1 b3 r3 w1 g3 s3
  dsimp only
  rw [Co.sp_bind]
  apply sp_rawByte g3
  intro v2 b4 r4 w2 g4 s4
  dsimp only
  rw [Co.sp_bind]
  apply sp_rawByte g4
  intro v3 b5 r5 w3 g5 s5
  dsimp only
  have hn : v0 ||| (v1 <<< 8) = v0 + 256 * v1 := or_shift_eq (n := 8) v1 (by simpa using w0)
  have hm : v2 ||| (v3 <<< 8) = v2 + 256 * v3 := or_shift_eq (n := 8) v3 (by simpa using w2)
  rw [hn, hm]
  by_cases hx : v0 + 256 * v1 = 0xFFFF ^^^ (v2 + 256 * v3)
  · rw [if_neg (by simpa using hx), Co.sp_bind]
    obtain ⟨x1, x2⟩ := xor_ffff_inv (by omega) hx
    have e16 : strm b rest = pad ++ lsb 16 (v0 + 256 * v1) ++ lsb 16 (2 ^ 16 - 1 - (v0 + 256 * v1)) ++ strm b5 r5 := by
      rw [hs0, s2, s3, s4, s5, show 2 ^ 16 - 1 - (v0 + 256 * v1) = v2 + 256 * v3 by omega]
      rw [show (16 : Nat) = 8 + 8 from rfl, show (256 : Nat) = 2 ^ 8 from rfl, lsb_add 8 8 v0 v1 (by simpa using w0),
        lsb_add 8 8 v2 v3 (by simpa using w2)]
      simp only [List.append_assoc]
    generalize v0 + 256 * v1 = n at x1 e16
    have hl := congrArg List.length e16
    simp only [List.length_append, lsb_length] at hl
    apply sp_storedBits n g5 (by omega)
    intro m data b6 r6 h6 c6 g6 s6 n6 o6 e6
    dsimp only
    have hl6 := congrArg List.length s6
    rw [List.length_append, bits_length] at hl6
    have hh6 := congrArg List.length e6
    rw [List.length_append, List.length_reverse, List.length_reverse] at hh6
    rw [Co.sp_bind]
    have fin : ∀ data2 r7 h7 c7, n = (data ++ data2).length → strm b6 r6 = Spec.bits data2 ++ strm b6 r7 →
        h7.reverse = h6.reverse ++ data2 → Q b6 r7 h7 c7 := by
      intro data2 r7 h7 c7 k1 k2 k3
      refine hQ pad (data ++ data2) b6 r7 h7 c7 g6 hpl (by rw [← k1]; exact x1) ?_ (by rw [k3, e6, List.append_assoc])
      rw [← k1, e16, s6, k2, bits_append]
      simp only [List.append_assoc]
    rcases o6 with rfl | hz
    · exact fin [] r6 h6 c6 (by simpa using n6) rfl (by simp)
    · have hls := strm_length b6 r6
      apply sp_storedBytes m (by omega)
      intro data2 r7 h7 c7 k1 k2 k3
      exact fin data2 r7 h7 c7 (by rw [List.length_append]; omega)
        (by rw [strm_zero hz, strm_zero hz, k1, bits_append]) k3
  · rw [if_pos (by simpa using hx)]
    rfl

/-! ### Dynamic blocks -/

theorem sp_readClLens (is : List Nat) : ∀ {sizes : List Nat} {b : BitBuf} {rest : Bytes}, b.Good → is.Nodup →
    (∀ i ∈ is, i < sizes.length) → (∀ l ∈ sizes, l ≤ 7) → ∀ {Q : Post (List Nat × BitBuf)},
    (∀ res b' rest', b'.Good → res.length = sizes.length → (∀ l ∈ res, l ≤ 7) → (∀ j, j ∉ is → lenOf res j = lenOf sizes j) →
      strm b rest = is.flatMap (fun s => lsb 3 (lenOf res s)) ++ strm b' rest' → Q (res, b') rest' hist c) →
    (readClLens is sizes b).sp N Q rest hist c := by
  induction is with
  | nil =>
    intro sizes b rest hb _ _ h7 Q hQ
    exact hQ sizes b rest hb rfl h7 (fun _ _ => rfl) rfl
  | cons i is ih =>
    intro sizes b rest hb hnd hlt h7 Q hQ
    rw [readClLens, Co.sp_bind]
    apply sp_getBits hb (by omega)
    intro v b' rest' hv g s
    dsimp only
    obtain ⟨hi, hnd'⟩ := List.nodup_cons.mp hnd
    apply ih g hnd' (fun j hj => by rw [List.length_set]; exact hlt j (by simp [hj]))
      (fun l hl => by
        rcases List.mem_or_eq_of_mem_set hl with h | h
        · exact h7 l h
        · omega)
    intro res b2 rest2 g2 l2 k2 j2 s2
    refine hQ res b2 rest2 g2 (by rw [l2, List.length_set]) k2 ?_ ?_
    · intro j hj
      rw [j2 j (fun h => hj (by simp [h]))]
      simp only [lenOf, List.getD]
      rw [List.getElem?_set_ne (fun h => hj (by simp [h]))]
    · have hv' : lenOf res i = v := by
        rw [j2 i hi]
        simp [lenOf, List.getD, hlt i (by simp)]
      rw [s, s2, List.flatMap_cons, hv', List.append_assoc]

/-- The code length code: what was read are the code lengths in their order. -/
theorem clOrder_nodup : clOrder.Nodup := by decide

theorem sp_readLens {cl : List Nat} {t : HuffTable} (hL : LensOk cl) (hcl : cl.length = 19) (hT : TableOf cl t) {total : Nat} {S : List Bool}
    (hclean : ∀ ops lens more, (∀ o ∈ ops, o.Ok cl) → expandCl [] ops = some lens → lens.length < total →
      S = ops.flatMap (ClOp.bits cl) ++ more → ¬NoCode cl more) {Q : Post (List Nat × BitBuf)}
    (hQ : ∀ ops lens b' rest', b'.Good → (∀ o ∈ ops, o.Ok cl) → expandCl [] ops = some lens →
      S = ops.flatMap (ClOp.bits cl) ++ strm b' rest' → Q (lens, b') rest' hist c) (f : Nat) :
    ∀ {acc : List Nat} {ops : List ClOp} {b : BitBuf} {rest : Bytes}, b.Good → (∀ o ∈ ops, o.Ok cl) →
    expandCl [] ops = some acc → S = ops.flatMap (ClOp.bits cl) ++ strm b rest → total ≤ acc.length + f →
    (readLens t total f acc b).sp N Q rest hist c := by
  induction f with
  | zero =>
    intro acc ops b rest hb hok he hs hf
    rw [readLens, if_neg (by omega)]
    exact hQ ops acc b rest hb hok he hs
  | succ f ih =>
    intro acc ops b rest hb hok he hs hf
    rw [readLens]
    by_cases hlt : acc.length < total
    · rw [if_pos hlt, Co.sp_bind]
      apply sp_huffDecode hL hT hb (hclean ops acc _ hok he hlt hs)
      intro d b' rest' h0 g s
      dsimp only
      have hd19 : d < 19 := by rw [← hcl]; exact lenOf_lt h0
      -- one more symbol
      have next : ∀ (o : ClOp) (acc' : List Nat) (b2 : BitBuf) (rest2 : Bytes), b2.Good → o.Ok cl →
          expandCl acc [o] = some acc' → strm b rest = o.bits cl ++ strm b2 rest2 → acc.length < acc'.length →
          (readLens t total f acc' b2).sp N Q rest2 hist c := by
        intro o acc' b2 rest2 g2 ho e2 s2 l2
        refine ih (ops := ops ++ [o]) g2 ?_ ?_ ?_ (by omega)
        · intro x hx
          rcases List.mem_append.1 hx with h | h
          · exact hok x h
          · rw [List.mem_singleton.1 h]; exact ho
        · rw [expandCl_snoc he]; exact e2
        · rw [hs, s2, List.flatMap_append, List.append_assoc]; simp
      by_cases h16 : d < 16
      · rw [if_pos h16]
        exact next (.len d) _ b' rest' g ⟨h0, by omega⟩ rfl (by rw [s]; simp [ClOp.bits, ClOp.sym]) (by simp)
      · rw [if_neg h16]
        by_cases hf16 : d = 16 ∧ acc.length = 0
        · rw [if_pos hf16]
          rfl
        · rw [if_neg hf16, Co.sp_bind]
          apply sp_getBits g (by
            have : ∀ d < 19, ([2, 3, 7] : List Nat).getD (d - 16) 0 ≤ 16 := by decide
            exact this d hd19)
          intro v b2 rest2 hv g2 s2
          dsimp only
          rw [s2] at s
          rcases (show d = 16 ∨ d = 17 ∨ d = 18 by omega) with rfl | rfl | rfl
          · obtain ⟨l, hl⟩ : ∃ l, acc.getLast? = some l := by
              cases h : acc.getLast? with
              | none => exact absurd ⟨rfl, by rw [List.getLast?_eq_none_iff.mp h]; rfl⟩ hf16
              | some l => exact ⟨l, rfl⟩
            rw [if_pos rfl, hl]
            refine next (.rep v) _ b2 rest2 g2 ⟨h0, hv⟩ ?_ (by rw [s]; simp [ClOp.bits, ClOp.sym]) (by simp)
            rw [expandCl, hl]
            dsimp only [expandCl]
            rw [Nat.add_comm 3 v]; rfl
          · rw [if_neg (by omega)]
            refine next (.zeros v) _ b2 rest2 g2 ⟨h0, hv⟩ ?_ (by rw [s]; simp [ClOp.bits, ClOp.sym]) (by simp)
            dsimp only [expandCl]
            rw [Nat.add_comm 3 v]; rfl
          · rw [if_neg (by omega)]
            refine next (.manyZeros v) _ b2 rest2 g2 ⟨h0, hv⟩ ?_ (by rw [s]; simp [ClOp.bits, ClOp.sym]) (by simp)
            dsimp only [expandCl]
            rw [Nat.add_comm 11 v]; rfl
    · rw [if_neg hlt]
      exact hQ ops acc b rest hb hok he hs

theorem sp_coTable {lens : List Nat} (h15 : ∀ l ∈ lens, l ≤ 15) (hlen : lens.length ≤ 288) {rest : Bytes} {Q : Post HuffTable}
    (hQ : ∀ t, Usable lens → LensOk lens → TableOf lens t → Q t rest hist c) : (coTable lens).sp N Q rest hist c := by
  by_cases hU : Usable lens
  · have hL : LensOk lens := ⟨hU.1, hU.2, hlen⟩
    apply Co.sp_of_wp (W := Still N) (fun _ _ => still)
    exact wp_coTable hL (fun t ht => hQ t hU hL ht)
  · unfold coTable
    rw [buildTable_bad h15 hU]
    rfl

theorem sp_dynamicTables {b : BitBuf} {rest : Bytes} (hb : b.Good)
    (hclean : ∀ (d : DynHead) ops lens more, d.Fits → Usable d.cl → (∀ o ∈ ops, o.Ok d.cl) → expandCl [] ops = some lens →
      lens.length < d.nlit + d.ndist → strm b rest = d.bits ++ ops.flatMap (ClOp.bits d.cl) ++ more → ¬NoCode d.cl more)
    {Q : Post (HuffTable × HuffTable × BitBuf)}
    (hQ : ∀ (d : DynHead) ops lit dist t0 t1 b' rest', b'.Good → d.Fits → Usable d.cl → (∀ o ∈ ops, o.Ok d.cl) →
      expandCl [] ops = some (lit ++ dist) → lit.length = d.nlit → dist.length = d.ndist → Usable lit → Usable dist →
      LensOk lit → LensOk dist → TableOf lit t0 → TableOf dist t1 →
      strm b rest = d.bits ++ ops.flatMap (ClOp.bits d.cl) ++ strm b' rest' → Q (t0, t1, b') rest' hist c) :
    (dynamicTables b).sp N Q rest hist c := by
  unfold dynamicTables
  rw [Co.sp_bind]
  apply sp_getBits hb (by omega)
  intro v0 b1 r1 w0 g1 s1
  dsimp only
  rw [Co.sp_bind]
  apply sp_getBits g1 (by omega)
  intro v1 b2 r2 w1 g2 s2
  dsimp only
  rw [Co.sp_bind]
  apply sp_getBits g2 (by omega)
  intro v2 b3 r3 w2 g3 s3
  dsimp only
  rw [dezigzag_eq, Co.sp_bind]
  apply sp_readClLens (clOrder.take (v2 + 4)) g3 (clOrder_nodup.sublist (List.take_sublist _ _))
    (fun i hi => by
      have : ∀ i ∈ clOrder, i < 19 := by decide
      rw [List.length_replicate]
      exact this i (List.mem_of_mem_take hi))
    (fun l hl => by rw [(List.mem_replicate.1 hl).2]; omega)
  intro cl b4 r4 g4 l4 k4 j4 s4
  dsimp only
  rw [List.length_replicate] at l4
  rw [Co.sp_bind]
  apply sp_coTable (fun l hl => (k4 l hl).trans (by omega)) (by omega)
  intro t2 hU hL ht2
  have hfits : DynHead.Fits ⟨v0 + 257, v1 + 1, cl, v2 + 4⟩ := by
    refine ⟨by dsimp only; omega, by dsimp only; omega, by dsimp only; omega, by dsimp only; omega, l4, k4, by dsimp only; omega,
      by dsimp only; omega, ?_⟩
    intro s hs
    have hnot : s ∉ clOrder.take (v2 + 4) := by
      intro h
      have hnd := clOrder_nodup
      rw [← List.take_append_drop (v2 + 4) clOrder] at hnd
      exact (List.disjoint_of_nodup_append hnd) h hs
    show lenOf cl s = 0
    rw [j4 s hnot]
    unfold lenOf
    rw [List.getD_eq_getElem?_getD, List.getElem?_replicate]
    split <;> rfl
  have hbits : strm b rest = DynHead.bits ⟨v0 + 257, v1 + 1, cl, v2 + 4⟩ ++ strm b4 r4 := by
    rw [s1, s2, s3, s4, DynHead.bits]
    simp only [Nat.add_sub_cancel, List.append_assoc]
  rw [Co.sp_bind]
  refine sp_readLens (S := strm b4 r4) hL l4 ht2 ?_ ?_ _ (acc := []) (ops := []) g4 (by simp) rfl (by simp) (by simp)
  · intro ops lens more h1 h2 h3 h4
    exact hclean ⟨v0 + 257, v1 + 1, cl, v2 + 4⟩ ops lens more hfits hU h1 h2 h3 (by rw [hbits, h4, List.append_assoc])
  · intro ops lens b5 r5 g5 h1 h2 h3
    dsimp only
    by_cases htot : v0 + 257 + (v1 + 1) = lens.length
    · rw [if_neg (by simpa using htot), Co.sp_bind]
      have h15 := lens_le15 h1 (by simp) h2
      have hsplit := List.take_append_drop (v0 + 257) lens
      have hll : (lens.take (v0 + 257)).length = v0 + 257 := by rw [List.length_take]; omega
      have hdl : (lens.drop (v0 + 257)).length = v1 + 1 := by rw [List.length_drop]; omega
      apply sp_coTable (fun l hl => h15 l (List.mem_of_mem_drop hl)) (by omega)
      intro t1 hUd hLd ht1
      rw [Co.sp_bind]
      apply sp_coTable (fun l hl => h15 l (List.mem_of_mem_take hl)) (by omega)
      intro t0 hUl hLl ht0
      exact hQ ⟨v0 + 257, v1 + 1, cl, v2 + 4⟩ ops (lens.take (v0 + 257)) (lens.drop (v0 + 257)) t0 t1 b5 r5 g5 hfits hU h1
        (by rw [hsplit]; exact h2) hll hdl hUl hUd hLl hLd ht0 ht1 (by rw [hbits, h3, List.append_assoc])
    · rw [if_pos (by simpa using htot)]
      rfl

/-! ### Blocks -/

theorem sp_inflateBlock {F k : Nat} (hk : k < 4) {b : BitBuf} {rest : Bytes} (hb : b.Good)
    (hF : (strm b rest).length < F) (hN : hist.length + 258 * (strm b rest).length ≤ N) {pos : Nat}
    (hpos : (pos + 3 + (strm b rest).length) % 8 = 0)
    {final : Bool} (hclean : ¬FaultyBlock hist.reverse (final :: lsb 2 k ++ strm b rest)) {Q : Post BitBuf}
    (hQ : ∀ blk b' rest' hist' c', b'.Good → Block.kind blk = k → blk.Ok pos → strm b rest = blk.body ++ strm b' rest' →
      blk.expand hist.reverse = some hist'.reverse → hist'.length + 258 * (strm b' rest').length ≤ N → Q b' rest' hist' c') :
    (inflateBlock false F k b).sp N Q rest hist c := by
  unfold inflateBlock
  by_cases k0 : k = 0
  · subst k0
    rw [if_pos rfl]
    apply sp_storedBlock hb hN
    intro pad data b' rest' hist' c' g hpad hd hs he
    have hl := congrArg List.length hs
    have hl2 := strm_length b rest
    have hl3 := congrArg List.length he
    simp only [List.length_append, lsb_length, bits_length, List.length_reverse] at hl hl3
    exact hQ (.stored pad data) b' rest' hist' c' g rfl ⟨by omega, by omega, hd⟩ hs (by simp [Block.expand, he]) (by omega)
  · rw [if_neg k0]
    by_cases k3 : k = 3
    · rw [if_pos k3]; rfl
    · rw [if_neg k3]
      by_cases k1 : k = 1
      · subst k1
        rw [if_pos rfl, staticDist_eq, staticLit_eq, Co.sp_bind]
        apply Co.sp_of_wp (W := Still N) (fun _ _ => still)
        apply wp_coTable fixedDist_ok
        intro t1 ht1
        rw [Co.sp_bind]
        apply Co.sp_of_wp (W := Still N) (fun _ _ => still)
        apply wp_coTable fixedLit_ok
        intro t0 ht0
        apply sp_symLoop (B := strm b rest) (out := hist.reverse) fixedLit_ok ht0 fixedDist_ok ht1 ?_ ?_ F hb
          ⟨⟨[], by simp, by simp, rfl⟩, hN⟩ hF
        · intro toks out' more h1 h2 h3 h4
          refine hclean ?_
          rw [h2, ← List.append_assoc]
          exact .fixed final toks out' more h1 h3 h4
        · intro b' rest' hist' c' g h256 hat
          obtain ⟨⟨toks, h1, h2, h3⟩, h4⟩ := hat
          rw [List.length_append] at h4
          exact hQ (.fixed toks) b' rest' hist' c' g rfl h1 (by rw [h2]; simp only [Block.body, List.append_assoc]) h3 (by omega)
      · rw [if_neg k1, Co.sp_bind]
        have k2 : k = 2 := by omega
        subst k2
        apply sp_dynamicTables hb
        · intro d ops lens more h1 h2 h3 h4 h5 h6 h7
          refine hclean ?_
          rw [h6, ← List.append_assoc, ← List.append_assoc]
          exact .noLength final d ops lens more h1 h2 h3 h4 h5 h7
        · intro d ops lit dist t0 t1 b2 rest2 g2 hfits hU hops hexp hlit hdist hUl hUd hLl hLd ht0 ht1 hs
          dsimp only
          have h286 : d.nlit ≤ 286 := by
            by_contra hc
            refine hclean ?_
            rw [hs, List.append_assoc, ← List.append_assoc]
            exact .tooManyCodes final d _ hfits (by omega)
          have hl := congrArg List.length hs
          rw [List.length_append] at hl
          apply sp_symLoop (B := strm b2 rest2) (out := hist.reverse) hLl ht0 hLd ht1 ?_ ?_ F g2
            ⟨⟨[], by simp, by simp, rfl⟩, by omega⟩ (by omega)
          · intro toks out' more h1 h2 h3 h4
            refine hclean ?_
            rw [hs, h2, ← List.append_assoc, ← List.append_assoc, ← List.append_assoc]
            exact .dynamic final d ops lit dist toks out' more hfits hU hops hexp hlit hdist hUl hUd h1 h3 h4
          · intro b' rest' hist' c' g h256 hat
            obtain ⟨⟨toks, h1, h2, h3⟩, h4⟩ := hat
            rw [List.length_append] at h4
            obtain ⟨f1, f2, f3, f4, f5, f6, f7, f8, f9⟩ := hfits
            refine hQ (.dynamic ⟨d.cl, d.hclen, ops, lit, dist⟩ toks) b' rest' hist' c' g rfl
              ⟨⟨f5, f6, hU, f7, f8, f9, hops, hexp, ?_, ?_, ?_, ?_, hUl, hUd, h256⟩, h1⟩ ?_ h3 (by omega)
            · show 257 ≤ lit.length; omega
            · show lit.length ≤ 286; omega
            · show 1 ≤ dist.length; omega
            · show dist.length ≤ 32; omega
            · rw [hs, h2]
              simp only [Block.body, Dyn.bits, DynHead.bits, hlit, hdist, List.append_assoc]

/-- Where the decoder is: after some legal blocks that end with `hist` written. -/
def BlockAt (z : Bytes) (S : List Bool) (hist : Bytes) : Prop :=
  ∃ blocks, StreamOk 0 blocks ∧ Spec.bits z = blocks.flatMap (Block.bits false) ++ S ∧
    expandBlocks [] blocks = some hist.reverse

theorem streamOk_push {blocks : List Block} {blk : Block} {pos : Nat} (h1 : StreamOk pos blocks)
    (h2 : blk.Ok (pos + (blocks.flatMap (Block.bits false)).length)) : StreamOk pos (blocks ++ [blk]) := by
  induction blocks generalizing pos with
  | nil => exact ⟨by simpa using h2, trivial⟩
  | cons b bs ih =>
    refine ⟨h1.1, ih h1.2 ?_⟩
    rw [List.flatMap_cons, List.length_append, ← Nat.add_assoc] at h2
    exact h2

theorem expandBlocks_push {blocks : List Block} {blk : Block} {out o1 o2 : List UInt8} (h1 : expandBlocks out blocks = some o1)
    (h2 : blk.expand o1 = some o2) : expandBlocks out (blocks ++ [blk]) = some o2 := by
  induction blocks generalizing out with
  | nil =>
    simp only [expandBlocks, Option.some.injEq] at h1
    subst h1
    simp [expandBlocks, h2]
  | cons x xs ih =>
    obtain ⟨o, e1, e2⟩ := expandBlocks_cons h1
    simp only [List.cons_append, expandBlocks, e1, Option.bind_some]
    exact ih e2

theorem streamBits_push (blocks : List Block) (blk : Block) :
    streamBits (blocks ++ [blk]) = blocks.flatMap (Block.bits false) ++ blk.bits true := by
  induction blocks with
  | nil => simp [streamBits]
  | cons b bs ih =>
    rw [List.flatMap_cons, List.append_assoc, ← ih]
    cases bs with
    | nil => rfl
    | cons b2 bs2 => rfl

/-- **Any stream.** -/
theorem sp_blockLoop {z : Bytes} (hz : ¬Faulty z) {F : Nat} (f : Nat) :
    ∀ {b : BitBuf} {rest hist : Bytes} {c : Nat}, b.Good → BlockAt z (strm b rest) hist →
    (strm b rest).length < f → (strm b rest).length < F → hist.length + 258 * (strm b rest).length ≤ N →
    (blockLoop false F f b).sp N (fun _ _ h _ => Inflates z h.reverse) rest hist c := by
  induction f with
  | zero => intro b rest hist c _ _ h; omega
  | succ f ih =>
    intro b rest hist c hb hat hf hF hN
    obtain ⟨blocks, a1, a2, a3⟩ := hat
    rw [blockLoop, Co.sp_bind]
    apply sp_getBits hb (by omega)
    intro v b1 r1 hv g1 s1
    dsimp only
    obtain ⟨final, k, hk, rfl⟩ : ∃ (final : Bool) (k : Nat), k < 4 ∧ v = final.toNat + 2 * k := by
      rcases Nat.mod_two_eq_zero_or_one v with h | h
      · exact ⟨false, v / 2, by omega, by simp; omega⟩
      · exact ⟨true, v / 2, by omega, by simp; omega⟩
    rw [header_shift, header_and, Co.sp_bind]
    have hl1 := congrArg List.length s1
    rw [List.length_append, lsb_length] at hl1
    have hl0 := congrArg List.length a2
    rw [bits_length, List.length_append] at hl0
    apply sp_inflateBlock (pos := (blocks.flatMap (Block.bits false)).length) hk g1 (by omega) (by omega) (by omega)
    · intro hbad
      exact hz ⟨blocks, _, _, a1, a2, a3, by rw [s1, ← header_bits]; exact hbad⟩
    · intro blk b2 r2 h2 c2 g2 hkind hok s2 he hN2
      have hbits : strm b rest = blk.bits final ++ strm b2 r2 := by
        rw [s1, s2, blk.bits_eq, hkind, List.append_assoc]
      have hl2 := congrArg List.length hbits
      rw [List.length_append, blk.bits_length] at hl2
      have hok' := streamOk_push a1 (by rw [Nat.zero_add]; exact hok)
      have hexp := expandBlocks_push a3 he
      cases final with
      | true =>
        rw [if_neg (by simp)]
        exact ⟨blocks ++ [blk], strm b2 r2, by simp, hok', by rw [a2, hbits, streamBits_push, List.append_assoc], hexp⟩
      | false =>
        rw [if_pos (by simp)]
        exact ih g2 ⟨blocks ++ [blk], hok', by rw [a2, hbits]; simp [List.flatMap_append], hexp⟩ (by omega) (by omega) hN2

end

end Npy
