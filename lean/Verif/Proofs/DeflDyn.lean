import Verif.Proofs.DeflRle
/-!
# The header of a dynamic block as the compressor writes it
-/

namespace Npy
open Finset Spec.Deflate

/-! ### Symbols without a code at the end -/

theorem zeros_count (l : List Nat) (k : Nat) {x : Nat} (hx : x ≠ 0) : (l ++ List.replicate k 0).count x = l.count x := by
  rw [List.count_append, List.count_replicate]
  simp [Ne.symm hx]

theorem zeros_lenOf (l : List Nat) (k s : Nat) : lenOf (l ++ List.replicate k 0) s = lenOf l s := by
  unfold lenOf
  by_cases h : s < l.length
  · simp [List.getD, List.getElem?_append_left h]
  · rw [List.getD, List.getD, List.getElem?_append_right (by omega), List.getElem?_eq_none (show l.length ≤ s by omega)]
    by_cases h2 : s - l.length < k <;> simp [List.getElem?_replicate, h2]

theorem zeros_firstCode (l : List Nat) (k n : Nat) : firstCode (l ++ List.replicate k 0) n = firstCode l n := by
  induction n with
  | zero => rfl
  | succ n ih =>
    rw [firstCode, firstCode, ih]
    congr 2
    unfold blCount
    split
    · rfl
    · rename_i h; exact zeros_count l k h

theorem zeros_huff (l : List Nat) (k s : Nat) : huff (l ++ List.replicate k 0) s = huff l s := by
  unfold huff
  rw [zeros_lenOf]
  by_cases h : lenOf l s = 0
  · rw [h]; rfl
  · congr 1
    unfold codeOf
    rw [zeros_lenOf, zeros_firstCode, List.take_append_of_le_length (le_of_lt (lenOf_lt h))]

theorem zeros_usable (l : List Nat) (k : Nat) (h : Usable (l ++ List.replicate k 0)) : Usable l := by
  refine ⟨fun x hx => h.1 x (by simp [hx]), ?_⟩
  rcases h.2 with h | h
  · left
    unfold Complete at h ⊢
    rw [← h, List.map_append, List.sum_append]
    simp
  · right
    unfold used at h ⊢
    rw [List.countP_append] at h
    omega

theorem take_zeros (l : List Nat) (m : Nat) (h : ∀ k, m ≤ k → k < l.length → l.getD k 0 = 0) :
    l = l.take m ++ List.replicate (l.length - m) 0 := by
  conv_lhs => rw [← List.take_append_drop m l]
  congr 1
  rw [List.eq_replicate_iff]
  refine ⟨by simp, fun b hb => ?_⟩
  obtain ⟨i, hi, rfl⟩ := List.getElem_of_mem hb
  rw [List.length_drop] at hi
  have := h (m + i) (by omega) (by omega)
  simpa [List.getD, List.getElem?_eq_getElem (show m + i < l.length by omega)] using this

theorem lastUsed_spec (sizes : List Nat) (lo n : Nat) (h : lo ≤ n) :
    lo ≤ lastUsed sizes lo n ∧ lastUsed sizes lo n ≤ n ∧
      ∀ k, lastUsed sizes lo n ≤ k → k < n → sizes.getD k 0 = 0 := by
  induction n with
  | zero => simp [lastUsed, h]
  | succ n ih =>
    rw [lastUsed]
    split
    · split
      · exact ⟨by omega, le_rfl, fun k h1 h2 => by omega⟩
      · rename_i h1 h2
        obtain ⟨i1, i2, i3⟩ := ih (by omega)
        refine ⟨i1, by omega, fun k hk1 hk2 => ?_⟩
        by_cases e : k = n
        · subst e; simpa using h2
        · exact i3 k hk1 (by omega)
    · exact ⟨by omega, le_rfl, fun k h1 h2 => by omega⟩

theorem lastSwizzle_spec (sizes : List Nat) (n : Nat) :
    lastSwizzle sizes n ≤ n ∧ ∀ k, lastSwizzle sizes n ≤ k → k < n → sizes.getD (swizzle.getD k 0) 0 = 0 := by
  induction n with
  | zero => simp [lastSwizzle]
  | succ n ih =>
    rw [lastSwizzle]
    split
    · exact ⟨le_rfl, fun k h1 h2 => by omega⟩
    · rename_i h2
      obtain ⟨i1, i2⟩ := ih
      refine ⟨by omega, fun k hk1 hk2 => ?_⟩
      by_cases e : k = n
      · subst e; simpa using h2
      · exact i2 k hk1 (by omega)

theorem mem_drop_getD {l : List Nat} {m s : Nat} (h : s ∈ l.drop m) : ∃ i, m ≤ i ∧ i < l.length ∧ l.getD i 0 = s := by
  obtain ⟨i, hi, rfl⟩ := List.getElem_of_mem h
  rw [List.length_drop] at hi
  refine ⟨m + i, by omega, by omega, ?_⟩
  rw [List.getElem_drop, List.getD, List.getElem?_eq_getElem (by omega)]
  rfl

/-! ### Output -/

theorem BitOut.Good.sym {w : BitOut} {v : List Bool} (h : w.Good v) {t : HuffCode} (ht : t.Codes) (h15 : ∀ l ∈ t.sizes, l ≤ 15)
    {s : Nat} (hs : lenOf t.sizes s ≠ 0) : (w.putSym t s).Good (v ++ huff t.sizes s) := by
  obtain ⟨h1, h2⟩ := ht s hs
  rw [← h2]
  exact h.put h1 (le_trans (lenOf_le h15 s) (by omega))

theorem putPacked_len (t : HuffCode) (l : Nat) (rest : List Nat) (w : BitOut) (hl : l < 16) :
    putPacked t (l :: rest) w = putPacked t rest (w.putSym t l) := by
  cases rest with
  | nil => rw [putPacked, putPacked, BitOut.require_true _ (decide_eq_true (by omega))]
  | cons e rest => rw [putPacked, if_neg (by omega), BitOut.require_true _ (decide_eq_true (by omega))]

theorem putPacked_ok (t : HuffCode) (ht : t.Codes) (h15 : ∀ l ∈ t.sizes, l ≤ 15) (ops : List ClOp) (hr : ∀ o ∈ ops, o.Rng)
    (hu : ∀ o ∈ ops, lenOf t.sizes o.sym ≠ 0) (w : BitOut) (v : List Bool) (h : w.Good v) :
    (putPacked t (ops.flatMap ClOp.packed) w).Good (v ++ ops.flatMap (ClOp.bits t.sizes)) := by
  induction ops generalizing w v with
  | nil => simpa [putPacked] using h
  | cons o ops ih =>
    have hr' := hr o (by simp)
    have hu' := hu o (by simp)
    have ih := ih (fun o ho => hr o (by simp [ho])) (fun o ho => hu o (by simp [ho]))
    rw [List.flatMap_cons, List.flatMap_cons, ← List.append_assoc]
    have hg := h.sym ht h15 hu'
    cases o with
    | len l =>
      have hl : l < 16 := by simp only [ClOp.Rng] at hr'; omega
      simp only [ClOp.packed, List.cons_append, List.nil_append]
      rw [putPacked_len _ _ _ _ hl]
      simp only [ClOp.bits, List.append_nil]
      exact ih _ _ hg
    | rep e =>
      simp only [ClOp.packed, List.cons_append, List.nil_append, ClOp.bits, putPacked]
      rw [if_pos (by omega), ← List.append_assoc, BitOut.require_true _ (by decide)]
      exact ih _ _ (hg.put (l := 2) (by simpa [ClOp.Rng] using hr') (by omega))
    | zeros e =>
      simp only [ClOp.packed, List.cons_append, List.nil_append, ClOp.bits, putPacked]
      rw [if_pos (by omega), ← List.append_assoc, BitOut.require_true _ (by decide)]
      exact ih _ _ (hg.put (l := 3) (by simpa [ClOp.Rng] using hr') (by omega))
    | manyZeros e =>
      simp only [ClOp.packed, List.cons_append, List.nil_append, ClOp.bits, putPacked]
      rw [if_pos (by omega), ← List.append_assoc, BitOut.require_true _ (by decide)]
      exact ih _ _ (hg.put (l := 7) (by simpa [ClOp.Rng] using hr') (by omega))

theorem putLens_ok (sizes : List Nat) (h7 : ∀ l ∈ sizes, l ≤ 7) (order : List Nat) (w : BitOut) (v : List Bool) (h : w.Good v) :
    (order.foldl (fun w s => w.put (sizes.getD s 0) 3) w).Good (v ++ order.flatMap fun s => lsb 3 (lenOf sizes s)) := by
  induction order generalizing w v with
  | nil => simpa using h
  | cons s order ih =>
    rw [List.foldl_cons, List.flatMap_cons, ← List.append_assoc]
    refine ih _ _ (h.put ?_ (by omega))
    have : sizes.getD s 0 ≤ 7 := by
      by_cases hs : s < sizes.length
      · simpa [List.getD, List.getElem?_eq_getElem hs] using h7 _ (List.getElem_mem hs)
      · simp [List.getD, List.getElem?_eq_none (show sizes.length ≤ s by omega)]
    omega

theorem sum_countP_le (ops : List ClOp) (k : Nat) : ∑ s ∈ range k, ops.countP (fun o => o.sym = s) ≤ ops.length := by
  induction ops with
  | nil => simp
  | cons o ops ih =>
    have e : ∀ s, (o :: ops).countP (fun o => o.sym = s) = (if s = o.sym then 1 else 0) + ops.countP (fun o => o.sym = s) :=
      fun s => by
        rw [List.countP_cons]
        by_cases h : s = o.sym
        · subst h; simp; omega
        · simp [h, Ne.symm h]
    simp only [e]
    rw [Finset.sum_add_distrib, Finset.sum_ite_eq', List.length_cons]
    split <;> omega

/-- The tables and the header of a dynamic block. -/
theorem startDynamic_ok (litCount distCount : Nat → Nat) (w : BitOut) (v : List Bool) (h : w.Good v)
    (hl : ∑ i ∈ range 288, setAt litCount 256 1 i < 65536) (hd : ∑ i ∈ range 32, distCount i < 65536)
    (hl0 : ∀ s, 286 ≤ s → litCount s = 0) (hd0 : ∀ s, 30 ≤ s → distCount s = 0) :
    ∃ lit dist w' D, startDynamic litCount distCount w = .ok (lit, dist, w') ∧ Dyn.Ok D ∧
      w'.Good (v ++ lsb 2 2 ++ D.bits) ∧ lit.Codes ∧ dist.Codes ∧ (∀ l ∈ lit.sizes, l ≤ 15) ∧ (∀ l ∈ dist.sizes, l ≤ 15) ∧
      (∀ s, huff D.lit s = huff lit.sizes s ∧ lenOf D.lit s = lenOf lit.sizes s) ∧
      (∀ s, huff D.dist s = huff dist.sizes s ∧ lenOf D.dist s = lenOf dist.sizes s) ∧
      (∀ s < 288, lenOf lit.sizes s ≠ 0 ↔ setAt litCount 256 1 s ≠ 0) ∧
      (∀ s < 32, lenOf dist.sizes s ≠ 0 ↔ distCount s ≠ 0) := by
  obtain ⟨lit, a1, a2, a3, a4, a5, a6⟩ := optimizeTable_ok (setAt litCount 256 1) 288 15 (by omega) le_rfl (by norm_num) (by norm_num) hl
  obtain ⟨dist, b1, b2, b3, b4, b5, b6⟩ := optimizeTable_ok distCount 32 15 (by omega) le_rfl (by norm_num) (by norm_num) hd
  obtain ⟨n1, n2, n3⟩ := lastUsed_spec lit.sizes 257 286 (by omega)
  obtain ⟨m1, m2, m3⟩ := lastUsed_spec dist.sizes 1 30 (by omega)
  have zl := take_zeros lit.sizes (lastUsed lit.sizes 257 286) (fun k h1 h2 => by
    by_cases hk : k < 286
    · exact n3 k h1 hk
    · by_contra hc
      exact (a4 k (by omega)).1 hc (by rw [setAt_ne _ _ (by omega)]; exact hl0 k (by omega)))
  have zd := take_zeros dist.sizes (lastUsed dist.sizes 1 30) (fun k h1 h2 => by
    by_cases hk : k < 30
    · exact m3 k h1 hk
    · by_contra hc
      exact (b4 k (by omega)).1 hc (hd0 k (by omega)))
  unfold startDynamic
  simp only [a1, b1, bind, Except.bind]
  generalize lastUsed lit.sizes 257 286 = numLit at *
  generalize lastUsed dist.sizes 1 30 = numDist at *
  have ll : (lit.sizes.take numLit).length = numLit := by rw [List.length_take]; omega
  have ld : (dist.sizes.take numDist).length = numDist := by rw [List.length_take]; omega
  obtain ⟨ops, o1, o2, o3, o4, o5⟩ := rlePack_ok (lit.sizes.take numLit ++ dist.sizes.take numDist)
    (fun l hl => by
      rcases List.mem_append.1 hl with hl | hl
      · exact a3 l (List.mem_of_mem_take hl)
      · exact b3 l (List.mem_of_mem_take hl))
    (by rw [List.length_append]; omega)
  have hin : (lit.sizes.take numLit ++ dist.sizes.take numDist).length ≤ 320 := by rw [List.length_append]; omega
  have hpk : (rlePack (lit.sizes.take numLit ++ dist.sizes.take numDist)).packed.length ≤ 320 := by
    have := packed_length ops [] _ o2
    rw [o1]
    simp only [List.length_nil] at this
    omega
  rw [List.length_append] at o5
  simp only [inArr_ok hin]
  generalize rlePack (lit.sizes.take numLit ++ dist.sizes.take numDist) = st at *
  have hcs : ∑ s ∈ range 19, st.cnt s < 65536 := by
    rw [Finset.sum_congr rfl (fun s _ => o4 s)]
    have := sum_countP_le ops 19
    omega
  obtain ⟨cl, c1, c2, c3, c4, c5, c6⟩ := optimizeTable_ok st.cnt 19 7 (by omega) (by omega) (by norm_num) (by norm_num) hcs
  simp only [inArr_ok hpk, c1, pure, Except.pure]
  obtain ⟨s1, s2⟩ := lastSwizzle_spec cl.sizes 19
  have hops : ∀ o ∈ ops, o.sym < 19 := by
    intro o ho
    have := o3 o ho
    cases o <;> simp only [ClOp.Rng, ClOp.sym] at * <;> omega
  have hused : ∀ o ∈ ops, lenOf cl.sizes o.sym ≠ 0 := by
    intro o ho
    refine (c4 _ (hops o ho)).2 ?_
    rw [o4]
    have : 0 < ops.countP fun o' => o'.sym = o.sym := List.countP_pos_iff.2 ⟨o, ho, by simp⟩
    omega
  have h7 : ∀ l ∈ cl.sizes, l ≤ 15 := fun l hl => le_trans (c3 l hl) (by omega)
  set numBl := max 4 (lastSwizzle cl.sizes 19) with hbl
  refine ⟨lit, dist, _, ⟨cl.sizes, numBl, ops, lit.sizes.take numLit, dist.sizes.take numDist⟩, rfl, ?_, ?_, a6, b6, a3, b3,
    ?_, ?_, a4, b4⟩
  · refine ⟨c2, c3, c5, by simp only; omega, by simp only; omega, ?_, ?_, o2, by simp only; omega, by simp only; omega,
      by simp only; omega, by simp only; omega, ?_, ?_, ?_⟩
    · intro s hs
      obtain ⟨i, i1, i2, rfl⟩ := mem_drop_getD hs
      dsimp only at i1
      exact s2 i (by omega) i2
    · intro o ho
      refine ⟨hused o ho, ?_⟩
      have := o3 o ho
      cases o <;> simpa [ClOp.Rng] using this
    · rw [zl] at a5
      exact zeros_usable _ _ a5
    · rw [zd] at b5
      exact zeros_usable _ _ b5
    · have := (a4 256 (by omega)).2 (by rw [setAt_self]; omega)
      rw [zl, zeros_lenOf] at this
      exact this
  · rw [o1]
    have g1 := h.put (b := 2) (l := 2) (by norm_num) (by omega)
    have g2 := g1.put (b := numLit - 257) (l := 5) (by norm_num; omega) (by omega)
    have g3 := g2.put (b := numDist - 1) (l := 5) (by norm_num; omega) (by omega)
    have g4 := g3.put (b := numBl - 4) (l := 4) (by norm_num; omega) (by omega)
    have g5 := putLens_ok cl.sizes c3 (swizzle.take numBl) _ _ g4
    have g6 := putPacked_ok cl c6 h7 ops o3 hused _ _ g5
    have e : v ++ lsb 2 2 ++ Dyn.bits ⟨cl.sizes, numBl, ops, lit.sizes.take numLit, dist.sizes.take numDist⟩ =
        v ++ lsb 2 2 ++ lsb 5 (numLit - 257) ++ lsb 5 (numDist - 1) ++ lsb 4 (numBl - 4) ++
          (swizzle.take numBl).flatMap (fun s => lsb 3 (lenOf cl.sizes s)) ++ ops.flatMap (ClOp.bits cl.sizes) := by
      unfold Dyn.bits
      simp only [ll, ld, List.append_assoc]
      rfl
    rw [e]
    exact g6
  · intro s
    constructor
    · conv_rhs => rw [zl]
      rw [zeros_huff]
    · conv_rhs => rw [zl]
      rw [zeros_lenOf]
  · intro s
    constructor
    · conv_rhs => rw [zd]
      rw [zeros_huff]
    · conv_rhs => rw [zd]
      rw [zeros_lenOf]

end Npy
