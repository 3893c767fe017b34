import Verif.Proofs.Canon
import Mathlib.Algebra.Order.BigOperators.Group.Finset
import Mathlib.Order.Interval.Finset.Nat
import Mathlib.Data.Int.ModEq
import Mathlib.Tactic.NormNum
/-!
# The decoding tables hold the canonical code
-/

namespace Npy
open Spec.Deflate

theorem getD_set {α : Type} (l : List α) (i j : Nat) (v d : α) :
    (l.set i v).getD j d = if i = j ∧ i < l.length then v else l.getD j d := by
  simp only [List.getD, List.getElem?_set]
  by_cases h : i = j
  · subst h
    by_cases h2 : i < l.length
    · simp [h2]
    · simp [h2]
  · simp [h]

/-- Bit `d` of a list of bits, in the number. -/
theorem bval_bit {h : List Bool} {d : Nat} (hd : d < h.length) : (bval h >>> d) &&& 1 = (h[d]).toNat := by
  have h1 := lsb_getElem h.length (bval h) d hd
  have h2 : (lsb h.length (bval h))[d]'(by rw [lsb_length]; exact hd) = h[d] := by
    congr 1; exact lsb_bval h
  rw [h2] at h1
  rw [Nat.and_one_is_mod, Nat.shiftRight_eq_div_pow, h1]
  rcases Nat.mod_two_eq_zero_or_one (bval h / 2 ^ d) with h | h <;> simp [h]

theorem bval_take (h : List Bool) (n : Nat) (hn : n ≤ h.length) : bval (h.take n) = bval h % 2 ^ n := by
  have := lsb_take hn (bval h)
  rw [lsb_bval] at this
  rw [this, bval_lsb]

/-! ### The fast table -/

theorem fillLook_length (k : Int) (size f rev : Nat) (look : List Int) :
    (fillLook k size f rev look).length = look.length := by
  induction f generalizing rev look with
  | zero => rfl
  | succ f ih =>
    rw [fillLook]
    split
    · rw [ih, List.length_set]
    · rfl

theorem fillLook_getD (k : Int) (size f rev : Nat) (look : List Int) (hl : look.length = 1024) (x : Nat) (hx : x < 1024)
    (hf : 1024 ≤ rev + f * 2 ^ size) :
    (fillLook k size f rev look).getD x 0 =
      if rev ≤ x ∧ x % 2 ^ size = rev % 2 ^ size then k else look.getD x 0 := by
  induction f generalizing rev look with
  | zero =>
    rw [fillLook, if_neg (by omega)]
  | succ f ih =>
    rw [fillLook]
    split
    · rename_i hr
      rw [ih _ _ (by rw [List.length_set]; exact hl) (by rw [Nat.one_shiftLeft]; rw [Nat.add_mul] at hf; omega),
        Nat.one_shiftLeft, Nat.add_mod_right, getD_set, hl]
      by_cases h1 : rev + 2 ^ size ≤ x ∧ x % 2 ^ size = rev % 2 ^ size
      · rw [if_pos h1, if_pos ⟨by omega, h1.2⟩]
      · rw [if_neg h1]
        by_cases h2 : rev = x
        · subst h2; simp [hr]
        · rw [if_neg (by omega), if_neg]
          rintro ⟨h3, h4⟩
          apply h1
          refine ⟨?_, h4⟩
          have h5 : 2 ^ size ∣ x - rev := (Nat.modEq_iff_dvd' h3).mp h4.symm
          have := Nat.le_of_dvd (by omega) h5
          omega
    · rename_i hr
      rw [if_neg (by omega)]

/-! ### The invariant -/

/-- The reference to node `k` of the tree. -/
def node (k : Nat) : Int := -(2 * (k : Int) + 1)

theorem node_neg (k : Nat) : node k < 0 := by unfold node; omega
theorem node_inj {j k : Nat} (h : node j = node k) : j = k := by unfold node at h; omega

/-- After `i` symbols: `N` nodes; node `k` is at the end of the path `own k`. -/
structure TInv (lens : List Nat) (i : Nat) (look tree : List Int) (N : Nat) (own : Nat → List Bool) : Prop where
  lookLen : look.length = 1024
  treeLen : tree.length = 576
  ownPre : ∀ k < N, 10 ≤ (own k).length ∧ ∃ t, lenOf lens t ≠ 0 ∧ own k <+: huff lens t ∧ (own k).length < lenOf lens t
  ownInj : ∀ k < N, ∀ k' < N, own k = own k' → k = k'
  lookNeg : ∀ x < 1024, look.getD x 0 < 0 → ∃ k < N, look.getD x 0 = node k ∧ own k = lsb 10 x
  lookPos : ∀ x < 1024, 0 < look.getD x 0 → ∃ t, t < i ∧ lenOf lens t ≠ 0 ∧ lenOf lens t ≤ 10 ∧
    look.getD x 0 = ((lenOf lens t <<< 9 ||| t : Nat) : Int) ∧ huff lens t <+: lsb 10 x
  treeNeg : ∀ k < N, ∀ b : Bool, tree.getD (2 * k + b.toNat) 0 < 0 →
    ∃ k' < N, tree.getD (2 * k + b.toNat) 0 = node k' ∧ own k' = own k ++ [b]
  treePos : ∀ k < N, ∀ b : Bool, 0 < tree.getD (2 * k + b.toNat) 0 →
    ∃ t, t < i ∧ lenOf lens t ≠ 0 ∧ huff lens t = own k ++ [b]
  treeHi : ∀ j, 2 * N ≤ j → tree.getD j 0 = 0
  link10 : ∀ k < N, (own k).length = 10 → look.getD (bval (own k)) 0 = node k
  link : ∀ k < N, ∀ k' < N, ∀ b : Bool, own k' = own k ++ [b] → tree.getD (2 * k + b.toNat) 0 = node k'
  parent : ∀ k < N, 10 < (own k).length → ∃ k' < N, ∃ b, own k = own k' ++ [b]
  short : ∀ t < i, lenOf lens t ≠ 0 → lenOf lens t ≤ 10 → ∀ x < 1024, huff lens t <+: lsb 10 x →
    look.getD x 0 = ((lenOf lens t <<< 9 ||| t : Nat) : Int)
  nodes : ∀ t < i, ∀ d, 10 ≤ d → d < lenOf lens t → ∃ k < N, own k = (huff lens t).take d
  leaf : ∀ t < i, 10 < lenOf lens t → ∀ k < N, ∀ b : Bool, own k ++ [b] = huff lens t →
    tree.getD (2 * k + b.toNat) 0 = (t : Int)

/-! ### There are never more than 288 nodes -/

theorem prefix_num {lens : List Nat} (h15 : ∀ l ∈ lens, l ≤ 15) (hK : Kraft lens) {t : Nat} (ht : lenOf lens t ≠ 0)
    {p : List Bool} (hp : p <+: huff lens t) (hl : p.length < lenOf lens t) :
    firstCode lens p.length + blCount lens p.length ≤ mval p := by
  obtain ⟨x, hx⟩ := hp
  have hlen : p.length + x.length = lenOf lens t := by
    have := congrArg List.length hx
    rwa [List.length_append, huff_length] at this
  have hv := congrArg mval hx
  rw [mval_append, huff, mval_msb (code_lt h15 hK ht)] at hv
  have hxl := mval_lt x
  have h1 := firstCode_mono lens hl
  rw [show lenOf lens t - p.length = x.length by omega] at h1
  have h2 : firstCode lens (lenOf lens t) ≤ codeOf lens t := Nat.le_add_right _ _
  by_contra hc
  have h3 : (mval p + 1) * 2 ^ x.length ≤ (firstCode lens p.length + blCount lens p.length) * 2 ^ x.length :=
    Nat.mul_le_mul_right _ (by omega)
  rw [Nat.add_mul, Nat.one_mul] at h3
  omega

theorem mval_inj {a b : List Bool} (hl : a.length = b.length) (h : mval a = mval b) : a = b := by
  rw [← bval_reverse, ← bval_reverse] at h
  have h1 := lsb_bval a.reverse
  have h2 := lsb_bval b.reverse
  rw [List.length_reverse] at h1 h2
  rw [hl, h, h2] at h1
  exact (List.reverse_injective h1).symm

theorem sum_blCount_le (lens : List Nat) (a n : Nat) :
    ((List.range n).map fun i => blCount lens (a + i)).sum ≤ lens.length := by
  induction lens with
  | nil =>
    have : ((List.range n).map fun i => blCount [] (a + i)) = (List.range n).map fun _ => 0 := by
      apply List.map_congr_left; intro i _; unfold blCount; split <;> simp
    rw [this]; simp
  | cons x xs ih =>
    have h1 : ((List.range n).map fun i => blCount (x :: xs) (a + i)).sum =
        ((List.range n).map fun i => blCount xs (a + i)).sum +
        ((List.range n).map fun i => if x = a + i ∧ a + i ≠ 0 then 1 else 0).sum := by
      induction n with
      | zero => rfl
      | succ n ihn =>
        have ihn' : ((List.range n).map fun i => blCount xs (a + i)).sum ≤ xs.length := by
          rw [List.range_succ, List.map_append, List.sum_append] at ih; omega
        rw [List.range_succ, List.map_append, List.sum_append, List.map_append, List.sum_append, List.map_append,
          List.sum_append, ihn ihn']
        simp only [List.map_cons, List.map_nil, List.sum_cons, List.sum_nil, blCount_cons]
        omega
    have h2 : ∀ n, ((List.range n).map fun i => if x = a + i ∧ a + i ≠ 0 then 1 else 0).sum ≤
        if a ≤ x ∧ x < a + n then 1 else 0 := by
      intro n
      induction n with
      | zero => simp
      | succ n ihn =>
        rw [List.range_succ, List.map_append, List.sum_append]
        simp only [List.map_cons, List.map_nil, List.sum_cons, List.sum_nil, Nat.add_zero]
        by_cases h3 : x = a + n
        · rw [if_pos (by omega : a ≤ x ∧ x < a + (n + 1))]
          rw [if_neg (by omega)] at ihn
          split <;> omega
        · rw [if_neg (by tauto)]
          by_cases h4 : a ≤ x ∧ x < a + n
          · rw [if_pos h4] at ihn
            rw [if_pos (by omega)]
            omega
          · rw [if_neg h4] at ihn
            omega
    rw [h1, List.length_cons]
    have := h2 n
    split at this <;> omega

/-- The paths that lead to inner nodes below the fast table are few. -/
theorem capacity {lens : List Nat} (h15 : ∀ l ∈ lens, l ≤ 15) (hU : Complete lens ∨ used lens ≤ 1)
    (hlen : lens.length ≤ 288) (N : Nat) (own : Nat → List Bool)
    (hpre : ∀ k < N, 10 ≤ (own k).length ∧ ∃ t, lenOf lens t ≠ 0 ∧ own k <+: huff lens t ∧ (own k).length < lenOf lens t)
    (hinj : ∀ k < N, ∀ k' < N, own k = own k' → k = k') : N ≤ 288 := by
  have hK : Kraft lens := usable_kraft ⟨h15, hU⟩
  have hd : ∀ k < N, 10 ≤ (own k).length ∧ (own k).length ≤ 14 := by
    intro k hk
    obtain ⟨h1, t, ht, h2, h3⟩ := hpre k hk
    have := lenOf_le h15 t
    omega
  rcases hU with hC | h1
  · -- a full tree: count the paths of each length
    have hF := (complete_iff h15).mp hC
    let cells : Finset (Nat × Nat) := (Finset.range 5).biUnion fun i =>
      (Finset.Ico (firstCode lens (10 + i) + blCount lens (10 + i)) (2 ^ (10 + i))).image fun v => (10 + i, v)
    have hmaps : ∀ k ∈ Finset.range N, ((own k).length, mval (own k)) ∈ cells := by
      intro k hk
      have hk' := Finset.mem_range.mp hk
      obtain ⟨h1, t, ht, h2, h3⟩ := hpre k hk'
      have h4 := hd k hk'
      simp only [cells, Finset.mem_biUnion, Finset.mem_range, Finset.mem_image, Finset.mem_Ico]
      refine ⟨(own k).length - 10, by omega, mval (own k), ?_, ?_⟩
      · rw [show 10 + ((own k).length - 10) = (own k).length by omega]
        exact ⟨prefix_num h15 hK ht h2 h3, mval_lt _⟩
      · rw [show 10 + ((own k).length - 10) = (own k).length by omega]
    have hinj' : Set.InjOn (fun k => ((own k).length, mval (own k))) (Finset.range N : Set Nat) := by
      intro k hk k' hk' h
      simp only [Prod.mk.injEq] at h
      exact hinj k (by simpa using hk) k' (by simpa using hk') (mval_inj h.1 h.2)
    have hcard := Finset.card_le_card_of_injOn _ hmaps hinj'
    rw [Finset.card_range] at hcard
    have hc2 : cells.card ≤ ∑ i ∈ Finset.range 5, (2 ^ (10 + i) - (firstCode lens (10 + i) + blCount lens (10 + i))) := by
      refine (Finset.card_biUnion_le).trans ?_
      apply Finset.sum_le_sum
      intro i _
      refine (Finset.card_image_le).trans ?_
      rw [Nat.card_Ico]
    rw [Finset.sum_range_succ, Finset.sum_range_succ, Finset.sum_range_succ, Finset.sum_range_succ,
      Finset.sum_range_succ, Finset.sum_range_zero] at hc2
    have hs := sum_blCount_le lens 11 5
    simp only [List.range_succ, List.range_zero, List.map_append, List.map_cons, List.map_nil, List.sum_append,
      List.sum_cons, List.sum_nil, List.nil_append] at hs
    have e (n : Nat) : firstCode lens (n + 1) = 2 * (firstCode lens n + blCount lens n) := rfl
    have e15 := e 15
    have e14 := e 14
    have e13 := e 13
    have e12 := e 12
    have e11 := e 11
    have e10 := e 10
    norm_num at hc2 hs e15 e14 e13 e12 e11 e10
    omega
  · -- one code: a path is determined by its length
    have hone : ∀ s t, lenOf lens s ≠ 0 → lenOf lens t ≠ 0 → s = t := by
      intro s t hs ht
      by_contra hne
      have key : ∀ s t, s < t → lenOf lens s ≠ 0 → lenOf lens t ≠ 0 → False := by
        intro s t hst hs ht
        have hts := lenOf_lt ht
        have hss := lenOf_lt hs
        have e1 : used lens = (lens.take (s + 1)).countP (· ≠ 0) + (lens.drop (s + 1)).countP (· ≠ 0) := by
          rw [used, ← List.countP_append, List.take_append_drop]
        have p1 : 0 < (lens.take (s + 1)).countP (· ≠ 0) := by
          rw [List.countP_pos_iff]
          refine ⟨lens[s], ?_, by rw [← lenOf_eq hss]; simpa using hs⟩
          rw [List.mem_take_iff_getElem]
          exact ⟨s, by omega, rfl⟩
        have p2 : 0 < (lens.drop (s + 1)).countP (· ≠ 0) := by
          rw [List.countP_pos_iff]
          refine ⟨lens[t], ?_, by rw [← lenOf_eq hts]; simpa using ht⟩
          rw [List.mem_drop_iff_getElem]
          exact ⟨t - (s + 1), by omega, by congr 1; omega⟩
        omega
      rcases Nat.lt_or_gt_of_ne hne with h | h
      · exact key s t h hs ht
      · exact key t s h ht hs
    have hmaps : ∀ k ∈ Finset.range N, (own k).length ∈ Finset.range 15 := by
      intro k hk
      have := hd k (Finset.mem_range.mp hk)
      exact Finset.mem_range.mpr (by omega)
    have hinj' : Set.InjOn (fun k => (own k).length) (Finset.range N : Set Nat) := by
      intro k hk k' hk' h
      have hk : k < N := by simpa using hk
      have hk' : k' < N := by simpa using hk'
      obtain ⟨_, t, ht, h2, _⟩ := hpre k hk
      obtain ⟨_, t', ht', h2', _⟩ := hpre k' hk'
      have := hone t t' ht ht'
      subst this
      apply hinj k hk k' hk'
      exact (List.prefix_of_prefix_length_le h2 h2' (le_of_eq h)).eq_of_length h
    have hcard := Finset.card_le_card_of_injOn _ hmaps hinj'
    rw [Finset.card_range, Finset.card_range] at hcard
    omega

end Npy
