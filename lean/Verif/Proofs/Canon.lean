import Verif.Proofs.BitList
/-!
# Canonical Huffman codes: no code is the beginning of another one
-/

namespace Npy
open Spec.Deflate

/-- The number whose bits, most significant first, are the list. -/
def mval : List Bool → Nat
  | [] => 0
  | b :: bs => b.toNat * 2 ^ bs.length + mval bs

theorem mval_lt (l : List Bool) : mval l < 2 ^ l.length := by
  induction l with
  | nil => simp [mval]
  | cons b bs ih =>
    simp only [mval, List.length_cons, Nat.pow_succ]
    cases b <;> simp <;> omega

theorem mval_append (a b : List Bool) : mval (a ++ b) = mval a * 2 ^ b.length + mval b := by
  induction a with
  | nil => simp [mval]
  | cons x xs ih =>
    simp only [List.cons_append, mval, ih, List.length_append, Nat.pow_add]
    ring

theorem bval_reverse (l : List Bool) : bval l.reverse = mval l := by
  induction l with
  | nil => rfl
  | cons b bs ih => rw [List.reverse_cons, bval_append, ih, mval, bval, bval]; simp; ring

theorem mval_reverse (l : List Bool) : mval l.reverse = bval l := by
  rw [← bval_reverse, List.reverse_reverse]

theorem mval_msb {n v : Nat} (h : v < 2 ^ n) : mval (msb n v) = v := by
  rw [msb, mval_reverse, bval_lsb, Nat.mod_eq_of_lt h]

theorem revCode_eq (l rev cur : Nat) : revCode l rev cur = rev * 2 ^ l + bval (msb l cur) := by
  induction l generalizing rev cur with
  | zero => simp [revCode, msb, lsb, bval]
  | succ l ih =>
    have h0 : msb (l + 1) cur = msb l (cur / 2) ++ [cur % 2 == 1] := by simp only [msb, lsb, List.reverse_cons]
    rw [revCode, ih, h0, bval_append]
    have h1 : cur >>> 1 = cur / 2 := by rw [Nat.shiftRight_eq_div_pow]
    have h2 : (rev <<< 1) ||| (cur &&& 1) = rev * 2 + cur % 2 := by
      rw [Nat.and_one_is_mod, Nat.shiftLeft_eq]
      have := or_shift_eq (n := 1) (a := cur % 2) rev (by omega)
      rw [Nat.shiftLeft_eq] at this
      rw [Nat.or_comm, this]; omega
    rw [h1, h2, msb_length, Nat.pow_succ]
    have h3 : bval [cur % 2 == 1] = cur % 2 := by
      rcases Nat.mod_two_eq_zero_or_one cur with h | h <;> simp [h, bval]
    rw [h3]; ring

/-- The numbers of codes that a list of lengths asks for fit. -/
def Kraft (lens : List Nat) : Prop := firstCode lens 16 ≤ 65536

section
variable {lens : List Nat}

theorem firstCode_mono (lens : List Nat) {l l' : Nat} (h : l < l') :
    (firstCode lens l + blCount lens l) * 2 ^ (l' - l) ≤ firstCode lens l' := by
  obtain ⟨k, rfl⟩ := Nat.exists_eq_add_of_lt h
  rw [show l + k + 1 - l = k + 1 by omega]
  induction k with
  | zero => simp only [Nat.add_zero, firstCode]; omega
  | succ k ih =>
    have ih := ih (by omega)
    rw [show l + (k + 1) + 1 = (l + k + 1) + 1 by omega, firstCode]
    rw [Nat.pow_succ]
    have : (firstCode lens l + blCount lens l) * (2 ^ (k + 1) * 2) =
        2 * ((firstCode lens l + blCount lens l) * 2 ^ (k + 1)) := by ring
    rw [this]
    omega

theorem Kraft.bound (hK : Kraft lens) {l : Nat} (hl : l ≤ 15) : firstCode lens l + blCount lens l ≤ 2 ^ l := by
  have h := firstCode_mono lens (l := l) (l' := 16) (by omega)
  have h2 : (2 : Nat) ^ (16 - l) * 2 ^ l = 65536 := by
    rw [← Nat.pow_add, show 16 - l + l = 16 by omega]
  unfold Kraft at hK
  have h3 : (firstCode lens l + blCount lens l) * 2 ^ (16 - l) ≤ 2 ^ l * 2 ^ (16 - l) := by
    rw [Nat.mul_comm (2 ^ l), h2]; omega
  exact Nat.le_of_mul_le_mul_right h3 (Nat.two_pow_pos _)

theorem lenOf_lt {s : Nat} (h : lenOf lens s ≠ 0) : s < lens.length := by
  by_contra hc
  exact h (by simp [lenOf, List.getD, List.getElem?_eq_none (Nat.le_of_not_lt hc)])

theorem lenOf_eq {s : Nat} (h : s < lens.length) : lenOf lens s = lens[s] := by
  simp [lenOf, List.getD, h]

theorem lenOf_le (h15 : ∀ l ∈ lens, l ≤ 15) (s : Nat) : lenOf lens s ≤ 15 := by
  by_cases h : s < lens.length
  · rw [lenOf_eq h]; exact h15 _ (List.getElem_mem h)
  · simp [lenOf, List.getD, List.getElem?_eq_none (Nat.le_of_not_lt h)]

theorem count_take_succ {s : Nat} (hs : s < lens.length) (l : Nat) :
    (lens.take (s + 1)).count l = (lens.take s).count l + if lens[s] = l then 1 else 0 := by
  rw [List.take_add_one, List.getElem?_eq_getElem hs, List.count_append]
  simp [List.count_singleton]

theorem count_take_mono (s t : Nat) (h : s ≤ t) (l : Nat) : (lens.take s).count l ≤ (lens.take t).count l :=
  (List.take_prefix_take_left h).sublist.count_le l

theorem rank_lt {s : Nat} (hs : s < lens.length) : (lens.take s).count (lenOf lens s) < lens.count (lenOf lens s) := by
  have h1 := count_take_succ hs (lenOf lens s)
  rw [lenOf_eq hs] at *
  have h2 := (List.take_prefix (s + 1) lens).sublist.count_le lens[s]
  simp at h1
  omega

theorem rank_lt_rank {s t : Nat} (hst : s < t) (hs : s < lens.length) :
    (lens.take s).count (lenOf lens s) < (lens.take t).count (lenOf lens s) := by
  have h1 := count_take_succ hs (lenOf lens s)
  rw [lenOf_eq hs] at *
  have h2 := count_take_mono (lens := lens) (s + 1) t hst lens[s]
  simp at h1
  omega

theorem code_bound {s : Nat} (h : lenOf lens s ≠ 0) :
    codeOf lens s + 1 ≤ firstCode lens (lenOf lens s) + blCount lens (lenOf lens s) := by
  have := rank_lt (lenOf_lt h)
  unfold codeOf blCount
  rw [if_neg h]
  omega

theorem code_lt (h15 : ∀ l ∈ lens, l ≤ 15) (hK : Kraft lens) {s : Nat} (h : lenOf lens s ≠ 0) :
    codeOf lens s < 2 ^ lenOf lens s := by
  have := code_bound h
  have := hK.bound (lenOf_le h15 s)
  omega

theorem huff_length (lens : List Nat) (s : Nat) : (huff lens s).length = lenOf lens s := msb_length _ _

/-- A code that is the beginning of another one is the same code. -/
theorem huff_prefix (h15 : ∀ l ∈ lens, l ≤ 15) (hK : Kraft lens) {s t : Nat} (hs : lenOf lens s ≠ 0)
    (ht : lenOf lens t ≠ 0) (hp : huff lens s <+: huff lens t) : s = t := by
  obtain ⟨x, hx⟩ := hp
  have hlen : lenOf lens s + x.length = lenOf lens t := by
    have := congrArg List.length hx
    rwa [List.length_append, huff_length, huff_length] at this
  have hv := congrArg mval hx
  rw [mval_append, huff, huff, mval_msb (code_lt h15 hK hs), mval_msb (code_lt h15 hK ht)] at hv
  have hxl := mval_lt x
  have hbs := code_bound hs
  by_cases h0 : x.length = 0
  · have hll : lenOf lens s = lenOf lens t := by omega
    have hx0 : x = [] := List.length_eq_zero_iff.mp h0
    rw [hx0] at hv
    simp only [mval, List.length_nil, Nat.pow_zero, Nat.mul_one, Nat.add_zero, codeOf] at hv
    rw [← hll] at hv
    rcases Nat.lt_trichotomy s t with h | h | h
    · have := rank_lt_rank h (lenOf_lt hs); omega
    · exact h
    · have := rank_lt_rank h (lenOf_lt ht); rw [← hll] at this; omega
  · exfalso
    have h1 := firstCode_mono lens (l := lenOf lens s) (l' := lenOf lens t) (by omega)
    rw [show lenOf lens t - lenOf lens s = x.length by omega] at h1
    have h2 : firstCode lens (lenOf lens t) ≤ codeOf lens t := Nat.le_add_right _ _
    have h3 : (codeOf lens s + 1) * 2 ^ x.length ≤ codeOf lens t :=
      Nat.le_trans (Nat.mul_le_mul_right _ hbs) (Nat.le_trans h1 h2)
    rw [Nat.add_mul, Nat.one_mul] at h3
    omega

/-- Two codes at the beginning of the same bits are the same. -/
theorem huff_unique (h15 : ∀ l ∈ lens, l ≤ 15) (hK : Kraft lens) {s t : Nat} (hs : lenOf lens s ≠ 0)
    (ht : lenOf lens t ≠ 0) {x : List Bool} (h1 : huff lens s <+: x) (h2 : huff lens t <+: x) : s = t := by
  rcases Nat.le_total (lenOf lens s) (lenOf lens t) with h | h
  · exact huff_prefix h15 hK hs ht
      (List.prefix_of_prefix_length_le h1 h2 (by rw [huff_length, huff_length]; exact h))
  · exact (huff_prefix h15 hK ht hs
      (List.prefix_of_prefix_length_le h2 h1 (by rw [huff_length, huff_length]; exact h))).symm

/-! ### The sum of the weights is what the recursion computes -/

theorem blCount_cons (x : Nat) (lens : List Nat) (l : Nat) :
    blCount (x :: lens) l = blCount lens l + if x = l ∧ l ≠ 0 then 1 else 0 := by
  unfold blCount
  by_cases h : l = 0
  · simp [h]
  · simp only [h, if_false, ne_eq, not_false_eq_true, and_true]
    rw [List.count_cons]
    simp

theorem firstCode_cons (x : Nat) (lens : List Nat) (n : Nat) :
    firstCode (x :: lens) n = firstCode lens n + if x ≠ 0 ∧ x < n then 2 ^ (n - x) else 0 := by
  induction n with
  | zero => simp [firstCode]
  | succ n ih =>
    rw [firstCode, firstCode, ih, blCount_cons]
    by_cases hx : x = 0
    · simp only [hx, ne_eq, not_true_eq_false, false_and, if_false, Nat.add_zero]
      rw [if_neg (by omega), Nat.add_zero]
    · by_cases h1 : x < n
      · rw [if_pos ⟨hx, h1⟩, if_neg (by omega), if_pos ⟨hx, by omega⟩, show n + 1 - x = (n - x) + 1 by omega, Nat.pow_succ]
        ring
      · by_cases h2 : x = n
        · subst h2
          rw [if_neg (by omega), if_pos ⟨rfl, hx⟩, if_pos ⟨hx, by omega⟩, show x + 1 - x = 1 by omega]
          ring
        · rw [if_neg (by omega), if_neg (by omega), if_neg (by omega)]; rfl

/-- The last `next_code` is twice the sum of the weights. -/
theorem firstCode_16 (h15 : ∀ l ∈ lens, l ≤ 15) :
    firstCode lens 16 = 2 * (lens.map fun l => if l = 0 then 0 else 2 ^ (15 - l)).sum := by
  induction lens with
  | nil => rfl
  | cons x xs ih =>
    rw [firstCode_cons, ih (fun l hl => h15 l (List.mem_cons_of_mem _ hl)), List.map_cons, List.sum_cons]
    have hx := h15 x List.mem_cons_self
    by_cases h0 : x = 0
    · simp [h0]
    · rw [if_pos ⟨h0, by omega⟩, if_neg h0, show 16 - x = (15 - x) + 1 by omega, Nat.pow_succ]
      ring

theorem complete_iff (h15 : ∀ l ∈ lens, l ≤ 15) : Complete lens ↔ firstCode lens 16 = 65536 := by
  rw [firstCode_16 h15, Complete]
  norm_num
  omega

theorem weights_le_used (lens : List Nat) :
    (lens.map fun l => if l = 0 then 0 else 2 ^ (15 - l)).sum ≤ used lens * 2 ^ 14 := by
  unfold used
  induction lens with
  | nil => simp
  | cons x xs ih =>
    rw [List.map_cons, List.sum_cons, List.countP_cons]
    by_cases h0 : x = 0
    · simp [h0] at ih ⊢; exact ih
    · have : (2 : Nat) ^ (15 - x) ≤ 2 ^ 14 := Nat.pow_le_pow_right (by omega) (by omega)
      simp only [h0, if_false, ne_eq, not_false_eq_true, decide_true, if_true] at ih ⊢
      rw [Nat.add_mul]
      omega

theorem usable_kraft (h : Usable lens) : Kraft lens := by
  obtain ⟨h15, h | h⟩ := h
  · exact le_of_eq ((complete_iff h15).mp h)
  · unfold Kraft
    rw [firstCode_16 h15]
    have := weights_le_used lens
    have : used lens * 2 ^ 14 ≤ 1 * 2 ^ 14 := Nat.mul_le_mul_right _ h
    omega

end

end Npy
