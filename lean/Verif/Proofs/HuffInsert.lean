import Verif.Proofs.HuffTable
/-!
# Building the decoding tables
-/

namespace Npy
open Spec.Deflate

/-- What is known of the code lengths. -/
structure LensOk (lens : List Nat) : Prop where
  h15 : ∀ l ∈ lens, l ≤ 15
  hU : Complete lens ∨ used lens ≤ 1
  hlen : lens.length ≤ 288

theorem LensOk.kraft {lens : List Nat} (h : LensOk lens) : Kraft lens := usable_kraft ⟨h.h15, h.hU⟩

section
variable {lens : List Nat} (hL : LensOk lens)
include hL

theorem LensOk.unique {s t : Nat} (hs : lenOf lens s ≠ 0) (ht : lenOf lens t ≠ 0) {x : List Bool}
    (h1 : huff lens s <+: x) (h2 : huff lens t <+: x) : s = t := huff_unique hL.h15 hL.kraft hs ht h1 h2

theorem huff_bval_lt (s : Nat) : bval (huff lens s) < 2 ^ lenOf lens s := by
  have := bval_lt (huff lens s)
  rwa [huff_length] at this

/-- A short code goes into the fast table. -/
theorem TInv.insertShort {i : Nat} {look tree : List Int} {N : Nat} {own : Nat → List Bool}
    (h : TInv lens i look tree N own) (h0 : lenOf lens i ≠ 0) (h10 : lenOf lens i ≤ 10) :
    TInv lens (i + 1)
      (fillLook ((lenOf lens i <<< 9 ||| i : Nat) : Int) (lenOf lens i) 1024 (bval (huff lens i)) look) tree N own := by
  have hlt := huff_bval_lt hL i
  have hget : ∀ x < 1024, (fillLook ((lenOf lens i <<< 9 ||| i : Nat) : Int) (lenOf lens i) 1024 (bval (huff lens i)) look).getD x 0 =
      if huff lens i <+: lsb 10 x then ((lenOf lens i <<< 9 ||| i : Nat) : Int) else look.getD x 0 := by
    intro x hx
    rw [fillLook_getD _ _ _ _ _ h.lookLen x hx (by have := Nat.two_pow_pos (lenOf lens i); nlinarith)]
    have e1 : huff lens i <+: lsb 10 x ↔ x % 2 ^ lenOf lens i = bval (huff lens i) := by
      have := prefix_lsb_iff (l := huff lens i) (n := 10) (v := x) (by rw [huff_length]; exact h10)
      rwa [huff_length] at this
    rw [Nat.mod_eq_of_lt hlt]
    by_cases h3 : x % 2 ^ lenOf lens i = bval (huff lens i)
    · rw [if_pos (e1.mpr h3), if_pos ⟨by rw [← h3]; exact Nat.mod_le _ _, h3⟩]
    · rw [if_neg (fun hc => h3 (e1.mp hc)), if_neg (fun hc => h3 hc.2)]
  have hpos : (0 : Int) < ((lenOf lens i <<< 9 ||| i : Nat) : Int) := by
    have : lenOf lens i <<< 9 ≤ lenOf lens i <<< 9 ||| i := Nat.left_le_or
    rw [Nat.shiftLeft_eq] at this ⊢
    have : 0 < lenOf lens i * 2 ^ 9 := Nat.mul_pos (by omega) (by norm_num)
    omega
  refine { lookLen := by rw [fillLook_length]; exact h.lookLen, treeLen := h.treeLen, ownPre := h.ownPre,
           ownInj := h.ownInj, treeNeg := h.treeNeg, treeHi := h.treeHi, link := h.link, parent := h.parent,
           lookNeg := ?lookNeg, lookPos := ?lookPos, treePos := ?treePos, link10 := ?link10, short := ?short,
           nodes := ?nodes, leaf := ?leaf }
  case lookNeg =>
    intro x hx hn
    rw [hget x hx] at hn ⊢
    split at hn
    · omega
    · rename_i hc; rw [if_neg hc]; exact h.lookNeg x hx hn
  case lookPos =>
    intro x hx hn
    rw [hget x hx] at hn ⊢
    split at hn
    · rename_i hc; rw [if_pos hc]; exact ⟨i, by omega, h0, h10, rfl, hc⟩
    · rename_i hc; rw [if_neg hc]
      obtain ⟨t, h1, h2⟩ := h.lookPos x hx hn
      exact ⟨t, by omega, h2⟩
  case treePos =>
    intro k hk b hn
    obtain ⟨t, h1, h2⟩ := h.treePos k hk b hn
    exact ⟨t, by omega, h2⟩
  case link10 =>
    intro k hk h1
    have hx : bval (own k) < 1024 := by have := bval_lt (own k); rw [h1] at this; simpa using this
    rw [hget _ hx, if_neg]
    · exact h.link10 k hk h1
    · intro hc
      have e : lsb 10 (bval (own k)) = own k := by rw [← h1]; exact lsb_bval _
      rw [e] at hc
      obtain ⟨_, t, ht, hp, hl⟩ := h.ownPre k hk
      have := hL.unique h0 ht (hc.trans hp) (List.prefix_refl _)
      subst this
      omega
  case short =>
    intro t ht h1 h2 x hx hp
    rw [hget x hx]
    by_cases hti : t = i
    · subst hti; rw [if_pos hp]
    · rw [if_neg (fun hc => hti (hL.unique h1 h0 hp hc))]
      exact h.short t (by omega) h1 h2 x hx hp
  case nodes =>
    intro t ht d h1 h2
    by_cases hti : t = i
    · subst hti; omega
    · exact h.nodes t (by omega) d h1 h2
  case leaf =>
    intro t ht h1
    by_cases hti : t = i
    · subst hti; omega
    · exact h.leaf t (by omega) h1

theorem TInv.cap {i : Nat} {look tree : List Int} {N : Nat} {own : Nat → List Bool}
    (h : TInv lens i look tree N own) : N ≤ 288 :=
  capacity hL.h15 hL.hU hL.hlen N own h.ownPre h.ownInj

/-- A new node. -/
def ext (own : Nat → List Bool) (N : Nat) (p : List Bool) : Nat → List Bool := fun k => if k = N then p else own k

omit hL in
theorem ext_new (own : Nat → List Bool) (N : Nat) (p : List Bool) : ext own N p N = p := by simp [ext]
omit hL in
theorem ext_old (own : Nat → List Bool) {N k : Nat} (p : List Bool) (h : k < N) : ext own N p k = own k := by
  simp [ext, Nat.ne_of_lt h]

theorem ext_pre {i : Nat} {look tree : List Int} {N : Nat} {own : Nat → List Bool}
    (h : TInv lens i look tree N own) {p : List Bool} (hp : 10 ≤ p.length ∧ ∃ t, lenOf lens t ≠ 0 ∧ p <+: huff lens t ∧ p.length < lenOf lens t)
    (hnew : ∀ k < N, own k ≠ p) :
    (∀ k < N + 1, 10 ≤ (ext own N p k).length ∧ ∃ t, lenOf lens t ≠ 0 ∧ ext own N p k <+: huff lens t ∧
      (ext own N p k).length < lenOf lens t) ∧
    (∀ k < N + 1, ∀ k' < N + 1, ext own N p k = ext own N p k' → k = k') ∧ N + 1 ≤ 288 := by
  have h1 : ∀ k < N + 1, 10 ≤ (ext own N p k).length ∧ ∃ t, lenOf lens t ≠ 0 ∧ ext own N p k <+: huff lens t ∧
      (ext own N p k).length < lenOf lens t := by
    intro k hk
    by_cases hkN : k = N
    · subst hkN; rw [ext_new]; exact hp
    · rw [ext_old _ _ (by omega)]; exact h.ownPre k (by omega)
  have h2 : ∀ k < N + 1, ∀ k' < N + 1, ext own N p k = ext own N p k' → k = k' := by
    intro k hk k' hk' he
    by_cases h3 : k = N
    · by_cases h4 : k' = N
      · omega
      · subst h3
        rw [ext_new, ext_old _ _ (by omega)] at he
        exact absurd he.symm (hnew k' (by omega))
    · by_cases h4 : k' = N
      · subst h4
        rw [ext_new, ext_old _ _ (by omega)] at he
        exact absurd he (hnew k (by omega))
      · rw [ext_old _ _ (by omega), ext_old _ _ (by omega)] at he
        exact h.ownInj k (by omega) k' (by omega) he
  exact ⟨h1, h2, capacity hL.h15 hL.hU hL.hlen _ _ h1 h2⟩

/-- A new node below the fast table. -/
theorem TInv.newRoot {i : Nat} {look tree : List Int} {N : Nat} {own : Nat → List Bool}
    (h : TInv lens i look tree N own) (h10 : 10 < lenOf lens i)
    (hz : look.getD (bval ((huff lens i).take 10)) 0 = 0) :
    TInv lens i (look.set (bval ((huff lens i).take 10)) (node N)) tree (N + 1) (ext own N ((huff lens i).take 10)) := by
  have hpl : ((huff lens i).take 10).length = 10 := by rw [List.length_take, huff_length]; omega
  have hx : bval ((huff lens i).take 10) < 1024 := by have := bval_lt ((huff lens i).take 10); rw [hpl] at this; simpa using this
  have e10 : lsb 10 (bval ((huff lens i).take 10)) = (huff lens i).take 10 := by
    have := lsb_bval ((huff lens i).take 10)
    rwa [hpl] at this
  have hnew : ∀ k < N, own k ≠ (huff lens i).take 10 := by
    intro k hk he
    have := h.link10 k hk (by rw [he]; exact hpl)
    rw [he, hz] at this
    have := node_neg k
    omega
  obtain ⟨hpre, hinj, hcap⟩ := ext_pre hL h (p := (huff lens i).take 10)
    ⟨by omega, i, by omega, List.take_prefix _ _, by omega⟩ hnew
  have hget : ∀ x < 1024, (look.set (bval ((huff lens i).take 10)) (node N)).getD x 0 =
      if lsb 10 x = (huff lens i).take 10 then node N else look.getD x 0 := by
    intro x hx'
    rw [getD_set, h.lookLen]
    by_cases hc : bval ((huff lens i).take 10) = x
    · subst hc; rw [if_pos ⟨rfl, hx⟩, if_pos e10]
    · rw [if_neg (by tauto), if_neg]
      intro hc2
      rw [← e10] at hc2
      exact hc (lsb_inj (by simpa using hx') (by simpa using hx) hc2).symm
  refine { lookLen := by rw [List.length_set]; exact h.lookLen, treeLen := h.treeLen, ownPre := hpre, ownInj := hinj,
           lookNeg := ?lookNeg, lookPos := ?lookPos, treeNeg := ?treeNeg, treePos := ?treePos, treeHi := ?treeHi,
           link10 := ?link10, link := ?link, parent := ?parent, short := ?short, nodes := ?nodes, leaf := ?leaf }
  case lookNeg =>
    intro x hx' hn
    rw [hget x hx'] at hn ⊢
    split at hn
    · rename_i hc; rw [if_pos hc]; exact ⟨N, by omega, rfl, by rw [ext_new, hc]⟩
    · rename_i hc; rw [if_neg hc]
      obtain ⟨k, hk, h1, h2⟩ := h.lookNeg x hx' hn
      exact ⟨k, by omega, h1, by rw [ext_old _ _ hk]; exact h2⟩
  case lookPos =>
    intro x hx' hn
    rw [hget x hx'] at hn ⊢
    split at hn
    · have := node_neg N; omega
    · rename_i hc; rw [if_neg hc]; exact h.lookPos x hx' hn
  case treeNeg =>
    intro k hk b hn
    by_cases hkN : k = N
    · subst hkN; rw [h.treeHi _ (by omega)] at hn; omega
    · obtain ⟨k', hk', h1, h2⟩ := h.treeNeg k (by omega) b hn
      exact ⟨k', by omega, h1, by rw [ext_old _ _ hk', ext_old _ _ (by omega)]; exact h2⟩
  case treePos =>
    intro k hk b hn
    by_cases hkN : k = N
    · subst hkN; rw [h.treeHi _ (by omega)] at hn; omega
    · rw [ext_old _ _ (by omega)]
      exact h.treePos k (by omega) b hn
  case treeHi => intro j hj; exact h.treeHi j (by omega)
  case link10 =>
    intro k hk h1
    by_cases hkN : k = N
    · subst hkN
      rw [ext_new, hget _ hx, if_pos e10]
    · rw [ext_old _ _ (by omega)] at h1 ⊢
      have hx' : bval (own k) < 1024 := by have := bval_lt (own k); rw [h1] at this; simpa using this
      rw [hget _ hx', if_neg]
      · exact h.link10 k (by omega) h1
      · have e : lsb 10 (bval (own k)) = own k := by rw [← h1]; exact lsb_bval _
        rw [e]
        exact hnew k (by omega)
  case link =>
    intro k hk k' hk' b he
    by_cases hk'N : k' = N
    · subst hk'N
      rw [ext_new] at he
      have := congrArg List.length he
      rw [List.length_append, hpl] at this
      have := (hpre k hk).1
      simp at *
      omega
    · by_cases hkN : k = N
      · subst hkN
        rw [ext_old _ _ (by omega), ext_new] at he
        exfalso
        -- the path of an old node runs through the new one: it has a root already
        obtain ⟨k'', hk'', b', h3⟩ := h.parent k' (by omega) (by rw [he, List.length_append, hpl]; simp)
        rw [he] at h3
        exact hnew k'' hk'' (List.append_inj_left' h3 rfl).symm
      · rw [ext_old _ _ (by omega), ext_old _ _ (by omega)] at he
        exact h.link k (by omega) k' (by omega) b he
  case parent =>
    intro k hk h1
    by_cases hkN : k = N
    · subst hkN; rw [ext_new, hpl] at h1; omega
    · rw [ext_old _ _ (by omega)] at h1 ⊢
      obtain ⟨k', hk', b, h2⟩ := h.parent k (by omega) h1
      exact ⟨k', by omega, b, by rw [ext_old _ _ hk']; exact h2⟩
  case short =>
    intro t ht h1 h2 x hx' hp
    rw [hget x hx', if_neg]
    · exact h.short t ht h1 h2 x hx' hp
    · intro hc
      rw [hc] at hp
      have := hL.unique h1 (by omega : lenOf lens i ≠ 0) (hp.trans (List.take_prefix _ _)) (List.prefix_refl _)
      omega
  case nodes =>
    intro t ht d h1 h2
    obtain ⟨k, hk, h3⟩ := h.nodes t ht d h1 h2
    exact ⟨k, by omega, by rw [ext_old _ _ hk]; exact h3⟩
  case leaf =>
    intro t ht h1 k hk b he
    by_cases hkN : k = N
    · subst hkN
      rw [ext_new] at he
      -- then `t` is `i`'s extension by a bit: not yet possible unless its nodes exist
      obtain ⟨k', hk', h3⟩ := h.nodes t ht 10 (by omega) h1
      exfalso
      apply hnew k' hk'
      rw [h3, ← he, List.take_append_of_le_length (by omega), List.take_of_length_le (by omega)]
    · rw [ext_old _ _ (by omega)] at he
      exact h.leaf t ht h1 k (by omega) b he

/-- A new node below another node. -/
theorem TInv.newNode {i : Nat} {look tree : List Int} {N : Nat} {own : Nat → List Bool}
    (h : TInv lens i look tree N own) {k0 : Nat} (hk0 : k0 < N) {b0 : Bool} (h0 : lenOf lens i ≠ 0)
    (hp : own k0 ++ [b0] <+: huff lens i) (hl : (own k0).length + 1 < lenOf lens i)
    (hz : tree.getD (2 * k0 + b0.toNat) 0 = 0) :
    TInv lens i look (tree.set (2 * k0 + b0.toNat) (node N)) (N + 1) (ext own N (own k0 ++ [b0])) := by
  have hnew : ∀ k < N, own k ≠ own k0 ++ [b0] := by
    intro k hk he
    have := h.link k0 hk0 k hk b0 he
    rw [hz] at this
    have := node_neg k
    omega
  have h10 := (h.ownPre k0 hk0).1
  have hb0 : b0.toNat ≤ 1 := by cases b0 <;> simp
  obtain ⟨hpre, hinj, hcap⟩ := ext_pre hL h (p := own k0 ++ [b0])
    ⟨by simp; omega, i, h0, hp, by simp; omega⟩ hnew
  have hget : ∀ k b, (tree.set (2 * k0 + b0.toNat) (node N)).getD (2 * k + b.toNat) 0 =
      if k = k0 ∧ b = b0 then node N else tree.getD (2 * k + b.toNat) 0 := by
    intro k b
    rw [getD_set, h.treeLen]
    by_cases hc : k = k0 ∧ b = b0
    · obtain ⟨rfl, rfl⟩ := hc
      rw [if_pos ⟨rfl, by omega⟩, if_pos ⟨rfl, rfl⟩]
    · rw [if_neg hc, if_neg]
      rintro ⟨hc2, _⟩
      apply hc
      cases b <;> cases b0 <;> simp at hc2 ⊢ <;> omega
  refine { lookLen := h.lookLen, treeLen := by rw [List.length_set]; exact h.treeLen, ownPre := hpre, ownInj := hinj,
           lookNeg := ?lookNeg, lookPos := h.lookPos, treeNeg := ?treeNeg, treePos := ?treePos, treeHi := ?treeHi,
           link10 := ?link10, link := ?link, parent := ?parent, short := h.short, nodes := ?nodes, leaf := ?leaf }
  case lookNeg =>
    intro x hx hn
    obtain ⟨k, hk, h1, h2⟩ := h.lookNeg x hx hn
    exact ⟨k, by omega, h1, by rw [ext_old _ _ hk]; exact h2⟩
  case treeNeg =>
    intro k hk b hn
    rw [hget k b] at hn ⊢
    split at hn
    · rename_i hc
      rw [if_pos hc]
      exact ⟨N, by omega, rfl, by rw [ext_new, hc.1, hc.2, ext_old _ _ hk0]⟩
    · rename_i hc
      rw [if_neg hc]
      by_cases hkN : k = N
      · subst hkN; rw [h.treeHi _ (by omega)] at hn; omega
      · obtain ⟨k', hk', h1, h2⟩ := h.treeNeg k (by omega) b hn
        exact ⟨k', by omega, h1, by rw [ext_old _ _ hk', ext_old _ _ (by omega)]; exact h2⟩
  case treePos =>
    intro k hk b hn
    rw [hget k b] at hn
    split at hn
    · have := node_neg N; omega
    · by_cases hkN : k = N
      · subst hkN; rw [h.treeHi _ (by omega)] at hn; omega
      · rw [ext_old _ _ (by omega)]
        exact h.treePos k (by omega) b hn
  case treeHi =>
    intro j hj
    rw [getD_set, if_neg (by omega)]
    exact h.treeHi j (by omega)
  case link10 =>
    intro k hk h1
    by_cases hkN : k = N
    · subst hkN; rw [ext_new] at h1; simp at h1; omega
    · rw [ext_old _ _ (by omega)] at h1 ⊢
      exact h.link10 k (by omega) h1
  case link =>
    intro k hk k' hk' b he
    rw [hget k b]
    by_cases hk'N : k' = N
    · subst hk'N
      rw [ext_new] at he
      have hkk : k ≠ k' := by
        intro hc; subst hc
        rw [ext_new] at he
        have := congrArg List.length he
        simp at this
      rw [ext_old _ _ (by omega)] at he
      have h1 := List.append_inj_left' he rfl
      have h2 := List.append_inj_right' he rfl
      have : k = k0 := (h.ownInj k0 hk0 k (by omega) h1).symm
      rw [if_pos ⟨this, by simpa using h2.symm⟩]
    · by_cases hkN : k = N
      · subst hkN
        rw [ext_old _ _ (by omega), ext_new] at he
        exfalso
        obtain ⟨k'', hk'', b', h3⟩ := h.parent k' (by omega) (by rw [he]; simp; omega)
        rw [he] at h3
        exact hnew k'' hk'' (List.append_inj_left' h3 rfl).symm
      · rw [ext_old _ _ (by omega), ext_old _ _ (by omega)] at he
        rw [if_neg]
        · exact h.link k (by omega) k' (by omega) b he
        · rintro ⟨rfl, rfl⟩
          exact hnew k' (by omega) he
  case parent =>
    intro k hk h1
    by_cases hkN : k = N
    · subst hkN
      exact ⟨k0, by omega, b0, by rw [ext_new, ext_old _ _ hk0]⟩
    · rw [ext_old _ _ (by omega)] at h1 ⊢
      obtain ⟨k', hk', b, h2⟩ := h.parent k (by omega) h1
      exact ⟨k', by omega, b, by rw [ext_old _ _ hk']; exact h2⟩
  case nodes =>
    intro t ht d h1 h2
    obtain ⟨k, hk, h3⟩ := h.nodes t ht d h1 h2
    exact ⟨k, by omega, by rw [ext_old _ _ hk]; exact h3⟩
  case leaf =>
    intro t ht h1 k hk b he
    rw [hget k b]
    by_cases hkN : k = N
    · subst hkN
      rw [ext_new] at he
      exfalso
      -- the nodes of `t` exist already
      have hlt : (own k0 ++ [b0]).length + 1 = lenOf lens t := by
        have := congrArg List.length he
        rw [List.length_append, huff_length] at this
        simpa using this
      obtain ⟨k', hk', h3⟩ := h.nodes t ht (own k0 ++ [b0]).length (by simp; omega) (by omega)
      apply hnew k' hk'
      rw [h3, ← he, List.take_left]
    · rw [ext_old _ _ (by omega)] at he
      rw [if_neg]
      · exact h.leaf t ht h1 k (by omega) b he
      · rintro ⟨rfl, rfl⟩
        rw [he] at hp
        have := hL.unique (by omega : lenOf lens t ≠ 0) h0 hp (List.prefix_refl _)
        omega

/-- The leaf of a long code. -/
theorem TInv.newLeaf {i : Nat} {look tree : List Int} {N : Nat} {own : Nat → List Bool}
    (h : TInv lens i look tree N own) {k0 : Nat} (hk0 : k0 < N) {b0 : Bool} (h0 : 10 < lenOf lens i)
    (hp : own k0 ++ [b0] = huff lens i)
    (hnodes : ∀ d, 10 ≤ d → d < lenOf lens i → ∃ k < N, own k = (huff lens i).take d) :
    TInv lens (i + 1) look (tree.set (2 * k0 + b0.toNat) (i : Int)) N own := by
  have hcap := h.cap hL
  have hb0 : b0.toNat ≤ 1 := by cases b0 <;> simp
  have hget : ∀ k b, (tree.set (2 * k0 + b0.toNat) (i : Int)).getD (2 * k + b.toNat) 0 =
      if k = k0 ∧ b = b0 then (i : Int) else tree.getD (2 * k + b.toNat) 0 := by
    intro k b
    rw [getD_set, h.treeLen]
    by_cases hc : k = k0 ∧ b = b0
    · obtain ⟨rfl, rfl⟩ := hc
      rw [if_pos ⟨rfl, by omega⟩, if_pos ⟨rfl, rfl⟩]
    · rw [if_neg hc, if_neg]
      rintro ⟨hc2, _⟩
      apply hc
      cases b <;> cases b0 <;> simp at hc2 ⊢ <;> omega
  have hno : ∀ k < N, own k ≠ huff lens i := by
    intro k hk he
    obtain ⟨_, t, ht, h1, h2⟩ := h.ownPre k hk
    rw [he] at h1
    have := hL.unique (by omega : lenOf lens i ≠ 0) ht h1 (List.prefix_refl _)
    subst this
    rw [he, huff_length] at h2
    omega
  refine { lookLen := h.lookLen, treeLen := by rw [List.length_set]; exact h.treeLen, ownPre := h.ownPre,
           ownInj := h.ownInj,
           lookNeg := h.lookNeg, lookPos := ?lookPos, treeNeg := ?treeNeg, treePos := ?treePos, treeHi := ?treeHi,
           link10 := h.link10, link := ?link, parent := h.parent, short := ?short, nodes := ?nodes, leaf := ?leaf }
  case lookPos =>
    intro x hx hn
    obtain ⟨t, h1, h2⟩ := h.lookPos x hx hn
    exact ⟨t, by omega, h2⟩
  case treeNeg =>
    intro k hk b hn
    rw [hget k b] at hn ⊢
    split at hn
    · omega
    · rename_i hc; rw [if_neg hc]; exact h.treeNeg k hk b hn
  case treePos =>
    intro k hk b hn
    rw [hget k b] at hn
    split at hn
    · rename_i hc
      obtain ⟨rfl, rfl⟩ := hc
      exact ⟨i, by omega, by omega, hp.symm⟩
    · obtain ⟨t, h1, h2⟩ := h.treePos k hk b hn
      exact ⟨t, by omega, h2⟩
  case treeHi =>
    intro j hj
    rw [getD_set, if_neg (by omega)]
    exact h.treeHi j hj
  case link =>
    intro k hk k' hk' b he
    rw [hget k b, if_neg]
    · exact h.link k hk k' hk' b he
    · rintro ⟨rfl, rfl⟩
      exact hno k' hk' (he.trans hp)
  case short =>
    intro t ht h1 h2
    by_cases hti : t = i
    · subst hti; omega
    · exact h.short t (by omega) h1 h2
  case nodes =>
    intro t ht d h1 h2
    by_cases hti : t = i
    · subst hti; exact hnodes d h1 h2
    · exact h.nodes t (by omega) d h1 h2
  case leaf =>
    intro t ht h1 k hk b he
    rw [hget k b]
    by_cases hti : t = i
    · subst hti
      rw [← hp] at he
      have h2 := List.append_inj_left' he rfl
      have h3 := List.append_inj_right' he rfl
      rw [if_pos ⟨h.ownInj k hk k0 hk0 h2, by simpa using h3⟩]
    · rw [if_neg]
      · exact h.leaf t (by omega) h1 k hk b he
      · rintro ⟨rfl, rfl⟩
        apply hti
        exact hL.unique (by omega : lenOf lens t ≠ 0) (by omega : lenOf lens i ≠ 0)
          (by rw [← he, hp]) (List.prefix_refl _)

end

end Npy
