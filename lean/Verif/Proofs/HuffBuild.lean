import Verif.Proofs.HuffInsert
/-!
# The finished decoding table
-/

namespace Npy
open Spec.Deflate

section
variable {lens : List Nat} (hL : LensOk lens)

theorem slot_eq (k : Nat) (b : Bool) : (-(node k - ((b.toNat : Nat) : Int)) - 1).toNat = 2 * k + b.toNat := by
  unfold node; omega

theorem take_succ_bit {h : List Bool} {d : Nat} (hd : d < h.length) : h.take (d + 1) = h.take d ++ [h[d]] := by
  rw [List.take_add_one, List.getElem?_eq_getElem hd]; rfl

theorem shiftRight_succ' (v a : Nat) : (v >>> a) >>> 1 = v >>> (a + 1) := by rw [Nat.shiftRight_add]

/-- Going down to the parent of the leaf. -/
theorem treePath_inv (hL : LensOk lens) {i : Nat} {look : List Int} (h11 : 10 < lenOf lens i) :
    ∀ (n d : Nat) (tree : List Int) (N : Nat) (own : Nat → List Bool) (k : Nat), TInv lens i look tree N own → 10 ≤ d →
    d + n + 1 = lenOf lens i → k < N → own k = (huff lens i).take d →
    (∀ e, 10 ≤ e → e ≤ d → ∃ k < N, own k = (huff lens i).take e) →
    ∃ tree' N' own' k', treePath n tree (node N) (node k) (bval (huff lens i) >>> (d - 1)) =
        (tree', node N', node k', bval (huff lens i) >>> (lenOf lens i - 2)) ∧
      TInv lens i look tree' N' own' ∧ k' < N' ∧ own' k' = (huff lens i).take (lenOf lens i - 1) ∧
      (∀ e, 10 ≤ e → e < lenOf lens i → ∃ k < N', own' k = (huff lens i).take e) := by
  intro n
  induction n with
  | zero =>
    intro d tree N own k h hd hn hk hown hall
    refine ⟨tree, N, own, k, ?_, h, hk, ?_, ?_⟩
    · rw [treePath, show d - 1 = lenOf lens i - 2 by omega]
    · rw [hown, show d = lenOf lens i - 1 by omega]
    · intro e h1 h2; exact hall e h1 (by omega)
  | succ n ih =>
    intro d tree N own k h hd hn hk hown hall
    have hdl : d < (huff lens i).length := by rw [huff_length]; omega
    rw [treePath]
    have hrev : (bval (huff lens i) >>> (d - 1)) >>> 1 = bval (huff lens i) >>> d := by
      rw [shiftRight_succ', show d - 1 + 1 = d by omega]
    have hpre : own k ++ [(huff lens i)[d]] = (huff lens i).take (d + 1) := by rw [take_succ_bit hdl, hown]
    rw [hrev, bval_bit hdl, slot_eq]
    by_cases hz : tree.getD (2 * k + ((huff lens i)[d]).toNat) 0 = 0
    · rw [if_pos hz]
      have h' := h.newNode hL hk (b0 := (huff lens i)[d]) (by omega) (by rw [hpre]; exact List.take_prefix _ _)
        (by rw [hown, List.length_take, huff_length]; omega) hz
      have en : node N - 2 = node (N + 1) := by unfold node; push_cast; omega
      rw [en]
      have := ih (d + 1) _ (N + 1) _ N h' (by omega) (by omega) (by omega) (by rw [ext_new, hpre]) (by
        intro e h1 h2
        by_cases he : e = d + 1
        · subst he; exact ⟨N, by omega, by rw [ext_new, hpre]⟩
        · obtain ⟨k1, hk1, h3⟩ := hall e h1 (by omega)
          exact ⟨k1, by omega, by rw [ext_old _ _ hk1]; exact h3⟩)
      rwa [show d + 1 - 1 = d by omega] at this
    · rw [if_neg hz]
      have hneg : tree.getD (2 * k + ((huff lens i)[d]).toNat) 0 < 0 := by
        by_contra hc
        obtain ⟨t, h1, h2, h3⟩ := h.treePos k hk (huff lens i)[d] (by omega)
        have h4 : huff lens t <+: huff lens i := by rw [h3, hpre]; exact List.take_prefix _ _
        have := hL.unique h2 (by omega : lenOf lens i ≠ 0) h4 (List.prefix_refl _)
        omega
      obtain ⟨k', hk', h1, h2⟩ := h.treeNeg k hk _ hneg
      rw [h1]
      have := ih (d + 1) tree N own k' h (by omega) (by omega) hk' (by rw [h2, hpre]) (by
        intro e h3 h4
        by_cases he : e = d + 1
        · subst he; exact ⟨k', hk', by rw [h2, hpre]⟩
        · exact hall e h3 (by omega))
      rwa [show d + 1 - 1 = d by omega] at this

/-- The state of the construction after `i` symbols. -/
def BInv (lens : List Nat) (i : Nat) (st : TableBuild) : Prop :=
  ∃ N own, TInv lens i st.look st.tree N own ∧ st.treeNext = node N ∧
    st.next.length = 17 ∧
    ∀ l, 1 ≤ l → l ≤ 15 → st.next.getD l 0 = firstCode lens l + (lens.take i).count l

theorem BInv.insert (hL : LensOk lens) {i : Nat} (hi : i < lens.length) {st : TableBuild} (h : BInv lens i st) :
    BInv lens (i + 1) (insertSym st i lens[i]) := by
  obtain ⟨N, own, hT, hn, hnl, hnext⟩ := h
  have hli : lenOf lens i = lens[i] := lenOf_eq hi
  have h15 := lenOf_le hL.h15 i
  rw [← hli]
  unfold insertSym
  by_cases h0 : lenOf lens i = 0
  · rw [if_pos h0]
    refine ⟨N, own, ?_, hn, hnl, ?_⟩
    · refine { hT with lookPos := ?_, treePos := ?_, short := ?_, nodes := ?_, leaf := ?_ }
      · intro x hx hp
        obtain ⟨t, h1, h2⟩ := hT.lookPos x hx hp
        exact ⟨t, by omega, h2⟩
      · intro k hk b hp
        obtain ⟨t, h1, h2⟩ := hT.treePos k hk b hp
        exact ⟨t, by omega, h2⟩
      · intro t ht h1
        by_cases hti : t = i
        · subst hti; exact absurd h0 h1
        · exact hT.short t (by omega) h1
      · intro t ht d h1 h2
        by_cases hti : t = i
        · subst hti; omega
        · exact hT.nodes t (by omega) d h1 h2
      · intro t ht h1
        by_cases hti : t = i
        · subst hti; omega
        · exact hT.leaf t (by omega) h1
    · intro l h1 h2
      rw [hnext l h1 h2, count_take_succ hi, if_neg (by omega)]
      omega
  rw [if_neg h0]
  have hcur : st.next.getD (lenOf lens i) 0 = codeOf lens i := hnext _ (by omega) h15
  have hnext' : ∀ l, 1 ≤ l → l ≤ 15 → (st.next.set (lenOf lens i) (codeOf lens i + 1)).getD l 0 =
      firstCode lens l + (lens.take (i + 1)).count l := by
    intro l h1 h2
    rw [getD_set, count_take_succ hi, hnl]
    by_cases hl : lenOf lens i = l
    · subst hl
      rw [if_pos ⟨rfl, by omega⟩, if_pos hli.symm, codeOf]; omega
    · rw [if_neg (by tauto), if_neg (by omega), hnext l h1 h2]; omega
  have hrev : revCode (lenOf lens i) 0 (codeOf lens i) = bval (huff lens i) := by
    rw [revCode_eq, Nat.zero_mul, Nat.zero_add]; rfl
  simp only [hcur, hrev]
  by_cases h10 : lenOf lens i ≤ 10
  · rw [if_pos h10]
    exact ⟨N, own, hT.insertShort hL h0 h10, hn, by simpa using hnl, hnext'⟩
  · rw [if_neg h10]
    have hat : bval (huff lens i) &&& 1023 = bval ((huff lens i).take 10) := by
      rw [bval_take _ _ (by rw [huff_length]; omega)]
      exact Nat.and_two_pow_sub_one_eq_mod _ 10
    rw [hat]
    have hpl : ((huff lens i).take 10).length = 10 := by rw [List.length_take, huff_length]; omega
    have hx : bval ((huff lens i).take 10) < 1024 := by
      have := bval_lt ((huff lens i).take 10); rw [hpl] at this; simpa using this
    have e10 : lsb 10 (bval ((huff lens i).take 10)) = (huff lens i).take 10 := by
      have := lsb_bval ((huff lens i).take 10)
      rwa [hpl] at this
    -- the root
    obtain ⟨look, N1, own1, k, e1, e2, e3, hT1, hk, hown⟩ : ∃ look N1 own1 k,
        (if st.look.getD (bval ((huff lens i).take 10)) 0 = 0 then st.look.set (bval ((huff lens i).take 10)) st.treeNext
          else st.look) = look ∧
        (if st.look.getD (bval ((huff lens i).take 10)) 0 = 0 then st.treeNext
          else st.look.getD (bval ((huff lens i).take 10)) 0) = node k ∧
        (if st.look.getD (bval ((huff lens i).take 10)) 0 = 0 then st.treeNext - 2 else st.treeNext) = node N1 ∧
        TInv lens i look st.tree N1 own1 ∧ k < N1 ∧ own1 k = (huff lens i).take 10 := by
      by_cases hz : st.look.getD (bval ((huff lens i).take 10)) 0 = 0
      · simp only [if_pos hz, hn]
        refine ⟨_, N + 1, _, N, rfl, rfl, by unfold node; push_cast; omega, hT.newRoot hL (by omega) hz, by omega, ext_new _ _ _⟩
      · simp only [if_neg hz, hn]
        have hneg : st.look.getD (bval ((huff lens i).take 10)) 0 < 0 := by
          by_contra hc
          obtain ⟨t, h1, h2, h3, h4, h5⟩ := hT.lookPos _ hx (by omega)
          rw [e10] at h5
          have := hL.unique h2 h0 (h5.trans (List.take_prefix _ _)) (List.prefix_refl _)
          omega
        obtain ⟨k, hk, h1, h2⟩ := hT.lookNeg _ hx hneg
        exact ⟨_, N, own, k, rfl, h1, rfl, hT, hk, by rw [h2, e10]⟩
    rw [e1, e2, e3]
    obtain ⟨tree', N', own', k', e4, hT', hk', hown', hall⟩ := treePath_inv hL (by omega) (lenOf lens i - 11) 10 st.tree N1 own1 k hT1
      (by omega) (by omega) hk hown (by
        intro e h1 h2
        exact ⟨k, hk, by rw [hown, show e = 10 by omega]⟩)
    rw [show 10 - 1 = 9 from rfl] at e4
    rw [e4]
    simp only []
    have hdl : lenOf lens i - 1 < (huff lens i).length := by rw [huff_length]; omega
    have hrev2 : (bval (huff lens i) >>> (lenOf lens i - 2)) >>> 1 = bval (huff lens i) >>> (lenOf lens i - 1) := by
      rw [shiftRight_succ', show lenOf lens i - 2 + 1 = lenOf lens i - 1 by omega]
    rw [hrev2, bval_bit hdl, slot_eq]
    refine ⟨N', own', hT'.newLeaf hL hk' (by omega) ?_ hall, rfl, by simpa using hnl, hnext'⟩
    rw [hown', ← take_succ_bit hdl, List.take_of_length_le (by rw [huff_length]; omega)]

theorem BInv.inserts (hL : LensOk lens) (sizes : List Nat) {i : Nat} {st : TableBuild} (h : BInv lens i st)
    (hs : lens.drop i = sizes) : BInv lens lens.length (insertSyms st i sizes) := by
  induction sizes generalizing i st with
  | nil =>
    rw [insertSyms]
    have h1 : lens.length ≤ i := by
      have := congrArg List.length hs
      simp at this; omega
    obtain ⟨N, own, hT, hn, hnl, hnext⟩ := h
    refine ⟨N, own, ?_, hn, hnl, ?_⟩
    · refine { hT with lookPos := ?_, treePos := ?_, short := ?_, nodes := ?_, leaf := ?_ }
      · intro x hx hp
        obtain ⟨t, _, h2⟩ := hT.lookPos x hx hp
        exact ⟨t, lenOf_lt h2.1, h2⟩
      · intro k hk b hp
        obtain ⟨t, _, h2⟩ := hT.treePos k hk b hp
        exact ⟨t, lenOf_lt h2.1, h2⟩
      · intro t ht; exact hT.short t (by omega)
      · intro t ht; exact hT.nodes t (by omega)
      · intro t ht; exact hT.leaf t (by omega)
    · intro l h2 h3
      rw [hnext l h2 h3, List.take_of_length_le h1, List.take_of_length_le (Nat.le_refl _)]
  | cons x xs ih =>
    rw [insertSyms]
    have hi : i < lens.length := by
      by_contra hc
      rw [List.drop_of_length_le (by omega)] at hs
      cases hs
    rw [List.drop_eq_getElem_cons hi] at hs
    injection hs with hx hxs
    exact ih (by rw [← hx]; exact h.insert hL hi) hxs

theorem nextCodes_fst (lens : List Nat) (n i : Nat) (hi : i ≠ 0) :
    (nextCodes lens n i (firstCode lens i)).1.length = n ∧
    (nextCodes lens n i (firstCode lens i)).2 = firstCode lens (i + n) ∧
    ∀ j < n, (nextCodes lens n i (firstCode lens i)).1.getD j 0 = firstCode lens (i + j + 1) := by
  induction n generalizing i with
  | zero => refine ⟨rfl, rfl, ?_⟩; intro j hj; omega
  | succ n ih =>
    rw [nextCodes]
    have e : (firstCode lens i + List.count i lens) <<< 1 = firstCode lens (i + 1) := by
      rw [Nat.shiftLeft_eq, firstCode, blCount, if_neg hi]; omega
    simp only [e]
    obtain ⟨h1, h2, h3⟩ := ih (i + 1) (by omega)
    refine ⟨by rw [List.length_cons, h1], by rw [h2]; congr 1; omega, ?_⟩
    intro j hj
    cases j with
    | zero => rfl
    | succ j =>
      have := h3 j (by omega)
      simp only [List.getD_cons_succ]
      rw [this]; congr 1; omega

/-- What a table is for. -/
def TableOf (lens : List Nat) (t : HuffTable) : Prop := ∃ N own, TInv lens lens.length t.look t.tree N own

theorem buildTable_ok (hL : LensOk lens) : ∃ t, buildTable lens = some t ∧ TableOf lens t := by
  unfold buildTable
  obtain ⟨h1, h2, h3⟩ := nextCodes_fst lens 15 1 (by omega)
  have hf1 : firstCode lens 1 = 0 := by simp [firstCode, blCount]
  rw [hf1] at h1 h2 h3
  generalize he : nextCodes lens 15 1 0 = r at h1 h2 h3 ⊢
  obtain ⟨l, total⟩ := r
  dsimp only at h1 h2 h3 ⊢
  rw [if_neg]
  · refine ⟨_, rfl, ?_⟩
    have h0 : BInv lens 0 ⟨List.replicate 1024 0, List.replicate 576 0, -1, 0 :: 0 :: l⟩ := by
      refine ⟨0, fun _ => [], ?_, by rfl, by simp [h1], ?_⟩
      · have hz : ∀ n x, (List.replicate n (0 : Int)).getD x 0 = 0 := by
          intro n x
          simp only [List.getD]
          by_cases hx : x < n
          · simp [hx]
          · simp [hx]
        constructor
        case lookLen => exact List.length_replicate
        case treeLen => exact List.length_replicate
        all_goals first
          | (intro k hk; omega)
          | (intro x hx hn; rw [hz] at hn; omega)
          | (intro j _; rw [hz])
      · intro k hk1 hk2
        match k, hk1 with
        | 1, _ => simp [hf1]
        | j + 2, _ =>
          simp only [List.getD_cons_succ, List.take_zero, List.count_nil, Nat.add_zero]
          rw [h3 j (by omega)]; congr 1; omega
    obtain ⟨N, own, hT, _⟩ := h0.inserts hL lens rfl
    exact ⟨N, own, hT⟩
  · rintro ⟨h4, h5⟩
    rcases hL.hU with hc | hc
    · exact h4 (by rw [h2]; exact (complete_iff hL.h15).mp hc)
    · unfold used at hc; omega

/-! ### Decoding with the table -/

variable {t : HuffTable}

theorem lookAt_eq (t : HuffTable) (buf : Nat) : t.lookAt buf = t.look.getD (buf % 1024) 0 := by
  unfold HuffTable.lookAt
  rw [show (1023 : Nat) = 2 ^ 10 - 1 from rfl, Nat.and_two_pow_sub_one_eq_mod]

theorem lsb10_mod (buf : Nat) : lsb 10 (buf % 1024) = lsb 10 buf := lsb_mod 10 buf

theorem treeAt_node (t : HuffTable) (k buf d : Nat) {h : List Bool} (hd : d < h.length) {n : Nat} (hp : h.take (d + 1) <+: lsb n buf) :
    t.treeAt (node k) buf d = t.tree.getD (2 * k + (h[d]).toNat) 0 := by
  unfold HuffTable.treeAt
  congr 1
  have e1 : (-(node k) - 1).toNat = 2 * k := by unfold node; omega
  rw [e1]
  congr 1
  have hl := hp.length_le
  rw [List.length_take, lsb_length] at hl
  have hdn : d < n := by omega
  have h1 : (lsb n buf)[d]'(by rw [lsb_length]; exact hdn) = h[d] := by
    have := List.IsPrefix.getElem hp (i := d) (by rw [List.length_take]; omega)
    rw [← this, List.getElem_take]
  rw [lsb_getElem n buf d hdn] at h1
  rw [← h1, Nat.and_one_is_mod, Nat.shiftRight_eq_div_pow]
  rcases Nat.mod_two_eq_zero_or_one (buf / 2 ^ d) with h | h <;> simp [h]

/-- The entry of the fast table for a short code. -/
theorem TableOf.short (hT : TableOf lens t) {s : Nat} (h0 : lenOf lens s ≠ 0) (h10 : lenOf lens s ≤ 10) {buf n : Nat}
    (hp : huff lens s <+: lsb n buf) : t.lookAt buf = ((lenOf lens s <<< 9 ||| s : Nat) : Int) := by
  obtain ⟨N, own, hT⟩ := hT
  rw [lookAt_eq]
  apply hT.short s (lenOf_lt h0) h0 h10 _ (Nat.mod_lt _ (by omega))
  rw [lsb10_mod]
  exact prefix_lsb hp (by rw [huff_length]; exact h10)

/-- A long code: the fast table has a node, and the path leads to the symbol. -/
theorem TableOf.root (hT : TableOf lens t) {s : Nat} (h10 : 10 < lenOf lens s) {buf n : Nat}
    (hp : (huff lens s).take 10 <+: lsb n buf) :
    ∃ k, t.lookAt buf = node k ∧
    (∀ N own, TInv lens lens.length t.look t.tree N own → k < N ∧ own k = (huff lens s).take 10) := by
  obtain ⟨N, own, hT⟩ := hT
  have hpl : ((huff lens s).take 10).length = 10 := by rw [List.length_take, huff_length]; omega
  have e : buf % 1024 = bval ((huff lens s).take 10) := by
    have := (prefix_lsb_iff (n := 10) (v := buf) (by omega)).mp (prefix_lsb hp (by omega))
    rwa [hpl] at this
  obtain ⟨k, hk, h1⟩ := hT.nodes s (lenOf_lt (by omega)) 10 (by omega) h10
  have h2 := hT.link10 k hk (by rw [h1]; exact hpl)
  rw [h1, ← e] at h2
  refine ⟨k, by rw [lookAt_eq, h2], ?_⟩
  intro N' own' hT'
  obtain ⟨k', hk', h1'⟩ := hT'.nodes s (lenOf_lt (by omega)) 10 (by omega) h10
  have h2' := hT'.link10 k' hk' (by rw [h1']; exact hpl)
  rw [h1', ← e, h2] at h2'
  have := node_inj h2'
  subst this
  exact ⟨hk', h1'⟩

/-- One step down. -/
theorem TInv.step {look tree : List Int} {N : Nat} {own : Nat → List Bool} (hT : TInv lens lens.length look tree N own)
    {s d k : Nat} (hk : k < N) (hown : own k = (huff lens s).take d) (h10 : 10 ≤ d) (hd : d < (huff lens s).length) :
    (d + 1 < lenOf lens s ∧ ∃ k' < N, tree.getD (2 * k + ((huff lens s)[d]).toNat) 0 = node k' ∧
      own k' = (huff lens s).take (d + 1)) ∨
    (d + 1 = lenOf lens s ∧ tree.getD (2 * k + ((huff lens s)[d]).toNat) 0 = (s : Int)) := by
  have hd' := hd
  rw [huff_length] at hd'
  have hs := lenOf_lt (by omega : lenOf lens s ≠ 0)
  by_cases h : d + 1 < lenOf lens s
  · left
    refine ⟨h, ?_⟩
    obtain ⟨k', hk', h1⟩ := hT.nodes s hs (d + 1) (by omega) h
    refine ⟨k', hk', ?_, h1⟩
    exact hT.link k hk k' hk' _ (by rw [h1, take_succ_bit hd, hown])
  · right
    refine ⟨by omega, ?_⟩
    apply hT.leaf s hs (by omega) k hk
    rw [hown, ← take_succ_bit hd, List.take_of_length_le (by rw [huff_length]; omega)]

theorem walkTree_ok {N : Nat} {own : Nat → List Bool} (hT : TInv lens lens.length t.look t.tree N own) {s : Nat}
    {buf n : Nat} (hp : huff lens s <+: lsb n buf) :
    ∀ (f d k : Nat), k < N → own k = (huff lens s).take d → 10 ≤ d → d < lenOf lens s → lenOf lens s - d ≤ f →
    walkTree t buf f (node k) d = ((s : Int), lenOf lens s) := by
  intro f
  induction f with
  | zero => intro d k _ _ _ h1 h2; omega
  | succ f ih =>
    intro d k hk hown h10 hd hf
    have hdl : d < (huff lens s).length := by rw [huff_length]; exact hd
    rw [walkTree]
    rw [treeAt_node t k buf d hdl ((List.take_prefix _ _).trans hp)]
    rcases hT.step hk hown h10 hdl with ⟨h1, k', hk', h2, h3⟩ | ⟨h1, h2⟩
    · rw [h2, if_pos (node_neg k')]
      exact ih (d + 1) k' hk' h3 (by omega) h1 (by omega)
    · rw [h2, if_neg (by omega), h1]

theorem or_and_511 {a s : Nat} (hs : s < 512) : (a <<< 9 ||| s) % 512 = s := by
  rw [Nat.or_comm, or_shift_eq (n := 9) a (by simpa using hs)]
  omega

theorem or_shiftRight {a s : Nat} (hs : s < 512) : (a <<< 9 ||| s) >>> 9 = a := by
  rw [Nat.or_comm, or_shift_eq (n := 9) a (by simpa using hs), Nat.shiftRight_eq_div_pow]
  omega

/-- **The table decodes the code of every symbol.** -/
theorem decodeRaw_ok (hL : LensOk lens) (hT : TableOf lens t) {s : Nat} (h0 : lenOf lens s ≠ 0) {buf n : Nat}
    (hp : huff lens s <+: lsb n buf) : ∃ raw, decodeRaw t buf = (raw, lenOf lens s) ∧ raw % 512 = s := by
  have hs := lenOf_lt h0
  have hlen := hL.hlen
  unfold decodeRaw
  by_cases h10 : lenOf lens s ≤ 10
  · have h1 := hT.short h0 h10 hp
    simp only [h1]
    rw [if_pos (by omega)]
    rw [Int.toNat_natCast, or_shiftRight (by omega)]
    exact ⟨_, rfl, or_and_511 (by omega)⟩
  · obtain ⟨k, h1, h2⟩ := hT.root (by omega) ((List.take_prefix 10 _).trans hp)
    obtain ⟨N, own, hT⟩ := hT
    obtain ⟨hk, hown⟩ := h2 N own hT
    have h15 := lenOf_le hL.h15 s
    simp only [h1]
    have := node_neg k
    rw [if_neg (by omega), walkTree_ok hT hp 16 10 k hk hown (by omega) (by omega) (by omega)]
    exact ⟨s, by simp, by omega⟩

end

end Npy
