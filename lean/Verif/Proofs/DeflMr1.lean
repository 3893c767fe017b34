import Verif.Proofs.DeflPure
import Mathlib.Algebra.BigOperators.Intervals
import Mathlib.Tactic.Linarith
/-!
# Huffman trees: the first loop of `tdefl_calculate_minimum_redundancy`

The array holds, from left to right, pointers of nodes already used to their parents, weights of nodes not yet used, and the
frequencies of leaves not yet used.
-/

namespace Npy
open Finset

theorem setAt_self {α : Type} (f : Nat → α) (i : Nat) (v : α) : setAt f i v i = v := by simp [setAt]
theorem setAt_ne {α : Type} (f : Nat → α) {i j : Nat} (v : α) (h : j ≠ i) : setAt f i v j = f j := by simp [setAt, h]

/-- Before the round `next`. `W` are the weights of all nodes made so far, `m` the weight used last. -/
structure MrInv (n : Nat) (A0 : Nat → Nat) (total next : Nat) (s : MrState) (W : Nat → Nat) (m : Nat) : Prop where
  cnt : s.root + s.leaf = 2 * next
  leaf_le : s.leaf ≤ n
  root_lt : s.root < next
  ptr : ∀ k < s.root, k < s.A k ∧ s.A k < next
  mono : ∀ j k, j ≤ k → k < s.root → s.A j ≤ s.A k
  twice : ∀ k, k + 2 < s.root → s.A k < s.A (k + 2)
  wt : ∀ k, s.root ≤ k → k < next → s.A k = W k
  lf : ∀ k, s.leaf ≤ k → k < n → s.A k = A0 k
  wmono : ∀ j k, j ≤ k → k < next → W j ≤ W k
  wtop : ∀ k < next, W k ≤ 2 * m
  m_root : ∀ k, s.root ≤ k → k < next → m ≤ W k
  m_leaf : s.leaf < n → m ≤ A0 s.leaf
  m_all : ∀ k < s.root, W k ≤ m
  sum : ∑ k ∈ Ico s.root next, W k + ∑ k ∈ Ico s.leaf n, A0 k = total
  grow : ∀ p < s.root, ∀ k < s.root, s.A k = p → 2 * W k ≤ W (s.A p)
  wpos : ∀ k < next, 2 ≤ W k

/-- After the first half of the round `next`: `x` is used, for one half of the new node. -/
structure MrHalf (n : Nat) (A0 : Nat → Nat) (total next : Nat) (s : MrState) (W : Nat → Nat) (x : Nat) : Prop where
  cnt : s.root + s.leaf = 2 * next + 1
  leaf_le : s.leaf ≤ n
  root_le : s.root ≤ next
  ptr : ∀ k < s.root, k < s.A k ∧ s.A k ≤ next
  ptr2 : ∀ k, k + 1 < s.root → s.A k < next
  mono : ∀ j k, j ≤ k → k < s.root → s.A j ≤ s.A k
  twice : ∀ k, k + 2 < s.root → s.A k < s.A (k + 2)
  top : s.A next = x
  xpos : 1 ≤ x
  wt : ∀ k, s.root ≤ k → k < next → s.A k = W k
  lf : ∀ k, s.leaf ≤ k → k < n → s.A k = A0 k
  wmono : ∀ j k, j ≤ k → k < next → W j ≤ W k
  wtop : ∀ k < next, W k ≤ 2 * x
  m_root : ∀ k, s.root ≤ k → k < next → x ≤ W k
  m_leaf : s.leaf < n → x ≤ A0 s.leaf
  m_all : ∀ k < s.root, W k ≤ x
  sum : x + ∑ k ∈ Ico s.root next, W k + ∑ k ∈ Ico s.leaf n, A0 k = total
  grow : ∀ p < s.root, ∀ k < s.root, s.A k = p → s.A p < next → 2 * W k ≤ W (s.A p)
  wpos : ∀ k < next, 2 ≤ W k

variable {n total next : Nat} {A0 W : Nat → Nat} {s : MrState}

theorem sum_Ico_head (f : Nat → Nat) {a b : Nat} (h : a < b) : ∑ k ∈ Ico a b, f k = f a + ∑ k ∈ Ico (a + 1) b, f k :=
  Finset.sum_eq_sum_Ico_succ_bot h f

theorem MrInv.first {m : Nat} (h : MrInv n A0 total next s W m) (hn : next + 2 ≤ n) (h65 : n ≤ 65536)
    (hsort : ∀ i j, i ≤ j → j < n → A0 i ≤ A0 j) (hpos : ∀ i < n, 1 ≤ A0 i) :
    ∃ x, MrHalf n A0 total next (mrFirstP n next s) W x := by
  have c1 := h.cnt
  have c2 := h.root_lt
  have c3 := h.leaf_le
  have hnext : next % 65536 = next := Nat.mod_eq_of_lt (by omega)
  unfold mrFirstP
  by_cases hc : s.leaf ≥ n ∨ s.A s.root < s.A s.leaf
  · rw [if_pos hc, hnext]
    have hr : s.A s.root = W s.root := h.wt _ le_rfl c2
    have old : ∀ k, k < s.root → setAt (setAt s.A next (s.A s.root)) s.root next k = s.A k := fun k hk => by
      rw [setAt_ne _ _ (by omega), setAt_ne _ _ (by omega)]
    refine ⟨W s.root, ⟨by simp only; omega, c3, by simp only; omega, ?_, ?_, ?_, ?_, ?_, ?_, ?_, ?_, h.wmono, ?_, ?_, ?_, ?_, ?_,
      ?_, h.wpos⟩⟩ <;> try simp only
    case refine_1 =>
      intro k hk
      by_cases hkr : k = s.root
      · subst hkr; rw [setAt_self]; omega
      · rw [old k (by omega)]
        have := h.ptr k (by omega)
        omega
    case refine_2 =>
      intro k hk
      rw [old k (by omega)]
      exact (h.ptr k (by omega)).2
    case refine_3 =>
      intro j k hjk hk
      by_cases hkr : k = s.root
      · subst hkr
        rw [setAt_self]
        by_cases hj : j = s.root
        · subst hj; rw [setAt_self]
        · rw [old j (by omega)]
          have := h.ptr j (by omega)
          omega
      · rw [old k (by omega), old j (by omega)]
        exact h.mono j k hjk (by omega)
    case refine_4 =>
      intro k hk
      rw [old k (by omega)]
      by_cases hkr : k + 2 = s.root
      · rw [hkr, setAt_self]
        exact (h.ptr k (by omega)).2
      · rw [old _ (by omega)]
        exact h.twice k (by omega)
    case refine_5 => rw [setAt_ne _ _ (by omega), setAt_self, hr]
    case refine_6 => have := h.wpos _ c2; omega
    case refine_7 =>
      intro k h1 h2
      rw [setAt_ne _ _ (by omega), setAt_ne _ _ (by omega)]
      exact h.wt k (by omega) h2
    case refine_8 =>
      intro k h1 h2
      rw [setAt_ne _ _ (by omega), setAt_ne _ _ (by omega)]
      exact h.lf k h1 h2
    case refine_9 =>
      intro k hk
      have := h.wtop k hk
      have := h.m_root _ le_rfl c2
      omega
    case refine_10 => intro k h1 h2; exact h.wmono _ _ (by omega) h2
    case refine_11 =>
      intro hl
      have := h.lf s.leaf le_rfl hl
      omega
    case refine_12 =>
      intro k hk
      exact h.wmono _ _ (by omega) c2
    case refine_13 =>
      have := h.sum
      rw [sum_Ico_head W c2] at this
      omega
    case refine_14 =>
      intro p hp k hk e
      by_cases hpr : p = s.root
      · subst hpr; rw [setAt_self]; intro; omega
      · rw [old p (by omega)]
        intro _
        by_cases hkr : k = s.root
        · subst hkr; rw [setAt_self] at e; omega
        · rw [old k (by omega)] at e
          exact h.grow p (by omega) k (by omega) e
  · rw [if_neg hc]
    have hl : s.leaf < n := by omega
    have hr : s.A s.root = W s.root := h.wt _ le_rfl c2
    have hv : s.A s.leaf = A0 s.leaf := h.lf _ le_rfl hl
    have old : ∀ k, k ≠ next → setAt s.A next (s.A s.leaf) k = s.A k := fun k hk => setAt_ne _ _ hk
    refine ⟨A0 s.leaf, ⟨by simp only; omega, by simp only; omega, by simp only; omega, ?_, ?_, ?_, ?_, ?_, ?_, ?_, ?_,
      h.wmono, ?_, ?_, ?_, ?_, ?_, ?_, h.wpos⟩⟩ <;> try simp only
    case refine_1 =>
      intro k hk
      rw [old k (by omega)]
      have := h.ptr k hk
      omega
    case refine_2 =>
      intro k hk
      rw [old k (by omega)]
      exact (h.ptr k (by omega)).2
    case refine_3 =>
      intro j k hjk hk
      rw [old k (by omega), old j (by omega)]
      exact h.mono j k hjk hk
    case refine_4 =>
      intro k hk
      rw [old k (by omega), old _ (by omega)]
      exact h.twice k hk
    case refine_5 => rw [setAt_self, hv]
    case refine_6 => exact hpos _ hl
    case refine_7 =>
      intro k h1 h2
      rw [old k (by omega)]
      exact h.wt k h1 h2
    case refine_8 =>
      intro k h1 h2
      rw [old k (by omega)]
      exact h.lf k (by omega) h2
    case refine_9 =>
      intro k hk
      have := h.wtop k hk
      have := h.m_leaf hl
      omega
    case refine_10 =>
      intro k h1 h2
      have := h.wmono _ _ h1 h2
      omega
    case refine_11 => intro hl'; exact hsort _ _ (by omega) hl'
    case refine_12 =>
      intro k hk
      have := h.m_all k hk
      have := h.m_leaf hl
      omega
    case refine_13 =>
      have := h.sum
      rw [sum_Ico_head A0 hl] at this
      omega
    case refine_14 =>
      intro p hp k hk e
      rw [old p (by omega)]
      rw [old k (by omega)] at e
      intro _
      exact h.grow p hp k hk e

theorem MrHalf.second {x : Nat} (h : MrHalf n A0 total next s W x) (hn : next + 2 ≤ n) (h65 : n ≤ 65536)
    (ht : total < 65536) (hsort : ∀ i j, i ≤ j → j < n → A0 i ≤ A0 j) :
    ∃ W' m, MrInv n A0 total (next + 1) (mrSecondP n next s) W' m := by
  have c1 := h.cnt
  have c2 := h.root_le
  have c3 := h.leaf_le
  have hnext : next % 65536 = next := Nat.mod_eq_of_lt (by omega)
  unfold mrSecondP
  have hxp := h.xpos
  by_cases hc : s.leaf ≥ n ∨ (s.root < next ∧ s.A s.root < s.A s.leaf)
  · have c4 : s.root < next := by omega
    have hr : s.A s.root = W s.root := h.wt _ le_rfl c4
    have hs := h.sum
    rw [sum_Ico_head W c4] at hs
    have hxy : x ≤ W s.root := h.m_root _ le_rfl c4
    have hw : (s.A next + s.A s.root) % 65536 = x + W s.root := by
      rw [h.top, hr]
      exact Nat.mod_eq_of_lt (by omega)
    rw [if_pos hc, hnext, hw]
    have old : ∀ k, k < s.root → setAt (setAt s.A next (x + W s.root)) s.root next k = s.A k := fun k hk => by
      rw [setAt_ne _ _ (by omega), setAt_ne _ _ (by omega)]
    have oldW : ∀ k, k < next → setAt W next (x + W s.root) k = W k := fun k hk => setAt_ne _ _ (by omega)
    refine ⟨setAt W next (x + W s.root), W s.root, ⟨by simp only; omega, c3, by simp only; omega, ?_, ?_, ?_, ?_, ?_, ?_, ?_, ?_,
      ?_, ?_, ?_, ?_, ?_⟩⟩ <;> try simp only
    case refine_1 =>
      intro k hk
      by_cases hkr : k = s.root
      · subst hkr; rw [setAt_self]; omega
      · rw [old k (by omega)]
        have := h.ptr k (by omega)
        omega
    case refine_2 =>
      intro j k hjk hk
      by_cases hkr : k = s.root
      · subst hkr
        rw [setAt_self]
        by_cases hj : j = s.root
        · subst hj; rw [setAt_self]
        · rw [old j (by omega)]
          have := h.ptr j (by omega)
          omega
      · rw [old k (by omega), old j (by omega)]
        exact h.mono j k hjk (by omega)
    case refine_3 =>
      intro k hk
      rw [old k (by omega)]
      by_cases hkr : k + 2 = s.root
      · rw [hkr, setAt_self]
        exact h.ptr2 k (by omega)
      · rw [old _ (by omega)]
        exact h.twice k (by omega)
    case refine_4 =>
      intro k h1 h2
      by_cases hk : k = next
      · subst hk
        rw [setAt_ne _ _ (by omega), setAt_self, setAt_self]
      · rw [setAt_ne _ _ (by omega), setAt_ne _ _ (by omega), setAt_ne _ _ hk]
        exact h.wt k (by omega) (by omega)
    case refine_5 =>
      intro k h1 h2
      rw [setAt_ne _ _ (by omega), setAt_ne _ _ (by omega)]
      exact h.lf k h1 h2
    case refine_6 =>
      intro j k hjk hk
      by_cases hkn : k = next
      · subst hkn
        rw [setAt_self]
        by_cases hj : j = k
        · subst hj; rw [setAt_self]
        · rw [oldW j (by omega)]
          have := h.wtop j (by omega)
          omega
      · rw [oldW j (by omega), oldW k (by omega)]
        exact h.wmono j k hjk (by omega)
    case refine_7 =>
      intro k hk
      by_cases hkn : k = next
      · subst hkn; rw [setAt_self]; omega
      · rw [oldW k (by omega)]
        have := h.wtop k (by omega)
        omega
    case refine_8 =>
      intro k h1 h2
      by_cases hkn : k = next
      · subst hkn; rw [setAt_self]; omega
      · rw [oldW k (by omega)]
        exact h.wmono _ _ (by omega) (by omega)
    case refine_9 =>
      intro hl
      have := h.lf s.leaf le_rfl hl
      omega
    case refine_10 =>
      intro k hk
      rw [oldW k (by omega)]
      exact h.wmono _ _ (by omega) c4
    case refine_11 =>
      rw [Finset.sum_Ico_succ_top (by omega), setAt_self]
      have e2 : ∑ k ∈ Ico (s.root + 1) next, setAt W next (x + W s.root) k = ∑ k ∈ Ico (s.root + 1) next, W k :=
        Finset.sum_congr rfl (fun k hk => oldW k (Finset.mem_Ico.1 hk).2)
      rw [e2]
      omega
    case refine_12 =>
      intro p hp k hk e
      have hkW : W k ≤ W s.root := h.wmono _ _ (by omega) c4
      by_cases hkr : k = s.root
      · subst hkr; rw [setAt_self] at e; omega
      · rw [old k (by omega)] at e
        have hkx := h.m_all k (by omega)
        rw [oldW k (by omega)]
        by_cases hpr : p = s.root
        · subst hpr
          rw [setAt_self, setAt_self]
          omega
        · rw [old p (by omega)]
          by_cases hpn : s.A p = next
          · rw [hpn, setAt_self]; omega
          · have := h.ptr p (by omega)
            rw [oldW _ (by omega)]
            exact h.grow p (by omega) k (by omega) e (by omega)
    case refine_13 =>
      intro k hk
      by_cases hkn : k = next
      · subst hkn; rw [setAt_self]; omega
      · rw [oldW k (by omega)]
        exact h.wpos k (by omega)
  · have hl : s.leaf < n := by omega
    have hv : s.A s.leaf = A0 s.leaf := h.lf _ le_rfl hl
    have hs := h.sum
    rw [sum_Ico_head A0 hl] at hs
    have hxy : x ≤ A0 s.leaf := h.m_leaf hl
    have hw : (s.A next + s.A s.leaf) % 65536 = x + A0 s.leaf := by
      rw [h.top, hv]
      exact Nat.mod_eq_of_lt (by omega)
    rw [if_neg hc, hw]
    have old : ∀ k, k ≠ next → setAt s.A next (x + A0 s.leaf) k = s.A k := fun k hk => setAt_ne _ _ hk
    have oldW : ∀ k, k < next → setAt W next (x + A0 s.leaf) k = W k := fun k hk => setAt_ne _ _ (by omega)
    have hrl : ∀ k, s.root ≤ k → k < next → A0 s.leaf ≤ W k := by
      intro k h1 h2
      have := h.wmono _ _ h1 h2
      have := h.wt s.root le_rfl (by omega)
      have : s.root < next := by omega
      omega
    refine ⟨setAt W next (x + A0 s.leaf), A0 s.leaf, ⟨by simp only; omega, by simp only; omega, by simp only; omega, ?_, ?_, ?_,
      ?_, ?_, ?_, ?_, ?_, ?_, ?_, ?_, ?_, ?_⟩⟩ <;> try simp only
    case refine_1 =>
      intro k hk
      rw [old k (by omega)]
      have := h.ptr k hk
      omega
    case refine_2 =>
      intro j k hjk hk
      rw [old k (by omega), old j (by omega)]
      exact h.mono j k hjk hk
    case refine_3 =>
      intro k hk
      rw [old k (by omega), old _ (by omega)]
      exact h.twice k hk
    case refine_4 =>
      intro k h1 h2
      by_cases hk : k = next
      · subst hk
        rw [setAt_self, setAt_self]
      · rw [old k hk, setAt_ne _ _ hk]
        exact h.wt k h1 (by omega)
    case refine_5 =>
      intro k h1 h2
      rw [old k (by omega)]
      exact h.lf k (by omega) h2
    case refine_6 =>
      intro j k hjk hk
      by_cases hkn : k = next
      · subst hkn
        rw [setAt_self]
        by_cases hj : j = k
        · subst hj; rw [setAt_self]
        · rw [oldW j (by omega)]
          have := h.wtop j (by omega)
          omega
      · rw [oldW j (by omega), oldW k (by omega)]
        exact h.wmono j k hjk (by omega)
    case refine_7 =>
      intro k hk
      by_cases hkn : k = next
      · subst hkn; rw [setAt_self]; omega
      · rw [oldW k (by omega)]
        have := h.wtop k (by omega)
        omega
    case refine_8 =>
      intro k h1 h2
      by_cases hkn : k = next
      · subst hkn; rw [setAt_self]; omega
      · rw [oldW k (by omega)]
        exact hrl k h1 (by omega)
    case refine_9 => intro hl'; exact hsort _ _ (by omega) hl'
    case refine_10 =>
      intro k hk
      rw [oldW k (by omega)]
      have := h.m_all k hk
      omega
    case refine_11 =>
      rw [Finset.sum_Ico_succ_top (by omega), setAt_self]
      have e2 : ∑ k ∈ Ico s.root next, setAt W next (x + A0 s.leaf) k = ∑ k ∈ Ico s.root next, W k :=
        Finset.sum_congr rfl (fun k hk => oldW k (Finset.mem_Ico.1 hk).2)
      rw [e2]
      omega
    case refine_12 =>
      intro p hp k hk e
      rw [old k (by omega)] at e
      have hkx := h.m_all k (by omega)
      rw [oldW k (by omega), old p (by omega)]
      by_cases hpn : s.A p = next
      · rw [hpn, setAt_self]; omega
      · have := h.ptr p (by omega)
        rw [oldW _ (by omega)]
        exact h.grow p (by omega) k (by omega) e (by omega)
    case refine_13 =>
      intro k hk
      by_cases hkn : k = next
      · subst hkn; rw [setAt_self]; omega
      · rw [oldW k (by omega)]
        exact h.wpos k (by omega)

theorem mrTree_inv (k : Nat) {m : Nat} (h : MrInv n A0 total next s W m) (hk : next + k + 1 = n) (h65 : n ≤ 65536)
    (ht : total < 65536) (hsort : ∀ i j, i ≤ j → j < n → A0 i ≤ A0 j) (hpos : ∀ i < n, 1 ≤ A0 i) :
    mrTree n k next s = .ok (mrTreeP n k next s) ∧ ∃ W' m', MrInv n A0 total (n - 1) (mrTreeP n k next s) W' m' := by
  induction k generalizing next s W m with
  | zero =>
    rw [mrTreeP]
    exact ⟨rfl, W, m, by rwa [show n - 1 = next by omega]⟩
  | succ k ih =>
    rw [mrTreeP, mrTree, mrFirst_pure (by have := h.root_lt; omega) (by omega), ok_bind]
    obtain ⟨x, h1⟩ := h.first (by omega) h65 hsort hpos
    rw [mrSecond_pure (by have := h1.root_le; omega) (by omega), ok_bind]
    obtain ⟨W1, m1, h2⟩ := h1.second (by omega) h65 ht hsort
    exact ih h2 (by omega)

/-- The tree: parents, ordered, at most two children each; weights double over two levels. -/
structure MrTree (n total : Nat) (P W : Nat → Nat) : Prop where
  up : ∀ k < n - 2, k < P k ∧ P k ≤ n - 2
  mono : ∀ j k, j ≤ k → k < n - 2 → P j ≤ P k
  twice : ∀ k, k + 2 < n - 2 → P k < P (k + 2)
  wmono : ∀ j k, j ≤ k → k ≤ n - 2 → W j ≤ W k
  wpos : ∀ k ≤ n - 2, 2 ≤ W k
  wtop : W (n - 2) = total
  grow : ∀ k < n - 2, P k < n - 2 → 2 * W k ≤ W (P (P k))

theorem mrTree_tree (hn : 2 ≤ n) (h65 : n ≤ 65536) (hsum : ∑ k ∈ range n, A0 k = total) (ht : total < 65536)
    (hsort : ∀ i j, i ≤ j → j < n → A0 i ≤ A0 j) (hpos : ∀ i < n, 1 ≤ A0 i) :
    mrTree n (n - 2) 1 { A := setAt A0 0 ((A0 0 + A0 1) % 65536), root := 0, leaf := 2 } =
        .ok (mrTreeP n (n - 2) 1 { A := setAt A0 0 ((A0 0 + A0 1) % 65536), root := 0, leaf := 2 }) ∧
      ∃ W, MrTree n total (mrTreeP n (n - 2) 1 { A := setAt A0 0 ((A0 0 + A0 1) % 65536), root := 0, leaf := 2 }).A W := by
  have hs : A0 0 + A0 1 + ∑ k ∈ Ico 2 n, A0 k = total := by
    rw [Finset.range_eq_Ico, sum_Ico_head A0 (by omega), sum_Ico_head A0 (by omega)] at hsum
    norm_num at hsum
    omega
  have h0 : (A0 0 + A0 1) % 65536 = A0 0 + A0 1 := Nat.mod_eq_of_lt (by omega)
  rw [h0]
  have p0 := hpos 0 (by omega)
  have p1 := hpos 1 (by omega)
  have p01 := hsort 0 1 (by omega) (by omega)
  have init : MrInv n A0 total 1 { A := setAt A0 0 (A0 0 + A0 1), root := 0, leaf := 2 } (fun _ => A0 0 + A0 1) (A0 1) := by
    refine ⟨rfl, hn, by simp, ?_, ?_, ?_, ?_, ?_, ?_, ?_, ?_, ?_, ?_, ?_, ?_, ?_⟩ <;> try simp only
    case refine_1 => intro k hk; omega
    case refine_2 => intro j k _ hk; omega
    case refine_3 => intro k hk; omega
    case refine_4 =>
      intro k _ hk
      obtain rfl : k = 0 := by omega
      rw [setAt_self]
    case refine_5 => intro k hk _; rw [setAt_ne _ _ (by omega)]
    case refine_6 => intros; omega
    case refine_7 => intros; omega
    case refine_8 => intros; omega
    case refine_9 => intro h2; exact hsort _ _ (by omega) h2
    case refine_10 => intros; omega
    case refine_11 => simpa using hs
    case refine_12 => intros; omega
    case refine_13 => intros; omega
  obtain ⟨hok, W, m, h⟩ := mrTree_inv (n - 2) init (by omega) h65 ht hsort hpos
  refine ⟨hok, ?_⟩
  clear hok
  generalize mrTreeP n (n - 2) 1 { A := setAt A0 0 (A0 0 + A0 1), root := 0, leaf := 2 } = s at *
  have c1 := h.cnt
  have c2 := h.root_lt
  have c3 := h.leaf_le
  have er : s.root = n - 2 := by omega
  have el : s.leaf = n := by omega
  refine ⟨W, ⟨?_, ?_, ?_, ?_, ?_, ?_, ?_⟩⟩
  · intro k hk
    have := h.ptr k (by omega)
    omega
  · intro j k hjk hk
    exact h.mono j k hjk (by omega)
  · intro k hk
    exact h.twice k (by omega)
  · intro j k hjk hk
    exact h.wmono j k hjk (by omega)
  · intro k hk
    exact h.wpos k (by omega)
  · have := h.sum
    rw [er, el, sum_Ico_head W (by omega), show n - 2 + 1 = n - 1 by omega] at this
    simpa using this
  · intro k hk hp
    exact h.grow _ (by omega) k (by omega) rfl

end Npy
