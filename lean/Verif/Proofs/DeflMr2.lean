import Verif.Proofs.DeflMr1
import Mathlib.Data.Nat.Cast.Basic
/-!
# Huffman trees: depths of the nodes, and the lengths of the codes
-/

namespace Npy
open Finset

theorem mrDepths_ge (k : Nat) (A : Nat → Nat) (i : Nat) (h : k ≤ i) : mrDepthsP k A i = A i := by
  induction k generalizing A with
  | zero => rfl
  | succ k ih => rw [mrDepthsP, ih _ (by omega), setAt_ne _ _ (by omega)]

theorem mrDepths_lt (k : Nat) (A : Nat → Nat) (hA : ∀ j < k, j < A j) (j : Nat) (hj : j < k) :
    mrDepthsP k A j = (mrDepthsP k A (A j) + 1) % 65536 := by
  induction k generalizing A with
  | zero => omega
  | succ k ih =>
    rw [mrDepthsP]
    by_cases hjk : j = k
    · subst hjk
      have := hA j (by omega)
      rw [mrDepths_ge _ _ _ le_rfl, setAt_self, mrDepths_ge _ _ _ (by omega), setAt_ne _ _ (by omega)]
    · have e : setAt A k ((A (A k) + 1) % 65536) j = A j := setAt_ne _ _ hjk
      have := ih (setAt A k ((A (A k) + 1) % 65536))
        (fun i hi => by rw [setAt_ne _ _ (by omega)]; exact hA i (by omega)) (by omega)
      rw [e] at this
      exact this

/-- The pointers stay in the array. -/
theorem mrDepths_pure (n k : Nat) (A : Nat → Nat) (hk : k ≤ n) (hA : ∀ j < k, A j < n) :
    mrDepths n k A = .ok (mrDepthsP k A) := by
  induction k generalizing A with
  | zero => rfl
  | succ k ih =>
    rw [mrDepths, mrDepthsP, rdArr_ok _ (by omega), ok_bind, rdArr_ok _ (hA k (by omega)), ok_bind, wrArr_ok _ _ (by omega), ok_bind]
    exact ih _ (by omega) (fun j hj => by rw [setAt_ne _ _ (by omega)]; exact hA j (by omega))

/-- Depths in a tree. -/
structure MrDepth (n : Nat) (P D : Nat → Nat) : Prop where
  top : D (n - 2) = 0
  step : ∀ k < n - 2, D k = D (P k) + 1

variable {n total : Nat} {P W D : Nat → Nat}

theorem mrDepths_depth (hn : 2 ≤ n) (h65 : n ≤ 65536) (h : MrTree n total P W) :
    MrDepth n P (mrDepthsP (n - 2) (setAt P (n - 2) 0)) := by
  have hP : ∀ j < n - 2, setAt P (n - 2) 0 j = P j := fun j hj => setAt_ne _ _ (by omega)
  have hlt : ∀ j < n - 2, j < setAt P (n - 2) 0 j := fun j hj => by rw [hP j hj]; exact (h.up j hj).1
  have htop : mrDepthsP (n - 2) (setAt P (n - 2) 0) (n - 2) = 0 := by rw [mrDepths_ge _ _ _ le_rfl, setAt_self]
  have hstep : ∀ k < n - 2, mrDepthsP (n - 2) (setAt P (n - 2) 0) k =
      (mrDepthsP (n - 2) (setAt P (n - 2) 0) (P k) + 1) % 65536 := fun k hk => by
    rw [mrDepths_lt _ _ hlt k hk, hP k hk]
  generalize mrDepthsP (n - 2) (setAt P (n - 2) 0) = D at *
  have hb : ∀ i k, k + i = n - 2 → D k ≤ i := by
    intro i
    induction i using Nat.strong_induction_on with
    | _ i ih =>
      intro k hk
      by_cases h0 : i = 0
      · obtain rfl : k = n - 2 := by omega
        omega
      · have h1 := h.up k (by omega)
        have h2 := ih (n - 2 - P k) (by omega) (P k) (by omega)
        have h3 := hstep k (by omega)
        rw [h3]
        have := Nat.mod_le (D (P k) + 1) 65536
        omega
  refine ⟨htop, fun k hk => ?_⟩
  have h1 := h.up k hk
  have h2 := hb (n - 2 - P k) (P k) (by omega)
  rw [hstep k hk]
  exact Nat.mod_eq_of_lt (by omega)

theorem MrDepth.anti (hD : MrDepth n P D) (h : MrTree n total P W) {j k : Nat} (hjk : j ≤ k) (hk : k ≤ n - 2) : D k ≤ D j := by
  generalize hi : n - 2 - j = i
  induction i using Nat.strong_induction_on generalizing j k with
  | _ i ih =>
    by_cases h0 : k = n - 2
    · subst h0; rw [hD.top]; omega
    · rw [hD.step k (by omega), hD.step j (by omega)]
      have h1 := h.up j (by omega)
      have h2 := h.up k (by omega)
      have h3 := h.mono j k hjk (by omega)
      have := ih (n - 2 - P j) (by omega) h3 h2.2 rfl
      omega

/-- The weights grow towards the root. -/
theorem MrDepth.weight (hD : MrDepth n P D) (h : MrTree n total P W) {k : Nat} (hk : k ≤ n - 2) :
    2 ^ (D k / 2) * W k ≤ total := by
  generalize hi : D k = i
  induction i using Nat.strong_induction_on generalizing k with
  | _ i ih =>
    have hw : W k ≤ total := by rw [← h.wtop]; exact h.wmono _ _ hk le_rfl
    by_cases h2 : i < 2
    · rw [show i / 2 = 0 by omega]
      omega
    · have hk2 : k < n - 2 := by
        rcases Nat.lt_or_ge k (n - 2) with h3 | h3
        · exact h3
        · obtain rfl : k = n - 2 := by omega
          have := hD.top
          omega
      have hp := h.up k hk2
      have e1 := hD.step k hk2
      have hp2 : P k < n - 2 := by
        rcases Nat.lt_or_ge (P k) (n - 2) with h3 | h3
        · exact h3
        · have e : P k = n - 2 := by omega
          rw [e, hD.top] at e1
          omega
      have e2 := hD.step _ hp2
      have hq := h.up _ hp2
      have := ih (D (P (P k))) (by omega) hq.2 rfl
      have hg := h.grow k hk2 hp2
      have e : i / 2 = D (P (P k)) / 2 + 1 := by omega
      rw [e, pow_succ, mul_assoc]
      exact le_trans (Nat.mul_le_mul_left _ hg) this

theorem MrDepth.le30 (hD : MrDepth n P D) (h : MrTree n total P W) (ht : total < 65536) {k : Nat} (hk : k ≤ n - 2) :
    D k ≤ 30 := by
  by_contra hc
  have h1 := hD.weight h hk
  have h2 := h.wpos k hk
  have h3 : 2 ^ 15 ≤ 2 ^ (D k / 2) := Nat.pow_le_pow_right (by norm_num) (by omega)
  have : 2 ^ 15 * 2 ≤ 2 ^ (D k / 2) * W k := Nat.mul_le_mul h3 h2
  omega

theorem mrUse_spec (A : Nat → Nat) (d r u : Nat) :
    (mrUse A d r u).1 ≤ r ∧ (mrUse A d r u).2 = u + (r - (mrUse A d r u).1) ∧
    (∀ k, (mrUse A d r u).1 ≤ k → k < r → A k = d) ∧ ((mrUse A d r u).1 ≠ 0 → A ((mrUse A d r u).1 - 1) ≠ d) := by
  induction r generalizing u with
  | zero => simp [mrUse]
  | succ r ih =>
    rw [mrUse]
    split
    · rename_i h
      obtain ⟨h1, h2, h3, h4⟩ := ih (u + 1)
      refine ⟨by omega, by omega, fun k hk1 hk2 => ?_, h4⟩
      by_cases e : k = r
      · subst e; exact h
      · exact h3 k hk1 (by omega)
    · rename_i h
      exact ⟨le_rfl, by simp, fun k h1 h2 => by simp only at h1; omega, fun _ => by simpa using h⟩

theorem mrFill_ok (d k next1 : Nat) (A : Nat → Nat) (hk : k ≤ next1) (hd : d < 65536) :
    ∃ A', mrFill d k next1 A = .ok (next1 - k, A') ∧ (∀ i, i < next1 - k → A' i = A i) ∧
      (∀ i, next1 ≤ i → A' i = A i) ∧ ∀ i, next1 - k ≤ i → i < next1 → A' i = d := by
  induction k generalizing next1 A with
  | zero => exact ⟨A, rfl, fun _ _ => rfl, fun _ _ => rfl, fun i h1 h2 => by omega⟩
  | succ k ih =>
    cases next1 with
    | zero => omega
    | succ m =>
      rw [mrFill, Nat.mod_eq_of_lt hd]
      obtain ⟨A', h1, h2, h3, h4⟩ := ih m (setAt A m d) (by omega)
      refine ⟨A', by rw [h1, show m + 1 - (k + 1) = m - k by omega], fun i hi => ?_, fun i hi => ?_, fun i hi1 hi2 => ?_⟩
      · rw [h2 i (by omega), setAt_ne _ _ (by omega)]
      · rw [h3 i (by omega), setAt_ne _ _ (by omega)]
      · by_cases e : i = m
        · subst e; rw [h3 _ le_rfl, setAt_self]
        · exact h4 i (by omega) (by omega)

/-- Before the level `d + 1` of the third loop: `up` nodes of the level `d`, `r` nodes below, `2 * up + r` leaves to go. -/
structure MrLvl (n M : Nat) (D : Nat → Nat) (up r next1 d : Nat) (A : Nat → Nat) : Prop where
  fits : r + up ≤ n - 1
  cur : ∀ k, r ≤ k → k < r + up → D k = d
  above : ∀ k, r + up ≤ k → k ≤ n - 2 → D k < d
  below : ∀ k < r, d < D k
  next : next1 = 2 * up + r
  keep : ∀ k < r, A k = D k
  done : up = 0 → r = 0
  depth : up ≠ 0 → d + 1 ≤ M
  le : next1 ≤ n
  sizes : ∀ i, next1 ≤ i → i < n → 1 ≤ A i ∧ A i ≤ M
  kraft : ∑ i ∈ Ico next1 n, 2 ^ (M - A i) + up * 2 ^ (M - d) = 2 ^ M

theorem half_le (h : MrTree n total P W) {a b : Nat} (hab : a < b) (hb : b ≤ n - 2) : P a + (b - 1 - a) / 2 ≤ P (b - 1) := by
  generalize hi : b - 1 - a = i
  induction i using Nat.strong_induction_on generalizing b with
  | _ i ih =>
    by_cases h2 : i < 2
    · rw [show i / 2 = 0 by omega]
      exact h.mono _ _ (by omega) (by omega)
    · have := ih (i - 2) (by omega) (b := b - 2) (by omega) (by omega) (by omega)
      have ht := h.twice (b - 3) (by omega)
      rw [show b - 2 - 1 = b - 3 by omega] at this
      rw [show b - 3 + 2 = b - 1 by omega] at ht
      omega

theorem mrLevels_ok (h : MrTree n total P W) (hD : MrDepth n P D) (hn : 2 ≤ n) (M : Nat) (hM : M < 65536)
    (hDM : ∀ k ≤ n - 2, D k + 1 ≤ M) (f : Nat) {up r next1 d : Nat} {A : Nat → Nat} (hl : MrLvl n M D up r next1 d A)
    (hf : (up ≠ 0 → r + 2 ≤ f) ∧ 1 ≤ f) :
    ∃ A', mrLevels f (2 * up) r next1 (d + 1) A = .ok A' ∧ (∀ i < n, 1 ≤ A' i ∧ A' i ≤ M) ∧
      ∑ i ∈ range n, 2 ^ (M - A' i) = 2 ^ M := by
  induction f generalizing up r next1 d A with
  | zero => omega
  | succ f ih =>
    rw [mrLevels]
    by_cases h0 : up = 0
    · rw [if_pos (by omega)]
      have hr := hl.done h0
      have hx := hl.next
      have e : next1 = 0 := by omega
      subst h0 hr e
      refine ⟨A, rfl, fun i hi => hl.sizes i (by omega) hi, ?_⟩
      have := hl.kraft
      rw [Finset.range_eq_Ico]
      omega
    · rw [if_neg (by omega)]
      obtain ⟨u1, u2, u3, u4⟩ := mrUse_spec A (d + 1) r 0
      generalize (mrUse A (d + 1) r 0).1 = r' at *
      generalize (mrUse A (d + 1) r 0).2 = used at *
      have c1 := hl.fits
      have c2 := hl.next
      have c3 := hl.le
      have hdM := hl.depth h0
      -- the nodes of this level
      have hcur : ∀ k, r' ≤ k → k < r → D k = d + 1 := fun k h1 h2 => by rw [← hl.keep k h2]; exact u3 k h1 h2
      have hbel : ∀ k < r', d + 1 < D k := by
        intro k hk
        have h1 := hl.below (r' - 1) (by omega)
        have h2 := u4 (by omega)
        rw [hl.keep _ (by omega)] at h2
        have h3 := hD.anti h (j := k) (k := r' - 1) (by omega) (by omega)
        omega
      -- at most two per parent
      have hused : used ≤ 2 * up := by
        by_cases hu : used = 0
        · omega
        · have hpa := half_le h (a := r') (b := r) (by omega) (by omega)
          have s1 := hD.step r' (by omega)
          have s2 := hD.step (r - 1) (by omega)
          have t1 := hcur r' le_rfl (by omega)
          have t2 := hcur (r - 1) (by omega) (by omega)
          have q1 : r ≤ P r' := by
            by_contra hc
            have := hl.below (P r') (by omega)
            omega
          have q2 : P (r - 1) < r + up := by
            by_contra hc
            have := hl.above (P (r - 1)) (by omega) (h.up (r - 1) (by omega)).2
            omega
          omega
      have hr0 : used = 0 → r' = 0 := by
        intro hu
        by_contra hc
        have h1 := hbel (r' - 1) (by omega)
        have s1 := hD.step (r' - 1) (by omega)
        have hp := h.up (r' - 1) (by omega)
        by_cases hlt : P (r' - 1) < r + up
        · have := hl.cur (P (r' - 1)) (by omega) hlt
          omega
        · have := hl.above (P (r' - 1)) (by omega) hp.2
          omega
      obtain ⟨A', f1, f2, f3, f4⟩ := mrFill_ok (d + 1) (2 * up - used) next1 A (by omega) (by omega)
      rw [f1]
      simp only
      refine ih (up := used) ⟨by omega, fun k h1 h2 => hcur k h1 (by omega), ?_, hbel, by omega, ?_, hr0, ?_, by omega, ?_, ?_⟩ ?_
      · intro k h1 h2
        by_cases hlt : k < r + up
        · have := hl.cur k (by omega) hlt
          omega
        · have := hl.above k (by omega) h2
          omega
      · intro k hk
        rw [f2 k (by omega)]
        exact hl.keep k (by omega)
      · intro hu
        have := hDM (r - 1) (by omega)
        have := hcur (r - 1) (by omega) (by omega)
        omega
      · intro i h1 h2
        by_cases hi : i < next1
        · rw [f4 i h1 hi]; omega
        · rw [f3 i (by omega)]
          exact hl.sizes i (by omega) h2
      · have hk := hl.kraft
        rw [← Finset.sum_Ico_consecutive _ (show next1 - (2 * up - used) ≤ next1 by omega) c3]
        have e1 : ∑ i ∈ Ico (next1 - (2 * up - used)) next1, 2 ^ (M - A' i) = (2 * up - used) * 2 ^ (M - (d + 1)) := by
          rw [Finset.sum_congr rfl (g := fun _ => 2 ^ (M - (d + 1)))
            (fun i hi => by rw [f4 i (Finset.mem_Ico.1 hi).1 (Finset.mem_Ico.1 hi).2])]
          rw [Finset.sum_const, Nat.card_Ico, nsmul_eq_mul, Nat.cast_id]
          congr 1
          omega
        have e2 : ∑ i ∈ Ico next1 n, 2 ^ (M - A' i) = ∑ i ∈ Ico next1 n, 2 ^ (M - A i) :=
          Finset.sum_congr rfl (fun i hi => by rw [f3 i (Finset.mem_Ico.1 hi).1])
        have e3 : 2 ^ (M - d) = 2 * 2 ^ (M - (d + 1)) := by
          rw [← pow_succ']
          congr 1
          omega
        rw [e1, e2, ← hk, e3]
        have e4 : (2 * up - used) * 2 ^ (M - (d + 1)) + used * 2 ^ (M - (d + 1)) = up * (2 * 2 ^ (M - (d + 1))) := by
          rw [← Nat.add_mul, show 2 * up - used + used = up * 2 by omega, mul_assoc]
        omega
      · refine ⟨fun hu => ?_, ?_⟩
        · have := hf.1 h0; omega
        · have := hf.1 h0; omega

/-- The sizes that are found are those of a full tree. -/
theorem minRedundancy_ok {A0 : Nat → Nat} (hn : 2 ≤ n) (h65 : n ≤ 65536) (hsum : ∑ k ∈ range n, A0 k < 65536)
    (hsort : ∀ i j, i ≤ j → j < n → A0 i ≤ A0 j) (hpos : ∀ i < n, 1 ≤ A0 i) :
    ∃ A, minRedundancy n A0 = .ok A ∧ (∀ i < n, 1 ≤ A i ∧ A i ≤ 32) ∧ ∑ i ∈ range n, 2 ^ (32 - A i) = 2 ^ 32 := by
  obtain ⟨hok, W, h⟩ := mrTree_tree hn h65 rfl hsum hsort hpos
  unfold minRedundancy
  rw [if_neg (by omega), if_neg (by omega)]
  rw [hok, ok_bind]
  rw [mrDepths_pure n (n - 2) _ (by omega) (fun j hj => by rw [setAt_ne _ _ (by omega)]; have := h.up j hj; omega), ok_bind]
  generalize (mrTreeP n (n - 2) 1 { A := setAt A0 0 ((A0 0 + A0 1) % 65536), root := 0, leaf := 2 }).A = P at *
  have hD := mrDepths_depth hn h65 h
  have e1 : mrUse (mrDepthsP (n - 2) (setAt P (n - 2) 0)) 0 (n - 1) 0 = (n - 2, 1) := by
    have hD' := hD
    generalize mrDepthsP (n - 2) (setAt P (n - 2) 0) = D at *
    obtain ⟨m, rfl⟩ : ∃ m, n = m + 2 := ⟨n - 2, by omega⟩
    simp only [show m + 2 - 1 = m + 1 by omega, show m + 2 - 2 = m by omega] at *
    rw [mrUse, if_pos (by have := hD'.top; simpa using this)]
    cases m with
    | zero => rfl
    | succ k => rw [mrUse, if_neg (by rw [hD'.step k (by omega)]; omega)]
  rw [mrLevels, if_neg (by omega), e1]
  simp only [Nat.sub_self, mrFill]
  have hlv := mrLevels_ok h hD hn 32 (by omega) (fun k hk => by have := hD.le30 h hsum hk; omega) n (up := 1) (r := n - 2)
    (next1 := n) (d := 0) (A := mrDepthsP (n - 2) (setAt P (n - 2) 0))
  refine hlv ⟨by omega, ?_, ?_, ?_, by omega, fun _ _ => rfl, by omega, by omega, le_rfl, ?_, ?_⟩ ⟨by omega, by omega⟩
  · intro k h1 h2
    obtain rfl : k = n - 2 := by omega
    exact hD.top
  · intro k h1 h2; omega
  · intro k hk
    rw [hD.step k hk]; omega
  · intro i h1 h2; omega
  · simp

end Npy
