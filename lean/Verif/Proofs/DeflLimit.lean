import Verif.Proofs.DeflMr2
import Mathlib.Algebra.BigOperators.Ring.Finset
import Mathlib.Algebra.Order.BigOperators.Group.Finset
import Mathlib.Tactic.Ring
/-!
# Huffman codes: the limit on the length of codes
-/

namespace Npy
open Finset

theorem sum_range' (a k : Nat) (f : Nat → Nat) : ((List.range' a k).map f).sum = ∑ i ∈ Ico a (a + k), f i := by
  induction k generalizing a with
  | zero => simp
  | succ k ih =>
    rw [List.range'_succ, List.map_cons, List.sum_cons, ih, sum_Ico_head f (show a < a + (k + 1) by omega),
      show a + 1 + k = a + (k + 1) by omega]

theorem sum_setAt (s : Finset Nat) (f w : Nat → Nat) (i v : Nat) (hi : i ∈ s) :
    ∑ k ∈ s, setAt f i v k * w k + f i * w i = ∑ k ∈ s, f k * w k + v * w i := by
  rw [← Finset.add_sum_erase s _ hi, ← Finset.add_sum_erase s (fun k => f k * w k) hi, setAt_self]
  have : ∑ k ∈ s.erase i, setAt f i v k * w k = ∑ k ∈ s.erase i, f k * w k :=
    Finset.sum_congr rfl (fun k hk => by rw [setAt_ne _ _ (Finset.ne_of_mem_erase hk)])
  rw [this]
  ring

theorem sum_setAt_not (s : Finset Nat) (f w : Nat → Nat) (i v : Nat) (hi : i ∉ s) :
    ∑ k ∈ s, setAt f i v k * w k = ∑ k ∈ s, f k * w k :=
  Finset.sum_congr rfl (fun k hk => by rw [setAt_ne _ _ (by rintro rfl; exact hi hk)])

theorem findShorter_some {num : Nat → Nat} {k i : Nat} (h : findShorter num k = some i) : 1 ≤ i ∧ i ≤ k ∧ num i ≠ 0 := by
  induction k with
  | zero => simp [findShorter] at h
  | succ k ih =>
    rw [findShorter] at h
    split at h
    · simp only [Option.some.injEq] at h
      subst h
      exact ⟨by omega, le_rfl, by assumption⟩
    · have := ih h
      omega

theorem findShorter_none {num : Nat → Nat} {k : Nat} (h : findShorter num k = none) (i : Nat) (h1 : 1 ≤ i) (h2 : i ≤ k) :
    num i = 0 := by
  induction k with
  | zero => omega
  | succ k ih =>
    rw [findShorter] at h
    split at h
    · simp at h
    · by_cases e : i = k + 1
      · subst e; omega
      · exact ih h (by omega)

/-- Codes shorter than the limit: their weight and number. -/
def shortW (num : Nat → Nat) (limit : Nat) : Nat := ∑ i ∈ Ico 1 limit, num i * 2 ^ (limit - i)
def shortC (num : Nat → Nat) (limit : Nat) : Nat := ∑ i ∈ Ico 1 limit, num i * 1

theorem shortW_set (num : Nat → Nat) (limit v : Nat) : shortW (setAt num limit v) limit = shortW num limit :=
  sum_setAt_not _ _ _ _ _ (by simp)
theorem shortC_set (num : Nat → Nat) (limit v : Nat) : shortC (setAt num limit v) limit = shortC num limit :=
  sum_setAt_not _ _ _ _ _ (by simp)

theorem enforceLoop_ok (limit n : Nat) (hl : 1 ≤ limit) (hn : n ≤ 2 ^ limit) (f total : Nat) (num : Nat → Nat)
    (ht : total = shortW num limit + num limit) (hc : n = shortC num limit + num limit) (hge : 2 ^ limit ≤ total)
    (hs : shortW num limit ≤ 2 ^ limit) (hf : total < f + 2 ^ limit) :
    ∃ num', enforceLoop limit f total num = .ok num' ∧ n = shortC num' limit + num' limit ∧
      shortW num' limit + num' limit = 2 ^ limit := by
  induction f generalizing total num with
  | zero => omega
  | succ f ih =>
    rw [enforceLoop]
    by_cases he : total = 2 ^ limit
    · rw [if_pos he]
      exact ⟨num, rfl, hc, by omega⟩
    · rw [if_neg he, if_neg (by omega)]
      set num1 := setAt num limit (num limit - 1) with hnum1
      have e1 : num1 limit = num limit - 1 := setAt_self _ _ _
      have e2 : shortW num1 limit = shortW num limit := shortW_set _ _ _
      have e3 : shortC num1 limit = shortC num limit := shortC_set _ _ _
      have hstep : ∃ i, findShorter num1 (limit - 1) = some i := by
        cases hfs : findShorter num1 (limit - 1) with
        | some i => exact ⟨i, rfl⟩
        | none =>
          exfalso
          have hz := findShorter_none hfs
          have z1 : shortW num1 limit = 0 := Finset.sum_eq_zero fun i hi => by
            rw [hz i (Finset.mem_Ico.1 hi).1 (by have := (Finset.mem_Ico.1 hi).2; omega), Nat.zero_mul]
          have z2 : shortC num1 limit = 0 := Finset.sum_eq_zero fun i hi => by
            rw [hz i (Finset.mem_Ico.1 hi).1 (by have := (Finset.mem_Ico.1 hi).2; omega), Nat.zero_mul]
          omega
      obtain ⟨i, hi⟩ := hstep
      obtain ⟨i1, i2, i3⟩ := findShorter_some hi
      rw [splitShorter, hi]
      simp only
      set num2 := setAt num1 i (num1 i - 1) with hnum2
      have mi : i ∈ Ico 1 limit := Finset.mem_Ico.2 ⟨i1, by omega⟩
      have w2 : shortW num2 limit + num1 i * 2 ^ (limit - i) = shortW num1 limit + (num1 i - 1) * 2 ^ (limit - i) :=
        sum_setAt _ _ _ _ _ mi
      have c2 : shortC num2 limit + num1 i * 1 = shortC num1 limit + (num1 i - 1) * 1 :=
        sum_setAt _ _ (fun _ => 1) _ _ mi
      have hm : num1 i * 2 ^ (limit - i) = (num1 i - 1) * 2 ^ (limit - i) + 2 ^ (limit - i) := by
        obtain ⟨a, ha⟩ : ∃ a, num1 i = a + 1 := ⟨num1 i - 1, by omega⟩
        rw [ha, Nat.add_sub_cancel]
        ring
      have hp : 2 ^ (limit - i) = 2 * 2 ^ (limit - (i + 1)) := by
        rw [← pow_succ']
        congr 1
        omega
      by_cases hlast : i + 1 = limit
      · have n2 : num2 (i + 1) = num limit - 1 := by
          rw [hnum2, setAt_ne _ _ (by omega), hlast, e1]
        rw [hlast] at hp ⊢
        rw [hlast] at n2
        have w3 := shortW_set num2 limit (num2 limit + 2)
        have c3 := shortC_set num2 limit (num2 limit + 2)
        have l3 : setAt num2 limit (num2 limit + 2) limit = num2 limit + 2 := setAt_self _ _ _
        have : 2 ^ (limit - limit) = 1 := by simp
        refine ih (total - 1) _ ?_ ?_ (by omega) ?_ (by omega)
        · rw [w3, l3]; omega
        · rw [c3, l3]; omega
        · rw [w3]; omega
      · have mi2 : i + 1 ∈ Ico 1 limit := Finset.mem_Ico.2 ⟨by omega, by omega⟩
        have w3 : shortW (setAt num2 (i + 1) (num2 (i + 1) + 2)) limit + num2 (i + 1) * 2 ^ (limit - (i + 1)) =
          shortW num2 limit + (num2 (i + 1) + 2) * 2 ^ (limit - (i + 1)) := sum_setAt _ _ _ _ _ mi2
        have c3 : shortC (setAt num2 (i + 1) (num2 (i + 1) + 2)) limit + num2 (i + 1) * 1 =
          shortC num2 limit + (num2 (i + 1) + 2) * 1 := sum_setAt _ _ (fun _ => 1) _ _ mi2
        have l3 : setAt num2 (i + 1) (num2 (i + 1) + 2) limit = num limit - 1 := by
          rw [setAt_ne _ _ (by omega), hnum2, setAt_ne _ _ (by omega), e1]
        have hm3 : (num2 (i + 1) + 2) * 2 ^ (limit - (i + 1)) =
            num2 (i + 1) * 2 ^ (limit - (i + 1)) + 2 * 2 ^ (limit - (i + 1)) := by ring
        refine ih (total - 1) _ ?_ ?_ (by omega) ?_ (by omega)
        · rw [l3]; omega
        · rw [l3]; omega
        · omega

/-- Code lengths of a full tree are changed into code lengths of a full tree within the limit. -/
theorem enforce_ok (num : Nat → Nat) (n limit : Nat) (hl : 1 ≤ limit) (hl2 : limit ≤ 32) (hn2 : 2 ≤ n) (hn : n ≤ 2 ^ limit)
    (hcount : ∑ i ∈ Ico 1 33, num i = n) (hk : ∑ i ∈ Ico 1 33, num i * 2 ^ (32 - i) = 2 ^ 32) :
    ∃ num', enforceMaxCodeSize num n limit = .ok num' ∧ ∑ i ∈ Ico 1 (limit + 1), num' i = n ∧
      ∑ i ∈ Ico 1 (limit + 1), num' i * 2 ^ (limit - i) = 2 ^ limit := by
  unfold enforceMaxCodeSize
  rw [if_neg (by omega)]
  simp only
  set num1 := lumpLong num limit with hnum1
  have e0 : num1 limit = num limit + ∑ i ∈ Ico (limit + 1) 33, num i := by
    rw [hnum1, lumpLong, setAt_self, sum_range', show limit + 1 + (32 - limit) = 33 by omega]
  have eW : shortW num1 limit = shortW num limit := shortW_set _ _ _
  have eC : shortC num1 limit = shortC num limit := shortC_set _ _ _
  have ws : ∀ m : Nat → Nat, ∑ i ∈ Ico 1 (limit + 1), m i * 2 ^ (limit - i) = shortW m limit + m limit := fun m => by
    rw [Finset.sum_Ico_succ_top (by omega)]
    simp [shortW]
  have cs : ∀ m : Nat → Nat, ∑ i ∈ Ico 1 (limit + 1), m i = shortC m limit + m limit := fun m => by
    rw [Finset.sum_Ico_succ_top (by omega)]
    simp [shortC]
  have et : weightSum num1 limit = shortW num1 limit + num1 limit := by
    rw [weightSum, sum_range', show 1 + limit = limit + 1 by omega, ← ws]
    exact Finset.sum_congr rfl fun i _ => by rw [Nat.shiftLeft_eq]
  have ec : n = shortC num1 limit + num1 limit := by
    rw [eC, e0, ← hcount, ← Finset.sum_Ico_consecutive _ (show 1 ≤ limit + 1 by omega) (show limit + 1 ≤ 33 by omega), cs]
    omega
  -- the weights, in units of `2 ^ (32 - limit)`
  have hsplit := Finset.sum_Ico_consecutive (fun i => num i * 2 ^ (32 - i)) (show 1 ≤ limit + 1 by omega)
    (show limit + 1 ≤ 33 by omega)
  rw [hk] at hsplit
  have hlow : ∑ i ∈ Ico 1 (limit + 1), num i * 2 ^ (32 - i) = (shortW num limit + num limit) * 2 ^ (32 - limit) := by
    rw [← ws, Finset.sum_mul]
    refine Finset.sum_congr rfl fun i hi => ?_
    have := Finset.mem_Ico.1 hi
    rw [mul_assoc, ← pow_add, show limit - i + (32 - limit) = 32 - i by omega]
  have hhigh : ∑ i ∈ Ico (limit + 1) 33, num i * 2 ^ (32 - i) ≤ (∑ i ∈ Ico (limit + 1) 33, num i) * 2 ^ (32 - limit) := by
    rw [Finset.sum_mul]
    refine Finset.sum_le_sum fun i hi => Nat.mul_le_mul_left _ (Nat.pow_le_pow_right (by norm_num) ?_)
    have := Finset.mem_Ico.1 hi
    omega
  have h32 : 2 ^ 32 = 2 ^ limit * 2 ^ (32 - limit) := by
    rw [← pow_add, show limit + (32 - limit) = 32 by omega]
  generalize 2 ^ 32 = K at *
  have hpos : 0 < 2 ^ (32 - limit) := by positivity
  have hge : 2 ^ limit ≤ shortW num1 limit + num1 limit := by
    rw [eW, e0]
    refine Nat.le_of_mul_le_mul_right (c := 2 ^ (32 - limit)) ?_ hpos
    rw [← h32, show shortW num limit + (num limit + ∑ i ∈ Ico (limit + 1) 33, num i) =
      (shortW num limit + num limit) + ∑ i ∈ Ico (limit + 1) 33, num i by omega, Nat.add_mul]
    omega
  have hle : shortW num1 limit ≤ 2 ^ limit := by
    rw [eW]
    refine Nat.le_of_mul_le_mul_right (c := 2 ^ (32 - limit)) ?_ hpos
    rw [← h32]
    have := Nat.mul_le_mul_right (2 ^ (32 - limit)) (show shortW num limit ≤ shortW num limit + num limit by omega)
    omega
  obtain ⟨num', r1, r2, r3⟩ := enforceLoop_ok limit n hl hn (weightSum num1 limit + 1) (weightSum num1 limit) num1 et ec
    (by rw [et]; exact hge) hle (by have : 0 < 2 ^ limit := by positivity
                                    omega)
  exact ⟨num', r1, by rw [cs]; exact r2.symm, by rw [ws]; exact r3⟩

end Npy
