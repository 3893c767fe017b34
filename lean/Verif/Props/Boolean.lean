import Mathlib.Tactic.Linarith
import Mathlib.Tactic.Positivity
import Mathlib.Tactic.NormNum
import Mathlib.Algebra.Order.Field.Power
import Verif.Model.Boolean
/-!
# C28: `npy::boolean` and floating-point numbers
-/

namespace Npy

theorem IeeeValue.number_pos (neg : Bool) (m : Nat) (e : Int) : number neg m e > 0 ↔ neg = false ∧ 0 < m := by
  have h2 : (0 : ℚ) < 2 ^ e := by positivity
  unfold number
  cases neg
  · simp only [Bool.false_eq_true, if_false, one_mul, gt_iff_lt, true_and]
    rw [mul_pos_iff_of_pos_right h2]
    exact Nat.cast_pos
  · simp only [if_true, gt_iff_lt, Bool.true_eq_false, false_and, iff_false, not_lt]
    have : (0 : ℚ) ≤ m * 2 ^ e := by positivity
    linarith

theorem IeeeValue.number_ne (neg : Bool) (m : Nat) (e : Int) : number neg m e ≠ 0 ↔ 0 < m := by
  have h2 : (2 : ℚ) ^ e ≠ 0 := by positivity
  unfold number
  rw [mul_ne_zero_iff, mul_ne_zero_iff]
  cases neg <;> simp [h2, Nat.pos_iff_ne_zero]

/-- The pattern by its parts. -/
theorem IeeeValue.pattern {w p bits : Nat} (hb : bits < 2 ^ (1 + w + p)) :
    ∃ s x f, s < 2 ∧ x < 2 ^ w ∧ f < 2 ^ p ∧ bits = s * 2 ^ (w + p) + (x * 2 ^ p + f) ∧ x * 2 ^ p + f < 2 ^ (w + p) ∧
      bits % 2 ^ p = f ∧ bits / 2 ^ p % 2 ^ w = x ∧ bits / 2 ^ (w + p) % 2 = s := by
  have hp : 0 < 2 ^ p := by positivity
  have hw : 0 < 2 ^ w := by positivity
  have hs : bits / 2 ^ (w + p) < 2 := by
    rw [Nat.div_lt_iff_lt_mul (by positivity)]
    calc bits < _ := hb
      _ = 2 * 2 ^ (w + p) := by rw [Nat.add_assoc, pow_add, pow_one]
  have hwp : 2 ^ (w + p) = 2 ^ p * 2 ^ w := by rw [pow_add, Nat.mul_comm]
  have e1 : bits = bits / 2 ^ (w + p) * 2 ^ (w + p) + bits % 2 ^ (w + p) := (Nat.div_add_mod' _ _).symm
  have e2 : bits % 2 ^ (w + p) = bits / 2 ^ p % 2 ^ w * 2 ^ p + bits % 2 ^ p := by
    rw [hwp, Nat.mod_mul, Nat.mul_comm (2 ^ p), Nat.add_comm]
  refine ⟨bits / 2 ^ (w + p), bits / 2 ^ p % 2 ^ w, bits % 2 ^ p, hs, Nat.mod_lt _ hw, Nat.mod_lt _ hp, ?_, ?_, rfl, rfl,
    Nat.mod_eq_of_lt hs⟩
  · rw [← e2]; exact e1
  · rw [← e2]; exact Nat.mod_lt _ (by positivity)

theorem boolean_if (b : Bool) : (Boolean.toBool ⟨if b then 1 else 0⟩ = true ↔ b = true) ∧
    ((if b then 1 else 0 : Byte) = 0 ∨ (if b then 1 else 0 : Byte) = 1) := by
  cases b <;> decide

/-- **C28** for `float` (`w = 8`, `p = 23`) and `double` (`w = 11`, `p = 52`), by bit patterns. Construction is true exactly for the
patterns from the smallest positive number to +infinity, assignment for all but those of the two zeros; both store 0 or 1. They
disagree exactly on the patterns above -0 (negative numbers, -infinity, NaNs with a sign) and on the NaNs without a sign. -/
theorem C28_floats (w p : Nat) (hw : 0 < w) (old : Boolean) (bits : Nat) (hb : bits < 2 ^ (1 + w + p)) :
    ((Boolean.ofIeee (.decode w p bits)).toBool = true ↔ 0 < bits ∧ bits ≤ (2 ^ w - 1) * 2 ^ p) ∧
    ((old.assignIeee (.decode w p bits)).toBool = true ↔ bits ≠ 0 ∧ bits ≠ 2 ^ (w + p)) ∧
    ((Boolean.ofIeee (.decode w p bits)).value = 0 ∨ (Boolean.ofIeee (.decode w p bits)).value = 1) ∧
    ((old.assignIeee (.decode w p bits)).value = 0 ∨ (old.assignIeee (.decode w p bits)).value = 1) ∧
    (Boolean.ofIeee (.decode w p bits) ≠ old.assignIeee (.decode w p bits) ↔
      2 ^ (w + p) < bits ∨ (2 ^ w - 1) * 2 ^ p < bits ∧ bits < 2 ^ (w + p)) := by
  have hpos : ((IeeeValue.decode w p bits).positive = true ↔ 0 < bits ∧ bits ≤ (2 ^ w - 1) * 2 ^ p) ∧
      ((IeeeValue.decode w p bits).nonzero = true ↔ bits ≠ 0 ∧ bits ≠ 2 ^ (w + p)) := by
    obtain ⟨s, x, f, h1, h2, h3, h4, h5, h6, h7, h8⟩ := IeeeValue.pattern hb
    have hp : 0 < 2 ^ p := by positivity
    have hw2 : 2 ≤ 2 ^ w := by
      calc 2 = 2 ^ 1 := rfl
        _ ≤ 2 ^ w := Nat.pow_le_pow_right (by omega) hw
    have hwp : 2 ^ (w + p) = (2 ^ w - 1) * 2 ^ p + 2 ^ p := by
      rw [pow_add]
      conv_rhs => rw [← Nat.succ_mul, Nat.succ_eq_add_one, Nat.sub_add_cancel (by omega)]
    have hx0 : x = 0 → x * 2 ^ p = 0 := fun h => by rw [h, Nat.zero_mul]
    have hx1 : x ≠ 0 → 2 ^ p ≤ x * 2 ^ p := fun h => Nat.le_mul_of_pos_left _ (Nat.pos_of_ne_zero h)
    have hxm : x ≤ 2 ^ w - 1 := by omega
    have hxle : x * 2 ^ p ≤ (2 ^ w - 1) * 2 ^ p := Nat.mul_le_mul_right _ hxm
    have hxlt : x ≠ 2 ^ w - 1 → x * 2 ^ p + 2 ^ p ≤ (2 ^ w - 1) * 2 ^ p := fun h => by
      rw [← Nat.succ_mul]; exact Nat.mul_le_mul_right _ (by omega)
    have hone : 2 ^ p ≤ (2 ^ w - 1) * 2 ^ p := Nat.le_mul_of_pos_left _ (by omega)
    have hs : s = 0 ∨ s = 1 := by omega
    have hsm : s * 2 ^ (w + p) = if s = 1 then 2 ^ (w + p) else 0 := by rcases hs with rfl | rfl <;> simp
    unfold IeeeValue.decode
    simp only [h6, h7, h8]
    split
    · rename_i hx
      have : x * 2 ^ p = (2 ^ w - 1) * 2 ^ p := by rw [hx]
      split
      · rename_i hf
        simp only [IeeeValue.positive, IeeeValue.nonzero, true_iff]
        rcases hs with rfl | rfl
        · constructor
          · simp; omega
          · omega
        · constructor
          · simp; omega
          · omega
      · rename_i hf
        simp only [IeeeValue.positive, IeeeValue.nonzero, true_iff, Bool.false_eq_true, false_iff]
        rcases hs with rfl | rfl
        · constructor <;> omega
        · constructor <;> omega
    · rename_i hx
      have hx2 := hxlt hx
      split
      · rename_i hx0'
        have := hx0 hx0'
        simp only [IeeeValue.positive, IeeeValue.nonzero, decide_eq_true_eq, IeeeValue.number_pos, IeeeValue.number_ne]
        rcases hs with rfl | rfl
        · simp; omega
        · simp; omega
      · rename_i hx0'
        have := hx1 hx0'
        simp only [IeeeValue.positive, IeeeValue.nonzero, decide_eq_true_eq, IeeeValue.number_pos, IeeeValue.number_ne]
        rcases hs with rfl | rfl
        · simp; omega
        · simp; omega
  obtain ⟨h1, h2⟩ := hpos
  have hw2 : (2 ^ w - 1) * 2 ^ p < 2 ^ (w + p) := by
    rw [pow_add]
    exact Nat.mul_lt_mul_of_pos_right (Nat.sub_lt (by positivity) (by omega)) (by positivity)
  refine ⟨(boolean_if _).1.trans h1, (boolean_if _).1.trans h2, (boolean_if _).2, (boolean_if _).2, ?_⟩
  have hne : ∀ a b : Bool, ((⟨if a then 1 else 0⟩ : Boolean) ≠ ⟨if b then 1 else 0⟩ ↔ ¬ (a = true ↔ b = true)) := by decide
  rw [Boolean.ofIeee, Boolean.assignIeee, hne, h1, h2]
  have := Nat.two_pow_pos (w + p)
  omega

/-- 1.5, -2, a NaN and -0 as `float`. -/
example : IeeeValue.decode 8 23 0x3FC00000 = .finite false 12582912 (-23) ∧ (Boolean.ofIeee (.decode 8 23 0x3FC00000)).toBool = true ∧
    IeeeValue.decode 8 23 0xC0000000 = .finite true 8388608 (-22) ∧ (Boolean.ofIeee (.decode 8 23 0xC0000000)).toBool = false ∧
    (Boolean.default.assignIeee (.decode 8 23 0xC0000000)).toBool = true ∧
    IeeeValue.decode 8 23 0x7FC00000 = .nan ∧ (Boolean.ofIeee (.decode 8 23 0x7FC00000)).toBool = false ∧
    (Boolean.default.assignIeee (.decode 8 23 0x7FC00000)).toBool = true ∧
    (Boolean.default.assignIeee (.decode 8 23 0x80000000)).toBool = false := by
  refine ⟨by decide, ?_, by decide, ?_, ?_, by decide, ?_, ?_, ?_⟩
  · exact (C28_floats 8 23 (by decide) .default _ (by decide)).1.2 (by decide)
  · exact Bool.eq_false_iff.2 fun h => absurd ((C28_floats 8 23 (by decide) .default _ (by decide)).1.1 h) (by decide)
  · exact (C28_floats 8 23 (by decide) .default _ (by decide)).2.1.2 (by decide)
  · exact Bool.eq_false_iff.2 fun h => absurd ((C28_floats 8 23 (by decide) .default _ (by decide)).1.1 h) (by decide)
  · exact (C28_floats 8 23 (by decide) .default _ (by decide)).2.1.2 (by decide)
  · exact Bool.eq_false_iff.2 fun h => absurd ((C28_floats 8 23 (by decide) .default _ (by decide)).2.1.1 h) (by decide)

end Npy
