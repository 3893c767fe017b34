import Verif.Spec.Text
import Verif.Proofs.Stream
/-! Decimal numerals: the model's printer, its reader, and the specification. -/

namespace Npy

theorem decDigitsRev_spec (fuel n : Nat) (h : n < fuel) :
    decDigitsRev fuel n =
      if n = 0 then [48] else (Nat.digits 10 n).map fun d => UInt8.ofNat (48 + d) := by
  induction fuel generalizing n with
  | zero => omega
  | succ fuel ih =>
    simp only [decDigitsRev]
    by_cases hn : n = 0
    · subst hn; simp
    · rw [if_neg hn, Nat.digits_def' (by omega) (by omega)]
      by_cases h10 : n / 10 = 0
      · simp [h10]
      · rw [if_neg h10, ih _ (by omega), if_neg h10]
        simp

theorem decimal_eq_spec (n : Nat) : decimal n = Spec.decimal n := by
  unfold decimal Spec.decimal
  rw [decDigitsRev_spec _ _ (by omega)]
  split
  · rfl
  · rw [List.map_reverse]

theorem decValue_snoc (ds : Bytes) (d : Byte) : decValue (ds ++ [d]) = 10 * decValue ds + (d.toNat - 48) := by
  simp [decValue, List.foldl_append]

theorem digit_toNat (n : Nat) : (UInt8.ofNat (48 + n % 10)).toNat = 48 + n % 10 := by
  simp only [UInt8.toNat_ofNat']
  omega

theorem decValue_decDigitsRev (fuel n : Nat) (h : n < fuel) : decValue (decDigitsRev fuel n).reverse = n := by
  induction fuel generalizing n with
  | zero => omega
  | succ fuel ih =>
    simp only [decDigitsRev, List.reverse_cons, decValue_snoc, digit_toNat]
    by_cases h10 : n / 10 = 0
    · simp [h10, decValue]; omega
    · rw [if_neg h10, ih _ (by omega)]; omega

theorem decValue_decimal (n : Nat) : decValue (decimal n) = n := decValue_decDigitsRev _ _ (by omega)

theorem isDigit_digit (n : Nat) : isDigit (UInt8.ofNat (48 + n % 10)) = true := by
  have := digit_toNat n
  simp only [isDigit, Bool.and_eq_true, decide_eq_true_eq, UInt8.le_iff_toNat_le, this, UInt8.toNat_ofNat]
  omega

theorem isDigit_decDigitsRev (fuel n : Nat) : ∀ b ∈ decDigitsRev fuel n, isDigit b = true := by
  induction fuel generalizing n with
  | zero => simp [decDigitsRev]
  | succ fuel ih =>
    simp only [decDigitsRev, List.mem_cons]
    rintro b (rfl | hb)
    · exact isDigit_digit n
    · split at hb
      · simp at hb
      · exact ih _ b hb

theorem isDigit_decimal (n : Nat) : ∀ b ∈ decimal n, isDigit b = true := by
  intro b hb
  exact isDigit_decDigitsRev _ _ b (List.mem_reverse.1 hb)

theorem decimal_ne_nil (n : Nat) : decimal n ≠ [] := by
  simp [decimal, decDigitsRev]

theorem isDigit_iff (b : Byte) : isDigit b = true ↔ 48 ≤ b.toNat ∧ b.toNat ≤ 57 := by
  simp [isDigit, UInt8.le_iff_toNat_le]

theorem isSpace_iff (b : Byte) : isSpace b = true ↔ b.toNat = 32 ∨ 9 ≤ b.toNat ∧ b.toNat ≤ 13 := by
  simp [isSpace, UInt8.le_iff_toNat_le, ← UInt8.toNat_inj]

theorem digit_not_space {b : Byte} (h : isDigit b = true) : isSpace b = false := by
  rw [isDigit_iff] at h
  rw [← Bool.not_eq_true, isSpace_iff]
  omega

theorem digit_ne {b : Byte} (h : isDigit b = true) (c : Byte) (hc : c.toNat < 48 ∨ 57 < c.toNat) : b ≠ c := by
  rintro rfl
  rw [isDigit_iff] at h
  omega

end Npy
