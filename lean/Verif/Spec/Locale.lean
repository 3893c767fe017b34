import Verif.Spec.Npy
import Verif.Model.Locale
/-!
# Specification: numbers printed in a locale that groups digits
-/

namespace Npy.Spec

/-- A separator belongs where `n` digits are to its right, `n` being one of `k₀`, `k₀ + k₁`, `k₀ + k₁ + k₂`, …; the last size repeats, and
a size 0 ends the grouping. -/
def boundary : List Nat → Nat → Prop
  | [], _ => False
  | [k], n => 0 < k ∧ 0 < n ∧ k ∣ n
  | k :: more, n => 0 < k ∧ (n = k ∨ (k < n ∧ boundary more (n - k)))

instance boundaryDecidable : ∀ sizes n, Decidable (boundary sizes n)
  | [], _ => inferInstanceAs (Decidable False)
  | [k], n => inferInstanceAs (Decidable (0 < k ∧ 0 < n ∧ k ∣ n))
  | k :: l :: more, n =>
    have := boundaryDecidable (l :: more) (n - k)
    inferInstanceAs (Decidable (0 < k ∧ (n = k ∨ (k < n ∧ boundary (l :: more) (n - k)))))

/-- Digits with a separator wherever one belongs: `1.234.567`, or `12,34,567` with sizes 3 and 2. -/
def groupDigits (sep : Byte) (sizes : List Nat) : Bytes → Bytes
  | [] => []
  | [d] => [d]
  | d :: e :: ds =>
    if boundary sizes (e :: ds).length then d :: sep :: groupDigits sep sizes (e :: ds) else d :: groupDigits sep sizes (e :: ds)

/-- A number as a program running in this locale prints it. -/
def decimalIn : Locale → Nat → Bytes
  | none, n => decimal n
  | some p, n => groupDigits p.sep (p.group :: p.more) (decimal n)

/-- The header dictionary with the extents printed in a locale; in the C locale it is NumPy's. -/
def headerDictIn (loc : Locale) (descr : Bytes) (fortran : Bool) (shape : List Nat) : Bytes :=
  b!"{" ++
  (b!"'descr': '" ++ descr ++ b!"', ") ++
  (b!"'fortran_order': " ++ pyBool fortran ++ b!", ") ++
  (b!"'shape': (" ++ ((shape.map (decimalIn loc)).intersperse b!", ").flatten ++
    (if shape.length = 1 then b!"," else []) ++ b!"), ") ++
  b!"}"

/-- A separator with which a program can read what it writes: not a digit, a comma or a closing parenthesis. -/
def Readable : Locale → Prop
  | none => True
  | some p => ¬ (48 ≤ p.sep.toNat ∧ p.sep.toNat ≤ 57) ∧ p.sep ≠ 44 ∧ p.sep ≠ 41 ∧ 0 < p.group

/-- Nowhere in the text a digit is directly followed by `sep`. -/
def Apart (sep : Byte) (text : Bytes) : Prop :=
  ∀ a d b, text = a ++ d :: sep :: b → ¬ (48 ≤ d.toNat ∧ d.toNat ≤ 57)

end Npy.Spec
