import Verif.Spec.Text
import Verif.Model.Dtype
/-!
# Specification: which header texts denote which values

A relational grammar of the header dictionary with arbitrary white space and key order.
-/

namespace Npy.Spec

/-- White space (C locale): space, and the control characters 9 to 13. -/
def White (ws : Bytes) : Prop := ∀ b ∈ ws, b.toNat = 32 ∨ (9 ≤ b.toNat ∧ b.toNat ≤ 13)

/-- A non-empty string of decimal digits denoting `n` (leading zeros allowed). -/
structure IsNumeral (ds : Bytes) (n : Nat) : Prop where
  nonempty : ds ≠ []
  digits : ∀ b ∈ ds, 48 ≤ b.toNat ∧ b.toNat ≤ 57
  value : Nat.ofDigits 10 (ds.reverse.map fun b => b.toNat - 48) = n

/-- The text between the parentheses of a shape tuple: numbers, each followed by a comma (optional for the last), with
white space before numbers, after commas and at the end. -/
inductive ShapeLayout : List Nat → Bytes → Prop
  | empty {ws} : White ws → ShapeLayout [] ws
  | last {ws ds ws' n} : White ws → IsNumeral ds n → White ws' → ShapeLayout [n] (ws ++ ds ++ ws')
  | cons {ws ds rest n ns} : White ws → IsNumeral ds n → ShapeLayout ns rest →
      ShapeLayout (n :: ns) (ws ++ ds ++ b!"," ++ rest)

/-- One key of the dictionary with its value. -/
inductive Field
  | descr (code : Bytes)
  | fortranOrder (b : Bool)
  | shape (ns : List Nat)
  deriving DecidableEq, Repr

/-- Text of a value. -/
inductive ValueLayout : Field → Bytes → Prop
  | descr {code} : ValueLayout (.descr code) (b!"'" ++ code ++ b!"'")
  | fortranOrder {b} : ValueLayout (.fortranOrder b) (pyBool b)
  | shape {ns text} : ShapeLayout ns text → ValueLayout (.shape ns) (b!"(" ++ text ++ b!")")

/-- The key of a field. -/
def Field.key : Field → Bytes
  | .descr _ => b!"descr"
  | .fortranOrder _ => b!"fortran_order"
  | .shape _ => b!"shape"

/-- The items of the dictionary, each followed by a comma, with white space before the key, around the colon and after
the comma. -/
inductive ItemsLayout : List Field → Bytes → Prop
  | nil : ItemsLayout [] []
  | cons {f fs w1 w2 w3 w4 v rest} : White w1 → White w2 → White w3 → White w4 →
      ValueLayout f v → ItemsLayout fs rest →
      ItemsLayout (f :: fs)
        (w1 ++ b!"'" ++ f.key ++ b!"'" ++ w2 ++ b!":" ++ w3 ++ v ++ b!"," ++ w4 ++ rest)

/-- The whole dictionary, followed by anything (padding). -/
def DictLayout (fs : List Field) (text : Bytes) : Prop :=
  ∃ items padding, ItemsLayout fs items ∧ text = b!"{" ++ items ++ b!"}" ++ padding

end Npy.Spec

namespace Npy.Spec

/-- The beginning of a shape tuple: numbers, each followed by a comma. -/
inductive ShapePrefix : List Nat → Bytes → Prop
  | nil : ShapePrefix [] []
  | cons {ws ds rest n ns} : White ws → IsNumeral ds n → ShapePrefix ns rest →
      ShapePrefix (n :: ns) (ws ++ ds ++ b!"," ++ rest)

/-- Does not begin with a decimal digit. -/
def NotDigitFirst (r : Bytes) : Prop := ∀ b, r.head? = some b → ¬ (48 ≤ b.toNat ∧ b.toNat ≤ 57)

/-- Texts at which no extent can be read: the end, a character that begins no number, a sign without digits, or a number,
with or without a sign, of 2^64 or more. -/
inductive NoExtent : Bytes → Prop
  | empty : NoExtent []
  | junk {c r} : ¬ (c.toNat = 32 ∨ (9 ≤ c.toNat ∧ c.toNat ≤ 13)) → ¬ (48 ≤ c.toNat ∧ c.toNat ≤ 57) → c ≠ 43 → c ≠ 45 →
      NoExtent (c :: r)
  | sign {c r} : (c = 43 ∨ c = 45) → NotDigitFirst r → NoExtent (c :: r)
  | big {ds n r} : IsNumeral ds n → 2 ^ 64 ≤ n → NotDigitFirst r → NoExtent (ds ++ r)
  | signBig {c ds n r} : (c = 43 ∨ c = 45) → IsNumeral ds n → 2 ^ 64 ≤ n → NotDigitFirst r → NoExtent (c :: (ds ++ r))

end Npy.Spec
