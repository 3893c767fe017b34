import Verif.Model.Basic
import Mathlib.Data.Nat.Digits.Defs
/-!
# Specification: how NumPy writes numbers, tuples and the header dictionary

Independent of the model: decimal numerals come from Mathlib's `Nat.digits`, the rest follows Python's `repr`.
-/

namespace Npy.Spec

/-- The decimal numeral of `n`. -/
def decimal (n : Nat) : Bytes :=
  if n = 0 then b!"0" else (Nat.digits 10 n).reverse.map fun d => UInt8.ofNat (48 + d)

/-- Python's `repr` of a tuple of non-negative integers: `()`, `(3,)`, `(3, 4)`. -/
def pyTuple (ns : List Nat) : Bytes :=
  b!"(" ++ ((ns.map decimal).intersperse b!", ").flatten ++ (if ns.length = 1 then b!"," else []) ++ b!")"

/-- Python's `repr` of a truth value. -/
def pyBool (b : Bool) : Bytes := if b then b!"True" else b!"False"

/-- The header dictionary as NumPy prints it: the keys in alphabetical order, each item followed by ", ". -/
def headerDict (descr : Bytes) (fortran : Bool) (shape : List Nat) : Bytes :=
  b!"{" ++
  (b!"'descr': '" ++ descr ++ b!"', ") ++
  (b!"'fortran_order': " ++ pyBool fortran ++ b!", ") ++
  (b!"'shape': " ++ pyTuple shape ++ b!", ") ++
  b!"}"

end Npy.Spec
