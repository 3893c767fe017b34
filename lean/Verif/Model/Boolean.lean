import Mathlib.Algebra.Order.Field.Rat
import Verif.Model.Dtype
/-!
# `npy::boolean` and floating-point numbers

The templates of `npy::boolean` at `float` and `double`. Simplification: the comparisons are those of IEEE 754 (as on every
host with `std::numeric_limits<T>::is_iec559`).
-/

namespace Npy

/-- The datum of an IEEE 754 binary format, `(-1)^neg * m * 2^e` if it is finite. (`float`, `double` as `T` at npy.h:110 and
npy.h:122) -/
inductive IeeeValue where
  | nan
  | inf (neg : Bool)
  | finite (neg : Bool) (m : Nat) (e : Int)
  deriving DecidableEq, Repr, Inhabited

/-- The datum of a bit pattern, in a format with `w` bits of exponent and `p` bits of fraction: 8 and 23 for `float`, 11 and
52 for `double`. (`float`, `double` as `T` at npy.h:110 and npy.h:122) -/
def IeeeValue.decode (w p bits : Nat) : IeeeValue :=
  let fraction := bits % 2 ^ p
  let exponent := bits / 2 ^ p % 2 ^ w
  let neg := decide (bits / 2 ^ (w + p) % 2 = 1)
  let bias : Int := 2 ^ (w - 1) - 1
  if exponent = 2 ^ w - 1 then (if fraction = 0 then .inf neg else .nan)
  else if exponent = 0 then .finite neg fraction (1 - bias - p)
  else .finite neg (2 ^ p + fraction) (exponent - bias - p)

/-- The number that a finite datum stands for. (`v` at npy.h:110 and npy.h:123) -/
def IeeeValue.number (neg : Bool) (m : Nat) (e : Int) : ℚ := (if neg then -1 else 1) * m * 2 ^ e

/-- `v > 0` (npy.h:110): false for a NaN -/
def IeeeValue.positive : IeeeValue → Bool
  | .nan => false
  | .inf neg => !neg
  | .finite neg m e => decide (number neg m e > 0)

/-- `v` as a condition (npy.h:123), which is `v != 0`: true for a NaN -/
def IeeeValue.nonzero : IeeeValue → Bool
  | .nan => true
  | .inf _ => true
  | .finite neg m e => decide (number neg m e ≠ 0)

/-- npy.h:110 templated constructor, for a floating-point argument: `v > 0 ? 1 : 0` -/
def Boolean.ofIeee (v : IeeeValue) : Boolean := ⟨if v.positive then 1 else 0⟩

/-- npy.h:122-125 templated assignment, for a floating-point argument: `v ? 1 : 0` -/
def Boolean.assignIeee (_ : Boolean) (v : IeeeValue) : Boolean := ⟨if v.nonzero then 1 else 0⟩

end Npy
