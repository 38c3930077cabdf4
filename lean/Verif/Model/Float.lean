import Mathlib.Data.Int.Log
import Verif.Model.Profile

/-!
IEEE 754 binary64 ("double") arithmetic with rounding to nearest, ties to even, as used by Python's `float` and by
`numpy.float64`: every operation is the exact operation followed by `fl`.  Magnitudes of 2^1024 and more (infinities), NaN and
the sign of zero are not represented.  `K` is any ordered field with floors; over ℚ everything can be computed.
-/

namespace Verif

section Double
variable {K : Type} [Field K] [LinearOrder K] [FloorRing K]

/-- The exponent of the last place of a double near `x`: 52 binary places after the leading one, not below 2^-1074. -/
def ulpExp (x : K) : ℤ := max (Int.log 2 |x|) (-1022) - 52

/-- One unit in the last place at `x`. -/
def ulp (x : K) : K := (2 : K) ^ ulpExp x

/-- Rounding to the nearest double, ties to even. -/
def fl (x : K) : K := (roundHalfEven (x / ulp x) : K) * ulp x

/-- The four operations on doubles. -/
def fadd (a b : K) : K := fl (a + b)
def fsub (a b : K) : K := fl (a - b)
def fmul (a b : K) : K := fl (a * b)
def fdiv (a b : K) : K := fl (a / b)

end Double

namespace Spec

/-- The finite doubles: integers of at most 53 bits times a power of two, not below 2^-1074. -/
def IsDouble {K : Type} [_root_.Field K] (x : K) : Prop := ∃ m e : ℤ, |m| < 2 ^ 53 ∧ -1074 ≤ e ∧ x = m * (2 : K) ^ e

/-- `y` is a double and none is nearer to `x`. -/
def NearestDouble {K : Type} [_root_.Field K] [LinearOrder K] (x y : K) : Prop :=
  IsDouble y ∧ ∀ z, IsDouble z → |x - y| ≤ |x - z|

end Spec

end Verif
