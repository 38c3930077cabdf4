import Verif.Model.Profile
import Mathlib.Data.Int.Log

/-!
Model of the number formats `%.nf`, `%.pg` and `%d` with which the package writes text files (class_ground_motion.py L1121-1151,
class_Vs_profile.py L680-714, class_parameters.py L507-532, class_simulation_results.py L444-484, helper_site_response.py
L2553): the number that a reader of the text gets.  Python rounds the number to the digits asked for, ties to the even digit.
-/

namespace Verif

variable {K : Type} [Field K] [LinearOrder K] [FloorRing K]

/-- The multiple of `u` closest to `x`. -/
def roundTo (u x : K) : K := (roundHalfEven (x / u) : K) * u

/-- `'%.nf' % x`. -/
def fmtF (n : Nat) (x : K) : K := roundTo (1 / 10 ^ n) x

/-- `'%.pg' % x` for `p > 0`. -/
def fmtG (p : Nat) (x : K) : K := if x = 0 then 0 else roundTo (10 ^ (Int.log 10 |x| - (p : ℤ) + 1)) x

/-- `'%d' % x`: towards 0. -/
def fmtD (x : K) : K := if 0 ≤ x then (⌊x⌋ : K) else (⌈x⌉ : K)

end Verif
