import Mathlib.Algebra.Order.Field.Basic
import Mathlib.Algebra.BigOperators.Group.List.Basic
import Mathlib.Algebra.Order.Floor.Ring
import Mathlib.Algebra.Order.Round
import Mathlib.Data.Rat.Floor
import Mathlib.Tactic.Linarith
import Mathlib.Tactic.Ring
import Mathlib.Tactic.FieldSimp
import Mathlib.Tactic.NormNum
import Mathlib.Tactic.Positivity

/-!
Shared vocabulary of the models: Python exceptions as values and the numpy
primitives used by several modules.  Everything here is computable.
-/

namespace Verif

/-- Outcomes of a Python call other than a value.  All constructors but
`nonFinite` are the Python exception class raised by the code.  `nonFinite`
marks inputs on which numpy raises nothing but yields nan/inf, which the models
do not represent as numbers. -/
inductive PyErr where
  | valueError
  | typeError
  | indexError
  | keyError
  | assertionError
  | unboundLocal
  | attributeError
  | zeroDivision
  | fileNotFound
  | fileExists
  | nonFinite
  | other
  deriving DecidableEq, Repr

instance {ε α} [DecidableEq ε] [DecidableEq α] : DecidableEq (Except ε α)
  | .ok a, .ok b => if h : a = b then isTrue (by rw [h]) else isFalse (by simpa using h)
  | .error a, .error b => if h : a = b then isTrue (by rw [h]) else isFalse (by simpa using h)
  | .ok _, .error _ => isFalse (by simp)
  | .error _, .ok _ => isFalse (by simp)

section
variable {K : Type*} [Field K] [LinearOrder K]

/-- `np.searchsorted(a, v, side='right')` for a sorted `a`: the number of
elements `≤ v` (numpy documents `a[i-1] <= v < a[i]`).  Only used on sorted
arrays; for unsorted ones numpy's result is unspecified. -/
def searchsortedRight (a : List K) (v : K) : Nat :=
  (a.filter (fun x => decide (x ≤ v))).length

/-- `np.cumsum`. -/
def cumsumFrom (s : K) : List K → List K
  | [] => []
  | x :: xs => (s + x) :: cumsumFrom (s + x) xs

/-- `np.cumsum`. -/
def cumsum (l : List K) : List K := cumsumFrom 0 l

/-- `np.diff`. -/
def diff : List K → List K
  | [] => []
  | [_] => []
  | x :: y :: ys => (y - x) :: diff (y :: ys)

/-- `np.max(np.abs(a))` of a non-empty array; `0` on the empty list, which the
callers exclude. -/
def maxAbs (l : List K) : K := l.foldr (fun x m => max |x| m) 0

end

end Verif
