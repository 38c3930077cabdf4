import Mathlib.Algebra.Order.Field.Basic

/-!
Specification vocabulary for the equivalent-linear iteration: values per layer are
(modulus, damping) pairs, a history is the list of the values after each pass.
-/

namespace Verif.Spec

variable {K : Type} [Field K] [LinearOrder K]

/-- Relative change of every quantity below `tol`. -/
def CloseTo (tol : K) (old new : List (K × K)) : Prop :=
  ∀ (k : Nat) (o n : K × K), old[k]? = some o → new[k]? = some n →
    (n.1 ≠ 0 ∧ |o.1 - n.1| / n.1 < tol) ∧ (n.2 ≠ 0 ∧ |o.2 - n.2| / n.2 < tol)

/-- The values before pass `i`. -/
def before (init : List (K × K)) (hist : List (List (K × K))) : Nat → List (K × K)
  | 0 => init
  | i + 1 => hist.getD i []

end Verif.Spec
