import Mathlib.Algebra.Order.Field.Basic
import Mathlib.Algebra.BigOperators.Group.Finset.Basic
import Mathlib.Algebra.BigOperators.Intervals

/-!
Specification vocabulary for layered profiles.  A profile is a list of
(thickness, velocity) rows, top layer first.  Nothing here refers to the model.
-/

namespace Verif.Spec

variable {K : Type*} [Field K] [LinearOrder K]

/-- Depth of the top of layer `i`: the thicknesses of the layers above add up. -/
def topDepth (thk : List K) (i : Nat) : K := (thk.take i).sum

/-- Layer `i` contains depth `z`: its top is at or above `z` and, unless it is the
last layer (which continues downwards), its bottom is strictly below `z`. -/
def Contains (thk : List K) (i : Nat) (z : K) : Prop :=
  i < thk.length ∧ topDepth thk i ≤ z ∧ (i + 1 < thk.length → z < topDepth thk (i + 1))

/-- A physically valid layered profile: at least one layer, positive thicknesses
(the last one may be 0, a half space), positive velocities. -/
structure Valid (p : List (K × K)) : Prop where
  nonempty : p ≠ []
  thk_pos : ∀ r ∈ p.dropLast, 0 < r.1
  thk_nonneg : ∀ r ∈ p, 0 ≤ r.1
  vs_pos : ∀ r ∈ p, 0 < r.2

/-- In a layered medium whose layers carry properties of type `V` (a velocity, or
velocity with damping, density and material), the property at depth `z` is `x`. -/
def HasAt {V : Type*} (p : List (K × V)) (z : K) (x : V) : Prop :=
  ∃ i, Contains (p.map Prod.fst) i z ∧ (p.map Prod.snd)[i]? = some x

/-- Length of the part of layer `i` which lies above depth `Z`; the last layer
continues downwards. -/
def overlap (thk : List K) (i : Nat) (Z : K) : K :=
  if i + 1 < thk.length then max 0 (min Z (topDepth thk (i + 1)) - topDepth thk i)
  else max 0 (Z - topDepth thk i)

/-- Vertical travel time through the top `Z` metres. -/
def travelTime (p : List (K × K)) (Z : K) : K :=
  ∑ i ∈ Finset.range p.length,
    overlap (p.map Prod.fst) i Z / ((p.map Prod.snd).getD i 0)

end Verif.Spec
