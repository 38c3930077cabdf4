import Verif.Spec.Profile
import Verif.Model.VsProfile

namespace Verif.Spec

variable {K : Type} [Field K] [LinearOrder K]

/-- A valid five-column profile, as documented for `Vs_Profile`: positive
thicknesses (the last may be 0), positive velocity, damping and density, integer
material numbers which are positive (the last may be 0). -/
structure Valid5 (rows : List (Row K)) : Prop where
  nonempty : rows ≠ []
  thk_pos : ∀ r ∈ rows.dropLast, 0 < r.thk
  thk_nonneg : ∀ r ∈ rows, 0 ≤ r.thk
  pos : ∀ r ∈ rows, 0 < r.vs ∧ 0 < r.xi ∧ 0 < r.rho
  mat_int : ∀ r ∈ rows, ∃ n : ℤ, r.mat = n
  mat_pos : ∀ r ∈ rows.dropLast, 0 < r.mat
  mat_nonneg : ∀ r ∈ rows, 0 ≤ r.mat

end Verif.Spec
