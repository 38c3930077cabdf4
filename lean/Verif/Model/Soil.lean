import Verif.Basic
import Mathlib.Analysis.SpecialFunctions.Pow.Real
import Mathlib.Analysis.SpecialFunctions.Log.Base

/-!
Model of stress-strain helpers (`helper_site_response.py`) and of the soil models MKZ, FKZ
and HH (`helper_mkz_model.py`, `helper_hh_model.py`).  Numpy functions of an array are
modelled element-wise; the array versions are `List.map`.
-/

namespace Verif

section
variable {K : Type} [Field K] [LinearOrder K]

/-- helper_site_response.py L2253-2296 `calc_GGmax_from_stress_strain`.  `strain[0]` of an
empty array raises IndexError; arrays of different lengths cannot be divided (ValueError,
not modelling numpy's broadcasting of one-element arrays); a division by zero makes numpy
return non-finite numbers. -/
def calcGGmax (strain stress : List K) (gmax : Option K) : Except PyErr (List K) :=
  match strain, stress with
  | [], _ => .error .indexError
  | e0 :: es, ss =>
    if e0 = 0 then .error .valueError
    else
      let gm : Except PyErr K := match gmax, ss with
        | some g, _ => .ok g
        | none, [] => .error .indexError
        | none, s0 :: _ => .ok (s0 / e0)
      match gm with
      | .error e => .error e
      | .ok g =>
        if (e0 :: es).length ≠ ss.length then .error .valueError
        else if 0 ∈ es ∨ g = 0 then .error .nonFinite
        else .ok (List.zipWith (fun s e => s / e / g) ss (e0 :: es))

/-- helper_site_response.py L2241-2247: the loop over points `(strain, G/Gmax)` after the
first.  `area` is the area so far, `prev` the previous point. -/
def dampLoop (pi : K) (area : K) (prev : K × K) : List (K × K) → List K
  | [] => []
  | (e, g) :: rest =>
    let a := area + 1 / 2 * (prev.1 * prev.2 + e * g) * (e - prev.1)
    2 / pi * (2 * a / g / e ^ 2 - 1) :: dampLoop pi a (e, g) rest

/-- helper_site_response.py L2210-2250 `calc_damping_from_stress_strain`.  A zero `G/Gmax`
value makes numpy divide by zero. -/
def calcDamping (pi : K) (strain stress : List K) (gmax : K) : Except PyErr (List K) :=
  match calcGGmax strain stress (some gmax) with
  | .error e => .error e
  | .ok gg =>
    if 0 ∈ gg then .error .nonFinite
    else match strain.zip gg with
      | [] => .error .indexError
      | (e0, g0) :: rest =>
        let a0 := 1 / 2 * (e0 * g0) * e0
        .ok ((2 / pi * (2 * a0 / g0 / e0 ^ 2 - 1) :: dampLoop pi a0 (e0, g0) rest).map fun d => max d 0)

end

noncomputable section

/-- helper_mkz_model.py L10-57 `tau_MKZ`, one strain value. -/
def tauMKZ (gammaRef beta s Gmax gamma : ℝ) : ℝ := Gmax * gamma / (1 + beta * (|gamma| / gammaRef) ^ s)

/-- helper_hh_model.py L10-56 `tau_FKZ`, one strain value.  For a negative strain and
non-integer `d` numpy gives NaN; only `0 ≤ gamma` is claimed to be represented. -/
def tauFKZ (Gmax mu d Tmax gamma : ℝ) : ℝ := mu * Gmax * gamma ^ d / (1 + Gmax / Tmax * mu * |gamma| ^ d)

/-- helper_hh_model.py L88-90, `intermediateValue` for a non-zero strain. -/
def transIv (a gammaT g : ℝ) : ℝ := Real.logb 10 (|g| / gammaT) - 4.039 * a ^ (-1.036 : ℝ)

/-- helper_hh_model.py L87-102, one strain value, `0 < a`.  For zero strain `np.log10`
gives minus infinity and the first branch is taken. -/
def transOne (a gammaT g : ℝ) : ℝ :=
  if g = 0 then 1
  else if -a * transIv a gammaT g > 305 then 1
  else if -a * transIv a gammaT g < -305 then 0
  else 1 - 1 / (1 + (10 : ℝ) ^ (-a * transIv a gammaT g))

/-- helper_hh_model.py L59-104 `transition_function`. -/
def transition (a gammaT : ℝ) (gamma : List ℝ) : Except PyErr (List ℝ) :=
  if ¬ 0 < gammaT then .error .assertionError else .ok (gamma.map (transOne a gammaT))

/-- The nine HH parameters. -/
structure HHParam where
  (gammaT a gammaRef beta s Gmax mu Tmax d : ℝ)

/-- helper_hh_model.py L153-157: one strain value of `tau_HH`. -/
def hhOne (p : HHParam) (g : ℝ) : ℝ :=
  transOne p.a p.gammaT g * tauMKZ p.gammaRef p.beta p.s p.Gmax g +
    (1 - transOne p.a p.gammaT g) * tauFKZ p.Gmax p.mu p.d p.Tmax g

/-- helper_hh_model.py L107-159 `tau_HH`. -/
def tauHH (p : HHParam) (gamma : List ℝ) : Except PyErr (List ℝ) :=
  match transition p.a p.gammaT gamma with
  | .error e => .error e
  | .ok _ => .ok (gamma.map (hhOne p))

end

end Verif
