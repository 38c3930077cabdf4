import Verif.Model.Motion
import Mathlib.Analysis.SpecialFunctions.Trigonometric.Basic
import Mathlib.Analysis.SpecialFunctions.Sqrt

/-!
The recurrence coefficients of `response_spectra` (`helper_site_response.py`).
-/

namespace Verif

noncomputable section

/-- helper_site_response.py L560: damped frequency. -/
def wdOf (xi wn : ℝ) : ℝ := wn * Real.sqrt (1 - xi ^ 2)

/-- helper_site_response.py L569-639: the eight coefficients for circular frequency `wn`
and time step `dt`. -/
def oscCoefs (xi wn dt : ℝ) : Coefs ℝ where
  A := Real.exp (-xi * wn * dt) *
    (xi / Real.sqrt (1 - xi ^ 2) * Real.sin (wdOf xi wn * dt) + Real.cos (wdOf xi wn * dt))
  B := Real.exp (-xi * wn * dt) * (1 / wdOf xi wn * Real.sin (wdOf xi wn * dt))
  C := 1 / wn ^ 2 * (2 * xi / wn / dt + Real.exp (-xi * wn * dt) *
    (((1 - 2 * xi ^ 2) / wdOf xi wn / dt - xi / Real.sqrt (1 - xi ^ 2)) * Real.sin (wdOf xi wn * dt)
      - (1 + 2 * xi / wn / dt) * Real.cos (wdOf xi wn * dt)))
  D := 1 / wn ^ 2 * (1 - 2 * xi / wn / dt + Real.exp (-xi * wn * dt) *
    ((2 * xi ^ 2 - 1) / wdOf xi wn / dt * Real.sin (wdOf xi wn * dt)
      + 2 * xi / wn / dt * Real.cos (wdOf xi wn * dt)))
  A' := -Real.exp (-xi * wn * dt) * (wn / Real.sqrt (1 - xi ^ 2) * Real.sin (wdOf xi wn * dt))
  B' := Real.exp (-xi * wn * dt) *
    (Real.cos (wdOf xi wn * dt) - xi / Real.sqrt (1 - xi ^ 2) * Real.sin (wdOf xi wn * dt))
  C' := 1 / wn ^ 2 * (-1 / dt + Real.exp (-xi * wn * dt) *
    ((wn / Real.sqrt (1 - xi ^ 2) + xi / dt / Real.sqrt (1 - xi ^ 2)) * Real.sin (wdOf xi wn * dt)
      + 1 / dt * Real.cos (wdOf xi wn * dt)))
  D' := 1 / wn ^ 2 / dt * (1 - Real.exp (-xi * wn * dt) *
    (xi / Real.sqrt (1 - xi ^ 2) * Real.sin (wdOf xi wn * dt) + Real.cos (wdOf xi wn * dt)))

/-- helper_site_response.py L485-707 `response_spectra` with its coefficients and the
periods `Tn` of L557 (whose logarithmic spacing is not modelled). -/
def responseSpectraR (xi : ℝ) (Tn : List ℝ) (interval : Nat) (acc : Rec ℝ) : Except PyErr (List (SpecRow ℝ)) :=
  responseSpectra (oscCoefs xi) xi (Tn.map fun T => 2 * Real.pi / T) interval acc

end

end Verif
