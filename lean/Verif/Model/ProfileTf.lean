import Verif.Model.MotionMethods
import Verif.Model.Spectrum

/-!
Model of the frequency-domain methods of `Vs_Profile` (class_Vs_profile.py L274-382).  Figures are in `Model/Printed`.
-/

namespace Verif

noncomputable section

/-- A row of the table made by `linear_tf`: frequency, transfer functions (outcrop, incident, borehole), their moduli. -/
abbrev TfRow := ℝ × (ℂ × ℂ × ℂ) × (ℝ × ℝ × ℝ)

/-- helper_site_response.py L1280-1344 `linear_tf` with its checks: the table and the fundamental frequencies with respect to
the outcrop and the borehole.  A frequency resolution of 0 is an OverflowError (`int(inf)`), a negative number of
frequencies a ValueError of `np.linspace`. -/
def linearTfOut (rows : List (Row ℝ)) (df fmax : ℝ) : Except PyErr (List TfRow × ℝ × ℝ) := do
  checkVsFormat (.five rows)
  if df = 0 then .error .other
  else if ⌊fmax / df⌋ < 0 then .error .valueError
  else do
    let t := linearTf (rows.map rowLay) df fmax
    let f0ro ← findF0 (t.map fun r => (r.1, r.2.2.1))
    let _ ← findF0 (t.map fun r => (r.1, r.2.2.2.1))
    let f0bh ← findF0 (t.map fun r => (r.1, r.2.2.2.2))
    return (t, f0ro, f0bh)

/-- class_Vs_profile.py L307-309, L346-348: a column of the table as a `Frequency_Spectrum`. -/
def tfSpectrum (t : List TfRow) (pick : TfRow → ℂ) : Except PyErr FreqSpec :=
  newSpect (.two (t.map fun r => (r.1, pick r))) none none

/-- class_Vs_profile.py L274-310 `get_ampl_function`: outcrop, borehole, incident. -/
def amplFunctions (rows : List (Row ℝ)) (df fmax : ℝ) : Except PyErr (FreqSpec × FreqSpec × FreqSpec) := do
  let r ← linearTfOut rows df fmax
  let ro ← tfSpectrum r.1 fun r => (r.2.2.1 : ℂ)
  let bh ← tfSpectrum r.1 fun r => (r.2.2.2.2 : ℂ)
  let inc ← tfSpectrum r.1 fun r => (r.2.2.2.1 : ℂ)
  return (ro, bh, inc)

/-- class_Vs_profile.py L312-349 `get_transfer_function`: outcrop, borehole, incident. -/
def transferFunctions (rows : List (Row ℝ)) (df fmax : ℝ) : Except PyErr (FreqSpec × FreqSpec × FreqSpec) := do
  let r ← linearTfOut rows df fmax
  let ro ← tfSpectrum r.1 fun r => r.2.1.1
  let bh ← tfSpectrum r.1 fun r => r.2.1.2.2
  let inc ← tfSpectrum r.1 fun r => r.2.1.2.1
  return (ro, bh, inc)

/-- class_frequency_spectrum.py L281-291 `get_f0`. -/
def specF0 (s : FreqSpec) : Except PyErr ℝ := findF0 (s.freq.zip s.amplitude)

/-- class_Vs_profile.py L274-278, L312-316: the default resolution, the double nearest to 0.05.  It is a little above 1/20, and
`np.floor_divide(30, 0.05)` is 599, not 600. -/
def tfRes : ℝ := 3602879701896397 / 72057594037927936

/-- class_Vs_profile.py L351-360 `get_f0_RO`, with the default resolution and the maximum 30. -/
def f0Ro (rows : List (Row ℝ)) : Except PyErr ℝ := do
  let a ← amplFunctions rows tfRes 30
  specF0 a.1

/-- class_Vs_profile.py L362-371 `get_f0_BH`. -/
def f0Bh (rows : List (Row ℝ)) : Except PyErr ℝ := do
  let a ← amplFunctions rows tfRes 30
  specF0 a.2.1

end

end Verif
