import Verif.Model.Spectrum
import Verif.Model.Oscillator

/-!
Model of the root-mean-square values, the Fourier spectrum and the response spectra of a Ground_Motion.
-/

namespace Verif

noncomputable section

/-- `np.sqrt(np.mean(x ** 2.0))`. -/
def rms (l : List ℝ) : ℝ := Real.sqrt ((l.map fun x => x ^ 2).sum / l.length)

/-- class_ground_motion.py L428-436 `__calc_RMS`: the values of `rms_accel`, `rms_veloc` and `rms_displ`.  Velocities and
displacements are integrated from the acceleration again. -/
def motionRms (σ : CStore ℝ) (m : Motion ℝ) : Except PyErr (ℝ × ℝ × ℝ) := do
  let acc := m.accel.read σ
  let (vel, dis) ← numInt acc
  return (rms (acc.map Prod.snd), rms (vel.map Prod.snd), rms (dis.map Prod.snd))

/-- class_ground_motion.py L235-267 `get_Fourier_spectrum` without figure.  `np.real_if_close` of the frequencies is the
identity, because frequencies are real. -/
def motionFourier (realVal doubleSided : Bool) (σ : CStore ℝ) (m : Motion ℝ) : Except PyErr FreqSpec := do
  let x ← fourierTransform realVal doubleSided (m.accel.read σ)
  newSpect (.two x) none none

/-- The result of `get_response_spectra`. -/
structure RespOut where
  tn : List ℝ
  sa : List ℝ
  psa : List ℝ
  sv : List ℝ
  psv : List ℝ
  sd : List ℝ
  fn : List ℝ

/-- class_ground_motion.py L269-325 `get_response_spectra`, with helper_site_response.py L557 (periods), L671 (columns
of the results; no periods at all cannot be unpacked) and L673-707 (returned values) without figure.  Periods that are not
positive are outside of the model. -/
def motionResponse (tMin tMax : ℝ) (nPts : Nat) (damping : ℝ) (interval : Nat) (σ : CStore ℝ) (m : Motion ℝ) :
    Except PyErr RespOut := do
  let tn := logspace tMin tMax nPts
  let rows ← responseSpectraR damping tn interval (m.accel.read σ)
  if nPts = 0 then .error .valueError
  else .ok ⟨tn, rows.map (·.sa), rows.map (·.psa), rows.map (·.sv), rows.map (·.psv), rows.map (·.sd), tn.map fun T => 1 / T⟩

end

end Verif
