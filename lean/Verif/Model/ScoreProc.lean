import Verif.Model.Scores
import Verif.Model.Filter
import Verif.Model.Oscillator
import Verif.Model.Spectrum
import Verif.Model.SineSmooth
import Verif.Model.Wavelet

/-!
The signal processing used by helper_gof_scores.py, with the default arguments of the calls there.  The design of the
Butterworth filters and the coefficients of the wavelet 'dmey' are parameters.
-/

namespace Verif

noncomputable section

/-- helper_gof_scores.py L672-687: `response_spectra(…, n_pts=100)` with 5% damping: periods and spectral accelerations.
Limits that are not positive have no logarithm. -/
def gofSpectrum (a b : ℝ) (x : Rec ℝ) : Except PyErr (List ℝ × List ℝ) :=
  if a ≤ 0 ∨ b ≤ 0 then .error .nonFinite
  else do
    let rows ← responseSpectraR (1 / 20) (logspace a b 100) 1 x
    return (logspace a b 100, rows.map fun r => r.sa)

/-- helper_gof_scores.py L693-694: `fourier_transform(x)`: labels and magnitudes. -/
def gofFourier (x : Rec ℝ) : Except PyErr (Rec ℝ) := do
  let r ← fourierTransform true false x
  return r.map fun p => (p.1, p.2.re)

/-- The functions called by `d_1234`, `d_567`, `d_89` and `d_10`: `sp.baseline` (helper_signal_processing.py L335-339,
cut-off 0.2 Hz), `sp.highpass`, `sp.bandpass` (order 4; `None` as a cut-off is a TypeError, L187-205), `baseline_wavelet`
(level 6), `response_spectra`, `fourier_transform`, `sine_smooth` (window of 0.3 Hz). -/
def gofProc (design : Design ℝ) (h g : List ℝ) : SigProc where
  baseline := baselineCorrect design (1 / 5)
  highpass f x := match f with
    | some c => filterKernel design 4 .highpass (.num c) x
    | none => filterKernel design 4 .highpass .other x
  bandpass f b x := match f with
    | some a => filterKernel design 4 .bandpass (.pair a b) x
    | none => .error .typeError
  wavelet := baselineWavelet h g 6
  spectrum := gofSpectrum
  fourier := gofFourier
  smooth := sineSmooth (3 / 10)

end

end Verif
