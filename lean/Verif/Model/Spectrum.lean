import Verif.Model.Smooth
import Verif.Model.Phase
import Mathlib.Analysis.SpecialFunctions.Complex.Arg

/-!
Model of the Fourier transforms of helper_signal_processing.py and of class_frequency_spectrum.py.

A spectrum is a list of rows of a (real) frequency and a complex value; real values are complex numbers with imaginary
part 0.  `scipy.fftpack.fft` is the documented discrete Fourier transform.
-/

namespace Verif

noncomputable section

open Complex

/-- Rows of a spectrum. -/
abbrev Spect := List (ℝ × ℂ)

/-- helper_signal_processing.py L503-581 `fourier_transform` without figure.  A time step of zero is outside of the
model. -/
def fourierTransform (realVal doubleSided : Bool) (x : Rec ℝ) : Except PyErr Spect := do
  let dt ← dtOf x
  if dt = 0 then .error .nonFinite
  else
    let N := x.length
    let m := if doubleSided then N else (N + 1) / 2
    let X := (fftL (x.map fun p => (p.2 : ℂ))).take m
    let f := (List.range m).map fun k : Nat => ((k : ℝ) + 1) / ((N : ℝ) * dt)
    .ok (f.zip (if realVal then X.map fun z => ((‖z‖ : ℝ) : ℂ) else X))

/-- `np.allclose(a, b, atol=1e-6)` for two numbers. -/
def allClose (a b : ℝ) : Prop := |a - b| ≤ 1 / 10 ^ 6 + 1 / 10 ^ 5 * |b|

open scoped Classical in
/-- helper_signal_processing.py L626-715 `calc_transfer_function` for two records of finite numbers.  The warning about
frequencies is in `Model/Console`.  Division by a Fourier coefficient that is zero gives infinities or NaN in numpy, which is
outside of the model. -/
def calcTransfer (input output : Rec ℝ) (amplitudeOnly smooth : Bool) : Except PyErr Spect := do
  let d1 ← dtOf input
  let d2 ← dtOf output
  if ¬ allClose d1 d2 then .error .valueError
  else if input.length ≠ output.length then .error .valueError
  else
    let si ← fourierTransform false false input
    let so ← fourierTransform false false output
    let tf := List.zipWith (fun o i => o.2 / i.2) so si
    if amplitudeOnly = false ∧ smooth = true then .error .valueError
    else if ∃ p ∈ si, p.2 = 0 then .error .nonFinite
    else if smooth then
      let y ← linSmooth (tf.map fun z => ‖z‖) 15 .hanning
      .ok ((si.map Prod.fst).zip (y.map fun r : ℝ => (r : ℂ)))
    else .ok ((si.map Prod.fst).zip (if amplitudeOnly then tf.map fun z => ((‖z‖ : ℝ) : ℂ) else tf))

/-! ## Frequency_Spectrum -/

/-- The `data` argument: one column, two columns (frequencies and values). -/
inductive SData | one (col : List ℂ) | two (rows : Spect)

/-- The attributes of a Frequency_Spectrum. -/
structure FreqSpec where
  rawDf : ℝ
  rawData : Spect
  nPts : Nat
  freq : List ℝ
  fmin : ℝ
  fmax : ℝ
  spectrum : List ℂ
  amplitude : List ℝ
  phase : List ℝ

/-- helper_generic.py L152-224 `read_two_column_stuff` for arrays of spectra. -/
def readSpect (data : SData) (df : Option ℝ) : Except PyErr (Spect × ℝ) :=
  match data with
  | .one col =>
    match df with
    | none => .error .valueError
    | some d =>
      match linspace d ((col.length : ℝ) * d) col.length with
      | c0 :: c1 :: _ =>
        if d = 0 then .error .assertionError
        else if |c1 - c0 - d| / d ≤ 1 / 10 ^ 8 then .ok ((linspace d ((col.length : ℝ) * d) col.length).zip col, d)
        else .error .assertionError
      | _ => .error .indexError
  | .two rows =>
    match rows with
    | r :: s :: _ => .ok (rows, s.1 - r.1)
    | [_] => if df = none then .error .valueError else .error .indexError
    | [] => .error .indexError

/-- Complex `np.interp`: real and imaginary parts are interpolated alike. -/
def interpC (rows : Spect) (f : ℝ) : Except PyErr ℂ := do
  let re ← npInterp (rows.map fun p => (p.1, p.2.re)) f
  let im ← npInterp (rows.map fun p => (p.1, p.2.im)) f
  return ⟨re, im⟩

/-- How the spectrum is interpolated. -/
structure InterpArgs where
  fmin : ℝ := 0.1
  fmax : ℝ := 30
  nPts : Nat := 1000
  logScale : Bool := true

/-- helper_generic.py L591-604 `interpolate`: the query points. -/
def queryGrid (g : InterpArgs) : List ℝ :=
  if g.logScale then logspace g.fmin g.fmax g.nPts else linspace g.fmin g.fmax g.nPts

/-- class_frequency_spectrum.py L136-147: the attributes.  `min` of no frequencies is a ValueError. -/
def mkSpect (df : ℝ) (raw : Spect) (f : List ℝ) (s : List ℂ) : Except PyErr FreqSpec :=
  match f with
  | [] => .error .valueError
  | f0 :: rest => .ok ⟨df, raw, f.length, f, rest.foldl min f0, rest.foldl max f0, s, s.map fun z => ‖z‖, s.map arg⟩

/-- class_frequency_spectrum.py L101-148 `__init__` from an array.  Interpolation with a grid that is not positive
(`log_scale`) is outside of the model. -/
def newSpect (data : SData) (df : Option ℝ) (interp : Option InterpArgs) : Except PyErr FreqSpec := do
  let r ← readSpect data df
  match interp with
  | none => mkSpect r.2 r.1 (r.1.map Prod.fst) (r.1.map Prod.snd)
  | some g =>
    if g.logScale = true ∧ ¬ (0 < g.fmin ∧ 0 < g.fmax) then .error .nonFinite
    else do
      let s ← (queryGrid g).mapM (interpC r.1)
      mkSpect r.2 r.1 (queryGrid g) s

/-- class_frequency_spectrum.py L293-318 `get_unwrapped_phase`. -/
def unwrappedSpect (robust : Bool) (s : FreqSpec) : Except PyErr FreqSpec :=
  let ph := if robust then robustUnwrap Real.pi Real.pi s.phase else npUnwrapFrom Real.pi Real.pi 0 s.phase
  newSpect (.one (List.zipWith (fun (a p : ℝ) => (a : ℂ) * exp (I * p)) s.amplitude ph)) (some s.rawDf) none

/-- class_frequency_spectrum.py L224-279 `get_smoothed` for a spectrum of real values; the figure is not modelled, but
without one there is no `fig` to return. -/
def smoothedSpect (s : FreqSpec) (winLen : Nat) (showFig logScale : Bool) : Except PyErr (List ℝ) := do
  let sm ← logSmooth { winLen := winLen, linSpace := !logScale, fmin := some s.fmin, fmax := some s.fmax }
    (s.spectrum.map re)
  if showFig then .ok sm else .error .unboundLocal

end

end Verif
