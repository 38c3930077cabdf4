import Verif.Model.Compare
import Verif.Model.ResPlot

/-!
Model of `Ground_Motion.compare` (class_ground_motion.py L826-895) with the figure that it returns, and of the figure of
`Ground_Motion.truncate` (L649-690).  Of a figure the panels, the labels of their vertical axes, and the lines with their legend
labels are modelled, in drawing order; colours, widths, scales and limits are not.
-/

namespace Verif

/-- One line of a figure: its legend label (`none` for a line without), abscissae and ordinates. -/
structure LabLine (K : Type) where
  lab : Option String
  xs : List K
  ys : List K
  deriving DecidableEq

/-- One panel: the label of the vertical axis and the lines. -/
structure LabPanel (K : Type) where
  ylab : String
  lines : List (LabLine K)
  deriving DecidableEq

/-- `plt.plot(x, y, label=lab)`: ValueError if the lengths differ. -/
def labLine {K : Type} (lab : Option String) (x y : List K) : Except PyErr (LabLine K) :=
  if x.length = y.length then .ok ⟨lab, x, y⟩ else .error .valueError

/-- helper_signal_processing.py L503-581 `fourier_transform` with its default `real_val=True`: frequencies and amplitudes. -/
noncomputable def fouAmp (x : Rec ℝ) : Except PyErr (List ℝ × List ℝ) :=
  (fourierTransform true false x).map fun s => (s.map Prod.fst, s.map fun p => p.2.re)

/-- The texts of a comparison figure: names of the two records and the labels of the two transfer function axes. -/
structure CmpTexts where
  inName : String
  outName : String
  ampLab : String
  phsLab : String

open scoped Classical in
/-- helper_site_response.py L1760-1922 `_plot_site_amp` as called by `compare_two_accel`: with frequencies, amplification and phase,
and with the smoothed amplification if there is one. -/
noncomputable def siteAmpFig (t : CmpTexts) (xin xout : Rec ℝ) (freq ampl : List ℝ) (smoothed : Option (List ℝ)) (phase : List ℝ) :
    Except PyErr (List (LabPanel ℝ)) := do
  checkTimes (xin.map Prod.fst) (xout.map Prod.fst)
  let time := xin.map Prod.fst
  let o ← labLine (some t.outName) time (xout.map Prod.snd)
  let i ← labLine (some t.inName) time (xin.map Prod.snd)
  let a ← labLine (some "Unsmoothed") freq ampl
  let s ← smoothed.toList.mapM (labLine (some "Smoothed") freq)
  let one ← labLine none freq (List.replicate freq.length 1)
  let p ← labLine none freq phase
  let fi ← fouAmp xin
  let fo ← fouAmp xout
  return [⟨"Acceleration", if maxAbs (xin.map Prod.snd) ≤ maxAbs (xout.map Prod.snd) then [o, i] else [i, o]⟩,
    ⟨t.ampLab, a :: s ++ [one]⟩, ⟨t.phsLab, [p]⟩,
    ⟨"Fourier amplitudes", [⟨some t.outName, fo.1, fo.2⟩, ⟨some t.inName, fi.1, fi.2⟩]⟩]

/-- helper_site_response.py L1925-2006 `compare_two_accel`: the figure that it returns. -/
noncomputable def compareFig (t : CmpTexts) (smooth : Bool) (xin xout : Rec ℝ) : Except PyErr (List (LabPanel ℝ)) := do
  let r ← compareTwo smooth xin xout
  siteAmpFig t r.input r.output r.freq r.ampl r.smoothed r.phase

/-- class_ground_motion.py L826-895 `compare`; `other` is `none` for an argument that is not a `Ground_Motion`; the motions are given
by their accelerations. -/
noncomputable def motionCompare (self : Rec ℝ) (other : Option (Rec ℝ)) (thisAsInput smooth : Bool) (inName outName : String) :
    Except PyErr (List (LabPanel ℝ)) :=
  match other with
  | none => .error .typeError
  | some another =>
    let accelIn := if thisAsInput then self else another
    let accelOut := if thisAsInput then another else self
    compareFig ⟨inName, outName, "Amplification\n(" ++ inName ++ " ➡ " ++ outName ++ ")",
      "Phase shift [rad]\n(" ++ inName ++ " ➡ " ++ outName ++ ")"⟩ smooth accelIn accelOut

section
variable {K : Type} [Field K] [LinearOrder K]

/-- class_ground_motion.py L649-686: the figure of `truncate`; `truncated` is the new array. -/
def truncFig (σ : CStore K) (m : Motion K) (n1 n2 : Int) (truncated : Rec K) : Except PyErr (List (LabPanel K)) := do
  let time := motionTime m
  let part := pySlice time n1 n2
  let a0 ← labLine (some "original") time ((m.accel.read σ).map Prod.snd)
  let a1 ← labLine (some "truncated") part (truncated.map Prod.snd)
  let v0 ← labLine none time ((m.veloc.read σ).map Prod.snd)
  let vu ← numInt truncated
  let v1 ← labLine none part (vu.1.map Prod.snd)
  let u0 ← labLine none time ((m.displ.read σ).map Prod.snd)
  let u1 ← labLine none part (vu.2.map Prod.snd)
  return [⟨"Accel. [m/s/s]", [a0, a1]⟩, ⟨"Veloc. [m/s]", [v0, v1]⟩, ⟨"Displ. [m]", [u0, u1]⟩]

/-- class_ground_motion.py L564-690 `truncate(…, show_fig=True)`. -/
def truncateShow [FloorRing K] (σ : CStore K) (m : Motion K) (norm : Rec K) (limit : K × K) (arias : Bool) (ext : K × K) :
    Except PyErr ((Motion K × Int × Int) × List (LabPanel K)) × CStore K :=
  match truncIdx (m.accel.read σ) norm m.dt m.npts limit arias ext with
  | .error e => (.error e, σ)
  | .ok (n1, n2) =>
    match truncArr (m.accel.read σ) n1 n2 with
    | .error e => (.error e, σ)
    | .ok x =>
      match truncFig σ m n1 n2 x with
      | .error e => (.error e, σ)
      | .ok f =>
        match mkFresh σ x with
        | (.error e, τ) => (.error e, τ)
        | (.ok m', τ) => (.ok ((m', n1, n2), f), τ)

end

end Verif
