import Verif.Model.Motion
import Verif.Model.Profile
import Verif.Model.SurfaceRun

/-!
Model of what `Simulation_Results.plot` (class_simulation_results.py L219-387) and `_plot_site_amp`
(helper_site_response.py L1760-1922) draw: the lines of every panel in the order in which they are drawn, the label of the panel and
the limits of the depth axis.  Colours, sizes, grids, legends and scales are not modelled; the files are in
`Verif.Model.ResultFiles`.
-/

namespace Verif

variable {K : Type} [Field K] [LinearOrder K]

/-- One panel: the label of the axis with the quantity shown, the lines (abscissae and ordinates). -/
structure ResPanel (K : Type) where
  label : String
  lines : List (List K × List K)
  deriving DecidableEq

/-- `plt.plot(x, y)`: ValueError if the lengths differ. -/
def plLine (x y : List K) : Except PyErr (List K × List K) := if x.length = y.length then .ok (x, y) else .error .valueError

/-- `np.allclose(a, b, atol=1e-4)` for two numbers. -/
def timeClose (a b : K) : Bool := decide (|a - b| ≤ 1 / 10000 + 1 / 100000 * |b|)

/-- `assert np.allclose(t_in, t_out, atol=1e-4)` (helper_site_response.py L1845) with numpy's broadcasting: arrays of different
lengths raise ValueError unless one of them has one element. -/
def checkTimes (a b : List K) : Except PyErr Unit :=
  match a, b with
  | [x], b => if b.all (timeClose x) then .ok () else .error .assertionError
  | a, [y] => if a.all (timeClose · y) then .ok () else .error .assertionError
  | a, b =>
    if a.length ≠ b.length then .error .valueError
    else if (a.zip b).all (fun p => timeClose p.1 p.2) then .ok () else .error .assertionError

/-- The transfer functions handed to `_plot_site_amp`: frequencies, amplification, its smoothed form, phase. -/
structure AmpArgs (K : Type) where
  freq : List K
  ampl : List K
  smoothed : Option (List K)
  phase : Option (List K)

/-- helper_site_response.py L1862-1878: the time histories; the record with the larger peak is drawn first. -/
def timePanel (xin xout : Rec K) : Except PyErr (ResPanel K) := do
  let i ← plLine (xin.map Prod.fst) (xin.map Prod.snd)
  let o ← plLine (xin.map Prod.fst) (xout.map Prod.snd)
  return ⟨"Acceleration", if maxAbs (xin.map Prod.snd) ≤ maxAbs (xout.map Prod.snd) then [o, i] else [i, o]⟩

/-- helper_site_response.py L1880-1906: amplification and phase. -/
def ampPanels (g : AmpArgs K) : Except PyErr (List (ResPanel K)) := do
  let a ← plLine g.freq g.ampl
  let s ← g.smoothed.toList.mapM (plLine g.freq)
  let one ← plLine g.freq (g.freq.map fun _ => 1)
  let p ← g.phase.toList.mapM (plLine g.freq)
  return ⟨"Amplification", a :: s ++ [one]⟩ :: p.map fun l => ⟨"Phase shift [rad]", [l]⟩

/-- helper_site_response.py L1760-1922 `_plot_site_amp` for 1D arrays; `fou` is `sig.fourier_transform` (frequencies and amplitudes). -/
def plotSiteAmp (fou : Rec K → Except PyErr (List K × List K)) (xin xout : Rec K) (g : Option (AmpArgs K)) :
    Except PyErr (List (ResPanel K)) := do
  checkTimes (xin.map Prod.fst) (xout.map Prod.fst)
  let t ← timePanel xin xout
  let a ← match g with
    | none => .ok []
    | some g => ampPanels g
  let fi ← fou xin
  let fo ← fou xout
  return t :: a ++ [⟨"Fourier amplitudes", [fo, fi]⟩]

/-- A transfer function object: frequencies, amplitude and phase. -/
structure TfCols (K : Type) where
  freq : List K
  ampl : List K
  phase : List K

/-- class_simulation_results.py L253-280: the first figure.  The frequencies of the smoothed transfer function are not used. -/
def resPlot1 (fou : Rec K → Except PyErr (List K × List K)) (xin xout : Rec K) (tf tfs : Option (TfCols K)) :
    Except PyErr (List (ResPanel K)) :=
  plotSiteAmp fou xin xout (tf.map fun t => ⟨t.freq, t.ampl, tfs.map TfCols.ampl, some t.phase⟩)

/-- The second figure: the panels and the two limits of the depth axis (bottom, top), common to all panels. -/
structure MaxFigure (K : Type) where
  panels : List (ResPanel K)
  bottom : K
  top : K

/-- class_simulation_results.py L282-363: the profiles of the maxima; `np.max` of no rows raises ValueError. -/
def maxFigure (avd : List (K × K × K × K)) (gt : List (K × K × K)) : Except PyErr (MaxFigure K) :=
  match avd.map Prod.fst with
  | [] => .error .valueError
  | z :: zs => .ok ⟨[⟨"Max. accel. [m/s/s]", [(avd.map fun r => r.2.1, avd.map Prod.fst)]⟩,
      ⟨"Max. veloc. [cm/s]", [(avd.map fun r => r.2.2.1 * 100, avd.map Prod.fst)]⟩,
      ⟨"Max. displ. [cm]", [(avd.map fun r => r.2.2.2 * 100, avd.map Prod.fst)]⟩,
      ⟨"gamma_max [%]", [(gt.map fun r => r.2.1 * 100, gt.map Prod.fst)]⟩,
      ⟨"tau_max [kPa]", [(gt.map fun r => r.2.2 / 1000, gt.map Prod.fst)]⟩], zs.foldl max z, 0⟩

/-- class_simulation_results.py L253-366: both figures; without one of the two arrays of maxima there is no second figure. -/
def resPlot (fou : Rec K → Except PyErr (List K × List K)) (xin xout : Rec K) (tf tfs : Option (TfCols K))
    (avd : Option (List (K × K × K × K))) (gt : Option (List (K × K × K))) :
    Except PyErr (List (ResPanel K) × Option (MaxFigure K)) := do
  let f1 ← resPlot1 fou xin xout tf tfs
  match avd, gt with
  | some a, some g => do
    let f2 ← maxFigure a g
    return (f1, some f2)
  | _, _ => return (f1, none)

end Verif
