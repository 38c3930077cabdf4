import Verif.Model.Calib
import Verif.Model.FitMkz
import Verif.Model.MotionFigs

/-!
Model of the figures of the HH calibration (`produce_HH_G_param`, helper_hh_calibration.py L552-642) and of the MKZ fit (`fit_MKZ`,
helper_mkz_model.py L404-435).  Of a figure the lines with their legend labels, the vertical marks and the numbers in the titles are
modelled; colours, markers, scales and limits are not.
-/

namespace Verif

noncomputable section

/-- A panel of the calibration figure: lines, the abscissa of the vertical line, and the numbers of the title in their order. -/
structure HhPanel where
  ylab : String
  lines : List (LabLine ℝ)
  mark : ℝ
  title : List ℝ

/-- helper_hh_calibration.py L466-471: the stress curve implied by one G/Gmax curve; the first stress is set to zero. -/
def impliedStress (Gmax : ℝ) (strain gg : List ℝ) : List ℝ :=
  match List.zipWith (fun e g => g * Gmax * e / 100) strain gg with
  | [] => []
  | _ :: rest => 0 :: rest

/-- helper_hh_calibration.py L503-642, one layer with `show_fig=True`: the column of `parameters` and the figure.  `given` tells whether
the user gave curves, `vs` is the velocity and `gg` the G/Gmax curve of the layer.  A zero strain makes the secant modulus of HH NaN; that
is outside of the model. -/
def layerFig (given : Bool) (vs : ℝ) (q : LayerIn) (gg : List ℝ) : Except PyErr (List ℝ × HhPanel × HhPanel) :=
  let p0 := meanStress q.sv q.k0 / 1000
  let mu := muOne q.Gmax q.Tmax q.ocr p0
  let x := q.strain.map (· / 100)
  match kernel x q.gammaRef q.beta q.s q.Gmax q.Tmax mu with
  | .error e => .error e
  | .ok (a, gt, d) =>
    let tf := x.map (tauFKZ q.Gmax mu d q.Tmax)
    match tauHH ⟨gt, a, q.gammaRef, q.beta, q.s, q.Gmax, mu, q.Tmax, d⟩ x with
    | .error e => .error e
    | .ok th =>
      match q.strain with
      | [] => .error .valueError
      | e0 :: es =>
        if 0 ∈ q.strain then .error .nonFinite
        else if q.strain.length ≠ gg.length then .error .valueError
        else .ok ([gt, a, q.gammaRef, q.beta, q.s, q.Gmax, mu, q.Tmax, d],
          ⟨"Stress [kPa]", [⟨some (if given then "Given $G/G_{\\max}$" else "MKZ"), q.strain, (impliedStress q.Gmax q.strain gg).map (· / 1000)⟩,
              ⟨some "FKZ", q.strain, tf.map (· / 1000)⟩,
              ⟨none, [es.foldl min e0, es.foldl max e0], [q.Tmax / 1000, q.Tmax / 1000]⟩,
              ⟨some "HH", q.strain, th.map (· / 1000)⟩], gt * 100,
            [vs, q.Gmax / 1000000, q.Tmax / 1000, q.gammaRef * 100]⟩,
          ⟨"$G/G_{\\max}$", [⟨none, q.strain, gg⟩,
              ⟨none, q.strain, x.map fun g => mu / (1 + q.Gmax / q.Tmax * mu * |g|)⟩,
              ⟨none, q.strain, List.zipWith (fun t g => t / (q.Gmax * g)) th x⟩], gt * 100,
            [mu, a, gt * 100, d, p0]⟩)

/-- One pair of axes of the MKZ figure: both lines and the numbers of the title (`gamma_ref`, `s`, `beta`). -/
structure MkzPanel where
  lines : List (LabLine ℝ)
  title : List ℝ

/-- helper_mkz_model.py L352-435 `fit_MKZ(curves, show_fig=True)`: the panels, one for each four columns. -/
def fitMkzFig (cf : CurveFit) (m : CMat ℝ) : Except PyErr (List MkzPanel) :=
  match fitMKZ cf m with
  | .error e => .error e
  | .ok ps =>
    match ps.mapM fittedGG with
    | .error e => .error e
    | .ok gs => (List.range (m.cols.length / 4)).mapM fun k =>
      match m.cols[k * 4 + 0]?, m.cols[k * 4 + 1]?, ps[k]?, gs[k]? with
      | some g, some y, some p, some r =>
        .ok ⟨[⟨some "Data points", (g.map (· / 100)).map (· * 100), y⟩, ⟨some "Curve fit", mkzStrains.map (· * 100), r⟩],
          [p.1, p.2.2, p.2.1]⟩
      | _, _, _, _ => .error .indexError

end

end Verif
