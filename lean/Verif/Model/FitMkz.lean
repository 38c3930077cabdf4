import Verif.Model.Calib

/-!
`fit_MKZ` (helper_mkz_model.py L306-444) with both results: the parameters and the fitted curves.
-/

namespace Verif

noncomputable section

/-- helper_mkz_model.py L361 `np.geomspace(1e-6, 0.1, num=109)`. -/
def mkzStrains : List ℝ := geomspace (1 / 10 ^ 6) (1 / 10) 109

/-- helper_mkz_model.py L392-402: the fitted G/Gmax curve for `(gamma_ref, beta, s)`.  For `gamma_ref = 0` (the lower bound of the fit) the
quotient is infinite and the stress 0. -/
def fittedGG (p : ℝ × ℝ × ℝ) : Except PyErr (List ℝ) :=
  calcGGmax mkzStrains (mkzStrains.map fun g => if p.1 = 0 then 0 else tauMKZ p.1 p.2.1 p.2.2 1 g) (some 1)

/-- helper_mkz_model.py L306-444 `fit_MKZ`: rows of `param`, and `fitted_curves` (made of zeros with as many columns as the input; columns
beyond the last four of a material are never filled). -/
def fitMkzOut (cf : CurveFit) (m : CMat ℝ) : Except PyErr (List (List ℝ) × CMat ℝ) :=
  match fitMKZ cf m with
  | .error e => .error e
  | .ok ps =>
    match ps.mapM fittedGG with
    | .error e => .error e
    | .ok gs =>
      .ok (ps.map (fun p => [p.1, 0, p.2.2, p.2.1]),
        ⟨109, gs.flatMap (fun g => [mkzStrains.map (· * 100), g, mkzStrains.map (· * 100), (List.replicate 109 0).map (· * 100)]) ++
          List.replicate (m.cols.length % 4) (List.replicate 109 0)⟩)

end

end Verif
