import Verif.Model.NumFormat
import Verif.Model.ProfileTf
import Verif.Model.SiteFactors

/-!
The numbers shown by `print(...)` of the objects of the package, by the labels of the figure of interpolated site factors
and by the figure of `linear_tf` (class_Vs_profile.py `__repr__`, class_ground_motion.py `__repr__`,
class_frequency_spectrum.py `__repr__`, class_site_factors.py `_plot_interp`, helper_site_response.py `linear_tf`).
The text around the numbers is left out; a number is what a reader of the text gets (`Verif.Model.NumFormat`).
-/

namespace Verif

section
variable {K : Type} [Field K] [LinearOrder K] [FloorRing K]

/-- class_Vs_profile.py L207-211: one line of the table: thickness, velocity, damping in percent, density, material. -/
def printRow (r : Row K) : Row K := ⟨fmtF 2 r.thk, fmtF 1 r.vs, fmtF 3 (r.xi * 100), fmtF 1 r.rho, fmtD r.mat⟩

/-- class_Vs_profile.py L199-217 `__repr__`: the table and Vs30. -/
def printProfile (rows : List (Row K)) (vs30 : K) : List (Row K) × K := (rows.map printRow, fmtF 1 vs30)

/-- The numbers in the text of a motion. -/
structure MotionText (K : Type) where
  npts : Nat
  dt : K
  pgaG : K
  pgaGal : K
  pgv : K
  pgd : K
  t595 : K
  deriving DecidableEq

/-- class_ground_motion.py L214-228 `__repr__`; the attributes in cm and g are those of L202-205. -/
def printMotion (m : Motion K) (t595 : K) : MotionText K :=
  ⟨m.npts, fmtG 4 m.dt, fmtG 3 (m.pga / (981 / 100)), fmtG 3 (m.pga * 100), fmtG 3 (m.pgv * 100), fmtG 3 (m.pgd * 100), fmtG 3 t595⟩

/-- class_site_factors.py L635: the label of a reference point, `'%d m/s, %d m, %.2gg'`. -/
def refLabel (v z p : K) : K × K × K := (fmtD v, fmtD z, fmtG 2 p)

end

noncomputable section

/-- class_frequency_spectrum.py L150-157 `__repr__`: interval, number of points, lowest and highest frequency. -/
def printSpectrum (s : FreqSpec) : ℝ × Nat × ℝ × ℝ := (fmtF 2 s.rawDf, s.nPts, fmtF 2 s.fmin, fmtF 2 s.fmax)

/-! ## The figure of interpolated factors -/

/-- A line of the figure: abscissae, ordinates, and the reference point in its label (`none`: "Interpolated"). -/
structure FacLine where
  x : List ℝ
  y : List ℝ
  label : Option (ℝ × ℝ × ℝ)

/-- class_site_factors.py L306-348 with `show_interp_plots=True` and L573-681 `_plot_interp` without phases (the only way it
is called): the lines in the order in which they are drawn, and the query point in the title.  matplotlib raises ValueError
for lines with unequal lengths. -/
def sfFigure (d : SfData) (g : GridFun) (s : SiteFac ℝ) (kind : SfKind) (m : SfMethod) :
    Except PyErr (List FacLine × (ℝ × ℝ × ℝ)) := do
  let combos ← locateGrids s
  let got ← combos.mapM fun c : ℕ × ℕ × ℕ => do
    match vs30Grid[c.1]?, z1Grid[c.2.1]?, pgaGrid[c.2.2]? with
    | some (v : ℕ), some (z : ℕ), some (p : ℕ) =>
      let r ← sfQuery d kind m v z c.2.2
      .ok (((v : ℝ), (z : ℝ), (p : ℝ) / 100), r)
    | _, _, _ => .error .indexError
  let (x, y) ← sfResults d g s kind m
  let cut : List ℝ → List ℝ := fun l => if kind = .rs then l else l.take 140
  let ls := got.map (fun r => (⟨x, cut r.2.2, some (refLabel r.1.1 r.1.2.1 r.1.2.2)⟩ : FacLine)) ++ [⟨x, y, none⟩]
  if ls.any fun l => l.x.length != l.y.length then .error .valueError
  else return (ls, refLabel s.vs30 s.z1 s.pga)

/-! ## The figure of `linear_tf` -/

/-- A panel of the figure: its place in the grid of three rows and four columns, the scale of the abscissa, the line and the
limits of the abscissa. -/
structure TfPanel where
  place : Nat
  logX : Bool
  freq : List ℝ
  y : List ℝ
  xlim : ℝ × ℝ

/-- `np.unwrap(np.angle(tf))`. -/
def phaseLine (tf : List ℂ) : List ℝ := npUnwrapFrom Real.pi Real.pi 0 (tf.map Complex.arg)

/-- helper_site_response.py L1348-1458: the figure of `linear_tf`: twelve panels in the order of drawing, and the three
fundamental frequencies written into the first three. -/
def tfFigure (rows : List (Row ℝ)) (df fmax : ℝ) : Except PyErr (List TfPanel × (ℝ × ℝ × ℝ)) := do
  let r ← linearTfOut rows df fmax
  let t := r.1
  let f0in ← findF0 (t.map fun r => (r.1, r.2.2.2.1))
  let f := t.map Prod.fst
  let lin : ℝ × ℝ := (0, fmax)
  let log : ℝ × ℝ := (1 / 10, fmax)
  return ([⟨1, false, f, t.map fun r => r.2.2.1, lin⟩, ⟨5, false, f, t.map fun r => r.2.2.2.1, lin⟩,
      ⟨9, false, f, t.map fun r => r.2.2.2.2, lin⟩,
      ⟨2, false, f, phaseLine (t.map fun r => r.2.1.1), lin⟩, ⟨6, false, f, phaseLine (t.map fun r => r.2.1.2.1), lin⟩,
      ⟨10, false, f, phaseLine (t.map fun r => r.2.1.2.2), lin⟩,
      ⟨3, true, f, t.map fun r => r.2.2.1, log⟩, ⟨7, true, f, t.map fun r => r.2.2.2.1, log⟩,
      ⟨11, true, f, t.map fun r => r.2.2.2.2, log⟩,
      ⟨4, true, f, phaseLine (t.map fun r => r.2.1.1), log⟩, ⟨8, true, f, phaseLine (t.map fun r => r.2.1.2.1), log⟩,
      ⟨12, true, f, phaseLine (t.map fun r => r.2.1.2.2), log⟩],
     (fmtF 2 r.2.1, fmtF 2 f0in, fmtF 2 r.2.2))

end

end Verif
