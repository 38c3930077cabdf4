import Verif.Basic
import Verif.Model.Motion
import Mathlib.Analysis.SpecialFunctions.Pow.Complex
import Mathlib.Analysis.SpecialFunctions.Trigonometric.Basic

/-!
Model of the two linear wave-propagation solvers: `linear_tf`
(`helper_site_response.py`) and the transfer-function part of
`_lin_resp_every_layer` (`helper_simulations.py`).

Complex floating-point numbers are modelled by ℂ, `np.sqrt` of a complex number by
the principal square root.  Both solvers are modelled at one angular frequency; the
frequency grids are modelled separately.  A vanishing denominator gives inf/nan in
numpy and 0 here; `C79_*` shows that it does not occur for a damped profile.
-/

open Complex

namespace Verif

noncomputable section

/-- One row of the profile array used by the solvers: thickness, Vs, damping (unit 1)
and density. -/
structure Lay where
  h : ℝ
  vs : ℝ
  xi : ℝ
  rho : ℝ

/-- `np.sqrt` of a complex number (principal branch). -/
def csqrt (z : ℂ) : ℂ := z ^ (1 / 2 : ℂ)

/-- A 2×2 complex matrix. -/
@[ext] structure M2 where
  a : ℂ
  b : ℂ
  c : ℂ
  d : ℂ

/-- `np.dot`. -/
def M2.dot (x y : M2) : M2 :=
  ⟨x.a * y.a + x.b * y.c, x.a * y.b + x.b * y.d, x.c * y.a + x.d * y.c, x.c * y.b + x.d * y.d⟩

/-- The 2×2 identity, helper_site_response.py L1316-1318. -/
def M2.id : M2 := ⟨1, 0, 0, 1⟩

/-- helper_site_response.py L1292: complex shear-wave velocity. -/
def vsStar (l : Lay) : ℂ := (l.vs : ℂ) * csqrt (1 + 2 * I * l.xi)

/-- helper_site_response.py L1293-1297: impedance ratio of a layer to the next one. -/
def alphaStar (l m : Lay) : ℂ := (l.rho : ℂ) * vsStar l / ((m.rho : ℂ) * vsStar m)

/-- helper_site_response.py L1310-1311: complex wave number. -/
def kStar (w : ℝ) (l : Lay) : ℂ := (w : ℂ) / vsStar l

/-- helper_site_response.py L1320-1331: the matrix of layer `l` lying on layer `m`. -/
def dMat (w : ℝ) (l m : Lay) : M2 :=
  { a := (1 / 2) * ((1 + alphaStar l m) * exp (I * kStar w l * l.h))
    b := (1 / 2) * ((1 - alphaStar l m) * exp (-I * kStar w l * l.h))
    c := (1 / 2) * ((1 - alphaStar l m) * exp (I * kStar w l * l.h))
    d := (1 / 2) * ((1 + alphaStar l m) * exp (-I * kStar w l * l.h)) }

/-- The matrices of all layers but the last, top to bottom. -/
def dMats (w : ℝ) (ls : List Lay) : List M2 := List.zipWith (dMat w) ls ls.tail

/-- helper_site_response.py L1316-1332: `E = dot(E, D_j)` for j = n-2, …, 0. -/
def eMat (w : ℝ) (ls : List Lay) : M2 := (dMats w ls).reverse.foldl M2.dot M2.id

/-- helper_site_response.py L1334. -/
def tfRo (w : ℝ) (ls : List Lay) : ℂ := 1 / ((eMat w ls).a + (eMat w ls).b)

/-- helper_site_response.py L1335. -/
def tfIn (w : ℝ) (ls : List Lay) : ℂ := 2 / ((eMat w ls).a + (eMat w ls).b)

/-- helper_site_response.py L1336. -/
def tfBh (w : ℝ) (ls : List Lay) : ℂ :=
  2 / ((eMat w ls).a + (eMat w ls).c + (eMat w ls).b + (eMat w ls).d)

/-- helper_site_response.py L1299-1302: the frequency grid. -/
def tfFreqs (df fmax : ℝ) : List ℝ :=
  linspace df (df * ⌊fmax / df⌋.toNat) ⌊fmax / df⌋.toNat

/-- helper_site_response.py L1304-1340: frequency, TF_ro, TF_in, TF_bh and the
corresponding amplification functions. -/
def linearTf (ls : List Lay) (df fmax : ℝ) : List (ℝ × (ℂ × ℂ × ℂ) × (ℝ × ℝ × ℝ)) :=
  (tfFreqs df fmax).map fun f =>
    let w := 2 * Real.pi * f
    (f, (tfRo w ls, tfIn w ls, tfBh w ls), (‖tfRo w ls‖, ‖tfIn w ls‖, ‖tfBh w ls‖))

/-! ## The every-layer solver -/

/-- Row of the inputs of `_lin_resp_every_layer`. -/
structure GLay where
  h : ℝ
  G : ℝ
  D : ℝ
  rho : ℝ

/-- helper_simulations.py L562: the initial modulus `Gmax = rho * vs**2`. -/
def toG (l : Lay) : GLay := ⟨l.h, l.rho * l.vs ^ 2, l.xi, l.rho⟩

/-- helper_simulations.py L675. -/
def vsStarG (l : GLay) : ℂ := csqrt ((l.G : ℂ) * (1 + 2 * I * l.D) / l.rho)

/-- helper_simulations.py L666-669. -/
def alphaG (l m : GLay) : ℂ := ((l.rho : ℂ) * vsStarG l) / ((m.rho : ℂ) * vsStarG m)

inductive Boundary | elastic | rigid
  deriving DecidableEq

/-- helper_simulations.py L664-672: `alpha`; with a rigid boundary `alpha[-1] = 0`, an
IndexError if there is only one layer. -/
def alphasG (b : Boundary) (ls : List GLay) : Except PyErr (List ℂ) :=
  let al := List.zipWith alphaG ls ls.tail
  match b with
  | .elastic => .ok al
  | .rigid => if al = [] then .error .indexError else .ok (al.dropLast ++ [0])

/-- helper_simulations.py L679-680: wave number. -/
def kStarG (w : ℝ) (l : GLay) : ℂ := (w : ℂ) * (1 / vsStarG l)

/-- helper_simulations.py L689-698: amplitudes at the top of the next layer. -/
def abNext (w : ℝ) (l : GLay) (al : ℂ) (p : ℂ × ℂ) : ℂ × ℂ :=
  ( (1 / 2) * p.1 * (1 + al) * exp (I * kStarG w l * l.h)
      + (1 / 2) * p.2 * (1 - al) * exp (-I * kStarG w l * l.h),
    (1 / 2) * p.1 * (1 - al) * exp (I * kStarG w l * l.h)
      + (1 / 2) * p.2 * (1 + al) * exp (-I * kStarG w l * l.h) )

/-- helper_simulations.py L684-698: columns of A and B. -/
def abScan (w : ℝ) (p : ℂ × ℂ) : List (GLay × ℂ) → List (ℂ × ℂ)
  | [] => [p]
  | (l, al) :: rest => p :: abScan w (abNext w l al p) rest

/-- helper_simulations.py L684-704: the row of `H_ss` at angular frequency `w`.  The
last layer contributes no propagation step. -/
def hRow (b : Boundary) (w : ℝ) (ls : List GLay) : Except PyErr (List ℂ) :=
  match alphasG b ls with
  | .error e => .error e
  | .ok al =>
    let ab := abScan w (1, 1) (ls.zip al)
    .ok (ab.map fun p => (p.1 + p.2) / (ab.getLastD (1, 1)).1)

end

end Verif
