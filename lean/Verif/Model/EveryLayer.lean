import Verif.Model.EquivLinear

/-!
Model of the every-layer solvers in `helper_simulations.py`: `_prepare_inputs`,
`_lin_resp_every_layer`, `_calc_stress`, `_post_processing`, `linear` and `equiv_linear`, and of
the way `Linear_Simulation.run` and `Equiv_Linear_Simulation.run` package the results.

A 2D array (time × layer) is the list of its columns.
-/

open Complex

namespace Verif

noncomputable section

/-- What `_prepare_inputs` derives from the motion. -/
structure PrepMotion where
  even : Bool
  t : List ℝ
  dt : ℝ
  a : List ℝ
  deriving DecidableEq

/-- helper_simulations.py L528-545: halved acceleration, padded to an odd length.  `t[1]` needs two
samples. -/
def prepMotion (x : Rec ℝ) : Except PyErr PrepMotion := do
  let dt ← dtOf x
  let t := x.map Prod.fst
  let a := (x.map Prod.snd).map (· / 2)
  match t.getLast?, a.getLast? with
  | some tl, some al =>
    if a.length % 2 = 0 then .ok ⟨true, t ++ [tl + dt], dt, a ++ [al]⟩ else .ok ⟨false, t, dt, a⟩
  | _, _ => .error .indexError

/-- Converting a profile row to the form used by `stratify`. -/
def toLRow (r : Row ℝ) : LRow ℝ (ℝ × ℝ × ℝ) := ⟨r.thk, r.vs, (r.xi, r.rho, r.mat)⟩

/-- Back. -/
def ofLRow (r : LRow ℝ (ℝ × ℝ × ℝ)) : Row ℝ := ⟨r.thk, r.vs, r.rest.1, r.rest.2.1, r.rest.2.2⟩

/-- helper_simulations.py L554: `stratify` of a five-column profile. -/
def stratify5 (rows : List (Row ℝ)) : List (Row ℝ) := (stratify (rows.map toLRow)).map ofLRow

/-- helper_simulations.py L551: the frequencies `1/(N dt), …, N/(N dt)`. -/
def simFreqs (N : Nat) (dt : ℝ) : List ℝ := (List.range N).map fun i : Nat => ((i : ℝ) + 1) / (N * dt)

/-- Input rows of the response calculation. -/
def gLays (h G D rho : List ℝ) : List GLay :=
  List.zipWith (fun (x : ℝ × ℝ) (y : ℝ × ℝ) => ⟨x.1, x.2, y.1, y.2⟩) (h.zip G) (D.zip rho)

/-- helper_simulations.py L683-704: the row of `H_ss` for given `alpha`. -/
def hRowAl (al : List ℂ) (w : ℝ) (ls : List GLay) : List ℂ :=
  let ab := abScan w (1, 1) (ls.zip al)
  ab.map fun p => (p.1 + p.2) / (ab.getLastD (1, 1)).1

/-- helper_simulations.py L653-660: angular frequencies of the over-sampled grid.  `df` is
`freq[1] - freq[0]` and the largest frequency `freq[-1]`. -/
def overOmega (N : Nat) (dt : ℝ) (i : Nat) : ℝ :=
  let df := (simFreqs N dt).getD 1 0 - (simFreqs N dt).getD 0 0
  let fmax := (simFreqs N dt).getD (N - 1) 0
  2 * Real.pi * (linspace (df / 15) fmax (N * 15)).getD i 0

/-- helper_simulations.py L651-711: the columns of `H`. -/
def hMatrix (N : Nat) (dt : ℝ) (b : Boundary) (ls : List GLay) : Except PyErr (List (List ℂ)) :=
  match alphasG b ls with
  | .error e => .error e
  | .ok al => .ok ((List.range ls.length).map fun k =>
      hColumn N fun i => (hRowAl al (overOmega N dt i) ls).getD k 0)

/-- helper_simulations.py L746-751: displacement after the baseline correction. -/
def unoffset (N : Nat) (d : List ℝ) : List ℝ :=
  (List.zipIdx d).map fun x => x.1 - ((x.2 : ℝ) + 1) / (N + 1) * d.getLastD 0

/-- Results of one response calculation, as columns. -/
structure Resp where
  H : List (List ℂ)
  accel : List (List ℝ)
  veloc : List (List ℝ)
  displ : List (List ℝ)
  strain : List (List ℝ)

/-- helper_simulations.py L741-742: acceleration of one layer. -/
def accelCol (A : List ℂ) (H : List ℂ) : List ℝ := (ifftL (List.zipWith (· * ·) A H)).map Complex.re

/-- helper_simulations.py L743. -/
def integrate (dt : ℝ) (a : List ℝ) : List ℝ := (cumsum a).map (· * dt)

/-- helper_simulations.py L743-751: displacement of one layer. -/
def displCol (N : Nat) (dt : ℝ) (a : List ℝ) : List ℝ := unoffset N (integrate dt (integrate dt a))

/-- helper_simulations.py L756-757, strain of each layer but the last. -/
def strainCols : List ℝ → List (List ℝ) → List (List ℝ)
  | h :: hs, d :: d' :: ds => List.zipWith (fun x y => (x - y) / h) d d' :: strainCols hs (d' :: ds)
  | _, _ => []

/-- helper_simulations.py L584-761 `_lin_resp_every_layer`; `acc` is the halved, padded
acceleration whose spectrum is `ACCEL_IN`. -/
def linResp (dt : ℝ) (b : Boundary) (acc : List ℝ) (Rg : ℝ) : RespFn ℝ Resp := fun h G D rho => do
  let N := acc.length
  let H ← hMatrix N dt b (gLays h G D rho)
  let A := fftL (acc.map fun x : ℝ => (x : ℂ))
  let accel := H.map (accelCol A)
  let displ := accel.map (displCol N dt)
  let strain := strainCols h displ
  return (⟨H, accel, accel.map (integrate dt), displ, strain⟩, strain.map fun s => Rg * maxAbs s)

/-- helper_simulations.py L797-805, one layer: stress from strain for the complex modulus `m`. -/
def stressCol (m : ℂ) (s : List ℝ) : List ℝ :=
  let half := (s.length + 1) / 2
  let ss := ((fftL (s.map fun x : ℝ => (x : ℂ))).take half).map (· * m)
  (ifftL (realFirst (ss ++ (ss.drop 1).reverse.map (starRingEnd ℂ)))).map Complex.re

/-- helper_simulations.py L798. -/
def modulusG (G D : ℝ) : ℂ := (G : ℂ) * (1 + 2 * I * D)

/-- helper_simulations.py L764-807 `_calc_stress`. -/
def calcStress (G D : List ℝ) (strain : List (List ℝ)) : List (List ℝ) :=
  List.zipWith stressCol (List.zipWith modulusG G.dropLast D.dropLast) strain

/-- The eleven results of `linear` and `equiv_linear`. -/
structure SimOut where
  profile : List (Row ℝ)
  freq : List ℝ
  tf : List ℂ
  surface : Rec ℝ
  a : List (List ℝ)
  v : List (List ℝ)
  d : List (List ℝ)
  gamma : List (List ℝ)
  tau : List (List ℝ)
  maxAvd : List (ℝ × ℝ × ℝ × ℝ)
  maxGt : List (ℝ × ℝ × ℝ)

/-- `a[:-1, :]` if the motion was padded. -/
def unpad {α : Type} (even : Bool) (c : List α) : List α := if even then c.dropLast else c

/-- `np.column_stack` of four arrays. -/
def colStack4 (p q r s : List ℝ) : Except PyErr (List (ℝ × ℝ × ℝ × ℝ)) :=
  if q.length = p.length ∧ r.length = p.length ∧ s.length = p.length then .ok (p.zip (q.zip (r.zip s)))
  else .error .valueError

/-- `np.column_stack` of three arrays. -/
def colStack3 (p q r : List ℝ) : Except PyErr (List (ℝ × ℝ × ℝ)) :=
  if q.length = p.length ∧ r.length = p.length then .ok (p.zip (q.zip r)) else .error .valueError

/-- helper_simulations.py L810-930 `_post_processing`, with the profile added. -/
def postProcess (pm : PrepMotion) (prof : List (Row ℝ)) (r : Resp) (stress : List (List ℝ)) : Except PyErr SimOut := do
  let half := (pm.a.length + 1) / 2
  let nf := if pm.even then half - 1 else half
  let a := r.accel.map (unpad pm.even)
  let v := r.veloc.map (unpad pm.even)
  let d := r.displ.map (unpad pm.even)
  let gamma := r.strain.map (unpad pm.even)
  let tau := stress.map (unpad pm.even)
  let surface ← colStack (unpad pm.even pm.t) (a.headD [])
  let zb ← thk2dep (prof.map Row.thk) false
  let zm ← thk2dep (prof.map Row.thk) true
  let maxAvd ← colStack4 zb (a.map maxAbs) (v.map maxAbs) (d.map maxAbs)
  let maxGt ← colStack3 zm (gamma.map maxAbs) (tau.map maxAbs)
  return ⟨prof, (simFreqs pm.a.length pm.dt).take nf, ((r.H.headD []).take nf).map (· / 2), surface, a, v, d, gamma, tau,
    maxAvd, maxGt⟩

/-- helper_simulations.py L475-581: checks and preparation common to both solvers.  A zero time
step makes the frequencies infinite. -/
def simPrepare (rows : List (Row ℝ)) (x : Rec ℝ) : Except PyErr (PrepMotion × List (Row ℝ)) := do
  checkVsFormat (.five rows)
  let pm ← prepMotion x
  if pm.dt = 0 then .error .nonFinite else .ok (pm, stratify5 rows)

/-- helper_simulations.py L66-221 `linear`. -/
def linearSim (rows : List (Row ℝ)) (x : Rec ℝ) (b : Boundary) : Except PyErr SimOut := do
  let (pm, prof) ← simPrepare rows x
  let G := prof.map fun r => r.rho * r.vs ^ 2
  let r ← linResp pm.dt b pm.a (65 / 100) (prof.map Row.thk) G (prof.map Row.xi) (prof.map Row.rho)
  postProcess pm prof r.1 (calcStress G (prof.map Row.xi) r.1.strain)

/-- helper_simulations.py L224-472 `equiv_linear`; the columns of `curve_matrix` are `cols`. -/
def equivLinear (rows : List (Row ℝ)) (x : Rec ℝ) (cols : List (List ℝ)) (b : Boundary) (tol Rg : ℝ) (maxIter : Int)
    (verbose : Bool) : Except PyErr SimOut := do
  let (pm, prof) ← simPrepare rows x
  let (s, r) ← eqIterate (linResp pm.dt b pm.a Rg) prof cols tol maxIter verbose
  postProcess pm s.prof r (calcStress s.G (s.prof.map Row.xi) r.strain)

/-! ## Packaging of the results -/

/-- class_simulation_results.py L155-195: the shape assertions, for all arrays given; `nl` is
`rediscretized_profile.n_layer` and `nt` is `accel_on_surface.npts`. -/
def resultShapes (nl nt : Nat) (o : SimOut) : Except PyErr Unit :=
  let shaped := fun (c : List (List ℝ)) (k : Nat) => c.length = k ∧ ∀ x ∈ c, x.length = nt
  if shaped o.a (nl + 1) ∧ shaped o.v (nl + 1) ∧ shaped o.d (nl + 1) ∧ shaped o.tau nl ∧ shaped o.gamma nl ∧
      o.maxAvd.length = nl + 1 ∧ o.maxGt.length = nl then .ok ()
  else .error .assertionError

/-- A `Simulation_Results` object: the numbers, and the profile object made from the re-discretised
profile. -/
structure SimRes where
  out : SimOut
  profile : List (Row ℝ)
  nLayer : Nat

/-- class_simulation.py L248-264 and L407-423: packaging; the re-discretised profile, whose
densities are in kg/m^3, is handed to `Vs_Profile` with `density_unit='g/cm^3'`.
`freq_array[1]` needs two frequencies. -/
def packResults (o : SimOut) : Except PyErr SimRes := do
  let (p, σ) ← mkProfile [.five o.profile] 0 .one .gcc false 3
  match σ[p.prof]? with
  | some (.five rows) =>
    if o.freq.length < 2 then .error .indexError
    else do
      resultShapes p.nLayer o.surface.length o
      return ⟨o, rows, p.nLayer⟩
  | _ => .error .other

/-- class_simulation.py L174-291 `Linear_Simulation.run` with `every_layer=True` (without figures and
files). -/
def linearRun (rows : List (Row ℝ)) (x : Rec ℝ) (b : Boundary) : Except PyErr SimRes := do
  let o ← linearSim rows x b
  packResults o

/-- class_simulation.py L341-434 `Equiv_Linear_Simulation.run` (without figures and files); the
defaults of `equiv_linear` are used. -/
def equivRun (rows : List (Row ℝ)) (x : Rec ℝ) (cols : List (List ℝ)) (b : Boundary) (verbose : Bool) :
    Except PyErr SimRes := do
  checkLayerCount ((cols.length / 4 : Nat) : Int) (rows.map Row.mat)
  let o ← equivLinear rows x cols b (75 / 1000) (65 / 100) 10 verbose
  packResults o

end

end Verif
