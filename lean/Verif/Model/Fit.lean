import Verif.Model.Calib
import Verif.Model.Batch
import Verif.Model.Amplify
import Verif.Model.Smooth

/-!
Model of the damping-curve fits (`helper_hh_model.py`, `helper_mkz_model.py`, `helper_site_response.py`), of the methods
that use them (`class_curves.py`, `class_damping_calibration.py`) and of the curves of a parameter set
(`class_parameters.py`).  The optimisers (`scipy.optimize.differential_evolution`, DEAP) are parameters.
-/

namespace Verif

/-! ## Fits and the arrays they are given -/

section Arrays
variable {K : Type} [Field K] [LinearOrder K] {R : Type}

/-- helper_hh_model.py L235-236, helper_mkz_model.py L129-130: `damping[:, 1] -= damping[0, 1]`. -/
def shiftCurve : List (K × K) → List (K × K)
  | [] => []
  | (e, x0) :: rest => ((e, x0) :: rest).map fun p => (p.1, p.2 - x0)

/-- A numeric two-column array with a negative entry is refused by `check_two_column_format`. -/
def hasNeg (d : List (K × K)) : Bool := d.any fun p => decide (p.1 < 0) || decide (p.2 < 0)

/-- helper_hh_model.py L229-270, helper_mkz_model.py L127-164: one fit of the array at address `a`, which is changed in
place; `fit` stands for what is computed from the shifted array. -/
def fitOne (fit : List (K × K) → Except PyErr R) (σ : CStore K) (a : Nat) : Except PyErr R × CStore K :=
  match σ[a]? with
  | none => (.error .other, σ)
  | some d =>
    if hasNeg d then (.error .valueError, σ)
    else if d = [] then (.error .indexError, σ)
    else (fit (shiftCurve d), σ.set a (shiftCurve d))

/-- helper_site_response.py L2518-2521 (and the work of one pool process on its chunk): one fit after the other. -/
def fitSerial (fit : List (K × K) → Except PyErr R) (σ : CStore K) : List Nat → Except PyErr (List R) × CStore K
  | [] => (.ok [], σ)
  | a :: as =>
    match fitOne fit σ a with
    | (.error e, σ') => (.error e, σ')
    | (.ok r, σ') =>
      match fitSerial fit σ' as with
      | (.error e, σ'') => (.error e, σ'')
      | (.ok rs, σ'') => (.ok (r :: rs), σ'')

/-- helper_site_response.py L2509-2517: `Pool.map`.  Every chunk is pickled, so that the process works on its own copy of
the arrays (an array occurring twice in a chunk is one array there, too). -/
def fitPool (fit : List (K × K) → Except PyErr R) (σ : CStore K) (addrs : List Nat) (sched : List (List Nat)) :
    Except PyErr (List R) :=
  poolMap addrs.length (fun c => (fitSerial fit σ (c.filterMap fun i => addrs[i]?)).1) sched

/-- helper_site_response.py L2366-2555 `fit_all_damping_curves` for a list of two-column arrays, given by their addresses,
without figure and text file.  `par` is the schedule of the pool, `none` for `parallel=False`. -/
def fitAll (fit : List (K × K) → Except PyErr R) (σ : CStore K) (addrs : List Nat) (par : Option (List (List Nat))) :
    Except PyErr (List R) × CStore K :=
  if addrs.any fun a => hasNeg (σ[a]?.getD []) then (.error .valueError, σ)
  else
    match par with
    | none => fitSerial fit σ addrs
    | some sched => (fitPool fit σ addrs sched, σ)

/-- The caller's view of a curve object: the array it was made from, and where its strain and value columns live. -/
structure DampObj (K : Type) where
  raw : Nat
  cols : Where K

/-- class_curves.py L90-114, L345-368: `Damping_Curve(...)` keeps `raw_data = data`. -/
def mkDamping (σ : CStore K) (a : Nat) (du su : Unit1) (interp : Option (List (K × K) → List (K × K))) :
    Except PyErr (DampObj K) × CStore K :=
  match mkCurve σ a (.damping du) su interp true with
  | (.error e, σ') => (.error e, σ')
  | (.ok w, σ') => (.ok ⟨a, w⟩, σ')

/-- class_curves.py L434-447, L516-529: the methods fit `self.raw_data`. -/
def DampObj.fit (fit : List (K × K) → Except PyErr R) (σ : CStore K) (o : DampObj K) : Except PyErr R × CStore K :=
  fitOne fit σ o.raw

end Arrays

/-! ## The optimisation -/

/-- What `scipy.optimize.differential_evolution` is called with (helper_site_response.py L2713-2723). -/
structure DECall where
  bounds : List (ℝ × ℝ)
  popsize : Int
  workers : Int

/-- helper_site_response.py L2710-2712: bounds, workers and population of the call (`use_scipy=True`). -/
def gaCall (nParam : Nat) (lower upper : ℝ) (popSize : Int) (parallel : Bool) (nCores : Option Int) : DECall where
  bounds := List.replicate nParam (lower, upper)
  popsize := max 1 (popSize / (nParam : Int))
  workers := if parallel = true ∧ nCores = none then -1 else 1

noncomputable section

/-- helper_hh_model.py L237-248, helper_mkz_model.py L131-142: the shifted curve in unit 1, interpolated at
`np.logspace(-6, -1, 122)`. -/
def denseCurve (d : List (ℝ × ℝ)) : Except PyErr (List (ℝ × ℝ)) :=
  (logspace (1 / 1000000) (1 / 10) 122).mapM fun x =>
    match npInterp (d.map fun p => (p.1 / 100, p.2 / 100)) x with
    | .error e => .error e
    | .ok y => .ok (x, y)

/-- An optimiser: from the number of parameters and the damping data to the powers found. -/
abbrev Optimiser := Nat → List (ℝ × ℝ) → Except PyErr (List ℝ)

/-- helper_hh_model.py L272-281: dictionary of the HH parameters. -/
def hhOfPowers : List ℝ → Except PyErr (Dict ℝ)
  | x0 :: x1 :: x2 :: x3 :: x4 :: x5 :: x6 :: x7 :: x8 :: _ =>
    .ok [("gamma_t", 10 ^ x0), ("a", 10 ^ x1), ("gamma_ref", 10 ^ x2), ("beta", 10 ^ x3), ("s", 10 ^ x4), ("Gmax", 10 ^ x5),
      ("mu", 10 ^ x6), ("Tmax", 10 ^ x7), ("d", 10 ^ x8)]
  | _ => .error .indexError

/-- helper_mkz_model.py L166-170: dictionary of the MKZ parameters. -/
def mkzOfPowers : List ℝ → Except PyErr (Dict ℝ)
  | x0 :: x1 :: x2 :: _ => .ok [("gamma_ref", 10 ^ x0), ("s", 10 ^ x1), ("beta", 10 ^ x2), ("Gmax", 1)]
  | _ => .error .indexError

/-- helper_hh_model.py L237-281, from the shifted curve to the parameters. -/
def fitHH (opt : Optimiser) (d : List (ℝ × ℝ)) : Except PyErr (Dict ℝ) := do
  let dense ← denseCurve d
  let r ← opt 9 dense
  hhOfPowers r

/-- helper_mkz_model.py L131-170, from the shifted curve to the parameters. -/
def fitH4 (opt : Optimiser) (d : List (ℝ × ℝ)) : Except PyErr (Dict ℝ) := do
  let dense ← denseCurve d
  let r ← opt 3 dense
  mkzOfPowers r

/-! ## Curves of a parameter set -/

/-- The two soil models. -/
inductive SoilModel | hh | mkz
  deriving DecidableEq

/-- class_parameters.py L278-288, L326: the parameter names. -/
def SoilModel.keys : SoilModel → List String
  | .hh => hhKeys
  | .mkz => mkzKeys

/-- `tau_HH(strain, **param)`, `tau_MKZ(strain, **param)`: missing or unknown names raise TypeError. -/
def stressOf (m : SoilModel) (d : Dict ℝ) (strain : List ℝ) : Except PyErr (List ℝ) :=
  if !sameKeys d m.keys then .error .typeError
  else
    match m with
    | .mkz =>
      match mkzOrder.mapM d.look with
      | .ok [gr, s, beta, G] => .ok (strain.map (tauMKZ gr beta s G))
      | .ok _ => .error .typeError
      | .error e => .error e
    | .hh =>
      match hhOrder.mapM d.look with
      | .ok [gt, a, gr, beta, s, G, mu, T, dd] => tauHH ⟨gt, a, gr, beta, s, G, mu, T, dd⟩ strain
      | .ok _ => .error .typeError
      | .error e => .error e

/-- helper_site_response.py L2170-2207 `calc_damping_from_param`. -/
def dampingFromParam (m : SoilModel) (d : Dict ℝ) (strain : List ℝ) : Except PyErr (List ℝ) := do
  let tau ← stressOf m d strain
  let G ← d.look "Gmax"
  calcDamping Real.pi strain tau G

/-- class_parameters.py L123-145 `get_stress` (strain in percent). -/
def paramStress (m : SoilModel) (d : Dict ℝ) (pct : List ℝ) : Except PyErr (List ℝ) := stressOf m d (pct.map (· / 100))

/-- class_parameters.py L147-171 `get_GGmax` (strain in percent). -/
def paramGGmax (m : SoilModel) (d : Dict ℝ) (pct : List ℝ) : Except PyErr (List ℝ) := do
  let tau ← paramStress m d pct
  let G ← d.look "Gmax"
  calcGGmax (pct.map (· / 100)) tau (some G)

/-- class_parameters.py L173-198 `get_damping` (strain and result in percent). -/
def paramDamping (m : SoilModel) (d : Dict ℝ) (pct : List ℝ) : Except PyErr (List ℝ) := do
  let x ← dampingFromParam m d (pct.map (· / 100))
  return x.map (· * 100)

/-- class_parameters.py L455-465: the columns of `curves` of one layer. -/
def paramBlock (m : SoilModel) (pct : List ℝ) (d : Dict ℝ) : Except PyErr (List (List ℝ)) := do
  let g ← paramGGmax m d pct
  let x ← paramDamping m d pct
  return [pct, g, pct, x]

/-- `GGmax_Curve(array)`, `Damping_Curve(array)` with default arguments: `array` has the columns given. -/
def curveOf (kind : CurveKind) (m : CMat ℝ) : Except PyErr (List (ℝ × ℝ)) :=
  match m.cols with
  | [e, v] =>
    match mkCurve [e.zip v] 0 kind .pct none true with
    | (.error e, _) => .error e
    | (.ok w, σ) => .ok (w.read σ)
  | _ => .error .typeError

/-- class_parameters.py L424-485 `construct_curves`: `curve_type` None, 'ggmax' or 'xi'; `none` in the result is Python's
`None`.  Without layers `curves` is `None`: TypeError from the first check (ValueError if `curve_type` is None, as both
arguments of `Multiple_GGmax_Damping_Curves` are `None`). -/
def constructCurves (m : SoilModel) (ps : List (Dict ℝ)) (pct : List ℝ) (type : Option String) :
    Except PyErr (Option (List (List (ℝ × ℝ))) × Option (List (List (ℝ × ℝ)))) := do
  let blocks ← ps.mapM (paramBlock m pct)
  if ps = [] then
    if type = some "ggmax" ∨ type = some "xi" then .error .typeError else .error .valueError
  else do
    let (gs, ds) ← extractCurves ⟨pct.length, blocks.flatten⟩ false
    if type = some "ggmax" then
      let g ← gs.mapM (curveOf .ggmax)
      return (some g, none)
    else if type = some "xi" then
      let x ← ds.mapM (curveOf (.damping .pct))
      return (none, some x)
    else
      let g ← gs.mapM (curveOf .ggmax)
      let x ← ds.mapM (curveOf (.damping .pct))
      return (some g, some x)

/-! ## The objective -/

/-- helper_generic.py L607-626 `mean_absolute_error` for arrays of equal length; the mean of nothing is NaN. -/
def meanAbsErr (y p : List ℝ) : Except PyErr ℝ :=
  if y.length ≠ p.length then .error .valueError
  else if y = [] then .error .nonFinite
  else .ok ((List.zipWith (fun a b => |a - b|) y p).sum / y.length)

/-- helper_mkz_model.py L178-217 `damping_misfit`. -/
def misfitMKZ (x : List ℝ) (data : List (ℝ × ℝ)) : Except PyErr ℝ :=
  match x with
  | [gr, s, beta] =>
    match calcDamping Real.pi (data.map Prod.fst) ((data.map Prod.fst).map (tauMKZ (10 ^ gr) (10 ^ beta) (10 ^ s) 1)) 1 with
    | .error e => .error e
    | .ok p => meanAbsErr (data.map Prod.snd) p
  | _ => .error .valueError

/-- helper_hh_model.py L289-343 `_damping_misfit`. -/
def misfitHH (x : List ℝ) (data : List (ℝ × ℝ)) : Except PyErr ℝ :=
  match x with
  | [gt, a, gr, beta, s, G, mu, T, d] =>
    match tauHH ⟨10 ^ gt, 10 ^ a, 10 ^ gr, 10 ^ beta, 10 ^ s, 10 ^ G, 10 ^ mu, 10 ^ T, 10 ^ d⟩ (data.map Prod.fst) with
    | .error e => .error e
    | .ok tau =>
      match calcDamping Real.pi (data.map Prod.fst) tau (10 ^ G) with
      | .error e => .error e
      | .ok p => meanAbsErr (data.map Prod.snd) p
  | _ => .error .valueError

/-! ## Damping calibration -/

/-- Outcome of `get_HH_x_param` and `get_H4_x_param` of `Damping_Calibration`: the layers' dictionaries. -/
abbrev LayerDicts := List (Dict ℝ)

/-- class_damping_calibration.py L104-127 `get_HH_x_param`, serial: the curves are fresh arrays. -/
def calibHHx (opt : Optimiser) (rows : List (Row ℝ)) : Except PyErr LayerDicts :=
  match getDampingCurves rows (geomspace 0.0001 15 100) false with
  | .error e => .error e
  | .ok cs => (fitAll (fitHH opt) cs (List.range cs.length) none).1

/-- class_damping_calibration.py L129-154 `get_H4_x_param`, serial: L153 calls `get_all_HH_x_params`. -/
def calibH4x (opt : Optimiser) (rows : List (Row ℝ)) : Except PyErr LayerDicts :=
  match getDampingCurves rows (geomspace 0.0001 15 100) false with
  | .error e => .error e
  | .ok cs => (fitAll (fitHH opt) cs (List.range cs.length) none).1

end

end Verif
