import Verif.Model.Soil
import Verif.Model.Curves
import Verif.Model.Motion

/-!
Model of the HH calibration (`helper_hh_calibration.py`, `class_hh_calibration.py`) and of the
generation of damping curves (`class_damping_calibration.py`).

Numpy functions of arrays are modelled layer by layer.  Floating point, the integer dtype of
`zeros_like` for integer input, console output (`Model/Console`) and figures (`Model/HhFig`) are left out; non-finite numbers produced by a
division by zero are modelled as the error `nonFinite`.  `scipy.optimize.curve_fit` is a parameter.
-/

namespace Verif

section Stress
variable {K : Type} [Field K] [LinearOrder K]

/-- helper_hh_calibration.py L800-801: a zero last thickness is overwritten by 1, in the caller's array. -/
def fixLast (h : List K) : List K := if h.getLast? = some 0 then h.dropLast ++ [1] else h

/-- helper_hh_calibration.py L804-809: the loop over `(h[i], rho[i])`, `i ≥ 1`; `s` is `stress[i-1]` and `(hp, rp)`
are thickness and density of the layer above. -/
def stressLoop (g s hp rp : K) : List (K × K) → List K
  | [] => []
  | (h, r) :: rest => (s + rp * g * hp / 2 + r * g * h / 2) :: stressLoop g (s + rp * g * hp / 2 + r * g * h / 2) h r rest

/-- helper_hh_calibration.py L774-811 `_calc_vertical_stress`: the stresses, and the array `h` of the caller
afterwards. -/
def vertStress (h rho : List K) : Except PyErr (List K × List K) :=
  if h = [] then .error .indexError
  else if rho.length < h.length then .error .indexError
  else match fixLast h, rho with
    | h0 :: hs, r0 :: rs =>
      .ok (r0 * (981 / 100) * h0 / 2 :: stressLoop (981 / 100) (r0 * (981 / 100) * h0 / 2) h0 r0 (hs.zip rs), fixLast h)
    | _, _ => .error .indexError

end Stress

/-- A number or an array, as accepted by `check_length_or_extend_to_array`. -/
inductive NumArg (K : Type) | num (x : K) | arr (l : List K)

/-- helper_generic.py L312-343 `check_length_or_extend_to_array`. -/
def NumArg.extend {K : Type} (n : Nat) : NumArg K → Except PyErr (List K)
  | .num x => .ok (List.replicate n x)
  | .arr l => if l.length = n then .ok l else .error .valueError

noncomputable section

/-! ## Soil properties -/

/-- helper_hh_calibration.py L851: denominator of the density formula. -/
def rhoDen (z v : ℝ) : ℝ := 0.614 + 58.7 * (Real.logb 10 z + 1.095) / v

/-- helper_hh_calibration.py L843, L851-853, one layer with mid-depth `z`. -/
def rhoOne (z v : ℝ) : Except PyErr ℝ :=
  if v = 0 ∨ rhoDen (if z = 0 then 0.0001 else z) v = 0 then .error .nonFinite
  else .ok (max 1.65 (1 + 1.0 / rhoDen (if z = 0 then 0.0001 else z) v) * 1000)

/-- helper_hh_calibration.py L814-854 `_calc_rho`.  Arrays of different lengths cannot be combined (broadcasting of
one-element arrays not modelled). -/
def calcRho (h vs : List ℝ) : Except PyErr (List ℝ) :=
  match thk2dep h true with
  | .error e => .error e
  | .ok z => if z.length ≠ vs.length then .error .valueError else (z.zip vs).mapM fun p => rhoOne p.1 p.2

/-- helper_hh_calibration.py L720-737 `_calc_Gmax`. -/
def calcGmax (vs rho : List ℝ) : List ℝ := List.zipWith (fun v r => r * v ^ 2) vs rho

/-- helper_hh_calibration.py L765-771, one layer. -/
def ocrOne (limit : Option ℝ) (v sv : ℝ) : ℝ :=
  let o := 0.106 * v ^ (1.47 : ℝ) * 1000 / sv
  match limit with
  | none => o
  | some l => min o l

/-- helper_hh_calibration.py L740-771 `_calc_OCR`. -/
def calcOCR (limit : Option ℝ) (vs sv : List ℝ) : List ℝ := List.zipWith (ocrOne limit) vs sv

/-- `np.sin(np.deg2rad(phi))`. -/
def sinDeg (phi : ℝ) : ℝ := Real.sin (phi * (Real.pi / 180))

/-- `np.tan(np.deg2rad(phi))`. -/
def tanDeg (phi : ℝ) : ℝ := Real.tan (phi * (Real.pi / 180))

/-- helper_hh_calibration.py L884-908 `_calc_K0`, one layer. -/
def k0One (phi ocr : ℝ) : ℝ := (1 - sinDeg phi) * ocr ^ sinDeg phi

/-- helper_hh_calibration.py L873-879 `_calc_PI`, one layer. -/
def piOne (v : ℝ) : ℝ := if v ≤ 200 then 10 else if v ≤ 360 then 5 else 0

/-- helper_hh_calibration.py L700-713 `_calc_shear_strength`, one layer. -/
def strengthOne (v ocr sv k0 phi : ℝ) : ℝ :=
  if v ≤ 760 then 1.2 * 0.28 * ocr ^ (0.8 : ℝ) * sv
  else
    let sh := k0 * sv
    let s1 := max sv sh
    let s3 := min sv sh
    let sn := (s1 + s3) / 2 - (s1 - s3) / 2 * sinDeg phi
    1.2 * sn * tanDeg phi

/-- helper_hh_calibration.py L1029-1048 `_calc_mean_confining_stress`, one layer. -/
def meanStress (sv k0 : ℝ) : ℝ := (2 * k0 + 1) / 3 * sv

/-! ## Darendeli curves -/

/-- The soil state of one layer that enters the Darendeli curves. -/
structure DState where
  (sv pi ocr k0 : ℝ)

/-- helper_hh_calibration.py L997-998: octahedral stress in atm. -/
def DState.atm (q : DState) : ℝ := meanStress q.sv q.k0 / 101325

/-- helper_hh_calibration.py L1002: reference strain in percent. -/
def darRef (q : DState) : ℝ := (0.0352 + 0.0010 * q.pi * q.ocr ^ (0.3246 : ℝ)) * q.atm ^ (0.3483 : ℝ)

/-- helper_hh_calibration.py L1007: `G/Gmax` at strain `g` (percent) for reference strain `r` (percent). -/
def darGG (r g : ℝ) : ℝ := 1.0 / (1 + (g / r) ^ (0.9190 : ℝ))

/-- helper_hh_calibration.py L1008-1013: `D_masing_1` (percent). -/
def darMasing1 (r g : ℝ) : ℝ :=
  100 / Real.pi * (4 * (g - r * Real.log ((g + r) / r)) / (g ^ 2 / (g + r)) - 2)

/-- helper_hh_calibration.py L991-993: `c1`, `c2`, `c3` with `a = 0.9190`. -/
def darC1 : ℝ := -1.1143 * 0.9190 ^ 2 + 1.8618 * 0.9190 + 0.2523
/-- See `darC1`. -/
def darC2 : ℝ := 0.0805 * 0.9190 ^ 2 - 0.0710 * 0.9190 - 0.0095
/-- See `darC1`. -/
def darC3 : ℝ := -0.0005 * 0.9190 ^ 2 + 0.0002 * 0.9190 + 0.0003

/-- helper_hh_calibration.py L994: `b`, with 10 cycles. -/
def darB : ℝ := 0.6329 + -0.0057 * Real.log 10

/-- helper_hh_calibration.py L1014-1016: `D_masing` (percent). -/
def darMasing (d : ℝ) : ℝ := darC1 * d + darC2 * d ^ 2 + darC3 * d ^ 3

/-- helper_hh_calibration.py L1017-1021: `D_min` (percent), with `frq = 1`. -/
def darMin (q : DState) : ℝ :=
  (0.8005 + 0.0129 * q.pi * q.ocr ^ (-0.1069 : ℝ)) * q.atm ^ (-0.2889 : ℝ) * (1 + 0.2919 * Real.log 1)

/-- helper_hh_calibration.py L1022, L1024: damping (not percent) at strain `g` percent. -/
def darXi (q : DState) (g : ℝ) : ℝ :=
  (darB * darGG (darRef q) g ^ (0.1 : ℝ) * darMasing (darMasing1 (darRef q) g) + darMin q) / 100

/-- Result of `produce_Darendeli_curves`: columns of `GGmax` and `xi`, and `gamma_r`. -/
structure DCurves where
  gg : List (List ℝ)
  xi : List (List ℝ)
  ref : List ℝ

/-- helper_hh_calibration.py L958-965: the soil states of the layers. -/
def darStates (sv : List ℝ) (pi ocr : NumArg ℝ) (k0 : Option (NumArg ℝ)) (phi : NumArg ℝ) : Except PyErr (List DState) := do
  let phi ← phi.extend sv.length
  let pi ← pi.extend sv.length
  let ocr ← ocr.extend sv.length
  let k0 ← match k0 with
    | none => Except.ok (List.zipWith k0One phi ocr)
    | some k => k.extend sv.length
  return (List.zip sv (List.zip pi (List.zip ocr k0))).map fun x => ⟨x.1, x.2.1, x.2.2.1, x.2.2.2⟩

/-- helper_hh_calibration.py L911-1026 `produce_Darendeli_curves`.  L999 takes `len(strain_in_pct)` of the argument
itself, which raises TypeError for the documented default `None`.  A zero strain gives `0/0` in the damping column. -/
def darendeli (sv : List ℝ) (pi ocr : NumArg ℝ) (k0 : Option (NumArg ℝ)) (phi : NumArg ℝ) (strain : Option (List ℝ)) :
    Except PyErr DCurves :=
  match darStates sv pi ocr k0 phi with
  | .error e => .error e
  | .ok qs =>
    match strain with
    | none => .error .typeError
    | some g =>
      if 0 ∈ g then .error .nonFinite
      else .ok ⟨qs.map fun q => g.map (darGG (darRef q)), qs.map fun q => g.map (darXi q), qs.map fun q => darRef q / 100⟩

/-! ## The FKZ optimisation -/

/-- helper_hh_calibration.py L1204-1206, L1259-1260: index of the sample where the two stress curves are closest. -/
def crossIdx (tm tf : List ℝ) : Option Nat := (findClosest (List.zipWith (fun a b => |a - b|) tm tf) 0).map Prod.fst

/-- `np.linalg.norm` of a real vector. -/
def norm2 (l : List ℝ) : ℝ := Real.sqrt (l.map fun x => x ^ 2).sum

/-- The arguments shared by the searches: strains, MKZ stresses, `Gmax`, `mu`, shear strength. -/
structure FkzCase where
  x : List ℝ
  tm : List ℝ
  Gmax : ℝ
  mu : ℝ
  tauF : ℝ

/-- `hh.tau_FKZ(x, …)`. -/
def FkzCase.fkz (c : FkzCase) (d : ℝ) : List ℝ := c.x.map (tauFKZ c.Gmax c.mu d c.tauF)

/-- helper_hh_calibration.py L1256-1265: one element of `area`; `none` is infinity.  `lb`, `ub` in percent. -/
def areaOne (c : FkzCase) (lb ub d : ℝ) : Option ℝ :=
  match crossIdx c.tm (c.fkz d) with
  | none => none
  | some k =>
    match c.x[k]? with
    | none => none
    | some gt =>
      if lb / 100 ≤ gt ∧ gt ≤ ub / 100 then
        some (norm2 (List.zipWith (fun a b => |a - b|) (c.tm.take (k + 1)) ((c.fkz d).take (k + 1))) / ((k : ℝ) + 1))
      else none

/-- `np.argmin(area)` when some area is finite: the first `d` of least area; `none` when all areas are infinite. -/
def argminArea (f : ℝ → Option ℝ) : Option (ℝ × ℝ) → List ℝ → Option ℝ
  | best, [] => best.map Prod.fst
  | best, d :: ds =>
    match f d with
    | none => argminArea f best ds
    | some a =>
      match best with
      | none => argminArea f (some (d, a)) ds
      | some b => argminArea f (if a < b.2 then some (d, a) else some b) ds

/-- helper_hh_calibration.py L1161-1208 `__find_x_t_and_d`, after the choice of `d`. -/
def findXt (c : FkzCase) (d : ℝ) : Except PyErr (ℝ × ℝ) :=
  match crossIdx c.tm (c.fkz d) with
  | none => .error .indexError
  | some k =>
    match c.x[k]? with
    | none => .error .indexError
    | some gt => .ok (gt, d)

/-- One search: L1111-1115 and its repetitions; `none` if no proper `d` exists. -/
def searchD (c : FkzCase) (n : Nat) (lb ub : ℝ) : Option ℝ := argminArea (areaOne c lb ub) none (linspace 0.67 1.39 n)

/-- helper_hh_calibration.py L1103-1105, L1107-1109: one relaxation of the lower bound. -/
def relaxLB (c : FkzCase) (lb new : ℝ) : Except PyErr ℝ :=
  match findClosest c.x (lb / 100) with
  | none => .error .other
  | some (k, _) =>
    match c.tm[k]? with
    | none => .error .indexError
    | some t => .ok (if t ≥ 0.85 * c.tauF then new else lb)

/-- helper_hh_calibration.py L1095-1158 `_optimization_kernel`: `(a, gamma_t, d)`.  The outcome for an empty strain
array is not modelled (`other`). -/
def kernel (x : List ℝ) (xref beta s Gmax tauF mu : ℝ) : Except PyErr (ℝ × ℝ × ℝ) :=
  let c : FkzCase := ⟨x, x.map (tauMKZ xref beta s Gmax), Gmax, mu, tauF⟩
  match relaxLB c (if mu ≤ 0.03 then 0.001 else 0.01) 0.005 with
  | .error e => .error e
  | .ok lb1 =>
    match relaxLB c lb1 0.001 with
    | .error e => .error e
    | .ok lb =>
      let found : Except PyErr (ℝ × ℝ) :=
        match searchD c 200 lb 3 with
        | some d => findXt c d
        | none =>
          match searchD c 400 lb 3 with
          | some d => findXt c d
          | none =>
            match searchD c 1000 0.005 3 with
            | some d => findXt c d
            | none => .ok (0.001 / 100, 1.03)
      match found with
      | .error e => .error e
      | .ok (gt, d) => .ok (100, gt, d)

/-! ## HH parameters -/

/-- helper_hh_calibration.py L480-489: `mu` of one layer; `p0` in kPa. -/
def muOne (Gmax Tmax ocr p0 : ℝ) : ℝ :=
  let mu := 1.0 / (0.000872 * Gmax / Tmax * ocr ^ (0.47 : ℝ) * p0 ^ (0.28 : ℝ))
  if mu ≤ 0.02 then mu * 10 ^ (0.236 * 3 : ℝ)
  else if mu ≤ 0.03 then mu * 10 ^ (0.236 * 2 : ℝ)
  else if mu ≤ 0.04 then mu * 10 ^ (0.236 * 1 : ℝ)
  else mu

/-- What the calibration of one layer starts from: small-strain modulus, strength, OCR, stress, K0, and the MKZ
parameters with the strains (percent) at which curves are compared. -/
structure LayerIn where
  (Gmax Tmax ocr sv k0 gammaRef beta s : ℝ)
  strain : List ℝ

/-- helper_hh_calibration.py L503-548: the column of `parameters` of one layer.  `tau_HH` (L527-538) asserts a
positive `gamma_t`. -/
def layerCol (q : LayerIn) : Except PyErr (List ℝ) :=
  match kernel (q.strain.map (· / 100)) q.gammaRef q.beta q.s q.Gmax q.Tmax
      (muOne q.Gmax q.Tmax q.ocr (meanStress q.sv q.k0 / 1000)) with
  | .error e => .error e
  | .ok (a, gt, d) =>
    match tauHH ⟨gt, a, q.gammaRef, q.beta, q.s, q.Gmax, muOne q.Gmax q.Tmax q.ocr (meanStress q.sv q.k0 / 1000),
        q.Tmax, d⟩ (q.strain.map (· / 100)) with
    | .error e => .error e
    | .ok _ => .ok [gt, a, q.gammaRef, q.beta, q.s, q.Gmax, muOne q.Gmax q.Tmax q.ocr (meanStress q.sv q.k0 / 1000),
        q.Tmax, d]

/-- `np.geomspace(a, b, n)` for positive ends. -/
def geomspace (a b : ℝ) (n : Nat) : List ℝ := (List.range n).map fun i : Nat => a * (b / a) ^ ((i : ℝ) / ((n : ℝ) - 1))

/-- The arrays describing the layers (one entry per layer). -/
structure SoilArrays where
  (vs Gmax Tmax ocr sv k0 : List ℝ)

/-- helper_hh_calibration.py L402-407: length checks of `produce_HH_G_param`. -/
def SoilArrays.lengthsOk (a : SoilArrays) : Bool :=
  a.Gmax.length = a.vs.length ∧ a.Tmax.length = a.vs.length ∧ a.ocr.length = a.vs.length ∧ a.sv.length = a.vs.length ∧
    a.k0.length = a.vs.length

/-- Per-layer records, given the MKZ parameters `(gamma_ref, beta, s)` and the strains of the layers. -/
def SoilArrays.layers (a : SoilArrays) (mkz : List (ℝ × ℝ × ℝ)) (strain : List (List ℝ)) : List LayerIn :=
  (List.zip a.Gmax (List.zip a.Tmax (List.zip a.ocr (List.zip a.sv (List.zip a.k0 (List.zip mkz strain)))))).map fun q =>
    ⟨q.1, q.2.1, q.2.2.1, q.2.2.2.1, q.2.2.2.2.1, q.2.2.2.2.2.1.1, q.2.2.2.2.2.1.2.1, q.2.2.2.2.2.1.2.2, q.2.2.2.2.2.2⟩

/-- helper_hh_calibration.py L311-658 `produce_HH_G_param` without curves: columns of the result. -/
def hhgDarendeli (a : SoilArrays) (pi phi : NumArg ℝ) : Except PyErr (List (List ℝ)) :=
  if !a.lengthsOk then .error .valueError
  else
    match darendeli a.sv pi (.arr a.ocr) (some (.arr a.k0)) phi (some (geomspace 0.0001 10 400)) with
    | .error e => .error e
    | .ok c => (a.layers (c.ref.map fun r => (r, 1, 0.9190)) (c.ref.map fun _ => geomspace 0.0001 10 400)).mapM layerCol

/-- `scipy.optimize.curve_fit` as used in helper_mkz_model.py L378-384: from strains and `G/Gmax` values to
`(beta, gamma_ref, s)`. -/
abbrev CurveFit := List ℝ → List ℝ → Except PyErr (ℝ × ℝ × ℝ)

/-- helper_mkz_model.py L306-389 `fit_MKZ`: for every four columns `(gamma_ref, beta, s)`. -/
def fitMKZ (cf : CurveFit) (m : CMat ℝ) : Except PyErr (List (ℝ × ℝ × ℝ)) :=
  (List.range (m.cols.length / 4)).mapM fun k =>
    match m.cols[k * 4 + 0]?, m.cols[k * 4 + 1]? with
    | some g, some y =>
      match cf (g.map (· / 100)) y with
      | .error e => .error e
      | .ok (beta, ref, s) => .ok (ref, beta, s)
    | _, _ => .error .indexError

/-- helper_hh_calibration.py L311-658 `produce_HH_G_param` with curves: columns of the result. -/
def hhgCurves (cf : CurveFit) (a : SoilArrays) (m : CMat ℝ) : Except PyErr (List (List ℝ)) :=
  if !a.lengthsOk then .error .valueError
  else if m.cols.length ≠ a.vs.length * 4 then .error .assertionError
  else
    match fitMKZ cf m with
    | .error e => .error e
    | .ok ps => (a.layers ps ((List.range (m.cols.length / 4)).filterMap fun k => m.cols[k * 4]?)).mapM layerCol

/-- helper_hh_calibration.py L124-133, L259-265: the arrays of the layers above the last row, from thickness, velocity
and density of these layers.  The thickness array is a view of the profile (never written to when its last entry is
positive, see `vertStress`). -/
def soilArrays (h vs rho : List ℝ) (Tmax : Option (List ℝ)) : Except PyErr SoilArrays :=
  match vertStress h rho with
  | .error e => .error e
  | .ok (sv, _) =>
    let ocr := calcOCR none vs sv
    let k0 := ocr.map (k0One 30)
    let T := match Tmax with
      | some t => t
      | none => (List.zip vs (List.zip ocr (List.zip sv k0))).map fun q => strengthOne q.1 q.2.1 q.2.2.1 q.2.2.2 30
    .ok ⟨vs, calcGmax vs rho, T, ocr, sv, k0⟩

/-- helper_hh_calibration.py L121-122, L256-257: the strengths given must be one per layer. -/
def tmaxOk (n : Nat) : Option (List ℝ) → Bool
  | none => true
  | some t => t.length = n

/-- helper_hh_calibration.py L50-164 `hh_param_from_profile` (without saving): columns of the result. -/
def hhFromProfile (c : Cell ℝ) (Tmax : Option (List ℝ)) : Except PyErr (List (List ℝ)) :=
  match checkVsFormat c with
  | .error e => .error e
  | .ok _ =>
    if !tmaxOk c.vs.dropLast.length Tmax then .error .valueError
    else
      match calcRho c.thk.dropLast c.vs.dropLast with
      | .error e => .error e
      | .ok rho =>
        match soilArrays c.thk.dropLast c.vs.dropLast rho Tmax with
        | .error e => .error e
        | .ok a => hhgDarendeli a (.arr (c.vs.dropLast.map piOne)) (.num 30)

/-- helper_hh_calibration.py L249-254: material numbers and densities of the layers above the last row. -/
def matRho : Cell ℝ → Except PyErr (List Nat × List ℝ)
  | .five rows => .ok (rows.dropLast.map fun r => ⌊r.mat⌋.toNat, rows.dropLast.map Row.rho)
  | .two rows =>
    match calcRho (rows.map Prod.fst).dropLast (rows.map Prod.snd).dropLast with
    | .error e => .error e
    | .ok rho => .ok ((List.range (rows.length - 1)).map (· + 1), rho)

/-- helper_hh_calibration.py L267-276: the columns of the materials of the layers, side by side. -/
def expandCurves (m : CMat ℝ) (mats : List Nat) : CMat ℝ := ⟨m.nrow, mats.flatMap fun k => (m.slice (k * 4 - 4) (k * 4)).cols⟩

/-- helper_hh_calibration.py L167-308 `hh_param_from_curves` (without saving): columns of the result. -/
def hhFromCurves (cf : CurveFit) (c : Cell ℝ) (m : CMat ℝ) (Tmax : Option (List ℝ)) : Except PyErr (List (List ℝ)) :=
  match checkVsFormat c with
  | .error e => .error e
  | .ok _ =>
    match matRho c with
    | .error e => .error e
    | .ok (mats, rho) =>
      if !tmaxOk c.vs.dropLast.length Tmax then .error .valueError
      else
        match soilArrays c.thk.dropLast c.vs.dropLast rho Tmax with
        | .error e => .error e
        | .ok a => hhgCurves cf a (expandCurves m mats)

/-- The array `parameters` of shape (9, n) as its rows. -/
def rowsOfCols (cols : List (List ℝ)) : List (List ℝ) := (List.range 9).map fun i => cols.filterMap fun l => l[i]?

/-- class_hh_calibration.py L61-95 `HH_Calibration.__init__` for arguments of the right types: `nLayer` is
`vs_profile.n_layer`, `curves` the number of layers of the G/Gmax curves. -/
def hhcInit (nLayer : Nat) (curves : Option Nat) (Tmax : Option (List ℝ)) : Except PyErr Unit :=
  match curves with
  | some k => if k ≠ nLayer then .error .valueError else if !tmaxOk nLayer Tmax then .error .valueError else .ok ()
  | none => if !tmaxOk nLayer Tmax then .error .valueError else .ok ()

/-- class_Vs_profile.py L197: `n_layer` of a profile object (rows without the half space). -/
def layerCount (rows : List (Row ℝ)) : Nat :=
  if (rows.map Row.thk).getLast? = some 0 then rows.length - 1 else rows.length

/-- class_hh_calibration.py L61-159: construction followed by `fit` for the five-column profile of a `Vs_Profile`;
`curves` is the G/Gmax object's number of layers and curve matrix.  The result is one parameter dictionary per
layer. -/
def hhcFit (cf : CurveFit) (rows : List (Row ℝ)) (curves : Option (Nat × CMat ℝ)) (Tmax : Option (List ℝ)) :
    Except PyErr (List (Dict ℝ)) :=
  match hhcInit (layerCount rows) (curves.map Prod.fst) Tmax with
  | .error e => .error e
  | .ok _ =>
    match (match curves with
      | none => hhFromProfile (.five rows) Tmax
      | some (_, m) => hhFromCurves cf (.five rows) m Tmax) with
    | .error e => .error e
    | .ok cols => from2D deserializeHH (rowsOfCols cols)

/-! ## Damping curves -/

/-- class_damping_calibration.py L84-86: `xi_j -= xi_j[0]; xi_j += vs_profile[j, 2]`. -/
def rebase (useMin : Bool) (xi0 : ℝ) (xi : List ℝ) : Except PyErr (List ℝ) :=
  if useMin then .ok xi
  else match xi with
    | [] => .error .indexError
    | x0 :: _ => .ok (xi.map fun x => x - x0 + xi0)

/-- class_damping_calibration.py L88-94: `Damping_Curve(column_stack((strain, xi_j)), '%', '1', check_values=True)`
builds its own array: ValueError if a strain or a damping is negative or a damping exceeds 100%. -/
def dampCurve (strain xi : List ℝ) : Except PyErr (List (ℝ × ℝ)) :=
  match mkCurve [strain.zip xi] 0 (.damping .one) .pct none true with
  | (.error e, _) => .error e
  | (.ok w, σ) => .ok (w.read σ)

/-- class_damping_calibration.py L30-102 `get_damping_curves` for the five-column profile of a `Vs_Profile`: the
(strain %, damping %) curve of each layer. -/
def getDampingCurves (rows : List (Row ℝ)) (strain : List ℝ) (useMin : Bool) : Except PyErr (List (List (ℝ × ℝ))) :=
  let soil := rows.dropLast
  match vertStress (soil.map Row.thk) (soil.map Row.rho) with
  | .error e => .error e
  | .ok (sv, _) =>
    match darendeli sv (.arr (soil.map fun r => piOne r.vs)) (.arr (calcOCR none (soil.map Row.vs) sv)) none (.num 30)
        (some strain) with
    | .error e => .error e
    | .ok c =>
      (soil.zip c.xi).mapM fun q =>
        match rebase useMin q.1.xi q.2 with
        | .error e => .error e
        | .ok xi => dampCurve strain xi

end

end Verif
