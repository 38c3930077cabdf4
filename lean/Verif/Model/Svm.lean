import Verif.Model.VsProfile
import Verif.Model.Motion
import Mathlib.Analysis.SpecialFunctions.Pow.Real

/-!
Model of `class_svm.py`: the sediment velocity model.

Not modelled: figures and console output.  Real powers and exponentials are those of
Mathlib; rounding is not represented, so `np.arange(0, s, 0.1)` has ⌈s / 0.1⌉ elements.
`Vs30` is positive (a negative base of a fractional power is outside of the model).
-/

namespace Verif

section Cap
variable {K : Type} [Field K] [LinearOrder K]

/-- class_svm.py L223-243: the smooth velocities after capping.  L235 indexes the first
element above `eta * Vs_cap`; an empty selection raises IndexError. -/
def capVs (cap eta : K) (vs : List K) : Except PyErr (List K) :=
  if vs.any (fun v => decide (cap < v)) then
    match vs.findIdx? (fun v => decide (cap * eta < v)) with
    | none => .error .indexError
    | some idx => .ok (vs.mapIdx fun i v =>
        if i < idx then v
        else cap * eta + cap * (1 - eta) / ((vs.length : K) - idx) * ((i : K) - idx))
  else .ok vs

/-- class_svm.py L245-255: `array3`, `array4` and the stacked profile; `v0` is the velocity
of the homogeneous layer, taken before capping (L209). -/
def cappedRows (top v0 : K) (thk vs : List K) (cap : K) : List (K × K) :=
  (top, v0) :: (thk.dropLast ++ [0]).zip (vs.dropLast ++ [cap])

end Cap

/-- class_svm.py L125-127, L154: velocity of the top layer. -/
noncomputable def svmVs0 (v : ℝ) : ℝ := -21688 / 10 ^ 8 * v ^ 2 + 5182 / 10000 * v + 69452 / 1000

/-- class_svm.py L133-135, L156. -/
noncomputable def svmK (v : ℝ) : ℝ := Real.exp (-5967 / 100 * v ^ (-2722 / 10000 : ℝ) + 11132 / 1000)

/-- class_svm.py L137-140, L157-159. -/
noncomputable def svmN (v : ℝ) : ℝ :=
  max 1 (4110 / 1000 * Real.exp (-10521 / 10 ^ 8 * v) + -10827 / 1000 * Real.exp (-76187 / 10 ^ 7 * v))

/-- class_svm.py L161: `np.arange(0.0, z1 - thk_addl_layer, thk)` with `thk = 0.1`,
`thk_addl_layer = 2.4` (L96, L109). -/
noncomputable def svmDepths (z1 : ℝ) : List ℝ :=
  (List.range ⌈(z1 - 24 / 10) / (1 / 10)⌉₊).map fun i : ℕ => (i : ℝ) * (1 / 10)

/-- class_svm.py L167: analytical velocities. -/
noncomputable def svmSmooth (v z1 : ℝ) : List ℝ :=
  (svmDepths z1).map fun z => svmVs0 v * (1 + svmK v * z) ^ (1 / svmN v)

/-- helper_site_response.py L18-28. -/
noncomputable def z1FromVs30 (v : ℝ) : ℝ := 140511 / 1000 * Real.exp (-303 / 100000 * v)

/-- class_svm.py L161-176: thicknesses and the uncapped profile `temp_Vs_profile`. -/
noncomputable def svmTemp (v z1 : ℝ) : Except PyErr (List ℝ × List (ℝ × ℝ)) := do
  let th ← dep2thk (svmDepths z1) true
  match (svmSmooth v z1).head? with
  | none => .error .indexError
  | some v0 => return (th, (24 / 10, v0) :: th.zip (svmSmooth v z1))

/-- class_svm.py L149-203: the loop over trial values of Vs30 with `iterate=True`; `fuel` bounds the
number of passes (`none`: not finished).  Returns the trial value whose profile is used. -/
noncomputable def svmIter (target z1 : ℝ) : Nat → ℝ → Except PyErr (Option ℝ)
  | 0, _ => .ok none
  | fuel + 1, v => do
    let (_, temp) ← svmTemp v z1
    let actual ← calcVs30 temp 1
    if target - 10 ≤ actual ∧ actual ≤ target + 10 then return some v
    else
      let next := v - (actual - target) / 5
      if next < 130 ∨ 1000 < next then return some v
      else svmIter target z1 fuel next

/-- The argument `Vs_cap`. -/
inductive CapArg where
  | yes
  | no
  | num (c : ℝ)

/-- The attribute `bedrock_Vs`: `None`, the Boolean `True`, or a number. -/
inductive Bedrock where
  | none
  | flag
  | num (c : ℝ)

/-- Value used by `truncate` for a bedrock attribute: Python's `True` behaves as 1. -/
def Bedrock.asVs : Bedrock → Option ℝ
  | .none => Option.none
  | .flag => some 1
  | .num c => some c

/-- An `SVM` object (class_svm.py L269-279): `rows` is `_base_profile`, `obj` and `store` are
`base_profile`. -/
structure Svm where
  vs30 : ℝ
  z1 : ℝ
  rows : List (ℝ × ℝ)
  obj : VsObj ℝ
  store : Store ℝ
  bedrock : Bedrock
  hasBedrock : Bool

/-- class_svm.py L145-258: `vs_profile` and the value of `Vs_cap` afterwards.  `trial` is the value of
Vs30 whose smooth profile is used (`target_Vs30`, or the result of the iteration). -/
noncomputable def svmRows (target trial z1 eta : ℝ) (cap : CapArg) : Except PyErr (List (ℝ × ℝ) × CapArg) :=
  if z1 ≤ 25 / 10 then .ok ([(z1, svmVs0 target), (0, 1000)], cap)
  else do
    let (th, temp) ← svmTemp trial z1
    let v0 := (svmSmooth trial z1).headD 0
    match cap with
    | .no => return (temp, .no)
    | .yes =>
      let vs ← capVs 1000 eta (svmSmooth trial z1)
      return (cappedRows (24 / 10) v0 th vs 1000, .num 1000)
    | .num c =>
      let vs ← capVs c eta (svmSmooth trial z1)
      return (cappedRows (24 / 10) v0 th vs c, .num c)

/-- The attribute from the value of `Vs_cap` at the end (class_svm.py L274-279). -/
def CapArg.bedrock : CapArg → Bedrock
  | .yes => .flag
  | .no => .none
  | .num c => .num c

/-- class_svm.py L85-279 `SVM.__init__` for a finished iteration with result `trial`. -/
noncomputable def mkSvm (target : ℝ) (z1 : Option ℝ) (cap : CapArg) (eta trial : ℝ) : Except PyErr Svm := do
  if eta ≤ 0 ∨ 1 < eta then .error .valueError
  else
    let z := z1.getD (z1FromVs30 target)
    let (rows, cap') ← svmRows target trial z eta cap
    let (o, σ) ← mkProfile [.two rows] 0 .one .si false 3
    return { vs30 := target, z1 := z, rows := rows, obj := o, store := σ, bedrock := cap'.bedrock
             hasBedrock := match cap' with | .no => false | _ => true }

section Discretise
variable {K : Type} [Field K] [LinearOrder K] [FloorRing K]

/-- class_Vs_profile.py L565-587 `Vs_Profile.query_Vs_given_thk` with `as_profile=True`,
`add_halfspace=True`.  `np.column_stack` of arrays of different lengths raises ValueError; `ceil` of an
infinite quotient (zero thickness) raises OverflowError (`other`). -/
def queryAsProfile (σ : Store K) (prof : List (K × K)) (zMax : K) (thk : ThkArg K) (mid : Bool) :
    Except PyErr (VsObj K × Store K) := do
  match thk with
  | .scalar t none =>
    if t = 0 then .error .other
    else
      let (vs, a) ← queryVsGivenThk prof (.scalar t (some ⌈zMax / t⌉)) mid
      if vs.length ≠ a.length then .error .valueError
      else mkProfile (σ ++ [.two (a.zip vs)]) σ.length .one .si true 3
  | arg =>
    let (vs, a) ← queryVsGivenThk prof arg mid
    if vs.length ≠ a.length then .error .valueError
    else mkProfile (σ ++ [.two (a.zip vs)]) σ.length .one .si true 3

/-- class_svm.py L391-416: bottoms of the layers for a velocity increment.  `prev` is
`discr_Vs_previous_layer`, `tmp` is `thk_tmp`, `depth` is `current_depth`. -/
def bottomsLoop (inc : K) : (prev tmp depth : K) → List (K × K) → List K
  | _, _, _, [] => []
  | prev, tmp, depth, (t, v) :: rest =>
    if v < prev + inc then bottomsLoop inc prev (tmp + t) (depth + t) rest
    else (depth + t) :: bottomsLoop inc (if tmp ≠ 0 then prev + inc else v) 0 (depth + t) rest

/-- class_svm.py L384-422: the thickness array for a velocity increment. -/
def incThk (rows : List (K × K)) (inc : K) : Except PyErr (List K) :=
  match rows with
  | [] => .error .valueError                  -- `np.max` of an empty array
  | (_, v) :: rest =>
    if rest.foldl (fun m r => max m r.2) v ≤ inc then .error .valueError
    else dep2thk (0 :: bottomsLoop inc v 0 0 rows) false

/-- class_svm.py L334-436 `get_discretized_profile` up to the figure. -/
def discretize (σ : Store K) (o : VsObj K) (rows : List (K × K)) (z1 : K) (bedrock : Option K)
    (fixedThk inc : Option K) (mid : Bool) : Except PyErr (VsObj K × Store K) := do
  match fixedThk, inc with
  | none, none => .error .valueError
  | some _, some _ => .error .valueError
  | some t, none =>
    let (d, σ') ← queryAsProfile σ rows o.zMax (.scalar t none) mid
    truncate σ' d (some z1) bedrock
  | none, some i =>
    let thk ← incThk rows i
    let (d, σ') ← queryAsProfile σ rows o.zMax (.array thk) mid
    truncate σ' d (some z1) bedrock

/-! ### Randomisation -/

/-- class_svm.py L610-672: the layering loop.  `draws` are the random thicknesses before L663 (any
numbers; for Toro layering positive ones); `z` is `z_bot[-1]`, `started` tells whether a layer exists.
`none`: the supplied draws do not suffice. -/
def layerLoop (z1 : K) : (started : Bool) → (z : K) → List K → Option (List K)
  | started, z, draws =>
    if started ∧ ¬ z < z1 then some []
    else match draws with
      | [] => none
      | d :: ds => (layerLoop z1 true (z + max d 2) ds).map (max d 2 :: ·)

/-- class_svm.py L676: `thk[-1] = self.z1 - np.sum(thk[:-1])`. -/
def closeLayers (z1 : K) (thk : List K) : List K := thk.dropLast ++ [z1 - thk.dropLast.sum]

end Discretise

/-- Coefficients of Toro (1995) by site class (class_svm.py L703-733): `(sigma_lnV, rho_0, Delta, rho_200, b)`;
`z_0 = 0` for all of them. -/
noncomputable def toroCoef (vs30 : ℝ) : ℝ × ℝ × ℝ × ℝ × ℝ :=
  if vs30 < 180 then (37 / 100, 0, 5, 50 / 100, 744 / 1000)
  else if vs30 < 360 then (31 / 100, 99 / 100, 39 / 10, 98 / 100, 344 / 1000)
  else if vs30 < 760 then (27 / 100, 97 / 100, 38 / 10, 1, 293 / 1000)
  else (36 / 100, 95 / 100, 34 / 10, 42 / 100, 63 / 1000)

/-- class_svm.py L739-748: standard deviation of ln(Vs) for a velocity of the smooth profile. -/
noncomputable def sigmaLn (toro : Bool) (vs30 v : ℝ) : ℝ :=
  if toro then (toroCoef vs30).1
  else -7769 / 10 ^ 13 * v ^ 3 + 1597 / 10 ^ 9 * v ^ 2 - 8724 / 10 ^ 7 * v + 4233 / 10000

/-- class_svm.py L761-767: interlayer correlation `rho_1L`. -/
noncomputable def rho1L (vs30 zmid thk : ℝ) : ℝ :=
  let (_, rho0, delta, rho200, b) := toroCoef vs30
  let rhoZ := if 200 < zmid then rho200 else rho200 * ((zmid + 0) / (200 + 0)) ^ b
  let rhoT := rho0 * Real.exp (-thk / delta)
  (1 - rhoZ) * rhoT + rhoZ

/-- class_svm.py L689-695, L756: velocity of the smooth profile at the layer top closest to `z`
(`_find_index_closest` L812-850 raises ValueError for an empty array). -/
noncomputable def queryClosest (prof : List (ℝ × ℝ)) (tops : List ℝ) (z : ℝ) : Except PyErr ℝ :=
  match findClosest tops z with
  | none => .error .valueError
  | some (j, _) => match prof[j]? with
    | none => .error .indexError
    | some r => .ok r.2

/-- class_svm.py L755-777: the loop over layers; `prev` is `Y[i-1]` (`none` for the first layer),
`normals` the standard normal draws, one per layer.  A negative argument of `np.sqrt` gives nan
(`nonFinite`). -/
noncomputable def randVs (vs30 : ℝ) (toroStd : Bool) (prof : List (ℝ × ℝ)) (tops : List ℝ) :
    Option ℝ → List (ℝ × ℝ × ℝ) → Except PyErr (List ℝ)
  | _, [] => .ok []
  | prev, (thk, zmid, g) :: rest => do
    let v ← queryClosest prof tops zmid
    let rho := rho1L vs30 zmid thk
    let y ← match prev with
      | none => .ok g
      | some p => if 1 - rho ^ 2 < 0 then .error .nonFinite else .ok (rho * p + g * Real.sqrt (1 - rho ^ 2))
    let vs ← randVs vs30 toroStd prof tops (some y) rest
    return v * Real.exp (y * sigmaLn toroStd vs30 v) :: vs

/-- class_svm.py L572-790 `_helper_get_rand_profile` for given random numbers: `draws` for the
layering, `normals` for the velocities.  `np.column_stack` of columns of different lengths raises
ValueError. -/
noncomputable def randProfile (s : Svm) (toroStd : Bool) (draws normals : List ℝ) :
    Except PyErr (List (ℝ × ℝ)) := do
  match layerLoop s.z1 false 0 draws with
  | none => .error .other
  | some raw =>
    let thk := closeLayers s.z1 raw
    let zmid ← thk2dep thk true
    let tops ← thk2dep (s.rows.map Prod.fst) false
    let vs ← randVs s.vs30 toroStd s.rows tops none (thk.zip (zmid.zip normals))
    if vs.length ≠ thk.length then .error .valueError
    else
      let prof := thk.zip vs
      match prof.getLast? with
      | none => .error .indexError
      | some r => return if r.2 < 1000 then prof ++ [(0, 1000)] else prof

/-- class_svm.py L539-553: the conditions for accepting a randomised profile. -/
noncomputable def compliant (s : Svm) (prof : List (ℝ × ℝ)) : Except PyErr Bool := do
  let rv ← calcVs30 prof 1
  let rz ← calcZ1 prof
  let bz ← calcZ1 s.rows
  match prof.getLast?, s.rows.getLast? with
  | some r, some b =>
    if b.2 = 0 ∨ bz = 0 then .error .nonFinite
    else return decide (|rv - s.vs30| < 25) && decide (|r.2 - b.2| / b.2 < 5 / 100) && decide (|rz - bz| / bz < 20 / 100)
  | _, _ => .error .indexError

/-- class_svm.py L517-570 `get_randomized_profile`: `gen` produces the profile of a seed; with
`compliance` the seeds `seed, seed + 1, …` are tried, at most `fuel` of them (`none`: not finished). -/
noncomputable def randomized (s : Svm) (gen : Nat → Except PyErr (List (ℝ × ℝ))) (compliance : Bool) :
    Nat → Nat → Except PyErr (Option (VsObj ℝ × Store ℝ))
  | 0, _ => .ok none
  | fuel + 1, k => do
    let prof ← gen k
    let ok ← if compliance then compliant s prof else .ok true
    if ok then
      let r ← mkProfile [.two prof] 0 .one .si false 3
      return some r
    else randomized s gen compliance fuel (k + 1)

end Verif
