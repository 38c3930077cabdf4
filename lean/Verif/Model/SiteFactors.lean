import Verif.Model.Spectrum
import Verif.Model.Svm

/-!
Model of `class_site_factors.py` and of `class_site_effect_adjustment.py`.

The CSV files are a parameter (`SfData`); which of them are shipped is transcribed from the directory listings of
`PySeismoSoil/data/amplification` and `PySeismoSoil/data/phase` (`shippedZ1`).  `scipy.interpolate.griddata` is a parameter
as well.  Type checks of the arguments (only numbers here) are left out, figures are in `Model/Printed`.
-/

namespace Verif

/-- class_site_factors.py L60-78. -/
def vs30Grid : List ℕ := [175, 200, 250, 300, 350, 400, 450, 500, 550, 600, 650, 700, 750, 800, 850, 900, 950]

/-- class_site_factors.py L79. -/
def z1Grid : List ℕ := [8, 16, 24, 36, 75, 150, 300, 450, 600, 900]

/-- class_site_factors.py L80-92, in hundredths of g. -/
def pgaGrid : List ℕ := [1, 5, 10, 20, 30, 40, 50, 75, 100, 125, 150]

section
variable {K : Type} [Field K] [LinearOrder K]

/-- The grids as numbers. -/
def vs30Num : List K := vs30Grid.map fun n : ℕ => (n : K)
def z1Num : List K := z1Grid.map fun n : ℕ => (n : K)
def pgaNum : List K := pgaGrid.map fun n : ℕ => (n : K) / 100

/-- The status list of `_range_check`. -/
structure SfStatus where
  vs30 : Bool
  z1 : Bool
  pga : Bool
  combo : Bool
  deriving DecidableEq, Repr

/-- class_site_factors.py L684-735 `_range_check`. -/
def sfRange (v z p : K) : SfStatus where
  vs30 := decide (v < 175 ∨ 950 < v)
  z1 := decide (z < 8 ∨ 900 < z)
  pga := decide (p < 1 / 100 ∨ 15 / 10 < p)
  combo :=
    if 400 < v ∧ 750 < z then true
    else if 450 < v ∧ 600 < z then true
    else if 550 < v ∧ 450 < z then true
    else if 600 < v ∧ 300 < z then true
    else if 650 < v ∧ 150 < z then true
    else if 750 < v ∧ 75 < z then true
    else if 800 < v ∧ 36 < z then true
    else if 850 < v ∧ 16 < z then true
    else false

/-- A `Site_Factors` object. -/
structure SiteFac (K : Type) where
  vs30 : K
  z1 : K
  pga : K
  deriving DecidableEq, Repr

/-- class_site_factors.py L117-133, one parameter: an out-of-range value is rejected or replaced by a bound. -/
def sfBound (bad lenient : Bool) (lo hi x : K) : Except PyErr K :=
  if bad then
    if !lenient then .error .valueError else .ok (if x < lo then lo else hi)
  else .ok x

/-- class_site_factors.py L100-143 `__init__`. -/
def mkSiteFac (v z p : K) (lenient : Bool) : Except PyErr (SiteFac K) := do
  let s := sfRange v z p
  let v' ← sfBound s.vs30 lenient 175 950 v
  let z' ← sfBound s.z1 lenient 8 900 z
  let p' ← sfBound s.pga lenient (1 / 100) (15 / 10) p
  if s.combo then .error .valueError
  else return ⟨v', z', p'⟩

/-- class_site_factors.py L476-504 `_search_sorted`; `np.searchsorted(array, value, side='left')` is the number of smaller
elements of a sorted array. -/
def searchPair (value : K) (array : List K) : Except PyErr (ℕ × ℕ) :=
  match array.head?, array.getLast? with
  | some a, some b =>
    if value < a ∨ b < value then .error .valueError
    else if value = a then .ok (0, 1)
    else if value = b then .ok (array.length - 2, array.length - 1)
    else
      let i := (array.filter fun x => decide (x < value)).length
      .ok (i - 1, i)
  | _, _ => .error .indexError

/-- class_site_factors.py L434-473 `_locate_grids`, `_find_neighbors`. -/
def locateGrids (s : SiteFac K) : Except PyErr (List (ℕ × ℕ × ℕ)) := do
  let v ← searchPair s.vs30 vs30Num
  let z ← searchPair s.z1 z1Num
  let p ← searchPair s.pga pgaNum
  return [v.1, v.2].flatMap fun i => [z.1, z.2].flatMap fun j => [p.1, p.2].map fun k => (i, j, k)

end

/-- The simulation methods. -/
inductive SfMethod | nlHH | eqHH | eqKZ | other
  deriving DecidableEq

/-- The kind of factor: Fourier amplification, response-spectral amplification, phase. -/
inductive SfKind | fs | rs | phase
  deriving DecidableEq

/-- The CSV files: `factors kind method Vs30 z1` (one row per PGA) and `xs kind Vs30 z1` (frequencies or periods);
`none` for a missing file. -/
structure SfData where
  factors : SfKind → SfMethod → ℕ → ℕ → Option (List (List ℝ))
  xs : SfKind → ℕ → ℕ → Option (List ℝ)

/-- The largest z1 for which files are shipped, by Vs30 (directory listing; the other pairs with smaller z1 on the grid are
present, too). -/
def shippedZ1 : ℕ → ℕ
  | 500 | 550 => 600
  | 600 => 450
  | 650 => 300
  | 700 | 750 => 150
  | 800 => 75
  | 850 => 36
  | 900 | 950 => 16
  | _ => 900

/-- Whether the files of a grid point are shipped. -/
def shippedPair (v z : ℕ) : Bool := v ∈ vs30Grid && z ∈ z1Grid && decide (z ≤ shippedZ1 v)

noncomputable section

/-- class_site_factors.py L351-432 `_query` for grid indices (L314-317 look the grid values up): the checks that the values
belong to the grids are satisfied by construction. -/
def sfQuery (d : SfData) (kind : SfKind) (m : SfMethod) (v z k : ℕ) : Except PyErr (List ℝ × List ℝ) :=
  if m = .other then .error .valueError
  else match d.factors kind m v z with
    | none => .error .fileNotFound
    | some rows => match d.xs kind v z with
      | none => .error .fileNotFound
      | some x => match rows[k]? with
        | none => .error .indexError
        | some y => .ok (x, y)

/-- `griddata(points, values, point)`. -/
abbrev GridFun := List (ℝ × ℝ × ℝ) → List ℝ → ℝ × ℝ × ℝ → ℝ

/-- class_site_factors.py L506-570 `_interpolate`: one call of `griddata` per column; rows of different lengths cannot be
stacked (ValueError). -/
def sfInterp (g : GridFun) (pts : List (ℝ × ℝ × ℝ)) (vals : List (List ℝ)) (q : ℝ × ℝ × ℝ) : Except PyErr (List ℝ) :=
  if pts.length ≠ 8 ∨ pts.length ≠ vals.length then .error .assertionError
  else match vals with
    | [] => .error .indexError
    | y :: _ =>
      if ∃ r ∈ vals, r.length ≠ y.length then .error .valueError
      else .ok ((List.range y.length).map fun i => g pts (vals.map fun r => r.getD i 0) q)

/-- class_site_factors.py L272-349 `_get_results`: `x` is that of the last grid point. -/
def sfResults (d : SfData) (g : GridFun) (s : SiteFac ℝ) (kind : SfKind) (m : SfMethod) : Except PyErr (List ℝ × List ℝ) := do
  let combos ← locateGrids s
  let got ← combos.mapM fun c : ℕ × ℕ × ℕ => do
    match vs30Grid[c.1]?, z1Grid[c.2.1]?, pgaGrid[c.2.2]? with
    | some (v : ℕ), some (z : ℕ), some (p : ℕ) =>
      let r ← sfQuery d kind m v z c.2.2
      .ok (((v : ℝ), (z : ℝ), (p : ℝ) / 100), r)
    | _, _, _ => .error .indexError
  let y ← sfInterp g (got.map Prod.fst) (got.map fun r => r.2.2) (s.vs30, s.z1, s.pga)
  match got.getLast? with
  | none => .error .unboundLocal
  | some r =>
    if kind = .rs then return (r.2.1, y)
    else return (r.2.1.take 140, y.take 140)

/-- Two columns as a spectrum. -/
def asSpect (x y : List ℝ) : Spect := x.zip (y.map fun a : ℝ => (a : ℂ))

/-- class_site_factors.py L145-198 `get_amplification`.  `np.column_stack` of columns of different lengths raises
ValueError; a zero period is not finite. -/
def getAmplif (d : SfData) (g : GridFun) (s : SiteFac ℝ) (m : SfMethod) (fourier : Bool) : Except PyErr FreqSpec :=
  if m ≠ .nlHH ∧ m ≠ .eqHH then .error .valueError
  else do
    let (x, y) ← sfResults d g s (if fourier then .fs else .rs) m
    if x.length ≠ y.length then .error .valueError
    else if fourier then newSpect (.two (asSpect x y)) none none
    else if (0 : ℝ) ∈ x then .error .nonFinite
    else newSpect (.two (asSpect (x.map fun t => 1 / t) y).reverse) none none

/-- class_site_factors.py L200-237 `get_phase_shift`. -/
def getPhaseShift (d : SfData) (g : GridFun) (s : SiteFac ℝ) (m : SfMethod) : Except PyErr FreqSpec :=
  if m ≠ .eqHH then .error .valueError
  else do
    let (x, y) ← sfResults d g s .phase m
    if x.length ≠ y.length then .error .valueError
    else newSpect (.two (asSpect x y)) none none

/-- class_site_factors.py L239-270 `get_both_amplf_and_phase`. -/
def getBoth (d : SfData) (g : GridFun) (s : SiteFac ℝ) (m : SfMethod) : Except PyErr (FreqSpec × FreqSpec) := do
  let a ← getAmplif d g s m true
  let p ← getPhaseShift d g s .eqHH
  return (a, p)

/-- A `Site_Effect_Adjustment` object. -/
structure SiteAdj where
  accel : Rec ℝ
  vs30 : ℝ
  z1 : ℝ
  pga : ℝ
  fac : SiteFac ℝ
  method : SfMethod

/-- class_site_effect_adjustment.py L66-108 `__init__`; `accel` and `pga` are attributes of the input motion. -/
def mkSiteAdj (accel : Rec ℝ) (pga v : ℝ) (z : Option ℝ) (m : SfMethod) (lenient : Bool) : Except PyErr SiteAdj :=
  if m ≠ .nlHH ∧ m ≠ .eqHH then .error .valueError
  else do
    let z' := z.getD (z1FromVs30 v)
    let s ← mkSiteFac v z' pga lenient
    return ⟨accel, v, z', pga, s, m⟩

/-- class_site_effect_adjustment.py L110-200 `run` up to the construction of the output motion, without figures and
warnings. -/
def runSiteAdj (d : SfData) (g : GridFun) (a : SiteAdj) : Except PyErr (Rec ℝ) := do
  let af ← getAmplif d g a.fac a.method true
  let ph ← getPhaseShift d g a.fac .eqHH
  amplifyMotion a.accel af.freq (.ampPhase (af.spectrum.map Complex.re) (ph.spectrum.map Complex.re)) none true false

end

end Verif
