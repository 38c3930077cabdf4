import Verif.Model.Fit
import Verif.Model.Nonlinear

/-!
Model of the curve containers: construction from files, conversion between curve matrices and lists of curve objects
(class_curves.py), with the resampling of the shorter curves.  Curves are lists of `(strain, value)` points.  The aliasing
between curve objects and the matrix they were cut from is not part of this model (see `Model/Curves.lean` for single curves).
-/

namespace Verif

/-- Points of a curve. -/
abbrev Pts := List (ℝ × ℝ)

/-- class_curves.py L1547-1549, L1567-1577: what a `Multiple_GGmax_Damping_Curves` holds, either two containers or a matrix. -/
inductive CSrc
  | pair (gs ds : List Pts)
  | data (m : CMat ℝ)

/-- A `Multiple_GGmax_Damping_Curves` object. -/
structure CSet where
  src : CSrc
  nLayer : Nat

/-- class_curves.py L1528-1557: from a pair of containers. -/
def csetOfPair (gs ds : List Pts) : Except PyErr CSet :=
  match mgdInit (.pair gs.length ds.length) none with
  | .error e => .error e
  | .ok n => .ok ⟨.pair gs ds, n⟩

/-- class_curves.py L1567-1578: from a 2D array. -/
def csetOfData (m : CMat ℝ) : Except PyErr CSet :=
  match mgdInit .none (some m.cols.length) with
  | .error e => .error e
  | .ok n => .ok ⟨.data m, n⟩

/-- class_curves.py L1580-1603 `get_MGC_MDC_objects`: the curves of the two containers. -/
noncomputable def csetObjects (c : CSet) : Except PyErr (List Pts × List Pts) :=
  match c.src with
  | .pair gs ds => .ok (gs, ds)
  | .data m => do
    let (gs, ds) ← extractCurves m false
    let g ← gs.mapM (curveOf .ggmax)
    let x ← ds.mapM (curveOf (.damping .pct))
    return (g, x)

/-- class_curves.py L972-975, L1441-1444: a curve with fewer points is resampled at `L` strains, spaced geometrically
(`np.min` of nothing and `np.geomspace` from zero raise ValueError; strains of curve objects are not negative). -/
noncomputable def resampleCurve (c : Pts) (L : Nat) : Except PyErr Pts :=
  match c with
  | [] => .error .valueError
  | p :: rest =>
    let lo := (rest.map Prod.fst).foldl min p.1
    let hi := (rest.map Prod.fst).foldl max p.1
    if lo = 0 then .error .valueError
    else
      match (geomspace lo hi L).mapM (npInterp c) with
      | .error e => .error e
      | .ok v => .ok ((geomspace lo hi L).zip v)

/-- class_curves.py L959-963, L1428-1432: the greatest number of points (`np.max` of nothing raises ValueError). -/
def longest (cs : List Pts) : Nat := (cs.map List.length).foldr max 0

/-- class_curves.py L965-975, L1434-1444: the curves as they go into the matrix. -/
noncomputable def levelCurves (cs : List Pts) : Except PyErr (List Pts) :=
  if cs = [] then .error .valueError
  else cs.mapM fun c => if c.length = longest cs then .ok c else resampleCurve c (longest cs)

/-- class_curves.py L924-985 (damping), L1393-1454 (G/Gmax) `get_curve_matrix`. -/
noncomputable def containerMatrix (gg : Bool) (filler : ℝ) (cs : List Pts) : Except PyErr (CMat ℝ) :=
  match levelCurves cs with
  | .error e => .error e
  | .ok l => curveMatrix (fun c _ => c) gg filler (l.map fun c => (c.map Prod.fst, c.map Prod.snd))

/-- class_curves.py L1605-1624 `get_curve_matrix` of a `Multiple_GGmax_Damping_Curves`. -/
noncomputable def csetMatrix (c : CSet) : Except PyErr (CMat ℝ) :=
  match c.src with
  | .data m => .ok m
  | .pair gs ds => do
    let g ← containerMatrix true 1 gs
    let x ← containerMatrix false 1 ds
    mergeMats g x

/-- class_curves.py L846-849, L860-863 (damping) and L1315-1318, L1329-1332 (G/Gmax): a container from a file.
`np.genfromtxt` gives an array of fewer than two dimensions for a file with one row or one column. -/
noncomputable def containerOfFile (gg : Bool) (f : FC ℝ) : Except PyErr (List Pts) :=
  match toArr f with
  | .error e => .error e
  | .ok (.mat cols) => do
    let (gs, ds) ← extractCurves ⟨(cols.head?.getD []).length, cols⟩ true
    if gg then gs.mapM (curveOf .ggmax) else ds.mapM (curveOf (.damping .pct))
  | .ok _ => .error .typeError

end Verif
