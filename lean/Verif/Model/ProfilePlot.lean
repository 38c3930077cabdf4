import Verif.Model.PlotLine
import Verif.Model.Query

/-!
Model of the axes on which velocity profiles are drawn: the lines and the limits of the two axes
(`helper_site_response.py` `plot_Vs_profile`, `class_Vs_profile.py` `_plot_queried_Vs` and the figures of the query methods,
`class_svm.py` `_plot_additional_profile`).  matplotlib widens limits that coincide; this is not modelled.
-/

namespace Verif

section
variable {K : Type} [Field K] [LinearOrder K]

/-- Axes with the lines drawn on them and the limits, in the order in which they were given. -/
structure VsAxes (K : Type) where
  lines : List (List K × List K)
  xlim : K × K
  ylim : K × K
  deriving DecidableEq

/-- `np.max`; ValueError for an empty array. -/
def npMax : List K → Except PyErr K
  | [] => .error .valueError
  | a :: l => .ok (l.foldl max a)

/-- helper_site_response.py L1010-1021 `plot_Vs_profile` on axes that carry the lines `old`: the limits that these axes had
are replaced. -/
def drawVs (old : List (List K × List K)) (p : List (K × K)) (maxDepth : Option K) : Except PyErr (VsAxes K) := do
  let z ← plotZmax (p.map Prod.fst) maxDepth
  let l ← plotArray (p.map Prod.fst) (p.map Prod.snd) z
  let v ← npMax (p.map Prod.snd)
  return ⟨old ++ [l], (0, v * (11 / 10)), (z, 0)⟩

/-- class_Vs_profile.py L607-611 `_plot_queried_Vs`. -/
def drawQueried (p : List (K × K)) (vs depth : List K) : Except PyErr (VsAxes K) := do
  let a ← drawVs [] p none
  let d ← npMax depth
  if max a.ylim.1 a.ylim.2 ≤ d then
    return { a with lines := a.lines ++ [(vs, depth)], ylim := (d, min a.ylim.1 a.ylim.2) }
  else return { a with lines := a.lines ++ [(vs, depth)] }

/-- class_Vs_profile.py L510-511 and L583-585: a second profile on the axes of the first. -/
def drawOver (p q : List (K × K)) : Except PyErr (VsAxes K) := do
  let a ← drawVs [] p none
  drawVs a.lines q none

/-- class_Vs_profile.py L477-485 and L516-517: the figure of `query_Vs_at_depth`. -/
def figQueryDepth [FloorRing K] (p : List (K × K)) (d : DepthArg K) : Except PyErr (VsAxes K) := do
  let vs ← queryDepth p d
  drawQueried p vs d.arr

/-- class_Vs_profile.py L477-507: the array `vs_` (thicknesses and velocities) made of queried depths. -/
def queryStack [FloorRing K] (p : List (K × K)) (d : DepthArg K) : Except PyErr (List (K × K)) := do
  let vs ← queryDepth p d
  if !isSortedFlag d.arr then .error .valueError
  else if hasDuplicateFlag d.arr then .error .valueError
  else if !d.arr.any (fun z => decide (z = 0)) then
    let thk ← dep2thk (0 :: d.arr) true
    if thk.length ≠ (vs.take 1 ++ vs).length then .error .valueError else .ok (thk.zip (vs.take 1 ++ vs))
  else match d with
    | .array a =>
      let thk ← dep2thk a true
      if thk.length ≠ vs.length then .error .valueError else .ok (thk.zip vs)
    | _ => .error .typeError

/-- class_Vs_profile.py L477-511: the figure of `query_Vs_at_depth` with `as_profile=True`. -/
def figDepthProfile [FloorRing K] (p : List (K × K)) (d : DepthArg K) : Except PyErr (VsAxes K) := do
  let q ← queryStack p d
  drawOver p q

/-- class_Vs_profile.py L568-573, L582-585: the figure of `query_Vs_given_thk` with `as_profile=True`. -/
def figThkProfile (p : List (K × K)) (thk : ThkArg K) (mid : Bool) : Except PyErr (VsAxes K) := do
  let (vs, a) ← queryVsGivenThk p thk mid
  if a.length ≠ vs.length then .error .valueError else drawOver p (a.zip vs)

/-- class_Vs_profile.py L568-578: the figure of `query_Vs_given_thk`. -/
def figQueryThk (p : List (K × K)) (thk : ThkArg K) (mid : Bool) : Except PyErr (VsAxes K) := do
  let (vs, a) ← queryVsGivenThk p thk mid
  let depth ← thk2dep a mid
  drawQueried p vs depth

/-- class_svm.py L451-465 `_plot_additional_profile`. -/
def drawAdditional (base addtl : List (K × K)) : Except PyErr (VsAxes K) := do
  let a ← drawOver base addtl
  let v ← npMax (addtl.map Prod.snd ++ [1000])
  return { a with xlim := (0, v * (11 / 10)) }

end

end Verif
