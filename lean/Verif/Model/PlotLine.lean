import Verif.Model.Profile

/-!
Model of the line that `plot_Vs_profile` draws (helper_site_response.py L1010-1017, L1096-1134): the coordinates of its
points.  Figures, axes and their limits are not modelled.
-/

namespace Verif

variable {K : Type} [Field K] [LinearOrder K]

/-- `a[i]`. -/
def itemOf (a : List K) (i : Nat) : Except PyErr K :=
  match a[i]? with
  | some v => .ok v
  | none => .error .indexError

/-- helper_site_response.py L1096-1134 `_gen_profile_plot_array`: `x` and `y`. -/
def plotArray (thk vs : List K) (zmax : K) : Except PyErr (List K × List K) := do
  let dep ← thk2dep thk false
  let x ← (List.range (2 * vs.length)).mapM fun i => itemOf vs (i / 2)
  let y ← (List.range (2 * vs.length)).mapM fun i =>
    if i + 1 < 2 * vs.length then itemOf dep ((i + 1) / 2) else .ok zmax
  return (x, y)

/-- helper_site_response.py L1012-1015: the depth at which the line ends (`if not max_depth`, so 0 counts as not given;
`thk[0]` of an empty profile raises IndexError). -/
def plotZmax (thk : List K) (maxDepth : Option K) : Except PyErr K :=
  match maxDepth with
  | some z => if z = 0 then (match thk with | t :: _ => .ok (thk.sum + t) | [] => .error .indexError) else .ok z
  | none => match thk with | t :: _ => .ok (thk.sum + t) | [] => .error .indexError

/-- helper_site_response.py L1010-1017: the line of a profile. -/
def plotLine (p : List (K × K)) (maxDepth : Option K) : Except PyErr (List K × List K) := do
  let z ← plotZmax (p.map Prod.fst) maxDepth
  plotArray (p.map Prod.fst) (p.map Prod.snd) z

end Verif
