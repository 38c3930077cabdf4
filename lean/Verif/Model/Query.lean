import Verif.Model.VsProfile

/-!
Model of `Vs_Profile.query_Vs_at_depth` (class_Vs_profile.py L445-522).  Figures are in `Model/ProfilePlot`.
-/

namespace Verif

variable {K : Type} [Field K] [LinearOrder K] [FloorRing K]

/-- The `depth` argument (class_Vs_profile.py L447): a number or a 1D array; anything else is a TypeError
(helper_site_response.py L162-177). -/
inductive DepthArg (K : Type) where
  | scalar (d : K)
  | array (a : List K)
  | other

/-- helper_site_response.py L162-175: the array of depths. -/
def DepthArg.arr : DepthArg K → List K
  | .scalar d => [d]
  | .array a => a
  | .other => []

/-- class_Vs_profile.py L477-485 and L519-522: the velocities (a scalar gives the only entry as a float). -/
def queryDepth (prof : List (K × K)) (d : DepthArg K) : Except PyErr (List K) :=
  match d with
  | .other => .error .typeError
  | d => queryVsAtDepth prof d.arr

/-- class_Vs_profile.py L507, L514: `np.column_stack` (ValueError for different lengths) and the
construction of the profile. -/
def stackProfile (σ : Store K) (thk vs : List K) : Except PyErr (VsObj K × Store K) :=
  if thk.length ≠ vs.length then .error .valueError
  else mkProfile (σ ++ [.two (thk.zip vs)]) σ.length .one .si false 3

/-- class_Vs_profile.py L477-514 with `as_profile=True`.  `sr.dep2thk(depth)` of a number raises
TypeError (helper_site_response.py L1200). -/
def queryDepthProfile (σ : Store K) (prof : List (K × K)) (d : DepthArg K) :
    Except PyErr (VsObj K × Store K) := do
  let vs ← queryDepth prof d
  if !isSortedFlag d.arr then .error .valueError
  else if hasDuplicateFlag d.arr then .error .valueError
  else if !d.arr.any (fun z => decide (z = 0)) then
    let thk ← dep2thk (0 :: d.arr) true
    stackProfile σ thk (vs.take 1 ++ vs)
  else match d with
    | .array a =>
      let thk ← dep2thk a true
      stackProfile σ thk vs
    | _ => .error .typeError

end Verif
