import Verif.Model.FloatCode

/-!
Depth queries, basin depths and VsZ in doubles (Model/Float.lean): every operation is rounded.
-/

namespace Verif

section
variable {K : Type} [Field K] [LinearOrder K] [FloorRing K]

/-- helper_site_response.py L189-195 in doubles: comparisons are exact, the depths of the layers are those of `thk2dep`. -/
def fQueryVs (profile : List (K × K)) (depth : K) : Except PyErr K :=
  if depth < 0 then .error .valueError
  else
    match fthk2dep (profile.map Prod.fst) with
    | .error e => .error e
    | .ok dep =>
      match (profile.map Prod.snd)[searchsortedRight dep depth - 1]? with
      | some v => .ok v
      | none => .error .indexError

/-- helper_site_response.py L1042-1076 `calc_basin_depth` in doubles; `np.sum` of fewer than eight numbers adds one after the other. -/
def fBasinDepth (profile : List (K × K)) (bedrockVs : K) : Except PyErr K :=
  match fthk2dep (profile.map Prod.fst) with
  | .error e => .error e
  | .ok dep => .ok (basinLoop bedrockVs (fsum (profile.map Prod.fst)) (dep.zip (profile.map Prod.snd)))

/-- helper_site_response.py L875-886 in doubles: the loop of `calc_VsZ`. -/
def fCumulSl (Z : K) : (d : K) → (acc : K) → List (K × K) → K
  | _, acc, [] => acc
  | d, acc, (t, v) :: rest =>
    if fadd d t < Z then fCumulSl Z (fadd d t) (fadd acc (fmul (fdiv 1 v) t)) rest
    else fadd acc (fmul (fdiv 1 v) (fsub t (fsub (fadd d t) Z)))

/-- helper_site_response.py L837-904 `calc_VsZ` in doubles.  Python's `sum` adds the elements of a numpy array one after the
other. -/
def fVsZ (profile : List (K × K)) (Z : K) (opt : Int) : Except PyErr K :=
  let total := fsum (profile.map Prod.fst)
  let cumul := fCumulSl Z 0 0 profile
  if opt = 1 then
    if total < Z then
      match profile.getLast? with
      | none => .error .indexError
      | some (_, vLast) =>
        let c := fadd cumul (fmul (fdiv 1 vLast) (fsub Z total))
        if c = 0 then .error .nonFinite else .ok (fdiv Z c)
    else if cumul = 0 then .error .nonFinite else .ok (fdiv Z cumul)
  else if opt = 2 then
    if cumul = 0 then .error .nonFinite else .ok (fdiv (min total Z) cumul)
  else .error .unboundLocal

end

namespace Spec

/-- The layers of a profile whose numbers are far from underflow and overflow: thicknesses are doubles, zero or at least 2^-500;
velocities lie between `vlo` and `vhi`, within 2^-400 … 2^400. -/
structure SaneLayers {K : Type} [_root_.Field K] [LinearOrder K] (vlo vhi : K) (p : List (K × K)) : Prop where
  lo : (2 : K) ^ (-400 : ℤ) ≤ vlo
  hi : vhi ≤ (2 : K) ^ (400 : ℤ)
  thk : ∀ r ∈ p, IsDouble r.1 ∧ (r.1 = 0 ∨ (2 : K) ^ (-500 : ℤ) ≤ r.1)
  vs : ∀ r ∈ p, vlo ≤ r.2 ∧ r.2 ≤ vhi

end Spec

end Verif
