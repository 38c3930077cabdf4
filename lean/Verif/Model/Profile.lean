import Verif.Basic

/-!
Model of the Vs-profile geometry functions in `helper_site_response.py`.
A two-column profile is a `List (K × K)` of (thickness, Vs) rows.
Type checks on non-array arguments are not represented (the Lean types fix them).
-/

namespace Verif

variable {K : Type*} [Field K] [LinearOrder K]

/-- helper_site_response.py L1160-1161, the loop filling `z_top`:
`z_top[i] = z_top[i-1] + thk[i-1]`, `z_top[0] = 0`.  Index loop written as a
structural recursion carrying `z = z_top[i]`. -/
def zTop (z : K) : List K → List K
  | [] => []
  | t :: ts => z :: zTop (z + t) ts

/-- helper_site_response.py L1160-1167, `z_mid`: `z_mid[i] = z_top[i] + thk[i]/2`
for all layers but the last; the last entry is dropped if `thk[-1] == 0` and
otherwise equals `z_top[-1] + thk[-1]/2`. -/
def zMid (z : K) : List K → List K
  | [] => []
  | [t] => if t = 0 then [] else [z + t / 2]
  | t :: t' :: ts => (z + t / 2) :: zMid (z + t) (t' :: ts)

/-- helper_site_response.py L1137-1172 `thk2dep`.  `thk[-1]` on an empty array
raises IndexError (L1164). -/
def thk2dep (thk : List K) (midpoint : Bool) : Except PyErr (List K) :=
  if thk = [] then .error .indexError
  else if midpoint then .ok (zMid 0 thk) else .ok (zTop 0 thk)

/-- helper_site_response.py L1208-1213, the loop `h[i] = dep[i+1] - dep[i]`, last
entry staying 0. -/
def dep2thkLoop : List K → List K
  | [] => []
  | [_] => [0]
  | d :: d' :: ds => (d' - d) :: dep2thkLoop (d' :: ds)

/-- helper_site_response.py L1175-1218 `dep2thk`.  `dep[0]` of an empty array
raises IndexError (L1205). -/
def dep2thk (dep : List K) (includeHalfspace : Bool) : Except PyErr (List K) :=
  match dep with
  | [] => .error .indexError
  | d :: ds =>
    if d ≠ 0 then .error .valueError
    else if includeHalfspace then .ok (dep2thkLoop (d :: ds))
    else .ok (dep2thkLoop (d :: ds)).dropLast

/-- helper_site_response.py L125-197 `query_Vs_at_depth` (array `depth`; a scalar
is the one-element list, L162-164).  Order of checks as in the code: negative
depth first (ValueError, L179-180), then the profile.  The returned flags
`is_scalar`, `has_duplicate`, `is_sorted` are modelled in `isSortedFlag` and
`hasDuplicateFlag`. -/
def queryVsAtDepth (profile : List (K × K)) (depth : List K) : Except PyErr (List K) :=
  if depth.any (fun d => decide (d < 0)) then .error .valueError
  else do
    let dep ← thk2dep (profile.map Prod.fst) false
    -- indices_ = max(searchsorted(...) - 1, 0);  vs_ref[indices_]
    depth.mapM fun d =>
      match (profile.map Prod.snd)[searchsortedRight dep d - 1]? with
      | some v => .ok v
      | none => .error .indexError

/-- helper_site_response.py L170-175, `is_sorted`. -/
def isSortedFlag (depth : List K) : Bool :=
  (diff depth).all (fun d => decide (0 ≤ d))

/-- helper_site_response.py L170-174, `has_duplicate_values` (adjacent equal). -/
def hasDuplicateFlag (depth : List K) : Bool :=
  (diff depth).any (fun d => decide (d = 0))

/-- The `thk` argument of `query_Vs_given_thk`: a scalar with an optional number
of layers, or an array.  (helper_site_response.py L200-205) -/
inductive ThkArg (K : Type*) where
  | scalar (t : K) (nLayers : Option Int)
  | array (a : List K)

/-- helper_site_response.py L242-256, construction of `thk_array`. -/
def thkArray : ThkArg K → Except PyErr (List K)
  | .array a => .ok a
  | .scalar _ none => .error .typeError
  | .scalar t (some n) => if n ≤ 0 then .error .valueError else .ok (List.replicate n.toNat t)

/-- helper_site_response.py L200-261 `query_Vs_given_thk`; returns
`(vs_queried, thk_array)`. -/
def queryVsGivenThk (profile : List (K × K)) (thk : ThkArg K) (atMidpoint : Bool) :
    Except PyErr (List K × List K) := do
  let a ← thkArray thk
  let dep ← thk2dep a atMidpoint
  let vs ← queryVsAtDepth profile dep
  return (vs, a)

/-- helper_site_response.py L879-886, the loop of `calc_VsZ` accumulating
`cumul_sl` with `break`.  `d` is `depth[i]`; the running `depth` array of
L875-877 is carried as an argument. -/
def cumulSl (Z : K) : (d : K) → (acc : K) → List (K × K) → K
  | _, acc, [] => acc
  | d, acc, (t, v) :: rest =>
    let d' := d + t
    if d' < Z then cumulSl Z d' (acc + 1 / v * t) rest
    else acc + 1 / v * (t - (d' - Z))

/-- helper_site_response.py L837-904 `calc_VsZ`.  `opt` is
`option_for_profile_shallower_than_Z`; any value other than 1 or 2 leaves `VsZ`
unbound (UnboundLocalError, L904).  A zero accumulated travel time makes numpy
return nan/inf: `nonFinite` (not told apart from the ZeroDivisionError for an empty profile and
`Z ≤ 0`).  Rows with `Vs = 0` are outside of the model (all
callers validate `Vs > 0`). -/
def calcVsZ (profile : List (K × K)) (Z : K) (opt : Int) : Except PyErr K :=
  let total := (profile.map Prod.fst).sum
  let cumul := cumulSl Z 0 0 profile
  if opt = 1 then
    if total < Z then
      match profile.getLast? with
      | none => .error .indexError          -- sl[-1]
      | some (_, vLast) =>
        let c := cumul + 1 / vLast * (Z - total)
        if c = 0 then .error .nonFinite else .ok (Z / c)
    else if cumul = 0 then .error .nonFinite else .ok (Z / cumul)
  else if opt = 2 then
    if cumul = 0 then .error .nonFinite else .ok (min total Z / cumul)
  else .error .unboundLocal

/-- helper_site_response.py L907-943 `calc_Vs30`. -/
def calcVs30 (profile : List (K × K)) (opt : Int) : Except PyErr K :=
  calcVsZ profile 30 opt

/-- helper_site_response.py L1067-1074, the for-else loop of `calc_basin_depth`
over (layer-top depth, Vs). -/
def basinLoop (bedrockVs total : K) : List (K × K) → K
  | [] => total
  | (z, v) :: rest => if bedrockVs ≤ v then z else basinLoop bedrockVs total rest

/-- helper_site_response.py L1042-1076 `calc_basin_depth`.  An empty profile
raises IndexError in `thk2dep`. -/
def calcBasinDepth (profile : List (K × K)) (bedrockVs : K) : Except PyErr K := do
  let dep ← thk2dep (profile.map Prod.fst) false
  return basinLoop bedrockVs (profile.map Prod.fst).sum (dep.zip (profile.map Prod.snd))

/-- helper_site_response.py L1079-1093 `calc_z1`. -/
def calcZ1 (profile : List (K × K)) : Except PyErr K := calcBasinDepth profile 1000

section Stratify
variable [FloorRing K]

/-- `np.round` on a number: round half to even. -/
def roundHalfEven (x : K) : ℤ :=
  let f := ⌊x⌋
  if x - f < 1 / 2 then f
  else if 1 / 2 < x - f then f + 1
  else if f % 2 = 0 then f else f + 1

/-- `np.allclose(a, b)` for scalars with the default tolerances
`|a - b| <= 1e-8 + 1e-5*|b|`. -/
def allclose (a b : K) : Bool :=
  decide (|a - b| ≤ 1 / 10 ^ 8 + 1 / 10 ^ 5 * |b|)

/-- A profile row with thickness, Vs and the remaining columns `rest` (nothing for
a two-column profile; damping, density, material for a five-column one). -/
structure LRow (K : Type*) (P : Type*) where
  thk : K
  vs : K
  rest : P
  deriving DecidableEq, Repr

/-- helper_site_response.py L85-107, one pass of the loop of `stratify`. -/
def stratifyLayer {P : Type*} (r : LRow K P) : List (LRow K P) :=
  let hTemp := r.vs / 225
  if r.thk ≤ hTemp then [r]
  else
    let q := r.thk / hTemp
    let nr := ⌈q⌉.toNat
    if allclose (roundHalfEven q : K) q then
      List.replicate nr { r with thk := hTemp }
    else
      List.replicate nr { r with thk := r.thk / nr }

/-- helper_site_response.py L31-122 `stratify` on validated rows (the format check
of L48 is `checkVsRows`).  `h[-1] == 0`: the last row is split off and appended
again (L60-73, L109-115). -/
def stratify {P : Type*} (rows : List (LRow K P)) : List (LRow K P) :=
  match rows.getLast? with
  | none => []
  | some last =>
    if last.thk = 0 then rows.dropLast.flatMap stratifyLayer ++ [last]
    else rows.flatMap stratifyLayer

end Stratify

end Verif
