import Verif.Model.Amplify
import Verif.Model.VsProfile

/-!
Model of the iteration of `equiv_linear` and of `check_layer_count`
(`helper_simulations.py`).

The response calculation is a parameter of the iteration, so that its statements hold for
every response; `Model/EveryLayer.lean` supplies the one used by the code.  The re-discretised
profile is part of the state of the iteration because the damping array `D` of the code is a
view of its third column (L556): there is no separate damping array.
-/

namespace Verif

variable {K : Type} [Field K] [LinearOrder K]

/-- Indexing `a[i]` of a numpy axis: negative indices count from the end. -/
def pyGet {α : Type} (l : List α) (i : Int) : Except PyErr α :=
  match (if 0 ≤ i then l[i.toNat]? else if 0 ≤ i + l.length then l[(i + l.length).toNat]? else none) with
  | some a => .ok a
  | none => .error .indexError

/-- helper_simulations.py L18-63 `check_layer_count`, for one set of curves or parameters with
`n` members; `mats` are the material numbers of the profile (`np.max` of an empty array raises
ValueError). -/
def checkLayerCount (n : Int) (mats : List K) : Except PyErr Unit :=
  match mats with
  | [] => .error .valueError
  | m :: ms => if (n : K) < ms.foldl max m then .error .valueError else .ok ()

/-- Interpolation points of one layer: (strain, G/Gmax) and (strain, damping), strains and
damping in unit 1. -/
structure LayCurve (K : Type) where
  g : List (K × K)
  d : List (K × K)
  deriving DecidableEq

/-- helper_simulations.py L349-352, one layer: the four columns of material number `m`. -/
def curveCols (cols : List (List K)) (m : Int) : Except PyErr (List K × List K × List K × List K) := do
  let sg ← pyGet cols (m * 4 + 0)
  let g ← pyGet cols (m * 4 + 1)
  let sd ← pyGet cols (m * 4 + 2)
  let d ← pyGet cols (m * 4 + 3)
  return (sg.map (· / 100), g, sd.map (· / 100), d.map (· / 100))

/-- helper_simulations.py L354-355 and L385-395, one layer: the damping curve is shifted to
start at the damping `xi` of the layer, and both curves get end points at strains 0 and 100
(in unit 1). `D_vector[0, k]` of an empty curve raises IndexError. -/
def layCurve (sg g sd d : List K) (xi : K) : Except PyErr (LayCurve K) :=
  match d.head?, g.getLast?, d.getLast? with
  | some d0, some gl, some dl =>
    .ok { g := (0, 1) :: (sg.zip g ++ [(100, min (1 / 10 ^ 4) gl)])
          d := (0, d0 - d0 + xi) :: (sd.zip (d.map fun x => x - d0 + xi) ++ [(100, dl - d0 + xi)]) }
  | _, _, _ => .error .indexError

/-- helper_simulations.py L342-355: the curves of all layers but the last one (the columns of
`curve_matrix` are `cols`).  Material numbers are validated integers, so `astype(int)` is the
floor. -/
def layCurves [FloorRing K] (cols : List (List K)) (prof : List (Row K)) : Except PyErr (List (LayCurve K)) :=
  prof.dropLast.mapM fun r => do
    let c ← curveCols cols (⌊r.mat⌋ - 1)
    layCurve c.1 c.2.1 c.2.2.1 c.2.2.2 r.xi

/-- helper_simulations.py L397-401, one layer: new modulus and damping. -/
def layUpdate (gmax : K) (c : LayCurve K) (eff : K) : Except PyErr (K × K) := do
  let g ← npInterp c.g eff
  let d ← npInterp c.d eff
  return (gmax * g, d)

/-- helper_simulations.py L382-401: `G_new`, `D_new` of all layers but the last one. -/
def eqUpdate (gmax : List K) (cs : List (LayCurve K)) (eff : List K) : Except PyErr (List (K × K)) :=
  ((gmax.zip cs).zip eff).mapM fun x => layUpdate x.1.1 x.1.2 x.2

/-- `np.max(np.abs(old - new) / new) < tol`.  A zero divisor makes the quotient nan or inf and
the comparison false. -/
def maxRelDiffLt (tol : K) (old new : List K) : Bool :=
  (old.zip new).all fun x => decide (x.2 ≠ 0 ∧ |x.1 - x.2| / x.2 < tol)

/-- State of the iteration: the re-discretised profile (its third column is `D`), the moduli
`G`, the results of the last response calculation (`none`: the names are unbound) and the
columns written to `G_matrix` and `D_matrix`. -/
structure EqState (K R : Type) where
  prof : List (Row K)
  G : List K
  res : Option R
  hist : List (List (K × K))

/-- The response calculation: thickness, modulus, damping and density of the layers give the
results kept for later and the effective strains. -/
abbrev RespFn (K R : Type) := List K → List K → List K → List K → Except PyErr (R × List K)

/-- helper_simulations.py L406 `D[:-1] = D_new`, writing into the profile. -/
def setDamping (prof : List (Row K)) (d : List K) : List (Row K) :=
  List.zipWith (fun r x => { r with xi := x }) prof.dropLast d ++ prof.getLast?.toList

/-- helper_simulations.py L405 `G[:-1] = G_new`. -/
def setModulus (G g : List K) : List K := g ++ G.getLast?.toList

/-- helper_simulations.py L363-421, one pass of the loop: the new state and whether modulus and
damping changed by less than `tol`.  `np.max` of an empty array raises ValueError. -/
def eqStep {R : Type} (resp : RespFn K R) (gmax : List K) (cs : List (LayCurve K)) (tol : K) (s : EqState K R) :
    Except PyErr (EqState K R × Bool) := do
  let r ← resp (s.prof.map Row.thk) s.G (s.prof.map Row.xi) (s.prof.map Row.rho)
  let new ← eqUpdate gmax.dropLast cs r.2
  if new = [] then .error .valueError
  else
    let conv := maxRelDiffLt tol s.G.dropLast (new.map Prod.fst)
      && maxRelDiffLt tol (s.prof.dropLast.map Row.xi) (new.map Prod.snd)
    .ok ({ prof := setDamping s.prof (new.map Prod.snd)
           G := setModulus s.G (new.map Prod.fst)
           res := some r.1
           hist := s.hist ++ [new] }, conv)

/-- helper_simulations.py L363-427: the loop with `n` passes left; the `break` needs
`verbose`. -/
def eqLoop {R : Type} (resp : RespFn K R) (gmax : List K) (cs : List (LayCurve K)) (tol : K) (verbose : Bool) :
    Nat → EqState K R → Except PyErr (EqState K R)
  | 0, s => .ok s
  | n + 1, s =>
    match eqStep resp gmax cs tol s with
    | .error e => .error e
    | .ok (s', conv) => if conv && verbose then .ok s' else eqLoop resp gmax cs tol verbose n s'

/-- helper_simulations.py L358-361: allocating `G_matrix` and writing its first column. -/
def checkMaxIter (maxIter : Int) : Except PyErr Unit :=
  if maxIter + 1 < 0 then .error .valueError
  else if maxIter + 1 = 0 then .error .indexError
  else .ok ()

/-- helper_simulations.py L342-427: curves and iteration on the re-discretised profile `prof`.
Without any pass the results are unbound at L430. -/
def eqIterate [FloorRing K] {R : Type} (resp : RespFn K R) (prof : List (Row K)) (cols : List (List K)) (tol : K)
    (maxIter : Int) (verbose : Bool) : Except PyErr (EqState K R × R) := do
  let gmax := prof.map fun r => r.rho * r.vs ^ 2
  let cs ← layCurves cols prof
  checkMaxIter maxIter
  let s ← eqLoop resp gmax cs tol verbose maxIter.toNat ⟨prof, gmax, none, []⟩
  match s.res with
  | none => .error .unboundLocal
  | some r => .ok (s, r)

end Verif
