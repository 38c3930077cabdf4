import Verif.Model.Amplify
import Verif.Model.Containers
import Verif.Model.EquivLinear

/-!
Model of the constructors in class_simulation.py.  Objects of the classes `Vs_Profile`, `Ground_Motion` and
`Multiple_GGmax_Damping_Curves` are values of the types `V`, `M` and `C`.
-/

namespace Verif

variable {V M P C K : Type} [Field K] [LinearOrder K]

/-- The arguments `G_param` and `xi_param`: `None`, a `Param_Multi_Layer` (of one of the classes of
class_parameters.py) or an object of another class. -/
inductive ParArg (P : Type) | none | multi (m : PMulti P) | other (cls : Nat)

/-- `type(a) == type(b)`. -/
def ParArg.sameType : ParArg P → ParArg P → Bool
  | .none, .none => true
  | .multi a, .multi b => decide (a.cls = b.cls)
  | .other i, .other j => decide (i = j)
  | _, _ => false

/-- `G_param is not None and not isinstance(G_param, Param_Multi_Layer)`. -/
def ParArg.foreign : ParArg P → Bool
  | .other _ => true
  | _ => false

/-- The argument `GGmax_and_damping_curves`. -/
inductive CurvesArg (C : Type) | none | curves (c : C) | other

/-- The attributes of a simulation. -/
structure SimObj (V M P C : Type) where
  profile : V
  motion : M
  boundary : Boundary
  gParam : ParArg P
  xiParam : ParArg P
  curves : CurvesArg C

/-- class_simulation.py L84-139 `Simulation.__init__` (also of `Linear_Simulation`); a profile or motion of the wrong
class is `none`. -/
def simInit (profile : Option V) (motion : Option M) (boundary : BoundaryArg) (g xi : ParArg P) (curves : CurvesArg C) :
    Except PyErr (SimObj V M P C) :=
  match profile with
  | .none => .error .typeError
  | .some v =>
    match motion with
    | .none => .error .typeError
    | .some m =>
      match boundary with
      | .other => .error .valueError
      | b =>
        if ParArg.sameType g xi = false then .error .typeError
        else if g.foreign then .error .typeError
        else if xi.foreign then .error .typeError
        else
          match curves with
          | .other => .error .typeError
          | c => .ok ⟨v, m, (match b with | .rigid => .rigid | _ => .elastic), g, xi, c⟩

/-- class_simulation.py L320-339 `Equiv_Linear_Simulation.__init__`; `mats` is `_material_number`, `count` is
`n_layer`. -/
def equivInit (mats : V → List K) (count : C → Int) (profile : Option V) (motion : Option M) (curves : CurvesArg C)
    (boundary : BoundaryArg) : Except PyErr (SimObj V M P C) :=
  match curves with
  | .none => .error .typeError
  | c => do
    let s ← simInit (P := P) profile motion boundary .none .none c
    match s.curves with
    | .curves c => checkLayerCount (count c) (mats s.profile)
    | _ => .ok ()
    return s

/-- class_simulation.py L484-506 `Nonlinear_Simulation.__init__`. -/
def nonlinInit (mats : V → List K) (profile : Option V) (motion : Option M) (g xi : ParArg P) (boundary : BoundaryArg) :
    Except PyErr (SimObj V M P C) :=
  match g, xi with
  | .none, _ => .error .typeError
  | _, .none => .error .typeError
  | g, xi => do
    let s ← simInit (C := C) profile motion boundary g xi .none
    match s.gParam with
    | .multi a => checkLayerCount a.nLayer (mats s.profile)
    | _ => .ok ()
    match s.xiParam with
    | .multi a => checkLayerCount a.nLayer (mats s.profile)
    | _ => .ok ()
    return s

end Verif
