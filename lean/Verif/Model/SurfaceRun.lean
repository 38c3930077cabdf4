import Verif.Model.EquivLinear
import Verif.Model.MotionMethods
import Verif.Model.SimInit
import Verif.Model.Spectrum

/-!
Model of `Linear_Simulation.run(every_layer=False)` (class_simulation.py L268-282) and of the constructor of
`Simulation_Results` (class_simulation_results.py L112-217).  Figures are in `Model/ResPlot`, the files are in
`Verif.Model.ResultFiles`.
-/

namespace Verif

/-! ## The results object -/

/-- An argument which may be `None`, a numpy array (given by its shape and its identity) or something else. -/
inductive ArrArg (A : Type) | none | arr (shape : List Nat) (a : A) | other

/-- `trans_func`, `trans_func_smoothed`: `None`, a `Frequency_Spectrum`, something else. -/
inductive SpecArg (S : Type) | none | spec (s : S) | other

/-- helper_generic.py L346-364 `assert_2D_numpy_array` and `assert x.shape == (r, c)` (class_simulation_results.py
L158-186), only if the argument is not `None`. -/
def checkShape {A : Type} (x : ArrArg A) (r c : Nat) : Except PyErr Unit :=
  match x with
  | .none => .ok ()
  | .other => .error .typeError
  | .arr s _ => if s.length ≠ 2 then .error .typeError else if s = [r, c] then .ok () else .error .assertionError

/-- `isinstance(x, (Frequency_Spectrum, type(None)))`. -/
def checkSpec {S : Type} : SpecArg S → Except PyErr Unit
  | .other => .error .typeError
  | _ => .ok ()

/-- The array arguments of `Simulation_Results`. -/
structure ResArrays (A : Type) where
  accel : ArrArg A
  veloc : ArrArg A
  displ : ArrArg A
  stress : ArrArg A
  strain : ArrArg A
  maxAvd : ArrArg A
  maxGt : ArrArg A

/-- The attributes of a `Simulation_Results` object. -/
structure ResultsObj (M V S A : Type) where
  input : M
  surface : M
  profile : V
  tf : SpecArg S
  tfSmoothed : SpecArg S
  arrays : ResArrays A
  name : String
  outDir : String

/-- class_simulation_results.py L188-195: the two arrays of maxima. -/
def checkMax {A : Type} (nl : Nat) (a g : ArrArg A) : Except PyErr (ArrArg A × ArrArg A) :=
  match a, g with
  | .none, _ => .ok (.none, .none)
  | _, .none => .ok (.none, .none)
  | .arr s x, .arr t y =>
    if s.length ≠ 2 then .error .typeError
    else if t.length ≠ 2 then .error .typeError
    else if s ≠ [nl + 1, 4] then .error .assertionError
    else if t ≠ [nl, 3] then .error .assertionError
    else .ok (.arr s x, .arr t y)
  | _, _ => .error .typeError

/-- class_simulation_results.py L112-217 `Simulation_Results.__init__`; `npts` and `nLayer` are the attributes of these
names, `time` is the current time; motions and profiles of another class are `none`. -/
def resultsInit {M V S A : Type} (npts : M → Nat) (nLayer : V → Nat) (time : String) (input surface : Option M)
    (profile : Option V) (tf tfs : SpecArg S) (x : ResArrays A) (name outDir : Option String) :
    Except PyErr (ResultsObj M V S A) :=
  match input, surface, profile with
  | some i, some s, some p => do
    checkSpec tf
    checkSpec tfs
    checkShape x.accel (npts s) (nLayer p + 1)
    checkShape x.veloc (npts s) (nLayer p + 1)
    checkShape x.displ (npts s) (nLayer p + 1)
    checkShape x.stress (npts s) (nLayer p)
    checkShape x.strain (npts s) (nLayer p)
    let m ← checkMax (nLayer p) x.maxAvd x.maxGt
    return ⟨i, s, p, tf, tfs, { x with maxAvd := m.1, maxGt := m.2 }, name.getD ("accel_" ++ time),
      outDir.getD ("./sim_" ++ time)⟩
  | _, _, _ => .error .typeError

/-! ## Surface motion only -/

noncomputable section

/-- class_simulation.py L269-275: the response and the transfer function with its frequencies; the check of the profile
is the one at the beginning of `linear_tf` (helper_site_response.py L1280). -/
def surfaceResp (rows : List (Row ℝ)) (x : Rec ℝ) (b : BoundaryArg) (deconv : Bool) :
    Except PyErr (Rec ℝ × List ℝ × List ℂ) := do
  let _ ← freqInterval x
  checkVsFormat (.five rows)
  linearSiteResp (rows.map rowLay) x b deconv

/-- class_simulation.py L276: `Frequency_Spectrum(tf[1], df=tf[0][1] - tf[0][0])`. -/
def surfaceSpec (f : List ℝ) (tf : List ℂ) : Except PyErr FreqSpec :=
  match f with
  | f0 :: f1 :: _ => newSpect (.one tf) (some (f1 - f0)) none
  | _ => .error .indexError

/-- class_simulation.py L269-282 `Linear_Simulation.run` with `every_layer=False`: the results object (the profile is
the object of the simulation, the motion on the surface a new one) or the error, and the memory afterwards. -/
def surfaceRun {V A : Type} (array : V → List (Row ℝ)) (nLayer : V → Nat) (time : String) (v : V) (b : BoundaryArg)
    (deconv : Bool) (σ : CStore ℝ) (m : Motion ℝ) : Except PyErr (ResultsObj (Motion ℝ) V FreqSpec A) × CStore ℝ :=
  match surfaceResp (array v) (m.accel.read σ) b deconv with
  | .error e => (.error e, σ)
  | .ok r =>
    match surfaceSpec r.2.1 r.2.2 with
    | .error e => (.error e, σ)
    | .ok s =>
      match mkFresh σ r.1 with
      | (.error e, τ) => (.error e, τ)
      | (.ok m', τ) =>
        (resultsInit Motion.npts nLayer time (some m) (some m') (some v) (.spec s) .none
          ⟨.none, .none, .none, .none, .none, .none, .none⟩ none none, τ)

end

end Verif
