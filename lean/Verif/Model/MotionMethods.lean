import Verif.Model.Amplify
import Verif.Model.Filter
import Verif.Model.VsProfile

/-!
Model of the methods of `Ground_Motion` which derive another motion: filters, baseline correction, amplification and
deconvolution (class_ground_motion.py L692-1115).  Figures are in `Model/MotionFigs`.
-/

namespace Verif

section
variable {K : Type} [Field K] [LinearOrder K]

/-- helper_signal_processing.py L209-332 for the one-sided filters: `none` when `orig_signal` itself is returned
(L223, L226), else the new array. -/
def filterOneOut (design : Design K) (order : Nat) (high : Bool) (c : K) (x : Rec K) : Except PyErr (Option (Rec K)) := do
  let dt ← dtOf x
  if dt = 0 then .error .nonFinite
  else if high then
    if c ≤ 0 then .ok none
    else do
      let y ← applyFilter design order .highpass [c / (1 / dt / 2)] x
      return some y
  else if 1 / dt / 2 ≤ c then .ok none
  else do
    let y ← applyFilter design order .lowpass [c / (1 / dt / 2)] x
    return some y

/-- helper_signal_processing.py L209-332 for the two-sided filters. -/
def filterTwoOut (design : Design K) (order : Nat) (stop : Bool) (a b : K) (x : Rec K) : Except PyErr (Option (Rec K)) := do
  let dt ← dtOf x
  if dt = 0 then .error .nonFinite
  else if 1 / dt / 2 * (9999 / 10000) ≤ b then filterOneOut design order (!stop) a x
  else if a ≤ 1 / ((x.length : K) * dt) then filterOneOut design order stop b x
  else do
    let y ← applyFilter design order (if stop then .bandstop else .bandpass) [a / (1 / dt / 2), b / (1 / dt / 2)] x
    return some y

/-- helper_signal_processing.py L178-332 `_filter_kernel`: `none` when the array passed in is returned. -/
def filterOut (design : Design K) (order : Nat) (ft : FType) (cut : Cut K) (x : Rec K) : Except PyErr (Option (Rec K)) :=
  match ft with
  | .bad => .error .valueError
  | .lowpass => match cut with
    | .num c => filterOneOut design order false c x
    | _ => .error .typeError
  | .highpass => match cut with
    | .num c => filterOneOut design order true c x
    | _ => .error .typeError
  | .bandpass => match cut with
    | .pair a b => if b ≤ a then .error .valueError else filterTwoOut design order false a b x
    | .seq => .error .valueError
    | _ => .error .typeError
  | .bandstop => match cut with
    | .pair a b => if b ≤ a then .error .valueError else filterTwoOut design order true a b x
    | .seq => .error .valueError
    | _ => .error .typeError

/-- The array of accelerations of a motion as an array with an address: an array of its own is entered in the store. -/
def withAddr (σ : CStore K) (m : Motion K) : Nat × Motion K × CStore K :=
  match m.accel with
  | .view a => (a, m, σ)
  | .own d => (σ.length, { m with accel := .view σ.length }, σ ++ [d])

/-- class_ground_motion.py L968-1115 `lowpass`, `highpass`, `bandpass`, `bandstop`: the new motion or the error, this
motion and the memory afterwards. -/
def filterMotion (design : Design K) (order : Nat) (ft : FType) (cut : Cut K) (σ : CStore K) (m : Motion K) :
    Except PyErr (Motion K) × Motion K × CStore K :=
  let w := withAddr σ m
  match filterOut design order ft cut (w.2.1.accel.read w.2.2) with
  | .error e => (.error e, w.2.1, w.2.2)
  | .ok none =>
    let r := mkMotion w.2.2 (.two w.1) .m .accel none
    (r.1, w.2.1, r.2)
  | .ok (some y) =>
    let r := mkFresh w.2.2 y
    (r.1, w.2.1, r.2)

/-- class_ground_motion.py L943-966 `baseline_correct`. -/
def baselineMotion [FloorRing K] (design : Design K) (cutoff : K) (σ : CStore K) (m : Motion K) :
    Except PyErr (Motion K) × CStore K :=
  match baselineCorrect design cutoff (m.accel.read σ) with
  | .error e => (.error e, σ)
  | .ok y => mkFresh σ y

end

noncomputable section

/-- helper_site_response.py L1282-1289: the columns used by `linear_tf`. -/
def rowLay (r : Row ℝ) : Lay := ⟨r.thk, r.vs, r.xi, r.rho⟩

/-- class_ground_motion.py L781-824 `amplify` (`deconv = false`) and L897-941 `deconvolve` (`deconv = true`).  `soil` is
the array of the profile, `none` for an argument which is not a `Vs_Profile`.  The check of the profile is the one at
the beginning of `linear_tf` (helper_site_response.py L1280). -/
def siteMotion (soil : Option (List (Row ℝ))) (b : BoundaryArg) (deconv : Bool) (σ : CStore ℝ) (m : Motion ℝ) :
    Except PyErr (Motion ℝ) × CStore ℝ :=
  match soil with
  | none => (.error .typeError, σ)
  | some rows =>
    match (do
      let _ ← freqInterval (m.accel.read σ)
      checkVsFormat (.five rows)
      linearSiteResp (rows.map rowLay) (m.accel.read σ) b deconv : Except PyErr (Rec ℝ × List ℝ × List ℂ)) with
    | .error e => (.error e, σ)
    | .ok y => mkFresh σ y.1

/-- class_ground_motion.py L692-779 `amplify_by_tf`: the transfer function is a `Frequency_Spectrum` with frequencies and
values, `none` for anything else. -/
def tfMotion (tf : Option (List ℝ × List ℂ)) (taper : Option (List ℝ → List ℝ)) (extrap deconv : Bool) (σ : CStore ℝ)
    (m : Motion ℝ) : Except PyErr (Motion ℝ) × CStore ℝ :=
  match tf with
  | none => (.error .typeError, σ)
  | some (f, s) =>
    match amplifyMotion (m.accel.read σ) f (.complex s) taper extrap deconv with
    | .error e => (.error e, σ)
    | .ok y => mkFresh σ y

end

end Verif
