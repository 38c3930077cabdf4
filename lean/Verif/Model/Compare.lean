import Verif.Model.Spectrum
import Mathlib.Algebra.Order.Floor.Ring

/-!
Model of `compare_two_accel` and `_align_two_time_arrays` (`helper_site_response.py`).
-/

namespace Verif

section
variable {K : Type} [Field K] [LinearOrder K] [FloorRing K]

/-- helper_site_response.py L2009-2028 `_align_two_time_arrays` for 1D arrays of finite numbers.  A time step of zero gives
`int(inf)` or `int(nan)`, an OverflowError or ValueError. -/
def alignTimes (t1 t2 : List K) : Except PyErr (List K) :=
  match t1, t2 with
  | a :: b :: r, c :: d :: s =>
    let dt := min (b - a) (d - c)
    let tm := max ((a :: b :: r).getLastD 0) ((c :: d :: s).getLastD 0)
    if dt = 0 then .error .other
    else if ⌈tm / dt⌉ < 0 then .error .valueError
    else .ok (linspace dt (dt * ⌈tm / dt⌉) ⌈tm / dt⌉.toNat)
  | _, _ => .error .valueError

/-- helper_site_response.py L1966-1977: both records at the common times. -/
def alignRecs (x y : Rec K) : Except PyErr (Rec K × Rec K) := do
  let t ← alignTimes (x.map Prod.fst) (y.map Prod.fst)
  let a ← t.mapM (npInterp x)
  let b ← t.mapM (npInterp y)
  return (t.zip a, t.zip b)

end

noncomputable section

/-- What the figure of `compare_two_accel` shows. -/
structure Comparison where
  input : Rec ℝ
  output : Rec ℝ
  freq : List ℝ
  ampl : List ℝ
  phase : List ℝ
  smoothed : Option (List ℝ)

open scoped Classical in
/-- helper_site_response.py L1925-2006 `compare_two_accel` for two-column arrays of finite numbers: the data passed on to
the figure.  A Fourier coefficient of the input that is zero gives infinities or NaN, which is outside of the model; so is
drawing the figure (`_plot_site_amp`). -/
def compareTwo (smooth : Bool) (x y : Rec ℝ) : Except PyErr Comparison := do
  let ab ← alignRecs x y
  let si ← fourierTransform false false ab.1
  let so ← fourierTransform false false ab.2
  if ∃ p ∈ si, p.2 = 0 then .error .nonFinite
  else
    let tf := List.zipWith (fun o i => o.2 / i.2) so si
    let amp := tf.map fun z => ‖z‖
    let sm ← if smooth then (logSmooth { linSpace := false } amp).map some else .ok none
    return ⟨ab.1, ab.2, si.map Prod.fst, amp, tf.map Complex.arg, sm⟩

end

end Verif
