import Verif.Model.Amplify

/-!
Model of `taper_Tukey` (helper_signal_processing.py L584-623), with the Tukey window of scipy written out.
-/

namespace Verif

/-- `scipy.signal.tukey(M, alpha)`, entry `i` (symmetric window): ones for `alpha ≤ 0`, a Hann window for `alpha ≥ 1`, a single
one for `M = 1`. -/
noncomputable def tukeyAt (M : Nat) (alpha : ℝ) (i : Nat) : ℝ :=
  if M = 1 then 1
  else if alpha ≤ 0 then 1
  else if 1 ≤ alpha then 0.5 - 0.5 * Real.cos (2 * Real.pi * i / ((M : ℝ) - 1))
  else if i < ⌊alpha * ((M : ℝ) - 1) / 2⌋₊ + 1 then
    0.5 * (1 + Real.cos (Real.pi * (-1 + 2 * (i : ℝ) / alpha / ((M : ℝ) - 1))))
  else if i < M - ⌊alpha * ((M : ℝ) - 1) / 2⌋₊ - 1 then 1
  else 0.5 * (1 + Real.cos (Real.pi * (-2 / alpha + 1 + 2 * (i : ℝ) / alpha / ((M : ℝ) - 1))))

/-- The argument of `taper_Tukey`. -/
inductive TaperArg
  | one (a : List ℝ)
  | two (rows : List (ℝ × ℝ))
  | cube
  | notArray

/-- helper_signal_processing.py L614-616: a one-dimensional signal. -/
noncomputable def tukey1 (width : ℝ) (a : List ℝ) : List ℝ := a.mapIdx fun i x => x * tukeyAt a.length (width / 2) i

/-- helper_signal_processing.py L584-623 `taper_Tukey`.  L613 calls `np.column_stack` with two arguments, which is a
TypeError. -/
noncomputable def taperTukey (width : ℝ) : TaperArg → Except PyErr (List ℝ)
  | .notArray => .error .typeError
  | .two _ => .error .typeError
  | .one a => .ok (tukey1 width a)
  | .cube => .error .typeError

end Verif
