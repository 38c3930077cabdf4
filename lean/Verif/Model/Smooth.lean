import Verif.Model.Amplify
import Verif.Model.Motion
import Mathlib.Analysis.SpecialFunctions.Log.Base
import Mathlib.Analysis.SpecialFunctions.Pow.Real

/-!
Model of the smoothing functions of helper_signal_processing.py on real 1D arrays.
-/

namespace Verif

noncomputable section

/-- The `window` argument. -/
inductive Win | flat | hanning | hamming | bartlett | blackman | bad
  deriving DecidableEq

/-- Entry `k` of `np.ones(M)`, `np.hanning(M)`, …, for `M ≥ 2`; numpy uses `n = 2 k - (M - 1)`. -/
def winAt (w : Win) (M k : Nat) : ℝ :=
  let n : ℝ := 2 * (k : ℝ) - ((M : ℝ) - 1)
  let q : ℝ := Real.pi * n / ((M : ℝ) - 1)
  match w with
  | .flat => 1
  | .hanning => 0.5 + 0.5 * Real.cos q
  | .hamming => 0.54 + 0.46 * Real.cos q
  | .bartlett => if n ≤ 0 then 1 + n / ((M : ℝ) - 1) else 1 - n / ((M : ℝ) - 1)
  | .blackman => 0.42 + 0.5 * Real.cos q + 0.08 * Real.cos (2 * q)
  | .bad => 0

/-- The window. -/
def winArr (w : Win) (M : Nat) : List ℝ := (List.range M).map (winAt w M)

/-- `np.convolve(w, x, mode='same')` for `len(w) ≤ len(x)`: the samples of the full convolution from `(M - 1) // 2` on. -/
def convSame (w x : List ℝ) : List ℝ :=
  (List.range x.length).map fun k =>
    ∑ i ∈ Finset.range w.length,
      w.getD i 0 * (if i ≤ k + (w.length - 1) / 2 then x.getD (k + (w.length - 1) / 2 - i) 0 else 0)

/-- helper_signal_processing.py L831-911 `lin_smooth` for a 1D array. -/
def linSmooth (x : List ℝ) (M : Nat) (w : Win) : Except PyErr (List ℝ) :=
  if x.length < M then .error .valueError
  else if M < 3 then .ok x
  else if w = .bad then .error .valueError
  else .ok (convSame ((winArr w M).map (· / (winArr w M).sum)) x)

/-- `np.logspace(np.log10(a), np.log10(b), n)` for positive `a`, `b`. -/
def logspace (a b : ℝ) (n : Nat) : List ℝ := (linspace (Real.logb 10 a) (Real.logb 10 b) n).map fun e => (10 : ℝ) ^ e

/-- `np.interp(xs, xp, fp)`: ValueError for data of different lengths or without any points. -/
def interpMany (xs xp fp : List ℝ) : Except PyErr (List ℝ) :=
  if xp.length ≠ fp.length then .error .valueError else xs.mapM (npInterp (xp.zip fp))

/-- Keyword arguments of `log_smooth`. -/
structure LogArgs where
  winLen : Nat := 15
  window : Win := .hanning
  linSpace : Bool := true
  fmin : Option ℝ := none
  fmax : Option ℝ := none
  nPts : Option Nat := none
  fixEnds : Bool := true
  beta1 : ℝ := 0.9
  beta2 : ℝ := 0.9

/-- helper_signal_processing.py L798-806: the signal in logarithmic spacing.  A frequency range that is not positive and
increasing is outside of the model. -/
def toLog (g : LogArgs) (x : List ℝ) : Except PyErr (List ℝ) :=
  if g.linSpace then
    match g.fmin, g.fmax with
    | some a, some b =>
      if 0 < a ∧ a < b then
        interpMany (logspace a b (g.nPts.getD x.length)) (linspace a b (g.nPts.getD x.length)) x
      else .error .nonFinite
    | _, _ => .error .valueError
  else .ok x

/-- helper_signal_processing.py L819-821: the head. -/
def fixHead (beta : ℝ) (n : Nat) (x y : List ℝ) : List ℝ :=
  (List.range' 1 (n - 1)).foldl
    (fun y j => y.set j (beta * y.getD (j - 1) 0 + (1 - beta) * x.getD j 0))
    (y.set 0 ((x.take n).sum / n))

/-- helper_signal_processing.py L823-825: the tail; pass `t` is for `j = len(y) - 1 - t`. -/
def fixTail (beta : ℝ) (n : Nat) (x y : List ℝ) : List ℝ :=
  (List.range' 1 (n - 1)).foldl
    (fun y t => y.set (y.length - 1 - t)
      (beta * y.getD (y.length - 1 - t + 1) 0 + (1 - beta) * x.getD (y.length - 1 - t) 0))
    (y.set (y.length - 1) ((x.drop (y.length - n)).sum / n))

/-- helper_signal_processing.py L718-828 `log_smooth` for a 1D array. -/
def logSmooth (g : LogArgs) (sig : List ℝ) : Except PyErr (List ℝ) := do
  if sig.length < g.winLen then .error .valueError
  else if g.winLen < 3 then .ok sig
  else if g.window = .bad then .error .valueError
  else
    let x ← toLog g sig
    let y ← linSmooth x g.winLen g.window
    if g.fixEnds then
      if g.beta1 < 0 ∨ 1 < g.beta1 then .error .valueError
      else if g.beta2 < 0 ∨ 1 < g.beta2 then .error .valueError
      else .ok (fixTail g.beta2 (g.winLen / 2) x (fixHead g.beta1 (g.winLen / 2) x y))
    else .ok y

end

end Verif
