import Verif.Model.Motion
import Mathlib.Analysis.SpecialFunctions.Trigonometric.Basic
import Mathlib.Analysis.SpecialFunctions.Pow.NNReal

/-!
Model of `sine_smooth` (`helper_signal_processing.py` L914-989) on a two-column array of finite numbers.

The work arrays `g1`, `g2` are functions of the index.  Of all indices used, only those of the loop which clears the end of
`g2` (and, with the same largest value, of the folding loop) can lie outside of the arrays; this is checked explicitly.
-/

namespace Verif

noncomputable section

/-- L941-945: the window; `udf` is the width of a frequency step in units of the window. -/
def sineW (udf : ℝ) (l : Nat) : ℝ :=
  if l = 0 then 0.75 * udf
  else 0.75 * udf * (Real.sin (1.570796 * l * udf) / (1.570796 * l * udf)) ^ 4

/-- L947-951: the power spectrum. -/
def sineG (T : ℝ) (x : List ℝ) (k : Nat) : ℝ :=
  if k = 0 ∨ k = x.length - 1 then x.getD k 0 ^ 2 / T else 2 * x.getD k 0 ^ 2 / T

/-- L965-966: `g1`, the power spectrum behind `ll - 1 = 2 (lmax - 1)` zeros. -/
def sineG1 (T : ℝ) (x : List ℝ) (lmax : Nat) (k : Nat) : ℝ :=
  if 2 * (lmax - 1) ≤ k ∧ k < 2 * (lmax - 1) + x.length then sineG T x (k - 2 * (lmax - 1)) else 0

/-- L968-976: `g2` before folding: the convolution for `lmax - 1 ≤ k < le`, zero elsewhere. -/
def sineG2 (w : Nat → ℝ) (g1 : Nat → ℝ) (lmax n : Nat) (k : Nat) : ℝ :=
  if lmax - 1 ≤ k ∧ k < 4 * (lmax - 1) + n - lmax + 1 then
    w 0 * g1 k + ∑ l ∈ Finset.Ico 1 lmax, w l * (g1 (k - l) + g1 (k + l))
  else 0

/-- L978-980: one pass of the folding loop, with `ll = 2 lmax - 1` and `ln = ll - 1 + n`. -/
def sineFold (lmax n : Nat) (g2 : Nat → ℝ) (l : Nat) : Nat → ℝ :=
  let ll := 2 * lmax - 1
  let ln := ll - 1 + n
  let h := Function.update g2 (ll + l - 1) (g2 (ll + l - 1) + g2 (ll - l - 2))
  Function.update h (ln - l - 2) (h (ll - l - 2) + h (ln + l + 1))

/-- L953-983: the smoothed power spectrum. -/
def sineGs (udf T : ℝ) (x : List ℝ) (lmax : Nat) (k : Nat) : ℝ :=
  (List.range' 1 (lmax - 1)).foldl (sineFold lmax x.length)
    (sineG2 (sineW udf) (sineG1 T x lmax) lmax x.length) (2 * (lmax - 1) + k)

/-- L914-989 `sine_smooth`.  A frequency step of zero gives `int(inf)`, an OverflowError. -/
def sineSmooth (span : ℝ) (s : Rec ℝ) : Except PyErr (List ℝ) :=
  match s with
  | p :: q :: rest =>
    let x := (p :: q :: rest).map Prod.snd
    let n := x.length
    let df := q.1 - p.1
    if span = 0 then .error .zeroDivision
    else if df = 0 then .error .other
    else
      let T := 1 / df
      let udf := 1.854305 / span * df
      let lm := ⌊2 / udf⌋ + 1
      if lm < 0 then .error .valueError
      else if lm = 0 then .error .indexError
      else
        let lmax := lm.toNat
        let lt := 4 * (lmax - 1) + n
        if max lt 4497 < 2 * (lmax - 1) + n + lmax + 1 then .error .indexError
        else .ok ((List.range n).map fun k =>
          if k = 0 ∨ k = n - 1 then Real.sqrt (sineGs udf T x lmax k * T) else Real.sqrt (sineGs udf T x lmax k * T / 2))
  | _ => .error .indexError

end

end Verif
