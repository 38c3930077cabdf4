import Verif.Model.Scores
import Verif.Model.NumFormat

/-!
Model of the texts of class_gof_scores.py: what `calc_scores(verbose=True)` prints (L227-272) and what `print()` of a
`GOF_Scores` shows (L62-91).  Of a line the name of the score and the number that its digits denote are modelled; a NaN is `none`.
The stored scores are single precision numbers (L60 `dtype=np.float32`), without overflow; the returned ones are double
precision numbers, whose arithmetic (`np.mean`) is exact here.
-/

namespace Verif

variable {K : Type} [Field K] [LinearOrder K] [FloorRing K]

/-- The exponent of the last place of a single precision number near `x`: 23 binary places after the leading one, not below 2^-149. -/
def ulpExp32 (x : K) : ℤ := max (Int.log 2 |x|) (-126) - 23

/-- One unit in the last place at `x`. -/
def ulp32 (x : K) : K := (2 : K) ^ ulpExp32 x

/-- Rounding to the nearest single precision number, ties to even (class_gof_scores.py L60, L187, L200, L213, L225). -/
def fl32 (x : K) : K := (roundHalfEven (x / ulp32 x) : K) * ulp32 x

/-- class_gof_scores.py L64-75 and L228-239 `sn`. -/
def scoreNames : List String :=
  ["Normalized Arias Intensity (S1)", "Normalized Energy Integral (S2)", "Peak Arias Intensity (S3)", "Peak Energy Integral (S4)",
    "RMS Acceleration (S5)", "RMS Velocity (S6)", "RMS Displacement (S7)", "Spectral Acceleration (S8)", "Fourier Spectra (S9)",
    "Cross Correlation (S10)"]

/-- `f'{sn[k]:>31}: {s: .3f}'`; the names are not longer than 31 characters. -/
def scoreLine (k : Nat) (s : Option K) : Except PyErr (String × Option K) :=
  match scoreNames[k]? with
  | some n => .ok (n, s.map (fmtF 3))
  | none => .error .indexError

/-- class_gof_scores.py L245-248, L253-256, L261-264: the lines of a group, `for ix, s in enumerate(scores[ind : ind + n])`, with the names
from `off` on. -/
def groupLines (off ind n : Nat) (scores : List (Option K)) : Except PyErr (List (String × Option K)) :=
  (((scores.drop ind).take n).zipIdx).mapM fun p => scoreLine (p.2 + off) p.1

/-- `np.mean`: NaN without scores, and with a NaN among them. -/
def nanMean (l : List (Option K)) : Option K :=
  if l = [] then none else (l.mapM id).map fun v => v.sum / (v.length : K)

/-- class_gof_scores.py L227-272: the lines and the average printed; `scores` is what is returned, `stored` is `self.scores`. -/
def verboseText (o : ScoreOpts K) (scores stored : List (Option K)) : Except PyErr (List (String × Option K) × Option K) := do
  let a ← if o.arias then groupLines 0 0 4 scores else .ok []
  let ind := if o.arias then 4 else 0
  let b ← if o.rms then groupLines 4 ind 3 scores else .ok []
  let ind := if o.rms then ind + 3 else ind
  let c ← if o.spectra then groupLines 7 ind 2 scores else .ok []
  let d ← if o.cross then (match stored[9]? with
    | some s => (scoreLine 9 s).map fun l => [l]
    | none => .error .indexError) else .ok []
  return (a ++ b ++ c ++ d, (nanMean scores).map (fmtF 3))

/-- class_gof_scores.py L105-274 `calc_scores(…, verbose=True)`: what is returned, the stored scores afterwards, and what is printed
(nothing if the call raises an exception before).  The values are stored with single precision. -/
def calcVerbose (g : ScoreFns K K) (x : Rec K) (o : ScoreOpts K) (σ : List (Option K)) :
    Except PyErr (List (Option K) × List (String × Option K) × Option K) × List (Option K) :=
  let r := calcScores g x o σ
  let σ' := r.2.map (Option.map fl32)
  (r.1.bind fun scores => (verboseText o scores σ').map fun t => (scores, t), σ')

/-- class_gof_scores.py L77-86: the lines of `__str__` with the running sum (single precision) and count. -/
def strLoop : List (Option K × Nat) → K → Nat → Except PyErr (List (String × Option K) × K × Nat)
  | [], s, n => .ok ([], s, n)
  | (none, _) :: l, s, n => strLoop l s n
  | (some v, k) :: l, s, n => do
    let ln ← scoreLine k (some v)
    let r ← strLoop l (fl32 (s + v)) (n + 1)
    return (ln :: r.1, r.2)

/-- class_gof_scores.py L62-91 `__str__` with the stored scores `σ`: the lines and the average; `sum/count` of no score is a
division of the integers 0 and 0. -/
def strText (σ : List (Option K)) : Except PyErr (List (String × Option K) × K) := do
  let r ← strLoop σ.zipIdx 0 0
  if r.2.2 = 0 then .error .zeroDivision else .ok (r.1, fmtF 3 (fl32 (r.2.1 / (r.2.2 : K))))

end Verif
