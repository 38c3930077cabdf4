import Verif.Model.NonFinite

/-!
Model of reading text files with `np.genfromtxt` (helper_generic.py `read_two_column_stuff`, class_Vs_profile.py, class_curves.py):
from the fields of the lines to the array, and from there to the checks of the constructors (`Verif.Model.NonFinite`).
-/

namespace Verif

/-- What `np.genfromtxt` returns: an array of one or two dimensions, or a single number as an array without dimensions. -/
inductive TxtArr (K : Type) | zero (x : Ext K) | arr (b : XBody K)
  deriving DecidableEq

section
variable {K : Type}

/-- `np.genfromtxt(file, delimiter=sep, skip_header=skip)`.  A line is the list of its fields as split at the delimiter; a
field that is not a number (`none`) becomes NaN.  Lines with different numbers of fields raise ValueError; dimensions of
length 1 are dropped.  Comments, empty lines and the other keyword arguments are left out. -/
def genfromtxt (skip : Nat) (lines : List (List (Option (Ext K)))) : Except PyErr (TxtArr K) :=
  let val : Option (Ext K) → Ext K := fun o => o.getD .nan
  match lines.drop skip with
  | [] => .ok (.arr (.vec []))
  | r :: rs =>
    if (rs.all fun q => decide (q.length = r.length)) = false then .error .valueError
    else match rs, r with
      | [], [x] => .ok (.zero (val x))
      | [], _ => .ok (.arr (.vec (r.map val)))
      | _ :: _, [_] => .ok (.arr (.vec ((r :: rs).flatten.map val)))
      | _ :: _, _ => .ok (.arr (.mat r.length ((r :: rs).map fun q => q.map val)))

variable [Field K] [LinearOrder K]

/-- class_ground_motion.py L129-203 `Ground_Motion.__init__` for a file name, up to the first check of the numbers.  L144
does not hand on the keyword arguments (`_skip`).  An array without dimensions has no `shape[1]` (helper_generic.py L216:
IndexError). -/
def loadMotion (_skip : Nat) (lines : List (List (Option (Ext K)))) (unit : MUnit) (ty : MType) (delta : Option (Ext K)) :
    Except PyErr (List (List (Ext K))) := do
  match ← genfromtxt 0 lines with
  | .zero _ => .error .indexError
  | .arr b => (motionGate ⟨true, b⟩ unit ty delta).1

/-- class_frequency_spectrum.py L101-148 `Frequency_Spectrum.__init__` for a file name, without interpolation. -/
def loadSpectrum (lines : List (List (Option (Ext K)))) (delta : Option (Ext K)) : Except PyErr (List (List (Ext K))) := do
  match ← genfromtxt 0 lines with
  | .zero _ => .error .indexError
  | .arr b => spectrumInit ⟨true, b⟩ delta

/-- class_Vs_profile.py L108-117: the array of a profile from a file, checked (helper_generic.py L449: an array without
dimensions is rejected like a one-dimensional one). -/
def loadProfile [FloorRing K] (skip : Nat) (lines : List (List (Option (Ext K)))) : Except PyErr (XBody K) := do
  match ← genfromtxt skip lines with
  | .zero _ => .error .valueError
  | .arr b => do
    checkVsExt (.arr ⟨true, b⟩)
    return b

/-- class_curves.py L1564-1577 `Multiple_GGmax_Damping_Curves(data=…)` for a file name (an array without dimensions is not
two-dimensional either). -/
def loadMatrix (lines : List (List (Option (Ext K)))) : Except PyErr (XArg K) := do
  match ← genfromtxt 0 lines with
  | .zero _ => .error .typeError
  | .arr b => matrixInit (.arr ⟨true, b⟩)

end

end Verif
