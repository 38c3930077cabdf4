import Verif.Model.Motion
import Verif.Model.Profile

/-!
Model of the filters and of the baseline correction in helper_signal_processing.py.

The design of the Butterworth filter (`scipy.signal.butter`) is a parameter; `scipy.signal.sosfilt` is the
documented cascade of second-order sections (transposed direct form II) started at rest.  Figures are not
modelled.  A time step of zero, with which numpy continues with infinities, is reported as `nonFinite`.
-/

namespace Verif

variable {K : Type} [Field K] [LinearOrder K]

/-- A second-order section, normalised to `a0 = 1`. -/
structure Sect (K : Type) where
  b0 : K
  b1 : K
  b2 : K
  a1 : K
  a2 : K
  deriving DecidableEq

/-- One section, with state `z`. -/
def sectFrom (c : Sect K) (z : K × K) : List K → List K
  | [] => []
  | x :: xs =>
    let y := c.b0 * x + z.1
    y :: sectFrom c (c.b1 * x - c.a1 * y + z.2, c.b2 * x - c.a2 * y) xs

/-- `scipy.signal.sosfilt(sos, x)`. -/
def sosfilt (sos : List (Sect K)) (x : List K) : List K := sos.foldl (fun x c => sectFrom c (0, 0) x) x

/-- The `filter_type` argument.  helper_signal_processing.py L14-52 `lowpass`, L55-93 `highpass`, L96-134 `bandpass` and L137-175
`bandstop` are `filterKernel` with the constructor of the same name and the other arguments passed on. -/
inductive FType | lowpass | highpass | bandpass | bandstop | bad
  deriving DecidableEq

/-- The `cutoff_freq` argument: a number, a sequence of two, a sequence of another length, or something else. -/
inductive Cut (K : Type) | num (c : K) | pair (a b : K) | seq | other
  deriving DecidableEq

/-- `scipy.signal.butter(order, Wn, btype, output='sos')`. -/
abbrev Design (K : Type) := Nat → FType → List K → Except PyErr (List (Sect K))

/-- helper_signal_processing.py L220 and L270-273, L332: design and apply the filter. -/
def applyFilter (design : Design K) (order : Nat) (ft : FType) (wn : List K) (x : Rec K) : Except PyErr (Rec K) := do
  let sos ← design order ft wn
  colStack (x.map Prod.fst) (sosfilt sos (x.map Prod.snd))

/-- helper_signal_processing.py L178-332 for the one-sided filters. -/
def filterOne (design : Design K) (order : Nat) (high : Bool) (c : K) (x : Rec K) : Except PyErr (Rec K) := do
  let dt ← dtOf x
  if dt = 0 then .error .nonFinite
  else
    let nyq := 1 / dt / 2
    if high then
      if c ≤ 0 then .ok x else applyFilter design order .highpass [c / nyq] x
    else
      if nyq ≤ c then .ok x else applyFilter design order .lowpass [c / nyq] x

/-- helper_signal_processing.py L178-332 for the two-sided filters with cut-off frequencies `a < b`; `stop` for
'bandstop'. -/
def filterTwo (design : Design K) (order : Nat) (stop : Bool) (a b : K) (x : Rec K) : Except PyErr (Rec K) := do
  let dt ← dtOf x
  if dt = 0 then .error .nonFinite
  else
    let nyq := 1 / dt / 2
    let df := 1 / ((x.length : K) * dt)
    if nyq * (9999 / 10000) ≤ b then filterOne design order (!stop) a x
    else if a ≤ df then filterOne design order stop b x
    else applyFilter design order (if stop then .bandstop else .bandpass) [a / nyq, b / nyq] x

/-- helper_signal_processing.py L178-332 `_filter_kernel` for a two-column record of finite numbers.  `padlen` has no
influence. -/
def filterKernel (design : Design K) (order : Nat) (ft : FType) (cut : Cut K) (x : Rec K) : Except PyErr (Rec K) :=
  match ft with
  | .bad => .error .valueError
  | .lowpass => match cut with
    | .num c => filterOne design order false c x
    | _ => .error .typeError
  | .highpass => match cut with
    | .num c => filterOne design order true c x
    | _ => .error .typeError
  | .bandpass => match cut with
    | .pair a b => if b ≤ a then .error .valueError else filterTwo design order false a b x
    | .seq => .error .valueError
    | _ => .error .typeError
  | .bandstop => match cut with
    | .pair a b => if b ≤ a then .error .valueError else filterTwo design order true a b x
    | .seq => .error .valueError
    | _ => .error .typeError

/-! ## Baseline correction -/

/-- `flag`: is the sample non-negative? -/
def nonNegFlag (a : K) : Bool := decide (0 ≤ a)

/-- helper_signal_processing.py L370-386: first index `≥ 1` at which the sign is not the one of the first sample, else 0. -/
def crossLeft (a : List K) : Nat :=
  match a with
  | [] => 0
  | a0 :: rest =>
    match rest.findIdx? fun x => nonNegFlag x != nonNegFlag a0 with
    | some i => i + 1
    | none => 0

/-- helper_signal_processing.py L371 and L388-401: last index `≤ n-2` at which the sign is not the one of the last
sample, else `n`. -/
def crossRight (a : List K) : Nat :=
  match a.reverse with
  | [] => 0
  | al :: rest =>
    match rest.findIdx? fun x => nonNegFlag x != nonNegFlag al with
    | some i => a.length - 2 - i
    | none => a.length

/-- `np.polyfit(t, x, 1)`: slope and intercept of the least-squares line.  Equal times, for which there is no unique line,
are outside of the model. -/
def lineFit (u : Rec K) : Except PyErr (K × K) :=
  let n : K := (u.length : K)
  let tm := (u.map Prod.fst).sum / n
  let xm := (u.map Prod.snd).sum / n
  let stt := (u.map fun p => (p.1 - tm) ^ 2).sum
  let stx := (u.map fun p => (p.1 - tm) * (p.2 - xm)).sum
  if stt = 0 then .error .other else .ok (stx / stt, xm - stx / stt * tm)

/-- helper_signal_processing.py L493-500 `_remove_linear_trend`. -/
def removeTrend (u : Rec K) : Except PyErr (Rec K) := do
  let f ← lineFit u
  colStack (u.map Prod.fst) (u.map fun p => p.2 - (f.1 * p.1 + f.2))

/-- helper_signal_processing.py L366-367: pre-event mean removed. -/
def removeMean (a : List K) : Except PyErr (List K) :=
  match a with
  | x0 :: x1 :: x2 :: x3 :: x4 :: _ => .ok (a.map fun x => x - (x0 + x1 + x2 + x3 + x4) / 5)
  | _ => .error .indexError

/-- helper_signal_processing.py L404-412: the cut and padded record. -/
def padCut (nz : Nat) (a : List K) : List K :=
  List.replicate nz 0 ++ ((a.take (crossRight a + 1)).drop (crossLeft a) ++ List.replicate nz 0)

/-- helper_signal_processing.py L420-425: shifted to the original time axis. -/
def shiftBack (nz cl n : Nat) (y : List K) : List K :=
  let z := y.drop (nz - cl - 1)
  if n ≤ z.length then z.take n else z ++ List.replicate (n - z.length) 0

variable [FloorRing K]

/-- helper_signal_processing.py L406-410: number of zeros added at each end. -/
def nrZpad (cutoff dt : K) (cl : Nat) : Nat :=
  (max (max 1000 (roundHalfEven (3 / cutoff / dt))) ((cl : Int) + 1)).toNat

/-- helper_signal_processing.py L358-427: the filtered record before the trend is removed. -/
def baseFiltered (design : Design K) (cutoff : K) (x : Rec K) : Except PyErr (Rec K) := do
  let dt ← dtOf x
  let a ← removeMean (x.map Prod.snd)
  if cutoff = 0 then .error .zeroDivision
  else if dt = 0 then .error .other
  else
    let nz := nrZpad cutoff dt (crossLeft a)
    let ac := padCut nz a
    let tc := linspace dt ((ac.length : K) * dt) ac.length
    let xc ← colStack tc ac
    let y ← filterKernel design 4 .highpass (.num cutoff) xc
    colStack (x.map Prod.fst) (shiftBack nz (crossLeft a) x.length (y.map Prod.snd))

/-- helper_signal_processing.py L335-490 `baseline` for a two-column record of finite numbers. -/
def baselineCorrect (design : Design K) (cutoff : K) (x : Rec K) : Except PyErr (Rec K) := do
  let an ← baseFiltered design cutoff x
  let vu ← numInt an
  let u2 ← removeTrend vu.2
  let v2 ← numDiff u2
  numDiff v2

end Verif
