import Verif.Basic
import Mathlib.Algebra.Order.Floor.Ring

/-!
Model of `find_f0` and `robust_unwrap` (`helper_site_response.py`).
-/

namespace Verif

section
variable {K : Type} [Field K] [LinearOrder K]

/-- helper_site_response.py L463-470: sign of the increment. -/
def flagOf (incre : K) : Int := if incre > 0 then 1 else if incre = 0 then 0 else -1

/-- helper_site_response.py L461-475: the loop; the value of `i` after it.  `prev` is
`previous_flag`, the list is `ampl[i:]`. -/
def f0Loop (prev : Int) (i : Nat) : List K → Nat
  | a :: b :: c :: rest =>
    if flagOf (b - a) ≤ 0 ∧ prev = 1 then i else f0Loop (flagOf (b - a)) (i + 1) (b :: c :: rest)
  | _ => i

/-- helper_site_response.py L435-482 `find_f0`.  With fewer than two points the loop
variable is unbound. -/
def findF0 (x : List (K × K)) : Except PyErr K :=
  if x.length < 2 then .error .unboundLocal
  else
    let i := f0Loop 1 0 (x.map Prod.snd)
    let i := if i + 2 = x.length then i + 1 else i
    match x[i]? with
    | some p => .ok p.1
    | none => .error .indexError

/-- State of the first loop of `robust_unwrap`. -/
structure UState where
  trough : Int
  peak : Int
  flag : Bool
  drawer : List (Int × Int)
  deriving DecidableEq

/-- helper_site_response.py L2144-2154: one pass for the samples `signal[i-1]`, `signal[i]`. -/
def uStep (i : Nat) (prev cur : K) (s : UState) : UState :=
  if cur ≤ prev then
    if s.flag then
      { s with
        flag := false
        drawer := if s.peak > s.trough + 1 then s.drawer ++ [(s.trough, s.peak)] else s.drawer
        trough := i }
    else { s with trough := i }
  else { s with peak := i, flag := true }

/-- helper_site_response.py L2144-2154: the loop; the list is `signal[i-1:]`. -/
def uLoop (i : Nat) (s : UState) : List K → UState
  | a :: b :: rest => uLoop (i + 1) (uStep i a b s) (b :: rest)
  | _ => s

/-- Index resolution of `signal[i]` for possibly negative `i`. -/
def wrapIdx (n : Nat) (i : Int) : Nat := if i < 0 then (i + n).toNat else i.toNat

/-- helper_site_response.py L2161-2163: the inner loop for one pair; `j = i1 + steps`. -/
def fillClimb (n : Nat) (i1 : Int) (len scale : K) (x : List K) : List Nat → List K
  | [] => x
  | k :: ks =>
    fillClimb n i1 len scale
      (x.set (wrapIdx n (i1 + k)) (x[wrapIdx n i1]?.getD 0 + (k : K) / len * scale)) ks

/-- helper_site_response.py L2158-2163: one pair. -/
def repairPair (pi : K) (signal : List K) (x : List K) (p : Int × Int) : List K :=
  fillClimb signal.length p.1 ((p.2 - p.1 - 1 : Int) : K) (-pi - signal[wrapIdx signal.length p.1]?.getD 0) x
    (List.range (p.2 - p.1).toNat)

/-- helper_site_response.py L2137-2163: the repair step. -/
def repair (pi : K) (signal : List K) : List K :=
  (uLoop 1 ⟨-1, -1, false, []⟩ signal).drawer.foldl (repairPair pi signal) signal

variable [FloorRing K]

/-- Floored modulus `np.mod(x, m)`. -/
def fmod (x m : K) : K := x - m * ⌊x / m⌋

/-- `numpy.unwrap`: correction of one difference `d` (numpy semantics). -/
def unwrapCorr (pi discont d : K) : K :=
  let m := fmod (d + pi) (2 * pi) - pi
  let m := if m = -pi ∧ 0 < d then pi else m
  if |d| < discont then 0 else m - d

/-- `numpy.unwrap` of a 1D array: the samples plus the running sum of the corrections. -/
def npUnwrapFrom (pi discont : K) (corr : K) : List K → List K
  | a :: b :: rest =>
    (a + corr) :: npUnwrapFrom pi discont (corr + unwrapCorr pi discont (b - a)) (b :: rest)
  | [a] => [a + corr]
  | [] => []

/-- helper_site_response.py L2087-2167 `robust_unwrap`. -/
def robustUnwrap (pi discont : K) (signal : List K) : List K :=
  npUnwrapFrom pi discont 0 (repair pi signal)

end

end Verif
