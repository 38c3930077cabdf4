import Verif.Model.Motion
import Verif.Model.VsProfile

/-!
Model of the argument checks of `helper_generic.py` on arrays which may hold NaN and infinities, and of the constructors
as far as such elements are concerned.  The other models take arrays of numbers; the claims about this file say which
constructors make sure of that.

Arrays are of real type or not numeric; complex arrays are not modelled here.
-/

namespace Verif

/-- An element of an array of floats. -/
inductive Ext (K : Type) | fin (x : K) | pinf | ninf | nan
  deriving DecidableEq

/-- The shape and the elements of an array: one-dimensional, two-dimensional with `cols` columns, or three and
more dimensions. -/
inductive XBody (K : Type) | vec (l : List (Ext K)) | mat (cols : Nat) (rows : List (List (Ext K))) | nd (l : List (Ext K))
  deriving DecidableEq

/-- A numpy array; `numeric` when its type is a subtype of `np.number`. -/
structure XArr (K : Type) where
  numeric : Bool
  body : XBody K
  deriving DecidableEq

/-- A Python object: an array, a number (`float`, `int`, `np.number`), or something else. -/
inductive XArg (K : Type) | arr (a : XArr K) | scalar (x : Ext K) | other
  deriving DecidableEq

section
variable {K : Type} [Field K] [LinearOrder K]

/-- All elements. -/
def XBody.elems : XBody K → List (Ext K)
  | .vec l => l
  | .mat _ rows => rows.flatten
  | .nd l => l

/-- `np.isfinite`. -/
def Ext.isFin : Ext K → Bool
  | .fin _ => true
  | _ => false

/-- `x < 0`. -/
def Ext.neg : Ext K → Bool
  | .fin x => decide (x < 0)
  | .ninf => true
  | _ => false

/-- `x <= 0`. -/
def Ext.nonPos : Ext K → Bool
  | .fin x => decide (x ≤ 0)
  | .ninf => true
  | _ => false

/-- `x > c`. -/
def Ext.above (c : K) : Ext K → Bool
  | .fin x => decide (c < x)
  | .pinf => true
  | _ => false

/-- `x * c` for `0 < c`. -/
def Ext.scale (c : K) : Ext K → Ext K
  | .fin x => .fin (x * c)
  | x => x

/-- helper_generic.py L522-548 `check_numbers_valid`. -/
def checkNumbersValid (a : XArr K) : Int :=
  if !a.numeric then -1
  else if !a.body.elems.all Ext.isFin then -2
  else if a.body.elems.any Ext.neg then -3
  else 0

/-- helper_generic.py L227-245 `assert_1D_numpy_array`. -/
def assert1D : XArg K → Except PyErr (List (Ext K))
  | .arr ⟨_, .vec l⟩ => .ok l
  | _ => .error .typeError

/-- helper_generic.py L346-364 `assert_2D_numpy_array`. -/
def assert2D : XArg K → Except PyErr (Nat × List (List (Ext K)))
  | .arr ⟨_, .mat c rows⟩ => .ok (c, rows)
  | _ => .error .typeError

/-- helper_generic.py L248-275 `assert_array_length`.  No length is equal to `None`, and `'%d' % None` raises TypeError. -/
def assertLength (length : Option Int) (x : XArg K) : Except PyErr (List (Ext K)) := do
  let l ← assert1D x
  match length with
  | none => .error .typeError
  | some n => if (l.length : Int) ≠ n then .error .valueError else .ok l

/-- helper_generic.py L278-309 `extend_scalar`; `np.ones` refuses negative lengths. -/
def extendScalar (x : XArg K) (length : Int) : Except PyErr (List (Ext K)) :=
  match x with
  | .scalar v => if length < 0 then .error .valueError else .ok (List.replicate length.toNat v)
  | _ => .error .typeError

/-- helper_generic.py L312-343 `check_length_or_extend_to_array`. -/
def lengthOrExtend (x : XArg K) (length : Int) : Except PyErr (List (Ext K)) :=
  match x with
  | .scalar _ => extendScalar x length
  | _ => assertLength (some length) x

/-- helper_generic.py L367-419 `check_two_column_format`. -/
def checkTwoColumn (nonNeg atLeast : Bool) : XArg K → Except PyErr Unit
  | .arr ⟨num, .mat c rows⟩ =>
    if !atLeast && decide (c ≠ 2) then .error .typeError
    else if atLeast && decide (c < 2) then .error .typeError
    else
      let s := checkNumbersValid ⟨num, .mat c rows⟩
      if s = -1 then .error .valueError
      else if s = -2 then .error .valueError
      else if nonNeg && decide (s = -3) then .error .valueError
      else .ok ()
  | _ => .error .typeError

/-- `data[:, j]`. -/
def extCol (j : Nat) (rows : List (List (Ext K))) : List (Ext K) := rows.map fun r => r.getD j .nan

/-- helper_generic.py L494-519 `is_int` on an element of an array of floats. -/
def Ext.isInt [FloorRing K] : Ext K → Bool
  | .fin x => Verif.isInt x
  | _ => false

/-- helper_generic.py L455-466. -/
def checkThkVsExt (thk vs : List (Ext K)) : Except PyErr Unit :=
  if thk.dropLast.any Ext.nonPos then .error .valueError
  else match thk.getLast? with
    | none => .error .indexError
    | some t =>
      if t.neg then .error .valueError
      else if vs.any Ext.nonPos then .error .valueError
      else .ok ()

/-- helper_generic.py L422-491 `check_Vs_profile_format`. -/
def checkVsExt [FloorRing K] : XArg K → Except PyErr Unit
  | .arr a =>
    let s := checkNumbersValid a
    if s = -1 then .error .valueError
    else if s = -2 then .error .valueError
    else match a.body with
      | .mat c rows =>
        if c ≠ 2 ∧ c ≠ 5 then .error .valueError
        else do
          checkThkVsExt (extCol 0 rows) (extCol 1 rows)
          if c = 5 then
            if (extCol 2 rows).any Ext.nonPos || (extCol 3 rows).any Ext.nonPos then .error .valueError
            else if !(extCol 4 rows).all Ext.isInt then .error .valueError
            else if (extCol 4 rows).dropLast.any Ext.nonPos then .error .valueError
            else match (extCol 4 rows).getLast? with
              | none => .error .indexError
              | some m => if m.neg then .error .valueError else .ok ()
          else .ok ()
      | _ => .error .valueError
  | _ => .error .typeError

/-! ## Constructors, as far as the elements are concerned -/

/-- helper_generic.py L152-224 `read_two_column_stuff` for numeric arrays: the rows, and whether they are those of the
argument itself.  A one-row array with two columns is taken for one-column data.  For one-column data the time step has to
be finite and not zero (L211, a NaN or `0 / 0` fails the assertion). -/
def readTwoExt (delta : Option (Ext K)) : XArg K → Except PyErr (Bool × List (List (Ext K)))
  | .arr ⟨_, .vec l⟩ => oneCol (l.map fun x => [x])
  | .arr ⟨_, .mat c rows⟩ =>
    if min c rows.length = 1 then oneCol rows
    else if c = 2 then
      if rows.length < 2 then .error .indexError else .ok (true, rows)
    else .error .typeError
  | .arr ⟨_, .nd _⟩ => .error .typeError
  | _ => .error .typeError
where
  /-- L206-215. -/
  oneCol (rows : List (List (Ext K))) : Except PyErr (Bool × List (List (Ext K))) :=
    match delta with
    | none => .error .valueError
    | some d =>
      if rows.length < 2 then .error .indexError
      else match d with
        | .fin x =>
          if x = 0 then .error .assertionError
          else .ok (false, List.zipWith (fun t r => Ext.fin t :: r) (linspace x ((rows.length : K) * x) rows.length) rows)
        | _ => .error .assertionError

/-- Rows with the second column multiplied. -/
def scaleSecond (c : K) (rows : List (List (Ext K))) : List (List (Ext K)) :=
  rows.map fun r => match r with
    | t :: x :: rest => t :: x.scale c :: rest
    | r => r

/-- class_ground_motion.py L177-180: conversion to SI units, in place. -/
def siRows (unit : MUnit) (rows : List (List (Ext K))) : List (List (Ext K)) :=
  match (unitFactor unit : Option K) with
  | some f => scaleSecond f rows
  | none => rows

/-- class_ground_motion.py L129-203 `Ground_Motion.__init__` for numeric arrays, up to the first check of the numbers
(helper_site_response.py L393, L423): the outcome with the rows used, and the argument afterwards. -/
def motionGate (x : XArr K) (unit : MUnit) (ty : MType) (delta : Option (Ext K)) :
    Except PyErr (List (List (Ext K))) × XArr K :=
  match readTwoExt delta (.arr x) with
  | .error e => (.error e, x)
  | .ok (same, rows) =>
    if unit = .bad then (.error .valueError, x)
    else if ty = .bad then (.error .valueError, x)
    else if (unit = .g ∨ unit = .gal) ∧ ty ≠ .accel then (.error .valueError, x)
    else
      let rows' := siRows unit rows
      let x' : XArr K := if same then ⟨x.numeric, .mat 2 rows'⟩ else x
      match checkTwoColumn false false (.arr ⟨x.numeric, .mat 2 rows'⟩) with
      | .error e => (.error e, x')
      | .ok _ => (.ok rows', x')

/-- class_curves.py L90-92 and class_curves.py L267-270, L363-368: the checks of `Curve` and its sub-classes on the array
as given, for values in the internal unit; `hi` is the upper limit of the class, if there is one. -/
def curveGate (x : XArg K) (hi : Option K) (chk : Bool) : Except PyErr Unit := do
  checkTwoColumn chk false x
  match x, hi with
  | .arr ⟨_, .mat _ rows⟩, some h =>
    if chk && ((extCol 1 rows).any (Ext.above h) || (extCol 1 rows).any Ext.neg) then .error .valueError else .ok ()
  | _, _ => .ok ()

/-- class_gof_scores.py L44-60 `GOF_Scores.__init__`. -/
def scoresInit (meas simu : XArg K) : Except PyErr Unit := do
  checkTwoColumn false false meas
  checkTwoColumn false false simu
  match meas, simu with
  | .arr ⟨_, .mat _ m⟩, .arr ⟨_, .mat _ s⟩ => if m.length ≠ s.length then .error .typeError else .ok ()
  | _, _ => .error .other

/-- class_curves.py L1558-1578 `Multiple_GGmax_Damping_Curves(data=…)` for an array: the matrix kept, which
`get_curve_matrix` (L1619-1620) returns. -/
def matrixInit (x : XArg K) : Except PyErr (XArg K) := do
  match x with
  | .arr _ => do
    let m ← assert2D x
    if m.1 % 4 ≠ 0 then .error .valueError else .ok x
  | _ => .error .typeError

/-- class_frequency_spectrum.py L101-148 `Frequency_Spectrum.__init__` for numeric arrays without interpolation: the
spectrum kept. -/
def spectrumInit (x : XArr K) (delta : Option (Ext K)) : Except PyErr (List (List (Ext K))) :=
  match readTwoExt delta (.arr x) with
  | .error e => .error e
  | .ok r => .ok r.2

end

end Verif
