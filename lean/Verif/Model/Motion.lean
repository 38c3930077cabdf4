import Verif.Model.Curves

/-!
Model of `class_ground_motion.py` and of the time-domain helpers in
`helper_site_response.py`: numerical integration and differentiation, Arias intensity,
construction, scaling, truncation and saving of motions, response spectra.

Arrays live in the store `CStore` of `Model/Curves.lean` where sharing matters.
-/

namespace Verif

section
variable {K : Type} [Field K] [LinearOrder K]

/-- A two-column array (time or frequency, value). -/
abbrev Rec (K : Type) := List (K × K)

/-- `t[1] - t[0]`; IndexError when there are fewer than two rows. -/
def dtOf : Rec K → Except PyErr K
  | r :: s :: _ => .ok (s.1 - r.1)
  | _ => .error .indexError

/-- `np.column_stack((t, x))` for two 1D arrays. -/
def colStack (t x : List K) : Except PyErr (Rec K) :=
  if t.length ≠ x.length then .error .valueError else .ok (t.zip x)

/-- helper_site_response.py L375-405 `num_int`: velocity and displacement.  (The check of
the array format is not repeated here: the argument is a two-column array of finite
numbers.) -/
def numInt (x : Rec K) : Except PyErr (Rec K × Rec K) := do
  let t := x.map Prod.fst
  let a := x.map Prod.snd
  let dt ← dtOf x
  let v := (cumsum a).map (· * dt)
  let u := (cumsum v).map (· * dt)
  return (t.zip v, t.zip u)

/-- helper_site_response.py L408-432 `num_diff`.  A repeated time value makes numpy divide
by zero, which is reported as `nonFinite`. -/
def numDiff (x : Rec K) : Except PyErr (Rec K) :=
  let t := x.map Prod.fst
  let v := x.map Prod.snd
  if 0 ∈ diff t then .error .nonFinite
  else colStack t (0 :: List.zipWith (· / ·) (diff v) (diff t))

/-! ## Arias intensity -/

/-- class_ground_motion.py L505-506: the running sum; `c` is `np.pi / (2 * g)`. -/
def ariasFrom (c dt : K) (s : K) : List K → List K
  | [] => []
  | a :: as => s :: ariasFrom c dt (s + c * a ^ 2 * dt) as

/-- class_ground_motion.py L438-475 `__arias_time_bounds`, the loop over samples.
`acc = (t_low, t_high)`. -/
def boundsLoop (low high : K) (prev : K) (acc : K × K) : List (K × K) → K × K
  | [] => acc
  | (t, x) :: rest =>
    let acc1 := if low ≤ x ∧ prev < low then (t, acc.2) else acc
    let acc2 := if high ≤ x ∧ prev < high then (acc1.1, t) else acc1
    boundsLoop low high x acc2 rest

/-- class_ground_motion.py L438-475 `__arias_time_bounds` on the normalised intensity
`tn` (time, intensity); the two arrays have equal length because they are the columns of
one array. -/
def ariasBounds (tn : Rec K) (low high : K) : Except PyErr (K × K) :=
  if high ≤ low then .error .valueError
  else match tn with
    | [] => .error .indexError
    | (_, x0) :: _ =>
      match tn.getLast? with
      | none => .error .indexError
      | some r => .ok (boundsLoop low high x0 (0, r.1) tn)

/-- Result of `__calc_Arias`. -/
structure Arias (K : Type) where
  ia : Rec K
  norm : Rec K
  peak : K
  t595 : K
  deriving DecidableEq

/-- class_ground_motion.py L477-530 `__calc_Arias` of an acceleration record.  A record
without energy makes numpy divide 0 by 0; this is reported as `nonFinite` (the code goes
on with NaN values). -/
def calcArias (c : K) (x : Rec K) : Except PyErr (Arias K) := do
  let t := x.map Prod.fst
  let dt ← dtOf x
  let ia := ariasFrom c dt 0 (x.map Prod.snd)
  match ia.getLast? with
  | none => .error .indexError
  | some peak =>
    if peak = 0 then .error .nonFinite
    else do
      let norm := t.zip (ia.map (· / peak))
      let b ← ariasBounds norm (5 / 100) (95 / 100)
      return ⟨t.zip ia, norm, peak, b.2 - b.1⟩

/-! ## Reading and constructing -/

/-- `np.linspace(a, b, n)`. -/
def linspace (a b : K) (n : Nat) : List K :=
  (List.range n).map fun i : Nat => a + (i : K) * ((b - a) / ((n : K) - 1))

/-- The data argument: a one-column array, the two-column array at an address, or an
array of another shape. -/
inductive MData (K : Type) | one (col : List K) | two (a : Nat) | badShape
  deriving DecidableEq

/-- helper_generic.py L152-224 `read_two_column_stuff` for arrays.  A two-column array is
returned as the same object (`Where.view`); for one-column data a new array is built.  A
two-column array with a single row has `min(shape) == 1` and is taken for one-column
data. -/
def readTwo (σ : CStore K) (data : MData K) (delta : Option K) : Except PyErr (Where K × K) :=
  match data with
  | .one col =>
    match delta with
    | none => .error .valueError
    | some d =>
      let col1 := linspace d ((col.length : K) * d) col.length
      match col1 with
      | c0 :: c1 :: _ =>
        if d = 0 then .error .assertionError
        else if |c1 - c0 - d| / d ≤ 1 / 10 ^ 8 then .ok (.own (col1.zip col), d)
        else .error .assertionError
      | _ => .error .indexError
  | .two a =>
    match σ[a]? with
    | none => .error .other
    | some [_] => if delta = none then .error .valueError else .error .indexError
    | some x => do
      let d ← dtOf x
      return (.view a, d)
  | .badShape => .error .typeError

/-- Units accepted by `Ground_Motion`. -/
inductive MUnit | m | cm | mps | cmps | mpss | cmpss | gal | g | bad
  deriving DecidableEq, Repr

/-- `motion_type`. -/
inductive MType | accel | veloc | displ | bad
  deriving DecidableEq, Repr

/-- A `Ground_Motion` object: where its three arrays live, and its scalars.  The derived
quantities (Arias intensity, RMS) are functions of these. -/
structure Motion (K : Type) where
  accel : Where K
  veloc : Where K
  displ : Where K
  dt : K
  npts : Nat
  pga : K
  pgv : K
  pgd : K
  deriving DecidableEq

/-- class_ground_motion.py L177-180: factor applied in place to the data column. -/
def unitFactor : MUnit → Option K
  | .cm => some (1 / 100)
  | .cmps => some (1 / 100)
  | .cmpss => some (1 / 100)
  | .gal => some (1 / 100)
  | .g => some (981 / 100)
  | _ => none

/-- class_ground_motion.py L177-180: conversion of the given data to SI units, in place. -/
def toSIinPlace (σ : CStore K) (w : Where K) (unit : MUnit) : Where K × CStore K :=
  match (unitFactor unit : Option K) with
  | some f => w.scale σ 1 f
  | none => (w, σ)

/-- class_ground_motion.py L129-200: `Ground_Motion.__init__` (up to the peak values).
Returns the object or the error, and the memory afterwards. -/
def mkMotion (σ : CStore K) (data : MData K) (unit : MUnit) (ty : MType) (delta : Option K) :
    Except PyErr (Motion K) × CStore K :=
  match readTwo σ data delta with
  | .error e => (.error e, σ)
  | .ok (w, dt) =>
    if unit = .bad then (.error .valueError, σ)
    else if ty = .bad then (.error .valueError, σ)
    else if (unit = .g ∨ unit = .gal) ∧ ty ≠ .accel then (.error .valueError, σ)
    else
      let r := toSIinPlace σ w unit
      let x := r.1.read r.2
      let out : Except PyErr (Where K × Where K × Where K) := match ty with
        | .accel => do
          let (v, u) ← numInt x
          return (r.1, .own v, .own u)
        | .veloc => do
          let a ← numDiff x
          let (u, _) ← numInt x
          return (.own a, r.1, .own u)
        | _ => do
          let v ← numDiff x
          let a ← numDiff v
          return (.own a, .own v, r.1)
      match out with
      | .error e => (.error e, r.2)
      | .ok (a, v, u) =>
        (.ok ⟨a, v, u, dt, x.length, maxAbs ((a.read r.2).map Prod.snd), maxAbs ((v.read r.2).map Prod.snd),
          maxAbs ((u.read r.2).map Prod.snd)⟩, r.2)

/-- class_ground_motion.py L184: the attribute `time`. -/
def motionTime (m : Motion K) : List K := linspace 0 (m.dt * ((m.npts : K) - 1)) m.npts

/-- Construction from a fresh array, as in `Ground_Motion(np.column_stack(...), unit='m')`. -/
def mkFresh (σ : CStore K) (x : Rec K) : Except PyErr (Motion K) × CStore K :=
  mkMotion (σ ++ [x]) (.two σ.length) .m .accel none

/-! ## Methods -/

/-- class_ground_motion.py L1117-1151 `save_accel`: the numbers written, the object and the
memory afterwards.  `data = self.accel` is the object's own array, which is rescaled in
place; an unknown unit is not rejected. -/
def saveAccel (σ : CStore K) (m : Motion K) (unit : MUnit) : Rec K × Motion K × CStore K :=
  let r : Where K × CStore K := match unit with
    | .g => m.accel.scale σ 1 (1 / (981 / 100))
    | .gal => m.accel.scale σ 1 100
    | .cmpss => m.accel.scale σ 1 100
    | _ => (m.accel, σ)
  (r.1.read r.2, { m with accel := r.1 }, r.2)

/-- class_ground_motion.py L390-426 `_unit_convert`: on a copy. -/
def unitConvert (σ : CStore K) (m : Motion K) (unit : MUnit) : Except PyErr (Rec K) :=
  match unit with
  | .mpss => .ok (m.accel.read σ)
  | .cmpss => .ok (scaleCols 1 100 (m.accel.read σ))
  | .gal => .ok (scaleCols 1 100 (m.accel.read σ))
  | .g => .ok (scaleCols 1 (1 / (981 / 100)) (m.accel.read σ))
  | _ => .error .valueError

/-- class_ground_motion.py L532-562 `scale_motion`. -/
def scaleMotion (σ : CStore K) (m : Motion K) (factor : K) (target : Option K) :
    Except PyErr (Motion K) × CStore K :=
  match target with
  | some p =>
    if m.pga / (981 / 100) = 0 then (.error .zeroDivision, σ)
    else mkFresh σ (scaleCols 1 (p / (m.pga / (981 / 100))) (m.accel.read σ))
  | none => mkFresh σ (scaleCols 1 factor (m.accel.read σ))

/-- Python's `int(x)`: truncation toward zero. -/
def pyInt [FloorRing K] (x : K) : Int := if 0 ≤ x then ⌊x⌋ else ⌈x⌉

/-- A slice bound of a sequence of length `n`, as Python normalises it. -/
def sliceBound (n : Nat) (k : Int) : Nat :=
  if k < 0 then ((n : Int) + k).toNat else min k.toNat n

/-- `l[a:b]`. -/
def pySlice {α : Type} (l : List α) (a b : Int) : List α :=
  (l.take (sliceBound l.length b)).drop (sliceBound l.length a)

/-- class_ground_motion.py L621-643: index computation of `truncate`, from the time limits
to the two-column array.  `norm` is the normalised Arias intensity. -/
def truncIdx [FloorRing K] (acc norm : Rec K) (dt : K) (npts : Nat) (limit : K × K) (arias : Bool) (ext : K × K) :
    Except PyErr (Int × Int) := do
  if ext.1 < 0 ∨ ext.2 < 0 then .error .valueError
  else if limit.2 ≤ limit.1 then .error .valueError
  else if dt = 0 then .error .zeroDivision
  else
    let b ← if arias then ariasBounds norm limit.1 limit.2 else .ok limit
    let n1 := pyInt ((b.1 - ext.1) / dt)
    let n2 := pyInt ((b.2 + ext.2) / dt)
    return (if n1 < 0 then 0 else n1, if (npts : Int) < n2 then npts else n2)

/-- class_ground_motion.py L645-647: the new array. -/
def truncArr (acc : Rec K) (n1 n2 : Int) : Except PyErr (Rec K) :=
  colStack ((pySlice acc 0 (n2 - n1)).map Prod.fst) ((pySlice acc n1 n2).map Prod.snd)

/-- class_ground_motion.py L564-690 `truncate` (without the figure). -/
def truncateMotion [FloorRing K] (σ : CStore K) (m : Motion K) (norm : Rec K) (limit : K × K) (arias : Bool)
    (ext : K × K) : Except PyErr (Motion K × Int × Int) × CStore K :=
  match truncIdx (m.accel.read σ) norm m.dt m.npts limit arias ext with
  | .error e => (.error e, σ)
  | .ok (n1, n2) =>
    match truncArr (m.accel.read σ) n1 n2 with
    | .error e => (.error e, σ)
    | .ok x =>
      match mkFresh σ x with
      | (.error e, τ) => (.error e, τ)
      | (.ok m', τ) => (.ok (m', n1, n2), τ)

/-! ## Response spectra -/

/-- helper_site_response.py L550-552: the spacing test.  IndexError for fewer than two
samples. -/
def spacingOk (t : List K) : Except PyErr Unit :=
  match diff t with
  | [] => .error .indexError
  | d :: ds => if ∀ x ∈ d :: ds, x - d < 1 / 10 ^ 7 then .ok () else .error .valueError

/-- The eight coefficients of one oscillator. -/
structure Coefs (K : Type) where
  (A B C D A' B' C' D' : K)

/-- helper_site_response.py L715-729: the time stepping of one oscillator; states
`(u, u')` at each sample, starting from rest. -/
def stepFrom (k : Coefs K) (s : K × K) : List K → List (K × K)
  | [] => []
  | [_] => [s]
  | a :: b :: rest =>
    s :: stepFrom k
      (s.1 * k.A + s.2 * k.B + (-1) * a * k.C + (-1) * b * k.D,
       s.1 * k.A' + s.2 * k.B' + (-1) * a * k.C' + (-1) * b * k.D') (b :: rest)

/-- One row of the result of `_time_stepping`. -/
structure SpecRow (K : Type) where
  (sa sv sd psa psv : K)
  deriving DecidableEq

/-- helper_site_response.py L710-740 `_time_stepping`. -/
def timeStepping (k : Coefs K) (wn xi : K) (a : List K) : SpecRow K :=
  let s := stepFrom k (0, 0) a
  let u := s.map Prod.fst
  let ud := s.map Prod.snd
  let utdd := List.zipWith (fun p x => -(2 * wn * xi * p.2 + wn ^ 2 * p.1 + x) + x) s a
  ⟨maxAbs utdd, maxAbs ud, maxAbs u, maxAbs u * wn * wn, maxAbs u * wn⟩

/-- Every `k`-th element starting with the first (`a[::k]`, `k ≥ 1`). -/
def subsample {α : Type} (k : Nat) (l : List α) : List α :=
  (List.range ((l.length + (k - 1)) / k)).filterMap fun i => l[i * k]?

/-- helper_site_response.py L485-707 `response_spectra`: for the list `wns` of circular
frequencies; `coef wn dt` are the coefficients (their closed form is modelled
separately). Serial and parallel execution both return results in the order of `wns`. -/
def responseSpectra (coef : K → K → Coefs K) (xi : K) (wns : List K) (interval : Nat) (acc : Rec K) :
    Except PyErr (List (SpecRow K)) := do
  if interval = 0 then .error .valueError
  else
    let x := subsample interval acc
    let t := x.map Prod.fst
    let a := x.map Prod.snd
    spacingOk t
    let dt ← dtOf x
    return wns.map fun wn => timeStepping (coef wn dt) wn xi a

/-! ## Small helpers -/

/-- `np.argmin`: index of the first minimum. -/
def argminFrom (best : Nat × K) (i : Nat) : List K → Nat × K
  | [] => best
  | x :: xs => argminFrom (if x < best.2 then (i, x) else best) (i + 1) xs

/-- helper_generic.py L47-87 `find_closest_index`. -/
def findClosest (l : List K) (v : K) : Option (Nat × K) :=
  match l with
  | [] => none
  | x :: xs =>
    let r := argminFrom (0, |x - v|) 1 (xs.map fun y => |y - v|)
    (l[r.1]?).map fun y => (r.1, y)

end

end Verif
