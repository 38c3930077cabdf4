import Verif.Model.VsProfile
import Verif.Model.Calib

/-!
Integer arrays.  A numpy array of integer type keeps its type: assigning real numbers to its elements cuts off their
fractional parts, and the in-place operators `*=` and `/=` with a real result raise TypeError.  The functions below are
those places of the code that write real numbers into an array which has the element type of an array of the caller;
`int` says whether that type is an integer type (overflow of 64-bit integers is not modelled).
-/

namespace Verif

section
variable {K : Type} [Field K] [LinearOrder K] [FloorRing K]

/-- The value stored when `x` is assigned to an element of an array. -/
def castTo (int : Bool) (x : K) : K := if int then (pyInt x : K) else x

/-- `data[:, 1] = f(data[:, 1])`. -/
def assignCol (int : Bool) (f : K → K) (d : Rec K) : Rec K := d.map fun p => (p.1, castTo int (f p.2))

/-- class_ground_motion.py L177-180: the data after the conversion to SI units. -/
def toSICol (int : Bool) (unit : MUnit) (d : Rec K) : Rec K :=
  match unit with
  | .cm | .cmps | .cmpss | .gal => assignCol int (· / 100) d
  | .g => assignCol int (· * (981 / 100)) d
  | _ => d

/-- class_ground_motion.py L129-203 `Ground_Motion.__init__` for the two-column array at address `a`.  After the
conversion (L177-180) the constructor goes on as for data in SI units. -/
def mkMotionT (σ : CStore K) (a : Nat) (int : Bool) (unit : MUnit) (ty : MType) (delta : Option K) :
    Except PyErr (Motion K) × CStore K :=
  match readTwo σ (.two a) delta with
  | .error e => (.error e, σ)
  | .ok _ =>
    if unit = .bad then (.error .valueError, σ)
    else if ty = .bad then (.error .valueError, σ)
    else if (unit = .g ∨ unit = .gal) ∧ ty ≠ .accel then (.error .valueError, σ)
    else mkMotion (σ.set a (toSICol int unit (σ[a]?.getD []))) (.two a) .m ty delta

/-- class_ground_motion.py L1141-1151 `save_accel` of a motion whose acceleration array `d` has the given type: what is
written, which is also the acceleration array afterwards. -/
def saveAccelT (int : Bool) (d : Rec K) (unit : MUnit) : Rec K :=
  match unit with
  | .g => assignCol int (· / (981 / 100)) d
  | .gal | .cmpss => assignCol int (· * 100) d
  | _ => d

/-- class_ground_motion.py L413-426 `_unit_convert`, on a copy of the acceleration array `d`.  `*= 100` is an operation of
integers. -/
def unitConvertT (int : Bool) (d : Rec K) (unit : MUnit) : Except PyErr (Rec K) :=
  match unit with
  | .mpss => .ok d
  | .cmpss | .gal => .ok (scaleCols 1 100 d)
  | .g => if int then .error .typeError else .ok (scaleCols 1 (1 / (981 / 100)) d)
  | _ => .error .valueError

/-- class_curves.py L605-619 `Stress_Curve.__init__`: the real factors of `/= 1e3`, `*= 1e3` and `*= 1e6` are refused by
integer arrays; the other classes use the integer factor 100.  The strain has been converted by then. -/
def mkCurveT (σ : CStore K) (a : Nat) (int : Bool) (kind : CurveKind) (su : Unit1) (chk : Bool) :
    Except PyErr (Where K) × CStore K :=
  match mkBase σ a su none chk with
  | (.error e, σ') => (.error e, σ')
  | (.ok w, σ') =>
    if int ∧ (kind = .stress .pa ∨ kind = .stress .mpa ∨ kind = .stress .gpa) then (.error .typeError, σ')
    else finishCurve σ' w chk kind

/-- class_Vs_profile.py L94-197 `Vs_Profile.__init__`: the in-place conversions L165-169 of a five-column integer array
raise TypeError.  (Two columns are joined with real columns: the type does not matter.) -/
def mkProfileT (σ : Store K) (a : Nat) (int : Bool) (du : DampUnit) (de : DensUnit) (addHalf : Bool) (formula : Int) :
    Except PyErr (VsObj K × Store K) :=
  match σ[a]? with
  | some (.five rows) =>
    match checkVsFormat (.five rows : Cell K) with
    | .error e => .error e
    | .ok _ =>
      if du = .bad then .error .valueError
      else if de = .bad then .error .valueError
      else if int ∧ (de = .gcc ∨ du = .pct) then .error .typeError
      else mkProfile σ a du de addHalf formula
  | _ => mkProfile σ a du de addHalf formula

/-- helper_hh_calibration.py L804-809, the loop of `_calc_vertical_stress` with the array `stress` of the type of `h`. -/
def stressLoopT (int : Bool) (g s hp rp : K) : List (K × K) → List K
  | [] => []
  | (h, r) :: rest =>
    castTo int (s + rp * g * hp / 2 + r * g * h / 2) ::
      stressLoopT int g (castTo int (s + rp * g * hp / 2 + r * g * h / 2)) h r rest

/-- helper_hh_calibration.py L774-811 `_calc_vertical_stress`: `np.zeros_like(h)` (L792) has the type of `h`. -/
def vertStressT (int : Bool) (h rho : List K) : Except PyErr (List K × List K) :=
  if h = [] then .error .indexError
  else if rho.length < h.length then .error .indexError
  else match fixLast h, rho with
    | h0 :: hs, r0 :: rs =>
      .ok (castTo int (r0 * (981 / 100) * h0 / 2) ::
        stressLoopT int (981 / 100) (castTo int (r0 * (981 / 100) * h0 / 2)) h0 r0 (hs.zip rs), fixLast h)
    | _, _ => .error .indexError

end

end Verif
