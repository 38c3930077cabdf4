import Verif.Model.Float
import Verif.Model.Motion
import Verif.Model.Amplify
import Verif.Model.Curves

/-!
Functions whose results depend visibly on double-precision arithmetic, transcribed with every operation rounded (`fl`,
Model/Float.lean): layer depths and thicknesses, the indices of `truncate`, the number of layers of a re-sampled profile, the
number of frequencies of `linear_tf`, scaling to a target, Arias intensity, the depth grid of `SVM`.
-/

namespace Verif

section
variable {K : Type} [Field K] [LinearOrder K] [FloorRing K]

/-- helper_site_response.py L1160-1161, the loop filling `z_top`, in doubles. -/
def fzTop (z : K) : List K → List K
  | [] => []
  | t :: ts => z :: fzTop (fadd z t) ts

/-- helper_site_response.py L1137-1172 `thk2dep(thk, midpoint=False)` in doubles. -/
def fthk2dep (thk : List K) : Except PyErr (List K) := if thk = [] then .error .indexError else .ok (fzTop 0 thk)

/-- helper_site_response.py L1208-1213, the loop `h[i] = dep[i+1] - dep[i]`, in doubles. -/
def fdepLoop : List K → List K
  | [] => []
  | [_] => [0]
  | d :: d' :: ds => fsub d' d :: fdepLoop (d' :: ds)

/-- helper_site_response.py L1175-1218 `dep2thk` in doubles. -/
def fdep2thk (dep : List K) (includeHalfspace : Bool) : Except PyErr (List K) :=
  match dep with
  | [] => .error .indexError
  | d :: ds =>
    if d ≠ 0 then .error .valueError
    else if includeHalfspace then .ok (fdepLoop (d :: ds))
    else .ok (fdepLoop (d :: ds)).dropLast

/-- class_ground_motion.py L633-643: the indices of `truncate` between two times, in doubles. -/
def fTruncIdx (dt : K) (npts : Nat) (limit ext : K × K) : Except PyErr (Int × Int) :=
  if ext.1 < 0 ∨ ext.2 < 0 then .error .valueError
  else if limit.2 ≤ limit.1 then .error .valueError
  else if dt = 0 then .error .zeroDivision
  else
    let n1 := pyInt (fdiv (fsub limit.1 ext.1) dt)
    let n2 := pyInt (fdiv (fadd limit.2 ext.2) dt)
    .ok (if n1 < 0 then 0 else n1, if (npts : Int) < n2 then npts else n2)

/-- `np.sum` of fewer than eight numbers (class_Vs_profile.py L196 `self.z_max = np.sum(thk)`): one after the other. -/
def fsum (l : List K) : K := l.foldl fadd 0

/-- class_Vs_profile.py L565-566: the number of layers when only a thickness is given; division by zero makes `int(inf)` an
OverflowError. -/
def fLayers (zmax thk : K) : Except PyErr ℤ := if thk = 0 then .error .other else .ok ⌈fdiv zmax thk⌉

/-- helper_site_response.py L1299-1302: the number of frequencies and the last frequency of `linear_tf`.  `np.floor_divide`
computes the integer part of the exact quotient (by `fmod`, which is exact).  A resolution of zero is an OverflowError, a
negative number of frequencies a ValueError of `np.linspace`. -/
def fTfGrid (df fmax : K) : Except PyErr (ℤ × K) :=
  if df = 0 then .error .other
  else if ⌊fmax / df⌋ < 0 then .error .valueError
  else .ok (⌊fmax / df⌋, fmul df ⌊fmax / df⌋)

/-- class_svm.py L161 `np.arange(0.0, z1 - thk_addl_layer, thk)`: the number of depths (as numpy computes it) and the depths
`0.0 + i * thk`, in doubles. -/
def fDepthGrid (z1 addl thk : K) : List K :=
  (List.range ⌈fdiv (fsub z1 addl) thk⌉.toNat).map fun i : Nat => fmul (i : K) thk

/-- The peak of a column (class_ground_motion.py L198 `np.max(np.abs(...))`). -/
def fPeak (acc : List K) : K := (acc.map fun a => |a|).foldl max 0

/-- class_ground_motion.py L203 `self.pga_in_g = self.pga / 9.81`, in doubles. -/
def fPgaInG (acc : List K) : K := fdiv (fPeak acc) (fl (981 / 100))

/-- class_ground_motion.py L554-562 `scale_motion(target_PGA_in_g=p)`: the accelerations of the scaled motion, in doubles.  A
motion without acceleration divides by zero. -/
def fScaleTo (p : K) (acc : List K) : Except PyErr (List K) :=
  if fPgaInG acc = 0 then .error .zeroDivision
  else .ok (acc.map fun a => fmul a (fdiv p (fPgaInG acc)))

/-- class_ground_motion.py L177-180 and L1148-1149: accelerations in cm/s/s are divided by 100 when read and multiplied by 100
when saved, in doubles. -/
def fReadCm (acc : List K) : List K := acc.map fun a => fdiv a 100
def fSaveCm (acc : List K) : List K := acc.map fun a => fmul a 100

/-- class_ground_motion.py L505-506: the running sum of Arias intensity, in doubles; `c` is `np.pi / (2 * g)`. -/
def fAriasFrom (c dt : K) (s : K) : List K → List K
  | [] => []
  | a :: as => s :: fAriasFrom c dt (fadd s (fmul (fmul c (fl (a ^ 2))) dt)) as

/-- class_ground_motion.py L499-511: intensity and normalised intensity, in doubles.  Fewer than two samples: IndexError;
no energy: 0 divided by 0. -/
def fArias (c : K) (x : List (K × K)) : Except PyErr (List K × List K) :=
  match x with
  | p :: q :: _ =>
    let ia := fAriasFrom c (fsub q.1 p.1) 0 (x.map Prod.snd)
    match ia.getLast? with
    | none => .error .indexError
    | some peak => if peak = 0 then .error .nonFinite else .ok (ia, ia.map (fdiv · peak))
  | _ => .error .indexError

/-- numpy's interpolation inside one interval, `slope * (x - x0) + y0` (no fused operations). -/
def fSeg (p q : K × K) (x : K) : K := fadd (fmul (fdiv (fsub q.2 p.2) (fsub q.1 p.1)) (fsub x p.1)) p.2

/-- The scan of `np.interp` from the point `p`, in doubles. -/
def fInterpFrom (x : K) (p : K × K) : List (K × K) → K
  | [] => p.2
  | q :: rest => if x < q.1 then (if x ≤ p.1 then p.2 else fSeg p q x) else fInterpFrom x q rest

/-- `np.interp(x, xp, fp)` for one `x` and increasing `xp`, in doubles. -/
def fInterp (pts : List (K × K)) (x : K) : Except PyErr K :=
  match pts with
  | [] => .error .valueError
  | p :: rest => .ok (fInterpFrom x p rest)

/-- `np.linspace(a, b, n)` for at least two points, in doubles: `i * step + a`, and the last point is `b`. -/
def fLinspace (a b : K) (n : Nat) : List K :=
  (List.range n).map fun i : Nat => if i + 1 = n then b else fadd (fmul (i : K) (fdiv (fsub b a) ((n : K) - 1))) a

/-- helper_generic.py L551-605 `interpolate(..., log_scale=False)` of a curve with a point, in doubles. -/
def fInterpolate (a b : K) (n : Nat) (pts : List (K × K)) : List (K × K) :=
  match pts with
  | [] => []
  | p :: rest => (fLinspace a b n).map fun x => (x, fInterpFrom x p rest)

end

end Verif
