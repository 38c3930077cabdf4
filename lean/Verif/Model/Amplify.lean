import Verif.Model.Motion
import Verif.Model.Phase
import Verif.Model.Transfer
import Mathlib.Analysis.SpecialFunctions.Complex.Arg
import Mathlib.Analysis.SpecialFunctions.Trigonometric.Basic

/-!
Model of frequency-domain amplification: `_get_freq_interval`, `amplify_motion`
(`helper_site_response.py`) and the spectrum handling of `_lin_resp_every_layer`
(`helper_simulations.py`).

`scipy.fftpack.fft`/`ifft` are modelled by the discrete Fourier transform they document.
-/

open Complex

namespace Verif

section Interp
variable {K : Type} [Field K] [LinearOrder K]

/-- The scan of `np.interp` from the point `p`. -/
def interpFrom (x : K) (p : K × K) : List (K × K) → K
  | [] => p.2
  | q :: rest =>
    if x < q.1 then
      if x ≤ p.1 then p.2 else p.2 + (q.2 - p.2) / (q.1 - p.1) * (x - p.1)
    else interpFrom x q rest

/-- `np.interp(x, xp, fp)` for one `x` and increasing `xp` (numpy's result for other `xp`
is unspecified); empty data raises ValueError. -/
def npInterp (pts : List (K × K)) (x : K) : Except PyErr K :=
  match pts with
  | [] => .error .valueError
  | p :: rest => .ok (interpFrom x p rest)

/-- `a[::2]`. -/
def everySecond {α : Type} : List α → List α
  | [] => []
  | [a] => [a]
  | a :: _ :: rest => a :: everySecond rest

theorem everySecond_length {α : Type} : ∀ l : List α, (everySecond l).length = (l.length + 1) / 2
  | [] => by simp [everySecond]
  | [_] => by simp [everySecond]
  | _ :: _ :: rest => by
    simp only [everySecond, List.length_cons, everySecond_length rest]; omega

end Interp

noncomputable section

/-- `fft`. -/
def fftL (a : List ℂ) : List ℂ :=
  (List.range a.length).map fun k : Nat =>
    ∑ j ∈ Finset.range a.length, a.getD j 0 * exp (-(2 * Real.pi * I * j * k / a.length))

/-- `ifft`. -/
def ifftL (a : List ℂ) : List ℂ :=
  (List.range a.length).map fun k : Nat =>
    (∑ j ∈ Finset.range a.length, a.getD j 0 * exp (2 * Real.pi * I * j * k / a.length)) / a.length

/-- What `_get_freq_interval` returns. -/
structure FreqInt where
  df : ℝ
  fmax : ℝ
  n : Nat
  half : Nat
  f : List ℝ

/-- helper_site_response.py L2031-2084 `_get_freq_interval` (on a two-column array of finite
numbers). -/
def freqInterval (x : Rec ℝ) : Except PyErr FreqInt :=
  match x with
  | p :: q :: rest =>
    let n := (p :: q :: rest).length
    let dt := q.1 - p.1
    if dt = 0 then .error .zeroDivision
    else
      let df := 1 / dt / n
      let half := if n % 2 = 1 then (n + 1) / 2 else n / 2 + 1
      .ok ⟨df, half * df, n, half, linspace df (half * df) half⟩
  | _ => .error .valueError

/-- The transfer function argument: complex values, a pair (amplitude, phase), or
something else. -/
inductive TfArg | complex (tf : List ℂ) | ampPhase (a p : List ℝ) | other

/-- helper_site_response.py L1541-1561: amplitude and phase. -/
def tfArg (nf : Nat) : TfArg → Except PyErr (List ℝ × List ℝ)
  | .complex tf =>
    if nf ≠ tf.length then .error .assertionError
    else .ok (tf.map fun z => ‖z‖, robustUnwrap Real.pi Real.pi (tf.map Complex.arg))
  | .ampPhase a p =>
    if a.length ≠ nf then .error .assertionError
    else if p.length ≠ nf then .error .assertionError
    else .ok (a, p)
  | .other => .error .typeError

/-- A tabulated one-sided transfer function: (frequency, amplitude, phase). -/
abbrev TfTab := List (ℝ × ℝ × ℝ)

/-- `np.max` of the frequencies of a non-empty table. -/
def tabMax (tab : TfTab) : ℝ := (tab.map fun r => r.1).foldr max ((tab.map fun r => r.1).headD 0)

/-- `np.min`. -/
def tabMin (tab : TfTab) : ℝ := (tab.map fun r => r.1).foldr min ((tab.map fun r => r.1).headD 0)

/-- helper_site_response.py L1565-1570: extension to `fmax`. -/
def extendHigh (fmax : ℝ) (tab : TfTab) : Except PyErr TfTab :=
  if tabMax tab < fmax then
    match tab.getLast? with
    | none => .error .valueError
    | some (f, a, p) => if f = 0 then .error .nonFinite else .ok (tab ++ [(fmax, a, p / f * fmax)])
  else .ok tab

/-- helper_site_response.py L1572-1575: extension to `df`. -/
def extendLow (df : ℝ) (tab : TfTab) : TfTab := if df < tabMin tab then (df, 1, 0) :: tab else tab

/-- helper_site_response.py L1577-1589: down-sampling of the motion. -/
def downsample (fm : ℝ) (x : Rec ℝ) (fi : FreqInt) : Except PyErr (Rec ℝ × FreqInt) :=
  if fm < fi.fmax then
    if _h : (everySecond x).length ≤ 1 then .error .valueError
    else
      match freqInterval (everySecond x) with
      | .error e => .error e
      | .ok fi' => downsample fm (everySecond x) fi'
  else .ok (x, fi)
termination_by x.length
decreasing_by rw [everySecond_length] at *; omega

/-- `x[0] = np.real(x[0])`. -/
def realFirst : List ℂ → List ℂ
  | [] => []
  | z :: zs => (z.re : ℂ) :: zs

/-- `x[-1] = np.real(x[-1])`. -/
def realLast (l : List ℂ) : List ℂ :=
  match l.getLast? with
  | none => []
  | some z => l.dropLast ++ [(z.re : ℂ)]

/-- helper_site_response.py L1592-1599: interpolated one-sided transfer function at the
frequencies `f`, real where it must be. -/
def tfSingle (tab : TfTab) (n : Nat) (f : List ℝ) : Except PyErr (List ℂ) := do
  let a ← f.mapM (npInterp (tab.map fun r => (r.1, r.2.1)))
  let p ← f.mapM (npInterp (tab.map fun r => (r.1, r.2.2)))
  let tf := realFirst (List.zipWith (fun (x y : ℝ) => (x : ℂ) * exp (I * y)) a p)
  return if n % 2 = 0 then realLast tf else tf

/-- helper_site_response.py L1613-1620: two-sided transfer function. -/
def tfDouble (n half : Nat) (tf : List ℂ) : List ℂ :=
  if n % 2 = 1 then tf ++ (((tf.take half).drop 1).reverse.map (starRingEnd ℂ))
  else tf ++ (((tf.take (half - 1)).drop 1).reverse.map (starRingEnd ℂ))

/-- helper_site_response.py L1628-1637: spectrum of the input, product or quotient,
inverse transform, real part.  A zero divisor makes numpy produce non-finite numbers. -/
def applyTf (deconv : Bool) (a : List ℝ) (tf : List ℂ) : Except PyErr (List ℝ) :=
  let A := fftL (a.map fun x : ℝ => (x : ℂ))
  if A.length ≠ tf.length then .error .valueError
  else if deconv = true ∧ 0 ∈ tf then .error .nonFinite
  else .ok ((ifftL (List.zipWith (fun z w => if deconv then z / w else z * w) A tf)).map Complex.re)

/-- The part of `amplify_motion` before the transfer function is applied: the motion
(possibly down-sampled) and the two-sided transfer function. -/
def prepareTf (x : Rec ℝ) (f : List ℝ) (tf : TfArg) (extrap : Bool) : Except PyErr (Rec ℝ × List ℂ) := do
  let (a, p) ← tfArg f.length tf
  let fi ← freqInterval x
  if f = [] then .error .valueError
  else do
    let tab := f.zip (a.zip p)
    let r ← (if extrap then do
        let tab' ← extendHigh fi.fmax tab
        return (extendLow fi.df tab', x, fi)
      else do
        let (x', fi') ← downsample (tabMax tab) x fi
        return (tab, x', fi'))
    let ss ← tfSingle r.1 r.2.2.n r.2.2.f
    return (r.2.1, tfDouble r.2.2.n r.2.2.half ss)

/-- helper_site_response.py L1623-1626: the acceleration handed to the transform. -/
def tapered (taper : Option (List ℝ → List ℝ)) (a : List ℝ) : List ℝ :=
  match taper with
  | some g => g a
  | none => a

/-- helper_site_response.py L1463-1660 `amplify_motion` (without figures); `taper` is the
function applied to the acceleration when `taper=True`. -/
def amplifyMotion (x : Rec ℝ) (f : List ℝ) (tf : TfArg) (taper : Option (List ℝ → List ℝ)) (extrap deconv : Bool) :
    Except PyErr (Rec ℝ) := do
  let (x', ds) ← prepareTf x f tf extrap
  let r ← applyTf deconv (tapered taper (x'.map Prod.snd)) ds
  colStack (x'.map Prod.fst) r

/-- Boundary argument of `linear_site_resp`. -/
inductive BoundaryArg | elastic | rigid | other

/-- helper_site_response.py L1663-1757 `linear_site_resp` (soil profile and motion given as
arrays): the transfer function is computed on a grid 5% wider than the one of the motion. -/
def linearSiteResp (ls : List Lay) (x : Rec ℝ) (b : BoundaryArg) (deconv : Bool) :
    Except PyErr (Rec ℝ × List ℝ × List ℂ) := do
  let fi ← freqInterval x
  let tmp := linearTf ls (fi.df * (105 / 100)) (fi.fmax * (105 / 100))
  let tf ← (match b with
    | .elastic => .ok (tmp.map fun r => r.2.1.1)
    | .rigid => .ok (tmp.map fun r => r.2.1.2.2)
    | .other => .error .valueError : Except PyErr (List ℂ))
  let y ← amplifyMotion x (tmp.map fun r => r.1) (.complex tf) none true deconv
  return (y, tmp.map fun r => r.1, tf)

/-! ## Spectrum handling of the every-layer solver -/

/-- helper_simulations.py L700-711, one layer: `H_ss` on the over-sampled grid (index `i`
is frequency `(i + 1) df / 15`), real at index 0, extended to two sides and thinned. -/
def hColumn (N : Nat) (hss : Nat → ℂ) : List ℂ :=
  let half := (N * 15 + 1) / 2
  let ss := realFirst ((List.range half).map hss)
  let H := ss ++ (ss.drop 1).reverse.map (starRingEnd ℂ)
  subsample 15 H

end

end Verif
