import Verif.Basic
import Mathlib.Data.Real.Sqrt
import Mathlib.Analysis.SpecialFunctions.Pow.Real
import Mathlib.Algebra.BigOperators.Group.Finset.Basic

/-!
Model of the wavelet baseline correction (`helper_gof_scores.py`): maximal overlap discrete wavelet transform, multiresolution
analysis and `baseline_wavelet`.  The filters `h = dec_hi`, `g = dec_lo` of `pywt.Wavelet(name)` are parameters (lists of
real numbers; pywt has no empty filters).
-/

namespace Verif

noncomputable section

/-- Element `z` of the periodic continuation of an array. -/
def wrapGet (v : List ℝ) (z : Int) : ℝ := v.getD (z % (v.length : Int)).toNat 0

/-- `scipy.ndimage.convolve1d(v, w, mode='wrap', origin=origin)`: the weight in the middle (`len(w) // 2`) is put over the
current sample, shifted by `origin`; the origin is checked by `correlate1d` for the reversed weights. -/
def convolveWrap (v w : List ℝ) (origin : Int) : Except PyErr (List ℝ) :=
  if w = [] then .error .other
  else if (w.length / 2 : Nat) + (-origin - (if w.length % 2 = 0 then 1 else 0)) < 0 ∨
      (w.length : Int) ≤ (w.length / 2 : Nat) + (-origin - (if w.length % 2 = 0 then 1 else 0)) then .error .valueError
  else .ok ((List.range v.length).map fun (l : Nat) =>
    ∑ i ∈ Finset.range w.length, w.getD i 0 * wrapGet v ((l : Int) - i + (w.length / 2 : Nat) + origin))

/-- `np.convolve(a, b)` for non-empty arrays. -/
def convFull (a b : List ℝ) : List ℝ :=
  (List.range (a.length + b.length - 1)).map fun k =>
    ∑ i ∈ Finset.range a.length, a.getD i 0 * (if i ≤ k then b.getD (k - i) 0 else 0)

/-- The array with `li[i]` at `s * i`, zeros between. -/
def spread (s : Nat) : List ℝ → List ℝ
  | [] => []
  | [x] => [x]
  | x :: y :: l => x :: (List.replicate (s - 1) 0 ++ spread s (y :: l))

/-- helper_gof_scores.py L905-915 `upArrow_op` for a non-empty list. -/
def upArrow (li : List ℝ) (j : Nat) : List ℝ := if j = 0 then [1] else spread (2 ^ (j - 1)) li

/-- `np.sum(np.reshape(li, [-1, N]), axis=0)` for `m` rows. -/
def colSums (N : Nat) : Nat → List ℝ → List ℝ
  | 0, _ => List.replicate N 0
  | m + 1, li => List.zipWith (· + ·) (li.take N) (colSums N m (li.drop N))

/-- helper_gof_scores.py L918-933 `period_list`, `0 < N`. -/
def periodList (li : List ℝ) (N : Nat) : List ℝ :=
  let full := li ++ List.replicate (N - li.length % N) 0
  if full.length < 2 * N then full else colSums N (full.length / N) full

/-- helper_gof_scores.py L936-940 `circular_convolve_mra`. -/
def circMra (h w : List ℝ) : Except PyErr (List ℝ) := convolveWrap w h.reverse (((h.length - 1) / 2 : Nat) : Int)

/-- helper_gof_scores.py L943-954 `circular_convolve_d`, `1 ≤ j`; `-len(ker) // 2` is the floor of `-len(ker) / 2`. -/
def circD (h v : List ℝ) (j : Nat) : Except PyErr (List ℝ) :=
  let ker := h.flatMap fun x => x :: List.replicate (2 ^ (j - 1) - 1) 0
  convolveWrap v ker ((-(ker.length : Int)) / 2)

/-- helper_gof_scores.py L969-974: the loop from level `j` on; `v` is `v_j_1`. -/
def modwtLoop (ht gt : List ℝ) : Nat → Nat → List ℝ → Except PyErr (List (List ℝ))
  | 0, _, v => .ok [v]
  | n + 1, j, v => do
    let w ← circD ht v (j + 1)
    let v' ← circD gt v (j + 1)
    let rest ← modwtLoop ht gt n (j + 1) v'
    return w :: rest

/-- helper_gof_scores.py L957-977 `modwt` for a wavelet with filters `h`, `g` and a non-negative level. -/
def modwt (h g x : List ℝ) (level : Nat) : Except PyErr (List (List ℝ)) :=
  modwtLoop (h.map (· / Real.sqrt 2)) (g.map (· / Real.sqrt 2)) level 0 x

/-- helper_gof_scores.py L994-1006: the detail rows from level `j` on, with `g_j_part`, and the final `g_j_part`. -/
def mraLoop (h g : List ℝ) (N : Nat) : Nat → List ℝ → List (List ℝ) → Except PyErr (List (List ℝ) × List ℝ)
  | _, part, [] => .ok ([], part)
  | j, part, w :: ws => do
    let part' := convFull part (upArrow g j)
    let hj := convFull part' (upArrow h (j + 1))
    let hjt := if j = 0 then h.map (· / Real.sqrt 2) else hj.map (· / (2 : ℝ) ^ (((j : ℝ) + 1) / 2))
    let D ← circMra (periodList hjt N) w
    let (Ds, last) ← mraLoop h g N (j + 1) part' ws
    return (D :: Ds, last)

/-- helper_gof_scores.py L980-1015 `modwtmra`. -/
def modwtmra (h g : List ℝ) (w : List (List ℝ)) : Except PyErr (List (List ℝ)) :=
  match w.getLast? with
  | none => .error .valueError
  | some v => do
    let N := v.length
    let (Ds, part) ← mraLoop h g N 0 [1] w.dropLast
    let level := w.length - 1
    let gj := convFull part (upArrow g level)
    let gjt := gj.map (· / (2 : ℝ) ^ ((level : ℝ) / 2))
    let S ← circMra (periodList gjt N) v
    return Ds ++ [S]

/-- Sum of the rows of an array, `np.sum(mra, axis=0)`, rows of length `N`. -/
def sumRows (N : Nat) : List (List ℝ) → List ℝ
  | [] => List.replicate N 0
  | r :: rs => List.zipWith (· + ·) r (sumRows N rs)

/-- helper_gof_scores.py L490-537 `baseline_wavelet` (default level 6, wavelet 'dmey').  An empty signal is refused by scipy
and numpy in various ways. -/
def baselineWavelet (h g : List ℝ) (level : Nat) (signal : List (ℝ × ℝ)) : Except PyErr (List (ℝ × ℝ)) :=
  if signal = [] then .error .other
  else do
    let coeffs ← modwt h g (signal.map Prod.snd) level
    let mra ← modwtmra h g coeffs
    let mra' := mra.dropLast ++ [List.replicate signal.length 0]
    return (signal.map Prod.fst).zip (sumRows signal.length mra')

end

end Verif
