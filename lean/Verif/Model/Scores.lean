import Verif.Model.Motion
import Verif.Model.Amplify
import Mathlib.Analysis.SpecialFunctions.Gaussian.GaussianIntegral

/-!
Model of the goodness-of-fit scores: `helper_gof_scores.py` and `class_gof_scores.py`.

Filtering, baseline correction, response spectra, Fourier transform and smoothing are
parameters (`SigProc`).  Real arithmetic; results that numpy would report as NaN or infinite
are the error `nonFinite` here.  Printing is in `Model/ScoreText.lean`, figures in `Model/ScoreFigs.lean`.
-/

namespace Verif

noncomputable section

/-- `scipy.special.erf`. -/
def erf (x : ℝ) : ℝ := 2 / Real.sqrt Real.pi * ∫ t in (0 : ℝ)..x, Real.exp (-t ^ 2)

/-- `np.finfo(np.float64).eps`. -/
def feps : ℝ := 1 / 2 ^ 52

/-- helper_gof_scores.py L42 `eps2`. -/
def eps2 : ℝ := 1 / 10 ^ 12

/-- helper_gof_scores.py L47-50: relative difference, absolute for a tiny measurement. -/
def relDiff (m s : ℝ) : ℝ := if m < eps2 then s - m else (s - m) / m

/-- helper_gof_scores.py L44-51 and L58 `S_` of two numbers. -/
def scoreNum (m s : ℝ) : ℝ := erf (relDiff (max m feps) (max s feps)) * 10

/-- `a[a < eps] = eps`. -/
def clampArr (a : List ℝ) : List ℝ := a.map fun x => if x < feps then feps else x

/-- helper_gof_scores.py L52-58 `S_` of two 1D arrays: result and the two arrays afterwards.
Arrays of different lengths cannot be subtracted unless one has one element; then the
mask of L56 does not fit. -/
def scoreArr (m s : List ℝ) : Except PyErr (List ℝ) × List ℝ × List ℝ :=
  let m' := clampArr m
  let s' := clampArr s
  (if m'.length = s'.length then
      .ok (List.zipWith (fun x y => erf (if x < eps2 then y - x else (y - x) / x) * 10) m' s')
    else if m'.length = 1 ∨ s'.length = 1 then .error .indexError
    else .error .valueError, m', s')

/-- A 1D array, or a 2D array with the given rows. -/
inductive NArr | vec (l : List ℝ) | mat (rows : List (List ℝ))

/-- `a[1:]`. -/
def NArr.tail1 : NArr → NArr
  | .vec l => .vec (l.drop 1)
  | .mat rows => .mat (rows.drop 1)

/-- `S_` of two arrays of which one may be 2D: a row of length `n` can be combined with `k`
numbers if `n = k` or one of them is 1; if it can, the masks do not fit. -/
def scoreAny : NArr → NArr → Except PyErr (List ℝ)
  | .vec m, .vec s => (scoreArr m s).1
  | .vec m, .mat rows => if rows.all fun r => r.length = m.length ∨ m.length = 1 ∨ r.length = 1 then .error .indexError else .error .valueError
  | .mat rows, .vec s => if rows.all fun r => r.length = s.length ∨ s.length = 1 ∨ r.length = 1 then .error .indexError else .error .valueError
  | .mat _, .mat _ => .error .other

/-- `np.mean` of a 1D array. -/
def meanArr (l : List ℝ) : Except PyErr ℝ := if l = [] then .error .nonFinite else .ok (l.sum / l.length)

/-- helper_gof_scores.py L253-297 `calc_AriasIntensity`; `float(Ia[-1])` needs a sample, `t[1]`
two. -/
def gofArias (x : Rec ℝ) : Except PyErr (Rec ℝ × ℝ) := do
  let dt ← dtOf x
  let ia := ariasFrom (Real.pi / (2 * (981 / 100))) dt 0 (x.map Prod.snd)
  match ia.getLast? with
  | none => .error .indexError
  | some p => .ok ((x.map Prod.fst).zip ia, p)

/-- Signal processing used by the scores. -/
structure SigProc where
  baseline : Rec ℝ → Except PyErr (Rec ℝ)
  highpass : Option ℝ → Rec ℝ → Except PyErr (Rec ℝ)
  bandpass : Option ℝ → ℝ → Rec ℝ → Except PyErr (Rec ℝ)
  wavelet : Rec ℝ → Except PyErr (Rec ℝ)
  spectrum : ℝ → ℝ → Rec ℝ → Except PyErr (List ℝ × List ℝ)
  fourier : Rec ℝ → Except PyErr (Rec ℝ)
  smooth : Rec ℝ → Except PyErr (List ℝ)

/-- `x[q - 1 : -q, :]` with `q = 15` (helper_gof_scores.py L115-118). -/
def trim15 (x : Rec ℝ) : Rec ℝ := (x.take (x.length - 15)).drop 14

/-- helper_gof_scores.py L127-132: high-pass or band-pass filter. -/
def gofFilter (sp : SigProc) (fmin fmax : Option ℝ) (x : Rec ℝ) : Except PyErr (Rec ℝ) :=
  match fmax with
  | none => sp.highpass fmin x
  | some f => sp.bandpass fmin f x

/-- Optional step. -/
def optStep (c : Bool) (f : Rec ℝ → Except PyErr (Rec ℝ)) (x : Rec ℝ) : Except PyErr (Rec ℝ) := if c then f x else .ok x

/-- helper_gof_scores.py L149-175: `hlp.interpolate(q[0], q[-1], len(q), y, t, log_scale=False)`,
whose arguments `x_ref` and `y_ref` are exchanged in the call and whose result is the pair of
query points and values; `np.nan_to_num` makes a 2D array of it. -/
def gofInterp (q : List ℝ) (y t : List ℝ) : Except PyErr NArr := do
  match q.head?, q.getLast? with
  | some a, some b =>
    let xq := linspace a b q.length
    let v ← xq.mapM (npInterp (y.zip t))
    return .mat [xq, v]
  | _, _ => .error .indexError

/-- helper_gof_scores.py L149-179: the two normalised curves on one grid. -/
def sameGrid (t1 t2 m s : List ℝ) : Except PyErr (NArr × NArr) :=
  if m.length < s.length then do
    let m' ← gofInterp t2 m t1
    return (m', .vec s)
  else if s.length < m.length then do
    let s' ← gofInterp t1 s t2
    return (.vec m, s')
  else .ok (.vec m, .vec s)

/-- `Ia[:, 1] / Ia_peak`. -/
def normIa (p : Rec ℝ × ℝ) : Except PyErr (List ℝ) :=
  if p.2 = 0 then .error .nonFinite else .ok (p.1.map fun r => r.2 / p.2)

/-- helper_gof_scores.py L62-250 `d_1234`. -/
def d1234 (sp : SigProc) (meas simu : Rec ℝ) (fmin fmax : Option ℝ) (base : Bool) : Except PyErr (ℝ × ℝ × ℝ × ℝ) := do
  let t1 := (trim15 meas).map Prod.fst
  let t2 := (trim15 simu).map Prod.fst
  let am ← optStep base sp.baseline (trim15 meas)
  let as ← optStep base sp.baseline (trim15 simu)
  let am ← gofFilter sp fmin fmax am
  let as ← gofFilter sp fmin fmax as
  let iam ← gofArias am
  let ias ← gofArias as
  let vm ← numInt am
  let vs ← numInt as
  let iem ← gofArias vm.1
  let ies ← gofArias vs.1
  let nam ← normIa iam
  let nas ← normIa ias
  let nem ← normIa iem
  let nes ← normIa ies
  let a ← sameGrid t1 t2 nam nas
  let e ← sameGrid t1 t2 nem nes
  let s1 ← scoreAny a.1.tail1 a.2.tail1
  let s2 ← scoreAny e.1.tail1 e.2.tail1
  let d1 ← meanArr s1
  let d2 ← meanArr s2
  return (d1, d2, scoreNum iam.2 ias.2, scoreNum iem.2 ies.2)

/-- helper_gof_scores.py L540-556 `calc_rms`. -/
def calcRms (x : Rec ℝ) : Except PyErr ℝ := do
  let m ← meanArr ((x.map Prod.snd).map (· ^ 2))
  return Real.sqrt m

/-- helper_gof_scores.py L559-586 `getAbsPeak` of a two-column array. -/
def absPeak (x : Rec ℝ) : Except PyErr ℝ := if x = [] then .error .valueError else .ok (maxAbs (x.map Prod.snd))

/-- helper_gof_scores.py L300-487 `d_567`. -/
def d567 (sp : SigProc) (meas simu : Rec ℝ) (fmin fmax : Option ℝ) (base : Bool) : Except PyErr (ℝ × ℝ × ℝ) := do
  let am ← optStep base (gofFilter sp fmin fmax) (trim15 meas)
  let as ← optStep base (gofFilter sp fmin fmax) (trim15 simu)
  let _ ← absPeak am
  let _ ← absPeak as
  let ram ← calcRms am
  let ras ← calcRms as
  let am ← optStep base sp.baseline am
  let as ← optStep base sp.baseline as
  let im ← numInt am
  let is ← numInt as
  let rvm ← calcRms im.1
  let rvs ← calcRms is.1
  let um ← optStep base sp.wavelet im.2
  let us ← optStep base sp.wavelet is.2
  let rum ← calcRms um
  let rus ← calcRms us
  return (scoreNum ram ras, scoreNum rvm rvs, scoreNum rum rus)

/-- `np.min(np.where(l >= v)[0])`. -/
def firstGe (l : List ℝ) (v : ℝ) : Except PyErr Nat :=
  match l.findIdx? (fun x => decide (v ≤ x)) with
  | some i => .ok i
  | none => .error .valueError

/-- `np.max(np.where(l <= v)[0]) + 1`. -/
def lastLe (l : List ℝ) (v : ℝ) : Except PyErr Nat :=
  match l.reverse.findIdx? (fun x => decide (x ≤ v)) with
  | some i => .ok (l.length - i)
  | none => .error .valueError

/-- helper_gof_scores.py L657-666: the frequency range; the defaults call `np.max` and `np.min`
with a number as second argument, which is a TypeError. -/
def gofRange (fmin fmax : Option ℝ) : Except PyErr (ℝ × ℝ) :=
  match fmin, fmax with
  | some a, some b => if b ≤ a then .error .valueError else .ok (a, b)
  | _, _ => .error .typeError

/-- Sampling rate: `t[1]` needs two samples. -/
def hasDt (x : Rec ℝ) : Except PyErr ℝ := do
  let dt ← dtOf x
  if dt = 0 then .error .nonFinite else .ok dt

/-- helper_gof_scores.py L589-781 `d_89`. -/
def d89 (sp : SigProc) (meas simu : Rec ℝ) (fmin fmax : Option ℝ) (base : Bool) : Except PyErr (ℝ × ℝ) := do
  let m ← optStep base sp.baseline meas
  let s ← optStep base sp.baseline simu
  let _ ← hasDt m
  let _ ← hasDt s
  let f ← gofRange fmin fmax
  let m ← optStep base sp.baseline m
  let s ← optStep base sp.baseline s
  if f.1 = 0 ∨ f.2 = 0 then .error .nonFinite
  else
    let tmax := 1 / f.1
    let tmin := 1 / f.2
    let rm ← sp.spectrum (min tmin (1 / 100)) (max tmax 5) m
    let rs ← sp.spectrum (min tmin (1 / 100)) (max tmax 5) s
    let i1 ← firstGe rm.1 tmin
    let i2 ← lastLe rm.1 tmax
    let fm ← sp.fourier m
    let fs ← sp.fourier s
    let sm ← sp.smooth fm
    let ss ← sp.smooth fs
    let j1 ← firstGe (fm.map Prod.fst) f.1
    let j1' ← firstGe (fs.map Prod.fst) f.1
    let j2 ← lastLe (fm.map Prod.fst) f.2
    let j2' ← lastLe (fs.map Prod.fst) f.2
    let s8 ← (scoreArr ((rm.2.take i2).drop i1) ((rs.2.take i2).drop i1)).1
    let d8 ← meanArr s8
    let s9 ← (scoreArr ((sm.take (min j2 j2')).drop (max j1 j1')) ((ss.take (min j2 j2')).drop (max j1 j1'))).1
    let d9 ← meanArr s9
    return (d8, d9)

/-- helper_gof_scores.py L784-902 `d_10`.  Without energy, or with zero correlation, the score
is not finite; a negative time step makes the square roots NaN. -/
def d10 (sp : SigProc) (meas simu : Rec ℝ) (fmin fmax : Option ℝ) (base : Bool) : Except PyErr ℝ := do
  let m ← optStep base sp.baseline meas
  let s ← optStep base sp.baseline simu
  let dt1 ← hasDt m
  let dt2 ← hasDt s
  let _ ← gofRange fmin fmax
  if m.length ≠ s.length then .error .typeError
  else
    let a1 := m.map Prod.snd
    let a2 := s.map Prod.snd
    let num := (List.zipWith (· * ·) a1 a2).sum * dt1
    let e1 := (a1.map fun x => x * x).sum * dt1
    let e2 := (a2.map fun x => x * x).sum * dt2
    if e1 < 0 ∨ e2 < 0 then .error .nonFinite
    else
      let den := Real.sqrt e1 * Real.sqrt e2
      if den = 0 ∨ num = 0 then .error .nonFinite else .ok (1 / (10 * |num / den|))

end

/-! ## The score object -/

section
variable {V K : Type} [Field K] [LinearOrder K]

/-- The four groups of scores, as functions of `fmin`, `fmax` and `baseline`; a score that is not
a number is `none`. -/
structure ScoreFns (K V : Type) where
  arias : K → K → Bool → Except PyErr (List (Option V))
  rms : K → K → Bool → Except PyErr (List (Option V))
  spectra : K → K → Bool → Except PyErr (List (Option V))
  cross : K → K → Bool → Except PyErr (List (Option V))

/-- Arguments of `calc_scores`. -/
structure ScoreOpts (K : Type) where
  fmin : Option K
  fmax : Option K
  arias : Bool
  rms : Bool
  spectra : Bool
  cross : Bool
  baseline : Bool

/-- class_gof_scores.py L60: ten times NaN. -/
def scores0 : List (Option V) := List.replicate 10 none

/-- class_gof_scores.py L185-187: `self.scores[off + ind] = sc` for all scores of a group. -/
def putScores (off : Nat) (sc : List (Option V)) (σ : List (Option V)) : List (Option V) :=
  σ.take off ++ sc ++ σ.drop (off + sc.length)

/-- One group: scores returned so far and the stored scores. -/
def runGroup (want : Bool) (off : Nat) (f : Except PyErr (List (Option V)))
    (st : Except PyErr (List (Option V)) × List (Option V)) : Except PyErr (List (Option V)) × List (Option V) :=
  match st.1 with
  | .error _ => st
  | .ok acc =>
    if want then
      match f with
      | .error e => (.error e, st.2)
      | .ok sc => (.ok (acc ++ sc), putScores off sc st.2)
    else st

/-- class_gof_scores.py L161-173: the frequency range, from the record `x` (a zero time step is
reported as `nonFinite`). -/
def scoreRange (x : Rec K) (fmin fmax : Option K) : Except PyErr (K × K) := do
  let dt ← dtOf x
  if dt = 0 then .error .nonFinite
  else
    let hi := fmax.getD (1 / dt / 2)
    let lo := fmin.getD (1 / dt / (x.length : K))
    if hi ≤ lo then .error .valueError else .ok (lo, hi)

/-- class_gof_scores.py L105-274 `calc_scores`: what is returned, and `self.scores` afterwards. -/
def calcScores (g : ScoreFns K V) (x : Rec K) (o : ScoreOpts K) (σ : List (Option V)) :
    Except PyErr (List (Option V)) × List (Option V) :=
  match scoreRange x o.fmin o.fmax with
  | .error e => (.error e, σ)
  | .ok (lo, hi) =>
    runGroup o.cross 9 (g.cross lo hi o.baseline)
      (runGroup o.spectra 7 (g.spectra lo hi o.baseline)
        (runGroup o.rms 4 (g.rms lo hi o.baseline)
          (runGroup o.arias 0 (g.arias lo hi o.baseline) (.ok [], σ))))

/-- class_gof_scores.py L62-91 `__str__`: the average score; without scores the division of 0 by
0 raises ZeroDivisionError. -/
def strAverage (σ : List (Option K)) : Except PyErr K :=
  let l := σ.filterMap id
  if l.length = 0 then .error .zeroDivision else .ok (l.sum / (l.length : K))

/-- The objects of a batch: for each the functions giving its scores and its measurement. -/
structure ScoreObj (K V : Type) where
  fns : ScoreFns K V
  meas : Rec K

/-- class_gof_scores.py L280-290 `Batch_GOF_Scores.__init__`: the attributes `list_of_scores` and `n_scores`; `none` is an argument that
is not a list. -/
def mkBatchGof {α : Type} (x : Option (List α)) : Except PyErr (List α × Nat) :=
  match x with
  | none => .error .typeError
  | some l => if l.length = 0 then .error .valueError else .ok (l, l.length)

/-- class_gof_scores.py L321-326 and L336-360 `_run_single_score`, serial run: the objects are `refs` (indices into the list of all
objects, the same object may occur twice); `σ` holds the stored scores of all objects. An error ends the
run. -/
def batchSerial (objs : List (ScoreObj K V)) (o : ScoreOpts K) :
    List Nat → List (List (Option V)) → Except PyErr (List Nat) × List (List (Option V))
  | [], σ => (.ok [], σ)
  | i :: refs, σ =>
    match objs[i]?, σ[i]? with
    | some b, some s =>
      let r := calcScores b.fns b.meas o s
      let σ' := σ.set i r.2
      match r.1 with
      | .error e => (.error e, σ')
      | .ok _ =>
        let rest := batchSerial objs o refs σ'
        (rest.1.map (i :: ·), rest.2)
    | _, _ => (.error .indexError, σ)

/-- class_gof_scores.py L327-334 and L336-360, parallel run: each worker gets a copy of the objects and returns a
copy of its object, whose stored scores are the result; the caller's objects are untouched. -/
def batchParallel (objs : List (ScoreObj K V)) (o : ScoreOpts K) (refs : List Nat) (σ : List (List (Option V))) :
    Except PyErr (List (List (Option V))) × List (List (Option V)) :=
  (refs.mapM fun i =>
    match objs[i]?, σ[i]? with
    | some b, some s =>
      let r := calcScores b.fns b.meas o s
      match r.1 with
      | .error e => .error e
      | .ok _ => .ok r.2
    | _, _ => .error .indexError, σ)

end

end Verif
