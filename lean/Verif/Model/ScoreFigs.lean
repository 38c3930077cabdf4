import Verif.Model.ScoreProc
import Verif.Model.MotionFigs
import Verif.Model.NumFormat

/-!
Model of the figures of helper_gof_scores.py (`show_fig=True`): `d_1234` (L187-248), `d_567` (L401-485), `d_89` (L718-779) and `d_10`
(L875-900).  Of a panel the numbers in the title, the lines with their legend labels in drawing order, the shaded region and the limits
of the horizontal axis are modelled; colours, widths, labels of axes and vertical limits are not.
-/

namespace Verif

noncomputable section

/-- One panel: numbers shown in the title, lines, the shaded region (abscissae and upper edge) and the limits of the horizontal axis. -/
structure ScorePanel where
  title : List ℝ
  lines : List (LabLine ℝ)
  fill : Option (List ℝ × List ℝ) := none
  xlim : ℝ × ℝ

/-- `np.max` of a 1D array. -/
def npMaxR : List ℝ → Except PyErr ℝ
  | [] => .error .valueError
  | a :: l => .ok (l.foldl max a)

/-- `S_(x[1:], …)` leaves the first element alone and raises small later ones to the machine epsilon in place (helper_gof_scores.py
L52-53, L182-183: the slices are views). -/
def afterScore (l : List ℝ) : List ℝ := l.take 1 ++ clampArr (l.drop 1)

/-- Measurement and simulation over the same abscissae. -/
def twoLines (tm ts m s : List ℝ) : Except PyErr (List (LabLine ℝ)) := do
  let a ← labLine (some "Measurement") tm m
  let b ← labLine (some "Simulation") ts s
  return [a, b]

/-- helper_gof_scores.py L62-250 `d_1234` with `show_fig=True`: the scores and the figure.  Only curves of the same number of points get
that far (`grid_score`), so the abscissae are `t1` (L179). -/
def d1234Fig (sp : SigProc) (meas simu : Rec ℝ) (fmin fmax : Option ℝ) (base : Bool) :
    Except PyErr ((ℝ × ℝ × ℝ × ℝ) × List ScorePanel) := do
  let t1 := (trim15 meas).map Prod.fst
  let t2 := (trim15 simu).map Prod.fst
  let am ← optStep base sp.baseline (trim15 meas)
  let as ← optStep base sp.baseline (trim15 simu)
  let am ← gofFilter sp fmin fmax am
  let as ← gofFilter sp fmin fmax as
  let iam ← gofArias am
  let ias ← gofArias as
  let vm ← numInt am
  let vs ← numInt as
  let iem ← gofArias vm.1
  let ies ← gofArias vs.1
  let nam ← normIa iam
  let nas ← normIa ias
  let nem ← normIa iem
  let nes ← normIa ies
  let a ← sameGrid t1 t2 nam nas
  let e ← sameGrid t1 t2 nem nes
  let s1 ← scoreAny a.1.tail1 a.2.tail1
  let s2 ← scoreAny e.1.tail1 e.2.tail1
  let d1 ← meanArr s1
  let d2 ← meanArr s2
  let d3 := scoreNum iam.2 ias.2
  let d4 := scoreNum iem.2 ies.2
  let l1 ← twoLines t1 t1 (afterScore nam) (afterScore nas)
  let x1 ← npMaxR (iam.1.map Prod.fst)
  let l2 ← twoLines t1 t1 (afterScore nem) (afterScore nes)
  let x2 ← npMaxR (iem.1.map Prod.fst)
  let l3 ← twoLines t1 t1 (iam.1.map Prod.snd) (ias.1.map Prod.snd)
  let l4 ← twoLines t1 t1 (iem.1.map Prod.snd) (ies.1.map Prod.snd)
  return ((d1, d2, d3, d4), [⟨[fmtF 2 d1], l1, none, (0, x1)⟩, ⟨[fmtF 2 d2], l2, none, (0, x2)⟩, ⟨[fmtF 2 d3], l3, none, (0, x1)⟩,
    ⟨[fmtF 2 d4], l4, none, (0, x2)⟩])

/-- helper_gof_scores.py L405-423, L434-452, L458-476: the line with the larger peak is drawn first. -/
def peakLines (pm ps : ℝ) (tm ts : List ℝ) (m s : Rec ℝ) : Except PyErr (List (LabLine ℝ)) := do
  let a ← labLine (some "Measurement") tm (m.map Prod.snd)
  let b ← labLine (some "Simulation") ts (s.map Prod.snd)
  return if ps ≤ pm then [a, b] else [b, a]

/-- helper_gof_scores.py L300-487 `d_567` with `show_fig=True`: the scores and the figure. -/
def d567Fig (sp : SigProc) (meas simu : Rec ℝ) (fmin fmax : Option ℝ) (base : Bool) :
    Except PyErr ((ℝ × ℝ × ℝ) × List ScorePanel) := do
  let t1 := (trim15 meas).map Prod.fst
  let t2 := (trim15 simu).map Prod.fst
  let am ← optStep base (gofFilter sp fmin fmax) (trim15 meas)
  let as ← optStep base (gofFilter sp fmin fmax) (trim15 simu)
  let pam ← absPeak am
  let pas ← absPeak as
  let ram ← calcRms am
  let ras ← calcRms as
  let am ← optStep base sp.baseline am
  let as ← optStep base sp.baseline as
  let im ← numInt am
  let is ← numInt as
  let rvm ← calcRms im.1
  let rvs ← calcRms is.1
  let pvm ← absPeak im.1
  let pvs ← absPeak is.1
  let um ← optStep base sp.wavelet im.2
  let us ← optStep base sp.wavelet is.2
  let pum ← absPeak um
  let pus ← absPeak us
  let rum ← calcRms um
  let rus ← calcRms us
  let d5 := scoreNum ram ras
  let d6 := scoreNum rvm rvs
  let d7 := scoreNum rum rus
  let l1 ← peakLines pam pas t1 t2 am as
  let x1 ← npMaxR t1
  let x2 ← npMaxR t2
  let l2 ← peakLines pvm pvs t1 t2 im.1 is.1
  let l3 ← peakLines pum pus t1 t2 um us
  return ((d5, d6, d7), [⟨[fmtF 2 d5, fmtF 2 d6, fmtF 2 d7], l1, none, (0, max x1 x2)⟩, ⟨[], l2, none, (0, max x1 x2)⟩,
    ⟨[], l3, none, (0, max x1 x2)⟩])

/-- `S_(x[i:j], …)` raises small elements of the view to the machine epsilon in place (helper_gof_scores.py L52-53, L715-716). -/
def afterSlice (i j : Nat) (l : List ℝ) : List ℝ := (l.take j).take i ++ clampArr ((l.take j).drop i) ++ l.drop j

/-- `ax.fill_between(x, np.maximum(m, s))` (helper_gof_scores.py L723-729, L747-753). -/
def fillBetween (x m s : List ℝ) : Except PyErr (List ℝ × List ℝ) :=
  let top := List.zipWith max m s
  if m.length = s.length ∧ x.length = top.length then .ok (x, top) else .error .valueError

/-- helper_gof_scores.py L589-781 `d_89` with `show_fig=True`: the scores and the figure. -/
def d89Fig (sp : SigProc) (meas simu : Rec ℝ) (fmin fmax : Option ℝ) (base : Bool) :
    Except PyErr ((ℝ × ℝ) × List ScorePanel) := do
  let m ← optStep base sp.baseline meas
  let s ← optStep base sp.baseline simu
  let _ ← hasDt m
  let _ ← hasDt s
  let f ← gofRange fmin fmax
  let m ← optStep base sp.baseline m
  let s ← optStep base sp.baseline s
  if f.1 = 0 ∨ f.2 = 0 then .error .nonFinite
  else
    let tmax := 1 / f.1
    let tmin := 1 / f.2
    let rm ← sp.spectrum (min tmin (1 / 100)) (max tmax 5) m
    let rs ← sp.spectrum (min tmin (1 / 100)) (max tmax 5) s
    let i1 ← firstGe rm.1 tmin
    let i2 ← lastLe rm.1 tmax
    let fm ← sp.fourier m
    let fs ← sp.fourier s
    let sm ← sp.smooth fm
    let ss ← sp.smooth fs
    let j1 ← firstGe (fm.map Prod.fst) f.1
    let j1' ← firstGe (fs.map Prod.fst) f.1
    let j2 ← lastLe (fm.map Prod.fst) f.2
    let j2' ← lastLe (fs.map Prod.fst) f.2
    let s8 ← (scoreArr ((rm.2.take i2).drop i1) ((rs.2.take i2).drop i1)).1
    let d8 ← meanArr s8
    let s9 ← (scoreArr ((sm.take (min j2 j2')).drop (max j1 j1')) ((ss.take (min j2 j2')).drop (max j1 j1'))).1
    let d9 ← meanArr s9
    let j := max j1 j1'
    let k := min j2 j2'
    let am := afterSlice i1 i2 rm.2
    let as := afterSlice i1 i2 rs.2
    let fl8 ← fillBetween ((rm.1.take i2).drop i1) ((am.take i2).drop i1) ((as.take i2).drop i1)
    let l8a ← labLine (some "Measurement") rm.1 am
    let l8b ← labLine (some "Simulation") rs.1 as
    let gm := afterSlice j k sm
    let gs := afterSlice j k ss
    let fl9 ← fillBetween (((fm.map Prod.fst).take k).drop j) ((gm.take k).drop j) ((gs.take k).drop j)
    let l9a ← labLine (some "Measurement") (fm.map Prod.fst) gm
    let l9b ← labLine (some "Simulation") (fs.map Prod.fst) gs
    let x8 ← npMaxR rm.1
    let x9 ← npMaxR (fm.map Prod.fst)
    let y8 ← npMaxR (rm.1.map fun v => -v)
    let y9 ← npMaxR ((fm.map Prod.fst).map fun v => -v)
    return ((d8, d9), [⟨[fmtF 2 d8], [l8a, l8b], some fl8, (-y8, x8)⟩, ⟨[fmtF 2 d9], [l9a, l9b], some fl9, (-y9, x9)⟩])

/-- helper_gof_scores.py L784-902 `d_10` with `show_fig=True`: the score and the figure. -/
def d10Fig (sp : SigProc) (meas simu : Rec ℝ) (fmin fmax : Option ℝ) (base : Bool) : Except PyErr (ℝ × List ScorePanel) := do
  let m ← optStep base sp.baseline meas
  let s ← optStep base sp.baseline simu
  let r ← d10 sp meas simu fmin fmax base
  let b ← labLine (some "Simulation") (s.map Prod.fst) (s.map Prod.snd)
  let a ← labLine (some "Measurement") (m.map Prod.fst) (m.map Prod.snd)
  let x1 ← npMaxR (m.map Prod.fst)
  let x2 ← npMaxR (s.map Prod.fst)
  return (r, [⟨[], [b, a], none, (0, max x1 x2)⟩])

end

end Verif
