import Verif.Model.VsProfile
import Verif.Model.EquivLinear
import Verif.Model.Batch
import Verif.Model.Svm
import Verif.Model.Calib
import Verif.Model.SiteFactors
import Verif.Model.NumFormat
import Mathlib.Data.List.MinMax

/-!
What the package prints on the console: warnings, progress reports, and the effect of the arguments `verbose`.

Console output is a list of pieces, literal text (with `\n` for line ends) and numbers.  A number is given as formatted for the message, so
`'%.2f' % x` is `fmtF 2 x`; padding is left out.  Output of called functions that is not the subject of a definition is a parameter.
-/

namespace Verif

/-- Literal text, or a number (`none`: inf or NaN). -/
inductive Piece (K : Type) where
  | txt (s : String)
  | num (x : Option K)
  deriving DecidableEq

/-- Console output. -/
abbrev Text (K : Type) := List (Piece K)

/-- `if verbose: print(…)`. -/
def say {K : Type} (verbose : Bool) (t : Text K) : Text K := if verbose then t else []

/-- The words of an output, without the numbers. -/
def Text.words {K : Type} (t : Text K) : List String := t.filterMap fun p => match p with | .txt s => some s | .num _ => none

/-- The numbers of an output. -/
def Text.nums {K : Type} (t : Text K) : List (Option K) := t.filterMap fun p => match p with | .txt _ => none | .num x => some x

section Profile
variable {K : Type} [Field K] [LinearOrder K]

/-- class_Vs_profile.py L136-142: two columns. -/
def surfaceText (thk : List K) : Text K :=
  match thk with
  | [] => []
  | t :: _ =>
    if t < 1 then
      [.txt "Warning in initializing Vs_Profile: surface layer thickness lower than 1.0 m (user provided = ", .num (some t),
        .txt "). May result in unrealistic surface layer overburden pressure.\n"]
    else []

/-- class_Vs_profile.py L148-157: densities, in the unit given. -/
def densityText (de : DensUnit) (rho : List K) : Text K :=
  match rho.min? with
  | none => []
  | some m =>
    if de = .si ∧ m ≤ 1000 then
      [.txt "Warning in initializing Vs_Profile: min(density) is lower than 1,000 kg/m^3. Possible error.\n"]
    else if de = .gcc ∧ m ≤ 1 then
      [.txt "Warning in initializing Vs_Profile: min(density) is lower than 1.0 g/cm^3. Possible error.\n"]
    else []

/-- class_Vs_profile.py L159-163: damping ratios, in the unit given. -/
def dampingText (du : DampUnit) (xi : List K) : Text K :=
  match xi.max? with
  | none => []
  | some m =>
    if du = .one ∧ 1 < m then
      [.txt "Warning in initializing Vs_Profile: max(damping) larger than 100%. Possible error.\n"]
    else []

/-- class_Vs_profile.py L128-163: everything printed for an array that passed the checks. -/
def cellText (du : DampUnit) (de : DensUnit) : Cell K → Text K
  | .two rows => surfaceText (rows.map Prod.fst)
  | .five rows => densityText de (rows.map Row.rho) ++ dampingText du (rows.map Row.xi)

/-- class_Vs_profile.py L94-197 `Vs_Profile.__init__`: the result, and what is printed. -/
def profileConsole [FloorRing K] (σ : Store K) (a : Nat) (du : DampUnit) (de : DensUnit) (addHalf : Bool) (formula : Int) :
    Except PyErr (VsObj K × Store K) × Text K :=
  (mkProfile σ a du de addHalf formula,
    match σ[a]? with
    | none => []
    | some c =>
      match checkVsFormat c with
      | .error _ => []
      | .ok _ => if du = .bad then [] else if de = .bad then [] else cellText du de c)

/-- helper_site_response.py L852-904 `calc_VsZ`: the result, and what is printed. -/
def vsZConsole [FloorRing K] (profile : List (K × K)) (Z : K) (opt : Int) (verbose : Bool) : Except PyErr K × Text K :=
  (calcVsZ profile Z opt,
    if opt = 1 then
      if (profile.map Prod.fst).sum < Z then
        say verbose [.txt "The input profile doesn't reach Z = ", .num (some (fmtF 2 Z)), .txt " m.\nAssume last Vs value goes down to ",
          .num (some (fmtF 2 Z)), .txt " m.\n"]
      else []
    else [])

/-- helper_hh_calibration.py L774-811 `_calc_vertical_stress`: the result, and what is printed. -/
def vertStressConsole (h rho : List K) : Except PyErr (List K × List K) × Text K :=
  (vertStress h rho,
    if rho ≠ [] ∧ rho.sum / (rho.length : K) < 1000 then
      [.txt "Warning in __calc_vertical_stress(): It looks like the unit of mass density is g/cm^3. The correct unit should be kg/m^3.\n"]
    else [])

end Profile

/-! ## Equivalent-linear iteration -/

section Equiv
variable {K : Type} [Field K] [LinearOrder K] [FloorRing K]

/-- helper_simulations.py L403-404: `np.max(np.abs(old - new) / new)`; inf or NaN if a divisor is zero. -/
def maxRelDiff (old new : List K) : Option K :=
  ((old.zip new).mapM fun x => if x.2 = 0 then none else some (|x.1 - x.2| / x.2)).bind List.max?

/-- helper_simulations.py L409-416: the second half of the line of a pass; nothing if the pass raises an exception before. -/
def eqStepText {R : Type} (resp : RespFn K R) (gmax : List K) (cs : List (LayCurve K)) (s : EqState K R) : Text K :=
  match resp (s.prof.map Row.thk) s.G (s.prof.map Row.xi) (s.prof.map Row.rho) with
  | .error _ => []
  | .ok r =>
    match eqUpdate gmax.dropLast cs r.2 with
    | .error _ => []
    | .ok new =>
      if new = [] then []
      else
        [.txt "  G_diff = ", .num ((maxRelDiff s.G.dropLast (new.map Prod.fst)).map fun x => fmtF 2 (x * 100)),
          .txt "%, D_diff = ", .num ((maxRelDiff (s.prof.dropLast.map Row.xi) (new.map Prod.snd)).map fun x => fmtF 2 (x * 100)),
          .txt "%\n"]

/-- helper_simulations.py L424. -/
def convText : Text K := [.txt "---------- Convergence achieved ---------------\n"]

/-- helper_simulations.py L363-425: what the loop prints with `n` passes left, `i` being `i_iter`. -/
def eqLoopText {R : Type} (resp : RespFn K R) (gmax : List K) (cs : List (LayCurve K)) (tol : K) (verbose : Bool) :
    Nat → Nat → EqState K R → Text K
  | 0, _, _ => []
  | n + 1, i, s =>
    say verbose [.txt "Iteration No.", .num (some ((i + 1 : Nat) : K)), .txt "."] ++ say verbose (eqStepText resp gmax cs s) ++
    match eqStep resp gmax cs tol s with
    | .error _ => []
    | .ok (s', conv) => if conv && verbose then convText else eqLoopText resp gmax cs tol verbose n (i + 1) s'

/-- helper_simulations.py L342-427: what the iteration prints. -/
def eqIterateText {R : Type} (resp : RespFn K R) (prof : List (Row K)) (cols : List (List K)) (tol : K) (maxIter : Int)
    (verbose : Bool) : Text K :=
  match layCurves cols prof with
  | .error _ => []
  | .ok cs =>
    match checkMaxIter maxIter with
    | .error _ => []
    | .ok _ =>
      eqLoopText resp (prof.map fun r => r.rho * r.vs ^ 2) cs tol verbose maxIter.toNat 0
        ⟨prof, prof.map fun r => r.rho * r.vs ^ 2, none, []⟩

end Equiv

/-! ## Simulations -/

section Runs
variable {K : Type}

/-- class_simulation_results.py L483-484: the end of `to_txt`. -/
def savedText (verbose : Bool) (dir : String) : Text K := say verbose [.txt "Simulation results saved to ", .txt dir, .txt "\n"]

/-- What a run does, as far as its messages are concerned: the outcomes of the calculation, of the figures and of saving, and the output of
the functions called by the calculation. -/
structure RunParts (K : Type) where
  work : Except PyErr Unit
  workText : Text K
  figs : Except PyErr Unit
  save : Except PyErr Unit
  remove : Except PyErr Unit

/-- A step with its output, followed by others if there is no exception. -/
def andThenText (a : Except PyErr Unit × Text K) (b : Except PyErr Unit × Text K) : Except PyErr Unit × Text K :=
  match a.1 with
  | .error e => (.error e, a.2)
  | .ok _ => (b.1, a.2 ++ b.2)

/-- `if c: …`. -/
def whenText (c : Bool) (a : Except PyErr Unit × Text K) : Except PyErr Unit × Text K := if c then a else (.ok (), [])

/-- class_simulation_results.py L389-484 `to_txt`: the message comes after the last file. -/
def toTxtConsole (save : Except PyErr Unit) (verbose : Bool) (dir : String) : Except PyErr Unit × Text K :=
  andThenText (save, []) (.ok (), savedText verbose dir)

/-- class_simulation.py L182-291 `Linear_Simulation.run`; `to_txt` is called without `verbose`, which is False by default. -/
def linearConsole (r : RunParts K) (verbose showFig saveTxt : Bool) (dir : String) : Except PyErr Unit × Text K :=
  andThenText (.ok (), say verbose [.txt "Linear site response simulation running... "])
    (andThenText (r.work, r.workText)
      (andThenText (whenText showFig (r.figs, []))
        (andThenText (whenText saveTxt (toTxtConsole r.save false dir)) (.ok (), say verbose [.txt "done.\n"]))))

/-- class_simulation.py L339-435 `Equiv_Linear_Simulation.run`; `workText` contains the report on the iteration. -/
def equivConsole (r : RunParts K) (verbose showFig saveTxt : Bool) (dir : String) : Except PyErr Unit × Text K :=
  andThenText (r.work, r.workText)
    (andThenText (whenText showFig (r.figs, [])) (whenText saveTxt (toTxtConsole r.save verbose dir)))

/-- class_simulation.py L508-795 `Nonlinear_Simulation.run`; `workText` is what the Fortran program (shown with `verbose` only, L703-706)
and the functions called afterwards print: `prog`, `post`. -/
def nonlinConsole (r : RunParts K) (prog : Except PyErr Unit) (progText : Text K) (verbose showFig saveFig saveTxt removeDir : Bool)
    (dir : String) : Except PyErr Unit × Text K :=
  andThenText (.ok (), say verbose [.txt "Nonlinear simulation running...\n"])
    (andThenText (prog, say verbose progText)
      (andThenText (.ok (), say verbose [.txt "Simulation finished. Now post processing.\n"])
        (andThenText (r.work, r.workText)
          (andThenText (.ok (), say verbose [.txt "Done.\n"])
            (andThenText (whenText showFig (r.figs, []))
              (andThenText (whenText saveTxt (toTxtConsole r.save verbose dir))
                (whenText (!saveTxt && !saveFig && removeDir)
                  (andThenText (r.remove, []) (.ok (), say verbose [.txt "`sim_dir` (", .txt dir, .txt ") removed.\n"])))))))))

/-- class_batch_simulation.py L236. -/
def caughtText : Text K := [.txt "Warning: ValueError encountered.\n"]

variable {R : Type}

/-- class_batch_simulation.py L198-240 `_run_single_sim`: what is printed; `inner i o` is the output of simulation `i` with options `o`. -/
def runSingleText (sims : List (PyDict → Except PyErr R)) (inner : Nat → PyDict → Text K) (nonlinear : Bool) (base : List Char)
    (catching : Bool) (i : Nat) (opts : PyDict) : Text K :=
  let o := dictSet opts (dirKey nonlinear) (.str (simDir base sims.length i))
  match sims[i]? with
  | none => []
  | some f =>
    inner i o ++
    match f o with
    | .ok _ => []
    | .error e => if catching = true ∧ e = .valueError then caughtText else []

/-- Several simulations one after the other: an exception ends the output. -/
def runSeqText (sims : List (PyDict → Except PyErr R)) (inner : Nat → PyDict → Text K) (nonlinear : Bool) (base : List Char)
    (catching : Bool) : List Nat → PyDict → Text K
  | [], _ => []
  | i :: is, opts =>
    runSingleText sims inner nonlinear base catching i opts ++
    match runSingle sims nonlinear base catching i opts with
    | (.error _, _) => []
    | (.ok _, o) => runSeqText sims inner nonlinear base catching is o

/-- class_batch_simulation.py L152-158 `run(parallel=False, verbose=…)`: `verbose` is not looked at. -/
def batchSerialText (sims : List (PyDict → Except PyErr R)) (inner : Nat → PyDict → Text K) (nonlinear : Bool) (base : List Char)
    (catching : Bool) (opts : PyDict) (_verbose : Bool) : Text K :=
  runSeqText sims inner nonlinear base catching (List.range sims.length) opts

/-- class_batch_simulation.py L159-186 `run(parallel=True)`: `workers` is the output of the worker processes, `pool` what `Pool.map`
gives. -/
def batchParallelText {α : Type} (useCtx verbose : Bool) (workers : Text K) (pool : Except PyErr α) : Text K :=
  say verbose [.txt (if useCtx then "Parallel computing in progress using forkserver... " else "Parallel computing in progress... ")] ++
  workers ++
  match pool with
  | .error _ => []
  | .ok _ => say verbose [.txt "done.\n"]

/-! ## Parameters without stress function -/

/-- class_parameters.py L141, L165, L190. -/
def noStressText : Text K := [.txt "You did not provide a function to calculate shear stress.\n"]

/-- class_parameters.py L118-145 `get_stress`: `f` is `self.func_stress`. -/
def stressConsole {α : Type} (f : Option (Except PyErr α)) : Except PyErr (Option α) × Text K :=
  match f with
  | none => (.ok none, noStressText)
  | some r => (r.map some, [])

/-- class_parameters.py L147-171 `get_GGmax`: `g` goes from stresses to G/Gmax. -/
def ggmaxConsole {α β : Type} (f : Option (Except PyErr α)) (g : α → Except PyErr β) : Except PyErr (Option β) × Text K :=
  let s := stressConsole (K := K) f
  match s.1 with
  | .error e => (.error e, s.2)
  | .ok none => (.ok none, s.2 ++ noStressText)
  | .ok (some t) => ((g t).map some, s.2)

/-- class_parameters.py L173-199 `get_damping`: `d` is the damping from the stress function. -/
def dampConsole {α β : Type} (f : Option (Except PyErr α)) (d : Except PyErr β) : Except PyErr (Option β) × Text K :=
  match f with
  | none => (.ok none, noStressText)
  | some _ => (d.map some, [])

end Runs

noncomputable section

/-! ## SVM -/

/-- class_svm.py L98-104: the format `%.2f` is never filled in. -/
def svmRangeText (target : ℝ) : Text ℝ :=
  if target < 1731 / 10 ∨ 1000 < target then
    [.txt "***** Warning in initializing an SVM object: your Vs30 (%.2f m/s) is out of the range of applicability of the SVM (173.1 m/s to 1000 m/s); the result may not be as credible. *****\n"]
  else []

/-- class_svm.py L149-203 with `iterate=True`: what the loop over trial values prints. -/
def svmIterText (target z1 : ℝ) (verbose : Bool) : Nat → ℝ → Text ℝ
  | 0, _ => []
  | fuel + 1, v =>
    match svmTemp v z1 with
    | .error _ => []
    | .ok (_, temp) =>
      match calcVs30 temp 1 with
      | .error _ => []
      | .ok actual =>
        say verbose [.txt "  ", .num (some (fmtF 1 actual)), .txt " --> ", .num (some (fmtF 1 target)), .txt " |"] ++
        if target - 10 ≤ actual ∧ actual ≤ target + 10 then say verbose [.txt "|\n"]
        else
          let next := v - (actual - target) / 5
          if next < 130 ∨ 1000 < next then say verbose [.txt "\n"]
          else svmIterText target z1 verbose fuel next

/-- class_svm.py L553-563: after a trial, `counter` being the number of rejected trials. -/
def trialText (verbose : Bool) (counter : Nat) : Text ℝ := say verbose [.txt (if counter % 80 = 0 then ".\n" else ".")]

/-- class_svm.py L534-565: what the search for a compliant profile prints; `counter` trials are rejected already. -/
def searchText (s : Svm) (gen : Nat → Except PyErr (List (ℝ × ℝ))) (verbose : Bool) : Nat → Nat → Nat → Text ℝ
  | 0, _, _ => []
  | fuel + 1, counter, k =>
    match gen k with
    | .error _ => []
    | .ok prof =>
      match compliant s prof with
      | .error _ => []
      | .ok true => say verbose [.txt "\n"]
      | .ok false => trialText verbose (counter + 1) ++ searchText s gen verbose fuel (counter + 1) (k + 1)

/-- class_svm.py L517-570 `get_randomized_profile`: what is printed before the profile object is made. -/
def randomizedText (s : Svm) (gen : Nat → Except PyErr (List (ℝ × ℝ))) (compliance verbose : Bool) (fuel seed : Nat) : Text ℝ :=
  if compliance then
    say verbose [.txt "Iterating for compliant Vs profile:\n"] ++ searchText s gen verbose fuel 0 seed
  else []

/-! ## Calibration -/

/-- helper_hh_calibration.py L503-518: the line of a layer, after the optimisation. -/
def layerText (n j : Nat) (q : LayerIn) : Text ℝ :=
  match kernel (q.strain.map (· / 100)) q.gammaRef q.beta q.s q.Gmax q.Tmax
      (muOne q.Gmax q.Tmax q.ocr (meanStress q.sv q.k0 / 1000)) with
  | .error _ => []
  | .ok (a, gt, d) =>
    [.num (some ((j + 1 : Nat) : ℝ)), .txt "/", .num (some (n : ℝ)), .txt ": mu = ",
      .num (some (fmtF 3 (muOne q.Gmax q.Tmax q.ocr (meanStress q.sv q.k0 / 1000)))), .txt ", a = ", .num (some (fmtF 1 a)),
      .txt ", gamma_t = ", .num (some (fmtF 3 (gt * 100))), .txt "%, d = ", .num (some (fmtF 3 d)), .txt "\n"]

/-- helper_hh_calibration.py L501-556: the loop over the layers, from layer `j` on. -/
def layersText (verbose : Bool) (n : Nat) : Nat → List LayerIn → Text ℝ
  | _, [] => []
  | j, q :: qs =>
    say verbose (layerText n j q) ++
    match layerCol q with
    | .error _ => []
    | .ok _ => layersText verbose n (j + 1) qs

/-- helper_hh_calibration.py L456-463: the fitted MKZ parameters, `(gamma_ref, beta, s)` per layer. -/
def mkzText (j : Nat) (p : ℝ × ℝ × ℝ) : Text ℝ :=
  [.txt "Layer ", .num (some (j : ℝ)), .txt ": gamma_ref = ", .num (some (fmtG 3 p.1)), .txt ", s = ", .num (some (fmtG 3 p.2.2)),
    .txt ", beta = ", .num (some (fmtG 3 p.2.1)), .txt "\n"]

/-- helper_hh_calibration.py L311-658 `produce_HH_G_param` without curves: what is printed. -/
def hhgDarendeliText (a : SoilArrays) (pi phi : NumArg ℝ) (verbose : Bool) : Text ℝ :=
  if !a.lengthsOk then []
  else
    say verbose [.txt "========== Start optimizing for HH_G parameters ===========\n",
      .txt "------ G/Gmax not provided; will generate MKZ curves using Darendeli (2001): ------\n"] ++
    match darendeli a.sv pi (.arr a.ocr) (some (.arr a.k0)) phi (some (geomspace 0.0001 10 400)) with
    | .error _ => []
    | .ok c =>
      say verbose [.txt "-----------  FKZ optimization  -----------------------------\n"] ++
      layersText verbose a.vs.length 0
        (a.layers (c.ref.map fun r => (r, 1, 0.9190)) (c.ref.map fun _ => geomspace 0.0001 10 400))

/-- helper_hh_calibration.py L311-658 `produce_HH_G_param` with curves: what is printed; `fit_MKZ` is called without `verbose`, which is
False by default. -/
def hhgCurvesText (cf : CurveFit) (a : SoilArrays) (m : CMat ℝ) (verbose : Bool) : Text ℝ :=
  if !a.lengthsOk then []
  else
    say verbose [.txt "========== Start optimizing for HH_G parameters ===========\n",
      .txt "------ G/Gmax provided; fitting MKZ curves to data: ------\n"] ++
    if m.cols.length ≠ a.vs.length * 4 then []
    else
      match fitMKZ cf m with
      | .error _ => []
      | .ok ps =>
        say verbose [.txt "****** MKZ parameters: ******\n"] ++
        say verbose ((ps.zipIdx).flatMap fun p => mkzText p.2 p.1) ++
        say verbose [.txt "-----------  FKZ optimization  -----------------------------\n"] ++
        layersText verbose a.vs.length 0 (a.layers ps ((List.range (m.cols.length / 4)).filterMap fun k => m.cols[k * 4]?))

/-! ## Spectra and site factors -/

/-- class_frequency_spectrum.py L148 `iscomplex`. -/
def FreqSpec.isComplex (s : FreqSpec) : Prop := ∃ z ∈ s.spectrum, z.im ≠ 0

/-- `np.allclose(a, b)` for arrays of the same length, `atol = 1e-8`. -/
def allCloseL (atol : ℝ) (a b : List ℝ) : Prop := ∀ p ∈ a.zip b, |p.1 - p.2| ≤ atol + 1 / 10 ^ 5 * |p.2|

open scoped Classical in
/-- class_site_effect_adjustment.py L145-166: the warnings of `run`, for the two factors. -/
def siteAdjText (af ph : FreqSpec) : Text ℝ :=
  (if ¬ allCloseL (1 / 10 ^ 8) af.freq ph.freq then
    [.txt "Warning in Site_Effect_Adjustment.run(): the frequency arrays of the amplification factor and the phase factor are not identical---something may be wrong in class_site_factors.py.\n"]
  else []) ++
  (if af.isComplex then
    [.txt "Warning in Site_Effect_Adjustment.run(): the amplification factor is complex, rather than real---something may be wrong in class_site_factors.py\n"]
  else []) ++
  (if ph.isComplex then
    [.txt "Warning in Site_Effect_Adjustment.run(): the phase factor is complex, rather than real---something may be wrong in class_site_factors.py\n"]
  else [])

/-- class_site_effect_adjustment.py L110-166 `run`: what is printed. -/
def runSiteAdjText (d : SfData) (g : GridFun) (a : SiteAdj) : Text ℝ :=
  match getAmplif d g a.fac a.method true, getPhaseShift d g a.fac .eqHH with
  | .ok af, .ok ph => siteAdjText af ph
  | _, _ => []

open scoped Classical in
/-- helper_signal_processing.py L626-695 `calc_transfer_function`: what is printed. -/
def transferText (input output : Rec ℝ) : Text ℝ :=
  match dtOf input, dtOf output with
  | .ok d1, .ok d2 =>
    if ¬ allClose d1 d2 then []
    else if input.length ≠ output.length then []
    else
      match fourierTransform false false input, fourierTransform false false output with
      | .ok si, .ok so =>
        if ¬ allCloseL (1 / 10 ^ 6) (si.map Prod.fst) (so.map Prod.fst) then
          [.txt "WARNING in `calc_transfer_function()`: The frequency arrays of the output and input Fourier spectra do not match.\n"]
        else []
      | _, _ => []
  | _, _ => []

end

end Verif
