import Verif.Model.Console
import Verif.Props.Batch
import Verif.Props.SiteFactors
import Verif.Props.Calib

/-!
C176: messages of simulations and batches.  C178: the report of the calibration.  C179: further messages.
-/

set_option linter.unusedSectionVars false
set_option linter.unusedVariables false

namespace Verif

/-! ## C176 -/

section Runs
variable {K : Type}

theorem andThenText_ok {a b : Except PyErr Unit × Text K} :
    (andThenText a b).1 = .ok () ↔ a.1 = .ok () ∧ b.1 = .ok () := by
  unfold andThenText
  cases h : a.1 with
  | error e => simp
  | ok u => simp

theorem andThenText_text {a b : Except PyErr Unit × Text K} (h : a.1 = .ok ()) : (andThenText a b).2 = a.2 ++ b.2 := by
  unfold andThenText
  rw [h]

theorem andThenText_err {a b : Except PyErr Unit × Text K} {e : PyErr} (h : a.1 = .error e) : andThenText a b = (.error e, a.2) := by
  unfold andThenText
  rw [h]

theorem mem_andThenText {a b : Except PyErr Unit × Text K} {p : Piece K} (h : p ∈ (andThenText a b).2) : p ∈ a.2 ∨ p ∈ b.2 := by
  unfold andThenText at h
  cases h1 : a.1 with
  | error e => rw [h1] at h; exact .inl h
  | ok u => rw [h1] at h; exact List.mem_append.mp h

theorem whenText_ok {c : Bool} {a : Except PyErr Unit × Text K} : (whenText c a).1 = .ok () ↔ (c = true → a.1 = .ok ()) := by
  unfold whenText
  cases c <;> simp

theorem say_false (t : Text K) : say false t = [] := rfl

theorem andThenText_silent {a b : Except PyErr Unit × Text K} (ha : a.2 = []) (hb : b.2 = []) : (andThenText a b).2 = [] := by
  unfold andThenText
  cases a.1 with
  | error e => exact ha
  | ok u => simp [ha, hb]

theorem whenText_silent {c : Bool} {a : Except PyErr Unit × Text K} (ha : a.2 = []) : (whenText c a).2 = [] := by
  unfold whenText
  cases c <;> simp [ha]

theorem toTxtConsole_false (save : Except PyErr Unit) (dir : String) : (toTxtConsole save false dir : Except PyErr Unit × Text K).2 = [] :=
  andThenText_silent rfl rfl

theorem andThenText_second {a b : Except PyErr Unit × Text K} (hb : b.2 = []) : (andThenText a b).2 = a.2 := by
  unfold andThenText
  cases a.1 with
  | error e => rfl
  | ok u => simp [hb]

theorem andThenText_first {a b : Except PyErr Unit × Text K} (ha : a.1 = .ok ()) (h : a.2 = []) : (andThenText a b).2 = b.2 := by
  rw [andThenText_text ha, h, List.nil_append]

/-- C176: with `verbose=False` the runs of all three kinds of simulations print nothing themselves: only warnings of the functions called by
the calculation appear (`workText`), and the output of the Fortran program does not. -/
theorem C176_silent (r : RunParts K) (showFig saveFig saveTxt removeDir : Bool) (dir : String) (prog : Except PyErr Unit) (progText : Text K) :
    (linearConsole r false showFig saveTxt dir).2 = r.workText ∧
    (equivConsole r false showFig saveTxt dir).2 = r.workText ∧
    (prog = .ok () → (nonlinConsole r prog progText false showFig saveFig saveTxt removeDir dir).2 = r.workText) ∧
    (prog ≠ .ok () → (nonlinConsole r prog progText false showFig saveFig saveTxt removeDir dir).2 = []) := by
  refine ⟨?_, ?_, ?_, ?_⟩
  · unfold linearConsole
    rw [andThenText_first rfl rfl, andThenText_second]
    exact andThenText_silent (whenText_silent rfl) (andThenText_silent (whenText_silent (toTxtConsole_false _ _)) rfl)
  · unfold equivConsole
    rw [andThenText_second]
    exact andThenText_silent (whenText_silent rfl) (whenText_silent (toTxtConsole_false _ _))
  · intro h
    unfold nonlinConsole
    rw [andThenText_first rfl rfl, andThenText_first h rfl, andThenText_first rfl rfl, andThenText_second]
    exact andThenText_silent rfl (andThenText_silent (whenText_silent rfl) (andThenText_silent (whenText_silent (toTxtConsole_false _ _))
      (whenText_silent (andThenText_silent rfl rfl))))
  · intro h
    cases prog with
    | ok u => exact absurd rfl h
    | error e =>
      unfold nonlinConsole
      rw [andThenText_first rfl rfl, andThenText_err (a := ((.error e : Except PyErr Unit), say false progText)) rfl]
      rfl

/-- C176: what a successful verbose run of each kind prints. -/
theorem C176_verbose (r : RunParts K) (showFig saveFig saveTxt removeDir : Bool) (dir : String) (prog : Except PyErr Unit)
    (progText : Text K) :
    ((linearConsole r true showFig saveTxt dir).1 = .ok () →
      (linearConsole r true showFig saveTxt dir).2 =
        .txt "Linear site response simulation running... " :: r.workText ++ [.txt "done.\n"]) ∧
    ((equivConsole r true showFig saveTxt dir).1 = .ok () →
      (equivConsole r true showFig saveTxt dir).2 =
        r.workText ++ (if saveTxt then [.txt "Simulation results saved to ", .txt dir, .txt "\n"] else [])) ∧
    ((nonlinConsole r prog progText true showFig saveFig saveTxt removeDir dir).1 = .ok () →
      (nonlinConsole r prog progText true showFig saveFig saveTxt removeDir dir).2 =
        [.txt "Nonlinear simulation running...\n"] ++ progText ++ [.txt "Simulation finished. Now post processing.\n"] ++ r.workText ++
        [.txt "Done.\n"] ++ (if saveTxt then [.txt "Simulation results saved to ", .txt dir, .txt "\n"] else []) ++
        (if saveTxt = false ∧ saveFig = false ∧ removeDir = true then [.txt "`sim_dir` (", .txt dir, .txt ") removed.\n"] else [])) := by
  have hsave : ∀ v : Bool, (whenText saveTxt (toTxtConsole r.save v dir) : Except PyErr Unit × Text K).1 = .ok () →
      (whenText saveTxt (toTxtConsole r.save v dir) : Except PyErr Unit × Text K).2 = if saveTxt then savedText v dir else [] := by
    intro v h
    unfold whenText at h ⊢
    cases saveTxt with
    | false => rfl
    | true =>
      simp only [if_true] at h ⊢
      unfold toTxtConsole at h ⊢
      rw [andThenText_text (andThenText_ok.mp h).1]
      rfl
  have hfig : (whenText showFig (r.figs, []) : Except PyErr Unit × Text K).2 = [] := whenText_silent rfl
  refine ⟨?_, ?_, ?_⟩
  · intro h
    unfold linearConsole at h ⊢
    obtain ⟨h1, h⟩ := andThenText_ok.mp h
    obtain ⟨h2, h⟩ := andThenText_ok.mp h
    obtain ⟨h3, h⟩ := andThenText_ok.mp h
    obtain ⟨h4, h⟩ := andThenText_ok.mp h
    rw [andThenText_text h1, andThenText_text h2, andThenText_text h3, andThenText_text h4, hsave _ h4, hfig]
    cases saveTxt <;> simp [say, savedText]
  · intro h
    unfold equivConsole at h ⊢
    obtain ⟨h1, h⟩ := andThenText_ok.mp h
    obtain ⟨h2, h⟩ := andThenText_ok.mp h
    rw [andThenText_text h1, andThenText_text h2, hsave _ h, hfig]
    cases saveTxt <;> simp [say, savedText]
  · intro h
    unfold nonlinConsole at h ⊢
    obtain ⟨h1, h⟩ := andThenText_ok.mp h
    obtain ⟨h2, h⟩ := andThenText_ok.mp h
    obtain ⟨h3, h⟩ := andThenText_ok.mp h
    obtain ⟨h4, h⟩ := andThenText_ok.mp h
    obtain ⟨h5, h⟩ := andThenText_ok.mp h
    obtain ⟨h6, h⟩ := andThenText_ok.mp h
    obtain ⟨h7, h⟩ := andThenText_ok.mp h
    rw [andThenText_text h1, andThenText_text h2, andThenText_text h3, andThenText_text h4, andThenText_text h5, andThenText_text h6,
      andThenText_text h7, hsave _ h7, hfig]
    have hrem : (whenText (!saveTxt && !saveFig && removeDir)
        (andThenText (r.remove, []) (.ok (), say true [.txt "`sim_dir` (", .txt dir, .txt ") removed.\n"])) : Except PyErr Unit × Text K).2 =
        if saveTxt = false ∧ saveFig = false ∧ removeDir = true then [.txt "`sim_dir` (", .txt dir, .txt ") removed.\n"] else [] := by
      unfold whenText at h ⊢
      by_cases c : (!saveTxt && !saveFig && removeDir) = true
      · rw [if_pos c] at h ⊢
        rw [andThenText_text (andThenText_ok.mp h).1, if_pos (by simpa [and_assoc] using c)]
        rfl
      · rw [if_neg c, if_neg (by simpa [and_assoc] using c)]
    rw [hrem]
    cases saveTxt <;> simp [say, savedText, List.append_assoc]

/-- C176 fails for linear simulations: where the results are saved is never said, although the run is verbose and files are written (the
equivalent-linear and nonlinear simulations do say it). -/
theorem C176_linear_saved_violated (r : RunParts K) (verbose showFig saveTxt : Bool) (dir : String)
    (hw : Piece.txt "Simulation results saved to " ∉ r.workText) :
    Piece.txt "Simulation results saved to " ∉ (linearConsole r verbose showFig saveTxt dir).2 := by
  intro h
  unfold linearConsole at h
  rcases mem_andThenText h with h | h
  · cases verbose <;> simp [say] at h
  · rcases mem_andThenText h with h | h
    · exact hw h
    · rcases mem_andThenText h with h | h
      · rw [whenText_silent rfl] at h; cases h
      · rcases mem_andThenText h with h | h
        · rw [whenText_silent (toTxtConsole_false _ _)] at h; cases h
        · cases verbose <;> simp [say] at h

/-- C176: a linear run says `done.` exactly when it succeeds. -/
theorem C176_linear_done (r : RunParts K) (showFig saveTxt : Bool) (dir : String) (hw : Piece.txt "done.\n" ∉ r.workText) :
    Piece.txt "done.\n" ∈ (linearConsole r true showFig saveTxt dir).2 ↔ (linearConsole r true showFig saveTxt dir).1 = .ok () := by
  constructor
  · intro h
    unfold linearConsole at h ⊢
    rw [andThenText_text rfl] at h
    rw [andThenText_ok]
    refine ⟨rfl, ?_⟩
    have h : Piece.txt "done.\n" ∈ (andThenText (r.work, r.workText) (andThenText (whenText showFig (r.figs, []))
        (andThenText (whenText saveTxt (toTxtConsole r.save false dir)) (.ok (), say true [.txt "done.\n"])))).2 := by
      rcases List.mem_append.mp h with h | h
      · simp [say] at h
      · exact h
    rw [andThenText_ok]
    cases h1 : r.work with
    | error e => rw [andThenText_err h1] at h; exact absurd h hw
    | ok u =>
      refine ⟨rfl, ?_⟩
      rw [andThenText_text h1] at h
      have h := (List.mem_append.mp h).resolve_left hw
      rw [andThenText_ok]
      cases h2 : (whenText showFig (r.figs, []) : Except PyErr Unit × Text K).1 with
      | error e =>
        rw [andThenText_err h2, whenText_silent rfl] at h
        cases h
      | ok u =>
        refine ⟨rfl, ?_⟩
        rw [andThenText_text h2, whenText_silent rfl, List.nil_append] at h
        rw [andThenText_ok]
        refine ⟨?_, rfl⟩
        cases h3 : (whenText saveTxt (toTxtConsole r.save false dir) : Except PyErr Unit × Text K).1 with
        | error e =>
          rw [andThenText_err h3, whenText_silent (toTxtConsole_false _ _)] at h
          cases h
        | ok u => rfl
  · intro h
    rw [(C176_verbose r showFig false saveTxt false dir (.ok ()) []).1 h]
    simp

/-- C176 fails for nonlinear simulations: `Done.` is printed before the figures are made and the files are written, so it is printed also
by runs that fail afterwards. -/
theorem C176_nonlinear_done_violated (r : RunParts K) (progText : Text K) (showFig saveFig removeDir : Bool) (dir : String) (e : PyErr)
    (hw : r.work = .ok ()) (hf : r.figs = .ok ()) (hs : r.save = .error e) :
    (nonlinConsole r (.ok ()) progText true showFig saveFig true removeDir dir).1 = .error e ∧
    Piece.txt "Done.\n" ∈ (nonlinConsole r (.ok ()) progText true showFig saveFig true removeDir dir).2 := by
  have h6 : (whenText showFig (r.figs, []) : Except PyErr Unit × Text K) = (.ok (), []) := by
    unfold whenText; cases showFig <;> simp [hf]
  have h7 : (whenText true (toTxtConsole r.save true dir) : Except PyErr Unit × Text K) = (.error e, []) := by
    unfold whenText toTxtConsole andThenText; simp [hs]
  unfold nonlinConsole
  rw [h6, h7]
  simp [andThenText, hw, say]

variable {R : Type}


/-- C176: a serial batch of simulations that print nothing themselves prints one warning for every simulation whose ValueError was caught,
that is, for every `None` among the results. -/
theorem C176_batch_warnings (sims : List (PyDict → Except PyErr R)) (nl : Bool) (base : List Char) (ca : Bool) (opts : PyDict) (v : Bool)
    (rs : List (Option R)) (h : (batchRunSerial sims nl base ca opts).1 = .ok rs) :
    batchSerialText sims (fun _ _ => ([] : Text K)) nl base ca opts v =
      List.replicate (rs.filter fun r => r.isNone).length (.txt "Warning: ValueError encountered.\n") := by
  unfold batchRunSerial at h
  unfold batchSerialText
  generalize List.range sims.length = is at h
  induction is generalizing opts rs with
  | nil =>
    cases h
    rfl
  | cons i is ih =>
    rw [runSeq] at h
    rw [runSeqText]
    cases hp : runSingle sims nl base ca i opts with
    | mk a o =>
      rw [hp] at h
      simp only at h
      cases a with
      | error e => cases h
      | ok r =>
        simp only at h ⊢
        cases hq : runSeq sims nl base ca is o with
        | mk b o' =>
          rw [hq] at h
          cases b with
          | error e => cases h
          | ok rs' =>
            simp only at h
            rw [Except.ok.injEq] at h
            rw [ih o rs' (by rw [hq]), ← h]
            unfold runSingle at hp
            unfold runSingleText
            cases hs : sims[i]? with
            | none => rw [hs] at hp; simp at hp
            | some f =>
              rw [hs] at hp
              simp only at hp ⊢
              cases hf : f (dictSet opts (dirKey nl) (.str (simDir base sims.length i))) with
              | ok x =>
                rw [hf] at hp
                simp only [Prod.mk.injEq, Except.ok.injEq] at hp
                rw [← hp.1]
                simp
              | error e =>
                rw [hf] at hp
                simp only at hp ⊢
                by_cases c : ca = true ∧ e = .valueError
                · rw [if_pos c] at hp ⊢
                  simp only [Prod.mk.injEq, Except.ok.injEq] at hp
                  rw [← hp.1]
                  simp [caughtText, List.replicate_succ]
                · rw [if_neg c] at hp
                  simp at hp

/-- C176 fails for batches in several ways: a serial run pays no attention to `verbose`, and prints whatever the simulations print, with the
options given to them, also with `verbose=False`. -/
theorem C176_batch_verbose_violated (sims : List (PyDict → Except PyErr R)) (inner : Nat → PyDict → Text K) (nl : Bool) (base : List Char)
    (ca : Bool) (opts : PyDict) :
    batchSerialText sims inner nl base ca opts false = batchSerialText sims inner nl base ca opts true ∧
    ∀ hne : sims ≠ [], ∃ rest, batchSerialText sims inner nl base ca opts false =
      inner 0 (dictSet opts (dirKey nl) (.str (simDir base sims.length 0))) ++ rest := by
  refine ⟨rfl, ?_⟩
  intro hne
  unfold batchSerialText
  obtain ⟨f, fs, rfl⟩ := List.exists_cons_of_ne_nil hne
  rw [List.length_cons, List.range_succ_eq_map, runSeqText, runSingleText]
  simp only [List.getElem?_cons_zero, List.append_assoc]
  exact ⟨_, rfl⟩

/-- C176: with worker processes, `verbose=False` leaves only what the workers print, and with `verbose=True` the beginning is announced
always and the end exactly when the pool delivers results. -/
theorem C176_batch_parallel {α : Type} (ctx : Bool) (workers : Text K) (pool : Except PyErr α) :
    batchParallelText ctx false workers pool = workers ∧
    (∃ s, (batchParallelText ctx true workers pool).head? = some (.txt s)) ∧
    (Piece.txt "done.\n" ∉ workers → (Piece.txt "done.\n" ∈ batchParallelText ctx true workers pool ↔ ∃ rs, pool = .ok rs)) := by
  refine ⟨?_, ?_, ?_⟩
  · unfold batchParallelText
    cases pool <;> simp [say]
  · unfold batchParallelText
    exact ⟨_, by simp [say]; rfl⟩
  · intro hw
    unfold batchParallelText
    cases pool with
    | error e => cases ctx <;> simp [say, hw]
    | ok rs => simp [say]

example : batchSerialText [fun _ => .ok (1 : ℕ), fun _ => .error .valueError] (fun _ _ => ([] : Text ℚ)) false ['d'] true [] false =
    [.txt "Warning: ValueError encountered.\n"] := by decide +kernel

end Runs

/-! ## C178 -/

noncomputable section Calibration

/-- The line shown for a layer, from its column of parameters in the order of the result. -/
def Spec.columnLine (n j : Nat) : List ℝ → Text ℝ
  | [gt, a, _, _, _, _, mu, _, d] =>
    [.num (some ((j + 1 : Nat) : ℝ)), .txt "/", .num (some (n : ℝ)), .txt ": mu = ", .num (some (fmtF 3 mu)), .txt ", a = ",
      .num (some (fmtF 1 a)), .txt ", gamma_t = ", .num (some (fmtF 3 (gt * 100))), .txt "%, d = ", .num (some (fmtF 3 d)), .txt "\n"]
  | _ => []

theorem layerText_col {n j : Nat} {q : LayerIn} {c : List ℝ} (h : layerCol q = .ok c) : layerText n j q = Spec.columnLine n j c := by
  unfold layerCol at h
  unfold layerText
  cases hk : kernel (q.strain.map (· / 100)) q.gammaRef q.beta q.s q.Gmax q.Tmax
      (muOne q.Gmax q.Tmax q.ocr (meanStress q.sv q.k0 / 1000)) with
  | error e => rw [hk] at h; cases h
  | ok p =>
    obtain ⟨a, gt, d⟩ := p
    rw [hk] at h
    simp only at h ⊢
    split at h
    · cases h
    · cases h
      rfl

theorem layersText_cols (n : Nat) : ∀ (qs : List LayerIn) (j : Nat) (cols : List (List ℝ)), qs.mapM layerCol = .ok cols →
    layersText true n j qs = (cols.zipIdx j).flatMap fun p => Spec.columnLine n p.2 p.1 := by
  intro qs
  induction qs with
  | nil => intro j cols h; cases h; rfl
  | cons q qs ih =>
    intro j cols h
    rw [List.mapM_cons] at h
    simp only [bind, Except.bind] at h
    cases hc : layerCol q with
    | error e => rw [hc] at h; cases h
    | ok c =>
      rw [hc] at h
      simp only at h
      cases hm : qs.mapM layerCol with
      | error e => rw [hm] at h; cases h
      | ok cs =>
        rw [hm] at h
        cases h
        rw [layersText, hc]
        simp only [say, if_true]
        rw [ih (j + 1) cs hm, layerText_col hc, List.zipIdx_cons, List.flatMap_cons]

theorem layersText_silent (n : Nat) : ∀ (qs : List LayerIn) (j : Nat), layersText false n j qs = [] := by
  intro qs
  induction qs with
  | nil => intro j; rfl
  | cons q qs ih =>
    intro j
    rw [layersText]
    simp only [say, Bool.false_eq_true, if_false, List.nil_append]
    cases layerCol q with
    | error e => rfl
    | ok c => exact ih (j + 1)

/-- C178: with `verbose=False` the calibration prints nothing, whatever happens. -/
theorem C178_silent (cf : CurveFit) (a : SoilArrays) (pi phi : NumArg ℝ) (m : CMat ℝ) :
    hhgDarendeliText a pi phi false = [] ∧ hhgCurvesText cf a m false = [] := by
  constructor
  · unfold hhgDarendeliText
    simp only [say, Bool.false_eq_true, if_false, List.nil_append, layersText_silent]
    split
    · rfl
    · split <;> rfl
  · unfold hhgCurvesText
    simp only [say, Bool.false_eq_true, if_false, List.nil_append, layersText_silent]
    split
    · rfl
    · split
      · rfl
      · split <;> rfl

/-- C178: without curves, a successful calibration prints two headings, and for every layer one line with its number, from 1 to the number of
layers, and with `mu`, `a`, `gamma_t` (in percent) and `d` of that layer's column of the result, rounded to three decimals (`a`: one). -/
theorem C178_darendeli (a : SoilArrays) (pi phi : NumArg ℝ) (cols : List (List ℝ)) (h : hhgDarendeli a pi phi = .ok cols) :
    hhgDarendeliText a pi phi true =
      [.txt "========== Start optimizing for HH_G parameters ===========\n",
        .txt "------ G/Gmax not provided; will generate MKZ curves using Darendeli (2001): ------\n",
        .txt "-----------  FKZ optimization  -----------------------------\n"] ++
      (cols.zipIdx).flatMap fun p => Spec.columnLine a.vs.length p.2 p.1 := by
  unfold hhgDarendeli at h
  unfold hhgDarendeliText
  split at h
  · cases h
  · rename_i hl
    rw [if_neg hl]
    split at h
    · cases h
    · rename_i c hc
      rw [hc]
      simp only
      rw [layersText_cols _ _ 0 cols h]
      rfl

/-- C178: with curves, a successful calibration prints in addition one line for every layer with the fitted MKZ parameters; these are the
parameters of the layer's column of the result, rounded to three significant digits. -/
theorem C178_curves (cf : CurveFit) (a : SoilArrays) (m : CMat ℝ) (cols : List (List ℝ)) (h : hhgCurves cf a m = .ok cols) :
    ∃ ps, fitMKZ cf m = .ok ps ∧
    hhgCurvesText cf a m true =
      [.txt "========== Start optimizing for HH_G parameters ===========\n",
        .txt "------ G/Gmax provided; fitting MKZ curves to data: ------\n", .txt "****** MKZ parameters: ******\n"] ++
      ((ps.zipIdx).flatMap fun p => [.txt "Layer ", .num (some (p.2 : ℝ)), .txt ": gamma_ref = ", .num (some (fmtG 3 p.1.1)), .txt ", s = ",
        .num (some (fmtG 3 p.1.2.2)), .txt ", beta = ", .num (some (fmtG 3 p.1.2.1)), .txt "\n"]) ++
      [.txt "-----------  FKZ optimization  -----------------------------\n"] ++
      (cols.zipIdx).flatMap fun p => Spec.columnLine a.vs.length p.2 p.1 := by
  unfold hhgCurves at h
  unfold hhgCurvesText
  split at h
  · cases h
  · rename_i hl
    rw [if_neg hl]
    split at h
    · cases h
    · rename_i hm
      rw [if_neg hm]
      split at h
      · cases h
      · rename_i ps hp
        refine ⟨ps, hp, ?_⟩
        rw [hp]
        simp only
        rw [layersText_cols _ _ 0 cols h]
        simp only [say, if_true, mkzText]
        rfl

/-- C178 fails: the two lines of one and the same layer carry different numbers.  The lines of MKZ parameters count the layers from 0, the
lines of the optimisation from 1. -/
theorem C178_numbering_violated (n j : Nat) (p : ℝ × ℝ × ℝ) (gt a r b s G mu T d : ℝ) :
    (mkzText j p).nums.head? = some (some (j : ℝ)) ∧
    (Spec.columnLine n j [gt, a, r, b, s, G, mu, T, d]).nums.head? = some (some ((j : ℝ) + 1)) := by
  constructor
  · rfl
  · simp [Spec.columnLine, Text.nums]

end Calibration

/-! ## C179 -/

section VsZ
variable {K : Type} [Field K] [LinearOrder K] [IsStrictOrderedRing K] [FloorRing K]

/-- C179: `calc_VsZ` says that the last velocity is extended exactly when that happens: with `verbose=True`, option 1, and a profile that ends
above depth `Z`. -/
theorem C179_extension (profile : List (K × K)) (Z : K) (opt : Int) (verbose : Bool) :
    (vsZConsole profile Z opt verbose).2 ≠ [] ↔ verbose = true ∧ opt = 1 ∧ (profile.map Prod.fst).sum < Z := by
  unfold vsZConsole say
  by_cases h1 : opt = 1
  · by_cases h2 : (profile.map Prod.fst).sum < Z
    · cases verbose <;> simp [h1, h2]
    · simp [h1, h2]
  · simp [h1]

/-- C179: the warning about the unit of the density is printed exactly when the mean density is below 1000 (whether in g/cm³ or not). -/
theorem C179_unit (h rho : List K) (hne : rho ≠ []) :
    (vertStressConsole h rho).2 ≠ [] ↔ rho.sum < 1000 * (rho.length : K) := by
  have hp : (0 : K) < (rho.length : K) := by
    exact_mod_cast List.length_pos_iff.mpr hne
  unfold vertStressConsole
  simp only [ne_eq, hne, not_false_eq_true, true_and]
  rw [← div_lt_iff₀ hp]
  split <;> simp_all

/-- C179: densities in g/cm³ below 1000 (all soils) are always noticed. -/
theorem C179_unit_noticed (h rho : List K) (hne : rho ≠ []) (hr : ∀ x ∈ rho, x < 1000) : (vertStressConsole h rho).2 ≠ [] := by
  rw [C179_unit h rho hne]
  clear h
  induction rho with
  | nil => exact absurd rfl hne
  | cons x rho ih =>
    by_cases h0 : rho = []
    · subst h0
      simpa using hr x List.mem_cons_self
    · have h1 := ih h0 fun y hy => hr y (List.mem_cons_of_mem _ hy)
      have h2 := hr x List.mem_cons_self
      rw [List.sum_cons, List.length_cons]
      push_cast
      linarith

end VsZ

/-- C179: without a stress function, `get_stress` and `get_damping` give `None` and one message, and with a stress function no message. -/
theorem C179_no_function {K α β : Type} (f : Option (Except PyErr α)) (g : α → Except PyErr β) (d : Except PyErr β) :
    (f = none → (stressConsole f : _ × Text K) = (.ok none, [.txt "You did not provide a function to calculate shear stress.\n"]) ∧
      (dampConsole f d : _ × Text K) = (.ok none, [.txt "You did not provide a function to calculate shear stress.\n"]) ∧
      (ggmaxConsole f g : _ × Text K).1 = .ok none) ∧
    (f ≠ none → (stressConsole f : _ × Text K).2 = [] ∧ (ggmaxConsole f g : _ × Text K).2 = [] ∧ (dampConsole f d : _ × Text K).2 = []) := by
  cases f with
  | none => exact ⟨fun _ => ⟨rfl, rfl, rfl⟩, fun h => absurd rfl h⟩
  | some r =>
    refine ⟨fun h => (by cases h), fun _ => ⟨rfl, ?_, rfl⟩⟩
    cases r with
    | error e => rfl
    | ok a => rfl

/-- C179 fails for `get_GGmax`: the message is printed twice. -/
theorem C179_twice_violated {K α β : Type} (g : α → Except PyErr β) :
    (ggmaxConsole none g : _ × Text K).2 = [.txt "You did not provide a function to calculate shear stress.\n",
      .txt "You did not provide a function to calculate shear stress.\n"] := rfl

noncomputable section Reals

/-- C179: the warning about Vs30 is printed exactly outside of the range of applicability of the SVM. -/
theorem C179_svm_range (v : ℝ) : svmRangeText v ≠ [] ↔ ¬ (173.1 ≤ v ∧ v ≤ 1000) := by
  unfold svmRangeText
  constructor
  · intro h hv
    rw [if_neg] at h
    · exact h rfl
    · push Not
      exact ⟨by norm_num at hv; linarith [hv.1], hv.2⟩
  · intro h
    rw [if_pos]
    · simp
    · by_contra hc
      push Not at hc
      exact h ⟨by norm_num; linarith [hc.1], hc.2⟩

/-- C179 fails: the warning does not tell the Vs30 it is about.  It contains no number, and it is the same for all Vs30 out of range (the
format `%.2f` in it is never filled in). -/
theorem C179_svm_value_violated (v w : ℝ) (hv : svmRangeText v ≠ []) (hw : svmRangeText w ≠ []) :
    svmRangeText v = svmRangeText w ∧ (svmRangeText v).nums = [] := by
  unfold svmRangeText at hv hw ⊢
  split at hv
  · split at hw
    · rename_i h1 h2
      rw [if_pos h1, if_pos h2]
      exact ⟨rfl, rfl⟩
    · exact absurd rfl hw
  · exact absurd rfl hv

theorem svmIterText_silent (target z1 : ℝ) : ∀ (fuel : Nat) (v : ℝ), svmIterText target z1 false fuel v = [] := by
  intro fuel
  induction fuel with
  | zero => intro v; rfl
  | succ n ih =>
    intro v
    rw [svmIterText]
    simp only [say, Bool.false_eq_true, if_false, List.nil_append]
    split
    · rfl
    · split
      · rfl
      · split
        · rfl
        · simp only [ih]
          split <;> rfl

theorem searchText_silent (s : Svm) (gen : Nat → Except PyErr (List (ℝ × ℝ))) : ∀ (fuel c k : Nat), searchText s gen false fuel c k = [] := by
  intro fuel
  induction fuel with
  | zero => intro c k; rfl
  | succ n ih =>
    intro c k
    rw [searchText]
    simp only [say, trialText, Bool.false_eq_true, if_false, List.nil_append, ih]
    split
    · rfl
    · split <;> rfl

/-- C179: with `verbose=False` neither the iteration for the target Vs30 nor the search for a compliant random profile prints anything. -/
theorem C179_svm_silent (target z1 v : ℝ) (s : Svm) (gen : Nat → Except PyErr (List (ℝ × ℝ))) (compliance : Bool) (fuel seed : Nat) :
    svmIterText target z1 false fuel v = [] ∧ randomizedText s gen compliance false fuel seed = [] := by
  refine ⟨svmIterText_silent _ _ _ _, ?_⟩
  unfold randomizedText
  rw [searchText_silent]
  cases compliance <;> rfl

theorem searchText_trials (s : Svm) (gen : Nat → Except PyErr (List (ℝ × ℝ))) (profs : Nat → List (ℝ × ℝ)) :
    ∀ (n fuel c k : Nat), (∀ j, j ≤ n → gen (k + j) = .ok (profs (k + j))) → (∀ j, j < n → compliant s (profs (k + j)) = .ok false) →
    compliant s (profs (k + n)) = .ok true → n < fuel →
    searchText s gen true fuel c k = ((List.range n).map fun j => Piece.txt (if (c + j + 1) % 80 = 0 then ".\n" else ".")) ++ [.txt "\n"] := by
  intro n
  induction n with
  | zero =>
    intro fuel c k hg hr ha hf
    obtain ⟨fuel, rfl⟩ : ∃ m, fuel = m + 1 := ⟨fuel - 1, by omega⟩
    have hg0 := hg 0 (le_refl _)
    simp only [Nat.add_zero] at hg0 ha
    rw [searchText, hg0]
    simp only [ha]
    rfl
  | succ n ih =>
    intro fuel c k hg hr ha hf
    obtain ⟨fuel, rfl⟩ : ∃ m, fuel = m + 1 := ⟨fuel - 1, by omega⟩
    have hg0 := hg 0 (by omega)
    have hr0 := hr 0 (by omega)
    simp only [Nat.add_zero] at hg0 hr0
    rw [searchText, hg0]
    simp only [hr0]
    rw [ih fuel (c + 1) (k + 1) (fun j hj => by rw [show k + 1 + j = k + (j + 1) by omega]; exact hg (j + 1) (by omega))
      (fun j hj => by rw [show k + 1 + j = k + (j + 1) by omega]; exact hr (j + 1) (by omega))
      (by rw [show k + 1 + n = k + (n + 1) by omega]; exact ha) (by omega)]
    rw [List.range_succ_eq_map, List.map_cons, List.map_map]
    simp only [trialText, say, if_true, Nat.add_zero, List.cons_append, List.nil_append]
    congr 3
    funext j
    simp only [Function.comp, Nat.succ_eq_add_one]
    rw [show c + 1 + j + 1 = c + (j + 1) + 1 by omega]

/-- C179: the search for a compliant random profile prints a heading, one dot for every rejected trial with a line break after every 80th,
and a line break at the end. -/
theorem C179_dots (s : Svm) (gen : Nat → Except PyErr (List (ℝ × ℝ))) (profs : Nat → List (ℝ × ℝ)) (n fuel seed : Nat)
    (hg : ∀ j, j ≤ n → gen (seed + j) = .ok (profs (seed + j))) (hr : ∀ j, j < n → compliant s (profs (seed + j)) = .ok false)
    (ha : compliant s (profs (seed + n)) = .ok true) (hf : n < fuel) :
    randomizedText s gen true true fuel seed = [.txt "Iterating for compliant Vs profile:\n"] ++
      ((List.range n).map fun j => Piece.txt (if (j + 1) % 80 = 0 then ".\n" else ".")) ++ [.txt "\n"] := by
  unfold randomizedText
  rw [if_pos rfl, searchText_trials s gen profs n fuel 0 seed hg hr ha hf]
  simp [say]

/-- C179: if no compliant profile is asked for, there is no search and nothing is printed, even with `verbose`. -/
theorem C179_no_search (s : Svm) (gen : Nat → Except PyErr (List (ℝ × ℝ))) (verbose : Bool) (fuel seed : Nat) :
    randomizedText s gen false verbose fuel seed = [] := rfl

/-- C179: the report of the iteration for the target Vs30 has one entry, actual and target value, for every pass; it ends with a bar exactly
when the last actual value is within 10 m/s of the target. -/
theorem C179_svm_pass (target z1 v actual : ℝ) (fuel : Nat) (th : List ℝ) (temp : List (ℝ × ℝ)) (ht : svmTemp v z1 = .ok (th, temp))
    (ha : calcVs30 temp 1 = .ok actual) :
    svmIterText target z1 true (fuel + 1) v =
      [.txt "  ", .num (some (fmtF 1 actual)), .txt " --> ", .num (some (fmtF 1 target)), .txt " |"] ++
      (if |actual - target| ≤ 10 then [.txt "|\n"]
       else if v - (actual - target) / 5 < 130 ∨ 1000 < v - (actual - target) / 5 then [.txt "\n"]
       else svmIterText target z1 true fuel (v - (actual - target) / 5)) := by
  rw [svmIterText, ht]
  simp only [ha, say, if_true]
  have e : (target - 10 ≤ actual ∧ actual ≤ target + 10) ↔ |actual - target| ≤ 10 := by
    rw [abs_le]
    constructor <;> rintro ⟨h1, h2⟩ <;> constructor <;> linarith
  by_cases c : |actual - target| ≤ 10
  · rw [if_pos (e.mpr c), if_pos c]
  · rw [if_neg (fun h => c (e.mp h)), if_neg c]

/-! ### Spectra -/

theorem allCloseL_self (atol : ℝ) (h : 0 ≤ atol) (l : List ℝ) : allCloseL atol l l := by
  intro p hp
  have : p.1 = p.2 := by
    obtain ⟨k, hk, rfl⟩ := List.getElem_of_mem hp
    simp
  rw [this, sub_self, abs_zero]
  positivity

theorem newSpect_two {rows : Spect} {s : FreqSpec} (h : newSpect (.two rows) none none = .ok s) :
    s.freq = rows.map Prod.fst ∧ s.spectrum = rows.map Prod.snd := by
  unfold newSpect at h
  simp only [bind, Except.bind] at h
  cases hr : readSpect (.two rows) none with
  | error e => rw [hr] at h; cases h
  | ok r =>
    rw [hr] at h
    simp only at h
    have hrows : r.1 = rows := by
      unfold readSpect at hr
      match rows, hr with
      | [], hr => cases hr
      | [_], hr => simp at hr
      | _ :: _ :: _, hr => cases hr; rfl
    rw [hrows] at h
    unfold mkSpect at h
    split at h
    · cases h
    · cases h
      rename_i hf
      exact ⟨by rw [hf], rfl⟩

theorem asSpect_real {x y : List ℝ} : ∀ z ∈ (asSpect x y).map Prod.snd, z.im = 0 := by
  intro z hz
  obtain ⟨p, hp, rfl⟩ := List.mem_map.mp hz
  unfold asSpect at hp
  have := (List.of_mem_zip hp).2
  obtain ⟨a, _, ha⟩ := List.mem_map.mp this
  rw [← ha]
  exact Complex.ofReal_im a

theorem getAmplif_parts {d : SfData} {g : GridFun} {s : SiteFac ℝ} {m : SfMethod} {af : FreqSpec} (h : getAmplif d g s m true = .ok af) :
    ∃ x y, sfResults d g s .fs m = .ok (x, y) ∧ x.length = y.length ∧ af.freq = x ∧ ¬ af.isComplex := by
  unfold getAmplif at h
  split at h
  · cases h
  · simp only [bind, Except.bind, if_true] at h
    split at h
    · cases h
    · rename_i r hr
      split at h
      · cases h
      · rename_i hl
        push Not at hl
        obtain ⟨h1, h2⟩ := newSpect_two h
        refine ⟨r.1, r.2, hr, hl, ?_, ?_⟩
        · rw [h1, asSpect, List.map_fst_zip]
          simp [hl]
        · rintro ⟨z, hz, hi⟩
          rw [h2] at hz
          exact hi (asSpect_real z hz)

theorem getPhase_parts {d : SfData} {g : GridFun} {s : SiteFac ℝ} {m : SfMethod} {ph : FreqSpec} (h : getPhaseShift d g s m = .ok ph) :
    ∃ x y, sfResults d g s .phase m = .ok (x, y) ∧ x.length = y.length ∧ ph.freq = x ∧ ¬ ph.isComplex := by
  unfold getPhaseShift at h
  split at h
  · cases h
  · simp only [bind, Except.bind] at h
    split at h
    · cases h
    · rename_i r hr
      split at h
      · cases h
      · rename_i hl
        push Not at hl
        obtain ⟨h1, h2⟩ := newSpect_two h
        refine ⟨r.1, r.2, hr, hl, ?_, ?_⟩
        · rw [h1, asSpect, List.map_fst_zip]
          simp [hl]
        · rintro ⟨z, hz, hi⟩
          rw [h2] at hz
          exact hi (asSpect_real z hz)

/-- C179: adjusting a motion for site effects never warns about complex factors; it warns about the frequencies exactly when the tabulated
frequencies of amplification and phase differ (beyond the tolerance). -/
theorem C179_site_factors (d : SfData) (g : GridFun) (a : SiteAdj) (af ph : FreqSpec) (ha : getAmplif d g a.fac a.method true = .ok af)
    (hp : getPhaseShift d g a.fac .eqHH = .ok ph) :
    (runSiteAdjText d g a = [] ↔ allCloseL (1 / 10 ^ 8) af.freq ph.freq) ∧ (af.freq = ph.freq → runSiteAdjText d g a = []) := by
  obtain ⟨_, _, _, _, _, h1⟩ := getAmplif_parts ha
  obtain ⟨_, _, _, _, _, h2⟩ := getPhase_parts hp
  have e : runSiteAdjText d g a = [] ↔ allCloseL (1 / 10 ^ 8) af.freq ph.freq := by
    unfold runSiteAdjText
    rw [ha, hp]
    simp only [siteAdjText, if_neg h1, if_neg h2, List.append_nil]
    constructor
    · intro h
      by_contra hc
      rw [if_pos hc] at h
      cases h
    · intro h
      rw [if_neg (not_not.mpr h)]
  exact ⟨e, fun h => e.mpr (h ▸ allCloseL_self _ (by norm_num) _)⟩

theorem fourier_freq {x : Rec ℝ} {dt : ℝ} (hd : dtOf x = .ok dt) (h0 : dt ≠ 0) {s : Spect} (h : fourierTransform false false x = .ok s) :
    s.map Prod.fst = (List.range ((x.length + 1) / 2)).map fun k : Nat => ((k : ℝ) + 1) / ((x.length : ℝ) * dt) := by
  unfold fourierTransform at h
  simp only [hd, bind, Except.bind, if_neg h0, Bool.false_eq_true, if_false] at h
  cases h
  rw [List.map_fst_zip]
  simp [fftL]
  omega

/-- C179: the transfer function of two records with the same time step gives no warning. -/
theorem C179_transfer_same (x y : Rec ℝ) (dt : ℝ) (hx : dtOf x = .ok dt) (hy : dtOf y = .ok dt) : transferText x y = [] := by
  unfold transferText
  rw [hx, hy]
  simp only
  split
  · rfl
  · split
    · rfl
    · rename_i hl
      push Not at hl
      split
      · rename_i si so h1 h2
        have h0 : dt ≠ 0 := by
          rintro rfl
          unfold fourierTransform at h1
          simp [hx, bind, Except.bind] at h1
        rw [fourier_freq hx h0 h1, fourier_freq hy h0 h2, hl, if_neg (not_not.mpr (allCloseL_self _ (by norm_num) _))]
      · rfl

/-- C179: records with close but different time steps are accepted, with a warning exactly when some frequencies `k / (N dt)` differ beyond
the tolerance. -/
theorem C179_transfer (x y : Rec ℝ) (d1 d2 : ℝ) (hx : dtOf x = .ok d1) (hy : dtOf y = .ok d2) (h1 : d1 ≠ 0) (h2 : d2 ≠ 0)
    (hl : x.length = y.length) (hc : allClose d1 d2) :
    transferText x y ≠ [] ↔ ∃ k : Nat, 1 ≤ k ∧ k ≤ (x.length + 1) / 2 ∧
      ¬ |(k : ℝ) / ((x.length : ℝ) * d1) - (k : ℝ) / ((x.length : ℝ) * d2)| ≤ 1 / 10 ^ 6 + 1 / 10 ^ 5 * |(k : ℝ) / ((x.length : ℝ) * d2)| := by
  have hfx : ∃ si, fourierTransform false false x = .ok si := by
    unfold fourierTransform
    simp only [hx, bind, Except.bind, if_neg h1]
    exact ⟨_, rfl⟩
  have hfy : ∃ so, fourierTransform false false y = .ok so := by
    unfold fourierTransform
    simp only [hy, bind, Except.bind, if_neg h2]
    exact ⟨_, rfl⟩
  obtain ⟨si, hsi⟩ := hfx
  obtain ⟨so, hso⟩ := hfy
  unfold transferText
  rw [hx, hy]
  simp only [not_not.mpr hc, if_false, ne_eq, hl, not_true_eq_false, hsi, hso]
  rw [fourier_freq hx h1 hsi, fourier_freq hy h2 hso, hl]
  have key : allCloseL (1 / 10 ^ 6) ((List.range ((y.length + 1) / 2)).map fun k : Nat => ((k : ℝ) + 1) / ((y.length : ℝ) * d1))
      ((List.range ((y.length + 1) / 2)).map fun k : Nat => ((k : ℝ) + 1) / ((y.length : ℝ) * d2)) ↔
      ∀ k : Nat, 1 ≤ k → k ≤ (y.length + 1) / 2 →
        |(k : ℝ) / ((y.length : ℝ) * d1) - (k : ℝ) / ((y.length : ℝ) * d2)| ≤ 1 / 10 ^ 6 + 1 / 10 ^ 5 * |(k : ℝ) / ((y.length : ℝ) * d2)| := by
    unfold allCloseL
    rw [List.zip_map', ]
    simp only [List.mem_map, List.mem_range, forall_exists_index, and_imp]
    constructor
    · intro h k hk1 hk2
      have := h _ (k - 1) (by omega) rfl
      rw [Nat.cast_sub hk1, Nat.cast_one, sub_add_cancel] at this
      exact this
    · rintro h p k hk rfl
      have := h (k + 1) (by omega) (by omega)
      push_cast at this
      exact this
  by_cases c : allCloseL (1 / 10 ^ 6) ((List.range ((y.length + 1) / 2)).map fun k : Nat => ((k : ℝ) + 1) / ((y.length : ℝ) * d1))
      ((List.range ((y.length + 1) / 2)).map fun k : Nat => ((k : ℝ) + 1) / ((y.length : ℝ) * d2))
  · rw [if_neg (not_not.mpr c)]
    simp only [not_true_eq_false, false_iff]
    rintro ⟨k, hk1, hk2, hk3⟩
    exact hk3 (key.mp c k hk1 hk2)
  · rw [if_pos c]
    simp only [reduceCtorEq, not_false_eq_true, true_iff]
    by_contra hcon
    push Not at hcon
    exact c (key.mpr fun k a b => hcon k a b)

/-- A pair of records whose time steps differ by 0.05 percent is accepted, with a warning. -/
example : transferText [(0, 0), (1 / 1000, 1), (2 / 1000, 0), (3 / 1000, 1)]
    [(0, 0), (2001 / 2000000, 1), (2001 / 1000000, 0), (6003 / 2000000, 1)] ≠ [] := by
  refine (C179_transfer _ _ (1 / 1000) (2001 / 2000000) ?_ ?_ (by norm_num) (by norm_num) ?_
    (by unfold allClose; rw [abs_le]; norm_num [abs_of_pos])).mpr ?_
  · simp [dtOf]
  · simp [dtOf]
  · rfl
  refine ⟨1, le_refl _, by norm_num, ?_⟩
  norm_num [abs_of_pos]

example : svmRangeText 150 = svmRangeText 1200 := (C179_svm_value_violated 150 1200
  ((C179_svm_range 150).mpr (by norm_num)) ((C179_svm_range 1200).mpr (by norm_num))).1

end Reals

example : (vsZConsole [((10 : ℚ), (200 : ℚ)), (5, 400)] 30 1 true).2 ≠ [] ∧ (vsZConsole [((10 : ℚ), (200 : ℚ)), (50, 400)] 30 1 true).2 = [] := by
  constructor
  · rw [C179_extension]; norm_num
  · rw [← not_not (a := (vsZConsole [((10 : ℚ), (200 : ℚ)), (50, 400)] 30 1 true).2 = []), ← ne_eq, C179_extension]; norm_num

/-- One density in kg/m³ hides another in g/cm³. -/
example : (vertStressConsole [(1 : ℚ), 1] [2, 1999]).2 = [] := by
  rw [← not_not (a := (vertStressConsole [(1 : ℚ), 1] [2, 1999]).2 = []), ← ne_eq, C179_unit _ _ (by simp)]; norm_num

example : (nonlinConsole (K := ℚ) ⟨.ok (), [], .ok (), .error .fileNotFound, .ok ()⟩ (.ok ()) [] true false false true false "d") =
    (.error .fileNotFound, [.txt "Nonlinear simulation running...\n", .txt "Simulation finished. Now post processing.\n", .txt "Done.\n"]) := by
  decide +kernel

example : linearConsole (K := ℚ) ⟨.ok (), [], .ok (), .ok (), .ok ()⟩ true false true "d" =
    (.ok (), [.txt "Linear site response simulation running... ", .txt "done.\n"]) := by decide +kernel

end Verif
