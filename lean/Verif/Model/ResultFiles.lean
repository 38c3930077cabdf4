import Verif.Model.FileSys

/-!
Model of what `Simulation_Results.plot` and `to_txt` write, and of the directory and name that the `run`
methods hand to `Simulation_Results`.  The contents of the files are not modelled here: `mk` makes the
content of a result file from its kind.
-/

namespace Verif

/-- What matters of a `Simulation_Results` object for its files. -/
structure ResObj where
  outDir : Path
  name : String
  hasMax : Bool
  hasA : Bool
  hasV : Bool
  hasD : Bool
  hasGamma : Bool
  hasTau : Bool
  hasTf : Bool
  hasTfs : Bool
  deriving DecidableEq

variable {C : Type}

/-- `if not os.path.exists(d): os.makedirs(d)`. -/
def ensureDir (d : Path) : Op C Unit := do
  let e ← opExists d
  if e then pure () else opMakedirs d

/-- class_simulation_results.py L368-385: the saving part of `plot`. -/
def savePlots (mk : String → C) (o : ResObj) (saveFig : Bool) (outDir : Option Path) : Op C Unit := do
  if saveFig then
    let od := outDir.getD o.outDir
    ensureDir od
    opWrite (od ++ [o.name ++ "_ground_motions.png"]) (mk "_ground_motions.png")
    opWhen o.hasMax (opWrite (o.outDir ++ [o.name ++ "_max_profiles.png"]) (mk "_max_profiles.png"))
  else pure ()

/-- class_simulation_results.py L446-481: the file name endings, in the order of writing. -/
def txtEndings (o : ResObj) (full : Bool) : List String :=
  ["_accel_on_surface.txt", "_re-discretized_profile.txt"] ++
  (if o.hasMax then ["_max_a_v_d.txt", "_max_gamma_tau.txt"] else []) ++
  (if full then
    (if o.hasA then ["_time_history_accel.txt"] else []) ++ (if o.hasV then ["_time_history_veloc.txt"] else []) ++
    (if o.hasD then ["_time_history_displ.txt"] else []) ++ (if o.hasGamma then ["_time_history_strain.txt"] else []) ++
    (if o.hasTau then ["_time_history_stress.txt"] else [])
  else []) ++
  (if o.hasTf then ["_nonlinear_TF_raw.txt"] else []) ++ (if o.hasTfs then ["_nonlinear_TF_smoothed.txt"] else [])

/-- class_simulation_results.py L389-484 `to_txt`. -/
def toTxt (mk : String → C) (o : ResObj) (full : Bool) (outDir : Option Path) : Op C Unit := do
  let od := outDir.getD o.outDir
  ensureDir od
  opForEach (fun e => opWrite (od ++ [o.name ++ e]) (mk e)) (txtEndings o full)

/-- class_simulation_results.py L197-202: the defaults, made from the current time. -/
def resDefaults (cwd : Path) (time : String) (name : Option String) (outDir : Option Path) : String × Path :=
  (name.getD ("accel_" ++ time), outDir.getD (cwd ++ ["sim_" ++ time]))

/-- class_simulation.py L228-286: `Linear_Simulation.run`, the object as far as files are concerned and the
files. -/
def linearFiles (mk : String → C) (time : String) (everyLayer showFig saveFig saveTxt full : Bool)
    (name : Option String) (outDir : Option Path) : Op C ResObj := do
  let cwd ← opGetcwd
  let o : ResObj :=
    if everyLayer then
      let d := resDefaults cwd time name outDir
      ⟨d.2, d.1, true, true, true, true, true, true, true, false⟩
    else
      let d := resDefaults cwd time none none
      ⟨d.2, d.1, false, false, false, false, false, false, true, false⟩
  opWhen (everyLayer && showFig) (savePlots mk o saveFig none)
  opWhen saveTxt (toTxt mk o full none)
  return o

/-- class_simulation.py L407-434: `Equiv_Linear_Simulation.run`. -/
def equivFiles (mk : String → C) (time : String) (showFig saveFig saveTxt full : Bool)
    (name : Option String) (outDir : Option Path) : Op C ResObj := do
  let cwd ← opGetcwd
  let d := resDefaults cwd time name outDir
  let o : ResObj := ⟨d.2, d.1, true, true, true, true, true, true, true, false⟩
  opWhen showFig (savePlots mk o saveFig none)
  opWhen saveTxt (toTxt mk o full none)
  return o

end Verif
