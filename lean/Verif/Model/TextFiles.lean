import Verif.Model.NumFormat
import Verif.Model.VsProfile
import Verif.Model.Motion

/-!
The numbers in the text files written with `np.savetxt`.  A file is the table of the decimal numbers in it; a reader gets these
numbers (rounded to doubles, see `Verif.Model.Float`, which is left out here unless said).
-/

namespace Verif

variable {K : Type} [Field K] [LinearOrder K] [FloorRing K]

/-- `np.savetxt(..., fmt='%.pg')` of a table: helper_hh_calibration.py L157-162, L301-306 and helper_site_response.py L2553
(`p = 6`), class_parameters.py L525-532 `save_txt` (`p = 5`), class_simulation_results.py L444-480 (`p = 6`).  The default format
`'%.18e'` (class_simulation.py L654, L674-684) has 19 digits (`p = 19`). -/
def writeTable (p : Nat) (t : List (List K)) : List (List K) := t.map fun r => r.map (fmtG p)

/-- The file of an accelerogram with `p` digits for the times and `q` for the motion (class_ground_motion.py L1141, L1151). -/
def writeRec (p q : Nat) (x : Rec K) : Rec K := x.map fun r => (fmtG p r.1, fmtG q r.2)

/-- class_ground_motion.py L1117-1151 `save_accel` with the default formats `'%.5g'`. -/
def saveAccelTxt (σ : CStore K) (m : Motion K) (unit : MUnit) : Rec K := writeRec 5 5 (saveAccel σ m unit).1

/-- class_Vs_profile.py L680-686: one row with the formats `'%.2f', '%.2f', '%.4g', '%.5g', '%d'`. -/
def writeRow (r : Row K) : Row K := ⟨fmtF 2 r.thk, fmtF 2 r.vs, fmtG 4 r.xi, fmtG 5 r.rho, fmtD r.mat⟩

/-- class_simulation_results.py L448-450: one row of a profile with `'%.pg'`. -/
def writeRowG (p : Nat) (r : Row K) : Row K := ⟨fmtG p r.thk, fmtG p r.vs, fmtG p r.xi, fmtG p r.rho, fmtG p r.mat⟩

end Verif
