import Verif.Basic
import Verif.Model.ResultFiles

/-!
The time stamps in default names (helper_generic.py L25-44).  `datetime.now()` is a parameter.
-/

namespace Verif

/-- `datetime.datetime`, local time. -/
structure Clock where
  year : Nat
  month : Nat
  day : Nat
  hour : Nat
  minute : Nat
  second : Nat
  micro : Nat
  deriving DecidableEq

/-- Ranges of the fields.  Years have four digits; the number of days of the month does not matter here. -/
def Clock.Valid (t : Clock) : Prop :=
  1000 ≤ t.year ∧ t.year ≤ 9999 ∧ 1 ≤ t.month ∧ t.month ≤ 12 ∧ 1 ≤ t.day ∧ t.day ≤ 31 ∧ t.hour ≤ 23 ∧ t.minute ≤ 59 ∧ t.second ≤ 59 ∧
  t.micro < 1000000

/-- `%m`, `%d`, `%H`, `%M`, `%S` of `strftime`: two digits. -/
def pad2 (n : Nat) : List Char := [Nat.digitChar (n / 10), Nat.digitChar (n % 10)]

/-- `%Y` for years with four digits. -/
def pad4 (n : Nat) : List Char := pad2 (n / 100) ++ pad2 (n % 100)

/-- helper_generic.py L25-44 `get_current_time`. -/
def timeStamp (forFile : Bool) (t : Clock) : List Char :=
  let sep := if forFile then '-' else ':'
  pad4 t.year ++ '-' :: (pad2 t.month ++ '-' :: (pad2 t.day ++ (if forFile then '_' else ' ') ::
    (pad2 t.hour ++ sep :: (pad2 t.minute ++ sep :: pad2 t.second))))

/-- class_batch_simulation.py L148-150: the directory of a batch, if none is given. -/
def batchDirDefault (t : Clock) : List Char := "./batch_sim_".toList ++ timeStamp true t

/-- helper_hh_calibration.py L151-158 and L295-302: the name of the file of parameters, if no name of the profile is given. -/
def hhgFileDefault (t : Clock) : List Char := "HH_G_".toList ++ timeStamp true t ++ ".txt".toList

/-- class_simulation_results.py L197-202 in `Linear_Simulation.run` (class_simulation.py L228-286), the result files of a run at time `t`. -/
def linearFilesAt {C : Type} (mk : String → C) (t : Clock) (everyLayer showFig saveFig saveTxt full : Bool) (name : Option String)
    (outDir : Option Path) : Op C ResObj :=
  linearFiles mk (String.ofList (timeStamp true t)) everyLayer showFig saveFig saveTxt full name outDir

end Verif
