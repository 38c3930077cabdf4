import Verif.Model.Svm

/-!
Seeds of `SVM.get_randomized_profile` (class_svm.py L467-607, L753): how the seed argument or the clock selects the random numbers.
The generators themselves are not modelled: `RandomNumbers` gives, for each state set by `np.random.seed`, the numbers drawn.
-/

namespace Verif

/-- The random numbers drawn after seeding.  `layer toro n`: the thicknesses drawn after `np.random.seed(n)` (L607) with either
kind of layering (L609-); `veloc m`: the standard normal numbers drawn after `np.random.seed([m])` (L753). -/
structure RandomNumbers where
  layer : Bool → Nat → List ℝ
  veloc : Nat → List ℝ

/-- `np.random.seed`: an integer outside of 0 … 2³² - 1 raises ValueError. -/
def npSeed (k : Int) : Except PyErr Nat := if k < 0 ∨ 2 ^ 32 ≤ k then .error .valueError else .ok k.toNat

/-- The argument `seed`: `None`, a number, or something else. -/
inductive SeedArg | none | num (x : ℝ) | other

/-- class_svm.py L602-606: the integer seed; without a seed, the seconds `sec` (0 … 61) of the local time times 1e7. -/
noncomputable def seedInt (seed : Option ℝ) (sec : Nat) : Int :=
  match seed with
  | Option.none => (sec : Int) * 10 ^ 7
  | some x => pyInt x

/-- class_svm.py L572-790 `_helper_get_rand_profile`.  (The second seeding, L753, comes after the layering, which
cannot fail.) -/
noncomputable def helperRand (rng : RandomNumbers) (s : Svm) (toroLay toroStd : Bool) (seed : Option ℝ) (sec : Nat) :
    Except PyErr (List (ℝ × ℝ)) := do
  let n ← npSeed (seedInt seed sec)
  let m ← npSeed (2 * seedInt seed sec)
  randProfile s toroStd (rng.layer toroLay n) (rng.veloc m)

/-- class_svm.py L467-570 `get_randomized_profile`; `clock j` are the seconds of the local time at the `j`-th attempt, `fuel` bounds
the number of attempts (`none`: not finished). -/
noncomputable def getRandomized (rng : RandomNumbers) (s : Svm) (toroLay toroStd : Bool) (seed : SeedArg) (clock : Nat → Nat)
    (compliance : Bool) (fuel : Nat) : Except PyErr (Option (VsObj ℝ × Store ℝ)) :=
  match seed with
  | .other => .error .typeError
  | .none => randomized s (fun j => helperRand rng s toroLay toroStd Option.none (clock j)) compliance fuel 0
  | .num x => randomized s (fun j => helperRand rng s toroLay toroStd (some (x + j)) (clock j)) compliance fuel 0

end Verif
