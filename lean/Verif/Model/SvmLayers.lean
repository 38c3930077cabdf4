import Verif.Model.Svm

/-!
Random layering of `SVM.get_randomized_profile` (class_svm.py L610-672) with the random numbers made explicit: normal draws for the
layering of Shi & Asimaki (2018), Poisson draws for that of Toro (1995).
-/

namespace Verif

/-- class_svm.py L793-810 `_thk_depth_func`; a negative number to the power 0.62 is nan (`none`). -/
noncomputable def thkDepth (thk ztop : ℝ) : Option ℝ :=
  if ztop + thk / 2 < 0 then none else some (1125 / 1000 * (ztop + thk / 2) ^ (620 / 1000 : ℝ) - thk)

/-- class_svm.py L632-638, L641-647: `while ier != 1: mean_thk, info, ier, msg = fsolve(func, x0, full_output=True)`.  `solve` is
`fsolve`, a function of its arguments, returning the solution and the exit flag; `fuel` bounds the number of passes (`none`: not
finished). -/
noncomputable def retrySolve (solve : (ℝ → Option ℝ) → ℝ → ℝ × ℤ) (f : ℝ → Option ℝ) (x0 : ℝ) : Nat → Option ℝ
  | 0 => none
  | fuel + 1 => if (solve f x0).2 = 1 then some (solve f x0).1 else retrySolve solve f x0 fuel

/-- class_svm.py L630-653: the mean thickness of a layer with top at `z`. -/
noncomputable def meanThk (solve : (ℝ → Option ℝ) → ℝ → ℝ × ℤ) (fuel : Nat) (z : ℝ) : Option ℝ :=
  retrySolve solve (fun t => thkDepth t z) (z + 4) fuel

/-- class_svm.py L655-659: `np.random.normal(mean_thk, std_thk)` for a standard normal draw `g`. -/
noncomputable def thkRand (m z g : ℝ) : ℝ := m + 951 / 1000 * (z + m / 2) ^ (628 / 1000 : ℝ) * g

/-- class_svm.py L615-672, `use_Toros_layering=False`: the layering loop for standard normal draws.  `none`: not finished. -/
noncomputable def shiLoop (solve : (ℝ → Option ℝ) → ℝ → ℝ × ℤ) (fuel : Nat) (z1 : ℝ) : Bool → ℝ → List ℝ → Option (List ℝ)
  | started, z, gs =>
    if started ∧ ¬ z < z1 then some []
    else match gs with
      | [] => none
      | g :: gs => match meanThk solve fuel z with
        | none => none
        | some m => (shiLoop solve fuel z1 true (z + max (thkRand m z g) 2) gs).map (max (thkRand m z g) 2 :: ·)

/-- class_svm.py L617-624: the parameter of the Poisson distribution of Toro's layering. -/
noncomputable def toroLambda (z : ℝ) : ℝ := 1 / (198 / 100 * (z + 1086 / 100) ^ (-(89 / 100) : ℝ))

/-- class_svm.py L615-628, L662-672, `use_Toros_layering=True`: the layering loop.  `draw lam w` is the Poisson number with
parameter `lam` for the random number `w`; draws that are 0 are repeated (L625-627).  `fuel` bounds the number of layers; `none`: not
finished. -/
noncomputable def toroLoop (draw : ℝ → ℝ → Nat) (z1 : ℝ) : Nat → Bool → ℝ → List ℝ → Option (List ℝ)
  | 0, _, _, _ => none
  | fuel + 1, started, z, ws =>
    if started ∧ ¬ z < z1 then some []
    else match ws.dropWhile (fun w => draw (toroLambda z) w = 0) with
      | [] => none
      | w :: ws => (toroLoop draw z1 fuel true (z + max (draw (toroLambda z) w : ℝ) 2) ws).map (max (draw (toroLambda z) w : ℝ) 2 :: ·)

end Verif
