import Verif.Props.EveryLayerTf
import Verif.Model.MotionMethods

/-!
C34: re-discretisation can change the transfer functions.
-/

set_option linter.unusedSectionVars false
set_option linter.unusedVariables false

namespace Verif

open Complex

/-- The witness: 3.00001 m with Vs = 225 m/s become four sub-layers of 1 m. -/
theorem strat1_four (xi rho mat : ℝ) :
    strat1 ⟨300001 / 100000, 225, xi, rho, mat⟩ = List.replicate 4 ⟨1, 225, xi, rho, mat⟩ := by
  have hc : ⌈(300001 / 100000 : ℝ)⌉ = 4 := by
    rw [Int.ceil_eq_iff]; norm_num
  have hfl : ⌊(300001 / 100000 : ℝ)⌋ = 3 := by
    rw [Int.floor_eq_iff]; norm_num
  have hr : roundHalfEven (300001 / 100000 : ℝ) = 3 := by
    unfold roundHalfEven
    simp only [hfl]
    norm_num
  have hcl : allclose ((roundHalfEven (300001 / 100000 : ℝ) : ℤ) : ℝ) (300001 / 100000 : ℝ) = true := by
    rw [hr]
    unfold allclose
    simp only [decide_eq_true_eq]
    rw [abs_le]
    norm_num [abs_of_pos]
  unfold strat1 stratifyLayer toLRow
  simp only
  rw [show (225 : ℝ) / 225 = 1 by norm_num, if_neg (by norm_num), div_one, hcl, hc]
  simp [ofLRow]

/-- C34 fails for the re-discretisation of the code.  Soil of 3.00001 m with Vs = 225 m/s over a half space of the same
material is replaced by four layers of 1 m, and with any damping the rock-outcrop transfer function of the re-discretised
profile is smaller than the one of the profile at every frequency. -/
theorem C34_stratify_violated (xi rho : ℝ) (hxi : 0 < xi) (hrho : 0 < rho) (w : ℝ) (hw : 0 < w) :
    let rows : List (Row ℝ) := [⟨300001 / 100000, 225, xi, rho, 1⟩, ⟨0, 225, xi, rho, 0⟩]
    ‖tfRo w ((stratify5 rows).map rowLay)‖ < ‖tfRo w (rows.map rowLay)‖ ∧
      tfRo w ((stratify5 rows).map rowLay) ≠ tfRo w (rows.map rowLay) := by
  intro rows
  set l : Lay := rowLay ⟨300001 / 100000, 225, xi, rho, 1⟩ with hl
  have hstr : stratify5 rows = List.replicate 4 ⟨1, 225, xi, rho, 1⟩ ++ [⟨0, 225, xi, rho, 0⟩] := by
    have := stratify5_half [⟨300001 / 100000, 225, xi, rho, 1⟩] ⟨0, 225, xi, rho, 0⟩ rfl
    simpa [strat1_four] using this
  have hnew : tfRo w ((stratify5 rows).map rowLay) = exp (-(I * kStar w l * ((4 : ℝ) : ℂ))) := by
    rw [hstr, List.map_append]
    have := tfRo_uniform w l (rowLay ⟨0, 225, xi, rho, 0⟩) ((List.replicate 4 (⟨1, 225, xi, rho, 1⟩ : Row ℝ)).map rowLay)
      (by norm_num [hl, rowLay]) hrho (by
        intro s hs
        rw [List.map_replicate] at hs
        rw [List.eq_of_mem_replicate hs]
        exact ⟨rfl, rfl, rfl⟩) (by simp) ⟨rfl, rfl, rfl⟩
    rw [List.map_singleton, this]
    have hs : ((List.map rowLay (List.replicate 4 (⟨1, 225, xi, rho, 1⟩ : Row ℝ))).map Lay.h).sum = 4 := by
      simp [rowLay]; norm_num
    rw [hs]
  have hold : tfRo w (rows.map rowLay) = exp (-(I * kStar w l * ((300001 / 100000 : ℝ) : ℂ))) := by
    have := tfRo_uniform w l (rowLay ⟨0, 225, xi, rho, 0⟩) [rowLay ⟨300001 / 100000, 225, xi, rho, 1⟩]
      (by norm_num [hl, rowLay]) hrho (by
        intro s hs
        rw [List.mem_singleton] at hs
        rw [hs]
        exact ⟨rfl, rfl, rfl⟩) (by simp) ⟨rfl, rfl, rfl⟩
    show tfRo w ([rowLay ⟨300001 / 100000, 225, xi, rho, 1⟩] ++ [rowLay ⟨0, 225, xi, rho, 0⟩]) = _
    rw [this]
    simp [rowLay]
  have hneg : (kStar w l).im < 0 := kStar_im_neg hw ⟨by norm_num [hl, rowLay], by norm_num [hl, rowLay], hrho, hxi⟩
  have hlt : ‖tfRo w ((stratify5 rows).map rowLay)‖ < ‖tfRo w (rows.map rowLay)‖ := by
    have hn : ∀ T : ℝ, ‖exp (-(I * kStar w l * (T : ℂ)))‖ = Real.exp ((kStar w l).im * T) := by
      intro T
      rw [Complex.norm_exp]
      congr 1
      simp
    rw [hnew, hold, hn, hn, Real.exp_lt_exp]
    nlinarith
  refine ⟨hlt, fun he => ?_⟩
  rw [he] at hlt
  exact lt_irrefl _ hlt

end Verif
