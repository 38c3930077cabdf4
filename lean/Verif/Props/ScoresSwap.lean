import Verif.Props.Scores

/-!
C202: what becomes of a score if measurement and simulation are exchanged.
-/

set_option linter.unusedSectionVars false
set_option linter.unusedVariables false

namespace Verif

open Spec (seen)

theorem scoreNum_rel (m s : ℝ) (hm : 1 / 10 ^ 12 ≤ m) (hs : 1 / 2 ^ 52 ≤ s) : scoreNum m s = erf (s / m - 1) * 10 := by
  have hm' : 0 < m := lt_of_lt_of_le (by positivity) hm
  have h1 : feps ≤ m := by unfold feps; refine le_trans ?_ hm; norm_num
  have h2 : feps ≤ s := by unfold feps; exact hs
  unfold scoreNum relDiff
  rw [max_eq_left h1, max_eq_left h2, if_neg (by unfold eps2; push Not; exact hm)]
  congr 2
  field_simp

/-- C202. Exchanging the two values reverses the sign of the score; a score of 0 stays 0.
Missing for the full property: the same magnitude, see `C202_magnitude_violated`. -/
theorem C202_sign_partial (m s : ℝ) : (0 < scoreNum m s ↔ scoreNum s m < 0) ∧ (scoreNum m s = 0 ↔ scoreNum s m = 0) := by
  obtain ⟨a1, a2, a3⟩ := C55_sign m s
  obtain ⟨b1, b2, b3⟩ := C55_sign s m
  refine ⟨by rw [a2, b3], by rw [a1, b1]; exact eq_comm⟩

/-- C202 fails for all pairs of different values: the score of a simulation that is too large is larger in magnitude than the score of the exchanged
pair, in which the simulation is too small by the same factor. -/
theorem C202_magnitude_violated (m s : ℝ) (hm : 1 / 10 ^ 12 ≤ m) (h : m < s) : -scoreNum s m < scoreNum m s := by
  have hm0 : 0 < m := lt_of_lt_of_le (by positivity) hm
  have hs0 : 0 < s := hm0.trans h
  have b1 : (1 : ℝ) / 2 ^ 52 ≤ 1 / 10 ^ 12 := by norm_num
  rw [scoreNum_rel m s hm (by linarith), scoreNum_rel s m (by linarith) (by linarith)]
  have e : -(erf (m / s - 1) * 10) = erf (1 - m / s) * 10 := by
    rw [show 1 - m / s = -(m / s - 1) by ring, erf_neg]; ring
  rw [e]
  apply mul_lt_mul_of_pos_right _ (by norm_num)
  apply erf_strictMono
  have : s / m - 1 - (1 - m / s) = (s - m) ^ 2 / (m * s) := by field_simp
  have h2 : 0 < (s - m) ^ 2 / (m * s) := div_pos (pow_pos (by linarith) 2) (mul_pos hm0 hs0)
  linarith

/-- C202, exactly: the exchanged pair has the opposite score if and only if the two values are the same. -/
theorem C202_exact (m s : ℝ) (hm : 1 / 10 ^ 12 ≤ m) (hs : 1 / 10 ^ 12 ≤ s) : scoreNum s m = -scoreNum m s ↔ m = s := by
  constructor
  · intro h
    rcases lt_trichotomy m s with c | c | c
    · have := C202_magnitude_violated m s hm c; linarith
    · exact c
    · have := C202_magnitude_violated s m hs c; linarith
  · rintro rfl
    have := ((C55_sign m m).1).2 rfl
    rw [this]; simp

/-- C202. However small the simulation, its score is above -10 erf 1; this bound is not reached and cannot be improved. -/
theorem C202_lowest (m : ℝ) (hm : 1 / 10 ^ 12 ≤ m) : (∀ s, -(10 * erf 1) < scoreNum m s) ∧ erf 1 < 1 ∧
    ∀ b, -(10 * erf 1) < b → ∃ c : ℝ, 1 < c ∧ ∀ m, c * (1 / 2 ^ 52) ≤ m → 1 / 10 ^ 12 ≤ m → scoreNum m (m / c) < b := by
  have hm0 : 0 < m := lt_of_lt_of_le (by positivity) hm
  refine ⟨fun s => ?_, erf_lt_one 1, fun b hb => ?_⟩
  · have e : scoreNum m s = scoreNum m (seen s) := by
      unfold scoreNum
      have : max (seen s) feps = max s feps := by
        unfold seen
        have : (feps : ℝ) = 1 / 2 ^ 52 := rfl
        rw [this, max_assoc, max_self]
      rw [this]
    rw [e, scoreNum_rel m (seen s) hm (le_max_right _ _)]
    have h1 : 0 < seen s / m := div_pos (seen_pos s) hm0
    have h2 : erf (-1) < erf (seen s / m - 1) := erf_strictMono (by linarith)
    rw [erf_neg] at h2
    linarith
  · have cont : Continuous erf := by
      unfold erf
      exact continuous_const.mul (intervalIntegral.continuous_primitive (fun a b => erf_integrable a b) 0)
    have t : Filter.Tendsto (fun c : ℝ => erf (c⁻¹ - 1) * 10) Filter.atTop (nhds (erf (0 - 1) * 10)) :=
      ((cont.tendsto _).comp ((tendsto_inv_atTop_zero).sub_const 1)).mul_const 10
    have lim : erf (0 - 1) * 10 < b := by
      rw [zero_sub, erf_neg]; linarith
    obtain ⟨c, hc1, hc⟩ := ((t.eventually (gt_mem_nhds lim)).and (Filter.eventually_gt_atTop 1)).exists
    refine ⟨c, hc, fun m' h1 h2 => ?_⟩
    have hc0 : 0 < c := by linarith
    have hm' : 0 < m' := lt_of_lt_of_le (by positivity) h2
    rw [scoreNum_rel m' (m' / c) h2 (by rw [le_div_iff₀ hc0, mul_comm]; exact h1)]
    have : m' / c / m' = c⁻¹ := by field_simp
    rw [this]; exact hc1

/-- Twice the measurement and half the measurement. -/
example : scoreNum 1 2 = erf 1 * 10 ∧ scoreNum 2 1 = erf (-1 / 2) * 10 ∧ -scoreNum 2 1 < scoreNum 1 2 := by
  refine ⟨?_, ?_, C202_magnitude_violated 1 2 (by norm_num) (by norm_num)⟩
  · rw [scoreNum_rel 1 2 (by norm_num) (by norm_num)]; norm_num
  · rw [scoreNum_rel 2 1 (by norm_num) (by norm_num)]; norm_num

end Verif
