import Verif.Props.Calib

/-!
C227: estimated densities of the soil layers (used if a profile has none): the published formula, monotone in velocity
and depth.
-/

set_option linter.unusedSectionVars false
set_option linter.unusedVariables false

namespace Verif
namespace Spec

/-- Density (kg/m³) of saturated soil with shear-wave velocity `v` (m/s) at depth `z` (m), Mayne et al. (1999). -/
noncomputable def mayne (z v : ℝ) : ℝ := 1000 + 1000 * v / (0.614 * v + 58.7 * Real.logb 10 z + 64.2765)

end Spec
open Spec

theorem rhoOne_mayne (z v r : ℝ) (hz : z ≠ 0) (h : rhoOne z v = .ok r) : r = max 1650 (mayne z v) := by
  unfold rhoOne at h
  rw [if_neg hz] at h
  by_cases c : v = 0 ∨ rhoDen z v = 0
  · rw [if_pos c] at h; cases h
  · rw [if_neg c] at h
    push Not at c
    simp only [Except.ok.injEq] at h
    rw [← h, show (1.0 : ℝ) = 1 by norm_num, max_mul_of_nonneg _ _ (by norm_num)]
    have e : 0.614 * v + 58.7 * Real.logb 10 z + 64.2765 = v * rhoDen z v := by
      have := c.1
      unfold rhoDen
      field_simp
      ring
    unfold mayne
    rw [e]
    have h1 := c.1
    have h2 := c.2
    congr 1
    · norm_num
    · rw [mul_comm (1000 : ℝ) v, mul_div_mul_left _ _ h1]
      ring

/-- C227. The density of a layer is the published one at the middle of the layer, or 1650 kg/m³ if that is more. -/
theorem C227_formula (h vs rho : List ℝ) (hok : calcRho h vs = .ok rho) (hh : ∀ x ∈ h, 0 < x) (i : Nat) (r : ℝ)
    (hr : rho[i]? = some r) :
    ∃ t v, h[i]? = some t ∧ vs[i]? = some v ∧ r = max 1650 (mayne ((h.take i).sum + t / 2) v) := by
  have hne : h ≠ [] := by
    rintro rfl
    simp [calcRho, thk2dep] at hok
  obtain ⟨dep, hd, hdl, hdi⟩ := C01_thk2dep_midpoints h hne
  have hlast : h.getLast? ≠ some 0 := fun e => lt_irrefl _ (hh 0 (List.mem_of_getLast? e))
  rw [if_neg hlast] at hdl
  unfold calcRho at hok
  rw [hd] at hok
  simp only at hok
  by_cases c : dep.length ≠ vs.length
  · rw [if_pos c] at hok; cases hok
  · rw [if_neg c] at hok
    push Not at c
    have key := mapM_all_ok (fun p : ℝ × ℝ => rhoOne p.1 p.2) (fun p r => p.1 ≠ 0 → r = max 1650 (mayne p.1 p.2))
      (fun a b hb hz => rhoOne_mayne _ _ _ hz hb) _ _ hok
    have h2 := List.forall₂_iff_get.1 key
    obtain ⟨hi, rfl⟩ := List.getElem?_eq_some_iff.1 hr
    have hi' : i < (dep.zip vs).length := by rw [h2.1]; exact hi
    have hid : i < dep.length := by simp at hi'; omega
    have hiv : i < vs.length := by omega
    have hih : i < h.length := by omega
    have e1 := hdi i hid
    rw [List.getElem?_eq_getElem hid, Option.some.injEq] at e1
    have e2 : dep[i] = (h.take i).sum + h[i] / 2 := by
      rw [e1]
      unfold Spec.topDepth
      rw [List.sum_take_succ _ _ hih]
      ring
    have hpos : 0 < dep[i] := by
      rw [e2]
      have a1 : 0 ≤ (h.take i).sum := List.sum_nonneg fun y hy => (hh y (List.mem_of_mem_take hy)).le
      have a2 := hh h[i] (List.getElem_mem hih)
      linarith
    refine ⟨h[i], vs[i], List.getElem?_eq_getElem hih, List.getElem?_eq_getElem hiv, ?_⟩
    have := h2.2 i hi' hi
    simp only [List.get_eq_getElem, List.getElem_zip] at this
    rw [← e2]
    exact this hpos.ne'

/-- From 10 cm below the surface the denominator of the formula is positive. -/
theorem mayne_den {z v : ℝ} (hz : 0.1 ≤ z) (hv : 0 < v) : 0 < 58.7 * Real.logb 10 z + 64.2765 := by
  have hl : -1 ≤ Real.logb 10 z := by
    rw [Real.le_logb_iff_rpow_le (by norm_num) (by linarith)]
    rw [Real.rpow_neg_one]; norm_num at hz ⊢; linarith
  norm_num
  linarith

/-- C227. At a given depth stiffer soil is estimated denser. -/
theorem C227_velocity {z v v' : ℝ} (hz : 0.1 ≤ z) (hv : 0 < v) (h : v < v') : mayne z v < mayne z v' := by
  have hd := mayne_den hz hv
  unfold mayne
  have : 1000 * v / (0.614 * v + 58.7 * Real.logb 10 z + 64.2765) < 1000 * v' / (0.614 * v' + 58.7 * Real.logb 10 z + 64.2765) := by
    rw [div_lt_div_iff₀ (by nlinarith) (by nlinarith)]
    nlinarith [mul_lt_mul_of_pos_right h hd]
  linarith

/-- C227. Of two soils with the same velocity the deeper one is estimated lighter. -/
theorem C227_depth {z z' v : ℝ} (hz : 0.1 ≤ z) (hv : 0 < v) (h : z < z') : mayne z' v < mayne z v := by
  have hd := mayne_den hz hv
  have hl : Real.logb 10 z < Real.logb 10 z' := Real.logb_lt_logb (by norm_num) (by linarith) h
  unfold mayne
  have : 1000 * v / (0.614 * v + 58.7 * Real.logb 10 z' + 64.2765) < 1000 * v / (0.614 * v + 58.7 * Real.logb 10 z + 64.2765) := by
    apply div_lt_div_of_pos_left (by positivity)
    · nlinarith
    · nlinarith
  linarith

/-- C227. The lower bound of 1650 kg/m³ is in force exactly up to a velocity that grows with the logarithm of depth (for
a soil at 1 m depth: 69.5 m/s). -/
theorem C227_floor {z v : ℝ} (hz : 0.1 ≤ z) (hv : 0 < v) :
    max 1650 (mayne z v) = 1650 ↔ 0.6009 * v ≤ 0.65 * (58.7 * Real.logb 10 z + 64.2765) := by
  have hd := mayne_den hz hv
  have hden : 0 < 0.614 * v + 58.7 * Real.logb 10 z + 64.2765 := by nlinarith
  rw [max_eq_left_iff]
  unfold mayne
  rw [← le_sub_iff_add_le', div_le_iff₀ hden]
  constructor <;> intro h <;> norm_num at h ⊢ <;> linarith

example : mayne 1 1000 = 1000 + 1000000 / 678.2765 := by norm_num [mayne]

example : max 1650 (mayne 1 69) = 1650 ∧ 1650 < mayne 1 70 := by norm_num [mayne]

end Verif
