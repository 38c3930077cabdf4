import Verif.Props.DarendeliFormula
import Verif.Props.DampGrowth
import Mathlib.Analysis.Complex.ExponentialBounds

/-!
C226, the two ways to the damping of the hyperbolic model: the closed form in `produce_Darendeli_curves` and the
sampled stress-strain curve in `MKZ_Param.get_damping`.
-/

set_option linter.unusedSectionVars false
set_option linter.unusedVariables false

namespace Verif
open Spec

/-- C226. The hysteretic damping in the Darendeli curves is that of the MKZ model with exponent 1, for any modulus. -/
theorem C226_mkz (r g G : ℝ) (hr : 0 < r) (hg : 0 < g) (hG : 0 < G) :
    darMasing1 r g = 100 * masing (tauMKZ r 1 1 G) g := by
  rw [C226_masing r g hr hg]
  have e : ∀ x, 0 ≤ x → tauMKZ r 1 1 G x = G * hyperbola r x := by
    intro x hx
    unfold tauMKZ hyperbola
    rw [abs_of_nonneg hx, one_mul, Real.rpow_one, mul_div_assoc]
  have ei : (∫ x in (0 : ℝ)..g, tauMKZ r 1 1 G x) = G * ∫ x in (0 : ℝ)..g, hyperbola r x := by
    rw [← intervalIntegral.integral_const_mul]
    apply intervalIntegral.integral_congr
    intro x hx
    rw [Set.uIcc_of_le hg.le] at hx
    exact e x hx.1
  have hp : 0 < hyperbola r g := by unfold hyperbola; positivity
  have hpi := Real.pi_pos
  unfold masing loopDamping
  rw [ei, e g hg.le]
  field_simp
  ring

theorem darMasing1_scale (r g c : ℝ) (hr : 0 < r) (hg : 0 < g) (hc : 0 < c) : darMasing1 (r / c) (g / c) = darMasing1 r g := by
  unfold darMasing1
  have h1 : g + r ≠ 0 := by positivity
  rw [show (g / c + r / c) / (r / c) = (g + r) / r by field_simp]
  congr 2
  rw [show g / c + r / c = (g + r) / c by ring]
  field_simp

/-- C226. So `MKZ_Param.get_damping` (percent) of the hyperbolic model (s = 1, beta = 1), whose stress-strain curve is
sampled, never returns more than the hysteretic damping of the Darendeli curves for the same reference strain `r`
(percent) at the same strains, and for strains whose distances up to a strain `e` are at most `w` it is within
`(200/π) w/e` of it. -/
theorem C226_sampled (d : Dict ℝ) (r G : ℝ) (h : MKZSet d (r / 100) 1 1 G) (hr : 0 < r) (hG : 0 < G) (pct : List ℝ) (hne : pct ≠ [])
    (hcl : Climbing 0 pct) :
    ∃ x, paramDamping .mkz d pct = .ok x ∧ x.length = pct.length ∧
      ∀ (i : Nat) e y, pct[i]? = some e → x[i]? = some y → 0 ≤ y ∧ y ≤ darMasing1 r e ∧
        ∀ w, Dense w 0 (pct.take (i + 1)) → darMasing1 r e - y ≤ 200 / Real.pi * (w / e) := by
  obtain ⟨x, h1, h2, h3⟩ := C184_mkz d h (by positivity) one_pos one_pos le_rfl hG pct hne hcl
  refine ⟨x, h1, h2, fun i e y he hy => ?_⟩
  have he0 := climbing_pos 0 le_rfl pct hcl e (List.mem_of_getElem? he)
  have hm : 100 * masing (tauMKZ (r / 100) 1 1 G) (e / 100) = darMasing1 r e := by
    rw [← C226_mkz (r / 100) (e / 100) G (by positivity) (by positivity) hG, darMasing1_scale r e 100 hr he0 (by norm_num)]
  rw [← hm]
  exact h3 i e y he hy

/-- C226. The hysteretic damping of the Darendeli curves does not decrease with strain. -/
theorem C226_grows (r g g' : ℝ) (hr : 0 < r) (hg : 0 < g) (h : g ≤ g') :
    darMasing (darMasing1 r g) ≤ darMasing (darMasing1 r g') := by
  apply darMasing_mono
  rw [C226_mkz r g 1 hr hg one_pos, C226_mkz r g' 1 hr (hg.trans_le h) one_pos]
  have := C213_masing (G := 1) hr one_pos one_pos le_rfl one_pos g g' hg h
  linarith

example : 0 < darMasing1 1 1 ∧ darMasing1 1 1 = 100 * masing (tauMKZ 1 1 1 5) 1 := by
  refine ⟨?_, C226_mkz 1 1 5 one_pos one_pos (by norm_num)⟩
  unfold darMasing1
  have := Real.log_two_lt_d9
  apply mul_pos (by have := Real.pi_pos; positivity)
  norm_num
  linarith

end Verif
