import Verif.Props.Darendeli
import Verif.Props.SvmStats
import Mathlib.MeasureTheory.Integral.IntervalIntegral.FundThmCalculus
import Mathlib.Analysis.SpecialFunctions.Log.Deriv

/-!
C226: the Darendeli damping curves are the published ones: hysteretic (Masing) damping of the hyperbolic stress-strain
curve, from the area under it, corrected by the published polynomial, reduced with `G/Gmax` and added to the published
minimum damping.  Also the published spread of the velocities (C152).
-/

set_option linter.unusedSectionVars false
set_option linter.unusedVariables false

namespace Verif
open MeasureTheory intervalIntegral
namespace Spec

/-- Hyperbolic stress-strain curve with reference strain `r` (modulus 1). -/
noncomputable def hyperbola (r x : ℝ) : ℝ := x / (1 + x / r)

/-- Damping ratio of the Masing loop of amplitude `g` on the skeleton curve `f`: dissipated energy of a cycle (the area
of the loop, eight times the area between the curve and its chord) over `4 π` times the elastic energy at the tip. -/
noncomputable def loopDamping (f : ℝ → ℝ) (g : ℝ) : ℝ :=
  8 * ((∫ x in (0 : ℝ)..g, f x) - g * f g / 2) / (4 * Real.pi * (g * f g / 2))

/-- The polynomial that turns the damping of the hyperbola into that of the curve with exponent `a` (Darendeli 2001). -/
noncomputable def masingPolynomial (a d : ℝ) : ℝ :=
  (0.2523 + 1.8618 * a - 1.1143 * a ^ 2) * d + (-0.0095 - 0.0710 * a + 0.0805 * a ^ 2) * d ^ 2 +
    (0.0003 + 0.0002 * a - 0.0005 * a ^ 2) * d ^ 3

/-- Published mean confining stress in atmospheres. -/
noncomputable def confinement (sv k0 : ℝ) : ℝ := (sv + k0 * sv + k0 * sv) / 3 / 101325

/-- Published reference strain (percent). -/
noncomputable def refStrain (sv pi ocr k0 : ℝ) : ℝ :=
  (0.0352 + pi * ocr ^ (0.3246 : ℝ) / 1000) * confinement sv k0 ^ (0.3483 : ℝ)

/-- Published modulus reduction at strain `g` percent. -/
noncomputable def reduction (sv pi ocr k0 g : ℝ) : ℝ := (1 + (g / refStrain sv pi ocr k0) ^ (0.919 : ℝ))⁻¹

/-- Published minimum damping (percent) at 1 Hz. -/
noncomputable def minDamping (sv pi ocr k0 : ℝ) : ℝ :=
  (0.8005 + 0.0129 * pi / ocr ^ (0.1069 : ℝ)) / confinement sv k0 ^ (0.2889 : ℝ)

/-- Published damping (percent) at strain `g` percent after ten cycles at 1 Hz. -/
noncomputable def darDamping (sv pi ocr k0 g : ℝ) : ℝ :=
  (0.6329 - 0.0057 * Real.log 10) * reduction sv pi ocr k0 g ^ (1 / 10 : ℝ) *
    masingPolynomial 0.919 (100 * loopDamping (hyperbola (refStrain sv pi ocr k0)) g) + minDamping sv pi ocr k0

end Spec
open Spec

theorem hyperbola_integral (r g : ℝ) (hr : 0 < r) (hg : 0 < g) :
    ∫ x in (0 : ℝ)..g, hyperbola r x = r * (g - r * Real.log ((g + r) / r)) := by
  have hd : ∀ x ∈ Set.uIcc (0 : ℝ) g, HasDerivAt (fun x => r * (x - r * Real.log ((x + r) / r))) (hyperbola r x) x := by
    intro x hx
    rw [Set.uIcc_of_le hg.le] at hx
    have hx0 : 0 < x + r := by linarith [hx.1]
    have h1 : HasDerivAt (fun x : ℝ => (x + r) / r) (1 / r) x := ((hasDerivAt_id x).add_const r).div_const r
    have h2 := h1.log (by positivity)
    have h3 := ((hasDerivAt_id x).sub (h2.const_mul r)).const_mul r
    refine h3.congr_deriv ?_
    unfold hyperbola
    have hne := hx0.ne'
    rw [show 1 + x / r = (x + r) / r by field_simp; ring]
    field_simp
    ring
  have hc : ContinuousOn (hyperbola r) (Set.uIcc 0 g) := by
    unfold hyperbola
    apply ContinuousOn.div continuousOn_id (by fun_prop)
    intro x hx
    rw [Set.uIcc_of_le hg.le] at hx
    have : 0 ≤ x / r := div_nonneg hx.1 hr.le
    positivity
  rw [integral_eq_sub_of_hasDerivAt hd hc.intervalIntegrable]
  simp [div_self hr.ne']

/-- C226. The closed form in the code is the damping ratio (in percent) of the Masing loop on the hyperbola. -/
theorem C226_masing (r g : ℝ) (hr : 0 < r) (hg : 0 < g) : darMasing1 r g = 100 * loopDamping (hyperbola r) g := by
  unfold loopDamping darMasing1
  rw [hyperbola_integral r g hr hg]
  have hpi := Real.pi_pos.ne'
  have h1 : hyperbola r g = g * r / (g + r) := by
    unfold hyperbola
    have h2 : g + r ≠ 0 := by positivity
    have h3 : (1 + g / r) ≠ 0 := by positivity
    field_simp
    ring
  rw [h1]
  have h2 : g + r ≠ 0 := by positivity
  field_simp
  ring

theorem darRef_published (q : DState) : darRef q = refStrain q.sv q.pi q.ocr q.k0 := by
  unfold darRef refStrain
  rw [show q.atm = confinement q.sv q.k0 by unfold DState.atm meanStress confinement; ring]
  norm_num
  left; ring

theorem darMin_published (q : DState) (h : Admissible q) : darMin q = minDamping q.sv q.pi q.ocr q.k0 := by
  have ha := atm_pos q h
  unfold darMin minDamping
  rw [← show q.atm = confinement q.sv q.k0 by unfold DState.atm meanStress confinement; ring, Real.log_one,
    Real.rpow_neg h.ocr.le, Real.rpow_neg ha.le]
  ring

/-- C226. `G/Gmax` and damping of every soil state at every strain are the published ones. -/
theorem C226_published (q : DState) (h : Admissible q) (g : ℝ) (hg : 0 < g) :
    darGG (darRef q) g = reduction q.sv q.pi q.ocr q.k0 g ∧ darXi q g * 100 = darDamping q.sv q.pi q.ocr q.k0 g := by
  have hr := darRef_pos q h
  have e1 : darGG (darRef q) g = reduction q.sv q.pi q.ocr q.k0 g := by
    unfold darGG reduction
    rw [darRef_published, show (0.9190 : ℝ) = 0.919 by norm_num]
    norm_num
  refine ⟨e1, ?_⟩
  unfold darXi darDamping
  rw [e1, C226_masing _ _ hr hg, darMin_published q h, darRef_published]
  unfold darMasing masingPolynomial darC1 darC2 darC3 darB
  rw [show (0.1 : ℝ) = 1 / 10 by norm_num]
  ring

/-- C226. So the columns that `produce_Darendeli_curves` returns are the published curves of the layers. -/
theorem C226_curves (sv pi ocr k0 : List ℝ) (phi : ℝ) (strain : List ℝ) (h1 : pi.length = sv.length)
    (h2 : ocr.length = sv.length) (h3 : k0.length = sv.length) (hst : ∀ g ∈ strain, 0 < g) :
    ∃ c, darendeli sv (.arr pi) (.arr ocr) (some (.arr k0)) (.num phi) (some strain) = .ok c ∧
      ∀ (i : Nat) s p o k, sv[i]? = some s → pi[i]? = some p → ocr[i]? = some o → k0[i]? = some k →
        0 < s → 0 ≤ p → 0 < o → 0 ≤ k →
        ∃ gg xi, c.gg[i]? = some gg ∧ c.xi[i]? = some xi ∧ c.ref[i]? = some (refStrain s p o k / 100) ∧
          gg = strain.map (reduction s p o k) ∧ xi.map (· * 100) = strain.map (darDamping s p o k) := by
  obtain ⟨c, hc, _, _, _, hrow⟩ := C47_curves_partial sv pi ocr k0 phi strain h1 h2 h3 hst
  refine ⟨c, hc, fun i s p o k a1 a2 a3 a4 b1 b2 b3 b4 => ?_⟩
  obtain ⟨r1, r2, r3⟩ := hrow i s p o k a1 a2 a3 a4
  have hq : Admissible ⟨s, p, o, k⟩ := ⟨b1, b2, b3, b4⟩
  refine ⟨_, _, r1, r2, by rw [r3, darRef_published], ?_, ?_⟩
  · exact List.map_congr_left fun g hg => (C226_published _ hq g (hst g hg)).1
  · rw [List.map_map]
    exact List.map_congr_left fun g hg => (C226_published _ hq g (hst g hg)).2

example : ∃ c, darendeli [100000, 200000] (.arr [0, 20]) (.arr [1, 2]) (some (.arr [0.5, 0.6])) (.num 30) (some [0.01, 1]) = .ok c :=
  let ⟨c, h, _⟩ := C226_curves [100000, 200000] [0, 20] [1, 2] [0.5, 0.6] 30 [0.01, 1] rfl rfl rfl
    (by intro g hg; simp at hg; rcases hg with rfl | rfl <;> norm_num)
  ⟨c, h⟩

/-- C226. With numbers for plasticity, OCR and friction angle and without `K0`, the curves are those of the layers with
these numbers and the lateral stress `(1 - sin phi) OCR^(sin phi)`. -/
theorem C226_numbers (sv : List ℝ) (p o phi : ℝ) (strain : List ℝ) (hsv : ∀ s ∈ sv, 0 < s) (hp : 0 ≤ p) (ho : 0 < o)
    (hst : ∀ g ∈ strain, 0 < g) :
    ∃ c, darendeli sv (.num p) (.num o) none (.num phi) (some strain) = .ok c ∧
      c.gg = sv.map (fun s => strain.map (reduction s p o ((1 - Real.sin (phi * Real.pi / 180)) * o ^ Real.sin (phi * Real.pi / 180)))) ∧
      c.xi.map (fun l => l.map (· * 100)) = sv.map (fun s => strain.map
        (darDamping s p o ((1 - Real.sin (phi * Real.pi / 180)) * o ^ Real.sin (phi * Real.pi / 180)))) := by
  have hk : k0One phi o = (1 - Real.sin (phi * Real.pi / 180)) * o ^ Real.sin (phi * Real.pi / 180) := by
    unfold k0One sinDeg
    rw [show phi * Real.pi / 180 = phi * (Real.pi / 180) by ring]
  rw [← hk]
  have hk0 : 0 ≤ k0One phi o := by
    rw [hk]
    exact mul_nonneg (by linarith [Real.sin_le_one (phi * Real.pi / 180)]) (Real.rpow_nonneg ho.le _)
  have hq : darStates sv (.num p) (.num o) none (.num phi) = .ok (sv.map fun s => ⟨s, p, o, k0One phi o⟩) := by
    unfold darStates
    simp only [NumArg.extend, bind, Except.bind, pure, Except.pure]
    congr 1
    clear hsv
    induction sv with
    | nil => rfl
    | cons a t ih => simpa [List.replicate_succ] using ih
  have h0 : (0 : ℝ) ∉ strain := fun h => lt_irrefl _ (hst 0 h)
  refine ⟨_, by unfold darendeli; rw [hq]; simp only; rw [if_neg h0], ?_, ?_⟩
  · simp only [List.map_map]
    exact List.map_congr_left fun s hs => List.map_congr_left fun g hg =>
      (C226_published ⟨s, p, o, k0One phi o⟩ ⟨hsv s hs, hp, ho, hk0⟩ g (hst g hg)).1
  · simp only [List.map_map]
    refine List.map_congr_left fun s hs => ?_
    simp only [Function.comp_apply, List.map_map]
    exact List.map_congr_left fun g hg =>
      (C226_published ⟨s, p, o, k0One phi o⟩ ⟨hsv s hs, hp, ho, hk0⟩ g (hst g hg)).2

/-- C152. Without the option of Toro the spread of ln(Vs) is the published cubic of the velocity (here in
km/s), the same for every `Vs30`. -/
theorem C152_cubic (vs30 v : ℝ) :
    sigmaLn false vs30 (1000 * v) = 0.4233 - 0.8724 * v + 1.597 * v ^ 2 - 0.7769 * v ^ 3 := by
  unfold sigmaLn
  simp only [Bool.false_eq_true, if_false]
  ring

end Verif
