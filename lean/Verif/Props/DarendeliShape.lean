import Verif.Props.Darendeli
import Mathlib.Analysis.SpecialFunctions.Pow.Deriv
import Mathlib.Analysis.Complex.ExponentialBounds
import Mathlib.Analysis.Real.Pi.Bounds

/-!
C203: shape of the Darendeli curves: influence of the soil state and of the strain.
-/

set_option linter.unusedSectionVars false
set_option linter.unusedVariables false

namespace Verif

open Spec (Admissible)

/-- State `q'` has at least the stress, plasticity, overconsolidation and lateral stress of `q`. -/
structure Spec.Firmer (q q' : DState) : Prop where
  sv : q.sv ≤ q'.sv
  pi : q.pi ≤ q'.pi
  ocr : q.ocr ≤ q'.ocr
  k0 : q.k0 ≤ q'.k0

open Spec (Firmer)

theorem atm_le {q q' : DState} (h : Admissible q) (hf : Firmer q q') : q.atm ≤ q'.atm := by
  have h1 := h.sv; have h2 := h.k0; have h3 := hf.sv; have h4 := hf.k0
  unfold DState.atm meanStress
  have : (2 * q.k0 + 1) / 3 * q.sv ≤ (2 * q'.k0 + 1) / 3 * q'.sv := by
    apply mul_le_mul _ h3 h1.le
    · linarith
    · linarith
  apply div_le_div_of_nonneg_right _ (by norm_num)
  linarith

theorem darRef_le {q q' : DState} (h : Admissible q) (hf : Firmer q q') : darRef q ≤ darRef q' := by
  have a0 := atm_pos q h
  have hp := h.pi; have hp' := hf.pi
  have ho := Real.rpow_pos_of_pos h.ocr 0.3246
  have h1 : q.ocr ^ (0.3246 : ℝ) ≤ q'.ocr ^ (0.3246 : ℝ) := Real.rpow_le_rpow h.ocr.le hf.ocr (by norm_num)
  have h2 : q.atm ^ (0.3483 : ℝ) ≤ q'.atm ^ (0.3483 : ℝ) := Real.rpow_le_rpow a0.le (atm_le h hf) (by norm_num)
  have h3 : q.pi * q.ocr ^ (0.3246 : ℝ) ≤ q'.pi * q'.ocr ^ (0.3246 : ℝ) := mul_le_mul hp' h1 ho.le (hp.trans hp')
  have h4 : 0 ≤ q.pi * q.ocr ^ (0.3246 : ℝ) := mul_nonneg hp ho.le
  unfold darRef
  apply mul_le_mul _ h2 (Real.rpow_nonneg a0.le _)
  · have : 0 ≤ q'.pi * q'.ocr ^ (0.3246 : ℝ) := h4.trans h3
    nlinarith
  · nlinarith

/-- C203. `G/Gmax` of a firmer soil state is not smaller, at any strain. -/
theorem C203_firmer {q q' : DState} (h : Admissible q) (hf : Firmer q q') (g : ℝ) (hg : 0 < g) : darGG (darRef q) g ≤ darGG (darRef q') g := by
  have hr := darRef_pos q h
  have hle := darRef_le h hf
  have hr' : 0 < darRef q' := hr.trans_le hle
  unfold darGG
  have h1 : (g / darRef q') ^ (0.9190 : ℝ) ≤ (g / darRef q) ^ (0.9190 : ℝ) :=
    Real.rpow_le_rpow (div_pos hg hr').le (div_le_div_of_nonneg_left hg.le hr hle) (by norm_num)
  have h2 : 0 < (g / darRef q') ^ (0.9190 : ℝ) := Real.rpow_pos_of_pos (div_pos hg hr') _
  exact div_le_div_of_nonneg_left (by norm_num) (by linarith) (by linarith)

/-! ## Functions of strain over reference strain -/

/-- `D_masing_1` as a function of strain over reference strain. -/
noncomputable def masX (x : ℝ) : ℝ := 100 / Real.pi * (4 * ((x - Real.log (1 + x)) * (1 + x) / x ^ 2) - 2)

/-- Strain-dependent part of the damping as a function of strain over reference strain. -/
noncomputable def hystX (x : ℝ) : ℝ := darGG 1 x ^ (0.1 : ℝ) * darMasing (masX x)

theorem masing1_eq {r g : ℝ} (hr : 0 < r) (hg : 0 < g) : darMasing1 r g = masX (g / r) := by
  unfold darMasing1 masX
  have e1 : (g + r) / r = 1 + g / r := by field_simp; ring
  rw [e1]
  set x := g / r with hx
  have hx0 : 0 < x := div_pos hg hr
  have eg : g = x * r := by rw [hx]; field_simp
  have e2 : 4 * (g - r * Real.log (1 + x)) / (g ^ 2 / (g + r)) = 4 * ((x - Real.log (1 + x)) * (1 + x) / x ^ 2) := by rw [eg]; field_simp; ring
  rw [e2]

theorem xi_eq {q : DState} (h : Admissible q) {g : ℝ} (hg : 0 < g) : darXi q g = (darB * hystX (g / darRef q) + darMin q) / 100 := by
  unfold darXi hystX
  rw [masing1_eq (darRef_pos q h) hg]
  have : darGG 1 (g / darRef q) = darGG (darRef q) g := by unfold darGG; rw [div_one]
  rw [this]; ring

/-- C203. All curves are one curve of strain over reference strain: `G/Gmax`, and the damping above its minimum. -/
theorem C203_one_curve {q q' : DState} (h : Admissible q) (h' : Admissible q') {x : ℝ} (hx : 0 < x) :
    darGG (darRef q) (x * darRef q) = darGG (darRef q') (x * darRef q') ∧
    darXi q (x * darRef q) - darMin q / 100 = darXi q' (x * darRef q') - darMin q' / 100 := by
  have r1 := darRef_pos q h
  have r2 := darRef_pos q' h'
  constructor
  · unfold darGG; rw [mul_div_assoc, div_self r1.ne', mul_div_assoc, div_self r2.ne']
  · rw [xi_eq h (mul_pos hx r1), xi_eq h' (mul_pos hx r2), mul_div_assoc, div_self r1.ne', mul_div_assoc, div_self r2.ne']
    ring

theorem masX_deriv {x : ℝ} (hx : 0 < x) : HasDerivAt masX (100 / Real.pi * (4 * ((Real.log (1 + x) * (x + 2) - 2 * x) / x ^ 3))) x := by
  have h1 : (1 + x) ≠ 0 := by positivity
  have hl : HasDerivAt (fun x : ℝ => Real.log (1 + x)) (1 / (1 + x)) x := ((hasDerivAt_id x).const_add 1).log h1
  have hn := (((hasDerivAt_id x).sub hl).mul ((hasDerivAt_id x).const_add 1)).div ((hasDerivAt_id x).pow 2) (by simp; exact hx.ne')
  have := ((hn.const_mul 4).sub_const 2).const_mul (100 / Real.pi)
  refine this.congr_deriv ?_
  simp only [id, Pi.sub_apply, Pi.mul_apply, Pi.pow_apply]
  field_simp
  ring

theorem log_bound {x : ℝ} (h0 : 0 ≤ x) (h1 : x ≤ 15) : (8.44 * x + 0.22 * x ^ 2) ≤ Real.log (1 + x) * (4.44 * x + 8.44) := by
  let f : ℝ → ℝ := fun x => Real.log (1 + x) - (8.44 * x + 0.22 * x ^ 2) / (4.44 * x + 8.44)
  have hd : ∀ x : ℝ, 0 ≤ x → HasDerivAt f (1 / (1 + x) - ((8.44 + 0.22 * (2 * x)) * (4.44 * x + 8.44) - (8.44 * x + 0.22 * x ^ 2) * 4.44) / (4.44 * x + 8.44) ^ 2) x := by
    intro x hx
    have a1 : (1 + x) ≠ 0 := by positivity
    have a2 : (4.44 * x + 8.44 : ℝ) ≠ 0 := by positivity
    have hl : HasDerivAt (fun x : ℝ => Real.log (1 + x)) (1 / (1 + x)) x := ((hasDerivAt_id x).const_add 1).log a1
    have hn : HasDerivAt (fun x : ℝ => 8.44 * x + 0.22 * x ^ 2) (8.44 + 0.22 * (2 * x)) x := by
      refine (((hasDerivAt_id x).const_mul 8.44).add (((hasDerivAt_id x).pow 2).const_mul 0.22)).congr_deriv ?_
      simp
    have hm : HasDerivAt (fun x : ℝ => 4.44 * x + 8.44) 4.44 x := by
      refine (((hasDerivAt_id x).const_mul 4.44).add_const 8.44).congr_deriv ?_
      simp
    exact hl.sub (hn.div hm a2)
  have mono : MonotoneOn f (Set.Icc 0 15) := by
    apply monotoneOn_of_deriv_nonneg (convex_Icc 0 15)
    · intro y hy; exact (hd y hy.1).continuousAt.continuousWithinAt
    · intro y hy; rw [interior_Icc] at hy; exact (hd y hy.1.le).differentiableAt.differentiableWithinAt
    · intro y hy
      rw [interior_Icc] at hy
      rw [(hd y hy.1.le).deriv]
      have y0 := hy.1
      rw [sub_nonneg, div_le_div_iff₀ (by positivity) (by positivity)]
      have : 0 ≤ y ^ 2 * (15 - y) := mul_nonneg (sq_nonneg y) (by linarith [hy.2])
      nlinarith [this, sq_nonneg y]
  have h := mono (Set.left_mem_Icc.2 (by norm_num)) (Set.mem_Icc.2 ⟨h0, h1⟩) h0
  simp only [f] at h
  rw [add_zero, Real.log_one] at h
  norm_num at h
  have h2 : (0 : ℝ) < 4.44 * x + 8.44 := by positivity
  rw [div_le_iff₀ (by norm_num at h2 ⊢; linarith)] at h
  norm_num
  linarith

theorem masX_nonneg {x : ℝ} (hx : 0 < x) : 0 ≤ masX x := by
  have := (darMasing1_range 1 x one_pos hx).1
  rwa [masing1_eq one_pos hx, div_one] at this

/-- Derivative of the polynomial `D_masing`. -/
noncomputable def darMasing' (d : ℝ) : ℝ := darC1 + 2 * darC2 * d + 3 * darC3 * d ^ 2

theorem darMasing_deriv (d : ℝ) : HasDerivAt darMasing (darMasing' d) d := by
  have := (((hasDerivAt_id d).const_mul darC1).add (((hasDerivAt_id d).pow 2).const_mul darC2)).add (((hasDerivAt_id d).pow 3).const_mul darC3)
  refine (this.congr_deriv ?_)
  simp [darMasing']; ring

theorem darMasing_elastic {d : ℝ} (hd : 0 ≤ d) : 0.85 * darMasing d ≤ darMasing' d * d := by
  have key : 0 ≤ 0.15 * darC1 + 1.15 * darC2 * d + 2.15 * darC3 * d ^ 2 := by
    unfold darC1 darC2 darC3
    norm_num
    nlinarith [sq_nonneg (d - 29)]
  unfold darMasing darMasing'
  have := mul_nonneg hd key
  norm_num at this ⊢
  nlinarith

theorem darMasing'_nonneg (d : ℝ) : 0 ≤ darMasing' d := by
  unfold darMasing' darC1 darC2 darC3
  norm_num
  nlinarith [sq_nonneg (d - 36)]

theorem hystX_deriv_nonneg {x : ℝ} (h0 : 0 < x) (h1 : x ≤ 15) : ∃ d, HasDerivAt hystX d x ∧ 0 ≤ d := by
  have hw0 : 0 < x ^ (0.9190 : ℝ) := Real.rpow_pos_of_pos h0 _
  have hw : HasDerivAt (fun y : ℝ => y ^ (0.9190 : ℝ)) (0.9190 * x ^ ((0.9190 : ℝ) - 1)) x := Real.hasDerivAt_rpow_const (Or.inl h0.ne')
  have hgg : HasDerivAt (fun y : ℝ => darGG 1 y) (-(0.9190 * x ^ ((0.9190 : ℝ) - 1)) / (1 + x ^ (0.9190 : ℝ)) ^ 2) x := by
    have h2 := (hasDerivAt_const x (1.0 : ℝ)).div (hw.const_add 1) (by positivity)
    have h3 : HasDerivAt (fun y : ℝ => darGG 1 y) ((0 * (1 + x ^ (0.9190 : ℝ)) - 1.0 * (0.9190 * x ^ ((0.9190 : ℝ) - 1))) / (1 + x ^ (0.9190 : ℝ)) ^ 2) x := by
      refine h2.congr_of_eventuallyEq (Filter.Eventually.of_forall fun y => ?_)
      simp [darGG]
    refine h3.congr_deriv ?_
    norm_num
  set w := x ^ (0.9190 : ℝ) with hwdef
  have hG0 : 0 < darGG 1 x := by unfold darGG; rw [div_one]; positivity
  have hGe : darGG 1 x = 1 / (1 + w) := by unfold darGG; rw [div_one]; norm_num [hwdef]
  have hp := hgg.rpow_const (p := (0.1 : ℝ)) (Or.inl hG0.ne')
  have hm := (darMasing_deriv (masX x)).comp x (masX_deriv h0)
  have hprod := hp.mul hm
  refine ⟨_, hprod, ?_⟩
  have ew : x ^ ((0.9190 : ℝ) - 1) = w / x := by rw [Real.rpow_sub_one h0.ne']
  have eG : darGG 1 x ^ ((0.1 : ℝ) - 1) = darGG 1 x ^ (0.1 : ℝ) * (1 + w) := by
    rw [Real.rpow_sub_one hG0.ne', hGe]; field_simp
  rw [ew, eG]
  set P := darGG 1 x ^ (0.1 : ℝ) with hP
  have hP0 : 0 < P := Real.rpow_pos_of_pos hG0 _
  simp only [Function.comp_apply]
  set d := masX x with hd
  have d0 : 0 ≤ d := masX_nonneg h0
  set L := Real.log (1 + x) with hL
  have hlog := log_bound h0.le h1
  rw [← hL] at hlog
  have hpi := Real.pi_pos
  set D' := 100 / Real.pi * (4 * ((L * (x + 2) - 2 * x) / x ^ 3)) with hD'
  have el : 0.11 * d ≤ D' * x := by
    have e1 : D' * x - 0.11 * d = 100 / Real.pi / x ^ 2 * (L * (4.44 * x + 8.44) - (8.44 * x + 0.22 * x ^ 2)) := by
      rw [hD', hd]; unfold masX; rw [← hL]; field_simp; ring
    have : 0 ≤ 100 / Real.pi / x ^ 2 * (L * (4.44 * x + 8.44) - (8.44 * x + 0.22 * x ^ 2)) := mul_nonneg (by positivity) (by linarith)
    linarith
  have m0 : 0 ≤ darMasing d := by
    have := darMasing_mono 0 d d0
    rwa [show darMasing 0 = 0 by unfold darMasing; ring] at this
  have el2 : 0.0919 * darMasing d ≤ darMasing' d * D' * x := by
    have a1 := darMasing_elastic d0
    have a2 := mul_le_mul_of_nonneg_left el (darMasing'_nonneg d)
    have a3 : darMasing' d * (0.11 * d) = 0.11 * (darMasing' d * d) := by ring
    rw [a3] at a2
    norm_num at a1 a2 ⊢
    nlinarith
  have fin : -(0.9190 * (w / x)) / (1 + w) ^ 2 * 0.1 * (P * (1 + w)) * darMasing d + P * (darMasing' d * D') =
      P / x * (darMasing' d * D' * x - 0.0919 * darMasing d * (w / (1 + w))) := by
    field_simp; ring
  have hfrac : w / (1 + w) ≤ 1 := by rw [div_le_one (by positivity)]; linarith
  have : 0.0919 * darMasing d * (w / (1 + w)) ≤ 0.0919 * darMasing d := by
    have := mul_le_mul_of_nonneg_left hfrac (show 0 ≤ 0.0919 * darMasing d by positivity)
    linarith
  have hfin := mul_nonneg (div_pos hP0 h0).le (show 0 ≤ darMasing' d * D' * x - 0.0919 * darMasing d * (w / (1 + w)) by linarith)
  rw [← fin] at hfin
  exact hfin

theorem hystX_mono {x y : ℝ} (h0 : 0 < x) (hxy : x ≤ y) (h1 : y ≤ 15) : hystX x ≤ hystX y := by
  have mono : MonotoneOn hystX (Set.Ioc 0 15) := by
    apply monotoneOn_of_deriv_nonneg (convex_Ioc 0 15)
    · intro z hz; obtain ⟨d, hd, -⟩ := hystX_deriv_nonneg hz.1 hz.2; exact hd.continuousAt.continuousWithinAt
    · intro z hz; rw [interior_Ioc] at hz; obtain ⟨d, hd, -⟩ := hystX_deriv_nonneg hz.1 hz.2.le; exact hd.differentiableAt.differentiableWithinAt
    · intro z hz
      rw [interior_Ioc] at hz
      obtain ⟨d, hd, hn⟩ := hystX_deriv_nonneg hz.1 hz.2.le
      rw [hd.deriv]; exact hn
  exact mono ⟨h0, hxy.trans h1⟩ ⟨h0.trans_le hxy, h1⟩ hxy

/-- C203. Damping does not decrease with strain up to 15 times the reference strain.
Missing: larger strains, see `C203_strain_violated`. -/
theorem C203_strain_partial {q : DState} (h : Admissible q) {g g' : ℝ} (hg : 0 < g) (hgg : g ≤ g') (hlim : g' ≤ 15 * darRef q) : darXi q g ≤ darXi q g' := by
  have hr := darRef_pos q h
  rw [xi_eq h hg, xi_eq h (hg.trans_le hgg)]
  have := hystX_mono (div_pos hg hr) (div_le_div_of_nonneg_right hgg hr.le) (by rw [div_le_iff₀ hr]; exact hlim)
  have := mul_le_mul_of_nonneg_left this darB_range.1.le
  linarith

/-- C203. Up to 15 times the reference strain, damping does not increase with stress, lateral stress and overconsolidation.
Missing: larger strains. -/
theorem C203_state_partial {q q' : DState} (h : Admissible q) (hf : Firmer q q') (hpi : q'.pi = q.pi) {g : ℝ} (hg : 0 < g) (hlim : g ≤ 15 * darRef q) :
    darXi q' g ≤ darXi q g := by
  have h' : Admissible q' := ⟨h.sv.trans_le hf.sv, h.pi.trans hf.pi, h.ocr.trans_le hf.ocr, h.k0.trans hf.k0⟩
  have hr := darRef_pos q h
  have hr' := darRef_pos q' h'
  have hle := darRef_le h hf
  rw [xi_eq h hg, xi_eq h' hg]
  have h1 := hystX_mono (div_pos hg hr') (div_le_div_of_nonneg_left hg.le hr hle) (by rw [div_le_iff₀ hr]; exact hlim)
  have h2 := mul_le_mul_of_nonneg_left h1 darB_range.1.le
  have h3 : darMin q' ≤ darMin q := by
    unfold darMin
    rw [hpi, Real.log_one, mul_zero, add_zero, mul_one, mul_one]
    have o1 : q'.ocr ^ (-0.1069 : ℝ) ≤ q.ocr ^ (-0.1069 : ℝ) := Real.rpow_le_rpow_of_nonpos h.ocr hf.ocr (by norm_num)
    have o2 : q'.atm ^ (-0.2889 : ℝ) ≤ q.atm ^ (-0.2889 : ℝ) := Real.rpow_le_rpow_of_nonpos (atm_pos q h) (atm_le h hf) (by norm_num)
    have o3 := Real.rpow_pos_of_pos h'.ocr (-0.1069)
    have o4 := Real.rpow_pos_of_pos (atm_pos q' h') (-0.2889)
    have hp := h.pi
    have o5 := mul_le_mul_of_nonneg_left o1 hp
    apply mul_le_mul _ o2 o4.le
    · have := mul_nonneg hp (o3.le.trans o1)
      nlinarith
    · nlinarith
  linarith

/-! ## Large strains -/

theorem pow_bound1 : (5 : ℝ) ≤ 6 ^ (0.9190 : ℝ) := by
  have h1 : ((5 : ℝ) ^ (10 : ℕ)) ^ (0.1 : ℝ) ≤ ((6 : ℝ) ^ (9 : ℕ)) ^ (0.1 : ℝ) := Real.rpow_le_rpow (by positivity) (by norm_num) (by norm_num)
  rw [← Real.rpow_natCast, ← Real.rpow_mul (by norm_num), ← Real.rpow_natCast, ← Real.rpow_mul (by norm_num)] at h1
  norm_num at h1
  refine h1.trans (Real.rpow_le_rpow_of_exponent_le (by norm_num) (by norm_num))

theorem pow_bound2 : (25 : ℝ) ≤ 50 ^ (0.9190 : ℝ) := by
  have h1 : ((25 : ℝ) ^ (10 : ℕ)) ^ (0.1 : ℝ) ≤ ((50 : ℝ) ^ (9 : ℕ)) ^ (0.1 : ℝ) := Real.rpow_le_rpow (by positivity) (by norm_num) (by norm_num)
  rw [← Real.rpow_natCast, ← Real.rpow_mul (by norm_num), ← Real.rpow_natCast, ← Real.rpow_mul (by norm_num)] at h1
  norm_num at h1
  refine h1.trans (Real.rpow_le_rpow_of_exponent_le (by norm_num) (by norm_num))

theorem masing_at_50 : (46.2 : ℝ) ≤ darMasing (masX 50) := by
  have hlog : Real.log (1 + 50) ≤ 4.159 := by
    have h1 : Real.log (1 + 50) ≤ Real.log ((2 : ℝ) ^ 6) := Real.log_le_log (by norm_num) (by norm_num)
    rw [Real.log_pow] at h1
    have := Real.log_two_lt_d9
    norm_num at h1 this ⊢
    linarith
  have hD : 55.3 ≤ masX 50 := by
    unfold masX
    have hpi := Real.pi_lt_d4
    have hpi0 := Real.pi_pos
    have h1 : (1.7405 : ℝ) ≤ 4 * ((50 - Real.log (1 + 50)) * (1 + 50) / 50 ^ 2) - 2 := by
      norm_num at hlog ⊢
      linarith
    have h2 : (31.83 : ℝ) ≤ 100 / Real.pi := by
      rw [le_div_iff₀ hpi0]; norm_num at hpi ⊢; linarith
    calc (55.3 : ℝ) ≤ 31.83 * 1.7405 := by norm_num
      _ ≤ _ := mul_le_mul h2 h1 (by norm_num) (by positivity)
  refine le_trans ?_ (darMasing_mono _ _ hD)
  unfold darMasing darC1 darC2 darC3
  norm_num

/-- C203 fails for every soil state: from 300 times the reference strain on, damping is smaller than at 50 times the reference strain. -/
theorem C203_strain_violated {q : DState} (h : Admissible q) {g : ℝ} (hg : 300 * darRef q ≤ g) : darXi q g < darXi q (50 * darRef q) := by
  have hr := darRef_pos q h
  have g0 : 0 < g := lt_of_lt_of_le (by positivity) hg
  rw [xi_eq h g0, xi_eq h (by positivity), mul_div_assoc, div_self hr.ne', mul_one]
  set x := g / darRef q with hx
  have hx3 : 300 ≤ x := by rw [hx, le_div_iff₀ hr]; exact hg
  have hx0 : 0 < x := by linarith
  have hm : darMasing (masX x) ≤ 53.6 := by
    have := (darMasing_range 1 x one_pos hx0).2
    rwa [masing1_eq one_pos hx0, div_one] at this
  have m0 : 0 ≤ darMasing (masX x) := by
    have := (darMasing_range 1 x one_pos hx0).1
    rwa [masing1_eq one_pos hx0, div_one] at this
  have hm5 := masing_at_50
  have gx : 0 < darGG 1 x := by unfold darGG; rw [div_one]; positivity
  have hratio : (1.17 : ℝ) ^ (10 : ℕ) * darGG 1 x ≤ darGG 1 50 := by
    have e1 : darGG 1 x = 1 / (1 + x ^ (0.9190 : ℝ)) := by unfold darGG; rw [div_one]; norm_num
    have e2 : darGG 1 50 = 1 / (1 + 50 ^ (0.9190 : ℝ)) := by unfold darGG; rw [div_one]; norm_num
    have b0 := pow_bound2
    have b1 : 5 * (50 : ℝ) ^ (0.9190 : ℝ) ≤ x ^ (0.9190 : ℝ) := by
      calc 5 * (50 : ℝ) ^ (0.9190 : ℝ) ≤ 6 ^ (0.9190 : ℝ) * 50 ^ (0.9190 : ℝ) := mul_le_mul_of_nonneg_right pow_bound1 (by positivity)
        _ = (6 * 50) ^ (0.9190 : ℝ) := (Real.mul_rpow (by norm_num) (by norm_num)).symm
        _ ≤ _ := Real.rpow_le_rpow (by norm_num) (by linarith) (by norm_num)
    rw [e1, e2]
    set y := (50 : ℝ) ^ (0.9190 : ℝ)
    set z := x ^ (0.9190 : ℝ)
    rw [mul_one_div, div_le_div_iff₀ (by linarith) (by linarith)]
    norm_num
    linarith
  have hpow : 1.17 * darGG 1 x ^ (0.1 : ℝ) ≤ darGG 1 50 ^ (0.1 : ℝ) := by
    have h1 := Real.rpow_le_rpow (by positivity) hratio (show (0 : ℝ) ≤ 0.1 by norm_num)
    rw [Real.mul_rpow (by positivity) gx.le, ← Real.rpow_natCast, ← Real.rpow_mul (by norm_num)] at h1
    norm_num at h1 ⊢
    exact h1
  have hp0 : 0 < darGG 1 x ^ (0.1 : ℝ) := Real.rpow_pos_of_pos gx _
  have key : hystX x < hystX 50 := by
    unfold hystX
    calc darGG 1 x ^ (0.1 : ℝ) * darMasing (masX x) ≤ darGG 1 x ^ (0.1 : ℝ) * 53.6 := mul_le_mul_of_nonneg_left hm hp0.le
      _ < 1.17 * darGG 1 x ^ (0.1 : ℝ) * 46.2 := by norm_num; linarith
      _ ≤ _ := mul_le_mul hpow hm5 (by norm_num) (Real.rpow_nonneg (by unfold darGG; rw [div_one]; positivity) _)
  have := mul_lt_mul_of_pos_left key darB_range.1
  linarith

/-- A sand under 20 kPa has a reference strain below 0.02 %: the strains of `C203_strain_violated` are within the default table of strains, which ends at 10 %. -/
example : Admissible ⟨20000, 0, 1, 0.5⟩ ∧ 300 * darRef ⟨20000, 0, 1, 0.5⟩ ≤ 10 := by
  refine ⟨⟨by norm_num, by norm_num, by norm_num, by norm_num⟩, ?_⟩
  unfold darRef DState.atm meanStress
  simp only [mul_zero, zero_mul, add_zero]
  have : ((2 * 0.5 + 1) / 3 * 20000 / 101325 : ℝ) ^ (0.3483 : ℝ) ≤ ((1 : ℝ) / 4) ^ (0.25 : ℝ) := by
    refine (Real.rpow_le_rpow_of_exponent_ge (by norm_num) (by norm_num) (by norm_num : (0.25 : ℝ) ≤ 0.3483)).trans ?_
    exact Real.rpow_le_rpow (by norm_num) (by norm_num) (by norm_num)
  have h1 : ((1 : ℝ) / 4) ^ (0.25 : ℝ) ≤ 1 := Real.rpow_le_one (by norm_num) (by norm_num) (by norm_num)
  have h2 : ((1 : ℝ) / 4) ^ (0.25 : ℝ) ≤ 0.75 := by
    have : ((1 : ℝ) / 4) ^ (0.25 : ℝ) ≤ ((0.75 : ℝ) ^ (4 : ℕ)) ^ (0.25 : ℝ) := Real.rpow_le_rpow (by norm_num) (by norm_num) (by norm_num)
    rw [← Real.rpow_natCast, ← Real.rpow_mul (by norm_num)] at this
    norm_num at this ⊢
    exact this
  norm_num at this h2 ⊢
  linarith

end Verif
