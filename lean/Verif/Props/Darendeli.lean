import Verif.Props.Calib
import Mathlib.Analysis.SpecialFunctions.Trigonometric.DerivHyp
import Mathlib.Analysis.SpecialFunctions.Pow.NNReal

/-!
C47 (Darendeli G/Gmax curves) and C114 (Darendeli damping curves).
-/

set_option linter.unusedSectionVars false
set_option linter.unusedVariables false

namespace Verif
namespace Spec

/-- A soil state with positive stress and OCR, and non-negative plasticity index and lateral stress. -/
structure Admissible (q : DState) : Prop where
  sv : 0 < q.sv
  pi : 0 ≤ q.pi
  ocr : 0 < q.ocr
  k0 : 0 ≤ q.k0

end Spec

open Spec (Admissible)

theorem atm_pos (q : DState) (h : Admissible q) : 0 < q.atm := by
  have h1 := h.sv; have h2 := h.k0
  unfold DState.atm meanStress
  positivity

theorem darRef_pos (q : DState) (h : Admissible q) : 0 < darRef q := by
  have h1 := h.pi
  have h2 := Real.rpow_pos_of_pos h.ocr 0.3246
  have h3 := Real.rpow_pos_of_pos (atm_pos q h) 0.3483
  unfold darRef
  positivity

/-! ## C47 -/

/-- The stress that enters the curves is the mean of the vertical and the two equal horizontal stresses, in units of the
standard atmosphere (101325 Pa). -/
theorem C47_mean_stress (q : DState) : q.atm * 101325 = (q.sv + q.k0 * q.sv + q.k0 * q.sv) / 3 := by
  unfold DState.atm meanStress
  ring

/-- At every positive strain `G/Gmax` lies strictly between 0 and 1. -/
theorem C47_range (q : DState) (h : Admissible q) (g : ℝ) (hg : 0 < g) :
    0 < darGG (darRef q) g ∧ darGG (darRef q) g < 1 := by
  have hr := darRef_pos q h
  have hp : 0 < (g / darRef q) ^ (0.9190 : ℝ) := Real.rpow_pos_of_pos (div_pos hg hr) _
  unfold darGG
  constructor
  · positivity
  · rw [div_lt_one (by linarith)]; norm_num; linarith

/-- `G/Gmax` strictly decreases with strain and is one half at the reference strain. -/
theorem C47_decreasing (q : DState) (h : Admissible q) (x y : ℝ) (hx : 0 < x) (hxy : x < y) :
    darGG (darRef q) y < darGG (darRef q) x ∧ darGG (darRef q) (darRef q) = 1 / 2 := by
  have hr := darRef_pos q h
  have hp : 0 < (x / darRef q) ^ (0.9190 : ℝ) := Real.rpow_pos_of_pos (div_pos hx hr) _
  constructor
  · unfold darGG
    have : (x / darRef q) ^ (0.9190 : ℝ) < (y / darRef q) ^ (0.9190 : ℝ) :=
      Real.rpow_lt_rpow (div_pos hx hr).le (by gcongr) (by norm_num)
    exact div_lt_div_of_pos_left (by norm_num) (by linarith) (by linarith)
  · unfold darGG
    rw [div_self hr.ne', Real.one_rpow]; norm_num

/-- The curve is the MKZ model with `beta = 1`, `s = 0.919` and the returned reference strain: the parameters that
the calibration continues with describe the same curve. -/
theorem C47_mkz (q : DState) (h : Admissible q) (Gmax g : ℝ) (hG : 0 < Gmax) (hg : 0 < g) :
    tauMKZ (darRef q / 100) 1 0.9190 Gmax (g / 100) / (Gmax * (g / 100)) = darGG (darRef q) g := by
  have hr := darRef_pos q h
  unfold tauMKZ darGG
  rw [abs_of_pos (by positivity), show g / 100 / (darRef q / 100) = g / darRef q by field_simp, one_mul]
  have hp : 0 < (g / darRef q) ^ (0.9190 : ℝ) := Real.rpow_pos_of_pos (div_pos hg hr) _
  have : (1 + (g / darRef q) ^ (0.9190 : ℝ)) ≠ 0 := by positivity
  field_simp
  norm_num

theorem darStates_arr (sv pi ocr k0 : List ℝ) (phi : ℝ) (h1 : pi.length = sv.length) (h2 : ocr.length = sv.length)
    (h3 : k0.length = sv.length) :
    darStates sv (.arr pi) (.arr ocr) (some (.arr k0)) (.num phi) =
      .ok ((List.zip sv (List.zip pi (List.zip ocr k0))).map fun x => ⟨x.1, x.2.1, x.2.2.1, x.2.2.2⟩) := by
  simp [darStates, NumArg.extend, h1, h2, h3, bind, Except.bind, pure, Except.pure]

/-- The arguments of each layer: arrays must have one entry per layer, numbers are used for all layers. -/
theorem C47_arguments (sv : List ℝ) (pi ocr phi : NumArg ℝ) (k0 : Option (NumArg ℝ)) (strain : Option (List ℝ))
    (hbad : (∃ l, (pi = .arr l ∨ ocr = .arr l ∨ phi = .arr l ∨ k0 = some (.arr l)) ∧ l.length ≠ sv.length)) :
    darendeli sv pi ocr k0 phi strain = .error .valueError := by
  have hs : darStates sv pi ocr k0 phi = .error .valueError := by
    obtain ⟨l, hl, hn⟩ := hbad
    unfold darStates
    have ext : ∀ a : NumArg ℝ, (∃ r, a.extend sv.length = .ok r) ∨ a.extend sv.length = .error .valueError := by
      intro a
      cases a with
      | num x => exact .inl ⟨_, rfl⟩
      | arr m =>
        by_cases c : m.length = sv.length
        · exact .inl ⟨m, by rw [NumArg.extend, if_pos c]⟩
        · exact .inr (by rw [NumArg.extend, if_neg c])
    have bad : NumArg.extend sv.length (.arr l) = .error .valueError := by rw [NumArg.extend, if_neg hn]
    rcases ext phi with ⟨r, hr⟩ | hr
    · rcases ext pi with ⟨r2, hr2⟩ | hr2
      · rcases ext ocr with ⟨r3, hr3⟩ | hr3
        · rcases hl with rfl | rfl | rfl | rfl
          · rw [bad] at hr2; cases hr2
          · rw [bad] at hr3; cases hr3
          · rw [bad] at hr; cases hr
          · simp only [bind, Except.bind, hr, hr2, hr3, bad]
        · simp only [bind, Except.bind, hr, hr2, hr3]
      · simp only [bind, Except.bind, hr, hr2]
    · simp only [bind, Except.bind, hr]
  unfold darendeli
  rw [hs]

/-- For given strains the result has one `G/Gmax` column and one damping column per layer, one value per strain, and
the reference strains in units of 1. -/
theorem C47_curves_partial (sv pi ocr k0 : List ℝ) (phi : ℝ) (strain : List ℝ) (h1 : pi.length = sv.length)
    (h2 : ocr.length = sv.length) (h3 : k0.length = sv.length) (hst : ∀ g ∈ strain, 0 < g) :
    ∃ c, darendeli sv (.arr pi) (.arr ocr) (some (.arr k0)) (.num phi) (some strain) = .ok c ∧
      c.gg.length = sv.length ∧ c.xi.length = sv.length ∧ c.ref.length = sv.length ∧
      ∀ (i : Nat) s p o k, sv[i]? = some s → pi[i]? = some p → ocr[i]? = some o → k0[i]? = some k →
        c.gg[i]? = some (strain.map (darGG (darRef ⟨s, p, o, k⟩))) ∧
        c.xi[i]? = some (strain.map (darXi ⟨s, p, o, k⟩)) ∧ c.ref[i]? = some (darRef ⟨s, p, o, k⟩ / 100) := by
  have h0 : (0 : ℝ) ∉ strain := fun h => lt_irrefl _ (hst 0 h)
  refine ⟨_, by unfold darendeli; rw [darStates_arr sv pi ocr k0 phi h1 h2 h3]; simp only; rw [if_neg h0], ?_, ?_, ?_, ?_⟩
  · simp [h1, h2, h3]
  · simp [h1, h2, h3]
  · simp [h1, h2, h3]
  · intro i s p o k hs hp ho hk
    have : (List.zip sv (List.zip pi (List.zip ocr k0)))[i]? = some (s, p, o, k) := by
      simp [List.zip, List.getElem?_zipWith, hs, hp, ho, hk]
    simp [this]

/-- The documented default (`strain_in_pct=None`) never works: TypeError for every soil state. -/
theorem C47_default_violated (sv : List ℝ) (pi ocr phi : NumArg ℝ) (k0 : Option (NumArg ℝ)) :
    (∀ c, darendeli sv pi ocr k0 phi none ≠ .ok c) ∧
    ((∃ q, darStates sv pi ocr k0 phi = .ok q) → darendeli sv pi ocr k0 phi none = .error .typeError) := by
  unfold darendeli
  constructor
  · intro c
    cases h : darStates sv pi ocr k0 phi with
    | error e => simp
    | ok q => simp
  · rintro ⟨q, hq⟩
    rw [hq]

/-- One layer at 100 kPa with default arguments. -/
example : ∃ q, darStates [100000] (.num 20) (.num 1) (some (.num 0.5)) (.num 30) = .ok q := ⟨_, rfl⟩
example : Admissible ⟨100000, 20, 1, 0.5⟩ := ⟨by norm_num, by norm_num, by norm_num, by norm_num⟩

/-! ## C114 -/

theorem log_le_half (y : ℝ) (hy : 1 ≤ y) : Real.log y ≤ (y - y⁻¹) / 2 := by
  have hpos : 0 < y := by linarith
  have h := Real.self_le_sinh_iff.2 (Real.log_nonneg hy)
  rwa [Real.sinh_eq, Real.exp_log hpos, Real.exp_neg, Real.exp_log hpos] at h

/-- Masing damping is non-negative and below `200/π` percent. -/
theorem darMasing1_range (r g : ℝ) (hr : 0 < r) (hg : 0 < g) : 0 ≤ darMasing1 r g ∧ darMasing1 r g ≤ 200 / Real.pi := by
  have hpi := Real.pi_pos
  have hy : 1 ≤ (g + r) / r := by rw [le_div_iff₀ hr]; linarith
  have hy0 : 0 < (g + r) / r := by positivity
  have h1 := log_le_half _ hy
  have h2 := Real.one_sub_inv_le_log_of_pos hy0
  set L := Real.log ((g + r) / r) with hL
  rw [inv_div] at h1 h2
  have hgr : 0 < g + r := by linarith
  have e : 4 * (g - r * L) / (g ^ 2 / (g + r)) = 4 * (g - r * L) * (g + r) / g ^ 2 := by field_simp
  have hg2 : 0 < g ^ 2 := by positivity
  have b1 : r * L * (g + r) * 2 ≤ g ^ 2 + 2 * g * r := by
    have : L * (r * (g + r) * 2) ≤ ((g + r) / r - r / (g + r)) / 2 * (r * (g + r) * 2) :=
      mul_le_mul_of_nonneg_right h1 (by positivity)
    have e2 : ((g + r) / r - r / (g + r)) / 2 * (r * (g + r) * 2) = g ^ 2 + 2 * g * r := by field_simp; ring
    linarith
  have b2 : g * r ≤ r * L * (g + r) := by
    have : (1 - r / (g + r)) * (r * (g + r)) ≤ L * (r * (g + r)) := mul_le_mul_of_nonneg_right h2 (by positivity)
    have e2 : (1 - r / (g + r)) * (r * (g + r)) = g * r := by field_simp; ring
    linarith
  have lo : 2 ≤ 4 * (g - r * L) * (g + r) / g ^ 2 := by
    rw [le_div_iff₀ hg2]; nlinarith
  have hi : 4 * (g - r * L) * (g + r) / g ^ 2 ≤ 4 := by
    rw [div_le_iff₀ hg2]; nlinarith
  unfold darMasing1
  rw [e]
  constructor
  · apply mul_nonneg (by positivity); linarith
  · calc 100 / Real.pi * (4 * (g - r * L) * (g + r) / g ^ 2 - 2) ≤ 100 / Real.pi * 2 :=
          mul_le_mul_of_nonneg_left (by linarith) (by positivity)
      _ = 200 / Real.pi := by ring

theorem darMasing_mono (x y : ℝ) (hxy : x ≤ y) : darMasing x ≤ darMasing y := by
  unfold darMasing darC1 darC2 darC3
  norm_num
  have hd : 0 ≤ y - x := by linarith
  nlinarith [mul_nonneg hd (sq_nonneg (x + y - 72)), mul_nonneg hd (sq_nonneg (x - y)), mul_nonneg hd (sq_nonneg (x + y))]

theorem darMasing_range (r g : ℝ) (hr : 0 < r) (hg : 0 < g) :
    0 ≤ darMasing (darMasing1 r g) ∧ darMasing (darMasing1 r g) ≤ 53.6 := by
  obtain ⟨h1, h2⟩ := darMasing1_range r g hr hg
  constructor
  · have := darMasing_mono 0 _ h1
    rw [show darMasing 0 = 0 by unfold darMasing; ring] at this
    exact this
  · have h3 : (200 : ℝ) / Real.pi ≤ 63.70 := by
      rw [div_le_iff₀ Real.pi_pos]
      have := Real.pi_gt_d2
      nlinarith
    have := darMasing_mono _ _ (h2.trans h3)
    refine this.trans ?_
    unfold darMasing darC1 darC2 darC3
    norm_num

theorem darB_range : 0 < darB ∧ darB ≤ 0.6329 := by
  have h0 : 0 ≤ Real.log 10 := Real.log_nonneg (by norm_num)
  have h1 : Real.log 10 ≤ 9 := by
    have := Real.log_le_sub_one_of_pos (show (0 : ℝ) < 10 by norm_num)
    linarith
  unfold darB
  constructor <;> nlinarith

theorem darMin_pos (q : DState) (h : Admissible q) : 0 < darMin q := by
  have h1 := h.pi
  have h2 := Real.rpow_pos_of_pos h.ocr (-0.1069)
  have h3 := Real.rpow_pos_of_pos (atm_pos q h) (-0.2889)
  unfold darMin
  rw [Real.log_one, mul_zero, add_zero, mul_one]
  positivity

/-- Damping at any strain lies between the minimum damping of the soil and 34 percentage points above it. -/
theorem C114_range (q : DState) (h : Admissible q) (g : ℝ) (hg : 0 < g) :
    0 < darMin q / 100 ∧ darMin q / 100 ≤ darXi q g ∧ darXi q g < darMin q / 100 + 0.34 := by
  have hr := darRef_pos q h
  obtain ⟨g0, g1⟩ := C47_range q h g hg
  obtain ⟨m0, m1⟩ := darMasing_range (darRef q) g hr hg
  obtain ⟨b0, b1⟩ := darB_range
  have hp0 : 0 < darGG (darRef q) g ^ (0.1 : ℝ) := Real.rpow_pos_of_pos g0 _
  have hp1 : darGG (darRef q) g ^ (0.1 : ℝ) ≤ 1 := Real.rpow_le_one g0.le g1.le (by norm_num)
  have hmin := darMin_pos q h
  set P := darGG (darRef q) g ^ (0.1 : ℝ)
  set M := darMasing (darMasing1 (darRef q) g)
  have lo : 0 ≤ darB * P * M := mul_nonneg (mul_nonneg b0.le hp0.le) m0
  have hi : darB * P * M < 34 := by
    have h1 : darB * P ≤ 0.6329 := by nlinarith
    have h2 : darB * P * M ≤ 0.6329 * 53.6 := mul_le_mul h1 m1 m0 (by norm_num)
    have : (0.6329 * 53.6 : ℝ) < 34 := by norm_num
    linarith
  have eX : darXi q g = (darB * P * M + darMin q) / 100 := rfl
  rw [eX]
  refine ⟨by positivity, ?_, ?_⟩
  · linarith
  · have : (darB * P * M + darMin q) / 100 = darB * P * M / 100 + darMin q / 100 := by ring
    rw [this]
    have : darB * P * M / 100 < 0.34 := by rw [div_lt_iff₀ (by norm_num)]; norm_num; exact hi
    linarith

/-- At small strains the damping is the minimum damping: the excess is at most `0.52` times strain over reference
strain. -/
theorem C114_small_strain (q : DState) (h : Admissible q) (g : ℝ) (hg : 0 < g) :
    darXi q g ≤ darMin q / 100 + 0.52 * (g / darRef q) := by
  have hr := darRef_pos q h
  obtain ⟨g0, g1⟩ := C47_range q h g hg
  obtain ⟨d0, d1⟩ := darMasing1_range (darRef q) g hr hg
  obtain ⟨b0, b1⟩ := darB_range
  have hp0 : 0 < darGG (darRef q) g ^ (0.1 : ℝ) := Real.rpow_pos_of_pos g0 _
  have hp1 : darGG (darRef q) g ^ (0.1 : ℝ) ≤ 1 := Real.rpow_le_one g0.le g1.le (by norm_num)
  have hpi : (3.14 : ℝ) < Real.pi := Real.pi_gt_d2
  have hx0 : 0 < g / darRef q := div_pos hg hr
  have hD : darMasing1 (darRef q) g ≤ 63.70 * (g / darRef q) := by
    set r := darRef q
    have hL := Real.le_log_one_add_of_nonneg hx0.le
    have e1 : (g + r) / r = 1 + g / r := by field_simp; ring
    unfold darMasing1
    rw [e1]
    set x := g / r with hx
    have eg : g = x * r := by rw [hx]; field_simp
    set L := Real.log (1 + x)
    have e2 : 4 * (g - r * L) / (g ^ 2 / (g + r)) = 4 * (x - L) * (1 + x) / x ^ 2 := by rw [eg]; field_simp; ring
    rw [e2]
    have hL2 : x - L ≤ x ^ 2 / 2 := by
      have : x - 2 * x / (x + 2) = x ^ 2 / (x + 2) := by field_simp; ring
      have h3 : x ^ 2 / (x + 2) ≤ x ^ 2 / 2 := div_le_div_of_nonneg_left (by positivity) (by norm_num) (by linarith)
      linarith
    have h4 : 4 * (x - L) * (1 + x) / x ^ 2 - 2 ≤ 2 * x := by
      have : 4 * (x - L) * (1 + x) / x ^ 2 ≤ 2 * (1 + x) := by
        rw [div_le_iff₀ (by positivity)]
        nlinarith
      linarith
    calc 100 / Real.pi * (4 * (x - L) * (1 + x) / x ^ 2 - 2) ≤ 100 / Real.pi * (2 * x) :=
          mul_le_mul_of_nonneg_left h4 (by positivity)
      _ = 200 / Real.pi * x := by ring
      _ ≤ 63.70 * x := by
        apply mul_le_mul_of_nonneg_right _ hx0.le
        rw [div_le_iff₀ Real.pi_pos]; nlinarith
  have hM : darMasing (darMasing1 (darRef q) g) ≤ 1.28 * darMasing1 (darRef q) g := by
    have h3 : (200 : ℝ) / Real.pi ≤ 63.70 := by
      rw [div_le_iff₀ Real.pi_pos]; nlinarith
    have h4 := d1.trans h3
    set D := darMasing1 (darRef q) g
    unfold darMasing darC1 darC2 darC3
    norm_num at h4 ⊢
    have h5 : D ^ 2 ≤ (637 / 10) ^ 2 := by nlinarith
    nlinarith [mul_nonneg d0 (sub_nonneg.2 h5), sq_nonneg D]
  obtain ⟨m0, _⟩ := darMasing_range (darRef q) g hr hg
  have eX : darXi q g = (darB * darGG (darRef q) g ^ (0.1 : ℝ) * darMasing (darMasing1 (darRef q) g) + darMin q) / 100 := rfl
  rw [eX]
  set P := darGG (darRef q) g ^ (0.1 : ℝ)
  set M := darMasing (darMasing1 (darRef q) g)
  have h1 : darB * P ≤ 0.6329 := by nlinarith
  have h2 : darB * P * M ≤ 0.6329 * (1.28 * (63.70 * (g / darRef q))) :=
    mul_le_mul h1 (hM.trans (by linarith)) m0 (by norm_num)
  have : (darB * P * M + darMin q) / 100 = darB * P * M / 100 + darMin q / 100 := by ring
  rw [this]
  norm_num at h2 ⊢
  nlinarith

/-- More confinement means less minimum damping and a larger reference strain. -/
theorem C114_confinement (q q' : DState) (h : Admissible q) (h' : Admissible q') (hpi : q'.pi = q.pi) (hocr : q'.ocr = q.ocr)
    (hk : q'.k0 = q.k0) (hsv : q.sv < q'.sv) : darMin q' < darMin q ∧ darRef q < darRef q' := by
  have ha : q.atm < q'.atm := by
    unfold DState.atm meanStress
    rw [hk]
    have := h.k0
    have h1 : 0 < (2 * q.k0 + 1) / 3 := by positivity
    gcongr
  have h0 := atm_pos q h
  constructor
  · unfold darMin
    rw [hpi, hocr, Real.log_one, mul_zero, add_zero, mul_one, mul_one]
    have hc : 0 < 0.8005 + 0.0129 * q.pi * q.ocr ^ (-0.1069 : ℝ) := by
      have h1 := h.pi
      have h2 := Real.rpow_pos_of_pos h.ocr (-0.1069)
      positivity
    exact mul_lt_mul_of_pos_left (Real.rpow_lt_rpow_of_neg h0 ha (by norm_num)) hc
  · unfold darRef
    rw [hpi, hocr]
    have hc : 0 < 0.0352 + 0.0010 * q.pi * q.ocr ^ (0.3246 : ℝ) := by
      have h1 := h.pi
      have h2 := Real.rpow_pos_of_pos h.ocr 0.3246
      positivity
    exact mul_lt_mul_of_pos_left (Real.rpow_lt_rpow h0.le ha (by norm_num)) hc

end Verif
