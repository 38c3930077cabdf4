import Verif.Props.CalibOut

/-!
C212: the shear strength estimated for the layers of a profile, against depth and stiffness.
-/

set_option linter.unusedSectionVars false
set_option linter.unusedVariables false

namespace Verif

/-- Strength of a layer of velocity `v` under the vertical stress `sv`, with the over-consolidation ratio and the lateral stress coefficient
derived from them. -/
noncomputable def strengthAt (v sv : ℝ) : ℝ := strengthOne v (ocrOne none v sv) sv (k0One 30 (ocrOne none v sv)) 30

theorem sinDeg_30 : sinDeg 30 = 1 / 2 := by
  unfold sinDeg
  rw [show (30 : ℝ) * (Real.pi / 180) = Real.pi / 6 by ring, Real.sin_pi_div_six]

theorem tanDeg_30 : tanDeg 30 = 1 / √3 := by
  unfold tanDeg
  rw [show (30 : ℝ) * (Real.pi / 180) = Real.pi / 6 by ring, Real.tan_pi_div_six]

/-- Pre-consolidation stress. -/
noncomputable def preStress (v : ℝ) : ℝ := 106 * v ^ (1.47 : ℝ)

theorem preStress_pos {v : ℝ} (hv : 0 < v) : 0 < preStress v := by
  unfold preStress; have := Real.rpow_pos_of_pos hv 1.47; positivity

theorem preStress_lt {v v' : ℝ} (hv : 0 < v) (h : v < v') : preStress v < preStress v' := by
  unfold preStress
  have := Real.rpow_lt_rpow hv.le h (show (0 : ℝ) < 1.47 by norm_num)
  linarith

theorem ocrOne_pre (v sv : ℝ) : ocrOne none v sv = preStress v / sv := by
  unfold ocrOne preStress
  simp only
  congr 1
  ring

/-- Soft layers: strength from pre-consolidation stress `p` and vertical stress. -/
theorem strength_soft {v sv : ℝ} (hv : 0 < v) (h : v ≤ 760) (hs : 0 < sv) :
    strengthAt v sv = 0.336 * preStress v ^ (0.8 : ℝ) * sv ^ (0.2 : ℝ) := by
  have hp := preStress_pos hv
  unfold strengthAt strengthOne
  rw [if_pos h, ocrOne_pre, Real.div_rpow hp.le hs.le]
  have e : sv = sv ^ (0.8 : ℝ) * sv ^ (0.2 : ℝ) := by
    rw [← Real.rpow_add hs]; norm_num
  have h8 := Real.rpow_pos_of_pos hs 0.8
  calc 1.2 * 0.28 * (preStress v ^ (0.8 : ℝ) / sv ^ (0.8 : ℝ)) * sv
      = 1.2 * 0.28 * (preStress v ^ (0.8 : ℝ) / sv ^ (0.8 : ℝ)) * (sv ^ (0.8 : ℝ) * sv ^ (0.2 : ℝ)) := by rw [← e]
    _ = 0.336 * preStress v ^ (0.8 : ℝ) * sv ^ (0.2 : ℝ) := by field_simp; norm_num

/-- Stiff layers: strength from vertical and horizontal stress. -/
theorem strength_stiff {v sv : ℝ} (h : 760 < v) (hs : 0 < sv) :
    strengthAt v sv = 1.2 * (1 / √3) * (max sv (√(preStress v * sv) / 2) / 4 + 3 * min sv (√(preStress v * sv) / 2) / 4) := by
  have hp := preStress_pos (show (0 : ℝ) < v by linarith)
  have ek : k0One 30 (ocrOne none v sv) * sv = √(preStress v * sv) / 2 := by
    unfold k0One
    rw [sinDeg_30, ocrOne_pre, ← Real.sqrt_eq_rpow]
    have : √(preStress v * sv) = √(preStress v / sv) * sv := by
      rw [show preStress v * sv = preStress v / sv * sv ^ 2 by field_simp, Real.sqrt_mul (by positivity), Real.sqrt_sq hs.le]
    rw [this]; ring
  unfold strengthAt strengthOne
  rw [if_neg (not_le.2 h)]
  simp only
  rw [ek, sinDeg_30, tanDeg_30]
  ring

/-- C212: at greater stress (depth), the strength of the same soil is greater. -/
theorem C212_depth {v sv sv' : ℝ} (hv : 0 < v) (hs : 0 < sv) (h : sv < sv') : strengthAt v sv < strengthAt v sv' := by
  have hp := preStress_pos hv
  rcases le_or_gt v 760 with hc | hc
  · rw [strength_soft hv hc hs, strength_soft hv hc (hs.trans h)]
    have := Real.rpow_pos_of_pos hp 0.8
    exact mul_lt_mul_of_pos_left (Real.rpow_lt_rpow hs.le h (by norm_num)) (by positivity)
  · rw [strength_stiff hc hs, strength_stiff hc (hs.trans h)]
    have h1 : √(preStress v * sv) / 2 < √(preStress v * sv') / 2 := by
      have := Real.sqrt_lt_sqrt (mul_pos hp hs).le (mul_lt_mul_of_pos_left h hp)
      linarith
    have h2 := max_lt_max h h1
    have h3 := min_lt_min h h1
    refine mul_lt_mul_of_pos_left ?_ (by positivity)
    linarith

/-- C212, among the soft layers (at most 760 m/s) and among the stiff ones, the stiffer one has the greater strength at the same stress.  Missing:
a soft and a stiff one (`C212_jump_violated`). -/
theorem C212_stiffness_partial {v v' sv : ℝ} (hv : 0 < v) (hs : 0 < sv) (h : v < v') (hc : v' ≤ 760 ∨ 760 < v) : strengthAt v sv < strengthAt v' sv := by
  have hp := preStress_pos hv
  have hlt := preStress_lt hv h
  rcases hc with hc | hc
  · rw [strength_soft hv (by linarith) hs, strength_soft (hv.trans h) hc hs]
    have := Real.rpow_pos_of_pos hs 0.2
    refine mul_lt_mul_of_pos_right ?_ this
    exact mul_lt_mul_of_pos_left (Real.rpow_lt_rpow hp.le hlt (by norm_num)) (by norm_num)
  · rw [strength_stiff hc hs, strength_stiff (hc.trans h) hs]
    have h1 : √(preStress v * sv) / 2 < √(preStress v' * sv) / 2 := by
      have := Real.sqrt_lt_sqrt (mul_pos hp hs).le (mul_lt_mul_of_pos_right hlt hs)
      linarith
    set A := √(preStress v * sv) / 2
    set B := √(preStress v' * sv) / 2
    refine mul_lt_mul_of_pos_left ?_ (by positivity)
    rcases le_total sv A with a | a
    · rw [max_eq_right a, min_eq_left a, max_eq_right (by linarith), min_eq_left (by linarith)]; linarith
    · rcases le_total sv B with b | b
      · rw [max_eq_left a, min_eq_right a, max_eq_right b, min_eq_left b]; linarith
      · rw [max_eq_left a, min_eq_right a, max_eq_left b, min_eq_right b]; linarith

/-- C212 is violated: where the stress is at most a quarter of the pre-consolidation stress (the upper 20 m or so), any layer stiffer than 760 m/s
and up to 1000 m/s gets a smaller strength than a layer of 760 m/s. -/
theorem C212_jump_violated {v sv : ℝ} (hs : 0 < sv) (hr : 4 * sv ≤ preStress 760) (h1 : 760 < v) (h2 : v ≤ 1000) : strengthAt v sv < strengthAt 760 sv := by
  have hp := preStress_pos (show (0 : ℝ) < 760 by norm_num)
  rw [strength_soft (by norm_num) le_rfl hs, strength_stiff h1 hs]
  set P := preStress 760 with hP
  -- the pre-consolidation stress at 1000 m/s is at most 1.74 times the one at 760 m/s
  have hPv : preStress v ≤ 1.74 * P := by
    have e1 : preStress v ≤ preStress 1000 := by
      rcases h2.lt_or_eq with h | h
      · exact (preStress_lt (by linarith) h).le
      · rw [h]
    refine e1.trans ?_
    rw [hP]
    unfold preStress
    have : (1000 : ℝ) ^ (1.47 : ℝ) ≤ 1.74 * 760 ^ (1.47 : ℝ) := by
      have e : (1000 : ℝ) = 1000 / 760 * 760 := by norm_num
      calc (1000 : ℝ) ^ (1.47 : ℝ) = (1000 / 760 : ℝ) ^ (1.47 : ℝ) * 760 ^ (1.47 : ℝ) := by
            rw [← Real.mul_rpow (by norm_num) (by norm_num), ← e]
        _ ≤ 1.74 * 760 ^ (1.47 : ℝ) := by
            refine mul_le_mul_of_nonneg_right ?_ (by positivity)
            calc (1000 / 760 : ℝ) ^ (1.47 : ℝ) ≤ (1000 / 760 : ℝ) ^ (2 : ℝ) := Real.rpow_le_rpow_of_exponent_le (by norm_num) (by norm_num)
              _ ≤ 1.74 := by rw [Real.rpow_two]; norm_num
    linarith
  have hPl : P < preStress v := preStress_lt (by norm_num) h1
  set t := √(P / sv) with ht
  have hR : 4 ≤ P / sv := by rw [le_div_iff₀ hs]; exact hr
  have ht2 : 2 ≤ t := by rw [ht]; exact Real.le_sqrt_of_sq_le (by linarith)
  have hroot : ∀ k : ℝ, 0 ≤ k → √(k * P * sv) = √k * t * sv := by
    intro k hk
    rw [ht, ← Real.sqrt_mul hk, show k * P * sv = k * (P / sv) * sv ^ 2 by field_simp, Real.sqrt_mul (by positivity), Real.sqrt_sq hs.le]
  have hA1 : √(preStress v * sv) / 2 ≤ 0.66 * t * sv := by
    have e1 : √(preStress v * sv) ≤ √(1.74 * P * sv) := Real.sqrt_le_sqrt (mul_le_mul_of_nonneg_right hPv hs.le)
    rw [hroot 1.74 (by norm_num)] at e1
    have e2 : √(1.74 : ℝ) ≤ 1.32 := by rw [Real.sqrt_le_iff]; norm_num
    have e3 : √(1.74 : ℝ) * t * sv ≤ 1.32 * t * sv := by
      refine mul_le_mul_of_nonneg_right (mul_le_mul_of_nonneg_right e2 (by linarith)) hs.le
    linarith
  have hA0 : sv ≤ √(preStress v * sv) / 2 := by
    have e1 : √(1 * P * sv) ≤ √(preStress v * sv) := Real.sqrt_le_sqrt (by rw [one_mul]; exact mul_le_mul_of_nonneg_right hPl.le hs.le)
    rw [hroot 1 (by norm_num), Real.sqrt_one, one_mul] at e1
    have e2 : 2 * sv ≤ t * sv := mul_le_mul_of_nonneg_right ht2 hs.le
    linarith
  rw [max_eq_right hA0, min_eq_left hA0]
  have hT : 1.2 * (1 / √3) ≤ 0.6936 := by
    have : (1.7302 : ℝ) ≤ √3 := Real.le_sqrt_of_sq_le (by norm_num)
    rw [mul_one_div, div_le_iff₀ (by linarith)]
    linarith
  have hS : P ^ (0.8 : ℝ) * sv ^ (0.2 : ℝ) = (P / sv) ^ (0.8 : ℝ) * sv := by
    rw [Real.div_rpow hp.le hs.le]
    have e : sv = sv ^ (0.8 : ℝ) * sv ^ (0.2 : ℝ) := by
      rw [← Real.rpow_add hs]; norm_num
    have h8 := Real.rpow_pos_of_pos hs 0.8
    calc P ^ (0.8 : ℝ) * sv ^ (0.2 : ℝ) = P ^ (0.8 : ℝ) / sv ^ (0.8 : ℝ) * (sv ^ (0.8 : ℝ) * sv ^ (0.2 : ℝ)) := by field_simp
      _ = P ^ (0.8 : ℝ) / sv ^ (0.8 : ℝ) * sv := by rw [← e]
  have h15 : (1.5 : ℝ) ≤ (P / sv) ^ (0.3 : ℝ) := by
    have e1 : (4 : ℝ) ^ (0.3 : ℝ) ≤ (P / sv) ^ (0.3 : ℝ) := Real.rpow_le_rpow (by norm_num) hR (by norm_num)
    refine le_trans ?_ e1
    refine le_of_pow_le_pow_left₀ (n := 10) (by norm_num) (by positivity) ?_
    rw [← Real.rpow_natCast ((4 : ℝ) ^ (0.3 : ℝ)), ← Real.rpow_mul (by norm_num),
      show (0.3 : ℝ) * ((10 : ℕ) : ℝ) = (3 : ℕ) by norm_num, Real.rpow_natCast]
    norm_num
  have h8 : 1.5 * t ≤ (P / sv) ^ (0.8 : ℝ) := by
    have : (P / sv) ^ (0.8 : ℝ) = (P / sv) ^ (0.3 : ℝ) * t := by
      rw [ht, Real.sqrt_eq_rpow, ← Real.rpow_add (by linarith)]; norm_num
    rw [this]
    exact mul_le_mul_of_nonneg_right h15 (by linarith)
  have hl : 1.2 * (1 / √3) * (√(preStress v * sv) / 2 / 4 + 3 * sv / 4) ≤ 0.6936 * (0.66 * t * sv / 4 + 3 * sv / 4) := by
    refine mul_le_mul hT (by linarith) (by positivity) (by norm_num)
  have hu : 0.336 * (1.5 * t * sv) ≤ 0.336 * P ^ (0.8 : ℝ) * sv ^ (0.2 : ℝ) := by
    rw [mul_assoc (0.336 : ℝ), hS]
    exact mul_le_mul_of_nonneg_left (mul_le_mul_of_nonneg_right h8 hs.le) (by norm_num)
  have hm : 2 * sv ≤ t * sv := mul_le_mul_of_nonneg_right ht2 hs.le
  have e1 : 0.6936 * (0.66 * t * sv / 4 + 3 * sv / 4) = 0.114444 * (t * sv) + 0.5202 * sv := by ring
  have e2 : 0.336 * (1.5 * t * sv) = 0.504 * (t * sv) := by ring
  linarith

/-- The strengths found for the layers of a profile are those of their velocities and overburden stresses. -/
theorem soilArrays_strength {h vs rho : List ℝ} {a : SoilArrays} (ha : soilArrays h vs rho none = .ok a) :
    ∃ h', vertStress h rho = .ok (a.sv, h') ∧ ∀ (k : Nat) T, a.Tmax[k]? = some T → ∃ v sv, vs[k]? = some v ∧ a.sv[k]? = some sv ∧ T = strengthAt v sv := by
  unfold soilArrays at ha
  cases hs : vertStress h rho with
  | error e => rw [hs] at ha; cases ha
  | ok p =>
    obtain ⟨sv, h'⟩ := p
    rw [hs] at ha
    cases ha
    refine ⟨h', rfl, fun k T hT => ?_⟩
    rw [List.getElem?_map, Option.map_eq_some_iff] at hT
    obtain ⟨q, hq, rfl⟩ := hT
    simp only [List.getElem?_zip_eq_some, List.getElem?_map, Option.map_eq_some_iff] at hq
    obtain ⟨h1, h2, h3, o, h4, h5⟩ := hq
    refine ⟨_, _, h1, h3, ?_⟩
    rw [h2] at h4
    cases h4
    unfold calcOCR at h2
    rw [List.getElem?_zipWith, h1, h3] at h2
    simp only [Option.some.injEq] at h2
    unfold strengthAt
    rw [h2, ← h5]

/-- C212 for the layers of a profile: of two layers with the same velocity, and more generally of two soft or two stiff layers of which the lower one is not
softer, the lower one has the greater strength. -/
theorem C212_profile_partial {h vs rho : List ℝ} {a : SoilArrays} (ha : soilArrays h vs rho none = .ok a) (hne : h ≠ []) (hlen : rho.length = h.length)
    (hh : ∀ x ∈ h, 0 < x) (hr : ∀ x ∈ rho, 0 < x) (hv : ∀ x ∈ vs, 0 < x) (i j : Nat) (hij : i < j) (vi vj Ti Tj : ℝ) (h1 : vs[i]? = some vi) (h2 : vs[j]? = some vj)
    (hle : vi = vj ∨ (vi < vj ∧ (vj ≤ 760 ∨ 760 < vi))) (h3 : a.Tmax[i]? = some Ti) (h4 : a.Tmax[j]? = some Tj) : Ti < Tj := by
  obtain ⟨h', e, key⟩ := soilArrays_strength ha
  obtain ⟨s, e1, e2, e3, e4⟩ := C45_increasing h rho hne hlen hh hr
  rw [e1] at e
  cases e
  obtain ⟨v, sv, p1, p2, rfl⟩ := key i Ti h3
  obtain ⟨v', sv', q1, q2, rfl⟩ := key j Tj h4
  rw [h1] at p1; cases p1
  rw [h2] at q1; cases q1
  have hlt := e4 i j sv sv' hij p2 q2
  have s0 := e3 sv (List.mem_of_getElem? p2)
  have s0' := e3 sv' (List.mem_of_getElem? q2)
  have v0 := hv vi (List.mem_of_getElem? h1)
  rcases hle with rfl | ⟨hl, hc⟩
  · exact C212_depth v0 s0 hlt
  · exact (C212_depth v0 s0 hlt).trans (C212_stiffness_partial v0 s0' hl hc)

/-- At a stress of 100 kPa (a depth of some 5 m) a layer of 800 m/s is given a smaller strength than one of 760 m/s. -/
example : strengthAt 800 100000 < strengthAt 760 100000 := by
  refine C212_jump_violated (by norm_num) ?_ (by norm_num) (by norm_num)
  unfold preStress
  have : (760 : ℝ) ^ (1 : ℝ) * 10 ≤ 760 ^ (1.47 : ℝ) := by
    rw [show (1.47 : ℝ) = 1 + 0.47 by norm_num, Real.rpow_add (by norm_num)]
    refine mul_le_mul_of_nonneg_left ?_ (by positivity)
    have e : (10 : ℝ) ≤ 760 ^ (0.4 : ℝ) := by
      refine le_of_pow_le_pow_left₀ (n := 5) (by norm_num) (by positivity) ?_
      rw [← Real.rpow_natCast ((760 : ℝ) ^ (0.4 : ℝ)), ← Real.rpow_mul (by norm_num),
        show (0.4 : ℝ) * ((5 : ℕ) : ℝ) = (2 : ℕ) by norm_num, Real.rpow_natCast]
      norm_num
    exact e.trans (Real.rpow_le_rpow_of_exponent_le (by norm_num) (by norm_num))
  rw [Real.rpow_one] at this
  linarith

end Verif
