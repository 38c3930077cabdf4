import Verif.Props.ProfileTf
import Mathlib.Analysis.Convex.Deriv
import Mathlib.Analysis.SpecialFunctions.Trigonometric.Bounds
import Mathlib.Analysis.SpecialFunctions.Trigonometric.DerivHyp
import Mathlib.Analysis.Real.Pi.Bounds

/-!
C187: a uniform soil layer on rock: closed forms of the transfer functions, and the fundamental frequencies `Vs / (4 H)`.
-/

set_option linter.unusedSectionVars false
set_option linter.unusedVariables false

open Complex

namespace Verif

open Spec (Valid5 MakesUp DampedLay)

/-! ## Closed forms -/

theorem eMat_pair (w : ℝ) (l m : Lay) : eMat w [l, m] = dMat w l m := by
  rw [eMat_cons, eMat_one]
  unfold M2.dot M2.id
  ext <;> simp

/-- C187: the transfer functions of one layer on a half space are the textbook ones: with the complex wave number `k` of the soil, its thickness
`H` and the impedance ratio `α`, `1 / (cos kH + i α sin kH)` (rock outcrop), twice that (incident wave) and `1 / cos kH` (borehole). -/
theorem C187_closed (w : ℝ) (l m : Lay) :
    tfRo w [l, m] = 1 / (cos (kStar w l * l.h) + I * alphaStar l m * sin (kStar w l * l.h)) ∧
    tfIn w [l, m] = 2 / (cos (kStar w l * l.h) + I * alphaStar l m * sin (kStar w l * l.h)) ∧
    tfBh w [l, m] = 1 / cos (kStar w l * l.h) := by
  set z := kStar w l * l.h with hz
  have e1 : exp (I * kStar w l * l.h) = cos z + sin z * I := by
    rw [← Complex.exp_mul_I, hz]; congr 1; ring
  have e2 : exp (-I * kStar w l * l.h) = cos z - sin z * I := by
    have := Complex.exp_mul_I (-z)
    rw [Complex.cos_neg, Complex.sin_neg] at this
    rw [show cos z - sin z * I = cos z + -sin z * I by ring, ← this, hz]
    congr 1; ring
  have h1 : (eMat w [l, m]).a + (eMat w [l, m]).b = cos z + I * alphaStar l m * sin z := by
    rw [eMat_pair]; simp only [dMat]; rw [e1, e2]; ring
  have h2 : (eMat w [l, m]).a + (eMat w [l, m]).c + (eMat w [l, m]).b + (eMat w [l, m]).d = 2 * cos z := by
    rw [eMat_pair]; simp only [dMat]; rw [e1, e2]; ring
  unfold tfRo tfIn tfBh
  rw [h1, h2]
  refine ⟨rfl, rfl, ?_⟩
  rw [div_mul_eq_div_div]
  norm_num

/-! ## The slowness of a damped layer -/

/-- `1 / v* = c (1 - i r)`, with `r = ξ (1 - r²)` and `(c Vs)² (1 + r²)² = 1 - r²`. -/
theorem slowness (l : Lay) (hv : 0 < l.vs) (hx : 0 < l.xi) :
    ∃ c r : ℝ, 0 < c ∧ 0 < r ∧ r < 1 ∧ r = l.xi * (1 - r ^ 2) ∧ (c * l.vs) ^ 2 * (1 + r ^ 2) ^ 2 = 1 - r ^ 2 ∧
      1 / vsStar l = (c : ℂ) * (1 - r * I) := by
  set q := vsStar l with hq
  have hre : 0 < q.re := vsStar_re_pos hv
  have hq0 : q ≠ 0 := by intro h; rw [h] at hre; simp at hre
  set κ := 1 / q with hκ
  have hc : 0 < κ.re := by
    rw [hκ, one_div, Complex.inv_re]
    exact div_pos hre (Complex.normSq_pos.2 hq0)
  have hsq : κ ^ 2 * ((l.vs : ℂ) ^ 2 * (1 + 2 * I * (l.xi : ℂ))) = 1 := by
    rw [← vsStar_sq, hκ, ← hq]; field_simp
  have h1 := congrArg Complex.re hsq
  have h2 := congrArg Complex.im hsq
  have e : κ ^ 2 * ((l.vs : ℂ) ^ 2 * (1 + 2 * I * (l.xi : ℂ))) =
      ((l.vs ^ 2 * ((κ.re ^ 2 - κ.im ^ 2) - 2 * κ.re * κ.im * (2 * l.xi)) : ℝ) : ℂ) +
      ((l.vs ^ 2 * ((κ.re ^ 2 - κ.im ^ 2) * (2 * l.xi) + 2 * κ.re * κ.im) : ℝ) : ℂ) * I := by
    conv_lhs => rw [← Complex.re_add_im κ]
    push_cast
    ring_nf
    rw [Complex.I_sq, show I ^ 3 = -I by rw [pow_succ, Complex.I_sq]; ring]
    ring
  rw [e] at h1 h2
  simp only [Complex.add_re, Complex.ofReal_re, Complex.mul_re, Complex.I_re, Complex.ofReal_im, Complex.I_im, mul_zero, zero_mul,
    sub_zero, add_zero, Complex.one_re, Complex.add_im, Complex.mul_im, mul_one, zero_add, Complex.one_im] at h1 h2
  set c := κ.re with hcd
  set s := κ.im with hsd
  have hv2 : (l.vs ^ 2 : ℝ) ≠ 0 := by positivity
  have h2' : (c ^ 2 - s ^ 2) * l.xi = -(c * s) := by
    have : (c ^ 2 - s ^ 2) * (2 * l.xi) + 2 * c * s = 0 := by
      rcases mul_eq_zero.1 h2 with h | h
      · exact absurd h hv2
      · exact h
    linarith
  have h1' : l.vs ^ 2 * ((c ^ 2 - s ^ 2) * (1 + 4 * l.xi ^ 2)) = 1 := by
    have : c * s = -((c ^ 2 - s ^ 2) * l.xi) := by linarith
    linear_combination h1 + (4 * l.vs ^ 2 * l.xi) * this
  have hd : 0 < c ^ 2 - s ^ 2 := by
    by_contra hn
    push Not at hn
    have : l.vs ^ 2 * ((c ^ 2 - s ^ 2) * (1 + 4 * l.xi ^ 2)) ≤ 0 :=
      mul_nonpos_of_nonneg_of_nonpos (by positivity) (mul_nonpos_of_nonpos_of_nonneg hn (by positivity))
    linarith
  have hs : s < 0 := by
    by_contra hn
    push Not at hn
    have : 0 < (c ^ 2 - s ^ 2) * l.xi := mul_pos hd hx
    have : 0 ≤ c * s := mul_nonneg hc.le hn
    linarith
  refine ⟨c, -s / c, hc, div_pos (by linarith) hc, ?_, ?_, ?_, ?_⟩
  · rw [div_lt_one hc]
    nlinarith
  · field_simp
    linarith
  · have hξ : l.xi = -(c * s) / (c ^ 2 - s ^ 2) := by rw [eq_div_iff hd.ne']; linarith
    rw [hξ] at h1'
    have hcs : c ^ 2 - s ^ 2 ≠ 0 := hd.ne'
    field_simp at h1' ⊢
    nlinarith [h1']
  · apply Complex.ext
    · simp [← hcd]
    · simp only [Complex.mul_im, Complex.ofReal_re, Complex.ofReal_im, Complex.sub_im, Complex.one_im, Complex.I_im, Complex.I_re, Complex.mul_re]
      rw [← hsd]
      field_simp
      ring

/-- Squared modulus of the denominator, with a real impedance ratio. -/
theorem denom_norm (a b α : ℝ) :
    ‖cos ((a : ℂ) - b * I) + I * α * sin ((a : ℂ) - b * I)‖ ^ 2 =
      ((1 - α ^ 2) * Real.cos (2 * a) + (1 + α ^ 2) * Real.cosh (2 * b) + 2 * α * Real.sinh (2 * b)) / 2 := by
  have e : cos ((a : ℂ) - b * I) + I * α * sin ((a : ℂ) - b * I) =
      ((Real.cos a * (Real.cosh b + α * Real.sinh b) : ℝ) : ℂ) + ((Real.sin a * (Real.sinh b + α * Real.cosh b) : ℝ) : ℂ) * I := by
    rw [show (a : ℂ) - b * I = (a : ℂ) + ((-b : ℝ) : ℂ) * I by push_cast; ring, Complex.cos_add_mul_I, Complex.sin_add_mul_I]
    rw [← Complex.ofReal_cos, ← Complex.ofReal_sin, ← Complex.ofReal_cosh, ← Complex.ofReal_sinh, Real.cosh_neg, Real.sinh_neg]
    push_cast
    ring_nf
    rw [Complex.I_sq]
    ring
  rw [e, Complex.sq_norm, Complex.normSq_add_mul_I, Real.cos_two_mul, Real.cosh_two_mul, Real.sinh_two_mul]
  have h1 := Real.sin_sq_add_cos_sq a
  have h2 := Real.cosh_sq b
  have h3 : Real.sin a ^ 2 = 1 - Real.cos a ^ 2 := by linarith
  rw [mul_pow, mul_pow, h3]
  ring_nf
  rw [h2]
  ring

/-! ## The peak -/

/-- Twice the squared modulus of the denominator, at `t = 2 w H c`. -/
noncomputable def unifF (α r t : ℝ) : ℝ := (1 - α ^ 2) * Real.cos t + (1 + α ^ 2) * Real.cosh (r * t) + 2 * α * Real.sinh (r * t)

/-- Minus its slope. -/
noncomputable def unifD (α r t : ℝ) : ℝ := (1 - α ^ 2) * Real.sin t - r * ((1 + α ^ 2) * Real.sinh (r * t) + 2 * α * Real.cosh (r * t))

theorem unifF_deriv (α r t : ℝ) : HasDerivAt (unifF α r) (-unifD α r t) t := by
  have hr : HasDerivAt (fun t => r * t) r t := by simpa using (hasDerivAt_id t).const_mul r
  have h := (((Real.hasDerivAt_cos t).const_mul (1 - α ^ 2)).add (hr.cosh.const_mul (1 + α ^ 2))).add (hr.sinh.const_mul (2 * α))
  refine h.congr_deriv ?_
  unfold unifD; ring

theorem unifF_cont (α r : ℝ) : Continuous (unifF α r) := by unfold unifF; fun_prop

theorem unifD_cont (α r : ℝ) : Continuous (unifD α r) := by unfold unifD; fun_prop

theorem sinh_convexOn (r : ℝ) (hr : 0 < r) : ConvexOn ℝ (Set.Ici 0) (fun t => Real.sinh (r * t)) := by
  refine MonotoneOn.convexOn_of_deriv (convex_Ici 0) (by fun_prop) (by fun_prop) ?_
  intro x hx y hy hxy
  rw [interior_Ici] at hx hy
  have e : ∀ t, deriv (fun t => Real.sinh (r * t)) t = Real.cosh (r * t) * r := by
    intro t
    have hr' : HasDerivAt (fun t => r * t) r t := by simpa using (hasDerivAt_id t).const_mul r
    exact hr'.sinh.deriv
  rw [e, e]
  refine mul_le_mul_of_nonneg_right (Real.cosh_le_cosh.2 ?_) hr.le
  rw [abs_of_pos (mul_pos hr hx), abs_of_pos (mul_pos hr hy)]
  exact mul_le_mul_of_nonneg_left hxy hr.le

theorem cosh_convexOn (r : ℝ) (hr : 0 < r) : ConvexOn ℝ (Set.Ici 0) (fun t => Real.cosh (r * t)) := by
  refine MonotoneOn.convexOn_of_deriv (convex_Ici 0) (by fun_prop) (by fun_prop) ?_
  intro x hx y hy hxy
  have e : ∀ t, deriv (fun t => Real.cosh (r * t)) t = Real.sinh (r * t) * r := by
    intro t
    have hr' : HasDerivAt (fun t => r * t) r t := by simpa using (hasDerivAt_id t).const_mul r
    exact hr'.cosh.deriv
  rw [e, e]
  exact mul_le_mul_of_nonneg_right (Real.sinh_le_sinh.2 (mul_le_mul_of_nonneg_left hxy hr.le)) hr.le

theorem unifD_concave {α r : ℝ} (h0 : 0 ≤ α) (h1 : α < 1) (hr : 0 < r) : ConcaveOn ℝ (Set.Icc 0 Real.pi) (unifD α r) := by
  have a1 : ConcaveOn ℝ (Set.Icc 0 Real.pi) (fun t => (1 - α ^ 2) * Real.sin t) :=
    (strictConcaveOn_sin_Icc.concaveOn).smul (by nlinarith)
  have sub : Set.Icc 0 Real.pi ⊆ Set.Ici (0 : ℝ) := fun x hx => hx.1
  have a2 : ConvexOn ℝ (Set.Icc 0 Real.pi) (fun t => (1 + α ^ 2) * Real.sinh (r * t)) :=
    (((sinh_convexOn r hr).subset sub (convex_Icc _ _))).smul (by positivity)
  have a3 : ConvexOn ℝ (Set.Icc 0 Real.pi) (fun t => 2 * α * Real.cosh (r * t)) :=
    (((cosh_convexOn r hr).subset sub (convex_Icc _ _))).smul (by positivity)
  have a4 := (a2.add a3).smul hr.le
  exact a1.sub a4

theorem unifD_neg {α r t : ℝ} (h0 : 0 ≤ α) (h1 : α < 1) (hr : 0 < r) (h2 : Real.pi ≤ t) (h3 : t ≤ 2 * Real.pi) : unifD α r t < 0 := by
  have hpi := Real.pi_pos
  have s : Real.sin t ≤ 0 := by
    have := Real.sin_nonneg_of_nonneg_of_le_pi (x := t - Real.pi) (by linarith) (by linarith)
    rw [Real.sin_sub_pi] at this; linarith
  have a : (1 - α ^ 2) * Real.sin t ≤ 0 := mul_nonpos_of_nonneg_of_nonpos (by nlinarith) s
  have b : 0 < Real.sinh (r * t) := Real.sinh_pos_iff.2 (by nlinarith)
  have c : 0 ≤ 2 * α * Real.cosh (r * t) := by have := Real.cosh_pos (r * t); positivity
  have d : 0 < r * ((1 + α ^ 2) * Real.sinh (r * t) + 2 * α * Real.cosh (r * t)) := mul_pos hr (by positivity)
  unfold unifD; linarith

/-- From a point where the slope is positive on there is one change of sign before `2π`. -/
theorem unifD_root {α r t0 : ℝ} (h0 : 0 ≤ α) (h1 : α < 1) (hr : 0 < r) (ht : 0 ≤ t0) (ht' : t0 ≤ Real.pi) (hD : 0 < unifD α r t0) :
    ∃ θ, t0 < θ ∧ θ < Real.pi ∧ unifD α r θ = 0 ∧ (∀ t, t0 ≤ t → t < θ → 0 < unifD α r t) ∧
      (∀ t, θ < t → t ≤ 2 * Real.pi → unifD α r t < 0) := by
  have hpi := Real.pi_pos
  have hπ : unifD α r Real.pi < 0 := unifD_neg h0 h1 hr le_rfl (by linarith)
  obtain ⟨θ, ⟨m1, m2⟩, hθ⟩ := intermediate_value_Icc' ht' (unifD_cont α r).continuousOn (show (0 : ℝ) ∈ Set.Icc _ _ from ⟨hπ.le, hD.le⟩)
  have n1 : t0 < θ := lt_of_le_of_ne m1 (by rintro rfl; linarith)
  have n2 : θ < Real.pi := lt_of_le_of_ne m2 (by rintro rfl; linarith)
  have hc := unifD_concave h0 h1 hr
  refine ⟨θ, n1, n2, hθ, fun t a b => ?_, fun t a b => ?_⟩
  · set u := (θ - t) / (θ - t0) with hu
    have hd : 0 < θ - t0 := by linarith
    have u1 : 0 < u := div_pos (by linarith) hd
    have u2 : 0 ≤ 1 - u := by rw [hu, sub_nonneg, div_le_one hd]; linarith
    have := hc.2 (x := t0) ⟨ht, ht'⟩ (y := θ) ⟨by linarith, by linarith⟩ u1.le u2 (by ring)
    simp only [smul_eq_mul] at this
    rw [hθ, show u * t0 + (1 - u) * θ = t by rw [hu]; field_simp; ring] at this
    have := mul_pos u1 hD
    linarith
  · rcases le_or_gt t Real.pi with h | h
    · by_contra hn
      push Not at hn
      set u := (t - θ) / (t - t0) with hu
      have hd : 0 < t - t0 := by linarith
      have u1 : 0 < u := div_pos (by linarith) hd
      have u2 : 0 ≤ 1 - u := by rw [hu, sub_nonneg, div_le_one hd]; linarith
      have := hc.2 (x := t0) ⟨ht, ht'⟩ (y := t) ⟨by linarith, h⟩ u1.le u2 (by ring)
      simp only [smul_eq_mul] at this
      rw [show u * t0 + (1 - u) * t = θ by rw [hu]; field_simp; ring, hθ] at this
      have := mul_pos u1 hD
      have := mul_nonneg u2 hn
      linarith
    · exact unifD_neg h0 h1 hr h.le b

theorem unifF_anti {α r a b : ℝ} (hab : a < b) (h : ∀ t, a < t → t < b → 0 < unifD α r t) : unifF α r b < unifF α r a := by
  have := strictAntiOn_of_deriv_neg (convex_Icc a b) (unifF_cont α r).continuousOn (fun x hx => by
    rw [interior_Icc] at hx
    rw [(unifF_deriv α r x).deriv]
    have := h x hx.1 hx.2
    linarith)
  exact this ⟨le_rfl, hab.le⟩ ⟨hab.le, le_rfl⟩ hab

theorem unifF_mono {α r a b : ℝ} (hab : a < b) (h : ∀ t, a < t → t < b → unifD α r t < 0) : unifF α r a < unifF α r b := by
  have := strictMonoOn_of_deriv_pos (convex_Icc a b) (unifF_cont α r).continuousOn (fun x hx => by
    rw [interior_Icc] at hx
    rw [(unifF_deriv α r x).deriv]
    have := h x hx.1 hx.2
    linarith)
  exact this ⟨le_rfl, hab.le⟩ ⟨hab.le, le_rfl⟩ hab

theorem sinh_cosh_bounds {x : ℝ} (h0 : 0 ≤ x) (h1 : x ≤ Real.pi / 4) : Real.sinh x ≤ 7 / 5 * x ∧ 2 * Real.cosh x ≤ 3 := by
  have hpi := Real.pi_lt_d2
  have hx1 : x < 79 / 100 := by linarith
  have e1 := Real.abs_exp_sub_one_sub_id_le (x := x) (by rw [abs_of_nonneg h0]; linarith)
  have e2 := Real.add_one_le_exp (-x)
  have e3 := (abs_le.1 e1).2
  have hs : Real.sinh x ≤ 7 / 5 * x := by
    rw [Real.sinh_eq]; nlinarith
  refine ⟨hs, ?_⟩
  have hs0 : 0 ≤ Real.sinh x := Real.sinh_nonneg_iff.2 h0
  have hc := Real.cosh_sq x
  have hc0 := Real.cosh_pos x
  have : Real.sinh x ≤ 1106 / 1000 := by linarith
  nlinarith

/-- Where the slope changes sign, compared with `π`. -/
theorem unifD_root_near {α r t0 θ : ℝ} (h0 : 0 ≤ α) (h1 : α < 1) (hr : 0 < r) (hr4 : r ≤ 1 / 4)
    (hG : r * (5 * r * (1 + α ^ 2) + 3 * α) ≤ 1 - α ^ 2) (hθ : unifD α r θ = 0) (hp : 0 < θ) (hp' : θ < Real.pi)
    (hneg : ∀ t, θ < t → t ≤ 2 * Real.pi → unifD α r t < 0) :
    (Real.pi - θ) / Real.pi ≤ r * (5 * r * (1 + α ^ 2) + 3 * α) / (2 * (1 - α ^ 2)) := by
  have hpi := Real.pi_pos
  have hpi2 := Real.pi_lt_d2
  have hα : 0 < 1 - α ^ 2 := by nlinarith
  have key : ∀ t, 0 ≤ t → t ≤ Real.pi →
      r * ((1 + α ^ 2) * Real.sinh (r * t) + 2 * α * Real.cosh (r * t)) ≤ r * (5 * r * (1 + α ^ 2) + 3 * α) := by
    intro t a b
    obtain ⟨b1, b2⟩ := sinh_cosh_bounds (x := r * t) (by positivity) (by nlinarith)
    have b3 : Real.sinh (r * t) ≤ 5 * r := by nlinarith
    refine mul_le_mul_of_nonneg_left ?_ hr.le
    have c1 : (1 + α ^ 2) * Real.sinh (r * t) ≤ (1 + α ^ 2) * (5 * r) := mul_le_mul_of_nonneg_left b3 (by positivity)
    have c2 : α * (2 * Real.cosh (r * t)) ≤ α * 3 := mul_le_mul_of_nonneg_left b2 h0
    linarith
  have hhalf : Real.pi / 2 ≤ θ := by
    by_contra hn
    push Not at hn
    have a := hneg (Real.pi / 2) hn (by linarith)
    have b := key (Real.pi / 2) (by linarith) (by linarith)
    unfold unifD at a
    rw [Real.sin_pi_div_two] at a
    linarith
  have j := Real.mul_le_sin (x := Real.pi - θ) (by linarith) (by linarith)
  rw [Real.sin_pi_sub] at j
  have k := key θ hp.le hp'.le
  unfold unifD at hθ
  rw [div_le_div_iff₀ hpi (by positivity)]
  have e : (1 - α ^ 2) * (2 / Real.pi * (Real.pi - θ)) ≤ (1 - α ^ 2) * Real.sin θ := mul_le_mul_of_nonneg_left j hα.le
  have e2 : (1 - α ^ 2) * (2 / Real.pi * (Real.pi - θ)) ≤ r * (5 * r * (1 + α ^ 2) + 3 * α) := by linarith
  have e3 := mul_le_mul_of_nonneg_right e2 hpi.le
  have e4 : (1 - α ^ 2) * (2 / Real.pi * (Real.pi - θ)) * Real.pi = (Real.pi - θ) * (2 * (1 - α ^ 2)) := by field_simp
  linarith

/-- The first tabulated frequency at which the amplification stops rising is less than one step away from the peak. -/
theorem peak_grid {α r τ : ℝ} (h0 : 0 ≤ α) (h1 : α < 1) (hr : 0 < r) (hr4 : r ≤ 1 / 4) (hτ : 0 < τ) (hτ2 : τ ≤ Real.pi / 2)
    (hN : Real.pi ≤ 597 * τ) (hG : r * (5 * r * (1 + α ^ 2) + 3 * α) ≤ 1 - α ^ 2)
    (h01 : unifF α r (2 * τ) < unifF α r τ ∨ 0 < unifD α r τ) :
    ∃ (i : Nat) (θ : ℝ), i < 597 ∧ (∀ j < i, unifF α r (((j : ℝ) + 2) * τ) < unifF α r (((j : ℝ) + 1) * τ)) ∧
      unifF α r (((i : ℝ) + 1) * τ) ≤ unifF α r (((i : ℝ) + 2) * τ) ∧ |((i : ℝ) + 1) * τ - θ| < τ ∧ θ < Real.pi ∧
      (Real.pi - θ) / Real.pi ≤ r * (5 * r * (1 + α ^ 2) + 3 * α) / (2 * (1 - α ^ 2)) := by
  have hpi := Real.pi_pos
  obtain ⟨t0, g1, g2, g3, g4⟩ : ∃ t0, τ ≤ t0 ∧ t0 ≤ 2 * τ ∧ 0 < unifD α r t0 ∧ (unifF α r (2 * τ) < unifF α r τ ∨ t0 = τ) := by
    rcases h01 with h | h
    · by_contra hn
      push Not at hn
      have : ∀ t, τ ≤ t → t ≤ 2 * τ → unifD α r t ≤ 0 := by
        intro t a b
        by_contra hc
        push Not at hc
        exact absurd h (not_lt.2 (hn t a b hc).1)
      have mono := monotoneOn_of_deriv_nonneg (convex_Icc τ (2 * τ)) (unifF_cont α r).continuousOn
        (fun x hx => (unifF_deriv α r x).differentiableAt.differentiableWithinAt) (fun x hx => by
          rw [interior_Icc] at hx
          rw [(unifF_deriv α r x).deriv]
          have := this x hx.1.le hx.2.le
          linarith)
      have := mono ⟨le_rfl, by linarith⟩ ⟨by linarith, le_rfl⟩ (by linarith)
      linarith
    · exact ⟨τ, le_rfl, by linarith, h, Or.inr rfl⟩
  obtain ⟨θ, m1, m2, m3, m4, m5⟩ := unifD_root h0 h1 hr (by linarith) (by linarith) g3
  have dn : ∀ j : Nat, ((j : ℝ) + 2) * τ ≤ θ → unifF α r (((j : ℝ) + 2) * τ) < unifF α r (((j : ℝ) + 1) * τ) := by
    intro j hj
    rcases Nat.eq_zero_or_pos j with rfl | hp
    · rcases g4 with h | h
      · simpa using h
      · have := unifF_anti (α := α) (r := r) (a := τ) (b := 2 * τ) (by linarith)
          (fun t a b => m4 t (by linarith) (by norm_num at hj; linarith))
        simpa using this
    · have hj1 : (1 : ℝ) ≤ j := by exact_mod_cast hp
      refine unifF_anti (by nlinarith) fun t a b => m4 t (by nlinarith) (by linarith)
  have up : ∀ j : Nat, θ ≤ ((j : ℝ) + 1) * τ → ((j : ℝ) + 2) * τ ≤ 2 * Real.pi →
      unifF α r (((j : ℝ) + 1) * τ) < unifF α r (((j : ℝ) + 2) * τ) := by
    intro j hj hj2
    exact unifF_mono (by nlinarith) fun t a b => m5 t (by linarith) (by linarith)
  obtain ⟨n, hn1, hn2⟩ : ∃ n : Nat, θ ≤ ((n : ℝ) + 1) * τ ∧ (n : ℝ) * τ < θ := by
    refine ⟨⌈θ / τ⌉₊ - 1, ?_, ?_⟩
    all_goals
      have hc : 0 < ⌈θ / τ⌉₊ := Nat.ceil_pos.2 (div_pos (by linarith) hτ)
      rw [Nat.cast_sub hc]
      push_cast
    · have := Nat.le_ceil (θ / τ)
      rw [div_le_iff₀ hτ] at this
      linarith
    · have := Nat.ceil_lt_add_one (div_pos (show 0 < θ by linarith) hτ).le
      have h2 : (⌈θ / τ⌉₊ : ℝ) - 1 < θ / τ := by linarith
      rwa [lt_div_iff₀ hτ] at h2
  have hn597 : n < 597 := by
    by_contra hc
    have : (597 : ℝ) ≤ n := by exact_mod_cast (by omega : 597 ≤ n)
    nlinarith
  have hPn : unifF α r (((n : ℝ) + 1) * τ) ≤ unifF α r (((n : ℝ) + 2) * τ) := (up n hn1 (by linarith)).le
  classical
  have hex : ∃ n : Nat, unifF α r (((n : ℝ) + 1) * τ) ≤ unifF α r (((n : ℝ) + 2) * τ) := ⟨n, hPn⟩
  set i := Nat.find hex with hi
  have hin : i ≤ n := Nat.find_min' hex hPn
  have hmin : ∀ j < i, unifF α r (((j : ℝ) + 2) * τ) < unifF α r (((j : ℝ) + 1) * τ) := fun j hj => not_le.1 (Nat.find_min hex hj)
  have hsp := Nat.find_spec hex
  refine ⟨i, θ, by omega, hmin, hsp, ?_, m2, unifD_root_near (t0 := t0) h0 h1 hr hr4 hG m3 (by linarith) m2 m5⟩
  have u1 : θ < ((i : ℝ) + 2) * τ := by
    by_contra hc
    exact absurd hsp (not_le.2 (dn i (not_lt.1 hc)))
  have u2 : (i : ℝ) * τ < θ := by
    rcases Nat.eq_zero_or_pos i with h | h
    · rw [h]; simp; linarith
    · by_contra hc
      push Not at hc
      obtain ⟨j, hj⟩ : ∃ j, i = j + 1 := ⟨i - 1, by omega⟩
      have a := hmin j (by omega)
      have hjn : (j : ℝ) + 1 ≤ n := by rw [hj] at hin; exact_mod_cast hin
      have b := up j (by rw [hj] at hc; push_cast at hc; exact hc) (by nlinarith)
      linarith
  rw [abs_lt]
  constructor <;> linarith

theorem unifF_pos {α r t : ℝ} (h0 : 0 ≤ α) (h1 : α < 1) (hr : 0 < r) (ht : 0 < t) : 0 < unifF α r t := by
  have a := Real.neg_one_le_cos t
  have b := Real.one_lt_cosh.2 (mul_pos hr ht).ne'
  have c : 0 < Real.sinh (r * t) := Real.sinh_pos_iff.2 (mul_pos hr ht)
  have d : 0 ≤ (1 - α ^ 2) * (1 + Real.cos t) := mul_nonneg (by nlinarith) (by linarith)
  have e : 0 < (1 + α ^ 2) * (Real.cosh (r * t) - 1) := mul_pos (by positivity) (by linarith)
  have f : 0 ≤ 2 * α * Real.sinh (r * t) := by positivity
  unfold unifF
  nlinarith [sq_nonneg α]

theorem alpha_real {l m : Lay} (hm : 0 < m.vs) (hx : m.xi = l.xi) :
    alphaStar l m = ((l.rho * l.vs / (m.rho * m.vs) : ℝ) : ℂ) := by
  unfold alphaStar vsStar
  rw [hx]
  have hs : csqrt (1 + 2 * I * (l.xi : ℂ)) ≠ 0 := csqrt_ne_zero (one_add_xi_ne l.xi)
  push_cast
  rw [← mul_assoc, ← mul_assoc, mul_div_mul_right _ _ hs]

/-- The amplifications of one layer on rock in terms of `unifF`. -/
theorem tf_unifF (l m : Lay) {c r : ℝ} (h : 1 / vsStar l = (c : ℂ) * (1 - r * I)) (w : ℝ) :
    ‖tfBh w [l, m]‖ ^ 2 = 2 / unifF 0 r (2 * (w * l.h * c)) ∧
    (∀ α : ℝ, alphaStar l m = (α : ℂ) → ‖tfRo w [l, m]‖ ^ 2 = 2 / unifF α r (2 * (w * l.h * c))) := by
  have hk : kStar w l * l.h = ((w * l.h * c : ℝ) : ℂ) - ((w * l.h * c * r : ℝ) : ℂ) * I := by
    unfold kStar
    rw [div_eq_mul_one_div, h]
    push_cast; ring
  obtain ⟨e1, -, e3⟩ := C187_closed w l m
  have key : ∀ α : ℝ, ‖cos (kStar w l * l.h) + I * α * sin (kStar w l * l.h)‖ ^ 2 = unifF α r (2 * (w * l.h * c)) / 2 := by
    intro α
    rw [hk, denom_norm]
    unfold unifF
    rw [show 2 * (w * l.h * c * r) = r * (2 * (w * l.h * c)) by ring]
  constructor
  · have := key 0
    rw [Complex.ofReal_zero, mul_zero, zero_mul, add_zero] at this
    rw [e3, norm_div, norm_one, div_pow, this, one_pow, one_div_div]
  · intro α hα
    rw [e1, hα, norm_div, norm_one, div_pow, key, one_pow, one_div_div]

/-- A profile whose soil is one material, in one layer or several, on rock. -/
def Spec.UniformOn (rows : List (Row ℝ)) (l b : Lay) : Prop :=
  0 < l.h ∧ ∃ g : List Lay, rows.map rowLay = g ++ [b] ∧ MakesUp l g

theorem uniform_facts {rows : List (Row ℝ)} {l b : Lay} (hv : Valid5 rows) (hu : Spec.UniformOn rows l b) :
    0 < l.vs ∧ 0 < l.xi ∧ 0 < l.rho ∧ 0 < b.vs ∧ 0 < b.xi ∧ 0 < b.rho ∧
    ∀ w, tfRo w (rows.map rowLay) = tfRo w [l, b] ∧ tfBh w (rows.map rowLay) = tfBh w [l, b] := by
  obtain ⟨hh, g, hg, hm⟩ := hu
  have hd := valid5_damped hv
  have hb := hd b (by rw [hg]; simp)
  have hl : 0 < l.vs ∧ 0 < l.xi ∧ 0 < l.rho := by
    rcases g with _ | ⟨x, g'⟩
    · exact absurd rfl hm.1
    · have hx := hd x (by rw [hg]; simp)
      obtain ⟨e1, e2, e3⟩ := hm.2.1 x (by simp)
      rw [← e1, ← e2, ← e3]
      exact ⟨hx.2.1, hx.2.2.2, hx.2.2.1⟩
  refine ⟨hl.1, hl.2.1, hl.2.2, hb.2.1, hb.2.2.2, hb.2.2.1, fun w => ?_⟩
  have := C34_subdivision w b [l] [g] (by intro k hk; rw [List.mem_singleton.1 hk]; exact ⟨hl.1, hl.2.2⟩) (List.Forall₂.cons hm .nil)
  simp only [List.flatten_cons, List.flatten_nil, List.append_nil, List.singleton_append] at this
  rw [hg]
  exact ⟨this.1, this.2.2⟩

theorem layer_ratio {c v r : ℝ} (hc : 0 < c) (hv : 0 < v) (hr : 0 < r) (hr4 : r ≤ 1 / 4)
    (h : (c * v) ^ 2 * (1 + r ^ 2) ^ 2 = 1 - r ^ 2) : c * v ≤ 1 ∧ 1 ≤ (1 + 2 * r ^ 2) * (c * v) := by
  have hp : 0 < c * v := mul_pos hc hv
  have hr2 : r ^ 2 ≤ 1 / 16 := by nlinarith
  have hr0 : 0 < r ^ 2 := by positivity
  set q := r ^ 2
  constructor
  · by_contra hn
    push Not at hn
    have : 1 < (c * v) ^ 2 := by nlinarith
    nlinarith
  · by_contra hn
    push Not at hn
    have a : ((1 + 2 * q) * (c * v)) ^ 2 < 1 := by
      have : 0 < (1 + 2 * q) * (c * v) := by positivity
      nlinarith
    have b : (1 + 2 * q) ^ 2 * (1 - q) < (1 + q) ^ 2 := by
      have := mul_lt_mul_of_pos_right a (show 0 < (1 + q) ^ 2 by positivity)
      rw [← h]
      nlinarith
    nlinarith [mul_pos hr0 hr0]

/-- Where the slope is positive at the first tabulated frequency. -/
theorem unifD_start_pos {α r ξ x V R : ℝ} (h0 : 0 ≤ α) (h1 : α < 1) (hr : 0 < r) (hrξ : r ≤ ξ) (hξ : ξ ≤ 1 / 4) (hx : 0 < x) (hx2 : x ≤ 1 / 2)
    (hV : 0 < V) (hR : 0 < R) (hxV : 8 / 9 * R ≤ x * V)
    (h : 3 * α * ξ * V < R * (16 / 9 * (1 - α ^ 2) - 4 * ξ ^ 2 * (1 + α ^ 2))) : 0 < unifD α r (Real.pi * x) := by
  have hpi := Real.pi_pos
  have hp := Real.pi_lt_d2
  have hα : 0 < 1 - α ^ 2 := by nlinarith
  have hxp : Real.pi * x ≤ Real.pi / 2 := by nlinarith
  obtain ⟨b1, b2⟩ := sinh_cosh_bounds (x := r * (Real.pi * x)) (by positivity) (by nlinarith [mul_pos hpi hx])
  have j := Real.mul_le_sin (x := Real.pi * x) (by positivity) hxp
  have j2 : 2 / Real.pi * (Real.pi * x) = 2 * x := by field_simp
  rw [j2] at j
  have b3 : Real.sinh (r * (Real.pi * x)) ≤ 9 / 2 * (r * x) := by
    have : 0 < r * x := mul_pos hr hx
    nlinarith
  have e1 : (1 - α ^ 2) * (2 * x) ≤ (1 - α ^ 2) * Real.sin (Real.pi * x) := mul_le_mul_of_nonneg_left j hα.le
  have e2 : r * ((1 + α ^ 2) * Real.sinh (r * (Real.pi * x)) + 2 * α * Real.cosh (r * (Real.pi * x))) ≤
      ξ * ((1 + α ^ 2) * (9 / 2 * (ξ * x)) + 3 * α) := by
    have c0 : 9 / 2 * (r * x) ≤ 9 / 2 * (ξ * x) := by nlinarith
    have c1 : (1 + α ^ 2) * Real.sinh (r * (Real.pi * x)) ≤ (1 + α ^ 2) * (9 / 2 * (ξ * x)) :=
      mul_le_mul_of_nonneg_left (b3.trans c0) (by positivity)
    have c2 : α * (2 * Real.cosh (r * (Real.pi * x))) ≤ α * 3 := mul_le_mul_of_nonneg_left b2 h0
    have c3 : 0 ≤ Real.sinh (r * (Real.pi * x)) := Real.sinh_nonneg_iff.2 (by positivity)
    have c4 := Real.cosh_pos (r * (Real.pi * x))
    exact mul_le_mul hrξ (by linarith) (by positivity) (by linarith)
  have hb : 0 < 16 / 9 * (1 - α ^ 2) - 4 * ξ ^ 2 * (1 + α ^ 2) := by
    by_contra hn
    push Not at hn
    have : R * (16 / 9 * (1 - α ^ 2) - 4 * ξ ^ 2 * (1 + α ^ 2)) ≤ 0 := mul_nonpos_of_nonneg_of_nonpos hR.le hn
    have : 0 ≤ 3 * α * ξ * V := by have : 0 < ξ := by linarith
                                   positivity
    linarith
  have e3 := mul_le_mul_of_nonneg_right hxV (show 0 ≤ 9 / 8 * (16 / 9 * (1 - α ^ 2) - 4 * ξ ^ 2 * (1 + α ^ 2)) by linarith)
  have e4 : 0 < V * ((1 - α ^ 2) * (2 * x) - ξ * ((1 + α ^ 2) * (9 / 2 * (ξ * x)) + 3 * α)) := by linarith
  have e5 := pos_of_mul_pos_right e4 hV.le
  unfold unifD
  linarith

/-- The grid of an amplification with the given squared values. -/
theorem grid_peak {A : Nat → ℝ} {α r c H v ξ : ℝ} (hA0 : ∀ k, 0 ≤ A k) (h0 : 0 ≤ α) (h1 : α < 1) (hc : 0 < c) (hH : 0 < H) (hv : 0 < v)
    (hr : 0 < r) (hrξ : r ≤ ξ) (hξ : ξ ≤ 1 / 4)
    (hcv : (c * v) ^ 2 * (1 + r ^ 2) ^ 2 = 1 - r ^ 2)
    (hA : ∀ k : Nat, A k ^ 2 = 2 / unifF α r (2 * (2 * Real.pi * (((k : ℝ) + 1) * tfRes) * H * c)))
    (hV1 : 1 / 8 ≤ v / (4 * H)) (hV2 : v / (4 * H) ≤ 26) (hG : ξ * (5 * ξ * (1 + α ^ 2) + 3 * α) ≤ 1 - α ^ 2)
    (h01 : A 0 < A 1 ∨ 3 * α * ξ * (v / (4 * H)) < tfRes * (16 / 9 * (1 - α ^ 2) - 4 * ξ ^ 2 * (1 + α ^ 2))) :
    ∃ i : Nat, i < 597 ∧ (∀ j < i, A j < A (j + 1)) ∧ A (i + 1) ≤ A i ∧
      v / (4 * H) * (1 - ξ * (5 * ξ * (1 + α ^ 2) + 3 * α) / (2 * (1 - α ^ 2))) - tfRes ≤ ((i : ℝ) + 1) * tfRes ∧
      ((i : ℝ) + 1) * tfRes ≤ v / (4 * H) * (1 + 2 * ξ ^ 2) + tfRes := by
  have hpi := Real.pi_pos
  have hres := tfRes_pos
  have hα : 0 < 1 - α ^ 2 := by nlinarith
  set τ := 4 * Real.pi * tfRes * H * c with hτd
  have hτ : 0 < τ := by positivity
  have eA : ∀ k : Nat, A k ^ 2 = 2 / unifF α r (((k : ℝ) + 1) * τ) := by
    intro k; rw [hA]; congr 2; rw [hτd]; ring
  have hF : ∀ k : Nat, 0 < unifF α r (((k : ℝ) + 1) * τ) := fun k => unifF_pos h0 h1 hr (by positivity)
  have ecast : ∀ k : Nat, ((k : ℝ) + 2) * τ = (((k + 1 : Nat) : ℝ) + 1) * τ := by intro k; push_cast; ring
  have lt_iff : ∀ j k : Nat, A j < A k ↔ unifF α r (((k : ℝ) + 1) * τ) < unifF α r (((j : ℝ) + 1) * τ) := by
    intro j k
    rw [← pow_lt_pow_iff_left₀ (hA0 j) (hA0 k) two_ne_zero, eA, eA, div_lt_div_iff_of_pos_left two_pos (hF j) (hF k)]
  obtain ⟨q1, q2⟩ := layer_ratio hc hv hr (by linarith) hcv
  have hV : v = 4 * H * (v / (4 * H)) := by field_simp
  set V := v / (4 * H) with hVd
  have hVp : 0 < V := by linarith
  have hr2 : r ^ 2 ≤ 1 / 16 := by nlinarith
  -- `f1 = 1 / (4 H c)` between `V` and `(1 + 2 r²) V`
  have f1 : 4 * H * c * V ≤ 1 := by rw [hV] at q1; linarith
  have f2 : 1 ≤ (1 + 2 * r ^ 2) * (4 * H * c * V) := by rw [hV] at q2; linarith
  have hHc : 0 < 4 * H * c := by positivity
  have hGr : r * (5 * r * (1 + α ^ 2) + 3 * α) ≤ ξ * (5 * ξ * (1 + α ^ 2) + 3 * α) := by
    have : 5 * r * (1 + α ^ 2) ≤ 5 * ξ * (1 + α ^ 2) := by nlinarith [sq_nonneg α]
    exact mul_le_mul hrξ (by linarith) (by positivity) (by linarith)
  have hτ2 : τ ≤ Real.pi / 2 := by
    have : 4 * H * c * (1 / 8) ≤ 4 * H * c * V := mul_le_mul_of_nonneg_left hV1 hHc.le
    have : tfRes ≤ 1 / 16 := by unfold tfRes; norm_num
    rw [hτd]
    have : 4 * H * c * tfRes ≤ 4 * H * c * (1 / 16) := mul_le_mul_of_nonneg_left ‹tfRes ≤ 1 / 16› hHc.le
    have : Real.pi * (4 * H * c * tfRes) ≤ Real.pi * (1 / 2) := mul_le_mul_of_nonneg_left (by linarith) hpi.le
    linarith
  have hN : Real.pi ≤ 597 * τ := by
    have a0 : 4 * H * c * V ≤ 4 * H * c * 26 := mul_le_mul_of_nonneg_left hV2 hHc.le
    have a1 : (1 + 2 * r ^ 2) * (4 * H * c * V) ≤ 9 / 8 * (4 * H * c * V) := mul_le_mul_of_nonneg_right (by linarith) (by positivity)
    have b : 9 / 8 * 26 ≤ 597 * tfRes := by unfold tfRes; norm_num
    have d : 4 * H * c * (9 / 8 * 26) ≤ 4 * H * c * (597 * tfRes) := mul_le_mul_of_nonneg_left b hHc.le
    have e : Real.pi * 1 ≤ Real.pi * (4 * H * c * (597 * tfRes)) := mul_le_mul_of_nonneg_left (by linarith) hpi.le
    rw [hτd]
    linarith
  have h01' : unifF α r (2 * τ) < unifF α r τ ∨ 0 < unifD α r τ := by
    rcases h01 with h | h
    · left
      have := (lt_iff 0 1).1 h
      simpa [one_add_one_eq_two] using this
    · right
      have e : τ = Real.pi * (4 * H * c * tfRes) := by rw [hτd]; ring
      rw [e] at hτ2 ⊢
      have hτ3 : 4 * H * c * tfRes ≤ 1 / 2 := le_of_mul_le_mul_left (show Real.pi * (4 * H * c * tfRes) ≤ Real.pi * (1 / 2) by linarith) hpi
      refine unifD_start_pos h0 h1 hr hrξ hξ (mul_pos hHc hres) hτ3 hVp hres ?_ h
      have a1 : (1 + 2 * r ^ 2) * (4 * H * c * V) ≤ 9 / 8 * (4 * H * c * V) := mul_le_mul_of_nonneg_right (by linarith) (by positivity)
      have a2 : tfRes * 1 ≤ tfRes * (9 / 8 * (4 * H * c * V)) := mul_le_mul_of_nonneg_left (by linarith) hres.le
      linarith
  obtain ⟨i, θ, p1, p2, p3, p4, p5, p6⟩ := peak_grid h0 h1 hr (by linarith) hτ hτ2 hN (hGr.trans hG) h01'
  refine ⟨i, p1, fun j hj => ?_, ?_, ?_, ?_⟩
  · rw [lt_iff, ← ecast]; exact p2 j hj
  · rw [← not_lt, lt_iff, ← ecast, not_lt]; exact p3
  all_goals
    set ε := ξ * (5 * ξ * (1 + α ^ 2) + 3 * α) / (2 * (1 - α ^ 2)) with hε
    have p6' : (Real.pi - θ) / Real.pi ≤ ε := p6.trans (div_le_div_of_nonneg_right hGr (by positivity))
    rw [div_le_iff₀ hpi] at p6'
    obtain ⟨w1, w2⟩ := abs_lt.1 p4
    have eτ : τ = Real.pi * (4 * H * c) * tfRes := by rw [hτd]; ring
    set f := ((i : ℝ) + 1) * tfRes with hf
    have ef : ((i : ℝ) + 1) * τ = Real.pi * (4 * H * c) * f := by rw [eτ, hf]; ring
    rw [ef] at w1 w2
    rw [eτ] at w1 w2
  · -- lower side
    have hε1 : ε ≤ 1 := by
      rw [hε, div_le_one (by positivity)]; linarith
    have a : Real.pi * (1 - ε) ≤ Real.pi * (4 * H * c) * (f + tfRes) := by linarith
    have b : 1 - ε ≤ 4 * H * c * (f + tfRes) := by
      have : Real.pi * (1 - ε) ≤ Real.pi * (4 * H * c * (f + tfRes)) := by linarith
      exact le_of_mul_le_mul_left this hpi
    have d : 4 * H * c * (V * (1 - ε)) ≤ 4 * H * c * (f + tfRes) := by
      have := mul_le_mul_of_nonneg_right f1 (show 0 ≤ 1 - ε by linarith)
      linarith
    have := le_of_mul_le_mul_left d hHc
    linarith
  · have a : Real.pi * (4 * H * c) * (f - tfRes) ≤ Real.pi * 1 := by linarith
    have b : 4 * H * c * (f - tfRes) ≤ 1 := by
      have : Real.pi * (4 * H * c * (f - tfRes)) ≤ Real.pi * 1 := by linarith
      exact le_of_mul_le_mul_left this hpi
    have d : 4 * H * c * (f - tfRes) ≤ 4 * H * c * (V * (1 + 2 * r ^ 2)) := by linarith
    have e := le_of_mul_le_mul_left d hHc
    have : V * (1 + 2 * r ^ 2) ≤ V * (1 + 2 * ξ ^ 2) := by
      refine mul_le_mul_of_nonneg_left ?_ hVp.le
      nlinarith
    linarith

/-- C187: `get_f0_BH` of a uniform soil deposit on rock (in one layer or several of the same material) is `Vs / (4 H)`, to within the frequency
step of 0.05 Hz of the table and a correction of second order in the damping ratio. -/
theorem C187_borehole (rows : List (Row ℝ)) (l b : Lay) (hv : Valid5 rows) (hu : Spec.UniformOn rows l b) (hx : l.xi ≤ 1 / 4)
    (hV1 : 1 / 8 ≤ l.vs / (4 * l.h)) (hV2 : l.vs / (4 * l.h) ≤ 26) :
    ∃ g, f0Bh rows = .ok g ∧ |g - l.vs / (4 * l.h)| ≤ tfRes + 5 / 2 * l.xi ^ 2 * (l.vs / (4 * l.h)) := by
  obtain ⟨a1, a2, a3, b1, b2, b3, ht⟩ := uniform_facts hv hu
  obtain ⟨c, r, hc, hr, hr1, hrx, hcv, hs⟩ := slowness l a1 a2
  obtain ⟨f, g, hf, hg, _, _, _, ⟨p, _⟩⟩ := C131_f0_partial rows hv
  have hrξ : r ≤ l.xi := by nlinarith [sq_nonneg r]
  obtain ⟨i, i1, i2, i3, i4, i5⟩ := grid_peak (α := 0) (A := fun k : Nat => ‖tfBh (2 * Real.pi * (((k : ℝ) + 1) * tfRes)) (rows.map rowLay)‖)
    (fun k => norm_nonneg _) le_rfl one_pos hc hu.1 a1 hr hrξ hx hcv
    (fun k => by rw [(ht _).2]; exact (tf_unifF l b hs _).1) hV1 hV2 (by nlinarith) (Or.inr (by
      have : 0 < tfRes * (16 / 9 * (1 - 0 ^ 2) - 4 * l.xi ^ 2 * (1 + 0 ^ 2)) := mul_pos tfRes_pos (by nlinarith)
      simpa using this))
  refine ⟨g, hg, ?_⟩
  rw [p i i1 i2 i3, abs_le]
  set V := l.vs / (4 * l.h)
  have : 0 ≤ V * l.xi ^ 2 := mul_nonneg (by linarith) (sq_nonneg _)
  norm_num at i4
  constructor <;> nlinarith

theorem outcrop_peak (rows : List (Row ℝ)) (l b : Lay) (hv : Valid5 rows) (hu : Spec.UniformOn rows l b) (hx : l.xi ≤ 1 / 4)
    (hb : b.xi = l.xi) (hV1 : 1 / 8 ≤ l.vs / (4 * l.h)) (hV2 : l.vs / (4 * l.h) ≤ 26) (α ε : ℝ)
    (hα : α = l.rho * l.vs / (b.rho * b.vs)) (hε' : ε = l.xi * (5 * l.xi * (1 + α ^ 2) + 3 * α)) (h1 : α < 1) (hε : ε ≤ 1 - α ^ 2)
    (hrise : ‖tfRo (2 * Real.pi * tfRes) (rows.map rowLay)‖ < ‖tfRo (2 * Real.pi * (2 * tfRes)) (rows.map rowLay)‖ ∨
      3 * α * l.xi * (l.vs / (4 * l.h)) < tfRes * (16 / 9 * (1 - α ^ 2) - 4 * l.xi ^ 2 * (1 + α ^ 2))) :
    ∃ g, f0Ro rows = .ok g ∧ |g - l.vs / (4 * l.h)| ≤ tfRes + l.vs / (4 * l.h) * (2 * l.xi ^ 2 + ε / (2 * (1 - α ^ 2))) := by
  obtain ⟨a1, a2, a3, b1, b2, b3, ht⟩ := uniform_facts hv hu
  obtain ⟨c, r, hc, hr, hr1, hrx, hcv, hs⟩ := slowness l a1 a2
  obtain ⟨f, g, hf, hg, _, _, ⟨p, _⟩, _⟩ := C131_f0_partial rows hv
  have hrξ : r ≤ l.xi := by nlinarith [sq_nonneg r]
  have h0 : 0 ≤ α := by rw [hα]; positivity
  obtain ⟨i, i1, i2, i3, i4, i5⟩ := grid_peak (α := α) (A := fun k : Nat => ‖tfRo (2 * Real.pi * (((k : ℝ) + 1) * tfRes)) (rows.map rowLay)‖)
    (fun k => norm_nonneg _) h0 h1 hc hu.1 a1 hr hrξ hx hcv
    (fun k => by rw [(ht _).1]; exact (tf_unifF l b hs _).2 α (by rw [hα]; exact alpha_real b1 hb)) hV1 hV2 (by rw [← hε']; exact hε)
    (hrise.imp_left (fun h => by simpa [one_add_one_eq_two] using h))
  refine ⟨f, hf, ?_⟩
  rw [← hε'] at i4
  rw [p i i1 i2 i3, abs_le]
  set V := l.vs / (4 * l.h)
  have hVp : 0 ≤ V := by linarith
  have e1 : 0 ≤ V * l.xi ^ 2 := mul_nonneg hVp (sq_nonneg _)
  have e2 : 0 ≤ V * (ε / (2 * (1 - α ^ 2))) := mul_nonneg hVp (div_nonneg (by rw [hε']; positivity) (by nlinarith))
  constructor <;> linarith

/-- C187: `get_f0_RO` of such a deposit, on rock of the same damping ratio and a larger impedance, is `Vs / (4 H)` to within 0.05 Hz, a term of
second order in the damping ratio and one in its product with the impedance ratio.  Missing: the amplification has to rise from the first to the
second tabulated frequency; where the damping is large enough against the step of the table it does not, and 0.05 Hz is returned
(`C187_outcrop_violated`).  Also missing: rock of another damping ratio. -/
theorem C187_outcrop_partial (rows : List (Row ℝ)) (l b : Lay) (hv : Valid5 rows) (hu : Spec.UniformOn rows l b) (hx : l.xi ≤ 1 / 4)
    (hb : b.xi = l.xi) (hV1 : 1 / 8 ≤ l.vs / (4 * l.h)) (hV2 : l.vs / (4 * l.h) ≤ 26) :
    let α := l.rho * l.vs / (b.rho * b.vs)
    let ε := l.xi * (5 * l.xi * (1 + α ^ 2) + 3 * α)
    α < 1 → ε ≤ 1 - α ^ 2 →
    ‖tfRo (2 * Real.pi * tfRes) (rows.map rowLay)‖ < ‖tfRo (2 * Real.pi * (2 * tfRes)) (rows.map rowLay)‖ →
    ∃ g, f0Ro rows = .ok g ∧ |g - l.vs / (4 * l.h)| ≤ tfRes + l.vs / (4 * l.h) * (2 * l.xi ^ 2 + ε / (2 * (1 - α ^ 2))) := by
  intro α ε h1 hε hrise
  exact outcrop_peak rows l b hv hu hx hb hV1 hV2 α ε rfl rfl h1 hε (Or.inl hrise)

/-- C187: the condition of `C187_outcrop_partial` in terms of the soil: if `3 α ξ Vs / (4 H)` is below `0.05 Hz (16/9 (1 - α²) - 4 ξ² (1 + α²))`
the peak is found. -/
theorem C187_outcrop_found (rows : List (Row ℝ)) (l b : Lay) (hv : Valid5 rows) (hu : Spec.UniformOn rows l b) (hx : l.xi ≤ 1 / 4)
    (hb : b.xi = l.xi) (hV1 : 1 / 8 ≤ l.vs / (4 * l.h)) (hV2 : l.vs / (4 * l.h) ≤ 26) :
    let α := l.rho * l.vs / (b.rho * b.vs)
    let ε := l.xi * (5 * l.xi * (1 + α ^ 2) + 3 * α)
    α < 1 → ε ≤ 1 - α ^ 2 →
    3 * α * l.xi * (l.vs / (4 * l.h)) < tfRes * (16 / 9 * (1 - α ^ 2) - 4 * l.xi ^ 2 * (1 + α ^ 2)) →
    ∃ g, f0Ro rows = .ok g ∧ |g - l.vs / (4 * l.h)| ≤ tfRes + l.vs / (4 * l.h) * (2 * l.xi ^ 2 + ε / (2 * (1 - α ^ 2))) := by
  intro α ε h1 hε hrise
  exact outcrop_peak rows l b hv hu hx hb hV1 hV2 α ε rfl rfl h1 hε (Or.inr hrise)

/-- C187: `get_f0_RO` does not give the fundamental frequency of every uniform deposit.  Damping makes the amplification fall, linearly in the
frequency, before the resonance lets it rise: whenever `3π · 0.05 Hz · (1 - α²) H / Vs ≤ α ξ (1 - ξ²)` it is larger at the first tabulated
frequency than at the second, and 0.05 Hz is returned, whatever `Vs / (4 H)` is. -/
theorem C187_outcrop_violated (rows : List (Row ℝ)) (l b : Lay) (hv : Valid5 rows) (hu : Spec.UniformOn rows l b) (hx : l.xi ≤ 1 / 4)
    (hb : b.xi = l.xi) :
    let α := l.rho * l.vs / (b.rho * b.vs)
    α < 1 → 3 * Real.pi * tfRes * (1 - α ^ 2) * l.h / l.vs ≤ α * (l.xi * (1 - l.xi ^ 2)) → f0Ro rows = .ok tfRes := by
  intro α h1 hsm
  obtain ⟨a1, a2, a3, b1, b2, b3, ht⟩ := uniform_facts hv hu
  obtain ⟨c, r, hc, hr, hr1, hrx, hcv, hs⟩ := slowness l a1 a2
  obtain ⟨f, g, hf, hg, _, _, ⟨p, _⟩, _⟩ := C131_f0_partial rows hv
  have hrξ : r ≤ l.xi := by nlinarith [sq_nonneg r]
  have hrl : l.xi * (1 - l.xi ^ 2) ≤ r := by
    have : r ^ 2 ≤ l.xi ^ 2 := by nlinarith
    nlinarith
  have h0 : 0 ≤ α := by positivity
  have hα : 0 < 1 - α ^ 2 := by nlinarith
  have hpi := Real.pi_pos
  have hres := tfRes_pos
  have hH := hu.1
  obtain ⟨q1, -⟩ := layer_ratio hc a1 hr (by linarith) hcv
  set τ := 4 * Real.pi * tfRes * l.h * c with hτd
  have hτ : 0 < τ := by positivity
  have hcl : c ≤ 1 / l.vs := by rw [le_div_iff₀ a1]; exact q1
  have hcond : 3 * (1 - α ^ 2) * τ ≤ 4 * α * r := by
    have e1 : 3 * (1 - α ^ 2) * τ ≤ 3 * (1 - α ^ 2) * (4 * Real.pi * tfRes * l.h * (1 / l.vs)) := by
      rw [hτd]
      exact mul_le_mul_of_nonneg_left (mul_le_mul_of_nonneg_left hcl (by positivity)) (by positivity)
    have e2 : 3 * (1 - α ^ 2) * (4 * Real.pi * tfRes * l.h * (1 / l.vs)) = 4 * (3 * Real.pi * tfRes * (1 - α ^ 2) * l.h / l.vs) := by
      field_simp
    have e3 : α * (l.xi * (1 - l.xi ^ 2)) ≤ α * r := mul_le_mul_of_nonneg_left hrl h0
    linarith
  have hle : unifF α r τ ≤ unifF α r (2 * τ) := by
    have c1 : Real.cos τ - 3 / 2 * τ ^ 2 ≤ Real.cos (2 * τ) := by
      have e := Real.cos_sub_cos (2 * τ) τ
      have s1 : |Real.sin ((2 * τ + τ) / 2)| ≤ (2 * τ + τ) / 2 := by
        refine (Real.abs_sin_le_abs ).trans ?_
        rw [abs_of_pos (by positivity)]
      have s2 : |Real.sin ((2 * τ - τ) / 2)| ≤ (2 * τ - τ) / 2 := by
        refine (Real.abs_sin_le_abs ).trans ?_
        rw [abs_of_pos (by linarith)]
      have s3 : |Real.sin ((2 * τ + τ) / 2) * Real.sin ((2 * τ - τ) / 2)| ≤ (2 * τ + τ) / 2 * ((2 * τ - τ) / 2) := by
        rw [abs_mul]
        exact mul_le_mul s1 s2 (abs_nonneg _) (by positivity)
      have := (abs_le.1 s3).2
      nlinarith
    have c2 : Real.cosh (r * τ) ≤ Real.cosh (r * (2 * τ)) := by
      rw [Real.cosh_le_cosh, abs_of_pos (by positivity), abs_of_pos (by positivity)]
      nlinarith [mul_pos hr hτ]
    have c3 : Real.sinh (r * τ) + r * τ ≤ Real.sinh (r * (2 * τ)) := by
      rw [show r * (2 * τ) = 2 * (r * τ) by ring, Real.sinh_two_mul]
      have x := Real.self_le_sinh_iff.2 (mul_pos hr hτ).le
      have y := Real.one_le_cosh (r * τ)
      have z := mul_nonneg (show 0 ≤ Real.sinh (r * τ) by linarith [mul_pos hr hτ]) (show 0 ≤ Real.cosh (r * τ) - 1 by linarith)
      linarith
    have d1 := mul_le_mul_of_nonneg_left c1 hα.le
    have d2 := mul_le_mul_of_nonneg_left c2 (show 0 ≤ 1 + α ^ 2 by positivity)
    have d3 := mul_le_mul_of_nonneg_left c3 (show 0 ≤ 2 * α by positivity)
    have d4 := mul_le_mul_of_nonneg_right hcond hτ.le
    unfold unifF
    linarith
  have hA := p 0 (by norm_num) (fun j hj => by omega) (by
    simp only
    rw [← pow_le_pow_iff_left₀ (norm_nonneg _) (norm_nonneg _) two_ne_zero, (ht _).1, (ht _).1,
      (tf_unifF l b hs _).2 α (alpha_real b1 hb), (tf_unifF l b hs _).2 α (alpha_real b1 hb)]
    have e1 : 2 * (2 * Real.pi * (((0 : Nat) : ℝ) + 1) * tfRes * l.h * c) = τ := by rw [hτd]; push_cast; ring
    have e2 : 2 * (2 * Real.pi * ((((0 + 1 : Nat) : ℝ) + 1) * tfRes) * l.h * c) = 2 * τ := by rw [hτd]; push_cast; ring
    rw [e2, show 2 * (2 * Real.pi * ((((0 : Nat) : ℝ) + 1) * tfRes) * l.h * c) = τ by rw [hτd]; push_cast; ring]
    exact div_le_div_of_nonneg_left two_pos.le (unifF_pos h0 h1 hr hτ) hle)
  rw [hf, hA]
  norm_num

/-! ## Cases -/

/-- 10 m of soil (200 m/s, 5 % damping) on rock (400 m/s). -/
noncomputable def soilOnRock : List (Row ℝ) := [⟨4, 200, 1 / 20, 1800, 1⟩, ⟨6, 200, 1 / 20, 1800, 1⟩, ⟨0, 400, 1 / 20, 1800, 0⟩]

theorem soilOnRock_valid : Valid5 soilOnRock ∧ Spec.UniformOn soilOnRock ⟨10, 200, 1 / 20, 1800⟩ ⟨0, 400, 1 / 20, 1800⟩ := by
  constructor
  · refine ⟨by simp [soilOnRock], by simp [soilOnRock], ?_, ?_, ?_, by simp [soilOnRock], ?_⟩
    all_goals
      intro r hr
      simp only [soilOnRock, List.mem_cons, List.not_mem_nil, or_false] at hr
    · rcases hr with rfl | rfl | rfl <;> norm_num
    · rcases hr with rfl | rfl | rfl <;> norm_num
    · rcases hr with rfl | rfl | rfl
      · exact ⟨1, by norm_num⟩
      · exact ⟨1, by norm_num⟩
      · exact ⟨0, by norm_num⟩
    · rcases hr with rfl | rfl | rfl <;> norm_num
  · refine ⟨by norm_num, [⟨4, 200, 1 / 20, 1800⟩, ⟨6, 200, 1 / 20, 1800⟩], by simp [soilOnRock, rowLay], by simp, ?_, by norm_num⟩
    intro x hx
    simp only [List.mem_cons, List.not_mem_nil, or_false] at hx
    rcases hx with rfl | rfl <;> simp

/-- The fundamental frequency is 5 Hz; `get_f0_BH` finds it to 0.09 Hz, `get_f0_RO` returns 0.05 Hz. -/
example : (∃ g, f0Bh soilOnRock = .ok g ∧ |g - 5| ≤ 9 / 100) ∧ f0Ro soilOnRock = .ok tfRes := by
  obtain ⟨hv, hu⟩ := soilOnRock_valid
  constructor
  · obtain ⟨g, h1, h2⟩ := C187_borehole _ _ _ hv hu (by norm_num) (by norm_num) (by norm_num)
    refine ⟨g, h1, ?_⟩
    norm_num at h2
    have : tfRes ≤ 51 / 1000 := by unfold tfRes; norm_num
    linarith
  · refine C187_outcrop_violated _ _ _ hv hu (by norm_num) rfl (by norm_num) ?_
    have := Real.pi_lt_d2
    have : tfRes ≤ 51 / 1000 := by unfold tfRes; norm_num
    have h := tfRes_pos
    norm_num
    nlinarith

/-- 40 m of soil of 160 m/s and 1 % damping on rock of 1600 m/s: `get_f0_RO` finds 1 Hz to 0.055 Hz. -/
example : ∃ g, f0Ro [⟨40, 160, 1 / 100, 1800, 1⟩, ⟨0, 1600, 1 / 100, 1800, 0⟩] = .ok g ∧ |g - 1| ≤ 55 / 1000 := by
  have hv : Valid5 [(⟨40, 160, 1 / 100, 1800, 1⟩ : Row ℝ), ⟨0, 1600, 1 / 100, 1800, 0⟩] := by
    refine ⟨by simp, by simp, ?_, ?_, ?_, by simp, ?_⟩
    all_goals
      intro r hr
      simp only [List.mem_cons, List.not_mem_nil, or_false] at hr
    · rcases hr with rfl | rfl <;> norm_num
    · rcases hr with rfl | rfl <;> norm_num
    · rcases hr with rfl | rfl
      · exact ⟨1, by norm_num⟩
      · exact ⟨0, by norm_num⟩
    · rcases hr with rfl | rfl <;> norm_num
  have hu : Spec.UniformOn [⟨40, 160, 1 / 100, 1800, 1⟩, ⟨0, 1600, 1 / 100, 1800, 0⟩] ⟨40, 160, 1 / 100, 1800⟩ ⟨0, 1600, 1 / 100, 1800⟩ :=
    ⟨by norm_num, [⟨40, 160, 1 / 100, 1800⟩], by simp [rowLay], by simp, by intro x hx; rw [List.mem_singleton.1 hx]; simp, by norm_num⟩
  have t1 : tfRes ≤ 501 / 10000 := by unfold tfRes; norm_num
  have t2 : 49 / 1000 ≤ tfRes := by unfold tfRes; norm_num
  obtain ⟨g, h1, h2⟩ := C187_outcrop_found _ _ _ hv hu (by norm_num) rfl (by norm_num) (by norm_num) (by norm_num) (by norm_num)
    (by norm_num; linarith)
  refine ⟨g, h1, ?_⟩
  norm_num at h2
  linarith

end Verif
