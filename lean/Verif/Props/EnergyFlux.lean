import Verif.Props.Transfer
import Mathlib.MeasureTheory.Integral.IntervalIntegral.Basic
import Mathlib.MeasureTheory.Integral.IntervalIntegral.FundThmCalculus

/-!
C191: the power that the waves carry into the column is what the layers dissipate; hence the amplification relative to rock outcrop is
never larger than the one relative to the motion within the ground, apart from the damping of the base.
-/

set_option linter.unusedSectionVars false
set_option linter.unusedVariables false

open Complex

namespace Verif

namespace Spec

noncomputable section

/-- Power carried upwards through the depth `z` of a layer (times 2/w): imaginary part of the product of the shear stress and the conjugate of
the displacement. -/
def powerUp (l : Lay) (f : Field) (z : ℝ) : ℝ := (modulus l * f.du z * (starRingEnd ℂ) (f.u z)).im

/-- Power dissipated in a layer (times 2/w): twice the damping times the modulus times the integral of the squared strain. -/
def dissipated (l : Lay) (f : Field) : ℝ := ∫ z in (0 : ℝ)..l.h, 2 * l.xi * (l.rho * l.vs ^ 2) * ‖f.du z‖ ^ 2

end

end Spec

open Spec

theorem modulus_im (l : Lay) : (modulus l).im = 2 * l.xi * (l.rho * l.vs ^ 2) := by
  unfold modulus
  have : (l.rho : ℂ) * (l.vs : ℂ) ^ 2 * (1 + 2 * I * (l.xi : ℂ)) = ((l.rho * l.vs ^ 2 : ℝ) : ℂ) + ((2 * l.xi * (l.rho * l.vs ^ 2) : ℝ) : ℂ) * I := by
    push_cast; ring
  rw [this, Complex.add_im, Complex.ofReal_im, Complex.im_ofReal_mul, Complex.I_im]; ring

theorem powerUp_deriv {w : ℝ} {l : Lay} {f : Spec.Field} (h : Wave w l f) (z : ℝ) :
    HasDerivAt (powerUp l f) (2 * l.xi * (l.rho * l.vs ^ 2) * ‖f.du z‖ ^ 2) z := by
  obtain ⟨h1, a, h2, h3⟩ := h z
  have hc : HasDerivAt (fun z => (starRingEnd ℂ) (f.u z)) ((starRingEnd ℂ) (f.du z)) z := h1.star
  have hp := ((h2.const_mul (modulus l)).mul hc)
  have hi := (Complex.imCLM.hasFDerivAt (x := modulus l * f.du z * (starRingEnd ℂ) (f.u z))).comp_hasDerivAt z hp
  refine hi.congr_deriv ?_
  have e : modulus l * a * (starRingEnd ℂ) (f.u z) + modulus l * f.du z * (starRingEnd ℂ) (f.du z)
      = ((-(l.rho * w ^ 2 * ‖f.u z‖ ^ 2) : ℝ) : ℂ) + modulus l * ((‖f.du z‖ ^ 2 : ℝ) : ℂ) := by
    rw [h3]
    have e1 := Complex.mul_conj' (f.u z)
    have e2 := Complex.mul_conj' (f.du z)
    push_cast
    linear_combination (-((l.rho : ℂ) * (w : ℂ) ^ 2)) * e1 + modulus l * e2
  show Complex.imCLM _ = _
  rw [e, Complex.imCLM_apply, Complex.add_im, Complex.ofReal_im, Complex.im_mul_ofReal, modulus_im]
  ring

theorem powerUp_layer {w : ℝ} {l : Lay} {f : Spec.Field} (h : Wave w l f) : powerUp l f l.h = powerUp l f 0 + dissipated l f := by
  have hcont : Continuous fun z => 2 * l.xi * (l.rho * l.vs ^ 2) * ‖f.du z‖ ^ 2 := by
    have : Continuous f.du := continuous_iff_continuousAt.2 fun z => by
      obtain ⟨-, a, h2, -⟩ := h z
      exact h2.continuousAt
    fun_prop
  have := intervalIntegral.integral_eq_sub_of_hasDerivAt (a := 0) (b := l.h) (fun z _ => powerUp_deriv h z) (hcont.intervalIntegrable _ _)
  unfold dissipated
  linarith

theorem dissipated_nonneg {l : Lay} (hd : DampedLay l) (f : Spec.Field) : 0 ≤ dissipated l f := by
  obtain ⟨h1, h2, h3, h4⟩ := hd
  exact intervalIntegral.integral_nonneg h1 fun z _ => by positivity

theorem powerUp_interface {l m : Lay} {f g : Spec.Field} (h : Interface l m f g) : powerUp m g 0 = powerUp l f l.h := by
  unfold powerUp
  rw [h.2, h.1]

/-- C191, energy balance: in every harmonic motion of the column, the power carried upwards through the top of layer `k` is the sum of the
powers dissipated in the layers above it. -/
theorem C191_balance {w : ℝ} {ls : List Lay} {fs : List Spec.Field} (hs : SiteResponse w ls fs) (k : Nat) (l : Lay) (f : Spec.Field)
    (hl : ls[k]? = some l) (hf : fs[k]? = some f) : powerUp l f 0 = (((ls.zip fs).take k).map fun p => dissipated p.1 p.2).sum := by
  induction k generalizing l f with
  | zero =>
    have : f.du 0 = 0 := hs.surface f (by rw [List.head?_eq_getElem?]; exact hf)
    simp [powerUp, this]
  | succ k ih =>
    have k1 : k < ls.length := by have := (List.getElem?_eq_some_iff.1 hl).1; omega
    have k2 : k < fs.length := by have := (List.getElem?_eq_some_iff.1 hf).1; omega
    have i := hs.interfaces k ls[k] l fs[k] f (List.getElem?_eq_getElem k1) hl (List.getElem?_eq_getElem k2) hf
    have wv : Wave w ls[k] fs[k] := hs.wave.get k1 k2
    have hz : (ls.zip fs)[k]? = some (ls[k], fs[k]) := by
      rw [List.getElem?_zip_eq_some]
      exact ⟨List.getElem?_eq_getElem k1, List.getElem?_eq_getElem k2⟩
    rw [powerUp_interface i, powerUp_layer wv, ih _ _ (List.getElem?_eq_getElem k1) (List.getElem?_eq_getElem k2), List.take_add_one, hz]
    simp

theorem powerUp_base {w : ℝ} (hw : 0 < w) {l : Lay} (hv : 0 < l.vs) (f : Spec.Field) :
    powerUp l f 0 = l.rho * w * ((vsStar l * (2 * upgoing (kStar w l) f) * (starRingEnd ℂ) (f.u 0)).re - (vsStar l).re * ‖f.u 0‖ ^ 2) := by
  have hk := kStar_ne hw hv (l := l)
  have e : modulus l * f.du 0 = I * ((l.rho * w : ℝ) : ℂ) * (vsStar l * (2 * upgoing (kStar w l) f) - vsStar l * f.u 0) := by
    have h1 := kStar_mul (w := w) hv
    rw [modulus_eq]
    unfold upgoing
    push_cast
    rw [← h1]
    have hI := Complex.I_ne_zero
    field_simp
    ring
  have e2 : modulus l * f.du 0 * (starRingEnd ℂ) (f.u 0)
      = ((l.rho * w : ℝ) : ℂ) * (I * (vsStar l * (2 * upgoing (kStar w l) f) * (starRingEnd ℂ) (f.u 0) - vsStar l * ((‖f.u 0‖ ^ 2 : ℝ) : ℂ))) := by
    have e1 := Complex.mul_conj' (f.u 0)
    rw [e]; push_cast
    linear_combination (-(I * ((l.rho : ℂ) * (w : ℂ)) * vsStar l)) * e1
  unfold powerUp
  rw [e2, Complex.im_ofReal_mul, Complex.I_mul_im, Complex.sub_re, Complex.re_mul_ofReal]

theorem vsStar_slope {l : Lay} (hv : 0 < l.vs) : ‖vsStar l‖ ≤ Real.sqrt (1 + l.xi ^ 2) * (vsStar l).re := by
  have hr := vsStar_re_pos hv
  have e := vsStar_sq l
  have e1 : (vsStar l).re ^ 2 - (vsStar l).im ^ 2 = l.vs ^ 2 := by
    have := congrArg Complex.re e
    rw [show (l.vs : ℂ) ^ 2 * (1 + 2 * I * (l.xi : ℂ)) = ((l.vs ^ 2 : ℝ) : ℂ) + ((2 * l.xi * l.vs ^ 2 : ℝ) : ℂ) * I by push_cast; ring] at this
    simp [pow_two] at this
    nlinarith
  have e2 : 2 * ((vsStar l).re * (vsStar l).im) = 2 * l.xi * l.vs ^ 2 := by
    have := congrArg Complex.im e
    rw [show (l.vs : ℂ) ^ 2 * (1 + 2 * I * (l.xi : ℂ)) = ((l.vs ^ 2 : ℝ) : ℂ) + ((2 * l.xi * l.vs ^ 2 : ℝ) : ℂ) * I by push_cast; ring] at this
    simp [pow_two] at this
    nlinarith
  set a := (vsStar l).re
  set b := (vsStar l).im
  have hb : b ^ 2 ≤ l.xi ^ 2 * a ^ 2 := by
    have h1 : a * b = l.xi * (a ^ 2 - b ^ 2) := by rw [e1]; linarith
    have h2 : a ^ 2 * b ^ 2 = l.xi ^ 2 * (a ^ 2 - b ^ 2) ^ 2 := by
      have : (a * b) ^ 2 = (l.xi * (a ^ 2 - b ^ 2)) ^ 2 := by rw [h1]
      linarith [mul_pow a b 2, mul_pow l.xi (a ^ 2 - b ^ 2) 2]
    have h3 : 0 ≤ a ^ 2 - b ^ 2 := by rw [e1]; positivity
    have h4 : (a ^ 2 - b ^ 2) ^ 2 ≤ a ^ 2 * a ^ 2 := by nlinarith [sq_nonneg b, sq_nonneg a]
    have h5 : a ^ 2 * b ^ 2 ≤ a ^ 2 * (l.xi ^ 2 * a ^ 2) := by
      rw [h2]; nlinarith [mul_le_mul_of_nonneg_left h4 (sq_nonneg l.xi)]
    exact le_of_mul_le_mul_left h5 (by positivity)
  have hn : ‖vsStar l‖ ^ 2 = a ^ 2 + b ^ 2 := by
    rw [← Complex.normSq_eq_norm_sq, Complex.normSq_apply]; ring
  have hs := Real.sq_sqrt (show 0 ≤ 1 + l.xi ^ 2 by positivity)
  refine abs_le_of_sq_le_sq' ?_ (by positivity) |>.2
  rw [hn, mul_pow, hs]; nlinarith

/-- C191: in every harmonic motion of the column the motion at its base is at most twice the incident motion, up to the factor
`√(1 + ξ²)` due to the damping `ξ` of the base. -/
theorem C191_base {w : ℝ} (hw : 0 < w) {ls : List Lay} (hd : ∀ l ∈ ls, DampedLay l) {fs : List Spec.Field} (hs : SiteResponse w ls fs)
    (g : Spec.Field) (m : Lay) (hg : fs.getLast? = some g) (hm : ls.getLast? = some m) (κ : ℂ) (hκ : WaveNumber w m κ) :
    ‖g.u 0‖ ≤ Real.sqrt (1 + m.xi ^ 2) * (2 * ‖upgoing κ g‖) := by
  have hmd := hd m (List.mem_of_getLast? hm)
  obtain ⟨-, hv, hr, hx⟩ := hmd
  obtain rfl := waveNumber_unique hw hv hr hκ
  have hlen := hs.wave.length_eq
  have hb := C191_balance hs (ls.length - 1) m g (by rw [← List.getLast?_eq_getElem?]; exact hm)
    (by rw [hlen, ← List.getLast?_eq_getElem?]; exact hg)
  have hnn : 0 ≤ powerUp m g 0 := by
    rw [hb]
    refine List.sum_nonneg fun x hx => ?_
    obtain ⟨p, hp, rfl⟩ := List.mem_map.1 hx
    exact dissipated_nonneg (hd _ (List.of_mem_zip (List.mem_of_mem_take hp)).1) _
  rw [powerUp_base hw hv] at hnn
  have h1 : (vsStar m).re * ‖g.u 0‖ ^ 2 ≤ (vsStar m * (2 * upgoing (kStar w m) g) * (starRingEnd ℂ) (g.u 0)).re := by
    have := nonneg_of_mul_nonneg_right hnn (by positivity)
    linarith
  have h2 := (Complex.re_le_norm (vsStar m * (2 * upgoing (kStar w m) g) * (starRingEnd ℂ) (g.u 0)))
  rw [norm_mul, norm_mul, norm_mul, Complex.norm_two, Complex.norm_conj] at h2
  have hre := vsStar_re_pos hv (l := m)
  rcases (norm_nonneg (g.u 0)).eq_or_lt with h0 | h0
  · rw [← h0]; positivity
  · have h3 : (vsStar m).re * ‖g.u 0‖ ≤ ‖vsStar m‖ * (2 * ‖upgoing (kStar w m) g‖) := by
      have : ((vsStar m).re * ‖g.u 0‖) * ‖g.u 0‖ ≤ (‖vsStar m‖ * (2 * ‖upgoing (kStar w m) g‖)) * ‖g.u 0‖ := by nlinarith
      exact le_of_mul_le_mul_right this h0
    have h4 := mul_le_mul_of_nonneg_right (vsStar_slope hv) (show 0 ≤ 2 * ‖upgoing (kStar w m) g‖ by positivity)
    have h5 : (vsStar m).re * ‖g.u 0‖ ≤ (vsStar m).re * (Real.sqrt (1 + m.xi ^ 2) * (2 * ‖upgoing (kStar w m) g‖)) := by
      refine (h3.trans h4).trans (le_of_eq (by ring))
    exact le_of_mul_le_mul_left h5 hre

/-- C191: at every frequency the amplification relative to rock outcrop is at most the amplification relative to the motion within the
ground, times `√(1 + ξ²)`, `ξ` being the damping of the base.  Missing: the inequality without the factor, which fails for a base with damping
(`C191_amplification_violated`). -/
theorem C191_amplification_partial (w : ℝ) (hw : 0 < w) (ls : List Lay) (hd : ∀ l ∈ ls, DampedLay l) (m : Lay) (hm : ls.getLast? = some m) :
    ‖tfRo w ls‖ ≤ Real.sqrt (1 + m.xi ^ 2) * ‖tfBh w ls‖ ∧ ‖tfIn w ls‖ ≤ 2 * Real.sqrt (1 + m.xi ^ 2) * ‖tfBh w ls‖ := by
  have hne : ls ≠ [] := by rintro rfl; simp at hm
  obtain ⟨fs, f, hs, hf, hf1⟩ := C33_realised w hw ls hne fun l hl => ⟨(hd l hl).2.1, (hd l hl).2.2.1⟩
  have hmd := hd m (List.mem_of_getLast? hm)
  have hfs : fs ≠ [] := by rintro rfl; simp at hf
  have hg : fs.getLast? = some (fs.getLast hfs) := List.getLast?_eq_some_getLast hfs
  have hκ := kStar_waveNumber hw hmd.2.1 (l := m)
  obtain ⟨a1, a2, a3⟩ := C33_wave w hw ls hd fs hs f _ m hf hg hm _ hκ
  have hb := C191_base hw hd hs _ m hg hm _ hκ
  set A := upgoing (kStar w m) (fs.getLast hfs)
  have hA : 0 < ‖A‖ := by
    rw [norm_pos_iff]; intro h
    rw [h, hf1] at a2; simp at a2
  have key : ‖tfIn w ls‖ ≤ 2 * Real.sqrt (1 + m.xi ^ 2) * ‖tfBh w ls‖ := by
    have e : ‖tfIn w ls‖ * ‖A‖ = ‖tfBh w ls‖ * ‖(fs.getLast hfs).u 0‖ := by rw [← norm_mul, ← norm_mul, a2, a3]
    have := mul_le_mul_of_nonneg_left hb (norm_nonneg (tfBh w ls))
    refine le_of_mul_le_mul_right (a := ‖A‖) ?_ hA
    rw [e]; linarith
  refine ⟨?_, key⟩
  rw [C33_ratio, norm_mul, Complex.norm_two] at key
  linarith

theorem tf_two (w : ℝ) (l m : Lay) :
    tfRo w [l, m] = 1 / (cos (kStar w l * l.h) + I * alphaStar l m * sin (kStar w l * l.h)) ∧ tfBh w [l, m] = 1 / cos (kStar w l * l.h) := by
  have e1 : (eMat w [l, m]).a + (eMat w [l, m]).b = cos (kStar w l * l.h) + I * alphaStar l m * sin (kStar w l * l.h) := by
    rw [(eMat_den _ _).1, eMat_cons, eMat_one, M2.id_dot]
    simp only [M2.app, dMat]
    rw [show I * kStar w l * (l.h : ℂ) = kStar w l * l.h * I by ring, show -I * kStar w l * (l.h : ℂ) = -(kStar w l * l.h) * I by ring,
      Complex.exp_mul_I, Complex.exp_mul_I, Complex.cos_neg, Complex.sin_neg]
    ring
  have e2 : (eMat w [l, m]).a + (eMat w [l, m]).c + (eMat w [l, m]).b + (eMat w [l, m]).d = 2 * cos (kStar w l * l.h) := by
    rw [(eMat_den _ _).2, eMat_cons, eMat_one, M2.id_dot]
    simp only [M2.app, dMat]
    rw [show I * kStar w l * (l.h : ℂ) = kStar w l * l.h * I by ring, show -I * kStar w l * (l.h : ℂ) = -(kStar w l * l.h) * I by ring,
      Complex.exp_mul_I, Complex.exp_mul_I, Complex.cos_neg, Complex.sin_neg]
    ring
  unfold tfRo tfBh
  rw [e1, e2]
  refine ⟨rfl, ?_⟩
  rw [div_mul_eq_div_div]; norm_num

theorem vsStar_zero (h vs rho : ℝ) : vsStar ⟨h, vs, 0, rho⟩ = vs := by
  unfold vsStar csqrt; simp

theorem vsStar_cont (h vs rho : ℝ) : ContinuousAt (fun x : ℝ => vsStar ⟨h, vs, x, rho⟩) 0 := by
  unfold vsStar csqrt
  refine ContinuousAt.mul (f := fun _ : ℝ => (vs : ℂ)) continuousAt_const ?_
  have : ContinuousAt (fun z : ℂ => z ^ (1 / 2 : ℂ)) (1 + 2 * I * ((0 : ℝ) : ℂ)) := by
    refine continuousAt_cpow_const ?_
    left; simp
  exact ContinuousAt.comp (f := fun x : ℝ => 1 + 2 * I * (x : ℂ)) this (by fun_prop)

theorem vsStar_im {l : Lay} (hv : 0 < l.vs) (hx : 0 < l.xi) : l.xi * l.vs ≤ (vsStar l).im * Real.sqrt (1 + l.xi ^ 2) ∧ 0 < (vsStar l).im := by
  have hr := vsStar_re_pos hv
  have e := vsStar_sq l
  have e1 : (vsStar l).re ^ 2 - (vsStar l).im ^ 2 = l.vs ^ 2 := by
    have := congrArg Complex.re e
    rw [show (l.vs : ℂ) ^ 2 * (1 + 2 * I * (l.xi : ℂ)) = ((l.vs ^ 2 : ℝ) : ℂ) + ((2 * l.xi * l.vs ^ 2 : ℝ) : ℂ) * I by push_cast; ring] at this
    simp [pow_two] at this
    nlinarith
  have e2 : (vsStar l).re * (vsStar l).im = l.xi * l.vs ^ 2 := by
    have := congrArg Complex.im e
    rw [show (l.vs : ℂ) ^ 2 * (1 + 2 * I * (l.xi : ℂ)) = ((l.vs ^ 2 : ℝ) : ℂ) + ((2 * l.xi * l.vs ^ 2 : ℝ) : ℂ) * I by push_cast; ring] at this
    simp [pow_two] at this
    nlinarith
  set a := (vsStar l).re
  set b := (vsStar l).im
  have hb : 0 < b := pos_of_mul_pos_right (by rw [e2]; positivity : 0 < a * b) hr.le
  refine ⟨?_, hb⟩
  have hs := Real.sq_sqrt (show 0 ≤ 1 + l.xi ^ 2 by positivity)
  -- a² ≤ vs² (1 + ξ²)
  have ha : a ^ 2 ≤ l.vs ^ 2 * (1 + l.xi ^ 2) := by
    have h1 : b ^ 2 * a ^ 2 = l.xi ^ 2 * l.vs ^ 2 * l.vs ^ 2 := by
      have := congrArg (· ^ 2) e2
      simp only [mul_pow] at this
      linarith
    have h2 : l.vs ^ 2 ≤ a ^ 2 := by nlinarith [sq_nonneg b]
    have h3 : b ^ 2 * l.vs ^ 2 ≤ l.xi ^ 2 * l.vs ^ 2 * l.vs ^ 2 := by
      rw [← h1]; exact mul_le_mul_of_nonneg_left h2 (sq_nonneg b)
    have h4 : b ^ 2 ≤ l.xi ^ 2 * l.vs ^ 2 := le_of_mul_le_mul_right h3 (by positivity)
    nlinarith
  have ha' : a ≤ l.vs * Real.sqrt (1 + l.xi ^ 2) := by
    refine abs_le_of_sq_le_sq' ?_ (by positivity) |>.2
    rw [mul_pow, hs]; exact ha
  have h5 : l.vs * (l.xi * l.vs) ≤ l.vs * (b * Real.sqrt (1 + l.xi ^ 2)) := by
    have := mul_le_mul_of_nonneg_right ha' hb.le
    nlinarith
  exact le_of_mul_le_mul_left h5 hv

/-- C191 is violated, in general: for a soft layer on any damped base with impedance ratio below about twice the damping of the base
(`ρ Vs √(1 + ξ²) < 2 ξ ρ_b V_b`) the amplification relative to rock outcrop is larger than the one relative to the motion within the ground, at the
frequency of which the layer is three eighths of a wave length, whenever the layer has little enough damping. -/
theorem C191_amplification_violated (h vs rho : ℝ) (hh : 0 < h) (hv : 0 < vs) (hr : 0 < rho) (m : Lay) (hm : DampedLay m)
    (himp : rho * vs * Real.sqrt (1 + m.xi ^ 2) < 2 * m.xi * (m.rho * m.vs)) :
    ∃ ε > 0, ∀ ξ, 0 < ξ → ξ < ε → ‖tfBh (3 * Real.pi / 4 * vs / h) [⟨h, vs, ξ, rho⟩, m]‖ < ‖tfRo (3 * Real.pi / 4 * vs / h) [⟨h, vs, ξ, rho⟩, m]‖ := by
  set w := 3 * Real.pi / 4 * vs / h with hw
  have hwp : 0 < w := by have := Real.pi_pos; positivity
  obtain ⟨hm0, hmv, hmr, hmx⟩ := hm
  obtain ⟨i1, i2⟩ := vsStar_im hmv hmx
  have hsq : 0 < Real.sqrt (1 + m.xi ^ 2) := Real.sqrt_pos.2 (by positivity)
  have himp' : rho * vs < 2 * m.rho * (vsStar m).im := by
    have h1 : rho * vs * Real.sqrt (1 + m.xi ^ 2) < (2 * m.rho * (vsStar m).im) * Real.sqrt (1 + m.xi ^ 2) := by
      refine himp.trans_le ?_
      have := mul_le_mul_of_nonneg_left i1 (show 0 ≤ 2 * m.rho by positivity)
      nlinarith
    exact lt_of_mul_lt_mul_right h1 hsq.le
  -- the two denominators as functions of the damping of the layer
  let L : ℝ → Lay := fun x => ⟨h, vs, x, rho⟩
  let F : ℝ → ℂ := fun x => cos (kStar w (L x) * h) + I * alphaStar (L x) m * sin (kStar w (L x) * h)
  let C : ℝ → ℂ := fun x => cos (kStar w (L x) * h)
  have hvc := vsStar_cont h vs rho
  have hv0 : vsStar (L 0) ≠ 0 := vsStar_ne hv
  have hkc : ContinuousAt (fun x => kStar w (L x) * h) 0 := by
    unfold kStar
    exact (continuousAt_const.div hvc hv0).mul continuousAt_const
  have hac : ContinuousAt (fun x => alphaStar (L x) m) 0 := by
    unfold alphaStar
    exact (continuousAt_const.mul hvc).div_const _
  have hcc : ContinuousAt C 0 := Complex.continuous_cos.continuousAt.comp hkc
  have hsc : ContinuousAt (fun x => sin (kStar w (L x) * h)) 0 := Complex.continuous_sin.continuousAt.comp hkc
  have hFc : ContinuousAt F 0 := hcc.add ((continuousAt_const.mul hac).mul hsc)
  have hk0 : kStar w (L 0) * h = ((3 * Real.pi / 4 : ℝ) : ℂ) := by
    have : kStar w (L 0) = (w : ℂ) / vs := by unfold kStar; rw [vsStar_zero]
    rw [this, hw]; push_cast
    have a1 : (vs : ℂ) ≠ 0 := by exact_mod_cast hv.ne'
    have a2 : (h : ℂ) ≠ 0 := by exact_mod_cast hh.ne'
    field_simp
  have htr : Real.sin (3 * Real.pi / 4) = -Real.cos (3 * Real.pi / 4) ∧ Real.cos (3 * Real.pi / 4) ≠ 0 := by
    have e : 3 * Real.pi / 4 = Real.pi - Real.pi / 4 := by ring
    rw [e, Real.sin_pi_sub, Real.cos_pi_sub, Real.sin_pi_div_four, Real.cos_pi_div_four]
    constructor
    · ring
    · simp
  have hlt : ‖F 0‖ < ‖C 0‖ := by
    have eC : C 0 = ((Real.cos (3 * Real.pi / 4) : ℝ) : ℂ) := by
      show cos (kStar w (L 0) * h) = _
      rw [hk0, Complex.ofReal_cos]
    have eS : sin (kStar w (L 0) * h) = -((Real.cos (3 * Real.pi / 4) : ℝ) : ℂ) := by
      rw [hk0, ← Complex.ofReal_sin, htr.1]; push_cast; ring
    have eF : F 0 = C 0 * (1 - I * alphaStar (L 0) m) := by
      show C 0 + I * alphaStar (L 0) m * sin (kStar w (L 0) * h) = _
      rw [eS, eC]; ring
    have hC : 0 < ‖C 0‖ := by rw [eC, norm_pos_iff]; exact_mod_cast htr.2
    rw [eF, norm_mul]
    refine mul_lt_of_lt_one_right hC ?_
    have hV : vsStar m ≠ 0 := vsStar_ne hmv
    have hden : ((m.rho : ℂ) * vsStar m) ≠ 0 := mul_ne_zero (by exact_mod_cast hmr.ne') hV
    have e1 : 1 - I * alphaStar (L 0) m = (((m.rho : ℂ) * vsStar m) - I * ((rho * vs : ℝ) : ℂ)) / ((m.rho : ℂ) * vsStar m) := by
      unfold alphaStar
      rw [vsStar_zero, sub_div, div_self hden]; push_cast; ring
    rw [e1, norm_div, div_lt_one (norm_pos_iff.2 hden)]
    refine lt_of_pow_lt_pow_left₀ 2 (norm_nonneg _) ?_
    rw [← Complex.normSq_eq_norm_sq, ← Complex.normSq_eq_norm_sq, Complex.normSq_apply, Complex.normSq_apply]
    simp only [Complex.sub_re, Complex.sub_im, Complex.re_ofReal_mul, Complex.im_ofReal_mul, Complex.I_mul_re, Complex.I_mul_im,
      Complex.ofReal_im, Complex.ofReal_re, neg_zero, sub_zero]
    have := mul_lt_mul_of_pos_left himp' (show 0 < rho * vs by positivity)
    nlinarith
  have hev : ∀ᶠ x in nhds (0 : ℝ), ‖F x‖ < ‖C x‖ := hFc.norm.eventually_lt hcc.norm hlt
  obtain ⟨ε, hε, hball⟩ := Metric.eventually_nhds_iff.1 hev
  refine ⟨ε, hε, fun ξ h0 h1 => ?_⟩
  have hx : ‖F ξ‖ < ‖C ξ‖ := hball (by rw [Real.dist_eq, sub_zero, abs_of_pos h0]; exact h1)
  have hall : ∀ l ∈ [(⟨h, vs, ξ, rho⟩ : Lay), m], DampedLay l := by
    intro l hl
    simp only [List.mem_cons, List.not_mem_nil, or_false] at hl
    rcases hl with rfl | rfl
    · exact ⟨hh.le, hv, hr, h0⟩
    · exact ⟨hm0, hmv, hmr, hmx⟩
  have hn := (C79_nonzero w hwp _ (by simp) hall).1
  obtain ⟨t1, t2⟩ := tf_two w ⟨h, vs, ξ, rho⟩ m
  have hF0 : F ξ ≠ 0 := by
    intro hc
    rw [t1] at hn
    exact hn (by show 1 / F ξ = 0; rw [hc]; simp)
  rw [t1, t2]
  show ‖1 / C ξ‖ < ‖1 / F ξ‖
  rw [norm_div, norm_div, norm_one]
  exact one_div_lt_one_div_of_lt (norm_pos_iff.2 hF0) hx

/-- 10 m of soil on rock with 1 % damping: the amplification relative to outcrop is at most 1.0001 times the one relative to the motion
within the ground, at all frequencies. -/
example (w : ℝ) (hw : 0 < w) : ‖tfRo w demoLays‖ ≤ 1.0001 * ‖tfBh w demoLays‖ := by
  refine ((C191_amplification_partial w hw _ demoLays_damped ⟨0, 1000, 1 / 100, 2400⟩ (by simp [demoLays])).1).trans ?_
  refine mul_le_mul_of_nonneg_right ?_ (norm_nonneg _)
  rw [Real.sqrt_le_left (by norm_num)]; norm_num

/-- 30 m of soil of 100 m/s on rock of 2000 m/s with a damping of 5 %. -/
example : ∃ ε > 0, ∀ ξ, 0 < ξ → ξ < ε → ‖tfBh (3 * Real.pi / 4 * 100 / 30) [⟨30, 100, ξ, 1800⟩, ⟨0, 2000, 1 / 20, 2400⟩]‖
    < ‖tfRo (3 * Real.pi / 4 * 100 / 30) [⟨30, 100, ξ, 1800⟩, ⟨0, 2000, 1 / 20, 2400⟩]‖ := by
  refine C191_amplification_violated 30 100 1800 (by norm_num) (by norm_num) (by norm_num) _ (by refine ⟨?_, ?_, ?_, ?_⟩ <;> norm_num) ?_
  have : Real.sqrt (1 + (1 / 20 : ℝ) ^ 2) ≤ 2 := by rw [Real.sqrt_le_left (by norm_num)]; norm_num
  norm_num at this ⊢
  nlinarith

end Verif
