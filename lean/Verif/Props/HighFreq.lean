import Verif.Props.EnergyFlux
import Mathlib.Analysis.SpecialFunctions.Trigonometric.DerivHyp

/-!
C194: the transfer functions of a damped profile tend to those of a rigid body at low frequencies and die out at high frequencies.
-/

set_option linter.unusedSectionVars false
set_option linter.unusedVariables false

open Complex Filter Topology

namespace Verif

open Spec

/-- Decay with frequency of waves in a layer, per unit depth: `-Im (1 / V*)`. -/
noncomputable def Spec.decayRate (l : Lay) : ℝ := (vsStar l).im / ‖vsStar l‖ ^ 2

theorem kStar_im {w : ℝ} {l : Lay} : (kStar w l).im = -(w * decayRate l) := by
  unfold kStar decayRate
  rw [div_eq_mul_inv, Complex.im_ofReal_mul, Complex.inv_im, Complex.normSq_eq_norm_sq]
  ring

theorem decayRate_pos {l : Lay} (hv : 0 < l.vs) (hx : 0 < l.xi) : 0 < decayRate l := by
  have h1 := (vsStar_im hv hx).2
  have h2 := norm_pos_iff.2 (vsStar_ne hv (l := l))
  unfold decayRate; positivity

/-- Strain in the top layer for unit motion of the surface. -/
theorem top_strain {w : ℝ} {l : Lay} (hw : 0 < w) (hd : DampedLay l) {f : Spec.Field} (h : Wave w l f) (h0 : f.u 0 = 1) (h1 : f.du 0 = 0)
    {z : ℝ} (hz : 0 ≤ z) : ‖kStar w l‖ * Real.sinh (w * decayRate l * z) ≤ ‖f.du z‖ := by
  obtain ⟨-, hv, hr, hx⟩ := hd
  obtain ⟨-, e⟩ := wave_form hw hv hr h z
  have hA : upgoing (kStar w l) f = 1 / 2 := by unfold upgoing; rw [h0, h1]; simp
  rw [hA, h0] at e
  have e' : f.du z = kStar w l * (I * ((exp (I * kStar w l * z) - exp (-I * kStar w l * z)) / 2)) := by
    rw [e]; ring
  have n1 : ‖exp (I * kStar w l * z)‖ = Real.exp (w * decayRate l * z) := by
    rw [Complex.norm_exp, Complex.re_mul_ofReal, Complex.I_mul_re, kStar_im, neg_neg]
  have n2 : ‖exp (-I * kStar w l * z)‖ = Real.exp (-(w * decayRate l * z)) := by
    rw [Complex.norm_exp, Complex.re_mul_ofReal, neg_mul, Complex.neg_re, Complex.I_mul_re, kStar_im, neg_neg, neg_mul]
  rw [e', norm_mul, norm_mul, Complex.norm_I, one_mul, norm_div, Complex.norm_two]
  refine mul_le_mul_of_nonneg_left ?_ (norm_nonneg _)
  rw [Real.sinh_eq]
  refine div_le_div_of_nonneg_right ?_ (by norm_num)
  rw [← n1, ← n2]
  exact norm_sub_norm_le _ _

theorem top_dissipated {w : ℝ} {l : Lay} (hw : 0 < w) (hd : DampedLay l) {f : Spec.Field} (h : Wave w l f) (h0 : f.u 0 = 1)
    (h1 : f.du 0 = 0) :
    l.xi * (l.rho * l.vs ^ 2) * l.h * (‖kStar w l‖ * Real.sinh (w * decayRate l * (l.h / 2))) ^ 2 ≤ dissipated l f := by
  have hd' := hd
  obtain ⟨hh, hv, hr, hx⟩ := hd'
  have hb := decayRate_pos hv hx
  set c := ‖kStar w l‖ * Real.sinh (w * decayRate l * (l.h / 2)) with hc
  have hc0 : 0 ≤ c := by
    rw [hc]; exact mul_nonneg (norm_nonneg _) (Real.sinh_nonneg_iff.2 (by positivity))
  have hcont : Continuous fun z => 2 * l.xi * (l.rho * l.vs ^ 2) * ‖f.du z‖ ^ 2 := by
    have : Continuous f.du := continuous_iff_continuousAt.2 fun z => by
      obtain ⟨-, a, h2, -⟩ := h z
      exact h2.continuousAt
    fun_prop
  unfold dissipated
  rw [← intervalIntegral.integral_add_adjacent_intervals (hcont.intervalIntegrable 0 (l.h / 2)) (hcont.intervalIntegrable (l.h / 2) l.h)]
  have i1 : 0 ≤ ∫ z in (0 : ℝ)..(l.h / 2), 2 * l.xi * (l.rho * l.vs ^ 2) * ‖f.du z‖ ^ 2 :=
    intervalIntegral.integral_nonneg (by linarith) fun z _ => by positivity
  have i2 : ∫ z in (l.h / 2)..l.h, 2 * l.xi * (l.rho * l.vs ^ 2) * c ^ 2 ≤ ∫ z in (l.h / 2)..l.h, 2 * l.xi * (l.rho * l.vs ^ 2) * ‖f.du z‖ ^ 2 := by
    refine intervalIntegral.integral_mono_on (by linarith) (continuous_const.intervalIntegrable _ _) (hcont.intervalIntegrable _ _) fun z hz => ?_
    refine mul_le_mul_of_nonneg_left ?_ (by positivity)
    refine pow_le_pow_left₀ hc0 ?_ 2
    refine le_trans ?_ (top_strain hw hd h h0 h1 (by linarith [hz.1]))
    rw [hc]
    refine mul_le_mul_of_nonneg_left ?_ (norm_nonneg _)
    exact Real.sinh_le_sinh.2 (mul_le_mul_of_nonneg_left hz.1 (by positivity))
  rw [intervalIntegral.integral_const, smul_eq_mul] at i2
  have e : (l.h - l.h / 2) * (2 * l.xi * (l.rho * l.vs ^ 2) * c ^ 2) = l.xi * (l.rho * l.vs ^ 2) * l.h * c ^ 2 := by ring
  linarith

/-- C194: whatever lies between the top layer and the base, the amplitude of the transfer functions relative to incident and outcrop motion
is bounded by the decay of waves in the top layer: its square is at most a constant divided by `w sinh² (w β h / 2)`. -/
theorem C194_bound {w : ℝ} (hw : 0 < w) (l : Lay) (ls : List Lay) (hd : ∀ x ∈ l :: ls, DampedLay x) (m : Lay) (hm : ls.getLast? = some m) :
    ‖tfIn w (l :: ls)‖ ^ 2 * (w * (l.xi * (l.rho * l.vs ^ 2) * l.h) * (vsStar m).re * Real.sinh (w * decayRate l * (l.h / 2)) ^ 2)
      ≤ m.rho * ‖vsStar m‖ ^ 2 * ‖vsStar l‖ ^ 2 := by
  have hne : ls ≠ [] := by rintro rfl; simp at hm
  obtain ⟨fs, f, hs, hf, hf1⟩ := C33_realised w hw (l :: ls) (by simp) fun l hl => ⟨(hd l hl).2.1, (hd l hl).2.2.1⟩
  have hmm : (l :: ls).getLast? = some m := by rw [List.getLast?_cons_of_ne_nil hne]; exact hm
  have hmd := hd m (List.mem_of_getLast? hmm)
  have hfs : fs ≠ [] := by rintro rfl; simp at hf
  have hg : fs.getLast? = some (fs.getLast hfs) := List.getLast?_eq_some_getLast hfs
  have hκ := kStar_waveNumber hw hmd.2.1 (l := m)
  obtain ⟨-, a2, -⟩ := C33_wave w hw (l :: ls) hd fs hs f _ m hf hg hmm _ hκ
  rw [hf1] at a2
  have hlen := hs.wave.length_eq
  have hb := C191_balance hs ((l :: ls).length - 1) m _ (by rw [← List.getLast?_eq_getElem?]; exact hmm)
    (by rw [hlen, ← List.getLast?_eq_getElem?]; exact hg)
  set g := fs.getLast hfs
  set A := upgoing (kStar w m) g
  obtain ⟨fs', rfl⟩ : ∃ fs', fs = f :: fs' := by
    cases fs with
    | nil => simp at hf
    | cons a b => exact ⟨b, by simpa using hf⟩
  have hwl : Wave w l f := by have := hs.wave; rw [List.forall₂_cons] at this; exact this.1
  have hdiss := top_dissipated hw (hd l (by simp)) hwl hf1 (hs.surface f rfl)
  have hF : dissipated l f ≤ powerUp m g 0 := by
    rw [hb]
    have hl1 : (l :: ls).length - 1 = (ls.length - 1) + 1 := by
      have := List.length_pos_iff.2 hne; simp; omega
    rw [hl1, List.zip_cons_cons, List.take_succ_cons, List.map_cons, List.sum_cons]
    have : 0 ≤ (((ls.zip fs').take (ls.length - 1)).map fun p => dissipated p.1 p.2).sum := by
      refine List.sum_nonneg fun x hx => ?_
      obtain ⟨p, hp, rfl⟩ := List.mem_map.1 hx
      exact dissipated_nonneg (hd _ (List.mem_cons_of_mem _ (List.of_mem_zip (List.mem_of_mem_take hp)).1)) _
    linarith
  rw [powerUp_base hw hmd.2.1] at hF
  have hre := vsStar_re_pos hmd.2.1 (l := m)
  have h2 := (Complex.re_le_norm (vsStar m * (2 * A) * (starRingEnd ℂ) (g.u 0)))
  rw [norm_mul, norm_mul, norm_mul, Complex.norm_two, Complex.norm_conj] at h2
  have h3 : (vsStar m).re * ((vsStar m * (2 * A) * (starRingEnd ℂ) (g.u 0)).re - (vsStar m).re * ‖g.u 0‖ ^ 2) ≤ ‖vsStar m‖ ^ 2 * ‖A‖ ^ 2 := by
    have := mul_le_mul_of_nonneg_left h2 hre.le
    nlinarith [sq_nonneg (‖vsStar m‖ * ‖A‖ - (vsStar m).re * ‖g.u 0‖)]
  have hAn : ‖tfIn w (l :: ls)‖ * ‖A‖ = 1 := by rw [← norm_mul, a2]; simp
  have hkn : ‖kStar w l‖ * ‖vsStar l‖ = w := by
    rw [← norm_mul, kStar_mul (hd l (by simp)).2.1, Complex.norm_real, Real.norm_eq_abs, abs_of_pos hw]
  set S := Real.sinh (w * decayRate l * (l.h / 2))
  set T := ‖tfIn w (l :: ls)‖
  set C := l.xi * (l.rho * l.vs ^ 2) * l.h
  have hrho := hmd.2.2.1
  -- C (κ S)² Re V ≤ ρ w |V|² |A|²
  have h4 : C * (‖kStar w l‖ * S) ^ 2 * (vsStar m).re ≤ m.rho * w * (‖vsStar m‖ ^ 2 * ‖A‖ ^ 2) := by
    have h5 := mul_le_mul_of_nonneg_right (hdiss.trans hF) hre.le
    have h6 := mul_le_mul_of_nonneg_left h3 (show 0 ≤ m.rho * w by positivity)
    nlinarith
  have h7 := mul_le_mul_of_nonneg_right h4 (show 0 ≤ T ^ 2 * ‖vsStar l‖ ^ 2 by positivity)
  have e1 : C * (‖kStar w l‖ * S) ^ 2 * (vsStar m).re * (T ^ 2 * ‖vsStar l‖ ^ 2) = w * (T ^ 2 * (w * C * (vsStar m).re * S ^ 2)) := by
    have : (‖kStar w l‖ * ‖vsStar l‖) ^ 2 = w ^ 2 := by rw [hkn]
    linear_combination (C * S ^ 2 * (vsStar m).re * T ^ 2) * this
  have e2 : m.rho * w * (‖vsStar m‖ ^ 2 * ‖A‖ ^ 2) * (T ^ 2 * ‖vsStar l‖ ^ 2) = w * (m.rho * ‖vsStar m‖ ^ 2 * ‖vsStar l‖ ^ 2) := by
    have : T ^ 2 * ‖A‖ ^ 2 = 1 := by rw [← mul_pow, hAn, one_pow]
    linear_combination (m.rho * w * ‖vsStar m‖ ^ 2 * ‖vsStar l‖ ^ 2) * this
  rw [e1, e2] at h7
  exact le_of_mul_le_mul_left h7 hw

/-- C194: hence the transfer functions relative to incident and outcrop motion tend to zero at high frequencies, for every profile with
damping that has a layer above its base. -/
theorem C194_limit (l : Lay) (ls : List Lay) (hne : ls ≠ []) (hd : ∀ x ∈ l :: ls, DampedLay x) (hh : 0 < l.h) :
    Tendsto (fun w => tfIn w (l :: ls)) atTop (𝓝 0) ∧ Tendsto (fun w => tfRo w (l :: ls)) atTop (𝓝 0) := by
  obtain ⟨m, hm⟩ : ∃ m, ls.getLast? = some m := ⟨_, List.getLast?_eq_some_getLast hne⟩
  have hmm : m ∈ l :: ls := List.mem_cons_of_mem _ (List.mem_of_getLast? hm)
  obtain ⟨-, hv, hr, hx⟩ := hd l (by simp)
  have hb := decayRate_pos hv hx
  have hre := vsStar_re_pos (hd m hmm).2.1 (l := m)
  set C := l.xi * (l.rho * l.vs ^ 2) * l.h with hC
  have hCp : 0 < C := by positivity
  set β := decayRate l * (l.h / 2) with hβ
  have hβp : 0 < β := by positivity
  set R := m.rho * ‖vsStar m‖ ^ 2 * ‖vsStar l‖ ^ 2 with hR
  have hRp : 0 ≤ R := by have := (hd m hmm).2.2.1; positivity
  have key : Tendsto (fun w => tfIn w (l :: ls)) atTop (𝓝 0) := by
    rw [Metric.tendsto_atTop]
    intro ε hε
    -- sinh x ≥ x: it suffices that w³ C Re V β² ε² > R
    refine ⟨max 1 (R / (C * (vsStar m).re * β ^ 2 * ε ^ 2) + 1), fun w hw => ?_⟩
    have hw1 : 1 ≤ w := (le_max_left _ _).trans hw
    have hwp : 0 < w := by linarith
    have hw2 : R / (C * (vsStar m).re * β ^ 2 * ε ^ 2) < w := by have := (le_max_right _ _).trans hw; linarith
    rw [div_lt_iff₀ (by positivity)] at hw2
    have hbd := C194_bound hwp l ls hd m hm
    rw [dist_zero_right]
    by_contra hc
    push Not at hc
    have hs : w * β ≤ Real.sinh (w * decayRate l * (l.h / 2)) := by
      rw [mul_assoc, ← hβ]; exact Real.self_le_sinh_iff.2 (by positivity)
    have s1 : ε ^ 2 ≤ ‖tfIn w (l :: ls)‖ ^ 2 := pow_le_pow_left₀ hε.le hc 2
    have s2 : (w * β) ^ 2 ≤ Real.sinh (w * decayRate l * (l.h / 2)) ^ 2 := pow_le_pow_left₀ (by positivity) hs 2
    have s3 : ε ^ 2 * (w * C * (vsStar m).re * (w * β) ^ 2) ≤ R :=
      (mul_le_mul s1 (mul_le_mul_of_nonneg_left s2 (by positivity)) (by positivity) (by positivity)).trans hbd
    have s4 : w * (C * (vsStar m).re * β ^ 2 * ε ^ 2) ≤ ε ^ 2 * (w * C * (vsStar m).re * (w * β) ^ 2) := by
      have : (1 : ℝ) ≤ w ^ 2 := one_le_pow₀ hw1
      have := mul_le_mul_of_nonneg_left this (show 0 ≤ w * (C * (vsStar m).re * β ^ 2 * ε ^ 2) by positivity)
      nlinarith
    linarith
  refine ⟨key, ?_⟩
  have : (fun w => tfRo w (l :: ls)) = fun w => tfIn w (l :: ls) / 2 := by
    funext w; rw [C33_ratio]; ring
  rw [this]
  simpa using key.div_const 2

example : Tendsto (fun w => tfRo w demoLays) atTop (𝓝 0) :=
  (C194_limit ⟨10, 200, 1 / 20, 1800⟩ [⟨0, 1000, 1 / 100, 2400⟩] (by simp) demoLays_damped (by norm_num)).2

/-! ## Low frequencies -/

theorem dMat_cont (l m : Lay) : Continuous (fun w => (dMat w l m).a) ∧ Continuous (fun w => (dMat w l m).b) ∧ Continuous (fun w => (dMat w l m).c) ∧
    Continuous (fun w => (dMat w l m).d) := by
  unfold dMat kStar
  refine ⟨?_, ?_, ?_, ?_⟩ <;> fun_prop

theorem eMat_cont (ls : List Lay) : Continuous (fun w => (eMat w ls).a) ∧ Continuous (fun w => (eMat w ls).b) ∧ Continuous (fun w => (eMat w ls).c) ∧
    Continuous (fun w => (eMat w ls).d) := by
  induction ls with
  | nil => simp only [eMat_nil, M2.id]; refine ⟨?_, ?_, ?_, ?_⟩ <;> fun_prop
  | cons l ls ih =>
    cases ls with
    | nil => simp only [eMat_one, M2.id]; refine ⟨?_, ?_, ?_, ?_⟩ <;> fun_prop
    | cons m ls =>
      obtain ⟨i1, i2, i3, i4⟩ := ih
      obtain ⟨d1, d2, d3, d4⟩ := dMat_cont l m
      simp only [eMat_cons, M2.dot]
      refine ⟨?_, ?_, ?_, ?_⟩ <;> fun_prop

/-- C194: at low frequencies the transfer functions tend to 1 (outcrop), 2 (incident) and 1 (within the ground), the values of a rigid body. -/
theorem C194_low (ls : List Lay) : Tendsto (fun w => tfRo w ls) (𝓝 0) (𝓝 1) ∧ Tendsto (fun w => tfIn w ls) (𝓝 0) (𝓝 2) ∧
    Tendsto (fun w => tfBh w ls) (𝓝 0) (𝓝 1) := by
  obtain ⟨h1, h2, h3, h4⟩ := eMat_cont ls
  obtain ⟨s1, s2, s3⟩ := C33_static ls
  have n1 : (eMat 0 ls).a + (eMat 0 ls).b ≠ 0 := by
    intro hc; unfold tfRo at s1; rw [hc] at s1; simp at s1
  have n2 : (eMat 0 ls).a + (eMat 0 ls).c + (eMat 0 ls).b + (eMat 0 ls).d ≠ 0 := by
    intro hc; unfold tfBh at s3; rw [hc] at s3; simp at s3
  have c1 : ContinuousAt (fun w => (eMat w ls).a + (eMat w ls).b) 0 := (h1.add h2).continuousAt
  have c2 : ContinuousAt (fun w => (eMat w ls).a + (eMat w ls).c + (eMat w ls).b + (eMat w ls).d) 0 := (((h1.add h3).add h2).add h4).continuousAt
  have t1 : Tendsto (fun w => tfRo w ls) (𝓝 0) (𝓝 (tfRo 0 ls)) := ContinuousAt.div continuousAt_const c1 n1
  have t2 : Tendsto (fun w => tfIn w ls) (𝓝 0) (𝓝 (tfIn 0 ls)) := ContinuousAt.div continuousAt_const c1 n1
  have t3 : Tendsto (fun w => tfBh w ls) (𝓝 0) (𝓝 (tfBh 0 ls)) := ContinuousAt.div continuousAt_const c2 n2
  exact ⟨s1 ▸ t1, s2 ▸ t2, s3 ▸ t3⟩

end Verif
