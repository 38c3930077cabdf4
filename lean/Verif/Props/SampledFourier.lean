import Verif.Props.SampledMotion
import Verif.Props.Spectrum

/-!
C189: the Fourier spectrum of samples of a function of time, compared with the Fourier integral of the function over the record.
-/

set_option linter.unusedSectionVars false
set_option linter.unusedVariables false

open Complex

namespace Verif

open Spec (samples Changes coeff)

/-- The Fourier integral of `f` over the record, at the frequency `ν`. -/
noncomputable def Spec.fourierInt (f : ℝ → ℝ) (t0 T ν : ℝ) : ℂ :=
  ∫ t in t0..(t0 + T), (f t : ℂ) * exp (-(2 * Real.pi * ν * (t - t0) : ℝ) * I)

open Spec (fourierInt)

/-- Rectangle rule for complex functions. -/
theorem left_rule_c {g : ℝ → ℂ} {K : ℝ} (hK : ∀ s t, ‖g s - g t‖ ≤ K * |s - t|) (hg : Continuous g) (t0 dt : ℝ) (hdt : 0 ≤ dt) (i : Nat) :
    ‖(∑ j ∈ Finset.range i, g (t0 + j * dt)) * dt - ∫ t in t0..(t0 + i * dt), g t‖ ≤ i * (K * dt ^ 2) := by
  have hK0 : 0 ≤ K := by
    have := hK 1 0
    simp only [sub_zero, abs_one, mul_one] at this
    exact (norm_nonneg _).trans this
  induction i with
  | zero => simp
  | succ i ih =>
    have hsplit : (∫ x in t0..(t0 + ((i + 1 : ℕ) : ℝ) * dt), g x) =
        (∫ x in t0..(t0 + (i : ℝ) * dt), g x) + ∫ x in (t0 + (i : ℝ) * dt)..(t0 + ((i + 1 : ℕ) : ℝ) * dt), g x :=
      (intervalIntegral.integral_add_adjacent_intervals (hg.intervalIntegrable _ _) (hg.intervalIntegrable _ _)).symm
    set a := t0 + (i : ℝ) * dt with ha
    set b := t0 + ((i + 1 : ℕ) : ℝ) * dt with hb
    have hab : b - a = dt := by rw [ha, hb]; push_cast; ring
    have e : g a * dt - (∫ x in a..b, g x) = ∫ x in a..b, (g a - g x) := by
      rw [intervalIntegral.integral_sub (by simp) (hg.intervalIntegrable _ _), intervalIntegral.integral_const, hab, Complex.real_smul, mul_comm]
    have hstep : ‖g a * dt - ∫ x in a..b, g x‖ ≤ K * dt ^ 2 := by
      rw [e]
      have := intervalIntegral.norm_integral_le_of_norm_le_const (f := fun x => g a - g x) (a := a) (b := b) (C := K * dt) (by
        intro x hx
        rw [Set.uIoc_of_le (by linarith)] at hx
        refine (hK a x).trans (mul_le_mul_of_nonneg_left ?_ hK0)
        rw [abs_le]
        constructor <;> linarith [hx.1, hx.2])
      rw [hab, abs_of_nonneg hdt] at this
      calc _ ≤ _ := this
        _ = _ := by ring
    rw [Finset.sum_range_succ, hsplit]
    calc _ = ‖((∑ j ∈ Finset.range i, g (t0 + j * dt)) * dt - ∫ t in t0..a, g t) + (g a * dt - ∫ x in a..b, g x)‖ := by
            congr 1; rw [← ha]; ring
      _ ≤ _ := (norm_add_le _ _).trans (add_le_add ih hstep)
      _ = _ := by push_cast; ring

theorem exp_lip (u v : ℝ) : ‖exp (u * I) - exp (v * I)‖ ≤ |u - v| := by
  have e : exp (u * I) - exp (v * I) = exp (v * I) * (exp (I * ((u - v : ℝ) : ℂ)) - 1) := by
    rw [mul_sub, ← Complex.exp_add, mul_one]
    congr 2
    push_cast; ring
  rw [e, norm_mul, Complex.norm_exp_ofReal_mul_I, one_mul]
  simpa using Real.norm_exp_I_mul_ofReal_sub_one_le (x := u - v)

variable {f : ℝ → ℝ} {L M : ℝ}

theorem wave_lip (h : Changes L f) (hM : ∀ t, |f t| ≤ M) (t0 ν : ℝ) (s t : ℝ) :
    ‖(f s : ℂ) * exp (-(2 * Real.pi * ν * (s - t0) : ℝ) * I) - (f t : ℂ) * exp (-(2 * Real.pi * ν * (t - t0) : ℝ) * I)‖ ≤
      (L + 2 * Real.pi * |ν| * M) * |s - t| := by
  have hM0 : 0 ≤ M := (abs_nonneg _).trans (hM 0)
  set u := -(2 * Real.pi * ν * (s - t0)) with hu
  set v := -(2 * Real.pi * ν * (t - t0)) with hv
  have eu : (-(2 * Real.pi * ν * (s - t0) : ℝ) : ℂ) = ((u : ℝ) : ℂ) := by rw [hu]; push_cast; ring
  have ev : (-(2 * Real.pi * ν * (t - t0) : ℝ) : ℂ) = ((v : ℝ) : ℂ) := by rw [hv]; push_cast; ring
  rw [eu, ev]
  have e : (f s : ℂ) * exp (u * I) - (f t : ℂ) * exp (v * I) = ((f s - f t : ℝ) : ℂ) * exp (u * I) + (f t : ℂ) * (exp (u * I) - exp (v * I)) := by
    push_cast; ring
  rw [e]
  refine (norm_add_le _ _).trans ?_
  rw [norm_mul, norm_mul, Complex.norm_exp_ofReal_mul_I, mul_one, Complex.norm_real, Complex.norm_real, Real.norm_eq_abs, Real.norm_eq_abs]
  have h1 := h s t
  have h2 := mul_le_mul (hM t) (exp_lip u v) (norm_nonneg _) hM0
  have h3 : |u - v| = 2 * Real.pi * |ν| * |s - t| := by
    rw [hu, hv, show -(2 * Real.pi * ν * (s - t0)) - -(2 * Real.pi * ν * (t - t0)) = -(2 * Real.pi * (ν * (s - t))) by ring, abs_neg,
      abs_mul, abs_of_pos (by positivity : (0 : ℝ) < 2 * Real.pi), abs_mul]
    ring
  rw [h3] at h2
  calc _ ≤ _ := add_le_add h1 h2
    _ = _ := by ring

/-- Coefficient `k` of the record, times the time step. -/
theorem coeff_err (h : Changes L f) (hM : ∀ t, |f t| ≤ M) (t0 dt : ℝ) (hdt : 0 < dt) (n : Nat) (hn : 0 < n) (k : Nat) :
    ‖coeff ((samples f t0 dt n).map Prod.snd) k * dt - fourierInt f t0 (n * dt) (k / (n * dt))‖ ≤
      n * dt * (L + 2 * Real.pi * (k / (n * dt)) * M) * dt := by
  have hnp : (0 : ℝ) < n := by exact_mod_cast hn
  have hνp : (0 : ℝ) ≤ k / (n * dt) := by positivity
  have hcont : Continuous fun t : ℝ => (f t : ℂ) * exp (-(2 * Real.pi * (k / (n * dt)) * (t - t0) : ℝ) * I) := by
    have := changes_cont h
    fun_prop
  have hr := left_rule_c (fun s t => wave_lip h hM t0 (k / (n * dt)) s t) hcont t0 dt hdt.le n
  have e : coeff ((samples f t0 dt n).map Prod.snd) k =
      ∑ j ∈ Finset.range n, (f (t0 + j * dt) : ℂ) * exp (-(2 * Real.pi * (k / (n * dt)) * (t0 + j * dt - t0) : ℝ) * I) := by
    unfold coeff
    have hl : ((samples f t0 dt n).map Prod.snd).length = n := by simp [samples]
    rw [hl]
    refine Finset.sum_congr rfl fun j hj => ?_
    have hj := Finset.mem_range.1 hj
    have : ((samples f t0 dt n).map Prod.snd).getD j 0 = f (t0 + j * dt) := by
      rw [List.getD_eq_getElem?_getD]
      simp only [samples, List.map_map, List.getElem?_map, List.getElem?_range hj]
      rfl
    rw [this]
    congr 2
    push_cast
    have : (n : ℂ) ≠ 0 := by exact_mod_cast hnp.ne'
    have : (dt : ℂ) ≠ 0 := by exact_mod_cast hdt.ne'
    field_simp
    ring
  unfold fourierInt
  rw [e]
  rw [abs_of_nonneg hνp] at hr
  calc _ ≤ _ := hr
    _ = _ := by ring

/-- C189: row `k` of the Fourier spectrum of `n` samples, multiplied by the time step, is the Fourier integral of the motion over the record at
the frequency `k / (n dt)`, up to a multiple of the time step.  Missing: `fourier_transform` does not multiply by the time step
(`C189_scale_violated`), and writes `(k + 1) / (n dt)` for the frequency (C105). -/
theorem C189_spectrum_partial (h : Changes L f) (hM : ∀ t, |f t| ≤ M) (t0 dt : ℝ) (hdt : 0 < dt) (n : Nat) (hn : 2 ≤ n) :
    ∃ r, fourierTransform false false (samples f t0 dt n) = .ok r ∧ r.length = (n + 1) / 2 ∧
      ∀ k < (n + 1) / 2, ∃ z, r[k]? = some (((k : ℝ) + 1) / (n * dt), z) ∧
        ‖z * dt - fourierInt f t0 (n * dt) (k / (n * dt))‖ ≤ n * dt * (L + 2 * Real.pi * (k / (n * dt)) * M) * dt := by
  have hd := samples_dt f t0 dt n hn
  obtain ⟨r, hr⟩ := C105_succeeds false false _ dt hd hdt.ne'
  obtain ⟨dt', hd', -, hl, hv⟩ := C105_values_partial false false _ r hr
  have : dt' = dt := by rw [hd] at hd'; exact (Except.ok.inj hd').symm
  subst this
  have hlen : (samples f t0 dt' n).length = n := by simp [samples]
  rw [hlen] at hl hv
  simp only [Bool.false_eq_true, if_false] at hl hv
  refine ⟨r, hr, hl, fun k hk => ⟨_, hv k (by omega), coeff_err h hM t0 dt' hdt n (by omega) k⟩⟩

/-- C189: the spectrum of one and the same motion depends on the sampling: wherever the Fourier integral over the record (of length `T`) is not
zero, the amplitudes returned for finer and finer sampling exceed every bound. -/
theorem C189_scale_violated (h : Changes L f) (hM : ∀ t, |f t| ≤ M) (t0 T : ℝ) (hT : 0 < T) (k : Nat) (hF : fourierInt f t0 T (k / T) ≠ 0)
    (C : ℝ) : ∃ n0 : Nat, ∀ n, n0 ≤ n → ∃ r g a, fourierTransform true false (samples f t0 (T / n) n) = .ok r ∧ r[k]? = some (g, ((a : ℝ) : ℂ)) ∧
      C < a := by
  set F := ‖fourierInt f t0 T (k / T)‖ with hFd
  have hFp : 0 < F := norm_pos_iff.2 hF
  set B := T * (L + 2 * Real.pi * (k / T) * M) with hB
  obtain ⟨n1, h1⟩ := exists_nat_gt ((|C| * T + |B| * T + T) / F)
  refine ⟨max (max n1 2) (2 * k + 2), fun n hn => ?_⟩
  have hn2 : 2 ≤ n := by omega
  have hnp : (0 : ℝ) < n := by exact_mod_cast (by omega : 0 < n)
  have hdt : 0 < T / n := by positivity
  have hnT : (n : ℝ) * (T / n) = T := by field_simp
  have hd := samples_dt f t0 (T / n) n hn2
  obtain ⟨r, hr⟩ := C105_succeeds true false _ _ hd hdt.ne'
  obtain ⟨dt', hd', -, hl, hv⟩ := C105_values_partial true false _ r hr
  have hlen : (samples f t0 (T / n) n).length = n := by simp [samples]
  simp only [Bool.false_eq_true, if_false, if_true, hlen] at hl hv
  refine ⟨r, _, _, hr, hv k (by omega), ?_⟩
  have he := coeff_err h hM t0 (T / n) hdt n (by omega) k
  rw [hnT, ← hB] at he
  set z := coeff ((samples f t0 (T / n) n).map Prod.snd) k with hz
  have hz1 : F - B * (T / n) ≤ ‖z‖ * (T / n) := by
    have : F ≤ ‖z * (T / n : ℝ)‖ + ‖z * (T / n : ℝ) - fourierInt f t0 T (k / T)‖ := by
      have := norm_sub_norm_le (fourierInt f t0 T (k / T)) (z * (T / n : ℝ))
      rw [norm_sub_rev] at this
      linarith
    rw [norm_mul, Complex.norm_real, Real.norm_eq_abs, abs_of_pos hdt] at this
    have he' : ‖z * (T / n : ℝ) - fourierInt f t0 T (k / T)‖ ≤ B * (T / n) := he
    linarith
  have hnn : (n1 : ℝ) ≤ n := by exact_mod_cast (by omega : n1 ≤ n)
  have h2 : |C| * T + |B| * T + T < F * n := by
    have := h1.trans_le hnn
    rw [div_lt_iff₀ hFp] at this
    linarith
  have h3 : F * n - B * T ≤ ‖z‖ * T := by
    have := mul_le_mul_of_nonneg_right hz1 hnp.le
    have e1 : (F - B * (T / n)) * n = F * n - B * T := by field_simp
    have e2 : ‖z‖ * (T / n) * n = ‖z‖ * T := by field_simp
    linarith
  have hBa := mul_le_mul_of_nonneg_right (le_abs_self B) hT.le
  have hCa := mul_le_mul_of_nonneg_right (le_abs_self C) hT.le
  by_contra hc
  push Not at hc
  have := mul_le_mul_of_nonneg_right hc hT.le
  linarith

theorem quotient_err {a b A B : ℂ} {e e' : ℝ} (h1 : ‖a - A‖ ≤ e) (h2 : ‖b - B‖ ≤ e') (hA : 2 * e < ‖A‖) :
    ‖b / a - B / A‖ ≤ 2 * (e' * ‖A‖ + e * ‖B‖) / ‖A‖ ^ 2 := by
  have he : 0 ≤ e := (norm_nonneg _).trans h1
  have hAp : 0 < ‖A‖ := by linarith
  have hA0 : A ≠ 0 := norm_pos_iff.1 hAp
  have hal : ‖A‖ / 2 ≤ ‖a‖ := by
    have := norm_sub_norm_le A a
    rw [norm_sub_rev] at this
    linarith
  have hap : 0 < ‖a‖ := by linarith
  have ha0 : a ≠ 0 := norm_pos_iff.1 hap
  have e1 : b / a - B / A = ((b - B) * A - (a - A) * B) / (a * A) := by field_simp; ring
  rw [e1, norm_div, norm_mul a, div_le_div_iff₀ (by positivity) (by positivity)]
  have n1 : ‖(b - B) * A - (a - A) * B‖ ≤ e' * ‖A‖ + e * ‖B‖ := by
    refine (norm_sub_le _ _).trans ?_
    rw [norm_mul, norm_mul]
    exact add_le_add (mul_le_mul_of_nonneg_right h2 (norm_nonneg _)) (mul_le_mul_of_nonneg_right h1 (norm_nonneg _))
  have hX : 0 ≤ e' * ‖A‖ + e * ‖B‖ := (norm_nonneg _).trans n1
  calc _ ≤ (e' * ‖A‖ + e * ‖B‖) * ‖A‖ ^ 2 := mul_le_mul_of_nonneg_right n1 (by positivity)
    _ = 2 * (e' * ‖A‖ + e * ‖B‖) * (‖A‖ / 2 * ‖A‖) := by ring
    _ ≤ _ := mul_le_mul_of_nonneg_left (mul_le_mul_of_nonneg_right hal hAp.le) (by positivity)

/-- C189: in the transfer function between two motions the missing factor cancels: row `k` of `calc_transfer_function` of the samples is the
quotient of the Fourier integrals, up to a multiple of the time step (which has to be small against the Fourier integral of the input). -/
theorem C189_transfer {g : ℝ → ℝ} (hf : Changes L f) (hM : ∀ t, |f t| ≤ M) {L' M' : ℝ} (hg : Changes L' g) (hM' : ∀ t, |g t| ≤ M') (t0 dt : ℝ)
    (hdt : 0 < dt) (n : Nat) (hn : 2 ≤ n) (hz : ∀ k < (n + 1) / 2, coeff ((samples f t0 dt n).map Prod.snd) k ≠ 0) :
    ∃ r, calcTransfer (samples f t0 dt n) (samples g t0 dt n) false false = .ok r ∧
      ∀ k < (n + 1) / 2, ∃ z, r[k]? = some (((k : ℝ) + 1) / (n * dt), z) ∧
        (let T := n * dt
         let F := fourierInt f t0 T (k / T)
         let G := fourierInt g t0 T (k / T)
         let e := T * (L + 2 * Real.pi * (k / T) * M) * dt
         let e' := T * (L' + 2 * Real.pi * (k / T) * M') * dt
         2 * e < ‖F‖ → ‖z - G / F‖ ≤ 2 * (e' * ‖F‖ + e * ‖G‖) / ‖F‖ ^ 2) := by
  have d1 := samples_dt f t0 dt n hn
  have d2 := samples_dt g t0 dt n hn
  obtain ⟨r1, hr1⟩ := C105_succeeds false false _ dt d1 hdt.ne'
  obtain ⟨r2, hr2⟩ := C105_succeeds false false _ dt d2 hdt.ne'
  obtain ⟨dt1, hd1, -, hl1, hv1⟩ := C105_values_partial false false _ r1 hr1
  obtain ⟨dt2, hd2, -, hl2, hv2⟩ := C105_values_partial false false _ r2 hr2
  have e1 : dt1 = dt := by rw [d1] at hd1; exact (Except.ok.inj hd1).symm
  have e2 : dt2 = dt := by rw [d2] at hd2; exact (Except.ok.inj hd2).symm
  subst e1
  have lf : (samples f t0 dt1 n).length = n := by simp [samples]
  have lg : (samples g t0 dt1 n).length = n := by simp [samples]
  simp only [Bool.false_eq_true, if_false, lf, lg] at hl1 hv1 hl2 hv2
  rw [e2] at hv2
  have hnz : ¬ ∃ p ∈ r1, p.2 = 0 := by
    rintro ⟨p, hp, h0⟩
    obtain ⟨k, hk⟩ := List.getElem?_of_mem hp
    have hkl := (List.getElem?_eq_some_iff.1 hk).1
    rw [hv1 k hkl] at hk
    cases hk
    exact hz k (by omega) h0
  refine ⟨(r1.map Prod.fst).zip (List.zipWith (fun o i => o.2 / i.2) r2 r1), ?_, ?_⟩
  · unfold calcTransfer
    simp only [d1, d2, bind, Except.bind, hr1, hr2, lf, lg, ne_eq, not_true_eq_false, if_false, Bool.false_eq_true, and_false, hnz]
    rw [if_neg (by rw [not_not]; unfold allClose; rw [sub_self, abs_zero]; positivity)]
  · intro k hk
    refine ⟨coeff ((samples g t0 dt1 n).map Prod.snd) k / coeff ((samples f t0 dt1 n).map Prod.snd) k, ?_, ?_⟩
    · rw [List.getElem?_zip_eq_some]
      refine ⟨?_, ?_⟩
      · rw [List.getElem?_map, hv1 k (by omega)]; rfl
      · rw [List.getElem?_zipWith, hv1 k (by omega), hv2 k (by omega)]
    · intro T F G e e' hlt
      have c1 := coeff_err hf hM t0 dt1 hdt n (by omega) k
      have c2 := coeff_err hg hM' t0 dt1 hdt n (by omega) k
      have hd0 : (dt1 : ℂ) ≠ 0 := by exact_mod_cast hdt.ne'
      have := quotient_err c1 c2 hlt
      rwa [mul_div_mul_right _ _ hd0] at this

/-- A constant motion of 1: the Fourier integral at frequency 0 is the length of the record, and the conditions hold. -/
example (t0 T : ℝ) : fourierInt (fun _ => 1) t0 T 0 = T ∧ Changes 0 (fun _ => 1) := by
  refine ⟨?_, fun s t => by simp⟩
  unfold fourierInt
  simp

end Verif
