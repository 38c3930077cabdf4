import Verif.Props.Transfer
import Mathlib.Analysis.Complex.Exponential
import Mathlib.Analysis.Real.Pi.Bounds
import Mathlib.MeasureTheory.Integral.IntervalIntegral.Basic
import Mathlib.MeasureTheory.Integral.IntervalIntegral.FundThmCalculus

/-!
C190: the strain of a layer in the every-layer solver (`(u_top - u_bottom) / h`, helper_simulations.py L753-758) and the strain of the
continuous soil column.
-/

set_option linter.unusedSectionVars false
set_option linter.unusedVariables false

open Complex

namespace Verif

open Spec (Wave SiteResponse WaveNumber upgoing DampedLay Interface modulus)

theorem csin_bound {z : ℂ} (hz : ‖z‖ ≤ 1) : ‖sin z - z‖ ≤ 2 / 9 * ‖z‖ ^ 3 := by
  have key : ∀ x : ℂ, ‖x‖ ≤ 1 → ‖exp x - (1 + x + x ^ 2 / 2)‖ ≤ 2 / 9 * ‖x‖ ^ 3 := by
    intro x hx
    have := Complex.exp_bound hx (n := 3) (by norm_num)
    simp only [Finset.sum_range_succ, Finset.sum_range_zero, Nat.factorial, pow_zero, pow_one] at this
    norm_num at this
    rw [mul_comm] at this
    exact this
  have k1 := key (-z * I) (by simpa using hz)
  have k2 := key (z * I) (by simpa using hz)
  have e : sin z - z = ((exp (-z * I) - (1 + -z * I + (-z * I) ^ 2 / 2)) - (exp (z * I) - (1 + z * I + (z * I) ^ 2 / 2))) * I / 2 := by
    unfold Complex.sin
    ring_nf
    rw [Complex.I_sq]
    ring
  have n1 : ‖-z * I‖ = ‖z‖ := by simp
  have n2 : ‖z * I‖ = ‖z‖ := by simp
  rw [n1] at k1
  rw [n2] at k2
  rw [e, norm_div, norm_mul, Complex.norm_I, mul_one, Complex.norm_two]
  have := norm_sub_le (exp (-z * I) - (1 + -z * I + (-z * I) ^ 2 / 2)) (exp (z * I) - (1 + z * I + (z * I) ^ 2 / 2))
  linarith

/-- The difference of the displacements at top and bottom of a layer. -/
theorem layer_diff {w : ℝ} {l : Lay} (hw : 0 < w) (hv : 0 < l.vs) (hr : 0 < l.rho) {f : Spec.Field} (h : Wave w l f) :
    (f.u 0 - f.u l.h) * kStar w l = -(f.du (l.h / 2)) * (2 * sin (kStar w l * l.h / 2)) := by
  obtain ⟨a0, -⟩ := wave_form hw hv hr h 0
  obtain ⟨a1, -⟩ := wave_form hw hv hr h l.h
  obtain ⟨-, a2⟩ := wave_form hw hv hr h (l.h / 2)
  set k := kStar w l
  set A := upgoing k f
  set B := f.u 0 - A with hB
  rw [a1, a2]
  have hu0 : f.u 0 = A + B := by rw [hB]; ring
  rw [hu0]
  set E := exp (I * k * ((l.h / 2 : ℝ) : ℂ)) with hE
  have hE0 : E ≠ 0 := Complex.exp_ne_zero _
  have e1 : exp (-I * k * ((l.h / 2 : ℝ) : ℂ)) = E⁻¹ := by rw [hE, ← Complex.exp_neg]; congr 1; ring
  have e2 : exp (I * k * (l.h : ℂ)) = E * E := by rw [hE, ← Complex.exp_add]; congr 1; push_cast; ring
  have e3 : exp (-I * k * (l.h : ℂ)) = E⁻¹ * E⁻¹ := by rw [← e1, ← Complex.exp_add]; congr 1; push_cast; ring
  have e4 : 2 * sin (k * l.h / 2) = (E⁻¹ - E) * I := by
    unfold Complex.sin
    rw [hE, ← Complex.exp_neg, show -(k * l.h / 2) * I = -(I * k * ((l.h / 2 : ℝ) : ℂ)) by push_cast; ring,
      show k * l.h / 2 * I = I * k * ((l.h / 2 : ℝ) : ℂ) by push_cast; ring]
    ring
  rw [e1, e2, e3, e4]
  field_simp
  ring_nf
  rw [Complex.I_sq]
  ring

/-- C190: the strain computed for a layer is its mean strain over the depth of the layer (the sign of `u'` reversed, as the depth axis points
downwards). -/
theorem C190_mean {w : ℝ} {l : Lay} {f : Spec.Field} (h : Wave w l f) (hh : 0 < l.h) :
    (f.u 0 - f.u l.h) / l.h = -(∫ z in (0 : ℝ)..l.h, f.du z) / l.h := by
  have hc : Continuous f.du := by
    rw [continuous_iff_continuousAt]
    intro z
    obtain ⟨-, a, ha, -⟩ := h z
    exact ha.continuousAt
  rw [intervalIntegral.integral_eq_sub_of_hasDerivAt (fun z _ => (h z).1) (hc.intervalIntegrable _ _)]
  ring

/-- C190: it is also the strain at mid-depth of the layer times `sin (kh/2) / (kh/2)`, `k` being the wave number of the layer, for every
harmonic motion. -/
theorem C190_mid_depth {w : ℝ} {l : Lay} (hw : 0 < w) (hd : DampedLay l) (hh : 0 < l.h) {f : Spec.Field} (h : Wave w l f) (k : ℂ)
    (hk : WaveNumber w l k) :
    (f.u 0 - f.u l.h) / l.h = -f.du (l.h / 2) * (sin (k * l.h / 2) / (k * l.h / 2)) := by
  have hk' : k = kStar w l := waveNumber_unique hw hd.2.1 hd.2.2.1 hk
  have hk0 : k ≠ 0 := by rw [hk']; exact kStar_ne hw hd.2.1
  have hhc : (l.h : ℂ) ≠ 0 := by exact_mod_cast hh.ne'
  have := layer_diff hw hd.2.1 hd.2.2.1 h
  rw [← hk'] at this
  generalize sin (k * l.h / 2) = S at *
  field_simp
  linear_combination this

theorem kStar_norm {w : ℝ} {l : Lay} (hw : 0 < w) (hv : 0 < l.vs) : ‖kStar w l‖ ≤ w / l.vs := by
  have h1 : l.vs ≤ ‖vsStar l‖ := by
    have e := congrArg norm (vsStar_sq l)
    rw [norm_pow, norm_mul, norm_pow, Complex.norm_real, Real.norm_eq_abs, abs_of_pos hv] at e
    have : (1 : ℝ) ≤ ‖1 + 2 * I * (l.xi : ℂ)‖ := by
      have := Complex.abs_re_le_norm (1 + 2 * I * (l.xi : ℂ))
      simpa using this
    have : l.vs ^ 2 ≤ ‖vsStar l‖ ^ 2 := by rw [e]; nlinarith [sq_nonneg l.vs]
    exact (pow_le_pow_iff_left₀ hv.le (norm_nonneg _) two_ne_zero).1 this
  unfold kStar
  rw [norm_div, Complex.norm_real, Real.norm_eq_abs, abs_of_pos hw]
  exact div_le_div_of_nonneg_left hw.le hv h1

/-- C190: the difference between the strain computed for a layer and the strain at its mid-depth, relative to the latter, is at most
`2/9 (π h / λ)²`, `λ` being the wave length `Vs / f`, for layers thinner than `λ / π`. -/
theorem C190_error {w : ℝ} {l : Lay} (hw : 0 < w) (hd : DampedLay l) (hh : 0 < l.h) {f : Spec.Field} (h : Wave w l f)
    (hthin : w * l.h ≤ 2 * l.vs) :
    ‖(f.u 0 - f.u l.h) / l.h - -f.du (l.h / 2)‖ ≤ 2 / 9 * (w * l.h / (2 * l.vs)) ^ 2 * ‖f.du (l.h / 2)‖ := by
  have hv := hd.2.1
  have hk0 := kStar_ne hw hv (l := l)
  rw [C190_mid_depth hw hd hh h _ (kStar_waveNumber hw hv)]
  set z := kStar w l * l.h / 2 with hz
  have hz0 : z ≠ 0 := by rw [hz]; exact div_ne_zero (mul_ne_zero hk0 (by exact_mod_cast hh.ne')) two_ne_zero
  have hzn : ‖z‖ ≤ w * l.h / (2 * l.vs) := by
    rw [hz, norm_div, norm_mul, Complex.norm_real, Real.norm_eq_abs, abs_of_pos hh, Complex.norm_two]
    have := mul_le_mul_of_nonneg_right (kStar_norm hw hv) hh.le
    calc _ ≤ (w / l.vs * l.h) / 2 := div_le_div_of_nonneg_right this (by norm_num)
      _ = _ := by field_simp
  have hz1 : ‖z‖ ≤ 1 := hzn.trans (by rw [div_le_one (by positivity)]; exact hthin)
  have hzp : 0 < ‖z‖ := norm_pos_iff.2 hz0
  have e : -f.du (l.h / 2) * (sin z / z) - -f.du (l.h / 2) = -f.du (l.h / 2) * ((sin z - z) / z) := by field_simp; ring
  rw [e, norm_mul, norm_neg, norm_div, mul_comm]
  refine mul_le_mul_of_nonneg_right ?_ (norm_nonneg _)
  rw [div_le_iff₀ hzp]
  have h2 : ‖z‖ ^ 2 ≤ (w * l.h / (2 * l.vs)) ^ 2 := pow_le_pow_left₀ hzp.le hzn 2
  calc _ ≤ 2 / 9 * ‖z‖ ^ 3 := csin_bound hz1
    _ = 2 / 9 * ‖z‖ ^ 2 * ‖z‖ := by ring
    _ ≤ _ := by nlinarith

/-- C190: for every harmonic motion of the column, the strain that the every-layer solver computes for layer `k` — difference of its values of
the layers `k` and `k + 1`, divided by the thickness of layer `k` — times the incident amplitude (elastic base) or half the base displacement
(rigid base), is the mean strain of layer `k`. -/
theorem C190_solver (w : ℝ) (hw : 0 < w) (ls : List Lay) (hd : ∀ l ∈ ls, DampedLay l) (fs : List Spec.Field) (hs : SiteResponse w ls fs)
    (g : Spec.Field) (m : Lay) (hg : fs.getLast? = some g) (hm : ls.getLast? = some m) (κ : ℂ) (hκ : WaveNumber w m κ) (b : Boundary)
    (h2 : 2 ≤ ls.length) :
    ∃ H, hRow b w (ls.map toG) = .ok H ∧ ∀ (k : Nat) l f, k + 1 < ls.length → ls[k]? = some l → fs[k]? = some f → 0 < l.h →
      ∃ x y, H[k]? = some x ∧ H[k + 1]? = some y ∧
        (x - y) / l.h * (match b with | .elastic => upgoing κ g | .rigid => g.u 0 / 2) = -(∫ z in (0 : ℝ)..l.h, f.du z) / l.h := by
  obtain ⟨⟨H1, e1, p1⟩, hr⟩ := C35_every_layer w hw ls hd fs hs g m hg hm κ hκ
  obtain ⟨H2, e2, p2⟩ := hr h2
  have hlen := hs.wave.length_eq
  have core : ∀ (H : List ℂ) (c : ℂ), List.Forall₂ (fun Hk (f : Spec.Field) => Hk * c = f.u 0) H fs →
      ∀ (k : Nat) l f, k + 1 < ls.length → ls[k]? = some l → fs[k]? = some f → 0 < l.h →
      ∃ x y, H[k]? = some x ∧ H[k + 1]? = some y ∧ (x - y) / l.h * c = -(∫ z in (0 : ℝ)..l.h, f.du z) / l.h := by
    intro H c hH k l f hk hl hf hh
    have hHl := hH.length_eq
    have k1 : k < H.length := by omega
    have k2 : k + 1 < H.length := by omega
    have kf : k < fs.length := by omega
    have kf' : k + 1 < fs.length := by omega
    have a1 := hH.get k1 kf
    have a2 := hH.get k2 kf'
    rw [List.getElem?_eq_getElem kf] at hf
    have hf' := Option.some.inj hf
    refine ⟨H[k], H[k + 1], List.getElem?_eq_getElem k1, List.getElem?_eq_getElem k2, ?_⟩
    have hkl : k < ls.length := by omega
    have hl' : ls[k] = l := by rw [List.getElem?_eq_getElem hkl] at hl; exact Option.some.inj hl
    have wv : Wave w l f := by have := hs.wave.get hkl kf; simpa [hl', hf'] using this
    obtain ⟨i1, -⟩ := hs.interfaces k l ls[k + 1] f fs[k + 1] hl (List.getElem?_eq_getElem hk) (by rw [List.getElem?_eq_getElem kf, hf'])
      (List.getElem?_eq_getElem kf')
    rw [← C190_mean wv hh, i1]
    simp only [List.get_eq_getElem] at a1 a2
    rw [← hf', ← a1, ← a2]
    ring
  cases b with
  | elastic => exact ⟨H1, e1, core H1 _ p1⟩
  | rigid => exact ⟨H2, e2, core H2 _ p2⟩

/-- 2 m of soil of 200 m/s at 10 Hz (a tenth of the wave length of 20 m): the error is below 2.2 %. -/
example (f : Spec.Field) (h : Wave (2 * Real.pi * 10) ⟨2, 200, 1 / 20, 1800⟩ f) :
    ‖(f.u 0 - f.u 2) / 2 - -f.du 1‖ ≤ 22 / 1000 * ‖f.du 1‖ := by
  have hp := Real.pi_pos
  have hp2 := Real.pi_lt_d4
  have := C190_error (by positivity) (by refine ⟨?_, ?_, ?_, ?_⟩ <;> norm_num) (by norm_num) h (by norm_num; linarith)
  norm_num at this ⊢
  refine this.trans (mul_le_mul_of_nonneg_right ?_ (norm_nonneg _))
  nlinarith

end Verif
