import Verif.Props.FilterResponse
import Mathlib.Analysis.SpecificLimits.Normed
import Mathlib.Analysis.Complex.Basic
import Mathlib.Analysis.Normed.Ring.InfiniteSum
import Mathlib.Analysis.Complex.Polynomial.Basic

/-!
C195: filters with poles inside the unit circle are stable: what they compute is a convolution with an impulse response that decays
geometrically; bounded records give bounded records, the past is forgotten, and vibrations become vibrations multiplied by the response.
-/

set_option linter.unusedSectionVars false
set_option linter.unusedVariables false

namespace Verif

open Spec (times vals nyquist series numS denS sectResp sosResp unitDelay vibration)

namespace Spec

/-- All poles of a section are inside of the unit circle (the zeros of its denominator, a polynomial in `1/z`, are outside). -/
def StableSect (c : Sect ℝ) : Prop := ∀ u : ℂ, 1 + c.a1 * u + c.a2 * u ^ 2 = 0 → 1 < ‖u‖

end Spec

open Spec (StableSect)

/-- The Jury criterion. -/
theorem stable_of_jury {c : Sect ℝ} (h1 : |c.a1| < 1 + c.a2) (h2 : c.a2 < 1) : StableSect c := by
  intro u hu
  have hre := congrArg Complex.re hu
  have him := congrArg Complex.im hu
  simp [pow_two] at hre him
  by_contra hn
  have hn1 : ‖u‖ ^ 2 ≤ 1 := pow_le_one₀ (norm_nonneg _) (not_lt.1 hn)
  rw [← Complex.normSq_eq_norm_sq, Complex.normSq_apply] at hn1
  by_cases hi : u.im = 0
  · rw [hi] at hre hn1
    simp at hre hn1
    have ha : |u.re| ≤ 1 := abs_le_one_iff_mul_self_le_one.2 hn1
    have h3 : -(|c.a1| * |u.re|) ≤ c.a1 * u.re := by rw [← abs_mul]; exact neg_abs_le _
    have h4 : |u.re| * |u.re| = u.re * u.re := abs_mul_abs_self _
    rcases (abs_nonneg u.re).eq_or_lt with h0 | h0
    · have : u.re = 0 := abs_eq_zero.1 h0.symm
      rw [this] at hre; simp at hre
    · have h5 := mul_lt_mul_of_pos_right h1 h0
      have h6 : 0 ≤ (1 - |u.re|) * (1 - c.a2 * |u.re|) := by
        refine mul_nonneg (by linarith) ?_
        have := mul_le_mul_of_nonneg_right h2.le h0.le
        linarith
      nlinarith
  · have e : c.a1 + 2 * c.a2 * u.re = 0 := by
      have : u.im * (c.a1 + 2 * c.a2 * u.re) = 0 := by linear_combination him
      exact (mul_eq_zero.1 this).resolve_left hi
    have e2 : c.a2 * (u.re * u.re + u.im * u.im) = 1 := by linear_combination (-1 : ℝ) * hre + u.re * e
    nlinarith [abs_nonneg c.a1, mul_self_nonneg u.re, mul_self_nonneg u.im]

/-! ## Series that decay geometrically -/

/-- The coefficients decay geometrically. -/
def GeoS (f : PowerSeries ℂ) : Prop := ∃ C r : ℝ, 0 ≤ C ∧ 0 < r ∧ r < 1 ∧ ∀ k, ‖PowerSeries.coeff k f‖ ≤ C * r ^ k

theorem lin_geo {r : ℝ} (h0 : 0 < r) (h1 : r < 1) : ∃ C s : ℝ, 0 ≤ C ∧ 0 < s ∧ s < 1 ∧ ∀ k : ℕ, ((k : ℝ) + 1) * r ^ k ≤ C * s ^ k := by
  set s := (r + 1) / 2 with hs
  have hs0 : 0 < s := by linarith
  have hs1 : s < 1 := by linarith
  have hq : ‖r / s‖ < 1 := by
    rw [Real.norm_of_nonneg (by positivity), div_lt_one hs0]; linarith
  have ht := (summable_pow_mul_geometric_of_norm_lt_one 1 hq).add (summable_geometric_of_norm_lt_one hq)
  have hb := ht.tendsto_atTop_zero.bddAbove_range
  obtain ⟨C, hC⟩ := hb
  have hC' : ∀ k : ℕ, ((k : ℝ) + 1) * (r / s) ^ k ≤ C := fun k => by
    have := hC ⟨k, rfl⟩
    simp only [pow_one] at this
    linarith
  refine ⟨C, s, le_trans (by simp) (hC' 0), hs0, hs1, fun k => ?_⟩
  have h := mul_le_mul_of_nonneg_right (hC' k) (pow_pos hs0 k).le
  rwa [mul_assoc, ← mul_pow, div_mul_cancel₀ _ hs0.ne'] at h

theorem GeoS.mul {f g : PowerSeries ℂ} (hf : GeoS f) (hg : GeoS g) : GeoS (f * g) := by
  obtain ⟨C, r, hC, hr0, hr1, h⟩ := hf
  obtain ⟨D, s, hD, hs0, hs1, k⟩ := hg
  obtain ⟨E, t, hE, ht0, ht1, l⟩ := lin_geo (lt_max_of_lt_left hr0 : 0 < max r s) (max_lt hr1 hs1)
  refine ⟨C * D * E, t, by positivity, ht0, ht1, fun n => ?_⟩
  rw [PowerSeries.coeff_mul]
  refine (norm_sum_le _ _).trans ?_
  have : ∀ p ∈ Finset.antidiagonal n, ‖PowerSeries.coeff p.1 f * PowerSeries.coeff p.2 g‖ ≤ C * D * max r s ^ n := by
    intro p hp
    rw [norm_mul]
    have e : p.1 + p.2 = n := Finset.mem_antidiagonal.1 hp
    calc _ ≤ (C * r ^ p.1) * (D * s ^ p.2) := mul_le_mul (h _) (k _) (norm_nonneg _) (by positivity)
      _ ≤ (C * max r s ^ p.1) * (D * max r s ^ p.2) := by
        gcongr
        · exact le_max_left _ _
        · exact le_max_right _ _
      _ = _ := by rw [← e, pow_add]; ring
  refine (Finset.sum_le_card_nsmul _ _ _ this).trans ?_
  rw [Finset.Nat.card_antidiagonal, nsmul_eq_mul]
  have := mul_le_mul_of_nonneg_left (l n) (by positivity : 0 ≤ C * D)
  push_cast
  linarith

theorem geoS_finite (f : PowerSeries ℂ) (n : ℕ) (h : ∀ k, n < k → PowerSeries.coeff k f = 0) : GeoS f := by
  refine ⟨∑ i ∈ Finset.range (n + 1), ‖PowerSeries.coeff i f‖ * 2 ^ i, 1 / 2, by positivity, by norm_num, by norm_num, fun k => ?_⟩
  by_cases hk : n < k
  · rw [h k hk, norm_zero]; positivity
  · have hm : k ∈ Finset.range (n + 1) := by simp; omega
    have := Finset.single_le_sum (f := fun i => ‖PowerSeries.coeff i f‖ * 2 ^ i) (fun i _ => by positivity) hm
    have h2 := mul_le_mul_of_nonneg_right this (by positivity : (0 : ℝ) ≤ (1 / 2) ^ k)
    refine le_trans (le_of_eq ?_) h2
    rw [mul_assoc, ← mul_pow]; norm_num

theorem geoS_geom {p : ℂ} (hp : ‖p‖ < 1) : GeoS (PowerSeries.mk fun k => p ^ k) := by
  refine ⟨1, (‖p‖ + 1) / 2, by norm_num, by linarith [norm_nonneg p], by linarith, fun k => ?_⟩
  rw [PowerSeries.coeff_mk, norm_pow, one_mul]
  exact pow_le_pow_left₀ (norm_nonneg _) (by linarith) k

theorem geom_inv (p : ℂ) : (1 - PowerSeries.C p * PowerSeries.X) * (PowerSeries.mk fun k => p ^ k) = 1 := by
  ext k
  rw [sub_mul, one_mul, map_sub, mul_assoc, PowerSeries.coeff_C_mul]
  cases k with
  | zero => simp
  | succ k =>
    rw [mul_comm PowerSeries.X, PowerSeries.coeff_succ_mul_X, PowerSeries.coeff_mk, PowerSeries.coeff_mk, PowerSeries.coeff_one]
    simp [pow_succ']

noncomputable abbrev toC (f : PowerSeries ℝ) : PowerSeries ℂ := PowerSeries.map (Complex.ofRealHom) f

/-- The inverse of the denominator of a stable section decays geometrically. -/
theorem den_inverse {c : Sect ℝ} (hc : StableSect c) : ∃ g, GeoS g ∧ toC (denS c) * g = 1 := by
  obtain ⟨s, hs⟩ : ∃ s : ℂ, s * s = (c.a1 : ℂ) ^ 2 - 4 * c.a2 := by
    obtain ⟨s, hs⟩ := IsAlgClosed.exists_pow_nat_eq ((c.a1 : ℂ) ^ 2 - 4 * c.a2) (n := 2) (by norm_num)
    exact ⟨s, by rw [← hs]; ring⟩
  set p : ℂ := (-c.a1 + s) / 2 with hp
  set q : ℂ := (-c.a1 - s) / 2 with hq
  have hsum : p + q = -c.a1 := by rw [hp, hq]; ring
  have hprod : p * q = c.a2 := by rw [hp, hq]; linear_combination (-1 / 4 : ℂ) * hs
  have key : ∀ p q : ℂ, p + q = -c.a1 → p * q = c.a2 → ‖p‖ < 1 := by
    intro p q h1 h2
    by_cases h0 : p = 0
    · rw [h0]; simp
    · have : 1 < ‖p⁻¹‖ := by
        refine hc _ ?_
        have e : (c.a1 : ℂ) = -(p + q) := by rw [h1]; ring
        rw [e, ← h2]
        field_simp
        ring
      rw [norm_inv] at this
      exact (one_lt_inv₀ (norm_pos_iff.2 h0)).1 this
  have hp1 := key p q hsum hprod
  have hq1 := key q p (by rw [add_comm]; exact hsum) (by rw [mul_comm]; exact hprod)
  refine ⟨_, (geoS_geom hp1).mul (geoS_geom hq1), ?_⟩
  have e : toC (denS c) = (1 - PowerSeries.C p * PowerSeries.X) * (1 - PowerSeries.C q * PowerSeries.X) := by
    have e1 : (PowerSeries.C (p + q) : PowerSeries ℂ) = PowerSeries.C (-(c.a1 : ℂ)) := by rw [hsum]
    have e2 : (PowerSeries.C (p * q) : PowerSeries ℂ) = PowerSeries.C (c.a2 : ℂ) := by rw [hprod]
    simp only [map_add, map_neg, map_mul] at e1 e2
    simp only [toC, denS, map_add, map_mul, map_one, map_pow, PowerSeries.map_C, PowerSeries.map_X, Complex.ofRealHom_eq_coe]
    linear_combination (PowerSeries.X : PowerSeries ℂ) * e1 - (PowerSeries.X ^ 2 : PowerSeries ℂ) * e2
  rw [e]
  linear_combination (1 - PowerSeries.C q * PowerSeries.X) * (PowerSeries.mk fun k => q ^ k) * geom_inv p + geom_inv q

theorem num_geo (c : Sect ℝ) : GeoS (toC (numS c)) := by
  refine geoS_finite _ 2 fun k hk => ?_
  simp only [toC, numS, PowerSeries.coeff_map, map_add, PowerSeries.coeff_C_mul, PowerSeries.coeff_C, PowerSeries.coeff_X, PowerSeries.coeff_X_pow]
  rw [if_neg (by omega), if_neg (by omega), if_neg (by omega)]
  simp

theorem sos_geo (sos : List (Sect ℝ)) (hs : ∀ c ∈ sos, StableSect c) :
    ∃ g, GeoS g ∧ toC (sos.map denS).prod * g = toC (sos.map numS).prod := by
  induction sos with
  | nil => exact ⟨1, geoS_finite _ 0 fun k hk => by rw [PowerSeries.coeff_one, if_neg (by omega)], by simp⟩
  | cons c sos ih =>
    obtain ⟨g, hg, e⟩ := ih fun c' h => hs c' (by simp [h])
    obtain ⟨d, hd, e'⟩ := den_inverse (hs c (by simp))
    refine ⟨_, ((num_geo c).mul hd).mul hg, ?_⟩
    simp only [List.map_cons, List.prod_cons, toC, map_mul] at e e' ⊢
    linear_combination (PowerSeries.map Complex.ofRealHom (numS c)) * e + (PowerSeries.map Complex.ofRealHom (sos.map denS).prod) * g *
      (PowerSeries.map Complex.ofRealHom (numS c)) * e'

/-- The impulse response. -/
theorem impulse_exists (sos : List (Sect ℝ)) (hs : ∀ c ∈ sos, StableSect c) : ∃ h : PowerSeries ℝ, GeoS (toC h) ∧
    (sos.map denS).prod * h = (sos.map numS).prod := by
  obtain ⟨r, hr⟩ := den_unit sos
  obtain ⟨g, hg, e⟩ := sos_geo sos hs
  refine ⟨r * (sos.map numS).prod, ?_, by linear_combination (sos.map numS).prod * hr⟩
  have hr' : toC (sos.map denS).prod * toC r = 1 := by rw [← map_mul, hr, map_one]
  have : toC (r * (sos.map numS).prod) = g := by
    rw [toC, map_mul, show PowerSeries.map Complex.ofRealHom (sos.map numS).prod = toC (sos.map numS).prod from rfl, ← e]
    rw [show PowerSeries.map Complex.ofRealHom r = toC r from rfl]
    linear_combination g * hr'
  rw [this]; exact hg

theorem sos_conv (sos : List (Sect ℝ)) (g : PowerSeries ℝ) (e : (sos.map denS).prod * g = (sos.map numS).prod) (x : List ℝ) (k : ℕ)
    (hk : k < x.length) : (sosfilt sos x).getD k 0 = ∑ i ∈ Finset.range (k + 1), x.getD i 0 * PowerSeries.coeff (k - i) g := by
  obtain ⟨rr, hrr⟩ := den_unit sos
  have hd := (sos_series sos x).mul_right rr
  have e2 : (series (sosfilt sos x) * (sos.map denS).prod - series x * (sos.map numS).prod) * rr = series (sosfilt sos x) - series x * g := by
    rw [← e]
    linear_combination (series (sosfilt sos x) - series x * g) * hrr
  rw [e2, PowerSeries.X_pow_dvd_iff] at hd
  have := hd k hk
  rw [map_sub, sub_eq_zero, PowerSeries.coeff_mul, Finset.Nat.sum_antidiagonal_eq_sum_range_succ_mk] at this
  simpa only [series, PowerSeries.coeff_mk] using this

theorem toC_norm (g : PowerSeries ℝ) (k : ℕ) : ‖PowerSeries.coeff k (toC g)‖ = |PowerSeries.coeff k g| := by
  rw [toC, PowerSeries.coeff_map, Complex.ofRealHom_eq_coe, Complex.norm_real, Real.norm_eq_abs]

/-- C195: a cascade of stable sections computes the convolution with an impulse response that decays geometrically and does not depend on
the record. -/
theorem C195_impulse (sos : List (Sect ℝ)) (hs : ∀ c ∈ sos, StableSect c) : ∃ (h : ℕ → ℝ) (C r : ℝ), 0 ≤ C ∧ 0 < r ∧ r < 1 ∧
    (∀ k, |h k| ≤ C * r ^ k) ∧
    ∀ (x : List ℝ) (k : ℕ), k < x.length → (sosfilt sos x).getD k 0 = ∑ i ∈ Finset.range (k + 1), x.getD i 0 * h (k - i) := by
  obtain ⟨g, ⟨C, r, hC, h0, h1, hg⟩, e⟩ := impulse_exists sos hs
  exact ⟨fun k => PowerSeries.coeff k g, C, r, hC, h0, h1, fun k => toC_norm g k ▸ hg k, fun x k hk => sos_conv sos g e x k hk⟩

theorem geom_partial {r : ℝ} (h0 : 0 < r) (h1 : r < 1) (n : ℕ) : ∑ i ∈ Finset.range n, r ^ i ≤ 1 / (1 - r) := by
  have := Summable.sum_le_tsum (Finset.range n) (fun i _ => by positivity) (summable_geometric_of_lt_one h0.le h1)
  rwa [tsum_geometric_of_lt_one h0.le h1, ← one_div] at this

theorem conv_bound {h : ℕ → ℝ} {C r : ℝ} (hC : 0 ≤ C) (h0 : 0 < r) (h1 : r < 1) (hh : ∀ k, |h k| ≤ C * r ^ k) (f : ℕ → ℝ) (X : ℝ) (hX : ∀ i, |f i| ≤ X)
    (n k : ℕ) (hn : n ≤ k) : |∑ i ∈ Finset.range (n + 1), f i * h (k - i)| ≤ C / (1 - r) * X * r ^ (k - n) := by
  have hX0 : 0 ≤ X := (abs_nonneg _).trans (hX 0)
  refine (Finset.abs_sum_le_sum_abs _ _).trans ?_
  have : ∀ i ∈ Finset.range (n + 1), |f i * h (k - i)| ≤ X * C * r ^ (k - n) * r ^ (n - i) := by
    intro i hi
    have hi' : i ≤ n := by have := Finset.mem_range.1 hi; omega
    rw [abs_mul]
    refine (mul_le_mul (hX i) (hh _) (abs_nonneg _) hX0).trans (le_of_eq ?_)
    rw [show k - i = (k - n) + (n - i) by omega, pow_add]; ring
  refine (Finset.sum_le_sum this).trans ?_
  rw [← Finset.mul_sum]
  have e : ∑ i ∈ Finset.range (n + 1), r ^ (n - i) = ∑ i ∈ Finset.range (n + 1), r ^ i := by
    have := Finset.sum_range_reflect (fun i => r ^ i) (n + 1)
    simpa using this
  rw [e]
  have := mul_le_mul_of_nonneg_left (geom_partial h0 h1 (n + 1)) (by positivity : 0 ≤ X * C * r ^ (k - n))
  refine this.trans (le_of_eq ?_)
  ring

theorem getD_bound (x : List ℝ) (X : ℝ) (hX0 : 0 ≤ X) (hX : ∀ v ∈ x, |v| ≤ X) (i : ℕ) : |x.getD i 0| ≤ X := by
  by_cases hi : i < x.length
  · rw [List.getD_eq_getElem _ _ hi]; exact hX _ (List.getElem_mem hi)
  · rw [List.getD_eq_default _ _ (by omega)]; simpa using hX0

/-- C195: bounded records give bounded records, with a factor that depends on the filter only and not on the length of the record. -/
theorem C195_bounded (sos : List (Sect ℝ)) (hs : ∀ c ∈ sos, StableSect c) : ∃ B : ℝ, 0 ≤ B ∧
    ∀ (x : List ℝ) (X : ℝ), (∀ v ∈ x, |v| ≤ X) → ∀ v ∈ sosfilt sos x, |v| ≤ B * X := by
  obtain ⟨h, C, r, hC, h0, h1, hh, hc⟩ := C195_impulse sos hs
  refine ⟨C / (1 - r), div_nonneg hC (by linarith), fun x X hX v hv => ?_⟩
  obtain ⟨k, hk, rfl⟩ := List.mem_iff_getElem.1 hv
  have hk' : k < x.length := by rwa [sosfilt_length] at hk
  have hX0 : 0 ≤ X := (abs_nonneg _).trans (hX _ (List.getElem_mem hk'))
  rw [← List.getD_eq_getElem _ 0 hk, hc x k hk']
  simpa using conv_bound hC h0 h1 hh (fun i => x.getD i 0) X (getD_bound x X hX0 hX) k k le_rfl

/-- C195: the past is forgotten: records that agree after the `n`-th sample give results whose difference decays geometrically after it. -/
theorem C195_fading (sos : List (Sect ℝ)) (hs : ∀ c ∈ sos, StableSect c) : ∃ D r : ℝ, 0 ≤ D ∧ 0 < r ∧ r < 1 ∧
    ∀ (x x' : List ℝ) (X : ℝ) (n : ℕ), x.length = x'.length → (∀ v ∈ x, |v| ≤ X) → (∀ v ∈ x', |v| ≤ X) →
      (∀ i, n < i → x.getD i 0 = x'.getD i 0) → ∀ k, n ≤ k → k < x.length →
        |(sosfilt sos x).getD k 0 - (sosfilt sos x').getD k 0| ≤ D * X * r ^ (k - n) := by
  obtain ⟨h, C, r, hC, h0, h1, hh, hc⟩ := C195_impulse sos hs
  refine ⟨2 * (C / (1 - r)), r, by have := div_nonneg hC (by linarith : 0 ≤ 1 - r); linarith, h0, h1, fun x x' X n hl hX hX' hag k hn hk => ?_⟩
  rw [hc x k hk, hc x' k (hl ▸ hk), ← Finset.sum_sub_distrib]
  have hX0 : 0 ≤ X := (abs_nonneg _).trans (hX _ (List.getElem_mem hk))
  have e : ∑ i ∈ Finset.range (k + 1), (x.getD i 0 * h (k - i) - x'.getD i 0 * h (k - i)) =
      ∑ i ∈ Finset.range (n + 1), (x.getD i 0 - x'.getD i 0) * h (k - i) := by
    symm
    rw [← Finset.sum_subset (Finset.range_mono (by omega : n + 1 ≤ k + 1))]
    · exact Finset.sum_congr rfl fun i _ => sub_mul _ _ _
    · intro i _ hi
      rw [hag i (by simp at hi; omega), sub_self]
  rw [e]
  have := conv_bound hC h0 h1 hh (fun i => x.getD i 0 - x'.getD i 0) (2 * X) (fun i => by
    have a1 := getD_bound x X hX0 hX i
    have a2 := getD_bound x' X hX0 hX' i
    refine (abs_sub _ _).trans ?_
    linarith) n k hn
  refine this.trans (le_of_eq ?_)
  ring

/-! ## Vibrations -/

theorem GeoS.summable {f : PowerSeries ℂ} (hf : GeoS f) {u : ℂ} (hu : ‖u‖ ≤ 1) : Summable fun k => ‖PowerSeries.coeff k f * u ^ k‖ := by
  obtain ⟨C, r, hC, h0, h1, h⟩ := hf
  refine Summable.of_nonneg_of_le (fun k => norm_nonneg _) (fun k => ?_) ((summable_geometric_of_lt_one h0.le h1).mul_left C)
  rw [norm_mul, norm_pow]
  exact (mul_le_of_le_one_right (norm_nonneg _) (pow_le_one₀ (norm_nonneg _) hu)).trans (h k)

noncomputable def evalS (f : PowerSeries ℂ) (u : ℂ) : ℂ := ∑' k, PowerSeries.coeff k f * u ^ k

theorem evalS_mul {f g : PowerSeries ℂ} (hf : GeoS f) (hg : GeoS g) {u : ℂ} (hu : ‖u‖ ≤ 1) : evalS (f * g) u = evalS f u * evalS g u := by
  unfold evalS
  rw [tsum_mul_tsum_eq_tsum_sum_antidiagonal_of_summable_norm (hf.summable hu) (hg.summable hu)]
  refine tsum_congr fun n => ?_
  rw [PowerSeries.coeff_mul, Finset.sum_mul]
  refine Finset.sum_congr rfl fun p hp => ?_
  rw [← Finset.mem_antidiagonal.1 hp, pow_add]
  ring

theorem quad_eval (a b c : ℝ) (u : ℂ) : GeoS (toC (PowerSeries.C a + PowerSeries.C b * PowerSeries.X + PowerSeries.C c * PowerSeries.X ^ 2)) ∧
    evalS (toC (PowerSeries.C a + PowerSeries.C b * PowerSeries.X + PowerSeries.C c * PowerSeries.X ^ 2)) u = a + b * u + c * u ^ 2 := by
  have hz : ∀ k, 2 < k → PowerSeries.coeff k (toC (PowerSeries.C a + PowerSeries.C b * PowerSeries.X + PowerSeries.C c * PowerSeries.X ^ 2)) = 0 := by
    intro k hk
    simp only [toC, PowerSeries.coeff_map, map_add, PowerSeries.coeff_C_mul, PowerSeries.coeff_C, PowerSeries.coeff_X, PowerSeries.coeff_X_pow]
    rw [if_neg (by omega), if_neg (by omega), if_neg (by omega)]
    simp
  refine ⟨geoS_finite _ 2 hz, ?_⟩
  unfold evalS
  rw [tsum_eq_sum (s := Finset.range 3) fun k hk => by rw [hz k (by simp at hk; omega), zero_mul]]
  simp [Finset.sum_range_succ, PowerSeries.coeff_C, PowerSeries.coeff_X, PowerSeries.coeff_X_pow]

theorem denS_quad (c : Sect ℝ) : denS c = PowerSeries.C 1 + PowerSeries.C c.a1 * PowerSeries.X + PowerSeries.C c.a2 * PowerSeries.X ^ 2 := by
  simp [denS]

theorem prod_eval (sos : List (Sect ℝ)) (u : ℂ) (hu : ‖u‖ ≤ 1) (F : Sect ℝ → PowerSeries ℝ) (G : Sect ℝ → ℂ)
    (h : ∀ c, GeoS (toC (F c)) ∧ evalS (toC (F c)) u = G c) : GeoS (toC (sos.map F).prod) ∧ evalS (toC (sos.map F).prod) u = (sos.map G).prod := by
  induction sos with
  | nil =>
    have := quad_eval 1 0 0 u
    simpa using this
  | cons c sos ih =>
    obtain ⟨h1, h2⟩ := h c
    simp only [List.map_cons, List.prod_cons]
    have e : toC (F c * (sos.map F).prod) = toC (F c) * toC (sos.map F).prod := map_mul _ _ _
    rw [e]
    exact ⟨h1.mul ih.1, by rw [evalS_mul h1 ih.1 hu, h2, ih.2]⟩

/-- C195: from rest, the answer to a vibration tends geometrically to the vibration multiplied by the response of the filter. -/
theorem C195_vibration (sos : List (Sect ℝ)) (hs : ∀ c ∈ sos, StableSect c) : ∃ D r : ℝ, 0 ≤ D ∧ 0 < r ∧ r < 1 ∧
    ∀ (A u w : ℂ) (n k : ℕ), ‖u‖ = 1 → u * w = 1 → k < n →
      |(sosfilt sos (vibration A w n)).getD k 0 - (vibration (sosResp sos u * A) w n).getD k 0| ≤ D * ‖A‖ * r ^ k := by
  obtain ⟨g, ⟨C, r, hC, h0, h1, hg⟩, e⟩ := impulse_exists sos hs
  have hr : 0 < 1 - r := by linarith
  refine ⟨C / (1 - r), r, by positivity, h0, h1, fun A u w n k hu huw hk => ?_⟩
  have hgeo : GeoS (toC g) := ⟨C, r, hC, h0, h1, hg⟩
  -- the response is the sum of the impulse response
  have hev : evalS (toC g) u = sosResp sos u := by
    obtain ⟨d1, d2⟩ := prod_eval sos u hu.le denS (fun c => 1 + c.a1 * u + c.a2 * u ^ 2) fun c => by
      rw [denS_quad]; simpa using quad_eval 1 c.a1 c.a2 u
    obtain ⟨n1, n2⟩ := prod_eval sos u hu.le numS (fun c => c.b0 + c.b1 * u + c.b2 * u ^ 2) fun c => quad_eval c.b0 c.b1 c.b2 u
    have e' : toC (sos.map denS).prod * toC g = toC (sos.map numS).prod := by rw [← e]; exact (map_mul _ _ _).symm
    have h2 := evalS_mul d1 hgeo hu.le
    rw [e', n2, d2] at h2
    have hne : (sos.map fun c : Sect ℝ => 1 + (c.a1 : ℂ) * u + c.a2 * u ^ 2).prod ≠ 0 := by
      intro hz
      rw [List.prod_eq_zero_iff] at hz
      obtain ⟨c, hc, hz⟩ := List.mem_map.1 hz
      have := hs c hc u hz
      linarith
    have h3 : sosResp sos u * (sos.map fun c : Sect ℝ => 1 + (c.a1 : ℂ) * u + c.a2 * u ^ 2).prod =
        (sos.map fun c : Sect ℝ => (c.b0 : ℂ) + c.b1 * u + c.b2 * u ^ 2).prod := by
      rw [sosResp, ← List.prod_map_mul]
      congr 1
      refine List.map_congr_left fun c hc => div_mul_cancel₀ _ fun hz => ?_
      have := hs c hc u hz
      linarith
    exact mul_left_cancel₀ hne (by rw [← h2, ← h3]; ring)
  have hw0 : w ≠ 0 := fun h => by rw [h, mul_zero] at huw; exact zero_ne_one huw
  have hwn : ‖w‖ = 1 := by
    have := congrArg norm huw
    rw [norm_mul, hu, one_mul, norm_one] at this
    exact this
  have hvib : ∀ (B : ℂ) (i : ℕ), i < n → (vibration B w n).getD i 0 = (B * w ^ i).re := by
    intro B i hi
    rw [List.getD_eq_getElem _ _ (by simpa [vibration] using hi)]
    simp [vibration]
  have hlen : (vibration A w n).length = n := by simp [vibration]
  rw [sos_conv sos g e _ k (by rw [hlen]; exact hk), hvib _ k hk]
  have e1 : ∑ i ∈ Finset.range (k + 1), (vibration A w n).getD i 0 * PowerSeries.coeff (k - i) g =
      ((∑ j ∈ Finset.range (k + 1), PowerSeries.coeff j (toC g) * u ^ j) * A * w ^ k).re := by
    rw [Finset.sum_mul, Finset.sum_mul, Complex.re_sum, ← Finset.sum_range_reflect]
    refine Finset.sum_congr rfl fun i hi => ?_
    have hi' : i ≤ k := by have := Finset.mem_range.1 hi; omega
    rw [show k + 1 - 1 - i = k - i by omega, show k - (k - i) = i by omega, hvib _ _ (by omega)]
    have e3 : PowerSeries.coeff i (toC g) * u ^ i * A * w ^ k = ((PowerSeries.coeff i g : ℝ) : ℂ) * (A * w ^ (k - i)) := by
      rw [toC, PowerSeries.coeff_map, Complex.ofRealHom_eq_coe]
      have : u ^ i * w ^ k = w ^ (k - i) := by
        rw [show w ^ k = w ^ i * w ^ (k - i) by rw [← pow_add]; congr 1; omega, ← mul_assoc, ← mul_pow, huw, one_pow, one_mul]
      rw [← this]; ring
    rw [e3, Complex.re_ofReal_mul]
    ring
  rw [e1, ← Complex.sub_re]
  refine (Complex.abs_re_le_norm _).trans ?_
  have e2 : (∑ j ∈ Finset.range (k + 1), PowerSeries.coeff j (toC g) * u ^ j) * A * w ^ k - sosResp sos u * A * w ^ k =
      -(∑' j, PowerSeries.coeff (j + (k + 1)) (toC g) * u ^ (j + (k + 1))) * A * w ^ k := by
    have hsum := (hgeo.summable hu.le).of_norm
    have := hsum.sum_add_tsum_nat_add (k + 1)
    rw [← hev, evalS, ← this]
    ring
  rw [e2, norm_mul, norm_mul, norm_neg, norm_pow, hwn, one_pow, mul_one]
  have hb : ∀ j, ‖PowerSeries.coeff (j + (k + 1)) (toC g) * u ^ (j + (k + 1))‖ ≤ C * r ^ k * r ^ j := by
    intro j
    rw [norm_mul, norm_pow, hu, one_pow, mul_one]
    refine (hg _).trans ?_
    rw [show C * r ^ k * r ^ j = C * r ^ (j + k) by rw [pow_add]; ring]
    exact mul_le_mul_of_nonneg_left (pow_le_pow_of_le_one h0.le h1.le (by omega)) hC
  have hb2 : ‖∑' j, PowerSeries.coeff (j + (k + 1)) (toC g) * u ^ (j + (k + 1))‖ ≤ C * r ^ k * (1 - r)⁻¹ :=
    tsum_of_norm_bounded ((hasSum_geometric_of_lt_one h0.le h1).mul_left _) hb
  refine (mul_le_mul_of_nonneg_right hb2 (norm_nonneg _)).trans (le_of_eq ?_)
  rw [div_eq_mul_inv]; ring

/-- The gain of a filter request for records with time step `d` is at most `B`. -/
def GainAt (d : ℝ) (f : Rec ℝ → Except PyErr (Rec ℝ)) (B : ℝ) : Prop := ∀ (x r : Rec ℝ) (X : ℝ), dtOf x = .ok d → f x = .ok r →
  (∀ v ∈ vals x, |v| ≤ X) → ∀ v ∈ vals r, |v| ≤ B * X

theorem vals_nonneg_bound {x : Rec ℝ} {d X : ℝ} (hd : dtOf x = .ok d) (hX : ∀ v ∈ vals x, |v| ≤ X) : 0 ≤ X := by
  match x, hd with
  | p :: _ :: _, _ => exact (abs_nonneg p.2).trans (hX _ (by simp [vals]))

theorem GainAt.mono {d : ℝ} {f : Rec ℝ → Except PyErr (Rec ℝ)} {B B' : ℝ} (h : GainAt d f B) (hB : B ≤ B') : GainAt d f B' :=
  fun x r X hd hf hX v hv => (h x r X hd hf hX v hv).trans (mul_le_mul_of_nonneg_right hB (vals_nonneg_bound hd hX))

theorem gain_apply (design : Design ℝ) (order : ℕ) (hd : ∀ ft wn sos, design order ft wn = .ok sos → ∀ c ∈ sos, StableSect c)
    (d : ℝ) (ft : FType) (wn : List ℝ) : ∃ B, GainAt d (applyFilter design order ft wn) B := by
  cases hds : design order ft wn with
  | error e =>
    refine ⟨0, fun x r X _ h => ?_⟩
    obtain ⟨sos, h1, _⟩ := applyFilter_ok h
    rw [hds] at h1; cases h1
  | ok sos =>
    obtain ⟨B, hB, hb⟩ := C195_bounded sos (hd ft wn sos hds)
    refine ⟨B, fun x r X _ h hX v hv => ?_⟩
    rw [applyFilter_of x hds] at h
    rw [← Except.ok.inj h, vals, List.map_snd_zip (by rw [sosfilt_length, times_length, vals_length])] at hv
    exact hb _ X hX v hv

theorem gain_id (d : ℝ) : GainAt d (fun x => .ok x) 1 := by
  intro x r X _ h hX v hv
  rw [← Except.ok.inj h] at hv
  rw [one_mul]; exact hX v hv

theorem gain_one (design : Design ℝ) (order : ℕ) (hd : ∀ ft wn sos, design order ft wn = .ok sos → ∀ c ∈ sos, StableSect c)
    (d : ℝ) (high : Bool) (c : ℝ) : ∃ B, GainAt d (filterOne design order high c) B := by
  obtain ⟨B1, h1⟩ := gain_apply design order hd d .highpass [c / (1 / d / 2)]
  obtain ⟨B2, h2⟩ := gain_apply design order hd d .lowpass [c / (1 / d / 2)]
  refine ⟨max 1 (max B1 B2), fun x r X hdt h => ?_⟩
  rw [filterOne, hdt] at h
  simp only [bind, Except.bind] at h
  split at h
  · cases h
  · split at h
    · split at h
      · exact (gain_id d).mono (le_max_left _ _) x r X hdt h
      · exact h1.mono ((le_max_left _ _).trans (le_max_right _ _)) x r X hdt h
    · split at h
      · exact (gain_id d).mono (le_max_left _ _) x r X hdt h
      · exact h2.mono ((le_max_right _ _).trans (le_max_right _ _)) x r X hdt h

theorem gain_two (design : Design ℝ) (order : ℕ) (hd : ∀ ft wn sos, design order ft wn = .ok sos → ∀ c ∈ sos, StableSect c)
    (d : ℝ) (stop : Bool) (a b : ℝ) : ∃ B, GainAt d (filterTwo design order stop a b) B := by
  obtain ⟨B1, h1⟩ := gain_one design order hd d (!stop) a
  obtain ⟨B2, h2⟩ := gain_one design order hd d stop b
  obtain ⟨B3, h3⟩ := gain_apply design order hd d (if stop then .bandstop else .bandpass) [a / (1 / d / 2), b / (1 / d / 2)]
  refine ⟨max B1 (max B2 B3), fun x r X hdt h => ?_⟩
  rw [filterTwo, hdt] at h
  simp only [bind, Except.bind] at h
  split at h
  · cases h
  · split at h
    · exact h1.mono (le_max_left _ _) x r X hdt h
    · split at h
      · exact h2.mono ((le_max_left _ _).trans (le_max_right _ _)) x r X hdt h
      · exact h3.mono ((le_max_right _ _).trans (le_max_right _ _)) x r X hdt h

/-- C195: for the filters of the library: if the design yields stable sections, the filtered record is at most a factor times the record, and
the factor depends only on the filter and the time step, not on the record or its length. -/
theorem C195_filters (design : Design ℝ) (order : ℕ) (hd : ∀ ft wn sos, design order ft wn = .ok sos → ∀ c ∈ sos, StableSect c)
    (ft : FType) (cut : Cut ℝ) (d : ℝ) : ∃ B : ℝ, ∀ (x r : Rec ℝ) (X : ℝ), dtOf x = .ok d → filterKernel design order ft cut x = .ok r →
      (∀ v ∈ vals x, |v| ≤ X) → ∀ v ∈ vals r, |v| ≤ B * X := by
  have bad : ∀ (e : PyErr), ∃ B, GainAt d (fun _ => .error e) B := fun e => ⟨0, fun x r X _ h => by cases h⟩
  cases ft with
  | bad => exact bad _
  | lowpass => cases cut with
    | num c => exact gain_one design order hd d false c
    | pair => exact bad _
    | seq => exact bad _
    | other => exact bad _
  | highpass => cases cut with
    | num c => exact gain_one design order hd d true c
    | pair => exact bad _
    | seq => exact bad _
    | other => exact bad _
  | bandpass => cases cut with
    | num c => exact bad _
    | pair a b =>
      by_cases hab : b ≤ a
      · exact ⟨0, fun x r X _ h => by simp [filterKernel, hab] at h⟩
      · obtain ⟨B, h⟩ := gain_two design order hd d false a b
        exact ⟨B, fun x r X hdt hf => h x r X hdt (by simpa [filterKernel, hab] using hf)⟩
    | seq => exact bad _
    | other => exact bad _
  | bandstop => cases cut with
    | num c => exact bad _
    | pair a b =>
      by_cases hab : b ≤ a
      · exact ⟨0, fun x r X _ h => by simp [filterKernel, hab] at h⟩
      · obtain ⟨B, h⟩ := gain_two design order hd d true a b
        exact ⟨B, fun x r X hdt hf => h x r X hdt (by simpa [filterKernel, hab] using hf)⟩
    | seq => exact bad _
    | other => exact bad _

/-- C195: without the hypothesis the statement fails: a section with a pole outside of the unit circle turns a single impulse into a record
that grows without bound. -/
theorem C195_unstable (p : ℝ) (hp : 1 < |p|) (B : ℝ) :
    ∃ x : List ℝ, (∀ v ∈ x, |v| ≤ 1) ∧ ∃ v ∈ sosfilt [⟨1, 0, 0, -p, 0⟩] x, B < |v| := by
  obtain ⟨n, hn⟩ := pow_unbounded_of_one_lt B hp
  have key : ∀ (m : ℕ) (z : ℝ), sectFrom ⟨1, 0, 0, -p, 0⟩ (z, 0) (List.replicate m 0) = (List.range m).map fun k => z * p ^ k := by
    intro m
    induction m with
    | zero => intro z; rfl
    | succ m ih =>
      intro z
      rw [List.replicate_succ, sectFrom, List.range_succ_eq_map, List.map_cons, List.map_map]
      simp only [mul_zero, zero_add, zero_sub, neg_mul, neg_neg, sub_zero, pow_zero, mul_one, add_zero, zero_mul, List.cons.injEq, true_and]
      rw [ih]
      refine List.map_congr_left fun k _ => ?_
      simp only [Function.comp, pow_succ']
      ring
  refine ⟨1 :: List.replicate n 0, ?_, p ^ n, ?_, by rwa [abs_pow]⟩
  · intro v hv
    simp only [List.mem_cons, List.mem_replicate] at hv
    rcases hv with rfl | ⟨_, rfl⟩ <;> simp
  · rcases Nat.eq_zero_or_pos n with rfl | h0
    · simp [sosfilt, sectFrom]
    · simp only [sosfilt, List.foldl_cons, List.foldl_nil, sectFrom, List.mem_cons]
      right
      norm_num
      rw [key]
      refine List.mem_map.2 ⟨n - 1, by simp; omega, ?_⟩
      rw [← pow_succ', Nat.sub_add_cancel h0]

example : StableSect ⟨1, 2, 1, -1 / 2, 1 / 4⟩ := stable_of_jury (by norm_num [abs_lt]) (by norm_num)

end Verif
