import Verif.Model.FloatCode
import Verif.Proof.Float

set_option linter.unusedSectionVars false
set_option linter.unusedVariables false

namespace Verif

open Spec (IsDouble NearestDouble)

variable {K : Type} [Field K] [LinearOrder K] [IsStrictOrderedRing K] [FloorRing K]

theorem double_half {k : ℕ} (h : k < 2 ^ 52) : IsDouble ((k : K) + 1 / 2) := by
  refine ⟨2 * k + 1, -1, ?_, by norm_num, ?_⟩
  · rw [abs_of_nonneg (by positivity)]; omega
  · push_cast
    rw [zpow_neg_one]; ring

theorem double_halfm {k : ℕ} (h : k < 2 ^ 52) : IsDouble ((k : K) - 1 / 2) := by
  refine ⟨2 * k - 1, -1, ?_, by norm_num, ?_⟩
  · rw [abs_lt]; constructor <;> omega
  · push_cast
    rw [zpow_neg_one]; ring

/-- The quotient of the doubles nearest to `k * d` and `d` is within one half of `k`. -/
theorem quot_near {d : K} {k : ℕ} (hd : (2 : K) ^ (-1022 : ℤ) ≤ d) (hk : k ≤ 2 ^ 50) :
    (k : K) - 1 / 2 ≤ fl (k * d) / fl d ∧ fl (k * d) / fl d ≤ k + 1 / 2 := by
  have hd0 : 0 < d := lt_of_lt_of_le (zpow_pos (by norm_num) _) hd
  have e1 := fl_rel (x := d) (by rwa [abs_of_pos hd0])
  rw [abs_of_pos hd0, abs_le] at e1
  have hD : 0 < fl d := by
    have : d / 2 ^ 53 < d := by rw [div_lt_iff₀ (by positivity)]; nlinarith [hd0, (by norm_num : (1 : K) < 2 ^ 53)]
    linarith [e1.2]
  rcases Nat.eq_zero_or_pos k with rfl | hk0
  · simp only [Nat.cast_zero, zero_mul, fl_zero, zero_div]
    constructor <;> norm_num
  have hk1 : (1 : K) ≤ k := by exact_mod_cast hk0
  have hkK : (k : K) ≤ 2 ^ 50 := by exact_mod_cast hk
  have hkd : d ≤ k * d := by nlinarith
  have e2 := fl_rel (x := (k : K) * d) (by rw [abs_of_pos (by positivity)]; exact hd.trans hkd)
  rw [abs_of_pos (show (0 : K) < k * d by positivity), abs_le] at e2
  have hu : (k : K) * (d / 2 ^ 53) ≤ d / 8 := by
    have : (k : K) * (d / 2 ^ 53) ≤ 2 ^ 50 * (d / 2 ^ 53) := mul_le_mul_of_nonneg_right hkK (by positivity)
    refine this.trans (le_of_eq ?_); field_simp; norm_num
  have e3 : (k : K) * d / 2 ^ 53 = k * (d / 2 ^ 53) := by ring
  rw [e3] at e2
  have hs : d / 2 ^ 53 ≤ d / 8 := by
    have : (1 : K) * (d / 2 ^ 53) ≤ k * (d / 2 ^ 53) := mul_le_mul_of_nonneg_right hk1 (by positivity)
    linarith
  have m1 : (k : K) * fl d ≤ k * d + d / 8 := by
    have := mul_le_mul_of_nonneg_left (show fl d ≤ d + d / 2 ^ 53 by linarith [e1.1]) (show (0 : K) ≤ k by positivity)
    rw [mul_add] at this; linarith
  have m2 : (k : K) * d - d / 8 ≤ k * fl d := by
    have := mul_le_mul_of_nonneg_left (show d - d / 2 ^ 53 ≤ fl d by linarith [e1.2]) (show (0 : K) ≤ k by positivity)
    rw [mul_sub] at this; linarith
  constructor
  · rw [le_div_iff₀ hD, sub_mul]; linarith [e2.2, e1.2]
  · rw [div_le_iff₀ hD, add_mul]; linarith [e2.1, e1.2]

/-- The computed quotient is within one half of `k`. -/
theorem fquot_near {d : K} {k : ℕ} (hd : (2 : K) ^ (-1022 : ℤ) ≤ d) (hk : k ≤ 2 ^ 50) :
    (k : K) - 1 / 2 ≤ fdiv (fl (k * d)) (fl d) ∧ fdiv (fl (k * d)) (fl d) ≤ k + 1 / 2 := by
  obtain ⟨h1, h2⟩ := quot_near hd hk
  exact ⟨le_fl_of h1 (double_halfm (by omega)), fl_le_of h2 (double_half (by omega))⟩

/-- The floor of a number near a whole number. -/
theorem floor_near {x : K} {k : ℕ} (h1 : (k : K) - 1 / 2 ≤ x) (h2 : x ≤ k + 1 / 2) : ⌊x⌋ = (k : ℤ) ∨ ⌊x⌋ = (k : ℤ) - 1 := by
  have a : (k : ℤ) - 1 ≤ ⌊x⌋ := Int.le_floor.2 (by push_cast; linarith)
  have b : ⌊x⌋ < (k : ℤ) + 1 := Int.floor_lt.2 (by push_cast; linarith)
  omega

theorem ceil_near {x : K} {k : ℕ} (h1 : (k : K) - 1 / 2 ≤ x) (h2 : x ≤ k + 1 / 2) : ⌈x⌉ = (k : ℤ) ∨ ⌈x⌉ = (k : ℤ) + 1 := by
  have a : (k : ℤ) - 1 < ⌈x⌉ := Int.lt_ceil.2 (by push_cast; linarith)
  have b : ⌈x⌉ ≤ (k : ℤ) + 1 := Int.ceil_le.2 (by push_cast; linarith)
  omega

/-- Division is exact when the quotient is a whole number of at most 53 bits. -/
theorem fdiv_whole {t d : K} {k : ℕ} (hd : d ≠ 0) (hk : k ≤ 2 ^ 53) (h : t = k * d) : fdiv t d = k := by
  unfold fdiv
  rw [h, mul_div_cancel_right₀ _ hd]
  exact fl_of_double (double_nat hk)

theorem pyInt_nat (k : ℕ) : pyInt (k : K) = (k : ℤ) := by
  unfold pyInt; rw [if_pos (by positivity)]; exact Int.floor_natCast k

theorem fsub_zero {x : K} (h : IsDouble x) : fsub x 0 = x := by unfold fsub; rw [sub_zero, fl_of_double h]
theorem fadd_zero {x : K} (h : IsDouble x) : fadd x 0 = x := by unfold fadd; rw [add_zero, fl_of_double h]

/-! ## C143: truncation -/

/-- C143, partial: when the numbers are doubles and the limits are exactly `a` and `b` steps, the samples from `a` to `b` are
returned.  Missing: limits that are whole multiples of the step as decimal numbers (`C143_decimal_partial`, `C143_violated`). -/
theorem C143_exact_partial (dt : K) (a b npts : ℕ) (hdt : 0 < dt) (hab : a < b) (hb : b ≤ npts) (hn : npts ≤ 2 ^ 53)
    (ha2 : IsDouble ((a : K) * dt)) (hb2 : IsDouble ((b : K) * dt)) :
    fTruncIdx dt npts ((a : K) * dt, (b : K) * dt) (0, 0) = .ok ((a : ℤ), (b : ℤ)) := by
  have hlt : (a : K) * dt < b * dt := mul_lt_mul_of_pos_right (by exact_mod_cast hab) hdt
  unfold fTruncIdx
  rw [if_neg (by simp), if_neg (not_le.2 hlt), if_neg hdt.ne']
  simp only [fsub_zero ha2, fadd_zero hb2]
  rw [fdiv_whole hdt.ne' (by omega) rfl, fdiv_whole hdt.ne' (by omega) rfl, pyInt_nat, pyInt_nat, if_neg (by omega), if_neg (by omega)]

/-- C143, partial: for a step `d` and limits `a d < b d` written as decimal numbers, each of them rounded to a double, each
index is the number of steps or one less.  Missing: that it is the number of steps; it is not (`C143_violated`). -/
theorem C143_decimal_partial (d : K) (a b npts : ℕ) (hd : (2 : K) ^ (-1022 : ℤ) ≤ d) (hab : a < b) (hb : b ≤ npts) (hn : npts ≤ 2 ^ 50)
    (hne : fl ((a : K) * d) < fl (b * d)) :
    ∃ n1 n2, fTruncIdx (fl d) npts (fl (a * d), fl (b * d)) (0, 0) = .ok (n1, n2) ∧
      (n1 = a ∨ n1 = (a : ℤ) - 1) ∧ (n2 = b ∨ n2 = (b : ℤ) - 1) := by
  have hd0 : 0 < d := lt_of_lt_of_le (zpow_pos (by norm_num) _) hd
  have hD : fl d ≠ 0 := by
    intro hc
    have := (quot_near (k := 1) hd (by norm_num)).1
    rw [hc, div_zero] at this
    norm_num at this
  unfold fTruncIdx
  rw [if_neg (by simp), if_neg (not_le.2 hne), if_neg hD]
  simp only [fsub_zero (fl_double _), fadd_zero (fl_double _)]
  obtain ⟨p1, p2⟩ := fquot_near (k := a) hd (by omega)
  obtain ⟨q1, q2⟩ := fquot_near (k := b) hd (by omega)
  have hbpos : (0 : K) ≤ fdiv (fl (b * d)) (fl d) := by
    refine le_trans ?_ q1
    have : (1 : K) ≤ b := by exact_mod_cast (by omega : 1 ≤ b)
    linarith
  have hapos : (0 : K) ≤ fdiv (fl (a * d)) (fl d) := by
    refine fl_nonneg (div_nonneg (fl_nonneg (by positivity)) (fl_nonneg hd0.le))
  have e1 : pyInt (fdiv (fl (a * d)) (fl d)) = ⌊fdiv (fl (a * d)) (fl d)⌋ := by unfold pyInt; rw [if_pos hapos]
  have e2 : pyInt (fdiv (fl (b * d)) (fl d)) = ⌊fdiv (fl (b * d)) (fl d)⌋ := by unfold pyInt; rw [if_pos hbpos]
  have f1 : 0 ≤ ⌊fdiv (fl ((a : K) * d)) (fl d)⌋ := Int.floor_nonneg.2 hapos
  rw [e1, e2]
  rcases floor_near p1 p2 with u | u <;> rcases floor_near q1 q2 with v | v <;>
    rw [u, v] <;> rw [u] at f1 <;> rw [if_neg (by omega), if_neg (by omega)] <;>
    exact ⟨_, _, rfl, by omega, by omega⟩

/-- C143, violated: with a step of 0.1 s the window from 0 to 0.3 s has two samples instead of three, and with a step of 0.005 s
the window from 0 to 0.145 s has 28 instead of 29. -/
theorem C143_violated :
    fTruncIdx (fl (1 / 10 : ℚ)) 100 (0, fl (3 / 10)) (0, 0) = .ok (0, 2) ∧
    fTruncIdx (fl (5 / 1000 : ℚ)) 4000 (0, fl (145 / 1000)) (0, 0) = .ok (0, 28) := by decide +kernel

/-- Larger limits never give smaller indices. -/
theorem C143_monotone (dt : K) (hdt : 0 < dt) (s t : K) (h : s ≤ t) : pyInt (fdiv s dt) ≤ pyInt (fdiv t dt) := by
  have hm : fdiv s dt ≤ fdiv t dt := fl_mono (div_le_div_of_nonneg_right h hdt.le)
  unfold pyInt
  split_ifs with a b b
  · exact Int.floor_le_floor hm
  · exact absurd (a.trans hm) b
  · have h1 : ⌈fdiv s dt⌉ ≤ 0 := Int.ceil_le.2 (by push_cast; linarith [lt_of_not_ge a])
    exact h1.trans (Int.floor_nonneg.2 b)
  · exact Int.ceil_le_ceil hm

example : fTruncIdx (1 / 4 : ℚ) 100 (3 * (1 / 4), 8 * (1 / 4)) (0, 0) = .ok (3, 8) :=
  C143_exact_partial (1 / 4) 3 8 100 (by norm_num) (by norm_num) (by norm_num) (by norm_num)
    ⟨3, -2, by norm_num, by norm_num, by norm_num⟩ ⟨8, -2, by norm_num, by norm_num, by norm_num⟩

/-! ## C144: number of layers of a re-sampled profile -/

/-- C144: the layers asked for reach the bottom of the profile up to rounding, and no layer starts below it. -/
theorem C144_cover (zmax thk : K) (hz : 0 ≤ zmax) (ht : 0 < thk) (hq : (2 : K) ^ (-1022 : ℤ) ≤ zmax / thk) (hq2 : zmax / thk ≤ 2 ^ 53) :
    ∃ n, fLayers zmax thk = .ok n ∧ (n - 1 : K) * thk < zmax ∧ zmax * (1 - 1 / 2 ^ 53) ≤ n * thk := by
  refine ⟨⌈fdiv zmax thk⌉, by unfold fLayers; rw [if_neg ht.ne'], ?_, ?_⟩
  · have hpos : 0 < zmax / thk := lt_of_lt_of_le (zpow_pos (by norm_num) _) hq
    rw [← lt_div_iff₀ ht]
    by_contra hc
    have hc := not_lt.1 hc
    have hint : (⌈fdiv zmax thk⌉ : K) - 1 = ((⌈fdiv zmax thk⌉ - 1 : ℤ) : K) := by push_cast; ring
    have hle : fdiv zmax thk ≤ 2 ^ 53 := by
      have : fdiv zmax thk ≤ fl (2 ^ 53) := fl_mono hq2
      rw [fl_of_double (x := (2 : K) ^ 53) (by have := double_nat (K := K) (n := 2 ^ 53) (le_refl _); norm_num at this ⊢; exact this)] at this
      exact this
    have hc53 : ⌈fdiv zmax thk⌉ ≤ 2 ^ 53 := Int.ceil_le.2 (by push_cast; norm_num at hle ⊢; exact hle)
    have hge : 0 ≤ ⌈fdiv zmax thk⌉ := Int.ceil_nonneg (fl_nonneg hpos.le)
    have hd : IsDouble ((⌈fdiv zmax thk⌉ - 1 : ℤ) : K) := double_int (abs_le.2 ⟨by omega, by omega⟩)
    rw [hint] at hc
    have := fl_le_of hc hd
    have := Int.ceil_le.2 this
    unfold fdiv at this
    omega
  · have h1 := Int.le_ceil (fdiv zmax thk)
    have h2 := fl_rel (x := zmax / thk) (by rw [abs_of_nonneg (div_nonneg hz ht.le)]; exact hq)
    have h3 : zmax / thk * (1 - 1 / 2 ^ 53) ≤ ⌈fdiv zmax thk⌉ := by
      refine le_trans ?_ h1
      rw [abs_le] at h2
      unfold fdiv
      have := h2.2
      rw [abs_of_nonneg (div_nonneg hz ht.le)] at this
      linarith
    have := mul_le_mul_of_nonneg_right h3 ht.le
    rwa [mul_right_comm, div_mul_cancel₀ _ ht.ne'] at this

/-- C144, partial: a total depth of exactly `k` layers (as doubles) gives `k` layers.  Missing: total depths that are `k` layers
as decimal numbers or after summation in doubles (`C144_decimal_partial`, `C144_violated`). -/
theorem C144_exact_partial (thk : K) (k : ℕ) (ht : thk ≠ 0) (hk : k ≤ 2 ^ 53) : fLayers ((k : K) * thk) thk = .ok (k : ℤ) := by
  unfold fLayers
  rw [if_neg ht, fdiv_whole ht hk rfl, Int.ceil_natCast]

/-- C144, partial: for a total depth that is `k` times the thickness as a decimal number, the number of layers is `k` or
`k + 1`.  Missing: that it is `k`; it is not (`C144_violated`). -/
theorem C144_decimal_partial (d : K) (k : ℕ) (hd : (2 : K) ^ (-1022 : ℤ) ≤ d) (hk : k ≤ 2 ^ 50) :
    fLayers (fl (k * d)) (fl d) = .ok (k : ℤ) ∨ fLayers (fl (k * d)) (fl d) = .ok ((k : ℤ) + 1) := by
  have hD : fl d ≠ 0 := by
    intro hc
    have := (quot_near (k := 1) hd (by norm_num)).1
    rw [hc, div_zero] at this
    norm_num at this
  obtain ⟨p1, p2⟩ := fquot_near hd hk
  unfold fLayers
  rw [if_neg hD]
  rcases ceil_near p1 p2 with u | u <;> rw [u] <;> simp

/-- C144, violated: a profile of three layers of 3.2 m on a half-space, sampled again with layers of 3.2 m, gets four layers; one
of 0.1 m and 1.1 m, sampled with layers of 0.4 m, gets four instead of three. -/
theorem C144_violated :
    fLayers (fsum [fl (32 / 10 : ℚ), fl (32 / 10), fl (32 / 10), 0]) (fl (32 / 10)) = .ok 4 ∧
    fLayers (fsum [fl (1 / 10 : ℚ), fl (11 / 10), 0]) (fl (4 / 10)) = .ok 4 := by decide +kernel

example : fLayers (5 * (7 / 2 : ℚ)) (7 / 2) = .ok 5 := C144_exact_partial (7 / 2) 5 (by norm_num) (by norm_num)

/-! ## C145: the frequency grid of the transfer functions -/

/-- C145, partial: when the maximum frequency is exactly `k` times the resolution (as doubles), there are `k` frequencies and the
last is the maximum.  Missing: decimal numbers (`C145_decimal_partial`, `C145_default_violated`). -/
theorem C145_exact_partial (df : K) (k : ℕ) (hd : 0 < df) (h : IsDouble ((k : K) * df)) :
    fTfGrid df ((k : K) * df) = .ok ((k : ℤ), (k : K) * df) := by
  unfold fTfGrid
  rw [if_neg hd.ne', mul_div_cancel_right₀ _ hd.ne', Int.floor_natCast, if_neg (by omega)]
  unfold fmul
  rw [Int.cast_natCast, mul_comm, fl_of_double h]

/-- C145, partial: for a maximum frequency that is `k` times the resolution as a decimal number, there are `k` or `k - 1`
frequencies.  Missing: that there are `k`; there are not (`C145_default_violated`). -/
theorem C145_decimal_partial (d : K) (k : ℕ) (hd : (2 : K) ^ (-1022 : ℤ) ≤ d) (h0 : 0 < k) (hk : k ≤ 2 ^ 50) :
    ∃ N f, fTfGrid (fl d) (fl (k * d)) = .ok (N, f) ∧ (N = (k : ℤ) ∨ N = (k : ℤ) - 1) ∧ f = fl (fl d * N) := by
  have hD : fl d ≠ 0 := by
    intro hc
    have := (quot_near (k := 1) hd (by norm_num)).1
    rw [hc, div_zero] at this
    norm_num at this
  obtain ⟨p1, p2⟩ := quot_near hd hk
  have hf := floor_near p1 p2
  refine ⟨⌊fl ((k : K) * d) / fl d⌋, _, by unfold fTfGrid; rw [if_neg hD, if_neg (by omega)]; rfl, hf, rfl⟩

/-- C145: the last frequency is at most the maximum frequency, and less than one resolution (up to rounding) below it. -/
theorem C145_within (df fmax : K) (hd : 0 < df) (hf : 0 ≤ fmax) (hm : IsDouble fmax) :
    ∃ N f, fTfGrid df fmax = .ok (N, f) ∧ f ≤ fmax ∧ fl (fmax - df) ≤ f := by
  have h0 : 0 ≤ ⌊fmax / df⌋ := Int.floor_nonneg.2 (div_nonneg hf hd.le)
  refine ⟨_, _, by unfold fTfGrid; rw [if_neg hd.ne', if_neg (by omega)], ?_, ?_⟩
  · refine fl_le_of ?_ hm
    have := mul_le_mul_of_nonneg_left (Int.floor_le (fmax / df)) hd.le
    rwa [mul_div_cancel₀ _ hd.ne'] at this
  · refine fl_mono ?_
    have := mul_lt_mul_of_pos_left (Int.lt_floor_add_one (fmax / df)) hd
    rw [mul_div_cancel₀ _ hd.ne', mul_add, mul_one] at this
    linarith

/-- C145, violated: with the default resolution 0.05 Hz and maximum 30 Hz there are 599 frequencies, and the last is below
29.96 Hz. -/
theorem C145_default_violated :
    ∃ f : ℚ, fTfGrid (fl (5 / 100)) 30 = .ok (599, f) ∧ f < 2996 / 100 := by
  refine ⟨fmul (fl (5 / 100)) 599, ?_, ?_⟩ <;> decide +kernel

example : fTfGrid (1 / 8 : ℚ) (240 * (1 / 8)) = .ok (240, 240 * (1 / 8)) :=
  C145_exact_partial (1 / 8) 240 (by norm_num) ⟨30, 0, by norm_num, by norm_num, by norm_num⟩

end Verif
