import Verif.Model.ScoreText
import Verif.Proof.Float

/-!
Rounding to single precision.
-/

set_option linter.unusedSectionVars false
set_option linter.unusedVariables false

namespace Verif

namespace Spec

/-- The finite single precision numbers: integers of at most 24 bits times a power of two, not below 2^-149. -/
def IsSingle {K : Type} [_root_.Field K] (x : K) : Prop := ∃ m e : ℤ, |m| < 2 ^ 24 ∧ -149 ≤ e ∧ x = m * (2 : K) ^ e

/-- `y` is a single precision number and none is nearer to `x`. -/
def NearestSingle {K : Type} [_root_.Field K] [LinearOrder K] (x y : K) : Prop :=
  IsSingle y ∧ ∀ z, IsSingle z → |x - y| ≤ |x - z|

end Spec

open Spec (IsSingle NearestSingle)

variable {K : Type} [Field K] [LinearOrder K] [IsStrictOrderedRing K] [FloorRing K]

theorem ulp32_pos (x : K) : 0 < ulp32 x := zpow_pos (by norm_num) _

theorem fl32_err (x : K) : |x - fl32 x| ≤ ulp32 x / 2 := by
  have h := mul_le_mul_of_nonneg_right (rhe_err (x / ulp32 x)) (ulp32_pos x).le
  have e : |x - fl32 x| = |x / ulp32 x - (roundHalfEven (x / ulp32 x) : K)| * ulp32 x := by
    rw [← abs_of_pos (ulp32_pos x), ← abs_mul, abs_of_pos (ulp32_pos x), sub_mul, div_mul_cancel₀ _ (ulp32_pos x).ne']
    rfl
  rw [e]; linarith

/-- Among the multiples of the unit in the last place the rounded number is a nearest one. -/
theorem fl32_mult (x : K) (n : ℤ) : |x - fl32 x| ≤ |x - n * ulp32 x| := by
  have h := mul_le_mul_of_nonneg_right (rhe_nearest (x / ulp32 x) n) (ulp32_pos x).le
  have e : ∀ m : ℤ, |x - m * ulp32 x| = |x / ulp32 x - (m : K)| * ulp32 x := by
    intro m
    rw [← abs_of_pos (ulp32_pos x), ← abs_mul, abs_of_pos (ulp32_pos x), sub_mul, div_mul_cancel₀ _ (ulp32_pos x).ne']
  rw [← e, ← e] at h
  exact h

theorem fl32_neg (x : K) : fl32 (-x) = -fl32 x := by
  have : ulp32 (-x) = ulp32 x := by unfold ulp32 ulpExp32; rw [abs_neg]
  unfold fl32
  rw [this, neg_div, rhe_neg]; push_cast; ring

theorem abs_mant32 {m e : ℤ} (hm : |m| < 2 ^ 24) : |(m : K) * (2 : K) ^ e| < (2 : K) ^ (e + 24) := by
  have h2 : (0 : K) < (2 : K) ^ e := zpow_pos (by norm_num) _
  rw [abs_mul, abs_of_pos h2, zpow_add₀ (by norm_num : (2 : K) ≠ 0), mul_comm]
  have : (|m| : ℤ) < (2 ^ 24 : ℤ) := hm
  have : ((|m| : ℤ) : K) < ((2 ^ 24 : ℤ) : K) := Int.cast_lt.2 this
  refine mul_lt_mul_of_pos_left ?_ h2
  push_cast at this
  rw [show ((24 : ℤ)) = ((24 : ℕ) : ℤ) from rfl, zpow_natCast]
  have e : ((2 : K) ^ 24) = 16777216 := by norm_num
  rw [e]; exact this

/-- A single that is not in a smaller binade than `x` is a multiple of the unit in the last place at `x`. -/
theorem single_mult {x z : K} (hz : IsSingle z) (h : |z| < (2 : K) ^ (Int.log 2 |x|) → Int.log 2 |x| ≤ -126) :
    ∃ n : ℤ, z = n * ulp32 x := by
  obtain ⟨m, e, hm, he, rfl⟩ := hz
  have hb := abs_mant32 (K := K) (e := e) hm
  refine mult_of_exp (e := e) (f := ulpExp32 x) ?_ m
  unfold ulpExp32
  by_cases c : Int.log 2 |x| ≤ -126
  · rw [max_eq_right c]; omega
  · rw [max_eq_left (by omega)]
    have h1 : (2 : K) ^ (Int.log 2 |x|) ≤ |(m : K) * (2 : K) ^ e| := by
      by_contra hc
      exact c (h (lt_of_not_ge hc))
    have := (two_zpow_lt_iff (K := K)).1 (lt_of_le_of_lt h1 hb)
    omega

theorem fl32_zero : fl32 (0 : K) = 0 := by
  have : roundHalfEven (0 : K) = 0 := by exact_mod_cast rhe_int (K := K) 0
  unfold fl32; rw [zero_div, this]; simp

/-- No single is nearer than the rounded number. -/
theorem fl32_near {x z : K} (hz : IsSingle z) : |x - fl32 x| ≤ |x - z| := by
  by_cases hx : x = 0
  · subst hx; rw [fl32_zero, sub_self, abs_zero]; exact abs_nonneg _
  by_cases h : |z| < (2 : K) ^ (Int.log 2 |x|) → Int.log 2 |x| ≤ -126
  · obtain ⟨n, hn⟩ := single_mult (x := x) hz h
    rw [hn]; exact fl32_mult x n
  · push Not at h
    obtain ⟨h1, h2⟩ := h
    have h3 := log2_le hx
    have hu : ulpExp32 x = Int.log 2 |x| - 23 := by unfold ulpExp32; rw [max_eq_left (by omega)]
    obtain ⟨n, hn⟩ := mult_of_exp (K := K) (e := Int.log 2 |x|) (f := ulpExp32 x) (by omega) 1
    rw [Int.cast_one, one_mul] at hn
    have hz2 := abs_lt.1 h1
    rcases lt_or_gt_of_ne hx with hneg | hpos
    · have h4 := fl32_mult x (-n)
      rw [abs_of_neg hneg] at h3
      rw [abs_of_neg hneg] at hz2
      refine h4.trans ?_
      push_cast
      rw [show -(n : K) * ulp32 x = -(2 : K) ^ Int.log 2 |x| by rw [hn]; unfold ulp32; ring]
      rw [abs_of_neg hneg, abs_of_nonpos (by linarith [hz2.1, h3]), abs_of_nonpos (by linarith)]
      linarith
    · have h4 := fl32_mult x n
      rw [abs_of_pos hpos] at h3
      rw [abs_of_pos hpos] at hz2
      refine h4.trans ?_
      rw [show (n : K) * ulp32 x = (2 : K) ^ Int.log 2 |x| by rw [hn]; unfold ulp32; ring]
      rw [abs_of_pos hpos, abs_of_nonneg (by linarith [hz2.2, h3]), abs_of_nonneg (by linarith)]
      linarith

theorem single_intro {m e : ℤ} (hm : |m| ≤ 2 ^ 24) (he : -149 ≤ e) : IsSingle ((m : K) * (2 : K) ^ e) := by
  rcases lt_or_eq_of_le hm with h | h
  · exact ⟨m, e, h, he, rfl⟩
  · rcases abs_choice m with c | c
    · refine ⟨2 ^ 23, e + 1, by norm_num, by omega, ?_⟩
      rw [← c, h, zpow_add₀ (by norm_num : (2 : K) ≠ 0)]; push_cast; ring
    · refine ⟨-2 ^ 23, e + 1, by norm_num, by omega, ?_⟩
      have : m = -2 ^ 24 := by omega
      rw [this, zpow_add₀ (by norm_num : (2 : K) ≠ 0)]; push_cast; ring

theorem fl32_single (x : K) : IsSingle (fl32 x) := by
  unfold fl32 ulp32
  have hE : -149 ≤ ulpExp32 x := by unfold ulpExp32; omega
  refine single_intro ?_ hE
  have h1 : |x / ulp32 x| ≤ 2 ^ 24 := by
    rw [abs_div, abs_of_pos (ulp32_pos x), div_le_iff₀ (ulp32_pos x)]
    refine (lt_log2 x).le.trans ?_
    unfold ulp32
    rw [show ((2 : K) ^ 24) = (2 : K) ^ (24 : ℤ) by norm_num, ← zpow_add₀ (by norm_num : (2 : K) ≠ 0)]
    refine two_zpow_le ?_
    unfold ulpExp32; omega
  have h2 := rhe_nearest (x / ulp32 x) (2 ^ 24)
  have h3 := rhe_nearest (x / ulp32 x) (-2 ^ 24)
  rw [abs_le] at h1
  have e24 : ((2 : K) ^ 24) = 16777216 := by norm_num
  push_cast at h2 h3
  rw [e24] at h1
  rw [abs_sub_comm, abs_sub_comm _ (16777216 : K)] at h2
  have e2 : |(16777216 : K) - x / ulp32 x| = 16777216 - x / ulp32 x := abs_of_nonneg (by linarith)
  have e3 : |x / ulp32 x - -(16777216 : K)| = x / ulp32 x + 16777216 := by rw [sub_neg_eq_add]; exact abs_of_nonneg (by linarith)
  rw [e2] at h2; rw [e3] at h3
  have u : ((roundHalfEven (x / ulp32 x) : ℤ) : K) ≤ ((2 ^ 24 : ℤ) : K) := by push_cast; linarith [(abs_le.1 h2).2]
  have l : ((-2 ^ 24 : ℤ) : K) ≤ ((roundHalfEven (x / ulp32 x) : ℤ) : K) := by push_cast; linarith [(abs_le.1 h3).2]
  exact abs_le.2 ⟨by have := Int.cast_le.1 l; exact this, by have := Int.cast_le.1 u; exact this⟩

/-- `fl32` rounds to a nearest single. -/
theorem fl32_nearest (x : K) : NearestSingle x (fl32 x) := ⟨fl32_single x, fun _ hz => fl32_near hz⟩

theorem fl32_of_single {x : K} (h : IsSingle x) : fl32 x = x := by
  have := fl32_near (x := x) h
  rw [sub_self, abs_zero] at this
  exact (sub_eq_zero.1 (abs_nonpos_iff.1 this)).symm

theorem fl32_fl32 (x : K) : fl32 (fl32 x) = fl32 x := fl32_of_single (fl32_single x)

/-- Relative error of a rounding outside the subnormal range. -/
theorem fl32_rel {x : K} (h : (2 : K) ^ (-126 : ℤ) ≤ |x|) : |x - fl32 x| ≤ |x| / 2 ^ 24 := by
  have hx : x ≠ 0 := by
    rintro rfl
    rw [abs_zero] at h
    exact absurd h (not_le.2 (zpow_pos (by norm_num) _))
  have hl : -126 ≤ Int.log 2 |x| := by
    have := lt_of_le_of_lt h (lt_log2 x)
    have := (two_zpow_lt_iff (K := K)).1 this
    omega
  refine (fl32_err x).trans ?_
  have : ulp32 x * 2 ^ 23 ≤ |x| := by
    have e : ulp32 x * 2 ^ 23 = (2 : K) ^ Int.log 2 |x| := by
      unfold ulp32 ulpExp32
      rw [max_eq_left hl, show ((2 : K) ^ 23) = (2 : K) ^ (23 : ℤ) by norm_num, ← zpow_add₀ (by norm_num : (2 : K) ≠ 0)]
      congr 1; ring
    rw [e]; exact log2_le hx
  rw [div_le_div_iff₀ (by norm_num) (by positivity)]
  have e : ulp32 x * (2 : K) ^ 24 = ulp32 x * 2 ^ 23 * 2 := by ring
  rw [e]; linarith

end Verif
