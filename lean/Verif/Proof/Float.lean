import Verif.Model.Float
import Mathlib.Tactic.NormNum
import Mathlib.Tactic.Linarith
import Mathlib.Tactic.Ring
import Mathlib.Tactic.FieldSimp
import Mathlib.Tactic.Positivity
import Mathlib.Algebra.Order.Floor.Ring

set_option linter.unusedSectionVars false
set_option linter.unusedVariables false

namespace Verif

open Spec (IsDouble NearestDouble)

variable {K : Type} [Field K] [LinearOrder K] [IsStrictOrderedRing K] [FloorRing K]

theorem rhe_err (x : K) : |x - (roundHalfEven x : K)| ≤ 1 / 2 := by
  have h1 := Int.floor_le x
  have h2 := Int.lt_floor_add_one x
  unfold roundHalfEven
  simp only
  split_ifs with a b c
  · rw [abs_le]; constructor <;> linarith
  · rw [abs_le]; push_cast; constructor <;> linarith
  · rw [abs_le]; constructor <;> linarith
  · rw [abs_le]; push_cast; constructor <;> linarith

/-- The rounded number is a nearest integer. -/
theorem rhe_nearest (x : K) (n : ℤ) : |x - (roundHalfEven x : K)| ≤ |x - n| := by
  have h := rhe_err x
  by_cases hn : roundHalfEven x = n
  · rw [hn]
  · have h1 : (1 : K) ≤ |(roundHalfEven x : K) - n| := by
      have : (1 : ℤ) ≤ |roundHalfEven x - n| := Int.one_le_abs (sub_ne_zero.2 hn)
      have : ((1 : ℤ) : K) ≤ ((|roundHalfEven x - n| : ℤ) : K) := Int.cast_le.2 this
      simpa using this
    have h2 : |(roundHalfEven x : K) - n| ≤ |x - (roundHalfEven x : K)| + |x - n| := by
      have := abs_sub_le (roundHalfEven x : K) x n
      rwa [abs_sub_comm (roundHalfEven x : K) x] at this
    linarith

theorem rhe_int (n : ℤ) : roundHalfEven (n : K) = n := by
  have := rhe_nearest (n : K) n
  rw [sub_self, abs_zero] at this
  have := abs_nonpos_iff.1 this
  exact_mod_cast (sub_eq_zero.1 this).symm

theorem rhe_neg (x : K) : roundHalfEven (-x) = -roundHalfEven x := by
  have h1 := Int.floor_le x
  have h2 := Int.lt_floor_add_one x
  by_cases hx : (⌊x⌋ : K) = x
  · rw [← hx, ← Int.cast_neg, rhe_int, rhe_int]
  · have hlt : (⌊x⌋ : K) < x := lt_of_le_of_ne h1 hx
    have hf : ⌊-x⌋ = -⌊x⌋ - 1 := by
      rw [Int.floor_eq_iff]; push_cast; constructor <;> linarith
    unfold roundHalfEven
    simp only [hf]
    push_cast
    rcases lt_trichotomy (x - (⌊x⌋ : K)) (1 / 2) with c | c | c
    · rw [if_neg (by linarith), if_pos (by linarith), if_pos c]; ring
    · by_cases d : ⌊x⌋ % 2 = 0
      · rw [if_neg (by linarith), if_neg (by linarith), if_neg (by omega), if_neg (by linarith), if_neg (by linarith), if_pos d]
        ring
      · rw [if_neg (by linarith), if_neg (by linarith), if_pos (by omega), if_neg (by linarith), if_neg (by linarith), if_neg d]
        ring
    · rw [if_pos (by linarith), if_neg (by linarith), if_pos c]; ring

theorem ulp_pos (x : K) : 0 < ulp x := zpow_pos (by norm_num) _

theorem fl_err (x : K) : |x - fl x| ≤ ulp x / 2 := by
  have h := mul_le_mul_of_nonneg_right (rhe_err (x / ulp x)) (ulp_pos x).le
  have e : |x - fl x| = |x / ulp x - (roundHalfEven (x / ulp x) : K)| * ulp x := by
    rw [← abs_of_pos (ulp_pos x), ← abs_mul, abs_of_pos (ulp_pos x), sub_mul, div_mul_cancel₀ _ (ulp_pos x).ne']
    rfl
  rw [e]; linarith

/-- Among the multiples of the unit in the last place the rounded number is a nearest one. -/
theorem fl_mult (x : K) (n : ℤ) : |x - fl x| ≤ |x - n * ulp x| := by
  have h := mul_le_mul_of_nonneg_right (rhe_nearest (x / ulp x) n) (ulp_pos x).le
  have e : ∀ m : ℤ, |x - m * ulp x| = |x / ulp x - (m : K)| * ulp x := by
    intro m
    rw [← abs_of_pos (ulp_pos x), ← abs_mul, abs_of_pos (ulp_pos x), sub_mul, div_mul_cancel₀ _ (ulp_pos x).ne']
  rw [← e, ← e] at h
  exact h

theorem fl_neg (x : K) : fl (-x) = -fl x := by
  have : ulp (-x) = ulp x := by unfold ulp ulpExp; rw [abs_neg]
  unfold fl
  rw [this, neg_div, rhe_neg]; push_cast; ring

theorem two_zpow_le {a b : ℤ} (h : a ≤ b) : (2 : K) ^ a ≤ (2 : K) ^ b := zpow_le_zpow_right₀ (by norm_num) h

theorem two_zpow_lt_iff {a b : ℤ} : (2 : K) ^ a < (2 : K) ^ b ↔ a < b := zpow_lt_zpow_iff_right₀ (by norm_num)

theorem log2_le {x : K} (hx : x ≠ 0) : (2 : K) ^ (Int.log 2 |x|) ≤ |x| := by
  have := Int.zpow_log_le_self (b := 2) (by norm_num) (abs_pos.2 hx)
  simpa using this

theorem lt_log2 (x : K) : |x| < (2 : K) ^ (Int.log 2 |x| + 1) := by
  have := Int.lt_zpow_succ_log_self (b := 2) (by norm_num) |x|
  simpa using this

/-- A multiple of a power of two is a multiple of every smaller one. -/
theorem mult_of_exp {e f : ℤ} (h : f ≤ e) (m : ℤ) : ∃ n : ℤ, (m : K) * (2 : K) ^ e = n * (2 : K) ^ f := by
  refine ⟨m * 2 ^ (e - f).toNat, ?_⟩
  have : ((e - f).toNat : ℤ) = e - f := Int.toNat_of_nonneg (by omega)
  push_cast
  rw [mul_assoc, ← zpow_natCast (2 : K), this, ← zpow_add₀ (by norm_num : (2 : K) ≠ 0)]
  congr 2; ring

theorem abs_mant {m e : ℤ} (hm : |m| < 2 ^ 53) : |(m : K) * (2 : K) ^ e| < (2 : K) ^ (e + 53) := by
  have h2 : (0 : K) < (2 : K) ^ e := zpow_pos (by norm_num) _
  rw [abs_mul, abs_of_pos h2, zpow_add₀ (by norm_num : (2 : K) ≠ 0), mul_comm]
  have : (|m| : ℤ) < (2 ^ 53 : ℤ) := hm
  have : ((|m| : ℤ) : K) < ((2 ^ 53 : ℤ) : K) := Int.cast_lt.2 this
  refine mul_lt_mul_of_pos_left ?_ h2
  push_cast at this
  rw [show ((53 : ℤ)) = ((53 : ℕ) : ℤ) from rfl, zpow_natCast]
  have e : ((2 : K) ^ 53) = 9007199254740992 := by norm_num
  rw [e]; exact this

/-- A double that is not in a smaller binade than `x` is a multiple of the unit in the last place at `x`. -/
theorem double_mult {x z : K} (hz : IsDouble z) (h : |z| < (2 : K) ^ (Int.log 2 |x|) → Int.log 2 |x| ≤ -1022) :
    ∃ n : ℤ, z = n * ulp x := by
  obtain ⟨m, e, hm, he, rfl⟩ := hz
  have hb := abs_mant (K := K) (e := e) hm
  refine mult_of_exp (e := e) (f := ulpExp x) ?_ m
  unfold ulpExp
  by_cases c : Int.log 2 |x| ≤ -1022
  · rw [max_eq_right c]; omega
  · rw [max_eq_left (by omega)]
    have h1 : (2 : K) ^ (Int.log 2 |x|) ≤ |(m : K) * (2 : K) ^ e| := by
      by_contra hc
      exact c (h (lt_of_not_ge hc))
    have := (two_zpow_lt_iff (K := K)).1 (lt_of_le_of_lt h1 hb)
    omega

theorem fl_zero : fl (0 : K) = 0 := by
  have : roundHalfEven (0 : K) = 0 := by exact_mod_cast rhe_int (K := K) 0
  unfold fl; rw [zero_div, this]; simp

/-- No double is nearer than the rounded number. -/
theorem fl_near {x z : K} (hz : IsDouble z) : |x - fl x| ≤ |x - z| := by
  by_cases hx : x = 0
  · subst hx; rw [fl_zero, sub_self, abs_zero]; exact abs_nonneg _
  by_cases h : |z| < (2 : K) ^ (Int.log 2 |x|) → Int.log 2 |x| ≤ -1022
  · obtain ⟨n, hn⟩ := double_mult (x := x) hz h
    rw [hn]; exact fl_mult x n
  · push Not at h
    obtain ⟨h1, h2⟩ := h
    have h3 := log2_le hx
    have hu : ulpExp x = Int.log 2 |x| - 52 := by unfold ulpExp; rw [max_eq_left (by omega)]
    obtain ⟨n, hn⟩ := mult_of_exp (K := K) (e := Int.log 2 |x|) (f := ulpExp x) (by omega) 1
    rw [Int.cast_one, one_mul] at hn
    have hz2 := abs_lt.1 h1
    rcases lt_or_gt_of_ne hx with hneg | hpos
    · have h4 := fl_mult x (-n)
      rw [abs_of_neg hneg] at h3
      rw [abs_of_neg hneg] at hz2
      refine h4.trans ?_
      push_cast
      rw [show -(n : K) * ulp x = -(2 : K) ^ Int.log 2 |x| by rw [hn]; unfold ulp; ring]
      rw [abs_of_neg hneg, abs_of_nonpos (by linarith [hz2.1, h3]), abs_of_nonpos (by linarith)]
      linarith
    · have h4 := fl_mult x n
      rw [abs_of_pos hpos] at h3
      rw [abs_of_pos hpos] at hz2
      refine h4.trans ?_
      rw [show (n : K) * ulp x = (2 : K) ^ Int.log 2 |x| by rw [hn]; unfold ulp; ring]
      rw [abs_of_pos hpos, abs_of_nonneg (by linarith [hz2.2, h3]), abs_of_nonneg (by linarith)]
      linarith

theorem double_intro {m e : ℤ} (hm : |m| ≤ 2 ^ 53) (he : -1074 ≤ e) : IsDouble ((m : K) * (2 : K) ^ e) := by
  rcases lt_or_eq_of_le hm with h | h
  · exact ⟨m, e, h, he, rfl⟩
  · rcases abs_choice m with c | c
    · refine ⟨2 ^ 52, e + 1, by norm_num, by omega, ?_⟩
      rw [← c, h, zpow_add₀ (by norm_num : (2 : K) ≠ 0)]; push_cast; ring
    · refine ⟨-2 ^ 52, e + 1, by norm_num, by omega, ?_⟩
      have : m = -2 ^ 53 := by omega
      rw [this, zpow_add₀ (by norm_num : (2 : K) ≠ 0)]; push_cast; ring

theorem fl_double (x : K) : IsDouble (fl x) := by
  unfold fl ulp
  have hE : -1074 ≤ ulpExp x := by unfold ulpExp; omega
  refine double_intro ?_ hE
  have h1 : |x / ulp x| ≤ 2 ^ 53 := by
    rw [abs_div, abs_of_pos (ulp_pos x), div_le_iff₀ (ulp_pos x)]
    refine (lt_log2 x).le.trans ?_
    unfold ulp
    rw [show ((2 : K) ^ 53) = (2 : K) ^ (53 : ℤ) by norm_num, ← zpow_add₀ (by norm_num : (2 : K) ≠ 0)]
    refine two_zpow_le ?_
    unfold ulpExp; omega
  have h2 := rhe_nearest (x / ulp x) (2 ^ 53)
  have h3 := rhe_nearest (x / ulp x) (-2 ^ 53)
  rw [abs_le] at h1
  have e53 : ((2 : K) ^ 53) = 9007199254740992 := by norm_num
  push_cast at h2 h3
  rw [e53] at h1
  rw [abs_sub_comm, abs_sub_comm _ (9007199254740992 : K)] at h2
  have e2 : |(9007199254740992 : K) - x / ulp x| = 9007199254740992 - x / ulp x := abs_of_nonneg (by linarith)
  have e3 : |x / ulp x - -(9007199254740992 : K)| = x / ulp x + 9007199254740992 := by rw [sub_neg_eq_add]; exact abs_of_nonneg (by linarith)
  rw [e2] at h2; rw [e3] at h3
  have u : ((roundHalfEven (x / ulp x) : ℤ) : K) ≤ ((2 ^ 53 : ℤ) : K) := by push_cast; linarith [(abs_le.1 h2).2]
  have l : ((-2 ^ 53 : ℤ) : K) ≤ ((roundHalfEven (x / ulp x) : ℤ) : K) := by push_cast; linarith [(abs_le.1 h3).2]
  exact abs_le.2 ⟨by have := Int.cast_le.1 l; exact this, by have := Int.cast_le.1 u; exact this⟩

/-- `fl` rounds to a nearest double. -/
theorem fl_nearest (x : K) : NearestDouble x (fl x) := ⟨fl_double x, fun _ hz => fl_near hz⟩

theorem fl_of_double {x : K} (h : IsDouble x) : fl x = x := by
  have := fl_near (x := x) h
  rw [sub_self, abs_zero] at this
  exact (sub_eq_zero.1 (abs_nonpos_iff.1 this)).symm

theorem fl_fl (x : K) : fl (fl x) = fl x := fl_of_double (fl_double x)

/-- Any map to a nearest double respects the order. -/
theorem fl_mono {x y : K} (h : x ≤ y) : fl x ≤ fl y := by
  rcases eq_or_lt_of_le h with rfl | hlt
  · exact le_refl _
  by_contra hc
  have hc := lt_of_not_ge hc
  have h1 := fl_near (x := x) (fl_double y)
  have h2 := fl_near (x := y) (fl_double x)
  rcases le_or_gt x (fl x) with a | a
  · rw [abs_of_nonpos (by linarith)] at h1
    rcases le_or_gt x (fl y) with b | b
    · rw [abs_of_nonpos (by linarith)] at h1; linarith
    · rw [abs_of_pos (by linarith)] at h1
      rcases le_or_gt y (fl x) with c | c
      · rw [abs_of_pos (by linarith), abs_of_nonpos (by linarith)] at h2; linarith
      · rw [abs_of_pos (by linarith), abs_of_pos (by linarith)] at h2; linarith
  · rw [abs_of_pos (by linarith), abs_of_pos (by linarith)] at h2; linarith

theorem double_zero : IsDouble (0 : K) := ⟨0, 0, by norm_num, by norm_num, by simp⟩

theorem double_int {n : ℤ} (h : |n| ≤ 2 ^ 53) : IsDouble (n : K) := by
  have := double_intro (K := K) (m := n) (e := 0) h (by norm_num)
  simpa using this

theorem double_nat {n : ℕ} (h : n ≤ 2 ^ 53) : IsDouble (n : K) := by
  have := double_int (K := K) (n := (n : ℤ)) (by rw [Nat.abs_cast]; exact_mod_cast h)
  simpa using this

theorem double_one : IsDouble (1 : K) := by simpa using double_nat (K := K) (n := 1) (by norm_num)

theorem double_neg {x : K} (h : IsDouble x) : IsDouble (-x) := by
  obtain ⟨m, e, a, b, rfl⟩ := h
  exact ⟨-m, e, by rwa [abs_neg], b, by push_cast; ring⟩

theorem fl_nonneg {x : K} (h : 0 ≤ x) : 0 ≤ fl x := by have := fl_mono h; rwa [fl_zero] at this

theorem fl_le_of {x y : K} (h : x ≤ y) (hy : IsDouble y) : fl x ≤ y := by have := fl_mono h; rwa [fl_of_double hy] at this

theorem le_fl_of {x y : K} (h : x ≤ y) (hx : IsDouble x) : x ≤ fl y := by have := fl_mono h; rwa [fl_of_double hx] at this

/-- Relative error of a rounding outside the subnormal range. -/
theorem fl_rel {x : K} (h : (2 : K) ^ (-1022 : ℤ) ≤ |x|) : |x - fl x| ≤ |x| / 2 ^ 53 := by
  have hx : x ≠ 0 := by
    rintro rfl
    rw [abs_zero] at h
    exact absurd h (not_le.2 (zpow_pos (by norm_num) _))
  have hl : -1022 ≤ Int.log 2 |x| := by
    have := lt_of_le_of_lt h (lt_log2 x)
    have := (two_zpow_lt_iff (K := K)).1 this
    omega
  refine (fl_err x).trans ?_
  have : ulp x * 2 ^ 52 ≤ |x| := by
    have e : ulp x * 2 ^ 52 = (2 : K) ^ Int.log 2 |x| := by
      unfold ulp ulpExp
      rw [max_eq_left hl, show ((2 : K) ^ 52) = (2 : K) ^ (52 : ℤ) by norm_num, ← zpow_add₀ (by norm_num : (2 : K) ≠ 0)]
      congr 1; ring
    rw [e]; exact log2_le hx
  rw [div_le_div_iff₀ (by norm_num) (by positivity)]
  have e : ulp x * (2 : K) ^ 53 = ulp x * 2 ^ 52 * 2 := by ring
  rw [e]; linarith

/-- Sums and differences of doubles are rounded with the relative error even in the subnormal range. -/
theorem fl_rel_add {a b : K} (ha : IsDouble a) (hb : IsDouble b) : |(a + b) - fl (a + b)| ≤ |a + b| / 2 ^ 53 := by
  by_cases h : (2 : K) ^ (-1022 : ℤ) ≤ |a + b|
  · exact fl_rel h
  · have h := lt_of_not_ge h
    have hd : IsDouble (a + b) := by
      obtain ⟨m, e, _, he, rfl⟩ := ha
      obtain ⟨m', e', _, he', rfl⟩ := hb
      obtain ⟨n, hn⟩ := mult_of_exp (K := K) (e := e) (f := -1074) he m
      obtain ⟨n', hn'⟩ := mult_of_exp (K := K) (e := e') (f := -1074) he' m'
      rw [hn, hn', ← add_mul, ← Int.cast_add] at h ⊢
      refine ⟨n + n', -1074, ?_, le_refl _, rfl⟩
      rw [abs_mul, abs_of_pos (zpow_pos (by norm_num : (0 : K) < 2) _), ← lt_div_iff₀ (zpow_pos (by norm_num : (0 : K) < 2) _),
        ← zpow_sub₀ (by norm_num : (2 : K) ≠ 0)] at h
      have : ((|n + n'| : ℤ) : K) < ((2 ^ 52 : ℤ) : K) := by
        push_cast at h ⊢
        refine h.trans_le ?_
        norm_num
      have := Int.cast_lt.1 this
      refine lt_trans this (by norm_num)
    rw [fl_of_double hd, sub_self, abs_zero]; positivity

theorem fl_rel_sub {a b : K} (ha : IsDouble a) (hb : IsDouble b) : |(a - b) - fl (a - b)| ≤ |a - b| / 2 ^ 53 := by
  have := fl_rel_add ha (double_neg hb)
  rwa [← sub_eq_add_neg] at this

end Verif
