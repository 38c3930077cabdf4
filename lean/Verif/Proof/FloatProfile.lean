import Mathlib.Tactic.Linarith
import Mathlib.Tactic.Ring
import Mathlib.Tactic.NormNum
import Mathlib.Tactic.Positivity
import Mathlib.Tactic.GCongr
import Verif.Proof.Float
import Verif.Proof.Profile
import Mathlib.Algebra.Order.Ring.Pow
import Mathlib.Tactic.FieldSimp
import Verif.Model.FloatProfile

set_option linter.unusedSectionVars false
set_option linter.unusedVariables false

/-!
Rounding errors of VsZ (for Props/FloatProfile.lean): arithmetic of the bounds, with `u` the unit roundoff, and the loop.
-/

namespace Verif

open Spec (IsDouble)

section Arith
variable {K : Type} [Field K] [LinearOrder K] [IsStrictOrderedRing K]

theorem vz_abs_up {u y c Y : K} (hu : 0 < u) (hu1 : u ≤ 1 / 16) (hY : 0 ≤ Y) (h : y ≤ Y) (hc : |y - c| ≤ u * |y|) :
    c ≤ (1 + u) * Y := by
  have hc1 := (abs_le.1 hc).1
  rcases le_or_gt 0 y with h0 | h0
  · rw [abs_of_nonneg h0] at hc1
    have : (1 + u) * y ≤ (1 + u) * Y := by gcongr
    linarith
  · rw [abs_of_neg h0] at hc1
    have h2 : 0 ≤ (1 + u) * Y := by positivity
    have h3 : u * -y ≤ 1 * -y := mul_le_mul_of_nonneg_right (by linarith) (by linarith)
    linarith

theorem vz_abs_lo {u y c Y : K} (hu : 0 < u) (hu1 : u ≤ 1 / 16) (hY : 0 ≤ Y) (h : Y ≤ y) (hc : |y - c| ≤ u * |y|) :
    (1 - u) * Y ≤ c := by
  rw [abs_of_nonneg (le_trans hY h)] at hc
  have hc1 := (abs_le.1 hc).2
  have : (1 - u) * Y ≤ (1 - u) * y := mul_le_mul_of_nonneg_left h (by linarith)
  linarith

theorem vz_mul_up {u S σ x xh p η : K} (hu : 0 < u) (hS : 0 < S) (hσ0 : 0 ≤ σ) (hσ : σ ≤ S * (1 + u)) (hx0 : 0 ≤ x)
    (hx : x ≤ (1 + u) * xh) (hp : |σ * x - p| ≤ u * |σ * x| + η) : p ≤ (1 + u) ^ 3 * (S * xh) + η := by
  have hσx : 0 ≤ σ * x := mul_nonneg hσ0 hx0
  rw [abs_of_nonneg hσx] at hp
  have a3 := (abs_le.1 hp).1
  have a4 : σ * x ≤ S * (1 + u) * ((1 + u) * xh) := mul_le_mul hσ hx hx0 (by positivity)
  have a5 : (1 + u) * (σ * x) ≤ (1 + u) * (S * (1 + u) * ((1 + u) * xh)) := by gcongr
  have e : (1 + u) * (S * (1 + u) * ((1 + u) * xh)) = (1 + u) ^ 3 * (S * xh) := by ring
  rw [e] at a5
  linarith

theorem vz_step_up {u B S d t σ p acc c d' : K} (hu : 0 < u) (hu1 : u ≤ 1 / 16) (hB : (1 + u) ^ 3 ≤ B) (hS : 0 < S)
    (hd : 0 ≤ d) (ht : 0 ≤ t) (hacc : acc ≤ B * d * S) (hσ0 : 0 ≤ σ) (hσ : σ ≤ S * (1 + u))
    (hp : |σ * t - p| ≤ u * |σ * t|) (hc : |acc + p - c| ≤ u * |acc + p|) (hd' : |d + t - d'| ≤ u * |d + t|) :
    c ≤ B * ((1 + u) / (1 - u)) * d' * S := by
  have h1u : 0 < 1 - u := by linarith
  have hB0 : 0 < B := lt_of_lt_of_le (by positivity) hB
  have hdt : 0 ≤ d + t := by linarith
  have ht1 : t ≤ (1 + u) * t := by linarith [mul_nonneg hu.le ht]
  have a1 := vz_mul_up (η := 0) hu hS hσ0 hσ ht ht1 (by rw [add_zero]; exact hp)
  have a3 : (1 + u) ^ 3 * (S * t) ≤ B * (S * t) := by gcongr
  have a4 : acc + p ≤ B * (d + t) * S := by linarith [show B * (d + t) * S = B * d * S + B * (S * t) by ring]
  have a5 := vz_abs_up hu hu1 (by positivity) a4 hc
  have a6 := vz_abs_lo hu hu1 hdt (le_refl _) hd'
  have a8 : d + t ≤ d' / (1 - u) := by rw [le_div_iff₀ h1u]; linarith
  have a9 : (1 + u) * (B * (d + t) * S) ≤ (1 + u) * (B * (d' / (1 - u)) * S) := by gcongr
  have e : B * ((1 + u) / (1 - u)) * d' * S = (1 + u) * (B * (d' / (1 - u)) * S) := by ring
  rw [e]; linarith

/-- The distance left in the layer where the depth `Z` is reached. -/
theorem vz_chunk {u d t d' w Z W : K} (hu : 0 < u) (hu1 : u ≤ 1 / 16) (hd : 0 ≤ d) (ht : 0 ≤ t) (hZ : 0 ≤ Z)
    (hZd : Z ≤ d') (hdW : d' ≤ W) (hd' : |d + t - d'| ≤ u * |d + t|) (hw : |d' - Z - w| ≤ u * |d' - Z|) :
    d + (t - w) ≤ Z + 3 * u * W ∧ Z - 3 * u * W ≤ d + (t - w) := by
  rw [abs_of_nonneg (add_nonneg hd ht)] at hd'
  rw [abs_of_nonneg (sub_nonneg.2 hZd)] at hw
  obtain ⟨a1, a2⟩ := abs_le.1 hd'
  obtain ⟨b1, b2⟩ := abs_le.1 hw
  have h1 : (1 - u) * (d + t) ≤ W := by linarith
  have h0 : u * (d + t) ≤ 1 / 16 * (d + t) := by
    have := add_nonneg hd ht
    gcongr
  have h2 : d + t ≤ 2 * W := by linarith
  have h3 : u * (d + t) ≤ u * (2 * W) := by gcongr
  have h4 : u * (d' - Z) ≤ u * W := by
    have : d' - Z ≤ W := by linarith
    gcongr
  constructor <;> linarith

end Arith

section Loop
variable {K : Type} [Field K] [LinearOrder K] [IsStrictOrderedRing K] [FloorRing K]

/-- Rounding error of any number. -/
theorem fl_abs_err (x : K) : |x - fl x| ≤ |x| / 2 ^ 53 + (2 : K) ^ (-1075 : ℤ) := by
  by_cases hx : x = 0
  · subst hx
    rw [fl_zero, sub_zero, abs_zero, zero_div, zero_add]
    exact (zpow_pos (by norm_num) _).le
  by_cases h : (2 : K) ^ (-1022 : ℤ) ≤ |x|
  · have := fl_rel h
    have h2 : (0 : K) < (2 : K) ^ (-1075 : ℤ) := zpow_pos (by norm_num) _
    linarith
  · have h := lt_of_not_ge h
    have e := fl_err x
    have hu : ulp x ≤ (2 : K) ^ (-1074 : ℤ) := by
      have := lt_of_le_of_lt (log2_le hx) h
      have := two_zpow_lt_iff.1 this
      unfold ulp ulpExp
      apply two_zpow_le; omega
    have e2 : (2 : K) ^ (-1074 : ℤ) = 2 * (2 : K) ^ (-1075 : ℤ) := by
      rw [show (-1074 : ℤ) = 1 + -1075 by norm_num, zpow_add₀ (by norm_num : (2 : K) ≠ 0), zpow_one]
    have h3 : 0 ≤ |x| / 2 ^ 53 := by positivity
    linarith

theorem foldl_fadd_ge : ∀ (l : List K) (d : K), (∀ t ∈ l, 0 ≤ t) → IsDouble d → d ≤ l.foldl fadd d ∧ IsDouble (l.foldl fadd d)
  | [], d, _, hd => ⟨le_refl _, hd⟩
  | t :: ts, d, h, hd => by
    have h1 : d ≤ fadd d t := le_fl_of (by linarith [h t (List.mem_cons_self ..)]) hd
    have := foldl_fadd_ge ts (fadd d t) (fun x hx => h x (List.mem_cons_of_mem _ hx)) (fl_double _)
    exact ⟨le_trans h1 this.1, this.2⟩

/-- The slowness of a layer. -/
theorem vz_slow {v vlo vhi : K} (hlo : (2 : K) ^ (-400 : ℤ) ≤ vlo) (hhi : vhi ≤ (2 : K) ^ (400 : ℤ)) (h1 : vlo ≤ v) (h2 : v ≤ vhi) :
    1 / vhi * (1 - 1 / 2 ^ 53) ≤ fdiv 1 v ∧ fdiv 1 v ≤ 1 / vlo * (1 + 1 / 2 ^ 53) ∧ (2 : K) ^ (-400 : ℤ) ≤ fdiv 1 v := by
  have p0 : (0 : K) < (2 : K) ^ (-400 : ℤ) := zpow_pos (by norm_num) _
  have hv0 : 0 < vlo := lt_of_lt_of_le p0 hlo
  have hv : 0 < v := lt_of_lt_of_le hv0 h1
  have hh : 0 < vhi := lt_of_lt_of_le hv h2
  have e1 : 1 / vhi ≤ 1 / v := one_div_le_one_div_of_le hv h2
  have e2 : 1 / v ≤ 1 / vlo := one_div_le_one_div_of_le hv0 h1
  have e3 : (2 : K) ^ (-400 : ℤ) ≤ 1 / v := by
    have : 1 / (2 : K) ^ (400 : ℤ) ≤ 1 / v := one_div_le_one_div_of_le hv (le_trans h2 hhi)
    rwa [zpow_neg, ← one_div]
  have hr := fl_rel (x := 1 / v) (by
    rw [abs_of_pos (by positivity)]
    exact le_trans (two_zpow_le (by norm_num)) e3)
  rw [abs_of_pos (show 0 < 1 / v by positivity)] at hr
  obtain ⟨a1, a2⟩ := abs_le.1 hr
  have hd : IsDouble ((2 : K) ^ (-400 : ℤ)) := ⟨1, -400, by norm_num, by norm_num, by simp⟩
  refine ⟨?_, ?_, le_fl_of e3 hd⟩
  · have : 1 / vhi * (1 - 1 / 2 ^ 53) ≤ 1 / v * (1 - 1 / 2 ^ 53) := mul_le_mul_of_nonneg_right e1 (by norm_num)
    have e : fdiv 1 v = fl (1 / v) := rfl
    rw [e]; linarith
  · have : 1 / v * (1 + 1 / 2 ^ 53) ≤ 1 / vlo * (1 + 1 / 2 ^ 53) := mul_le_mul_of_nonneg_right e2 (by norm_num)
    have e : fdiv 1 v = fl (1 / v) := rfl
    rw [e]; linarith

theorem vz_prod {σ t : K} (hσ : (2 : K) ^ (-400 : ℤ) ≤ σ) (ht : t = 0 ∨ (2 : K) ^ (-500 : ℤ) ≤ t) :
    |σ * t - fl (σ * t)| ≤ 1 / 2 ^ 53 * |σ * t| := by
  rcases ht with rfl | ht
  · simp [fl_zero]
  · have p1 : (0 : K) < (2 : K) ^ (-500 : ℤ) := zpow_pos (by norm_num) _
    have p0 : (0 : K) < (2 : K) ^ (-400 : ℤ) := zpow_pos (by norm_num) _
    have h : (2 : K) ^ (-900 : ℤ) ≤ σ * t := by
      rw [show (-900 : ℤ) = -400 + -500 by norm_num, zpow_add₀ (by norm_num : (2 : K) ≠ 0)]
      exact mul_le_mul hσ ht p1.le (le_trans p0.le hσ)
    have := fl_rel (x := σ * t) (le_trans (le_trans (two_zpow_le (by norm_num)) h) (le_abs_self _))
    rw [one_div, ← div_eq_inv_mul]; exact this

theorem vz_eta {Z s : K} (hZ : (2 : K) ^ (-500 : ℤ) ≤ Z) (hs : (2 : K) ^ (-400 : ℤ) ≤ s) :
    (2 : K) ^ (-1075 : ℤ) ≤ 1 / 2 ^ 53 * Z * s := by
  have p1 : (0 : K) < (2 : K) ^ (-500 : ℤ) := zpow_pos (by norm_num) _
  have p0 : (0 : K) < (2 : K) ^ (-400 : ℤ) := zpow_pos (by norm_num) _
  have h : (2 : K) ^ (-900 : ℤ) ≤ Z * s := by
    rw [show (-900 : ℤ) = -500 + -400 by norm_num, zpow_add₀ (by norm_num : (2 : K) ≠ 0)]
    exact mul_le_mul hZ hs p0.le (le_trans p1.le hZ)
  have h2 : (1 / 2 ^ 53 : K) = (2 : K) ^ (-53 : ℤ) := by rw [zpow_neg, one_div]; norm_cast
  have h3 : (2 : K) ^ (-1075 : ℤ) ≤ (2 : K) ^ (-53 : ℤ) * (2 : K) ^ (-900 : ℤ) := by
    rw [← zpow_add₀ (by norm_num : (2 : K) ≠ 0)]; exact two_zpow_le (by norm_num)
  rw [mul_assoc, h2]
  have : (0 : K) < (2 : K) ^ (-53 : ℤ) := zpow_pos (by norm_num) _
  have : (2 : K) ^ (-53 : ℤ) * (2 : K) ^ (-900 : ℤ) ≤ (2 : K) ^ (-53 : ℤ) * (Z * s) := by gcongr
  linarith

/-- Factor by which one more layer can enlarge (or, inverted, shrink) the computed travel time relative to the computed depth. -/
def vzRho : K := (1 + 1 / 2 ^ 53) / (1 - 1 / 2 ^ 53)

theorem vzRho_ge : (1 : K) ≤ vzRho := by unfold vzRho; rw [le_div_iff₀ (by norm_num)]; norm_num

/-- The factors of fewer than 2^50 layers multiply to less than 2. -/
theorem vzRho_pow (n : ℕ) (hn : 8 * (n : K) ≤ 2 ^ 53) : (1 + 1 / 2 ^ 53) ^ 3 * vzRho ^ n ≤ (2 : K) := by
  have h1 : (1 : K) + n * (-(2 / 2 ^ 53)) ≤ (1 + -(2 / 2 ^ 53)) ^ n := one_add_mul_le_pow (by norm_num) n
  have h2 : (1 + -(2 / 2 ^ 53) : K) ^ n * vzRho ^ n ≤ 1 := by
    rw [← mul_pow]
    refine pow_le_one₀ (mul_nonneg (by norm_num) (le_trans zero_le_one vzRho_ge)) ?_
    unfold vzRho
    rw [← mul_div_assoc, div_le_one (by norm_num)]
    norm_num
  have h3 : (3 / 4 : K) ≤ (1 + -(2 / 2 ^ 53)) ^ n := by
    have : n * (2 / 2 ^ 53 : K) ≤ 1 / 4 := by
      have : n * (2 / 2 ^ 53 : K) = (8 * n) / 2 ^ 53 / 4 := by ring
      rw [this, div_le_div_iff_of_pos_right (by norm_num), div_le_one (by norm_num)]
      exact hn
    linarith
  have h4 : (0 : K) ≤ vzRho ^ n := pow_nonneg (le_trans zero_le_one vzRho_ge) n
  have h5 : 3 / 4 * vzRho ^ n ≤ (1 : K) := le_trans (mul_le_mul_of_nonneg_right h3 h4) h2
  have h6 : ((1 + 1 / 2 ^ 53) ^ 3 : K) ≤ 3 / 2 := by norm_num
  have h7 : (1 + 1 / 2 ^ 53) ^ 3 * vzRho ^ n ≤ (3 / 2 : K) * vzRho ^ n := mul_le_mul_of_nonneg_right h6 h4
  linarith

/-- One addition to the travel time. -/
theorem vz_piece {vlo vhi Z W acc v x xh : K} (hlo : (2 : K) ^ (-400 : ℤ) ≤ vlo) (hhi : vhi ≤ (2 : K) ^ (400 : ℤ))
    (h1 : vlo ≤ v) (h2 : v ≤ vhi) (hZ : (2 : K) ^ (-500 : ℤ) ≤ Z) (hZW : Z ≤ W) (hda : IsDouble acc)
    (hacc : |acc| ≤ 2 * W * (1 / vlo)) (hxh : |xh| ≤ 2 * W) (hxx : |xh - x| ≤ 1 / 2 ^ 53 * |xh|) :
    |fadd acc (fmul (fdiv 1 v) x) - (acc + xh / v)| ≤ 21 * (1 / 2 ^ 53 * W * (1 / vlo)) := by
  have p0 : (0 : K) < (2 : K) ^ (-400 : ℤ) := zpow_pos (by norm_num) _
  have p5 : (0 : K) < (2 : K) ^ (-500 : ℤ) := zpow_pos (by norm_num) _
  have hZ0 : 0 < Z := lt_of_lt_of_le p5 hZ
  have hW : 0 < W := lt_of_lt_of_le hZ0 hZW
  have hv0 : 0 < vlo := lt_of_lt_of_le p0 hlo
  have hv : 0 < v := lt_of_lt_of_le hv0 h1
  have hh : 0 < vhi := lt_of_lt_of_le hv h2
  obtain ⟨s1, s2, s3⟩ := vz_slow hlo hhi h1 h2
  have hσ0 : 0 ≤ fdiv 1 v := le_trans p0.le s3
  have hS : 0 < 1 / vlo := by positivity
  have e2 : 1 / v ≤ 1 / vlo := one_div_le_one_div_of_le hv0 h1
  have e3 : (2 : K) ^ (-400 : ℤ) ≤ 1 / v := by
    have : 1 / (2 : K) ^ (400 : ℤ) ≤ 1 / v := one_div_le_one_div_of_le hv (le_trans h2 hhi)
    rwa [zpow_neg, ← one_div]
  have hr := fl_rel (x := 1 / v) (by
    rw [abs_of_pos (by positivity)]
    exact le_trans (two_zpow_le (by norm_num)) e3)
  rw [abs_of_pos (show 0 < 1 / v by positivity)] at hr
  have hη := vz_eta hZ (le_trans e3 e2)
  generalize hS' : (1 / vlo : K) = S at *
  generalize hσ' : fdiv 1 v = σ at *
  have hσe : fl (1 / v) = σ := by rw [← hσ']; rfl
  rw [hσe] at hr
  have hr' : |1 / v - σ| ≤ 1 / 2 ^ 53 * S := by
    refine le_trans hr ?_
    rw [div_eq_mul_inv, mul_comm, ← one_div]
    gcongr
  have hσ2 : σ ≤ 2 * S := by
    have : S * (1 + 1 / 2 ^ 53) ≤ S * 2 := by gcongr; norm_num
    linarith
  have hWS : 0 < W * S := by positivity
  have hu0 : (0 : K) < 1 / 2 ^ 53 := by norm_num
  have hu1 : (1 / 2 ^ 53 : K) ≤ 1 / 16 := by norm_num
  have hp : |σ * x - fmul σ x| ≤ 1 / 2 ^ 53 * |σ * x| + (2 : K) ^ (-1075 : ℤ) := by
    have := fl_abs_err (σ * x)
    rw [one_div, ← div_eq_inv_mul]; exact this
  have hc : |acc + fmul σ x - fadd acc (fmul σ x)| ≤ 1 / 2 ^ 53 * |acc + fmul σ x| := by
    have := fl_rel_add hda (fl_double (σ * x))
    rw [one_div, ← div_eq_inv_mul]; exact this
  generalize (1 / 2 ^ 53 : K) = u at *
  have hx3 : |x| ≤ 3 * W := by
    have h1 : |x| ≤ |xh| + |xh - x| := by
      have := abs_sub_abs_le_abs_sub x xh
      rw [abs_sub_comm x xh] at this; linarith
    have h2 : u * |xh| ≤ 1 / 16 * (2 * W) := by gcongr
    linarith
  have hxd : |xh - x| ≤ u * (2 * W) := le_trans hxx (by gcongr)
  have hZS : u * Z * S ≤ u * W * S := by gcongr
  -- the product
  have a1 : |σ * x| ≤ 6 * (W * S) := by
    rw [abs_mul, abs_of_nonneg hσ0]
    have : σ * |x| ≤ 2 * S * (3 * W) := by gcongr
    linarith
  have a2 : |σ * x - xh / v| ≤ 5 * (u * W * S) := by
    have e : σ * x - xh / v = -((1 / v - σ) * x) - (xh - x) * (1 / v) := by ring
    rw [e]
    have b1 : |(1 / v - σ) * x| ≤ u * S * (3 * W) := by rw [abs_mul]; gcongr
    have b2 : |(xh - x) * (1 / v)| ≤ u * (2 * W) * S := by
      rw [abs_mul, abs_of_pos (show 0 < 1 / v by positivity)]; gcongr
    have := abs_sub (-((1 / v - σ) * x)) ((xh - x) * (1 / v))
    rw [abs_neg] at this
    linarith
  have a3 : |σ * x - fmul σ x| ≤ 7 * (u * W * S) := by
    have : u * |σ * x| ≤ u * (6 * (W * S)) := by gcongr
    linarith
  have huWS : u * W * S ≤ 1 / 16 * (W * S) := by
    have : u * (W * S) ≤ 1 / 16 * (W * S) := by gcongr
    linarith
  have a4 : |fmul σ x| ≤ 7 * (W * S) := by
    have := abs_sub_abs_le_abs_sub (fmul σ x) (σ * x)
    rw [abs_sub_comm (fmul σ x)] at this
    linarith
  have a5 : |acc + fmul σ x| ≤ 9 * (W * S) := by
    have := abs_add_le acc (fmul σ x)
    linarith
  have a6 : u * |acc + fmul σ x| ≤ u * (9 * (W * S)) := by gcongr
  have e : fadd acc (fmul σ x) - (acc + xh / v)
      = -(acc + fmul σ x - fadd acc (fmul σ x)) - (σ * x - fmul σ x) + (σ * x - xh / v) := by ring
  rw [e]
  have b1 := abs_add_le (-(acc + fmul σ x - fadd acc (fmul σ x)) - (σ * x - fmul σ x)) (σ * x - xh / v)
  have b2 := abs_sub (-(acc + fmul σ x - fadd acc (fmul σ x))) (σ * x - fmul σ x)
  rw [abs_neg] at b2
  linarith

/-- The travel time down to a depth changes with the depth where the layers start by at most the slowness. -/
theorem ttRec_lip (Z lo : K) (hlo : 0 < lo) : ∀ (p : List (K × K)) (d d2 : K), (∀ r ∈ p, 0 ≤ r.1) → (∀ r ∈ p, lo ≤ r.2) → d ≤ d2 →
    0 ≤ ttRec Z d p - ttRec Z d2 p ∧ ttRec Z d p - ttRec Z d2 p ≤ (d2 - d) * (1 / lo)
  | [], d, d2, _, _, h => by
    have : 0 ≤ (d2 - d) * (1 / lo) := mul_nonneg (by linarith) (by positivity)
    simpa [ttRec] using this
  | [(t, v)], d, d2, _, hv, h => by
    have hv1 : lo ≤ v := hv (t, v) (List.mem_cons_self ..)
    have hv0 : 0 < v := lt_of_lt_of_le hlo hv1
    have e2 : 1 / v ≤ 1 / lo := one_div_le_one_div_of_le hlo hv1
    simp only [ttRec]
    have e : max 0 (Z - d) / v - max 0 (Z - d2) / v = (max 0 (Z - d) - max 0 (Z - d2)) * (1 / v) := by ring
    have h1 : 0 ≤ max 0 (Z - d) - max 0 (Z - d2) := sub_nonneg.2 (max_le_max (le_refl _) (by linarith))
    have h2 : max 0 (Z - d) - max 0 (Z - d2) ≤ d2 - d := by
      have : max 0 (Z - d) ≤ max 0 (Z - d2) + (d2 - d) :=
        max_le (by linarith [le_max_left 0 (Z - d2)]) (by linarith [le_max_right 0 (Z - d2)])
      linarith
    rw [e]
    refine ⟨mul_nonneg h1 (by positivity), ?_⟩
    exact mul_le_mul h2 e2 (by positivity) (by linarith)
  | (t, v) :: r :: rest, d, d2, hp, hv, h => by
    have hv1 : lo ≤ v := hv (t, v) (List.mem_cons_self ..)
    have hv0 : 0 < v := lt_of_lt_of_le hlo hv1
    have ht : 0 ≤ t := hp (t, v) (List.mem_cons_self ..)
    have e2 : 1 / v ≤ 1 / lo := one_div_le_one_div_of_le hlo hv1
    have hp' : ∀ q ∈ r :: rest, 0 ≤ q.1 := fun q hq => hp q (List.mem_cons_of_mem _ hq)
    have hv' : ∀ q ∈ r :: rest, lo ≤ q.2 := fun q hq => hv q (List.mem_cons_of_mem _ hq)
    simp only [ttRec]
    have f : ∀ a b : K, 0 ≤ a - b → a - b ≤ d2 - d → 0 ≤ a / v - b / v ∧ a / v - b / v ≤ (a - b) * (1 / lo) := by
      intro a b h1 h2
      have e : a / v - b / v = (a - b) * (1 / v) := by ring
      rw [e]
      exact ⟨mul_nonneg h1 (by positivity), mul_le_mul_of_nonneg_left e2 h1⟩
    rcases le_or_gt Z (d + t) with c1 | c1
    · -- the depth lies in this layer in both cases
      rw [ttRec_zero_of_le Z (d + t) _ hp' c1, ttRec_zero_of_le Z (d2 + t) _ hp' (by linarith), min_eq_left c1,
        min_eq_left (show Z ≤ d2 + t by linarith), add_zero, add_zero]
      have h1 : 0 ≤ max 0 (Z - d) - max 0 (Z - d2) := sub_nonneg.2 (max_le_max (le_refl _) (by linarith))
      have h2 : max 0 (Z - d) - max 0 (Z - d2) ≤ d2 - d := by
        have : max 0 (Z - d) ≤ max 0 (Z - d2) + (d2 - d) :=
          max_le (by linarith [le_max_left 0 (Z - d2)]) (by linarith [le_max_right 0 (Z - d2)])
        linarith
      obtain ⟨g1, g2⟩ := f _ _ h1 h2
      refine ⟨g1, le_trans g2 (mul_le_mul_of_nonneg_right h2 (by positivity))⟩
    · rcases le_or_gt (d2 + t) Z with c2 | c2
      · rw [min_eq_right c1.le, min_eq_right c2, add_sub_cancel_left, add_sub_cancel_left]
        obtain ⟨g1, g2⟩ := ttRec_lip Z lo hlo (r :: rest) (d + t) (d2 + t) hp' hv' (by linarith)
        rw [show d2 + t - (d + t) = d2 - d by ring] at g2
        constructor <;> linarith
      · rw [min_eq_right c1.le, min_eq_left c2.le, ttRec_zero_of_le Z (d2 + t) _ hp' c2.le, add_sub_cancel_left, max_eq_right ht]
        obtain ⟨g1, g2⟩ := ttRec_lip Z lo hlo (r :: rest) (d + t) Z hp' hv' c1.le
        rw [ttRec_zero_of_le Z Z _ hp' (le_refl _), sub_zero] at g1 g2
        have k1 : 0 ≤ t - max 0 (Z - d2) := sub_nonneg.2 (max_le ht (by linarith))
        have k2 : t - max 0 (Z - d2) ≤ d2 + t - Z := by linarith [le_max_right 0 (Z - d2)]
        obtain ⟨q1, q2⟩ := f _ _ k1 (by linarith)
        have q3 : (t - max 0 (Z - d2)) * (1 / lo) ≤ (d2 + t - Z) * (1 / lo) := mul_le_mul_of_nonneg_right k2 (by positivity)
        have q4 : (d2 - d) * (1 / lo) = (d2 + t - Z) * (1 / lo) + (Z - (d + t)) * (1 / lo) := by ring
        constructor <;> linarith

theorem ttRec_lip_abs {Z lo : K} (hlo : 0 < lo) {p : List (K × K)} {d d2 e : K} (hp : ∀ r ∈ p, 0 ≤ r.1) (hv : ∀ r ∈ p, lo ≤ r.2)
    (h : |d - d2| ≤ e) : |ttRec Z d p - ttRec Z d2 p| ≤ e * (1 / lo) := by
  have h1 : (0 : K) ≤ 1 / lo := by positivity
  rcases le_total d d2 with c | c
  · obtain ⟨a, b⟩ := ttRec_lip Z lo hlo p d d2 hp hv c
    rw [abs_of_nonneg a]
    rw [abs_sub_comm, abs_of_nonneg (sub_nonneg.2 c)] at h
    exact le_trans b (mul_le_mul_of_nonneg_right h h1)
  · obtain ⟨a, b⟩ := ttRec_lip Z lo hlo p d2 d hp hv c
    rw [abs_sub_comm, abs_of_nonneg a]
    rw [abs_of_nonneg (sub_nonneg.2 c)] at h
    exact le_trans b (mul_le_mul_of_nonneg_right h h1)

/-- The travel time that `calc_VsZ` divides by with option 1. -/
def fTravel (Z d acc : K) (p : List (K × K)) (hne : p ≠ []) : K :=
  if (p.map Prod.fst).foldl fadd d < Z then
    fadd (fCumulSl Z d acc p) (fmul (fdiv 1 (p.getLast hne).2) (fsub Z ((p.map Prod.fst).foldl fadd d)))
  else fCumulSl Z d acc p

theorem ttRec_cons_near {Z lo d t v : K} (hlo : 0 < lo) {rest : List (K × K)} (hne : rest ≠ []) (hp : ∀ r ∈ rest, 0 ≤ r.1)
    (hv : ∀ r ∈ rest, lo ≤ r.2) (hv1 : lo ≤ v) (ht : 0 ≤ t) (hd : d < Z) :
    ttRec Z d ((t, v) :: rest) = min (Z - d) t / v + ttRec Z (d + t) rest := by
  cases rest with
  | nil => exact absurd rfl hne
  | cons r rest =>
    simp only [ttRec]
    congr 2
    rcases le_total Z (d + t) with c | c
    · rw [min_eq_left c, min_eq_left (by linarith), max_eq_right (by linarith)]
    · rw [min_eq_right c, min_eq_right (by linarith), add_sub_cancel_left, max_eq_right ht]

set_option maxHeartbeats 1000000 in
theorem vz_acc {vlo vhi Z W : K} (hlo : (2 : K) ^ (-400 : ℤ) ≤ vlo) (hhi : vhi ≤ (2 : K) ^ (400 : ℤ))
    (hZ : (2 : K) ^ (-500 : ℤ) ≤ Z) (hdZ0 : IsDouble Z) (hZW : Z ≤ W) :
    ∀ (rest : List (K × K)) (hne : rest ≠ []) (d acc B : K),
      (∀ r ∈ rest, IsDouble r.1 ∧ (r.1 = 0 ∨ (2 : K) ^ (-500 : ℤ) ≤ r.1)) → (∀ r ∈ rest, vlo ≤ r.2 ∧ r.2 ≤ vhi) →
      IsDouble d → IsDouble acc → 0 ≤ d → d < Z → (1 + 1 / 2 ^ 53) ^ 3 ≤ B → B * vzRho ^ rest.length ≤ 2 → 0 ≤ acc →
      acc ≤ B * d * (1 / vlo) → (rest.map Prod.fst).foldl fadd d ≤ W →
      |fTravel Z d acc rest hne - (acc + ttRec Z d rest)| ≤ 30 * (rest.length + 1) * (1 / 2 ^ 53 * W * (1 / vlo))
  | [], hne, _, _, _, _, _, _, _, _, _, _, _, _, _, _ => absurd rfl hne
  | (t, v) :: rest, _, d, acc, B, hthk, hvs, hdd, hda, hd, hdZ, hB, hB2, hacc0, hup, hW => by
    have p0 : (0 : K) < (2 : K) ^ (-400 : ℤ) := zpow_pos (by norm_num) _
    have p5 : (0 : K) < (2 : K) ^ (-500 : ℤ) := zpow_pos (by norm_num) _
    have hu : (0 : K) < 1 / 2 ^ 53 := by norm_num
    have hu1 : (1 / 2 ^ 53 : K) ≤ 1 / 16 := by norm_num
    obtain ⟨htd, ht0⟩ := hthk (t, v) (List.mem_cons_self ..)
    obtain ⟨hv1, hv2⟩ := hvs (t, v) (List.mem_cons_self ..)
    simp only at htd ht0 hv1 hv2
    have ht : 0 ≤ t := by rcases ht0 with h | h; exacts [h.ge, le_trans p5.le h]
    have hv0 : 0 < vlo := lt_of_lt_of_le p0 hlo
    have hvp : 0 < v := lt_of_lt_of_le hv0 hv1
    have e2 : 1 / v ≤ 1 / vlo := one_div_le_one_div_of_le hv0 hv1
    have hZ0 : 0 < Z := lt_of_lt_of_le p5 hZ
    have hW0 : 0 < W := lt_of_lt_of_le hZ0 hZW
    have hthk' : ∀ r ∈ rest, IsDouble r.1 ∧ (r.1 = 0 ∨ (2 : K) ^ (-500 : ℤ) ≤ r.1) := fun r hr =>
      hthk r (List.mem_cons_of_mem _ hr)
    have hvs' : ∀ r ∈ rest, vlo ≤ r.2 ∧ r.2 ≤ vhi := fun r hr => hvs r (List.mem_cons_of_mem _ hr)
    have hnn : ∀ r ∈ rest, 0 ≤ r.1 := by
      intro r hr
      rcases (hthk' r hr).2 with h | h
      exacts [h.ge, le_trans p5.le h]
    obtain ⟨s1, s2, s3⟩ := vz_slow hlo hhi hv1 hv2
    have hσ0 : 0 ≤ fdiv 1 v := le_trans p0.le s3
    have hd' : |d + t - fadd d t| ≤ 1 / 2 ^ 53 * |d + t| := by
      have := fl_rel_add hdd htd
      rw [one_div, ← div_eq_inv_mul]; exact this
    have hB0 : 0 < B := lt_of_lt_of_le (by positivity) hB
    have e1 : B * vzRho ^ ((t, v) :: rest).length = B * vzRho * vzRho ^ rest.length := by
      rw [List.length_cons, pow_succ]; ring
    have hBB : B ≤ 2 := by
      have h1 : (1 : K) ≤ vzRho ^ ((t, v) :: rest).length := one_le_pow₀ vzRho_ge
      have : B * 1 ≤ B * vzRho ^ ((t, v) :: rest).length := by gcongr
      linarith
    have hge : fadd d t ≤ ((((t, v) :: rest).map Prod.fst).foldl fadd d) := by
      simp only [List.map_cons, List.foldl_cons]
      refine (foldl_fadd_ge (rest.map Prod.fst) (fadd d t) ?_ (fl_double _)).1
      intro x hx
      obtain ⟨r, hr, rfl⟩ := List.mem_map.1 hx
      exact hnn r hr
    have hd'W : fadd d t ≤ W := le_trans hge hW
    have hd'0 : 0 ≤ fadd d t := fl_nonneg (by linarith)
    -- the unrounded depth of the bottom
    have hdt : d + t ≤ 2 * W := by
      have h1 := vz_abs_lo hu hu1 (show 0 ≤ d + t by linarith) (le_refl _) hd'
      have h2 : 1 / 2 ^ 53 * (d + t) ≤ 1 / 16 * (d + t) := mul_le_mul_of_nonneg_right hu1 (by linarith)
      linarith
    have hd2 : |d + t - fadd d t| ≤ 2 * (1 / 2 ^ 53 * W) := by
      refine le_trans hd' ?_
      rw [abs_of_nonneg (by linarith)]
      have : 1 / 2 ^ 53 * (d + t) ≤ 1 / 2 ^ 53 * (2 * W) := by gcongr
      linarith
    have haccW : |acc| ≤ 2 * W * (1 / vlo) := by
      rw [abs_of_nonneg hacc0]
      refine le_trans hup ?_
      have : B * d ≤ 2 * W := mul_le_mul hBB (by linarith) hd (by norm_num)
      gcongr
    have hκ : 0 ≤ 1 / 2 ^ 53 * W * (1 / vlo) := by positivity
    have hS0 : (0 : K) ≤ 1 / vlo := by positivity
    by_cases hlt : fadd d t < Z
    · -- the bottom of the layer is above `Z`
      have pc := vz_piece hlo hhi hv1 hv2 hZ hZW hda haccW (x := t) (xh := t)
        (by rw [abs_of_nonneg ht]; linarith) (by rw [sub_self, abs_zero]; positivity)
      have hc : |acc + fmul (fdiv 1 v) t - fadd acc (fmul (fdiv 1 v) t)| ≤ 1 / 2 ^ 53 * |acc + fmul (fdiv 1 v) t| := by
        have := fl_rel_add hda (fl_double (fdiv 1 v * t))
        rw [one_div, ← div_eq_inv_mul]; exact this
      have up := vz_step_up hu hu1 hB (by positivity : (0 : K) < 1 / vlo) hd ht hup hσ0 s2 (vz_prod s3 ht0) hc hd'
      have hacc'0 : 0 ≤ fadd acc (fmul (fdiv 1 v) t) :=
        fl_nonneg (add_nonneg hacc0 (fl_nonneg (mul_nonneg hσ0 ht)))
      by_cases hr : rest = []
      · subst hr
        have hft : fTravel Z d acc [(t, v)] (by simp)
            = fadd (fadd acc (fmul (fdiv 1 v) t)) (fmul (fdiv 1 v) (fsub Z (fadd d t))) := by
          simp [fTravel, fCumulSl, hlt]
        rw [hft]
        have hacc'W : |fadd acc (fmul (fdiv 1 v) t)| ≤ 2 * W * (1 / vlo) := by
          rw [abs_of_nonneg hacc'0]
          refine le_trans up ?_
          have hB2' : B * vzRho ≤ 2 := by
            have := hB2
            rw [e1] at this; simpa using this
          have : B * vzRho * fadd d t ≤ 2 * W := mul_le_mul hB2' hd'W hd'0 (by norm_num)
          exact mul_le_mul_of_nonneg_right this hS0
        have hxx : |Z - fadd d t - fsub Z (fadd d t)| ≤ 1 / 2 ^ 53 * |Z - fadd d t| := by
          have := fl_rel_sub hdZ0 (fl_double (d + t))
          rw [one_div, ← div_eq_inv_mul]; exact this
        have hdacc1 : IsDouble (fadd acc (fmul (fdiv 1 v) t)) := fl_double _
        have pc2 := vz_piece hlo hhi hv1 hv2 hZ hZW hdacc1 hacc'W (x := fsub Z (fadd d t)) (xh := Z - fadd d t)
          (by rw [abs_of_nonneg (by linarith)]; linarith) hxx
        have e3 : ttRec Z d [(t, v)] = (Z - d) / v := by
          simp only [ttRec]; rw [max_eq_right (by linarith)]
        rw [e3]
        have a3 : |(d + t - fadd d t) / v| ≤ 2 * (1 / 2 ^ 53 * W * (1 / vlo)) := by
          rw [abs_div, abs_of_pos hvp, div_eq_mul_one_div]
          have : |d + t - fadd d t| * (1 / v) ≤ 2 * (1 / 2 ^ 53 * W) * (1 / vlo) := by gcongr
          linarith
        generalize fadd acc (fmul (fdiv 1 v) t) = acc1 at *
        have e4 : fadd acc1 (fmul (fdiv 1 v) (fsub Z (fadd d t))) - (acc + (Z - d) / v)
            = (fadd acc1 (fmul (fdiv 1 v) (fsub Z (fadd d t))) - (acc1 + (Z - fadd d t) / v)) + (acc1 - (acc + t / v))
              + (d + t - fadd d t) / v := by ring
        rw [e4]
        have b1 := abs_add_le ((fadd acc1 (fmul (fdiv 1 v) (fsub Z (fadd d t))) - (acc1 + (Z - fadd d t) / v)) + (acc1 - (acc + t / v)))
          ((d + t - fadd d t) / v)
        have b2 := abs_add_le (fadd acc1 (fmul (fdiv 1 v) (fsub Z (fadd d t))) - (acc1 + (Z - fadd d t) / v)) (acc1 - (acc + t / v))
        have pc2' : |fadd acc1 (fmul (fdiv 1 v) (fsub Z (fadd d t))) - (acc1 + (Z - fadd d t) / v)|
            ≤ 21 * (1 / 2 ^ 53 * W * (1 / vlo)) := pc2
        simp only [List.length_cons, List.length_nil, Nat.cast_add, Nat.cast_zero, Nat.cast_one]
        linarith
      · have hft : fTravel Z d acc ((t, v) :: rest) (by simp) = fTravel Z (fadd d t) (fadd acc (fmul (fdiv 1 v) t)) rest hr := by
          simp only [fTravel, List.map_cons, List.foldl_cons, List.getLast_cons hr, fCumulSl, if_pos hlt]
        rw [hft]
        have hBr : B ≤ B * vzRho := by
          have : B * 1 ≤ B * vzRho := by gcongr; exact vzRho_ge
          linarith
        have ih := vz_acc hlo hhi hZ hdZ0 hZW rest hr (fadd d t) (fadd acc (fmul (fdiv 1 v) t)) (B * vzRho)
          hthk' hvs' (fl_double _) (fl_double _) hd'0 hlt (le_trans hB hBr) (by rw [← e1]; exact hB2) hacc'0 up
          (by simpa using hW)
        rw [ttRec_cons_near hv0 hr hnn (fun r hr => (hvs' r hr).1) hv1 ht hdZ]
        have l1 := ttRec_lip_abs (Z := Z) hv0 hnn (fun r hr => (hvs' r hr).1) hd2
        have l2 : |t / v - min (Z - d) t / v| ≤ 2 * (1 / 2 ^ 53 * W * (1 / vlo)) := by
          have e : t / v - min (Z - d) t / v = (t - min (Z - d) t) * (1 / v) := by ring
          rw [e, abs_mul, abs_of_pos (show 0 < 1 / v by positivity)]
          have h1 : |t - min (Z - d) t| ≤ 2 * (1 / 2 ^ 53 * W) := by
            rw [abs_of_nonneg (sub_nonneg.2 (min_le_right _ _))]
            rcases le_total (Z - d) t with c | c
            · rw [min_eq_left c]
              have := (abs_le.1 hd2).2
              linarith
            · rw [min_eq_right c, sub_self]; positivity
          have : |t - min (Z - d) t| * (1 / v) ≤ 2 * (1 / 2 ^ 53 * W) * (1 / vlo) := by gcongr
          linarith
        generalize fadd acc (fmul (fdiv 1 v) t) = acc1 at *
        generalize fTravel Z (fadd d t) acc1 rest hr = c at *
        have e4 : c - (acc + (min (Z - d) t / v + ttRec Z (d + t) rest))
            = (c - (acc1 + ttRec Z (fadd d t) rest)) + (acc1 - (acc + t / v)) + (t / v - min (Z - d) t / v)
              - (ttRec Z (d + t) rest - ttRec Z (fadd d t) rest) := by ring
        rw [e4]
        have b1 := abs_sub ((c - (acc1 + ttRec Z (fadd d t) rest)) + (acc1 - (acc + t / v)) + (t / v - min (Z - d) t / v))
          (ttRec Z (d + t) rest - ttRec Z (fadd d t) rest)
        have b2 := abs_add_le ((c - (acc1 + ttRec Z (fadd d t) rest)) + (acc1 - (acc + t / v))) (t / v - min (Z - d) t / v)
        have b3 := abs_add_le (c - (acc1 + ttRec Z (fadd d t) rest)) (acc1 - (acc + t / v))
        simp only [List.length_cons, Nat.cast_add, Nat.cast_one]
        linarith
    · -- the layer reaches `Z`
      have hge' : Z ≤ fadd d t := not_lt.1 hlt
      have hft : fTravel Z d acc ((t, v) :: rest) (by simp) = fadd acc (fmul (fdiv 1 v) (fsub t (fsub (fadd d t) Z))) := by
        simp only [fTravel]
        rw [if_neg (not_lt.2 (le_trans hge' hge)), fCumulSl, if_neg hlt]
      rw [hft]
      have hw : |fadd d t - Z - fsub (fadd d t) Z| ≤ 1 / 2 ^ 53 * |fadd d t - Z| := by
        have := fl_rel_sub (fl_double (d + t)) hdZ0
        rw [one_div, ← div_eq_inv_mul]; exact this
      obtain ⟨c1, c2⟩ := vz_chunk hu hu1 hd ht hZ0.le hge' hd'W hd' hw
      have hxx : |t - fsub (fadd d t) Z - fsub t (fsub (fadd d t) Z)| ≤ 1 / 2 ^ 53 * |t - fsub (fadd d t) Z| := by
        have := fl_rel_sub htd (fl_double (fadd d t - Z))
        rw [one_div, ← div_eq_inv_mul]; exact this
      have huW : 1 / 2 ^ 53 * W ≤ 1 / 16 * W := by gcongr
      have pc := vz_piece hlo hhi hv1 hv2 hZ hZW hda haccW (x := fsub t (fsub (fadd d t) Z)) (xh := t - fsub (fadd d t) Z)
        (by rw [abs_le]; constructor <;> linarith) hxx
      have a1 : |(d + (t - fsub (fadd d t) Z) - Z) / v| ≤ 3 * (1 / 2 ^ 53 * W * (1 / vlo)) := by
        rw [abs_div, abs_of_pos hvp, div_eq_mul_one_div]
        have h1 : |d + (t - fsub (fadd d t) Z) - Z| ≤ 3 * (1 / 2 ^ 53 * W) := by rw [abs_le]; constructor <;> linarith
        have : |d + (t - fsub (fadd d t) Z) - Z| * (1 / v) ≤ 3 * (1 / 2 ^ 53 * W) * (1 / vlo) := by gcongr
        linarith
      have a2 : |(Z - d) / v - ttRec Z d ((t, v) :: rest)| ≤ 2 * (1 / 2 ^ 53 * W * (1 / vlo)) := by
        by_cases hr : rest = []
        · subst hr
          simp only [ttRec]; rw [max_eq_right (by linarith), sub_self, abs_zero]; positivity
        · rw [ttRec_cons_near hv0 hr hnn (fun r hr => (hvs' r hr).1) hv1 ht hdZ]
          rcases le_total (Z - d) t with c | c
          · rw [min_eq_left c, ttRec_zero_of_le Z (d + t) _ hnn (by linarith), add_zero, sub_self, abs_zero]; positivity
          · rw [min_eq_right c]
            have hgap : Z - (d + t) ≤ 2 * (1 / 2 ^ 53 * W) := by
              have := (abs_le.1 hd2).1
              linarith
            obtain ⟨g1, g2⟩ := ttRec_lip Z vlo hv0 rest (d + t) Z hnn (fun r hr => (hvs' r hr).1) (by linarith)
            rw [ttRec_zero_of_le Z Z _ hnn (le_refl _), sub_zero] at g1 g2
            have g3 : (Z - (d + t)) * (1 / vlo) ≤ 2 * (1 / 2 ^ 53 * W) * (1 / vlo) := by gcongr
            have g4 : 0 ≤ (Z - (d + t)) * (1 / v) := mul_nonneg (by linarith) (by positivity)
            have g5 : (Z - (d + t)) * (1 / v) ≤ (Z - (d + t)) * (1 / vlo) := mul_le_mul_of_nonneg_left e2 (by linarith)
            have e : (Z - d) / v - (t / v + ttRec Z (d + t) rest) = (Z - (d + t)) * (1 / v) - ttRec Z (d + t) rest := by ring
            rw [e, abs_le]
            constructor <;> linarith
      generalize fadd acc (fmul (fdiv 1 v) (fsub t (fsub (fadd d t) Z))) = c at *
      generalize fsub (fadd d t) Z = w at *
      have e4 : c - (acc + ttRec Z d ((t, v) :: rest))
          = (c - (acc + (t - w) / v)) + (d + (t - w) - Z) / v + ((Z - d) / v - ttRec Z d ((t, v) :: rest)) := by ring
      rw [e4]
      have b1 := abs_add_le ((c - (acc + (t - w) / v)) + (d + (t - w) - Z) / v) ((Z - d) / v - ttRec Z d ((t, v) :: rest))
      have b2 := abs_add_le (c - (acc + (t - w) / v)) ((d + (t - w) - Z) / v)
      have hlen : (0 : K) ≤ (((t, v) :: rest).length : K) := Nat.cast_nonneg _
      have : 30 * (1 / 2 ^ 53 * W * (1 / vlo)) ≤ 30 * ((((t, v) :: rest).length : K) + 1) * (1 / 2 ^ 53 * W * (1 / vlo)) := by
        have : (30 : K) ≤ 30 * ((((t, v) :: rest).length : K) + 1) := by linarith
        gcongr
      linarith

end Loop

end Verif
