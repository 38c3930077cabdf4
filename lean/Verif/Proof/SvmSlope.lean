import Verif.Proof.Svm
import Mathlib.Analysis.Complex.ExponentialBounds
import Mathlib.Analysis.Convex.SpecificFunctions.Basic
import Mathlib.Analysis.SpecialFunctions.Pow.Real

set_option linter.unusedSectionVars false
set_option linter.unusedVariables false

/-!
How fast the smooth velocities of the sediment velocity model grow with the trial value of Vs30, on an interval `[a, b]`.
-/

namespace Verif

/-! ### Numerical bounds from integer powers -/

theorem exp_le_of_pow {p q : ℕ} {r : ℝ} (hq : q ≠ 0) (hr : 0 ≤ r) (h : (2.7182818286 : ℝ) ^ p ≤ r ^ q) :
    Real.exp ((p : ℝ) / q) ≤ r := by
  have hq' : (q : ℝ) ≠ 0 := Nat.cast_ne_zero.2 hq
  rw [← pow_le_pow_iff_left₀ (Real.exp_pos _).le hr hq, ← Real.exp_nat_mul, mul_div_cancel₀ _ hq']
  rw [← mul_one (p : ℝ), Real.exp_nat_mul]
  exact (pow_le_pow_left₀ (Real.exp_pos _).le Real.exp_one_lt_d9.le p).trans h

theorem exp_neg_le_of_pow {p q : ℕ} {r : ℝ} (hq : q ≠ 0) (hr : 0 < r) (h : 1 ≤ r ^ q * (2.7182818283 : ℝ) ^ p) :
    Real.exp (-((p : ℝ) / q)) ≤ r := by
  have hq' : (q : ℝ) ≠ 0 := Nat.cast_ne_zero.2 hq
  rw [← pow_le_pow_iff_left₀ (Real.exp_pos _).le hr.le hq, ← Real.exp_nat_mul, mul_neg, mul_div_cancel₀ _ hq', Real.exp_neg]
  rw [inv_le_iff_one_le_mul₀ (Real.exp_pos _)]
  refine h.trans ?_
  rw [← mul_one (p : ℝ), Real.exp_nat_mul]
  exact mul_le_mul_of_nonneg_left (pow_le_pow_left₀ (by norm_num) Real.exp_one_gt_d9.le p) (by positivity)

theorem le_exp_neg_of_pow {p q : ℕ} {r : ℝ} (hq : q ≠ 0) (hr : 0 ≤ r) (h : r ^ q * (2.7182818286 : ℝ) ^ p ≤ 1) :
    r ≤ Real.exp (-((p : ℝ) / q)) := by
  have hq' : (q : ℝ) ≠ 0 := Nat.cast_ne_zero.2 hq
  rw [← pow_le_pow_iff_left₀ hr (Real.exp_pos _).le hq, ← Real.exp_nat_mul, mul_neg, mul_div_cancel₀ _ hq', Real.exp_neg]
  rw [← one_div, le_div_iff₀ (Real.exp_pos _)]
  refine le_trans ?_ h
  rw [← mul_one (p : ℝ), Real.exp_nat_mul]
  exact mul_le_mul_of_nonneg_left (pow_le_pow_left₀ (Real.exp_pos _).le Real.exp_one_lt_d9.le p) (by positivity)

theorem rpow_le_of_pow {x w : ℝ} {p q : ℕ} (hx : 0 ≤ x) (hw : 0 ≤ w) (hp : p ≠ 0) (h : x ^ q ≤ w ^ p) : x ^ ((q : ℝ) / p) ≤ w := by
  have hp' : (p : ℝ) ≠ 0 := Nat.cast_ne_zero.2 hp
  rw [← pow_le_pow_iff_left₀ (Real.rpow_nonneg hx _) hw hp, ← Real.rpow_natCast, ← Real.rpow_mul hx, div_mul_cancel₀ _ hp',
    Real.rpow_natCast]
  exact h

/-! ### The ingredients -/

theorem exp_sub_one_le {x : ℝ} (hx : 0 ≤ x) : Real.exp x ≤ 1 + x * Real.exp x := by
  have h := Real.add_one_le_exp (-x)
  have e : Real.exp x * Real.exp (-x) = 1 := by rw [← Real.exp_add]; simp
  nlinarith [Real.exp_pos x]

theorem one_add_rpow_le {x p : ℝ} (hx : 0 ≤ x) (hp0 : 0 ≤ p) (hp1 : p ≤ 1) : (1 + x) ^ p ≤ 1 + p * x :=
  rpow_one_add_le_one_add_mul_self (by linarith) hp0 hp1

/-- Growth of the velocity of the top layer. -/
theorem svmVs0_growth {a v w al : ℝ} (ha : 0 < a) (hav : a ≤ v) (hvw : v ≤ w) (hw : w ≤ 1000) (hal : 0 ≤ al)
    (h : 5182 / 10000 - 2 * (21688 / 10 ^ 8) * a ≤ al * svmVs0 a) :
    svmVs0 a ≤ svmVs0 v ∧ svmVs0 v ≤ svmVs0 w ∧ svmVs0 w ≤ svmVs0 v * (1 + al * (w - v)) := by
  have hmono : ∀ x y : ℝ, 0 < x → x ≤ y → y ≤ 1000 → svmVs0 x ≤ svmVs0 y := by
    intro x y hx hxy hy
    unfold svmVs0
    nlinarith [mul_nonneg (sub_nonneg.2 hxy) (show 0 ≤ 2000 - (x + y) by linarith)]
  have h1 := hmono a v ha hav (by linarith)
  refine ⟨h1, hmono v w (by linarith) hvw hw, ?_⟩
  have h2 : 5182 / 10000 - 2 * (21688 / 10 ^ 8) * a ≤ al * svmVs0 v := h.trans (mul_le_mul_of_nonneg_left h1 hal)
  have h3 : svmVs0 w - svmVs0 v = (5182 / 10000 - 21688 / 10 ^ 8 * (v + w)) * (w - v) := by unfold svmVs0; ring
  nlinarith [mul_le_mul_of_nonneg_right h2 (sub_nonneg.2 hvw), mul_nonneg (sub_nonneg.2 hvw) (show 0 ≤ (v + w) - 2 * a by linarith)]

theorem rpow_neg_drop {p v w : ℝ} (hp : 0 < p) (hv : 0 < v) (hvw : v ≤ w) : v ^ (-p) - w ^ (-p) ≤ p * v ^ (-p - 1) * (w - v) := by
  have hw : 0 < w := by linarith
  have e : w ^ (-p) = v ^ (-p) * (w / v) ^ (-p) := by
    rw [← Real.mul_rpow hv.le (by positivity), mul_div_cancel₀ _ hv.ne']
  have h1 : 1 - p * (w / v - 1) ≤ (w / v) ^ (-p) := by
    rw [Real.rpow_def_of_pos (by positivity)]
    have h2 := Real.add_one_le_exp (Real.log (w / v) * -p)
    have h3 := Real.log_le_sub_one_of_pos (show 0 < w / v by positivity)
    nlinarith
  have e2 : v ^ (-p - 1) = v ^ (-p) / v := by rw [Real.rpow_sub_one hv.ne']
  rw [e, e2]
  have h4 : 0 < v ^ (-p) := Real.rpow_pos_of_pos hv _
  have h5 : p * (v ^ (-p) / v) * (w - v) = v ^ (-p) * (p * (w / v - 1)) := by field_simp
  rw [h5]
  nlinarith

/-- Growth of `k`. -/
theorem svmK_growth {a b v w g E : ℝ} (ha : 0 < a) (hav : a ≤ v) (hvw : v ≤ w) (hwb : w ≤ b)
    (hg : 5967 / 100 * (2722 / 10000) * a ^ (-12722 / 10000 : ℝ) ≤ g) (hE : Real.exp (g * (b - a)) ≤ E) :
    svmK v ≤ svmK w ∧ svmK w ≤ svmK v * (1 + g * E * (w - v)) := by
  have hv : 0 < v := by linarith
  have hd := sub_nonneg.2 hvw
  have h1 := rpow_neg_drop (p := 2722 / 10000) (by norm_num) hv hvw
  have h2 : v ^ (-(2722 / 10000) - 1 : ℝ) ≤ a ^ (-12722 / 10000 : ℝ) := by
    rw [show (-(2722 / 10000) - 1 : ℝ) = -12722 / 10000 by norm_num]
    exact Real.rpow_le_rpow_of_nonpos ha hav (by norm_num)
  have h3 : w ^ (-(2722 / 10000) : ℝ) ≤ v ^ (-(2722 / 10000) : ℝ) := Real.rpow_le_rpow_of_nonpos hv hvw (by norm_num)
  have hg0 : 0 ≤ g := le_trans (by positivity) hg
  have e : (-2722 / 10000 : ℝ) = -(2722 / 10000) := by norm_num
  unfold svmK
  rw [e]
  constructor
  · apply Real.exp_le_exp.2
    nlinarith
  · have h4 : 5967 / 100 * (v ^ (-(2722 / 10000) : ℝ) - w ^ (-(2722 / 10000) : ℝ)) ≤ g * (w - v) := by
      have : 5967 / 100 * (2722 / 10000 * v ^ (-(2722 / 10000) - 1 : ℝ)) ≤ g := le_trans (by nlinarith) hg
      nlinarith [mul_le_mul_of_nonneg_right this hd]
    have h5 : Real.exp (g * (w - v)) ≤ 1 + g * E * (w - v) := by
      refine (exp_sub_one_le (by positivity)).trans ?_
      have h6 : Real.exp (g * (w - v)) ≤ E := le_trans (Real.exp_le_exp.2 (by nlinarith)) hE
      nlinarith [mul_le_mul_of_nonneg_left h6 (show 0 ≤ g * (w - v) by positivity)]
    refine le_trans ?_ (mul_le_mul_of_nonneg_left h5 (Real.exp_pos _).le)
    rw [← Real.exp_add]
    apply Real.exp_le_exp.2
    linarith

/-- `n` decreases slowly, if at all. -/
theorem svmN_drop {v w : ℝ} (hv : 0 < v) (hvw : v ≤ w) :
    svmN v - svmN w ≤ 4110 / 1000 * (10521 / 10 ^ 8) * (w - v) := by
  have hd := sub_nonneg.2 hvw
  have h1 : Real.exp (-10521 / 10 ^ 8 * v) - Real.exp (-10521 / 10 ^ 8 * w) ≤ 10521 / 10 ^ 8 * (w - v) := by
    have e : Real.exp (-10521 / 10 ^ 8 * w) = Real.exp (-10521 / 10 ^ 8 * v) * Real.exp (-(10521 / 10 ^ 8 * (w - v))) := by
      rw [← Real.exp_add]; congr 1; ring
    have h2 := Real.add_one_le_exp (-(10521 / 10 ^ 8 * (w - v)))
    have h3 : Real.exp (-10521 / 10 ^ 8 * v) ≤ 1 := Real.exp_le_one_iff.2 (by nlinarith)
    have h4 := Real.exp_pos (-10521 / 10 ^ 8 * v)
    rw [e]
    have h5 : 0 ≤ 10521 / 10 ^ 8 * (w - v) := by positivity
    nlinarith
  have h2 : Real.exp (-76187 / 10 ^ 7 * w) ≤ Real.exp (-76187 / 10 ^ 7 * v) := Real.exp_le_exp.2 (by nlinarith)
  unfold svmN
  have h3 : 0 ≤ 4110 / 1000 * (10521 / 10 ^ 8) * (w - v) := by positivity
  rw [sub_le_iff_le_add]
  apply max_le
  · linarith [le_max_left 1 (4110 / 1000 * Real.exp (-10521 / 10 ^ 8 * w) + -10827 / 1000 * Real.exp (-76187 / 10 ^ 7 * w))]
  · linarith [le_max_right 1 (4110 / 1000 * Real.exp (-10521 / 10 ^ 8 * w) + -10827 / 1000 * Real.exp (-76187 / 10 ^ 7 * w))]

/-- Growth of the factor of depth. -/
theorem svm_depth_growth {a b v w g E kb nm W z : ℝ} (ha : 0 < a) (hav : a ≤ v) (hvw : v ≤ w) (hwb : w ≤ b) (hb : b ≤ 1000)
    (hg : 5967 / 100 * (2722 / 10000) * a ^ (-12722 / 10000 : ℝ) ≤ g) (hE : Real.exp (g * (b - a)) ≤ E)
    (hk : svmK b ≤ kb) (hnm : 1 ≤ nm) (hnv : nm ≤ svmN v) (hnw : nm ≤ svmN w)
    (hW : (1 + 276 / 10 * kb) ^ (1 / nm) ≤ W) (hz : 0 ≤ z) (hz2 : z ≤ 276 / 10) :
    (1 + svmK w * z) ^ (1 / svmN w) ≤ W ∧
    (1 + svmK w * z) ^ (1 / svmN w) ≤ (1 + svmK v * z) ^ (1 / svmN v) *
      ((1 + 276 / 10 * kb / (1 + 276 / 10 * kb) * g * E / nm * (w - v)) *
        (1 + 4110 / 1000 * (10521 / 10 ^ 8) * (W - 1) / nm * (w - v))) := by
  have hd := sub_nonneg.2 hvw
  have hv : 0 < v := by linarith
  obtain ⟨k1, k2⟩ := svmK_growth ha hav hvw hwb hg hE
  have kwb := (svmK_growth ha (hav.trans hvw) hwb le_rfl hg hE).1
  have hkv := svmK_pos v
  have hkw := svmK_pos w
  have hkb : 0 < kb := lt_of_lt_of_le (svmK_pos b) hk
  have hg0 : 0 ≤ g := le_trans (by positivity) hg
  have hE0 : 0 ≤ E := le_trans (Real.exp_pos _).le hE
  have hnv1 := svmN_ge v
  have hnw1 := svmN_ge w
  have hX : 1 + svmK w * z ≤ 1 + 276 / 10 * kb := by
    have : svmK w * z ≤ kb * (276 / 10) := mul_le_mul (kwb.trans hk) hz2 hz hkb.le
    linarith
  have hXv : 1 + svmK v * z ≤ 1 + 276 / 10 * kb := by
    have : svmK v * z ≤ kb * (276 / 10) := mul_le_mul (k1.trans (kwb.trans hk)) hz2 hz hkb.le
    linarith
  have hw1 : 1 ≤ 1 + svmK w * z := by nlinarith [mul_nonneg hkw.le hz]
  have hv1 : 1 ≤ 1 + svmK v * z := by nlinarith [mul_nonneg hkv.le hz]
  have hB1 : 1 ≤ 1 + 276 / 10 * kb := by linarith
  have hW1 : 1 ≤ W := le_trans (Real.one_le_rpow hB1 (by positivity)) hW
  have inv_le : ∀ n : ℝ, nm ≤ n → 1 / n ≤ 1 / nm := fun n hn => one_div_le_one_div_of_le (by linarith) hn
  constructor
  · calc (1 + svmK w * z) ^ (1 / svmN w) ≤ (1 + svmK w * z) ^ (1 / nm) := Real.rpow_le_rpow_of_exponent_le hw1 (inv_le _ hnw)
      _ ≤ (1 + 276 / 10 * kb) ^ (1 / nm) := Real.rpow_le_rpow (by linarith) hX (by positivity)
      _ ≤ W := hW
  -- the exponent of `v`
  set q := 276 / 10 * kb / (1 + 276 / 10 * kb) * g * E with hq
  have hq0 : 0 ≤ q := by positivity
  have hstep : 1 + svmK w * z ≤ (1 + svmK v * z) * (1 + q * (w - v)) := by
    have h1 : svmK v * z ≤ 276 / 10 * kb / (1 + 276 / 10 * kb) * (1 + svmK v * z) := by
      rw [div_mul_eq_mul_div, le_div_iff₀ (by linarith)]
      nlinarith
    have h2 : svmK w * z ≤ svmK v * (1 + g * E * (w - v)) * z := mul_le_mul_of_nonneg_right k2 hz
    have h3 : 0 ≤ g * E * (w - v) := by positivity
    have h4 := mul_le_mul_of_nonneg_right h1 h3
    rw [hq]
    nlinarith
  have e1 : (1 + svmK w * z) ^ (1 / svmN v) ≤ (1 + svmK v * z) ^ (1 / svmN v) * (1 + q / nm * (w - v)) := by
    calc (1 + svmK w * z) ^ (1 / svmN v) ≤ ((1 + svmK v * z) * (1 + q * (w - v))) ^ (1 / svmN v) :=
          Real.rpow_le_rpow (by linarith) hstep (by positivity)
      _ = (1 + svmK v * z) ^ (1 / svmN v) * (1 + q * (w - v)) ^ (1 / svmN v) := Real.mul_rpow (by linarith) (by positivity)
      _ ≤ (1 + svmK v * z) ^ (1 / svmN v) * (1 + 1 / svmN v * (q * (w - v))) := by
          apply mul_le_mul_of_nonneg_left _ (by positivity)
          exact one_add_rpow_le (by positivity) (by positivity) (by rw [div_le_one (by linarith)]; exact hnv1)
      _ ≤ _ := by
          apply mul_le_mul_of_nonneg_left _ (by positivity)
          have := mul_le_mul_of_nonneg_right (inv_le _ hnv) (show 0 ≤ q * (w - v) by positivity)
          have e : q / nm * (w - v) = 1 / nm * (q * (w - v)) := by ring
          linarith
  -- the change of the exponent
  set nu : ℝ := 4110 / 1000 * (10521 / 10 ^ 8) with hnu
  have hdrop := svmN_drop hv hvw
  have hexp : 1 / svmN w - 1 / svmN v ≤ nu / nm ^ 2 * (w - v) := by
    have h1 : 1 / svmN w - 1 / svmN v = (svmN v - svmN w) / (svmN v * svmN w) := by
      field_simp
    rw [h1]
    have h2 : nm ^ 2 ≤ svmN v * svmN w := by nlinarith
    calc (svmN v - svmN w) / (svmN v * svmN w) ≤ nu * (w - v) / (svmN v * svmN w) :=
          div_le_div_of_nonneg_right hdrop (by positivity)
      _ ≤ nu * (w - v) / nm ^ 2 := div_le_div_of_nonneg_left (by positivity) (by positivity) h2
      _ = nu / nm ^ 2 * (w - v) := by ring
  have e2 : (1 + svmK w * z) ^ (1 / svmN w - 1 / svmN v) ≤ 1 + nu * (W - 1) / nm * (w - v) := by
    calc (1 + svmK w * z) ^ (1 / svmN w - 1 / svmN v) ≤ (1 + svmK w * z) ^ (nu / nm ^ 2 * (w - v)) :=
          Real.rpow_le_rpow_of_exponent_le hw1 hexp
      _ ≤ (1 + 276 / 10 * kb) ^ (nu / nm ^ 2 * (w - v)) := Real.rpow_le_rpow (by linarith) hX (by positivity)
      _ = ((1 + 276 / 10 * kb) ^ (1 / nm)) ^ (nu / nm * (w - v)) := by
          rw [← Real.rpow_mul (by linarith)]
          congr 1
          field_simp
      _ ≤ W ^ (nu / nm * (w - v)) := Real.rpow_le_rpow (by positivity) hW (by positivity)
      _ = (1 + (W - 1)) ^ (nu / nm * (w - v)) := by rw [add_sub_cancel]
      _ ≤ 1 + nu / nm * (w - v) * (W - 1) := by
          apply one_add_rpow_le (by linarith) (by positivity)
          have h1 : nu / nm ≤ nu := div_le_self (by positivity) hnm
          have h2 : nu / nm * (w - v) ≤ nu * 1000 := mul_le_mul h1 (by linarith) hd (by positivity)
          have h3 : nu * 1000 ≤ 1 := by rw [hnu]; norm_num
          linarith
      _ = _ := by ring
  calc (1 + svmK w * z) ^ (1 / svmN w) = (1 + svmK w * z) ^ (1 / svmN v) * (1 + svmK w * z) ^ (1 / svmN w - 1 / svmN v) := by
        rw [← Real.rpow_add (by linarith)]
        congr 1
        ring
    _ ≤ ((1 + svmK v * z) ^ (1 / svmN v) * (1 + q / nm * (w - v))) * (1 + nu * (W - 1) / nm * (w - v)) :=
        mul_le_mul e1 e2 (by positivity) (by positivity)
    _ = _ := by ring

/-- Growth of the smooth velocities on `[a, b]`: bounded by `1 + c (w - v)` with `c` times the velocity at most 5. -/
theorem svm_piece {a b g E kb nm W al : ℝ} (ha : 0 < a) (hb : b ≤ 1000)
    (hg : 5967 / 100 * (2722 / 10000) * a ^ (-12722 / 10000 : ℝ) ≤ g) (hE : Real.exp (g * (b - a)) ≤ E)
    (hk : svmK b ≤ kb) (hnm : 1 ≤ nm) (hn : ∀ v, a ≤ v → v ≤ b → nm ≤ svmN v)
    (hW : (1 + 276 / 10 * kb) ^ (1 / nm) ≤ W) (hal : 0 ≤ al) (halv : 5182 / 10000 - 2 * (21688 / 10 ^ 8) * a ≤ al * svmVs0 a)
    (be ga : ℝ) (hbe : be = 276 / 10 * kb / (1 + 276 / 10 * kb) * g * E / nm)
    (hga : ga = 4110 / 1000 * (10521 / 10 ^ 8) * (W - 1) / nm)
    (hc : (al + be + ga + (al * be + be * ga + al * ga) * (b - a) + al * be * ga * (b - a) ^ 2) * (svmVs0 b * W) ≤ 5) :
    ∃ c, 0 ≤ c ∧ c * (svmVs0 b * W) ≤ 5 ∧ ∀ v w z, a ≤ v → v ≤ w → w ≤ b → 0 ≤ z → z ≤ 276 / 10 →
      svmAt w z ≤ svmVs0 b * W ∧ svmAt w z ≤ svmAt v z * (1 + c * (w - v)) := by
  rcases lt_or_ge b a with hba | hab
  · exact ⟨0, le_rfl, by norm_num, fun v w z h1 h2 h3 => by linarith⟩
  have hkb : 0 < kb := lt_of_lt_of_le (svmK_pos b) hk
  have hg0 : 0 ≤ g := le_trans (by positivity) hg
  have hE0 : 0 ≤ E := le_trans (Real.exp_pos _).le hE
  have hW1 : 1 ≤ W := le_trans (Real.one_le_rpow (by linarith) (by positivity)) hW
  have hbe0 : 0 ≤ be := by rw [hbe]; positivity
  have hga0 : 0 ≤ ga := by
    rw [hga]
    exact div_nonneg (mul_nonneg (by norm_num) (by linarith)) (by linarith)
  have hL : 0 ≤ b - a := by linarith
  refine ⟨_, ?_, hc, ?_⟩
  · positivity
  intro v w z hav hvw hwb hz hz2
  have hv : 0 < v := by linarith
  have hd := sub_nonneg.2 hvw
  obtain ⟨d1, d2⟩ := svm_depth_growth ha hav hvw hwb hb hg hE hk hnm (hn v hav (by linarith)) (hn w (by linarith) hwb) hW hz hz2
  obtain ⟨s1, s2, s3⟩ := svmVs0_growth ha hav hvw (by linarith) hal halv
  have s4 := (svmVs0_growth ha (hav.trans hvw) hwb hb hal halv).2.1
  have hvp : 0 < svmVs0 v := svmVs0_pos hv (by linarith)
  have hkw := svmK_pos w
  have hkv := svmK_pos v
  have hpw : 0 < (1 + svmK w * z) ^ (1 / svmN w) := Real.rpow_pos_of_pos (by positivity) _
  have hpv : 0 < (1 + svmK v * z) ^ (1 / svmN v) := Real.rpow_pos_of_pos (by positivity) _
  unfold svmAt
  refine ⟨mul_le_mul s4 d1 hpw.le (by linarith), ?_⟩
  rw [← hbe, ← hga] at d2
  have hlen : w - v ≤ b - a := by linarith
  have hprod : (1 + al * (w - v)) * ((1 + be * (w - v)) * (1 + ga * (w - v))) ≤
      1 + (al + be + ga + (al * be + be * ga + al * ga) * (b - a) + al * be * ga * (b - a) ^ 2) * (w - v) := by
    have e : (1 + al * (w - v)) * ((1 + be * (w - v)) * (1 + ga * (w - v))) =
        1 + (al + be + ga + (al * be + be * ga + al * ga) * (w - v) + al * be * ga * (w - v) ^ 2) * (w - v) := by ring
    rw [e]
    have h1 : (al * be + be * ga + al * ga) * (w - v) ≤ (al * be + be * ga + al * ga) * (b - a) :=
      mul_le_mul_of_nonneg_left hlen (by positivity)
    have h2 : al * be * ga * (w - v) ^ 2 ≤ al * be * ga * (b - a) ^ 2 :=
      mul_le_mul_of_nonneg_left (pow_le_pow_left₀ hd hlen 2) (by positivity)
    have h3 := mul_le_mul_of_nonneg_right (add_le_add h1 h2) hd
    linarith
  calc svmVs0 w * (1 + svmK w * z) ^ (1 / svmN w) ≤ (svmVs0 v * (1 + al * (w - v))) *
        ((1 + svmK v * z) ^ (1 / svmN v) * ((1 + be * (w - v)) * (1 + ga * (w - v)))) :=
        mul_le_mul s3 d2 hpw.le (mul_nonneg hvp.le (by positivity))
    _ = svmVs0 v * (1 + svmK v * z) ^ (1 / svmN v) * ((1 + al * (w - v)) * ((1 + be * (w - v)) * (1 + ga * (w - v)))) := by ring
    _ ≤ _ := mul_le_mul_of_nonneg_left hprod (by positivity)

end Verif
