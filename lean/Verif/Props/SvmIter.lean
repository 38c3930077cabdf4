import Verif.Proof.SvmSlope
import Verif.Props.SvmDisc
import Verif.Props.SvmRand
import Mathlib.Algebra.BigOperators.Field

set_option linter.unusedSectionVars false
set_option linter.unusedVariables false

/-!
Property C109: the iteration over trial values of Vs30 ends.
-/

namespace Verif

open Spec

/-! ### Vs30 of the smooth profile as a function of the trial value -/

/-- The uncapped profile for the trial value `v`. -/
noncomputable def svmTrial (z1 v : ℝ) : List (ℝ × ℝ) :=
  (24 / 10, svmVs0 v) :: (List.replicate (svmCount z1 - 1) (1 / 10 : ℝ) ++ [0]).zip (svmSmooth v z1)

theorem svmTrial_thk {z1 : ℝ} (hz : 25 / 10 < z1) (v : ℝ) :
    (svmTrial z1 v).map Prod.fst = 24 / 10 :: (List.replicate (svmCount z1 - 1) (1 / 10 : ℝ) ++ [0]) := by
  obtain ⟨h2, _⟩ := svmCount_bounds hz
  unfold svmTrial
  rw [List.map_cons, List.map_fst_zip (by rw [svmSmooth_length]; simp; omega)]

theorem svmTrial_vs {z1 : ℝ} (hz : 25 / 10 < z1) (v : ℝ) : (svmTrial z1 v).map Prod.snd = svmVs0 v :: svmSmooth v z1 := by
  obtain ⟨h2, _⟩ := svmCount_bounds hz
  unfold svmTrial
  rw [List.map_cons, List.map_snd_zip (by rw [svmSmooth_length]; simp; omega)]

theorem svmTrial_length {z1 : ℝ} (hz : 25 / 10 < z1) (v : ℝ) : (svmTrial z1 v).length = svmCount z1 + 1 := by
  have := congrArg List.length (svmTrial_vs hz v)
  simpa [svmSmooth_length] using this

/-- Depth at which the formula is evaluated for row `i`. -/
noncomputable def svmZ (i : ℕ) : ℝ := ((i - 1 : ℕ) : ℝ) * (1 / 10)

theorem svmTrial_at {z1 : ℝ} (hz : 25 / 10 < z1) (v : ℝ) (i : ℕ) (hi : i < svmCount z1 + 1) :
    ((svmTrial z1 v).map Prod.snd).getD i 0 = svmAt v (svmZ i) := by
  rw [svmTrial_vs hz, List.getD_eq_getElem?_getD]
  cases i with
  | zero => simp [svmZ, svmAt_zero]
  | succ j =>
    rw [List.getElem?_cons_succ, svmSmooth_get v z1 j (by omega)]
    simp [svmZ]

theorem svmTrial_top {z1 : ℝ} (hz : 25 / 10 < z1) (v : ℝ) (i : ℕ) (hi : i < svmCount z1 + 1) :
    svmZ i ≤ topDepth ((svmTrial z1 v).map Prod.fst) i ∧ (0 < i → topDepth ((svmTrial z1 v).map Prod.fst) i = 24 / 10 + svmZ i) := by
  have key : 0 < i → topDepth ((svmTrial z1 v).map Prod.fst) i = 24 / 10 + svmZ i := by
    intro h0
    obtain ⟨j, rfl⟩ := Nat.exists_eq_succ_of_ne_zero h0.ne'
    rw [svmTrial_thk hz]
    unfold topDepth
    rw [List.take_succ_cons, List.sum_cons, List.take_append_of_le_length (by simp; omega)]
    simp [svmZ]
    omega
  refine ⟨?_, key⟩
  rcases Nat.eq_zero_or_pos i with rfl | h
  · simp [svmZ, topDepth]
  · rw [key h]; linarith

/-- Length of row `i` above 30 m. -/
noncomputable def svmH (z1 : ℝ) (i : ℕ) : ℝ := overlap (24 / 10 :: (List.replicate (svmCount z1 - 1) (1 / 10 : ℝ) ++ [0])) i 30

theorem svmTime {z1 : ℝ} (hz : 25 / 10 < z1) (v : ℝ) :
    travelTime (svmTrial z1 v) 30 = ∑ i ∈ Finset.range (svmCount z1 + 1), svmH z1 i / svmAt v (svmZ i) := by
  unfold travelTime
  rw [svmTrial_length hz]
  refine Finset.sum_congr rfl fun i hi => ?_
  rw [svmTrial_at hz v i (Finset.mem_range.1 hi), svmTrial_thk hz]
  rfl

theorem svmH_nonneg (z1 : ℝ) (i : ℕ) : 0 ≤ svmH z1 i := by
  unfold svmH overlap
  split_ifs <;> exact le_max_left _ _

theorem svmH_depth {z1 : ℝ} (hz : 25 / 10 < z1) (i : ℕ) (hi : i < svmCount z1 + 1) (h : svmH z1 i ≠ 0) : svmZ i ≤ 276 / 10 := by
  by_contra hc
  rw [not_le] at hc
  apply h
  have hi0 : 0 < i := by
    rcases Nat.eq_zero_or_pos i with rfl | h0
    · exfalso; simp [svmZ] at hc; linarith
    · exact h0
  have ht := (svmTrial_top hz 0 i hi).2 hi0
  rw [svmTrial_thk hz] at ht
  unfold svmH overlap
  split_ifs
  · apply max_eq_left
    have : min (30 : ℝ) (topDepth (24 / 10 :: (List.replicate (svmCount z1 - 1) (1 / 10 : ℝ) ++ [0])) (i + 1)) ≤ 30 := min_le_left _ _
    linarith
  · apply max_eq_left
    linarith

theorem svmH_sum {z1 : ℝ} (hz : 25 / 10 < z1) : ∑ i ∈ Finset.range (svmCount z1 + 1), svmH z1 i = 30 := by
  obtain ⟨h2, _⟩ := svmCount_bounds hz
  set thk : List ℝ := 24 / 10 :: (List.replicate (svmCount z1 - 1) (1 / 10 : ℝ) ++ [0]) with hthk
  have hlen : thk.length = svmCount z1 + 1 := by rw [hthk]; simp; omega
  have e : travelTime (thk.map fun t => (t, (1 : ℝ))) 30 = ∑ i ∈ Finset.range (svmCount z1 + 1), svmH z1 i := by
    unfold travelTime
    rw [List.length_map, hlen]
    refine Finset.sum_congr rfl fun i hi => ?_
    have hi' : i < thk.length := by rw [hlen]; exact Finset.mem_range.1 hi
    have h1 : (thk.map fun t => (t, (1 : ℝ))).map Prod.fst = thk := by simp [Function.comp_def]
    rw [h1, List.getD_eq_getElem?_getD, List.getElem?_map, List.getElem?_map, List.getElem?_eq_getElem hi']
    simp [svmH, hthk]
  rw [← e, travelTime_eq_ttRec]
  have hb := ttRec_bounds (30 : ℝ) 0 (thk.map fun t => (t, (1 : ℝ))) (by rw [hthk]; simp) (by
    intro r hr
    obtain ⟨t, ht, rfl⟩ := List.mem_map.1 hr
    rw [hthk] at ht
    rcases List.mem_cons.1 ht with rfl | ht
    · norm_num
    · rcases List.mem_append.1 ht with ht | ht
      · rw [List.eq_of_mem_replicate ht]; norm_num
      · rw [List.mem_singleton.1 ht]) (by norm_num) 1 1 (by norm_num) (by
    intro r hr
    obtain ⟨t, ht, rfl⟩ := List.mem_map.1 hr
    exact ⟨le_rfl, le_rfl⟩)
  norm_num at hb
  exact le_antisymm hb.2 hb.1

/-- Vs30 of the smooth profile for the trial value `v`. -/
noncomputable def svmVs30 (z1 v : ℝ) : ℝ := 30 / travelTime (svmTrial z1 v) 30

theorem svmAt_pos {v z : ℝ} (hv : 0 < v) (hv2 : v ≤ 2500) (hz : 0 ≤ z) : 0 < svmAt v z := by
  have h := svmVs0_pos hv hv2
  have := svmAt_mono (x := 0) (y := z) h le_rfl hz
  rw [svmAt_zero] at this
  linarith

theorem svmZ_nonneg (i : ℕ) : 0 ≤ svmZ i := by unfold svmZ; positivity

/-- On `[a, b]` Vs30 of the smooth profile grows by at most 5 m/s per m/s. -/
def SlopeOn (a b : ℝ) : Prop :=
  ∀ z1 v w, 25 / 10 < z1 → a ≤ v → v ≤ w → w ≤ b → svmVs30 z1 w ≤ svmVs30 z1 v + 5 * (w - v)

theorem SlopeOn.trans {a b c : ℝ} (h1 : SlopeOn a b) (h2 : SlopeOn b c) : SlopeOn a c := by
  intro z1 v w hz hv hvw hw
  rcases le_total w b with hb | hb
  · exact h1 z1 v w hz hv hvw hb
  rcases le_total b v with hb' | hb'
  · exact h2 z1 v w hz hb' hvw hw
  have e1 := h1 z1 v b hz hv hb' le_rfl
  have e2 := h2 z1 b w hz le_rfl hb hw
  linarith

theorem slopeOn_of {a b U : ℝ} (ha : 0 < a) (hb : b ≤ 1000)
    (h : ∃ c, 0 ≤ c ∧ c * U ≤ 5 ∧ ∀ v w z, a ≤ v → v ≤ w → w ≤ b → 0 ≤ z → z ≤ 276 / 10 →
      svmAt w z ≤ U ∧ svmAt w z ≤ svmAt v z * (1 + c * (w - v))) : SlopeOn a b := by
  obtain ⟨c, hc0, hcU, h⟩ := h
  intro z1 v w hz hv hvw hw
  have hd := sub_nonneg.2 hvw
  have hv0 : 0 < v := by linarith
  have pos : ∀ x i, 0 < x → x ≤ 1000 → 0 < svmAt x (svmZ i) := fun x i h0 h1 => svmAt_pos h0 (by linarith) (svmZ_nonneg i)
  have hU : 0 < U := lt_of_lt_of_le (pos v 0 hv0 (by linarith))
    (h v v (svmZ 0) hv le_rfl (by linarith) (svmZ_nonneg 0) (by simp [svmZ]; norm_num)).1
  have hTv : 30 / U ≤ travelTime (svmTrial z1 v) 30 := by
    rw [svmTime hz, ← svmH_sum hz, Finset.sum_div]
    refine Finset.sum_le_sum fun i hi => ?_
    rcases eq_or_ne (svmH z1 i) 0 with h0 | h0
    · rw [h0]; simp
    · have := (h v v (svmZ i) hv le_rfl (by linarith) (svmZ_nonneg i) (svmH_depth hz i (Finset.mem_range.1 hi) h0)).1
      exact div_le_div_of_nonneg_left (svmH_nonneg z1 i) (pos v i hv0 (by linarith)) this
  have hTv0 : 0 < travelTime (svmTrial z1 v) 30 := lt_of_lt_of_le (by positivity) hTv
  have hTw : travelTime (svmTrial z1 v) 30 ≤ travelTime (svmTrial z1 w) 30 * (1 + c * (w - v)) := by
    rw [svmTime hz, svmTime hz, Finset.sum_mul]
    refine Finset.sum_le_sum fun i hi => ?_
    rcases eq_or_ne (svmH z1 i) 0 with h0 | h0
    · rw [h0]; simp
    · have := (h v w (svmZ i) hv hvw hw (svmZ_nonneg i) (svmH_depth hz i (Finset.mem_range.1 hi) h0)).2
      have pv := pos v i hv0 (by linarith)
      have pw := pos w i (by linarith) (by linarith)
      rw [div_mul_eq_mul_div, div_le_div_iff₀ pv pw]
      nlinarith [mul_le_mul_of_nonneg_left this (svmH_nonneg z1 i)]
  have hTw0 : 0 < travelTime (svmTrial z1 w) 30 := by
    by_contra hn
    rw [not_lt] at hn
    have : travelTime (svmTrial z1 w) 30 * (1 + c * (w - v)) ≤ 0 := mul_nonpos_of_nonpos_of_nonneg hn (by positivity)
    linarith
  have hup : svmVs30 z1 v ≤ U := by
    unfold svmVs30
    rw [div_le_iff₀ hTv0]
    rw [div_le_iff₀ hU] at hTv
    linarith
  have hw' : svmVs30 z1 w ≤ svmVs30 z1 v * (1 + c * (w - v)) := by
    unfold svmVs30
    rw [div_mul_eq_mul_div, div_le_div_iff₀ hTw0 hTv0]
    nlinarith
  have : svmVs30 z1 v * c ≤ 5 := by nlinarith
  nlinarith [mul_le_mul_of_nonneg_right this hd]

/-! ### Numbers -/

theorem exp_le_of {x y r : ℝ} (h : y ≤ x) (hx : Real.exp x ≤ r) : Real.exp y ≤ r := (Real.exp_le_exp.2 h).trans hx

theorem svmK_le {b y x kb : ℝ} (hb : 1 ≤ b) (hy : 0 ≤ y) (h : y ^ 180 * b ^ 49 ≤ 1) (hx : -5967 / 100 * y + 11132 / 1000 ≤ x)
    (hk : Real.exp x ≤ kb) : svmK b ≤ kb := by
  have hb0 : 0 < b := by linarith
  have h1 : y ≤ b ^ (-(49 / 180) : ℝ) := by
    rw [← pow_le_pow_iff_left₀ hy (Real.rpow_nonneg hb0.le _) (show 180 ≠ 0 by norm_num), ← Real.rpow_natCast (b ^ _),
      ← Real.rpow_mul hb0.le, show -(49 / 180) * ((180 : ℕ) : ℝ) = -((49 : ℕ) : ℝ) by norm_num, Real.rpow_neg hb0.le,
      Real.rpow_natCast, ← one_div, le_div_iff₀ (by positivity)]
    exact h
  have h2 : b ^ (-(49 / 180) : ℝ) ≤ b ^ (-2722 / 10000 : ℝ) := Real.rpow_le_rpow_of_exponent_le hb (by norm_num)
  unfold svmK
  exact exp_le_of (by linarith) hk

theorem svmG_le {a r g : ℝ} (ha : 1 ≤ a) (hr : 0 < r) (h : 1 ≤ r ^ 125 * a ^ 159) (hg : 5967 / 100 * (2722 / 10000) * r ≤ g) :
    5967 / 100 * (2722 / 10000) * a ^ (-12722 / 10000 : ℝ) ≤ g := by
  have ha0 : 0 < a := by linarith
  have h1 : a ^ (-(159 / 125) : ℝ) ≤ r := by
    rw [← pow_le_pow_iff_left₀ (Real.rpow_nonneg ha0.le _) hr.le (show 125 ≠ 0 by norm_num), ← Real.rpow_natCast (a ^ _),
      ← Real.rpow_mul ha0.le, show -(159 / 125) * ((125 : ℕ) : ℝ) = -((159 : ℕ) : ℝ) by norm_num, Real.rpow_neg ha0.le,
      Real.rpow_natCast, ← one_div, div_le_iff₀ (by positivity)]
    exact h
  have h2 : a ^ (-12722 / 10000 : ℝ) ≤ a ^ (-(159 / 125) : ℝ) := Real.rpow_le_rpow_of_exponent_le ha (by norm_num)
  linarith

theorem rpow_inv_le {x nm w : ℝ} {p q : ℕ} (hx : 0 ≤ x) (hw : 0 ≤ w) (hp : p ≠ 0) (hq : q ≠ 0) (hnm : nm = (p : ℝ) / q)
    (h : x ^ q ≤ w ^ p) : x ^ (1 / nm) ≤ w := by
  rw [hnm, one_div_div]
  exact rpow_le_of_pow hx hw hp h

theorem svmN_high {a b s nm : ℝ} (ha : 0 ≤ a) (hb : b ≤ 1000) (hs : Real.exp (-76187 / 10 ^ 7 * a) ≤ s)
    (h : nm ≤ 4110 / 1000 * (1 - 10521 / 10 ^ 8 * b) - 10827 / 1000 * s) : ∀ v, a ≤ v → v ≤ b → nm ≤ svmN v := by
  intro v hav hvb
  have h1 := Real.add_one_le_exp (-10521 / 10 ^ 8 * v)
  have h2 : Real.exp (-76187 / 10 ^ 7 * v) ≤ Real.exp (-76187 / 10 ^ 7 * a) := Real.exp_le_exp.2 (by linarith)
  refine le_trans ?_ (le_max_right _ _)
  linarith

theorem svmN_low {a b s nm : ℝ} (ha : 0 ≤ a) (hb : b ≤ 680) (hs : Real.exp (-76187 / 10 ^ 7 * a) ≤ s)
    (h : nm ≤ 4110 / 1000 * (1 - 10521 / 10 ^ 8 * a) - 10827 / 1000 * s) : ∀ v, a ≤ v → v ≤ b → nm ≤ svmN v := by
  intro v hav hvb
  have hd := sub_nonneg.2 hav
  have h1 := Real.add_one_le_exp (-10521 / 10 ^ 8 * v)
  have h3 : (525 / 100000 : ℝ) ≤ Real.exp (-76187 / 10 ^ 7 * v) := by
    have : (525 / 100000 : ℝ) ≤ Real.exp (-(((104 : ℕ) : ℝ) / (20 : ℕ))) := le_exp_neg_of_pow (by norm_num) (by norm_num) (by norm_num)
    refine this.trans (Real.exp_le_exp.2 ?_)
    push_cast
    linarith
  have h4 : Real.exp (-76187 / 10 ^ 7 * v) * (76187 / 10 ^ 7 * (v - a)) ≤ Real.exp (-76187 / 10 ^ 7 * a) - Real.exp (-76187 / 10 ^ 7 * v) := by
    have e : Real.exp (-76187 / 10 ^ 7 * a) = Real.exp (-76187 / 10 ^ 7 * v) * Real.exp (76187 / 10 ^ 7 * (v - a)) := by
      rw [← Real.exp_add]; congr 1; ring
    have h5 := Real.add_one_le_exp (76187 / 10 ^ 7 * (v - a))
    rw [e]
    nlinarith [Real.exp_pos (-76187 / 10 ^ 7 * v)]
  have h6 : 525 / 100000 * (76187 / 10 ^ 7 * (v - a)) ≤ Real.exp (-76187 / 10 ^ 7 * v) * (76187 / 10 ^ 7 * (v - a)) :=
    mul_le_mul_of_nonneg_right h3 (by positivity)
  refine le_trans ?_ (le_max_right _ _)
  linarith

theorem svm_slope_130 : SlopeOn 130 148 := by
  refine slopeOn_of (by norm_num) (by norm_num) (svm_piece (g := (133 / 4000)) (E := (1823 / 1000)) (kb := (77 / 5000)) (nm := 1) (W := (713 / 500)) (al := (3469 / 1000000))
    (by norm_num) (by norm_num) (svmG_le (r := (2047 / 1000000)) (by norm_num) (by norm_num) (by norm_num) (by norm_num))
    (exp_le_of (x := ((24 : ℕ) / (40 : ℕ) : ℝ)) (by norm_num) (exp_le_of_pow (by norm_num) (by norm_num) (by norm_num)))
    (svmK_le (y := (25657 / 100000)) (by norm_num) (by norm_num) (by norm_num) (x := -((167 : ℕ) / (40 : ℕ) : ℝ)) (by norm_num) (exp_neg_le_of_pow (by norm_num) (by norm_num) (by norm_num)))
    (by norm_num) (fun v _ _ => svmN_ge v)
    (rpow_inv_le (p := 20) (q := 20) (by norm_num) (by norm_num) (by norm_num) (by norm_num) (by norm_num) (by norm_num))
    (by norm_num) (by unfold svmVs0; norm_num) _ _ rfl rfl (by unfold svmVs0; norm_num))

theorem svm_slope_148 : SlopeOn 148 162 := by
  refine slopeOn_of (by norm_num) (by norm_num) (svm_piece (g := (141 / 5000)) (E := (373 / 250)) (kb := (14 / 625)) (nm := 1) (W := (1619 / 1000)) (al := (3211 / 1000000))
    (by norm_num) (by norm_num) (svmG_le (r := (217 / 125000)) (by norm_num) (by norm_num) (by norm_num) (by norm_num))
    (exp_le_of (x := ((16 : ℕ) / (40 : ℕ) : ℝ)) (by norm_num) (exp_le_of_pow (by norm_num) (by norm_num) (by norm_num)))
    (svmK_le (y := (25033 / 100000)) (by norm_num) (by norm_num) (by norm_num) (x := -((152 : ℕ) / (40 : ℕ) : ℝ)) (by norm_num) (exp_neg_le_of_pow (by norm_num) (by norm_num) (by norm_num)))
    (by norm_num) (fun v _ _ => svmN_ge v)
    (rpow_inv_le (p := 20) (q := 20) (by norm_num) (by norm_num) (by norm_num) (by norm_num) (by norm_num) (by norm_num))
    (by norm_num) (by unfold svmVs0; norm_num) _ _ rfl rfl (by unfold svmVs0; norm_num))

theorem svm_slope_162 : SlopeOn 162 171 := by
  refine slopeOn_of (by norm_num) (by norm_num) (svm_piece (g := (503 / 20000)) (E := (257 / 200)) (kb := (281 / 10000)) (nm := 1) (W := (222 / 125)) (al := (3033 / 1000000))
    (by norm_num) (by norm_num) (svmG_le (r := (387 / 250000)) (by norm_num) (by norm_num) (by norm_num) (by norm_num))
    (exp_le_of (x := ((10 : ℕ) / (40 : ℕ) : ℝ)) (by norm_num) (exp_le_of_pow (by norm_num) (by norm_num) (by norm_num)))
    (svmK_le (y := (24667 / 100000)) (by norm_num) (by norm_num) (by norm_num) (x := -((143 : ℕ) / (40 : ℕ) : ℝ)) (by norm_num) (exp_neg_le_of_pow (by norm_num) (by norm_num) (by norm_num)))
    (by norm_num) (fun v _ _ => svmN_ge v)
    (rpow_inv_le (p := 20) (q := 20) (by norm_num) (by norm_num) (by norm_num) (by norm_num) (by norm_num) (by norm_num))
    (by norm_num) (by unfold svmVs0; norm_num) _ _ rfl rfl (by unfold svmVs0; norm_num))

theorem svm_slope_171 : SlopeOn 171 179 := by
  refine slopeOn_of (by norm_num) (by norm_num) (svm_piece (g := (2347 / 100000)) (E := (611 / 500)) (kb := (167 / 5000)) (nm := (21 / 20)) (W := (1863 / 1000)) (al := (2927 / 1000000))
    (by norm_num) (by norm_num) (svmG_le (r := (289 / 200000)) (by norm_num) (by norm_num) (by norm_num) (by norm_num))
    (exp_le_of (x := ((8 : ℕ) / (40 : ℕ) : ℝ)) (by norm_num) (exp_le_of_pow (by norm_num) (by norm_num) (by norm_num)))
    (svmK_le (y := (12181 / 50000)) (by norm_num) (by norm_num) (by norm_num) (x := -((136 : ℕ) / (40 : ℕ) : ℝ)) (by norm_num) (exp_neg_le_of_pow (by norm_num) (by norm_num) (by norm_num)))
    (by norm_num) (svmN_low (s := (1363 / 5000)) (by norm_num) (by norm_num) (exp_le_of (x := -((26 : ℕ) / (20 : ℕ) : ℝ)) (by norm_num) (exp_neg_le_of_pow (by norm_num) (by norm_num) (by norm_num))) (by norm_num))
    (rpow_inv_le (p := 21) (q := 20) (by norm_num) (by norm_num) (by norm_num) (by norm_num) (by norm_num) (by norm_num))
    (by norm_num) (by unfold svmVs0; norm_num) _ _ rfl rfl (by unfold svmVs0; norm_num))

theorem svm_slope_179 : SlopeOn 179 189 := by
  refine slopeOn_of (by norm_num) (by norm_num) (svm_piece (g := (1107 / 50000)) (E := (1253 / 1000)) (kb := (209 / 5000)) (nm := (6 / 5)) (W := (237 / 125)) (al := (1419 / 500000))
    (by norm_num) (by norm_num) (svmG_le (r := (1363 / 1000000)) (by norm_num) (by norm_num) (by norm_num) (by norm_num))
    (exp_le_of (x := ((9 : ℕ) / (40 : ℕ) : ℝ)) (by norm_num) (exp_le_of_pow (by norm_num) (by norm_num) (by norm_num)))
    (svmK_le (y := (6001 / 25000)) (by norm_num) (by norm_num) (by norm_num) (x := -((127 : ℕ) / (40 : ℕ) : ℝ)) (by norm_num) (exp_neg_le_of_pow (by norm_num) (by norm_num) (by norm_num)))
    (by norm_num) (svmN_low (s := (2593 / 10000)) (by norm_num) (by norm_num) (exp_le_of (x := -((27 : ℕ) / (20 : ℕ) : ℝ)) (by norm_num) (exp_neg_le_of_pow (by norm_num) (by norm_num) (by norm_num))) (by norm_num))
    (rpow_inv_le (p := 24) (q := 20) (by norm_num) (by norm_num) (by norm_num) (by norm_num) (by norm_num) (by norm_num))
    (by norm_num) (by unfold svmVs0; norm_num) _ _ rfl rfl (by unfold svmVs0; norm_num))

theorem svm_slope_189 : SlopeOn 189 201 := by
  refine slopeOn_of (by norm_num) (by norm_num) (svm_piece (g := (2067 / 100000)) (E := (257 / 200)) (kb := (131 / 2500)) (nm := (27 / 20)) (W := (97 / 50)) (al := (2733 / 1000000))
    (by norm_num) (by norm_num) (svmG_le (r := (159 / 125000)) (by norm_num) (by norm_num) (by norm_num) (by norm_num))
    (exp_le_of (x := ((10 : ℕ) / (40 : ℕ) : ℝ)) (by norm_num) (exp_le_of_pow (by norm_num) (by norm_num) (by norm_num)))
    (svmK_le (y := (4721 / 20000)) (by norm_num) (by norm_num) (by norm_num) (x := -((118 : ℕ) / (40 : ℕ) : ℝ)) (by norm_num) (exp_neg_le_of_pow (by norm_num) (by norm_num) (by norm_num)))
    (by norm_num) (svmN_low (s := (1233 / 5000)) (by norm_num) (by norm_num) (exp_le_of (x := -((28 : ℕ) / (20 : ℕ) : ℝ)) (by norm_num) (exp_neg_le_of_pow (by norm_num) (by norm_num) (by norm_num))) (by norm_num))
    (rpow_inv_le (p := 27) (q := 20) (by norm_num) (by norm_num) (by norm_num) (by norm_num) (by norm_num) (by norm_num))
    (by norm_num) (by unfold svmVs0; norm_num) _ _ rfl rfl (by unfold svmVs0; norm_num))

theorem svm_slope_201 : SlopeOn 201 218 := by
  refine slopeOn_of (by norm_num) (by norm_num) (svm_piece (g := (1911 / 100000)) (E := (277 / 200)) (kb := (29 / 400)) (nm := (8 / 5)) (W := (497 / 250)) (al := (523 / 200000))
    (by norm_num) (by norm_num) (svmG_le (r := (147 / 125000)) (by norm_num) (by norm_num) (by norm_num) (by norm_num))
    (exp_le_of (x := ((13 : ℕ) / (40 : ℕ) : ℝ)) (by norm_num) (exp_le_of_pow (by norm_num) (by norm_num) (by norm_num)))
    (svmK_le (y := (23089 / 100000)) (by norm_num) (by norm_num) (by norm_num) (x := -((105 : ℕ) / (40 : ℕ) : ℝ)) (by norm_num) (exp_neg_le_of_pow (by norm_num) (by norm_num) (by norm_num)))
    (by norm_num) (svmN_low (s := (279 / 1250)) (by norm_num) (by norm_num) (exp_le_of (x := -((30 : ℕ) / (20 : ℕ) : ℝ)) (by norm_num) (exp_neg_le_of_pow (by norm_num) (by norm_num) (by norm_num))) (by norm_num))
    (rpow_inv_le (p := 32) (q := 20) (by norm_num) (by norm_num) (by norm_num) (by norm_num) (by norm_num) (by norm_num))
    (by norm_num) (by unfold svmVs0; norm_num) _ _ rfl rfl (by unfold svmVs0; norm_num))

theorem svm_slope_218 : SlopeOn 218 241 := by
  refine slopeOn_of (by norm_num) (by norm_num) (svm_piece (g := (431 / 25000)) (E := (373 / 250)) (kb := (527 / 5000)) (nm := (19 / 10)) (W := (41 / 20)) (al := (1231 / 500000))
    (by norm_num) (by norm_num) (svmG_le (r := (1061 / 1000000)) (by norm_num) (by norm_num) (by norm_num) (by norm_num))
    (exp_le_of (x := ((16 : ℕ) / (40 : ℕ) : ℝ)) (by norm_num) (exp_le_of_pow (by norm_num) (by norm_num) (by norm_num)))
    (svmK_le (y := (22467 / 100000)) (by norm_num) (by norm_num) (by norm_num) (x := -((90 : ℕ) / (40 : ℕ) : ℝ)) (by norm_num) (exp_neg_le_of_pow (by norm_num) (by norm_num) (by norm_num)))
    (by norm_num) (svmN_low (s := (1921 / 10000)) (by norm_num) (by norm_num) (exp_le_of (x := -((33 : ℕ) / (20 : ℕ) : ℝ)) (by norm_num) (exp_neg_le_of_pow (by norm_num) (by norm_num) (by norm_num))) (by norm_num))
    (rpow_inv_le (p := 38) (q := 20) (by norm_num) (by norm_num) (by norm_num) (by norm_num) (by norm_num) (by norm_num))
    (by norm_num) (by unfold svmVs0; norm_num) _ _ rfl rfl (by unfold svmVs0; norm_num))

theorem svm_slope_241 : SlopeOn 241 270 := by
  refine slopeOn_of (by norm_num) (by norm_num) (svm_piece (g := (759 / 50000)) (E := (1569 / 1000)) (kb := (1573 / 10000)) (nm := (11 / 5)) (W := (1071 / 500)) (al := (2277 / 1000000))
    (by norm_num) (by norm_num) (svmG_le (r := (467 / 500000)) (by norm_num) (by norm_num) (by norm_num) (by norm_num))
    (exp_le_of (x := ((18 : ℕ) / (40 : ℕ) : ℝ)) (by norm_num) (exp_le_of_pow (by norm_num) (by norm_num) (by norm_num)))
    (svmK_le (y := (21783 / 100000)) (by norm_num) (by norm_num) (by norm_num) (x := -((74 : ℕ) / (40 : ℕ) : ℝ)) (by norm_num) (exp_neg_le_of_pow (by norm_num) (by norm_num) (by norm_num)))
    (by norm_num) (svmN_low (s := (1653 / 10000)) (by norm_num) (by norm_num) (exp_le_of (x := -((36 : ℕ) / (20 : ℕ) : ℝ)) (by norm_num) (exp_neg_le_of_pow (by norm_num) (by norm_num) (by norm_num))) (by norm_num))
    (rpow_inv_le (p := 44) (q := 20) (by norm_num) (by norm_num) (by norm_num) (by norm_num) (by norm_num) (by norm_num))
    (by norm_num) (by unfold svmVs0; norm_num) _ _ rfl rfl (by unfold svmVs0; norm_num))

theorem svm_slope_270 : SlopeOn 270 308 := by
  refine slopeOn_of (by norm_num) (by norm_num) (svm_piece (g := (1313 / 100000)) (E := (1649 / 1000)) (kb := (1233 / 5000)) (nm := (51 / 20)) (W := (2239 / 1000)) (al := (2073 / 1000000))
    (by norm_num) (by norm_num) (svmG_le (r := (101 / 125000)) (by norm_num) (by norm_num) (by norm_num) (by norm_num))
    (exp_le_of (x := ((20 : ℕ) / (40 : ℕ) : ℝ)) (by norm_num) (exp_le_of_pow (by norm_num) (by norm_num) (by norm_num)))
    (svmK_le (y := (2627 / 12500)) (by norm_num) (by norm_num) (by norm_num) (x := -((56 : ℕ) / (40 : ℕ) : ℝ)) (by norm_num) (exp_neg_le_of_pow (by norm_num) (by norm_num) (by norm_num)))
    (by norm_num) (svmN_low (s := (161 / 1250)) (by norm_num) (by norm_num) (exp_le_of (x := -((41 : ℕ) / (20 : ℕ) : ℝ)) (by norm_num) (exp_neg_le_of_pow (by norm_num) (by norm_num) (by norm_num))) (by norm_num))
    (rpow_inv_le (p := 51) (q := 20) (by norm_num) (by norm_num) (by norm_num) (by norm_num) (by norm_num) (by norm_num))
    (by norm_num) (by unfold svmVs0; norm_num) _ _ rfl rfl (by unfold svmVs0; norm_num))

theorem svm_slope_308 : SlopeOn 308 358 := by
  refine slopeOn_of (by norm_num) (by norm_num) (svm_piece (g := (1111 / 100000)) (E := (889 / 500)) (kb := (2033 / 5000)) (nm := (57 / 20)) (W := (2407 / 1000)) (al := (369 / 200000))
    (by norm_num) (by norm_num) (svmG_le (r := (171 / 250000)) (by norm_num) (by norm_num) (by norm_num) (by norm_num))
    (exp_le_of (x := ((23 : ℕ) / (40 : ℕ) : ℝ)) (by norm_num) (exp_le_of_pow (by norm_num) (by norm_num) (by norm_num)))
    (svmK_le (y := (20173 / 100000)) (by norm_num) (by norm_num) (by norm_num) (x := -((36 : ℕ) / (40 : ℕ) : ℝ)) (by norm_num) (exp_neg_le_of_pow (by norm_num) (by norm_num) (by norm_num)))
    (by norm_num) (svmN_low (s := (1003 / 10000)) (by norm_num) (by norm_num) (exp_le_of (x := -((46 : ℕ) / (20 : ℕ) : ℝ)) (by norm_num) (exp_neg_le_of_pow (by norm_num) (by norm_num) (by norm_num))) (by norm_num))
    (rpow_inv_le (p := 57) (q := 20) (by norm_num) (by norm_num) (by norm_num) (by norm_num) (by norm_num) (by norm_num))
    (by norm_num) (by unfold svmVs0; norm_num) _ _ rfl rfl (by unfold svmVs0; norm_num))

theorem svm_slope_358 : SlopeOn 358 426 := by
  refine slopeOn_of (by norm_num) (by norm_num) (svm_piece (g := (459 / 50000)) (E := (1869 / 1000)) (kb := (3613 / 5000)) (nm := (16 / 5)) (W := (647 / 250)) (al := (799 / 500000))
    (by norm_num) (by norm_num) (svmG_le (r := (113 / 200000)) (by norm_num) (by norm_num) (by norm_num) (by norm_num))
    (exp_le_of (x := ((25 : ℕ) / (40 : ℕ) : ℝ)) (by norm_num) (exp_le_of_pow (by norm_num) (by norm_num) (by norm_num)))
    (svmK_le (y := (481 / 2500)) (by norm_num) (by norm_num) (by norm_num) (x := -((13 : ℕ) / (40 : ℕ) : ℝ)) (by norm_num) (exp_neg_le_of_pow (by norm_num) (by norm_num) (by norm_num)))
    (by norm_num) (svmN_low (s := (673 / 10000)) (by norm_num) (by norm_num) (exp_le_of (x := -((54 : ℕ) / (20 : ℕ) : ℝ)) (by norm_num) (exp_neg_le_of_pow (by norm_num) (by norm_num) (by norm_num))) (by norm_num))
    (rpow_inv_le (p := 64) (q := 20) (by norm_num) (by norm_num) (by norm_num) (by norm_num) (by norm_num) (by norm_num))
    (by norm_num) (by unfold svmVs0; norm_num) _ _ rfl rfl (by unfold svmVs0; norm_num))

theorem svm_slope_426 : SlopeOn 426 517 := by
  refine slopeOn_of (by norm_num) (by norm_num) (svm_piece (g := (23 / 3125)) (E := (393 / 200)) (kb := (257 / 200)) (nm := (69 / 20)) (W := (2837 / 1000)) (al := (133 / 100000))
    (by norm_num) (by norm_num) (svmG_le (r := (453 / 1000000)) (by norm_num) (by norm_num) (by norm_num) (by norm_num))
    (exp_le_of (x := ((27 : ℕ) / (40 : ℕ) : ℝ)) (by norm_num) (exp_le_of_pow (by norm_num) (by norm_num) (by norm_num)))
    (svmK_le (y := (4563 / 25000)) (by norm_num) (by norm_num) (by norm_num) (x := ((10 : ℕ) / (40 : ℕ) : ℝ)) (by norm_num) (exp_le_of_pow (by norm_num) (by norm_num) (by norm_num)))
    (by norm_num) (svmN_low (s := (51 / 1250)) (by norm_num) (by norm_num) (exp_le_of (x := -((64 : ℕ) / (20 : ℕ) : ℝ)) (by norm_num) (exp_neg_le_of_pow (by norm_num) (by norm_num) (by norm_num))) (by norm_num))
    (rpow_inv_le (p := 69) (q := 20) (by norm_num) (by norm_num) (by norm_num) (by norm_num) (by norm_num) (by norm_num))
    (by norm_num) (by unfold svmVs0; norm_num) _ _ rfl rfl (by unfold svmVs0; norm_num))

theorem svm_slope_517 : SlopeOn 517 638 := by
  refine slopeOn_of (by norm_num) (by norm_num) (svm_piece (g := (23 / 4000)) (E := (1007 / 500)) (kb := (117 / 50)) (nm := (73 / 20)) (W := (1573 / 500)) (al := (1053 / 1000000))
    (by norm_num) (by norm_num) (svmG_le (r := (177 / 500000)) (by norm_num) (by norm_num) (by norm_num) (by norm_num))
    (exp_le_of (x := ((28 : ℕ) / (40 : ℕ) : ℝ)) (by norm_num) (exp_le_of_pow (by norm_num) (by norm_num) (by norm_num)))
    (svmK_le (y := (17237 / 100000)) (by norm_num) (by norm_num) (by norm_num) (x := ((34 : ℕ) / (40 : ℕ) : ℝ)) (by norm_num) (exp_le_of_pow (by norm_num) (by norm_num) (by norm_num)))
    (by norm_num) (svmN_low (s := (203 / 10000)) (by norm_num) (by norm_num) (exp_le_of (x := -((78 : ℕ) / (20 : ℕ) : ℝ)) (by norm_num) (exp_neg_le_of_pow (by norm_num) (by norm_num) (by norm_num))) (by norm_num))
    (rpow_inv_le (p := 73) (q := 20) (by norm_num) (by norm_num) (by norm_num) (by norm_num) (by norm_num) (by norm_num))
    (by norm_num) (by unfold svmVs0; norm_num) _ _ rfl rfl (by unfold svmVs0; norm_num))

theorem svm_slope_638 : SlopeOn 638 680 := by
  refine slopeOn_of (by norm_num) (by norm_num) (svm_piece (g := (441 / 100000)) (E := (611 / 500)) (kb := (697 / 250)) (nm := (37 / 10)) (W := (1623 / 500)) (al := (31 / 40000))
    (by norm_num) (by norm_num) (svmG_le (r := (271 / 1000000)) (by norm_num) (by norm_num) (by norm_num) (by norm_num))
    (exp_le_of (x := ((8 : ℕ) / (40 : ℕ) : ℝ)) (by norm_num) (exp_le_of_pow (by norm_num) (by norm_num) (by norm_num)))
    (svmK_le (y := (847 / 5000)) (by norm_num) (by norm_num) (by norm_num) (x := ((41 : ℕ) / (40 : ℕ) : ℝ)) (by norm_num) (exp_le_of_pow (by norm_num) (by norm_num) (by norm_num)))
    (by norm_num) (svmN_low (s := (79 / 10000)) (by norm_num) (by norm_num) (exp_le_of (x := -((97 : ℕ) / (20 : ℕ) : ℝ)) (by norm_num) (exp_neg_le_of_pow (by norm_num) (by norm_num) (by norm_num))) (by norm_num))
    (rpow_inv_le (p := 74) (q := 20) (by norm_num) (by norm_num) (by norm_num) (by norm_num) (by norm_num) (by norm_num))
    (by norm_num) (by unfold svmVs0; norm_num) _ _ rfl rfl (by unfold svmVs0; norm_num))

theorem svm_slope_680 : SlopeOn 680 845 := by
  refine slopeOn_of (by norm_num) (by norm_num) (svm_piece (g := (407 / 100000)) (E := (393 / 200)) (kb := (5079 / 1000)) (nm := (73 / 20)) (W := (1941 / 500)) (al := (139 / 200000))
    (by norm_num) (by norm_num) (svmG_le (r := (1 / 4000)) (by norm_num) (by norm_num) (by norm_num) (by norm_num))
    (exp_le_of (x := ((27 : ℕ) / (40 : ℕ) : ℝ)) (by norm_num) (exp_le_of_pow (by norm_num) (by norm_num) (by norm_num)))
    (svmK_le (y := (15967 / 100000)) (by norm_num) (by norm_num) (by norm_num) (x := ((65 : ℕ) / (40 : ℕ) : ℝ)) (by norm_num) (exp_le_of_pow (by norm_num) (by norm_num) (by norm_num)))
    (by norm_num) (svmN_high (s := (29 / 5000)) (by norm_num) (by norm_num) (exp_le_of (x := -((103 : ℕ) / (20 : ℕ) : ℝ)) (by norm_num) (exp_neg_le_of_pow (by norm_num) (by norm_num) (by norm_num))) (by norm_num))
    (rpow_inv_le (p := 73) (q := 20) (by norm_num) (by norm_num) (by norm_num) (by norm_num) (by norm_num) (by norm_num))
    (by norm_num) (by unfold svmVs0; norm_num) _ _ rfl rfl (by unfold svmVs0; norm_num))

theorem svm_slope_845 : SlopeOn 845 1000 := by
  refine slopeOn_of (by norm_num) (by norm_num) (svm_piece (g := (309 / 100000)) (E := (1649 / 1000)) (kb := (971 / 125)) (nm := (73 / 20)) (W := (2179 / 500)) (al := (431 / 1000000))
    (by norm_num) (by norm_num) (svmG_le (r := (19 / 100000)) (by norm_num) (by norm_num) (by norm_num) (by norm_num))
    (exp_le_of (x := ((20 : ℕ) / (40 : ℕ) : ℝ)) (by norm_num) (exp_le_of_pow (by norm_num) (by norm_num) (by norm_num)))
    (svmK_le (y := (3813 / 25000)) (by norm_num) (by norm_num) (by norm_num) (x := ((82 : ℕ) / (40 : ℕ) : ℝ)) (by norm_num) (exp_le_of_pow (by norm_num) (by norm_num) (by norm_num)))
    (by norm_num) (svmN_high (s := (17 / 10000)) (by norm_num) (by norm_num) (exp_le_of (x := -((128 : ℕ) / (20 : ℕ) : ℝ)) (by norm_num) (exp_neg_le_of_pow (by norm_num) (by norm_num) (by norm_num))) (by norm_num))
    (rpow_inv_le (p := 73) (q := 20) (by norm_num) (by norm_num) (by norm_num) (by norm_num) (by norm_num) (by norm_num))
    (by norm_num) (by unfold svmVs0; norm_num) _ _ rfl rfl (by unfold svmVs0; norm_num))

theorem svm_slope : SlopeOn 130 1000 :=
  ((((((((((((((((svm_slope_130.trans svm_slope_148).trans svm_slope_162).trans svm_slope_171).trans svm_slope_179).trans svm_slope_189).trans svm_slope_201).trans svm_slope_218).trans svm_slope_241).trans svm_slope_270).trans svm_slope_308).trans svm_slope_358).trans svm_slope_426).trans svm_slope_517).trans svm_slope_638).trans svm_slope_680).trans svm_slope_845)

/-! ### C109: termination -/

theorem svmTemp_trial {v z1 : ℝ} (hz : 25 / 10 < z1) :
    svmTemp v z1 = .ok (List.replicate (svmCount z1 - 1) (1 / 10 : ℝ) ++ [0], svmTrial z1 v) := svmTemp_ok hz

theorem svmTrial_valid {v z1 : ℝ} (hz : 25 / 10 < z1) (h0 : 0 < v) (h1 : v ≤ 2500) : Valid (svmTrial z1 v) := by
  obtain ⟨th, temp, ht, hval⟩ := svmTemp_valid hz (svmVs0_pos h0 h1)
  rw [svmTemp_trial hz] at ht
  obtain ⟨_, rfl⟩ := Prod.mk.inj (Except.ok.inj ht)
  exact hval

/-- One pass of the loop in terms of Vs30 of the smooth profile. -/
theorem svmIter_pass (target : ℝ) {z1 v : ℝ} (hz : 25 / 10 < z1) (h0 : 0 < v) (h1 : v ≤ 2500) (fuel : ℕ) :
    svmIter target z1 (fuel + 1) v =
      if target - 10 ≤ svmVs30 z1 v ∧ svmVs30 z1 v ≤ target + 10 then .ok (some v)
      else if v - (svmVs30 z1 v - target) / 5 < 130 ∨ 1000 < v - (svmVs30 z1 v - target) / 5 then .ok (some v)
      else svmIter target z1 fuel (v - (svmVs30 z1 v - target) / 5) := by
  rw [svmIter]
  simp only [svmTemp_trial hz, bind, Except.bind, C03_Vs30 _ (svmTrial_valid hz h0 h1)]
  rfl

theorem svmIter_down (target z1 : ℝ) (hz : 25 / 10 < z1) : ∀ (n : ℕ) (v : ℝ), 130 ≤ v → v ≤ 1000 → v < 130 + 2 * (n : ℝ) →
    target ≤ svmVs30 z1 v → ∃ w, w ≤ v ∧ svmIter target z1 n v = .ok (some w) := by
  intro n
  induction n with
  | zero => intro v h1 _ h2 _; exfalso; norm_num at h2; linarith
  | succ n ih =>
    intro v h1 h2 h3 h4
    push_cast at h3
    rw [svmIter_pass target hz (by linarith) (by linarith)]
    by_cases c1 : target - 10 ≤ svmVs30 z1 v ∧ svmVs30 z1 v ≤ target + 10
    · exact ⟨v, le_rfl, by rw [if_pos c1]⟩
    rw [if_neg c1]
    by_cases c2 : v - (svmVs30 z1 v - target) / 5 < 130 ∨ 1000 < v - (svmVs30 z1 v - target) / 5
    · exact ⟨v, le_rfl, by rw [if_pos c2]⟩
    rw [if_neg c2]
    simp only [not_or, not_lt] at c2
    have c3 : target + 10 < svmVs30 z1 v := by
      by_contra hn
      exact c1 ⟨by linarith, not_lt.1 hn⟩
    have hs := svm_slope z1 (v - (svmVs30 z1 v - target) / 5) v hz c2.1 (by linarith) h2
    obtain ⟨w, hw, he⟩ := ih (v - (svmVs30 z1 v - target) / 5) c2.1 c2.2 (by linarith) (by linarith)
    exact ⟨w, by linarith, he⟩

theorem svmIter_up (target z1 : ℝ) (hz : 25 / 10 < z1) : ∀ (n : ℕ) (v : ℝ), 130 ≤ v → v ≤ 1000 → 1000 < v + 2 * (n : ℝ) →
    svmVs30 z1 v ≤ target → ∃ w, v ≤ w ∧ svmIter target z1 n v = .ok (some w) := by
  intro n
  induction n with
  | zero => intro v _ h1 h2 _; exfalso; norm_num at h2; linarith
  | succ n ih =>
    intro v h1 h2 h3 h4
    push_cast at h3
    rw [svmIter_pass target hz (by linarith) (by linarith)]
    by_cases c1 : target - 10 ≤ svmVs30 z1 v ∧ svmVs30 z1 v ≤ target + 10
    · exact ⟨v, le_rfl, by rw [if_pos c1]⟩
    rw [if_neg c1]
    by_cases c2 : v - (svmVs30 z1 v - target) / 5 < 130 ∨ 1000 < v - (svmVs30 z1 v - target) / 5
    · exact ⟨v, le_rfl, by rw [if_pos c2]⟩
    rw [if_neg c2]
    simp only [not_or, not_lt] at c2
    have c3 : svmVs30 z1 v < target - 10 := by
      by_contra hn
      exact c1 ⟨not_lt.1 hn, by linarith⟩
    have hs := svm_slope z1 v (v - (svmVs30 z1 v - target) / 5) hz h1 (by linarith) c2.2
    obtain ⟨w, hw, he⟩ := ih (v - (svmVs30 z1 v - target) / 5) c2.1 c2.2 (by linarith) (by linarith)
    exact ⟨w, by linarith, he⟩

/-- With `iterate=True` the loop ends, after at most 437 passes, for every target and every depth above 2.5 m. -/
theorem C109_terminates (target z1 : ℝ) (hz : 25 / 10 < z1) (h0 : 0 < target) (h1 : target ≤ 2500) (fuel : ℕ) (hf : 437 ≤ fuel) :
    ∃ w, svmIter target z1 fuel target = .ok (some w) := by
  obtain ⟨n, rfl⟩ : ∃ n, fuel = n + 1 := ⟨fuel - 1, by omega⟩
  have hn : (436 : ℝ) ≤ n := by exact_mod_cast (by omega : 436 ≤ n)
  have main : ∀ v, 130 ≤ v → v ≤ 1000 → ∃ w, svmIter target z1 n v = .ok (some w) := by
    intro v hv1 hv2
    rcases le_total target (svmVs30 z1 v) with h | h
    · obtain ⟨w, _, hw⟩ := svmIter_down target z1 hz n v hv1 hv2 (by linarith) h
      exact ⟨w, hw⟩
    · obtain ⟨w, _, hw⟩ := svmIter_up target z1 hz n v hv1 hv2 (by linarith) h
      exact ⟨w, hw⟩
  rw [svmIter_pass target hz h0 h1]
  split_ifs with c1 c2
  · exact ⟨_, rfl⟩
  · exact ⟨_, rfl⟩
  · simp only [not_or, not_lt] at c2
    exact main _ c2.1 c2.2

/-- The result of `iterate=True`: the loop ends; the trial value used is the target or lies in [130, 1000]; and either Vs30 of
the smooth profile is within 10 m/s of the target, or the next trial value would have left [130, 1000].  With `Vs_cap=False`
the smooth profile is the one stored in the object, so the same holds for `base_profile.vs30`. -/
theorem C109_result (target : ℝ) (z1 : Option ℝ) (eta : ℝ) (hz : 25 / 10 < z1.getD (z1FromVs30 target)) (he0 : 0 < eta)
    (he1 : eta ≤ 1) (h0 : 0 < target) (h1 : target ≤ 2500) (fuel : ℕ) (hf : 437 ≤ fuel) :
    ∃ w s, svmIter target (z1.getD (z1FromVs30 target)) fuel target = .ok (some w) ∧
      (w = target ∨ (130 ≤ w ∧ w ≤ 1000)) ∧ mkSvm target z1 .no eta w = .ok s ∧
      (|s.obj.vs30 - target| ≤ 10 ∨ w - (s.obj.vs30 - target) / 5 < 130 ∨ 1000 < w - (s.obj.vs30 - target) / 5) := by
  obtain ⟨w, hw⟩ := C109_terminates target _ hz h0 h1 fuel hf
  obtain ⟨res, hres, hp⟩ := C109_iteration target _ hz fuel target h0 h1
  rw [hw] at hres
  obtain rfl := Except.ok.inj hres
  obtain ⟨hr, th, temp, ht, hc⟩ := hp w rfl
  have hw0 : 0 < w ∧ w ≤ 2500 := by
    rcases hr with rfl | hr
    · exact ⟨h0, h1⟩
    · exact ⟨by linarith [hr.1], by linarith [hr.2]⟩
  have ht' := ht
  rw [svmTemp_trial hz] at ht'
  obtain ⟨rfl, rfl⟩ := Prod.mk.inj (Except.ok.inj ht')
  obtain ⟨o', σ', r5, hm, hcons, hcon, htv⟩ := profileOf [] _ (svmTrial_valid hz hw0.1 hw0.2)
  have hm' : mkProfile [Cell.two (svmTrial (z1.getD (z1FromVs30 target)) w)] 0 .one .si false 3 = .ok (o', σ') := hm
  have hmk : ∃ s, mkSvm target z1 .no eta w = .ok s ∧ s.obj = o' := by
    unfold mkSvm
    rw [if_neg (by push Not; exact ⟨he0, he1⟩)]
    simp only [svmRows, if_neg (not_le.2 hz), ht, bind, Except.bind, pure, Except.pure, hm']
    exact ⟨_, rfl, rfl⟩
  obtain ⟨s, hs, ho⟩ := hmk
  refine ⟨w, s, hw, hr, hs, ?_⟩
  have := hcon.vs30
  rw [htv] at this
  rw [ho, this]
  exact hc

/-- A target of 400 m/s on 100 m of sediments. -/
example : ∃ w, svmIter 400 100 437 400 = .ok (some w) := C109_terminates 400 100 (by norm_num) (by norm_num) (by norm_num) 437 le_rfl

end Verif
