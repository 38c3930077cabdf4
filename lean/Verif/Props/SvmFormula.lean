import Verif.Props.SvmIter
import Mathlib.Analysis.Convex.SpecificFunctions.Basic

/-!
C225: the sediment velocity model is the published velocity function of depth.
-/

set_option linter.unusedSectionVars false
set_option linter.unusedVariables false

namespace Verif

namespace Spec

/-- Shi and Asimaki (2018): velocity (m/s) of the uppermost 2.5 m of a site with Vs30 `v`. -/
noncomputable def sedimentTop (v : ℝ) : ℝ := -2.1688e-4 * v ^ 2 + 0.5182 * v + 69.452

/-- The parameter k (1/m). -/
noncomputable def sedimentK (v : ℝ) : ℝ := Real.exp (11.132 - 59.67 * v ^ (-0.2722 : ℝ))

/-- The parameter n. -/
noncomputable def sedimentN (v : ℝ) : ℝ := max 1 (4.110 * Real.exp (-1.0521e-4 * v) - 10.827 * Real.exp (-7.6187e-3 * v))

/-- The velocity (m/s) at depth `z` (m): constant down to 2.5 m, growing below. -/
noncomputable def sediment (v z : ℝ) : ℝ := sedimentTop v * (1 + sedimentK v * max 0 (z - 2.5)) ^ (1 / sedimentN v)

/-- The depth (m) of a basin whose site has Vs30 `v`. -/
noncomputable def basinDepth (v : ℝ) : ℝ := 140.511 * Real.exp (-0.00303 * v)

end Spec

open Spec

theorem sedimentTop_eq (v : ℝ) : sedimentTop v = svmVs0 v := by unfold sedimentTop svmVs0; ring

theorem sedimentK_eq (v : ℝ) : sedimentK v = svmK v := by
  unfold sedimentK svmK
  rw [show (-0.2722 : ℝ) = -2722 / 10000 by norm_num]
  congr 1; ring

theorem sedimentN_eq (v : ℝ) : sedimentN v = svmN v := by
  unfold sedimentN svmN
  rw [show (-1.0521e-4 : ℝ) = -10521 / 10 ^ 8 by norm_num, show (-7.6187e-3 : ℝ) = -76187 / 10 ^ 7 by norm_num]
  congr 1; ring

theorem sediment_eq (v z : ℝ) : sediment v z = svmAt v (max 0 (z - 2.5)) := by
  unfold sediment svmAt; rw [sedimentTop_eq, sedimentK_eq, sedimentN_eq]

/-- C225: without a depth given, the basin is as deep as the correlation says. -/
theorem C225_depth (target : ℝ) (cap : CapArg) (eta trial : ℝ) (s : Svm) (h : mkSvm target none cap eta trial = .ok s) :
    s.z1 = basinDepth target := by
  have e : z1FromVs30 target = basinDepth target := by
    unfold z1FromVs30 basinDepth
    rw [show (-0.00303 : ℝ) = -303 / 100000 by norm_num]
    congr 1; norm_num
  unfold mkSvm at h
  split_ifs at h
  simp only [bind, Except.bind, Option.getD_none] at h
  cases hr : svmRows target trial (z1FromVs30 target) eta cap with
  | error e => rw [hr] at h; cases h
  | ok r =>
    rw [hr] at h
    cases hm : mkProfile [Cell.two r.1] 0 .one .si false 3 with
    | error e => simp only [hm] at h; cases h
    | ok q =>
      simp only [hm] at h
      cases h
      exact e

theorem uncapped_rows (target : ℝ) (z1 : Option ℝ) (eta trial : ℝ) (hz : 25 / 10 < z1.getD (z1FromVs30 target)) (he0 : 0 < eta)
    (he1 : eta ≤ 1) (h0 : 0 < trial) (h1 : trial ≤ 2500) :
    ∃ s, mkSvm target z1 .no eta trial = .ok s ∧ s.z1 = z1.getD (z1FromVs30 target) ∧ s.rows = svmTrial s.z1 trial := by
  obtain ⟨o', σ', r5, hm, _⟩ := profileOf [] _ (svmTrial_valid hz h0 h1)
  have hm' : mkProfile [Cell.two (svmTrial (z1.getD (z1FromVs30 target)) trial)] 0 .one .si false 3 = .ok (o', σ') := hm
  unfold mkSvm
  rw [if_neg (by push Not; exact ⟨he0, he1⟩)]
  simp only [svmRows, if_neg (not_le.2 hz), svmTemp_trial hz, bind, Except.bind, pure, Except.pure, hm']
  exact ⟨_, rfl, rfl, rfl⟩

theorem svmAt_depth (v : ℝ) (i : ℕ) (t : ℝ) (h : 0 < i → t = 24 / 10 + svmZ i) (h0 : i = 0 → t = 0) :
    svmAt v (svmZ i) = sediment v (t + 0.1) := by
  rw [sediment_eq]
  congr 1
  rcases Nat.eq_zero_or_pos i with rfl | hi
  · rw [h0 rfl]
    unfold svmZ
    norm_num
  · rw [h hi, show (24 / 10 + svmZ i + 0.1 - 2.5 : ℝ) = svmZ i by norm_num; ring, max_eq_right (svmZ_nonneg i)]

/-- C225: without a cap every row of the profile has the velocity of the published function at 0.1 m below the top of the row (the
thickness of the rows; the uppermost row of 2.4 m lies within the constant part). -/
theorem C225_rows (target : ℝ) (z1 : Option ℝ) (eta trial : ℝ) (hz : 25 / 10 < z1.getD (z1FromVs30 target)) (he0 : 0 < eta)
    (he1 : eta ≤ 1) (h0 : 0 < trial) (h1 : trial ≤ 2500) :
    ∃ s, mkSvm target z1 .no eta trial = .ok s ∧
      ∀ (i : ℕ) r, s.rows[i]? = some r → r.2 = sediment trial (topDepth (s.rows.map Prod.fst) i + 0.1) := by
  obtain ⟨s, hs, hz1, hr⟩ := uncapped_rows target z1 eta trial hz he0 he1 h0 h1
  refine ⟨s, hs, fun i r hi => ?_⟩
  rw [← hz1] at hz
  rw [hr] at hi ⊢
  have hil : i < svmCount s.z1 + 1 := by
    rw [← svmTrial_length hz trial]
    by_contra hn
    rw [List.getElem?_eq_none (by omega)] at hi
    cases hi
  have h2 := svmTrial_at hz trial i hil
  rw [List.getD_eq_getElem?_getD, List.getElem?_map, hi] at h2
  simp only [Option.map_some, Option.getD_some] at h2
  rw [h2]
  exact svmAt_depth trial i _ (svmTrial_top hz trial i hil).2 (by rintro rfl; simp [topDepth])

/-- The velocity function does not decrease, and it grows by at most `k` times the velocity at the surface per metre. -/
theorem C225_growth (v x y : ℝ) (h0 : 0 < v) (h1 : v ≤ 2500) (hxy : x ≤ y) :
    sediment v x ≤ sediment v y ∧ sediment v y - sediment v x ≤ sedimentTop v * sedimentK v * (y - x) := by
  have hv := svmVs0_pos h0 h1
  have hk := svmK_pos v
  have hn := svmN_ge v
  have hm : max 0 (x - 2.5) ≤ max 0 (y - 2.5) := max_le_max_left 0 (by linarith)
  have hd : max 0 (y - 2.5) - max 0 (x - 2.5) ≤ y - x := by
    rcases le_total (y - 2.5) 0 with h | h
    · rw [max_eq_left h]; have := le_max_left 0 (x - 2.5); linarith
    · rw [max_eq_right h]; have := le_max_right 0 (x - 2.5); linarith
  have hx0 : 0 ≤ max 0 (x - 2.5) := le_max_left _ _
  rw [sediment_eq, sediment_eq, sedimentTop_eq, sedimentK_eq]
  refine ⟨svmAt_mono hv hx0 hm, ?_⟩
  set a := max 0 (x - 2.5)
  set b := max 0 (y - 2.5)
  have ha1 : 1 ≤ 1 + svmK v * a := by have := mul_nonneg hk.le hx0; linarith
  have ha0 : 0 < 1 + svmK v * a := by linarith
  have hp0 : 0 ≤ 1 / svmN v := by positivity
  have hp1 : 1 / svmN v ≤ 1 := by rw [div_le_one (by linarith)]; exact hn
  have hs : 0 ≤ svmK v * (b - a) / (1 + svmK v * a) := div_nonneg (mul_nonneg hk.le (by linarith)) ha0.le
  have e : 1 + svmK v * b = (1 + svmK v * a) * (1 + svmK v * (b - a) / (1 + svmK v * a)) := by field_simp; ring
  have hb := rpow_one_add_le_one_add_mul_self (s := svmK v * (b - a) / (1 + svmK v * a)) (by linarith) hp0 hp1
  have hap : (1 + svmK v * a) ^ (1 / svmN v) ≤ 1 + svmK v * a := by
    conv_rhs => rw [← Real.rpow_one (1 + svmK v * a)]
    exact Real.rpow_le_rpow_of_exponent_le ha1 hp1
  have hap0 : 0 ≤ (1 + svmK v * a) ^ (1 / svmN v) := Real.rpow_nonneg ha0.le _
  have key : (1 + svmK v * b) ^ (1 / svmN v) - (1 + svmK v * a) ^ (1 / svmN v) ≤ svmK v * (b - a) := by
    rw [e, Real.mul_rpow ha0.le (by linarith)]
    have h2 := mul_le_mul_of_nonneg_left hb hap0
    have h3 : 1 / svmN v * (svmK v * (b - a) / (1 + svmK v * a)) ≤ svmK v * (b - a) / (1 + svmK v * a) :=
      mul_le_of_le_one_left hs hp1
    have h4 : (1 + svmK v * a) ^ (1 / svmN v) * (svmK v * (b - a) / (1 + svmK v * a)) ≤ svmK v * (b - a) := by
      have := mul_le_mul_of_nonneg_right hap hs
      rwa [mul_div_cancel₀ _ ha0.ne'] at this
    have h5 := mul_le_mul_of_nonneg_left h3 hap0
    linarith
  unfold svmAt
  have h6 := mul_le_mul_of_nonneg_left key hv.le
  have h7 : svmVs0 v * (svmK v * (b - a)) ≤ svmVs0 v * svmK v * (y - x) := by
    rw [← mul_assoc]; exact mul_le_mul_of_nonneg_left hd (mul_pos hv hk).le
  linarith

/-- C225: at every depth the velocity of the profile is the one of the published function, up to the growth of the latter within 0.1 m;
it is never lower. -/
theorem C225_error (target : ℝ) (z1 : Option ℝ) (eta trial : ℝ) (hz : 25 / 10 < z1.getD (z1FromVs30 target)) (he0 : 0 < eta)
    (he1 : eta ≤ 1) (h0 : 0 < trial) (h1 : trial ≤ 2500) :
    ∃ s, mkSvm target z1 .no eta trial = .ok s ∧
      ∀ (i : ℕ) r z, s.rows[i]? = some r → topDepth (s.rows.map Prod.fst) i ≤ z → z ≤ topDepth (s.rows.map Prod.fst) i + r.1 →
        sediment trial z ≤ r.2 ∧ r.2 - sediment trial z ≤ sedimentTop trial * sedimentK trial * 0.1 := by
  obtain ⟨s, hs, hrow⟩ := C225_rows target z1 eta trial hz he0 he1 h0 h1
  obtain ⟨s', hs', hz1, hr⟩ := uncapped_rows target z1 eta trial hz he0 he1 h0 h1
  rw [hs] at hs'
  obtain rfl := Except.ok.inj hs'
  refine ⟨s, hs, fun i r z hi hlo hhi => ?_⟩
  have e := hrow i r hi
  rw [← hz1] at hz
  have hg : 0 ≤ sedimentTop trial * sedimentK trial := by
    rw [sedimentTop_eq, sedimentK_eq]; exact (mul_pos (svmVs0_pos h0 h1) (svmK_pos trial)).le
  have hthk : (s.rows.map Prod.fst)[i]? = some r.1 := by rw [List.getElem?_map, hi]; rfl
  rw [hr, svmTrial_thk hz] at hthk
  cases i with
  | zero =>
    have ht : topDepth (s.rows.map Prod.fst) 0 = 0 := by simp [topDepth]
    rw [ht] at hlo hhi e
    have hr1 : r.1 = 24 / 10 := by simpa using hthk.symm
    have e2 : sediment trial z = r.2 := by
      rw [e, sediment_eq, sediment_eq, max_eq_left (by rw [hr1] at hhi; norm_num at hhi ⊢; linarith), max_eq_left (by norm_num)]
    rw [e2]
    refine ⟨le_rfl, ?_⟩
    rw [sub_self]; positivity
  | succ i =>
    have hr1 : r.1 ≤ 0.1 := by
      rw [List.getElem?_cons_succ] at hthk
      rcases List.mem_append.1 (List.mem_of_getElem? hthk) with h | h
      · rw [List.eq_of_mem_replicate h]; norm_num
      · rw [List.mem_singleton.1 h]; norm_num
    have h2 := C225_growth trial z (topDepth (s.rows.map Prod.fst) (i + 1) + 0.1) h0 h1 (by linarith)
    rw [← e] at h2
    refine ⟨h2.1, h2.2.trans ?_⟩
    exact mul_le_mul_of_nonneg_left (by linarith) hg

/-- C225: with a cap, the rows for which the function does not exceed `eta` times the cap keep its velocities. -/
theorem C225_capped (target : ℝ) (z1 : Option ℝ) (cap : CapArg) (eta trial c : ℝ) (hz : 25 / 10 < z1.getD (z1FromVs30 target)) (he0 : 0 < eta)
    (he1 : eta ≤ 1) (hcap : cap.val = some c) (hc : 0 < c) (h0 : 0 < trial) (h1 : trial ≤ 2500) :
    ∃ s, mkSvm target z1 cap eta trial = .ok s ∧
      ∀ (i : ℕ) r, s.rows[i]? = some r → i + 1 < s.rows.length → sediment trial (topDepth (s.rows.map Prod.fst) i + 0.1) ≤ c * eta →
        r.2 = sediment trial (topDepth (s.rows.map Prod.fst) i + 0.1) := by
  have hv := svmVs0_pos h0 h1
  obtain ⟨s, ws, r5, hmk, hws, hsz, -, -, -, hf, hsn, hwl, -⟩ := mkSvm_capped target z1 cap eta trial c hz he0 he1 hcap hc hv
  refine ⟨s, hmk, fun i r hi hil hle => ?_⟩
  rw [← hsz] at hz hws
  have hlen : s.rows.length = svmCount s.z1 + 1 := by
    have := congrArg List.length hf
    obtain ⟨h2, _⟩ := svmCount_bounds hz
    simp at this
    omega
  have htop := (svmTrial_top hz trial i (by omega)).2
  rw [svmTrial_thk hz, ← hf] at htop
  have hat := svmAt_depth trial i _ htop (by rintro rfl; simp [topDepth])
  rw [← hat] at hle ⊢
  have hvi : (s.rows.map Prod.snd)[i]? = some r.2 := by rw [List.getElem?_map, hi]; rfl
  rw [hsn] at hvi
  cases i with
  | zero =>
    have : svmVs0 trial = r.2 := by simpa using hvi
    rw [← this]; simp [svmZ, svmAt_zero]
  | succ j =>
    have hz' : svmZ (j + 1) = (j : ℝ) * (1 / 10) := by simp [svmZ]
    rw [hz'] at hle ⊢
    rw [List.getElem?_cons_succ, List.getElem?_append_left (by rw [List.length_dropLast]; omega), List.getElem?_dropLast,
      if_pos (by omega)] at hvi
    have hsm := svmSmooth_get trial s.z1 j (by omega)
    obtain ⟨ws', hws', _, hval⟩ := capVs_spec (vs := svmSmooth trial s.z1) hc he0 he1
    rw [hws] at hws'
    obtain rfl := Except.ok.inj hws'
    rcases hval with ⟨_, rfl⟩ | ⟨idx, hidx, hgt, _, _, hline⟩
    · rw [hsm] at hvi; exact (Option.some.inj hvi).symm
    · have h2 := hline j (by rw [svmSmooth_length]; omega)
      rw [hvi] at h2
      have hji : j < idx := by
        by_contra hn
        obtain ⟨x, hx, hxc⟩ := hgt
        rw [svmSmooth_length] at hidx
        rw [svmSmooth_get trial s.z1 idx hidx] at hx
        have hle2 : (idx : ℝ) * (1 / 10) ≤ (j : ℝ) * (1 / 10) := by
          have : (idx : ℝ) ≤ j := by exact_mod_cast not_lt.1 hn
          linarith
        have := svmAt_mono hv (by positivity) hle2
        rw [Option.some.inj hx] at this
        linarith
      rw [if_pos hji, hsm] at h2
      exact Option.some.inj h2

/-- For instance a site with Vs30 = 200 m/s and bedrock at 100 m: the uppermost row has 164.4168 m/s. -/
example : ∃ s r, mkSvm 200 (some 100) .no (9 / 10) 200 = .ok s ∧ s.rows[0]? = some r ∧ r.2 = (164.4168 : ℝ) := by
  obtain ⟨s, hs, hz1, hr⟩ := uncapped_rows 200 (some 100) (9 / 10) 200 (by simp; norm_num) (by norm_num) (by norm_num) (by norm_num) (by norm_num)
  refine ⟨s, (24 / 10, svmVs0 200), hs, by rw [hr]; rfl, ?_⟩
  unfold svmVs0
  norm_num

end Verif
