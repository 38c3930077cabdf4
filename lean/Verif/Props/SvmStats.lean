import Verif.Props.SvmRand

set_option linter.unusedSectionVars false
set_option linter.unusedVariables false

/-!
Property C152: the random velocities of `SVM.get_randomized_profile` have the prescribed spread and correlation.
-/

namespace Verif

open Spec

open Finset (range sum_range_succ)

/-! ### The autoregressive sequence in terms of the normal draws -/

/-- Weights of the draws in the `i`-th member of the sequence `Y 0 = g 0`, `Y (i+1) = ρ (i+1) Y i + g (i+1) √(1 - ρ (i+1)²)`. -/
noncomputable def arW (ρ : ℕ → ℝ) : ℕ → ℕ → ℝ
  | 0, j => if j = 0 then 1 else 0
  | i + 1, j => ρ (i + 1) * arW ρ i j + if j = i + 1 then Real.sqrt (1 - ρ (i + 1) ^ 2) else 0

theorem arW_lower (ρ : ℕ → ℝ) : ∀ i j, i < j → arW ρ i j = 0 := by
  intro i
  induction i with
  | zero => intro j h; simp [arW]; omega
  | succ i ih => intro j h; simp [arW, ih j (by omega)]; omega

theorem arW_unit (ρ : ℕ → ℝ) (h : ∀ i, 0 ≤ ρ i ∧ ρ i ≤ 1) (i : ℕ) : ∑ j ∈ range (i + 1), arW ρ i j ^ 2 = 1 := by
  induction i with
  | zero => simp [arW]
  | succ i ih =>
    rw [sum_range_succ]
    have e : ∀ j ∈ range (i + 1), arW ρ (i + 1) j ^ 2 = ρ (i + 1) ^ 2 * arW ρ i j ^ 2 := by
      intro j hj
      have : j ≠ i + 1 := by have := Finset.mem_range.1 hj; omega
      simp [arW, this]; ring
    rw [Finset.sum_congr rfl e, ← Finset.mul_sum, ih]
    have hs : 0 ≤ 1 - ρ (i + 1) ^ 2 := by have := h (i + 1); nlinarith
    simp only [arW, arW_lower ρ i (i + 1) (by omega), if_pos]
    rw [mul_zero, zero_add, Real.sq_sqrt hs]; ring

theorem arW_corr (ρ : ℕ → ℝ) (h : ∀ i, 0 ≤ ρ i ∧ ρ i ≤ 1) (i : ℕ) : ∑ j ∈ range (i + 2), arW ρ i j * arW ρ (i + 1) j = ρ (i + 1) := by
  rw [sum_range_succ, arW_lower ρ i (i + 1) (by omega), zero_mul, add_zero]
  have e : ∀ j ∈ range (i + 1), arW ρ i j * arW ρ (i + 1) j = ρ (i + 1) * arW ρ i j ^ 2 := by
    intro j hj
    have : j ≠ i + 1 := by have := Finset.mem_range.1 hj; omega
    simp [arW, this]; ring
  rw [Finset.sum_congr rfl e, ← Finset.mul_sum, arW_unit ρ h, mul_one]

theorem arW_zero (ρ g : ℕ → ℝ) : ∑ j ∈ range 1, arW ρ 0 j * g j = g 0 := by simp [arW]

theorem arW_succ (ρ g : ℕ → ℝ) (i : ℕ) : ∑ j ∈ range (i + 2), arW ρ (i + 1) j * g j =
    ρ (i + 1) * ∑ j ∈ range (i + 1), arW ρ i j * g j + g (i + 1) * Real.sqrt (1 - ρ (i + 1) ^ 2) := by
  rw [sum_range_succ]
  have e : ∀ j ∈ range (i + 1), arW ρ (i + 1) j * g j = ρ (i + 1) * (arW ρ i j * g j) := by
    intro j hj
    have : j ≠ i + 1 := by have := Finset.mem_range.1 hj; omega
    simp [arW, this]; ring
  rw [Finset.sum_congr rfl e, ← Finset.mul_sum]
  simp only [arW, arW_lower ρ i (i + 1) (by omega), if_pos]
  ring

/-! ### The loop over layers -/

/-- One step of the loop. -/
theorem randVs_cons (vs30 : ℝ) (toro : Bool) (p : List (ℝ × ℝ)) (tops : List ℝ) (prev : Option ℝ) (t z g : ℝ) (l : List (ℝ × ℝ × ℝ))
    (vs : List ℝ) (h : randVs vs30 toro p tops prev ((t, z, g) :: l) = .ok vs) :
    ∃ b y vs', queryClosest p tops z = .ok b ∧ randVs vs30 toro p tops (some y) l = .ok vs' ∧
      vs = b * Real.exp (y * sigmaLn toro vs30 b) :: vs' ∧
      (prev = none → y = g) ∧ (∀ q, prev = some q → y = rho1L vs30 z t * q + g * Real.sqrt (1 - rho1L vs30 z t ^ 2)) := by
  rw [randVs] at h
  cases hq : queryClosest p tops z with
  | error e => simp only [hq, bind, Except.bind] at h; cases h
  | ok b =>
    simp only [hq, bind, Except.bind] at h
    cases prev with
    | none =>
      dsimp only at h
      cases hr : randVs vs30 toro p tops (some g) l with
      | error e => rw [hr] at h; cases h
      | ok vs' => rw [hr] at h; exact ⟨b, g, vs', rfl, hr, (Except.ok.inj h).symm, fun _ => rfl, by simp⟩
    | some q =>
      dsimp only at h
      split_ifs at h with hc
      cases hr : randVs vs30 toro p tops (some (rho1L vs30 z t * q + g * Real.sqrt (1 - rho1L vs30 z t ^ 2))) l with
      | error e => rw [hr] at h; cases h
      | ok vs' => rw [hr] at h; exact ⟨b, _, vs', rfl, hr, (Except.ok.inj h).symm, by simp, fun q' e => by cases e; rfl⟩

theorem randVs_ar (vs30 : ℝ) (toro : Bool) (p : List (ℝ × ℝ)) (hp : Valid p) (tops : List ℝ)
    (ht : thk2dep (p.map Prod.fst) false = .ok tops) (ρ g : ℕ → ℝ) (l : List (ℝ × ℝ × ℝ)) : ∀ (k : ℕ) (vs : List ℝ),
    (∀ (i : ℕ) x, l[i]? = some x → ρ (k + 1 + i) = rho1L vs30 x.2.1 x.1 ∧ g (k + 1 + i) = x.2.2) →
    randVs vs30 toro p tops (some (∑ j ∈ range (k + 1), arW ρ k j * g j)) l = .ok vs →
    ∀ (i : ℕ) x v, l[i]? = some x → vs[i]? = some v → ∃ b, ClosestVs p x.2.1 b ∧
      v = b * Real.exp ((∑ j ∈ range (k + 1 + i + 1), arW ρ (k + 1 + i) j * g j) * sigmaLn toro vs30 b) := by
  induction l with
  | nil => intro k vs _ _ i x v hx; simp at hx
  | cons a l ih =>
    obtain ⟨t, z, w⟩ := a
    intro k vs hl h i x v hx hv
    obtain ⟨b, y, vs', hb, hr, rfl, _, hy⟩ := randVs_cons _ _ _ _ _ _ _ _ _ _ h
    obtain ⟨e1, e2⟩ := hl 0 (t, z, w) rfl
    rw [add_zero] at e1 e2
    have hy' : y = ∑ j ∈ range (k + 1 + 1), arW ρ (k + 1) j * g j := by
      rw [arW_succ, hy _ rfl, e1, e2]
    cases i with
    | zero =>
      simp only [List.getElem?_cons_zero, Option.some.injEq] at hx hv
      subst hx hv
      obtain ⟨v, hv, hcl⟩ := queryClosest_ok p hp.nonempty tops ht z
      rw [hb] at hv
      obtain rfl := Except.ok.inj hv
      exact ⟨b, hcl, by rw [hy']⟩
    | succ i =>
      simp only [List.getElem?_cons_succ] at hx hv
      rw [hy'] at hr
      have := ih (k + 1) vs' (fun i x hx => by
        have := hl (i + 1) x (by simpa using hx)
        rwa [show k + 1 + 1 + i = k + 1 + (i + 1) by ring]) hr i x v hx hv
      rwa [show k + 1 + 1 + i = k + 1 + (i + 1) by ring] at this

/-- C152: whatever the normal draws, the velocity of a layer of a randomised profile is the base velocity closest to its middle times
`exp(Y sigma)`, where `Y` is a combination of the draws whose weights depend on the layering only and have squares summing to 1: for
independent standard normal draws `Y` is standard normal, so that `sigma` is the standard deviation of the logarithm of the velocity.  The
weights of adjacent layers have the inner product `rho_1L` of the lower layer: this is their correlation. -/
theorem C152_unit_variance (s : Svm) (hp : Valid s.rows) (hz : 0 < s.z1) (toro : Bool) (draws : List ℝ)
    (hd : s.z1 ≤ 2 * (draws.length : ℝ)) :
    ∃ (thk : List ℝ) (c : ℕ → ℕ → ℝ), thk.sum = s.z1 ∧ (∀ t ∈ thk, 0 < t) ∧
      (∀ i, ∑ j ∈ range (i + 1), c i j ^ 2 = 1) ∧ (∀ i j, i < j → c i j = 0) ∧
      (∀ (i : ℕ) t, thk[i + 1]? = some t →
        ∑ j ∈ range (i + 2), c i j * c (i + 1) j = rho1L s.vs30 ((topDepth thk (i + 1) + topDepth thk (i + 2)) / 2) t) ∧
      ∀ normals : List ℝ, draws.length ≤ normals.length → ∃ (prof : List (ℝ × ℝ)) (vs : List ℝ), randProfile s toro draws normals = .ok prof ∧
        vs.length = thk.length ∧ (prof = thk.zip vs ∨ prof = thk.zip vs ++ [(0, 1000)]) ∧
        ∀ (i : ℕ) v, vs[i]? = some v → ∃ b, ClosestVs s.rows ((topDepth thk i + topDepth thk (i + 1)) / 2) b ∧
          v = b * Real.exp ((∑ j ∈ range (i + 1), c i j * normals.getD j 0) * sigmaLn toro s.vs30 b) := by
  obtain ⟨raw, e, hne, hsum, hpos, h2, hdr, _⟩ := C52_layering s.z1 hz draws hd
  obtain ⟨raw', e', _, htk, hrl, _, _⟩ := layerLoop_started s.z1 draws 0 false (by simp) hz (by simpa using hd)
  rw [e] at e'
  obtain rfl := Option.some.inj e'
  set thk := closeLayers s.z1 raw with hthk
  have hlast : thk.getLast? ≠ some 0 := by
    intro h
    exact lt_irrefl _ (hpos 0 (List.mem_of_getLast? h))
  obtain ⟨zmid, hzm, hzl, hzget⟩ := C01_thk2dep_midpoints thk hne
  rw [if_neg hlast] at hzl
  obtain ⟨tops, htops, _⟩ := C01_thk2dep_tops (s.rows.map Prod.fst) (by simpa using hp.nonempty)
  have hthkd : thk.length ≤ draws.length := by
    have : thk.length ≤ raw.length ∨ raw = [] := by
      cases raw with
      | nil => right; rfl
      | cons a r => left; rw [hthk]; simp [closeLayers]
    rcases this with h | h
    · omega
    · subst h
      rw [hthk]
      have : 0 < draws.length := by
        by_contra hc
        have : draws.length = 0 := by omega
        rw [this] at hd; simp at hd; linarith
      simp [closeLayers]; omega
  have hnn : ∀ t ∈ thk, 0 ≤ t := fun t ht => (hpos t ht).le
  have hmid : ∀ i, 0 ≤ (topDepth thk i + topDepth thk (i + 1)) / 2 := by
    intro i
    have h5 := topDepth_nonneg hnn i
    have h6 := topDepth_nonneg hnn (i + 1)
    linarith
  let ρ : ℕ → ℝ := fun i => rho1L s.vs30 ((topDepth thk i + topDepth thk (i + 1)) / 2) (thk.getD i 0)
  have hρ : ∀ i, 0 ≤ ρ i ∧ ρ i ≤ 1 := by
    intro i
    refine rho1L_mem _ _ _ (hmid i) ?_
    rw [List.getD_eq_getElem?_getD]
    cases h : thk[i]? with
    | none => exact le_rfl
    | some t => exact hnn t (List.mem_of_getElem? h)
  refine ⟨thk, arW ρ, hsum, hpos, arW_unit ρ hρ, arW_lower ρ, ?_, ?_⟩
  · intro i t ht
    rw [arW_corr ρ hρ]
    show rho1L _ _ (thk.getD (i + 1) 0) = _
    rw [List.getD_eq_getElem?_getD, ht]; rfl
  · intro normals hn
    have hl3 : (thk.zip (zmid.zip normals)).length = thk.length := by
      simp [List.length_zip, hzl]; omega
    have hget : ∀ (i : ℕ) x, (thk.zip (zmid.zip normals))[i]? = some x →
        thk[i]? = some x.1 ∧ x.2.1 = (topDepth thk i + topDepth thk (i + 1)) / 2 ∧ normals[i]? = some x.2.2 := by
      intro i x hx
      rw [List.getElem?_zip_eq_some] at hx
      obtain ⟨h1, h2⟩ := hx
      rw [List.getElem?_zip_eq_some] at h2
      have hil : i < zmid.length := (List.getElem?_eq_some_iff.1 h2.1).1
      rw [hzget i hil] at h2
      exact ⟨h1, (Option.some.inj h2.1).symm, h2.2⟩
    obtain ⟨vs, hvs, hvl, hvpos, _⟩ := randVs_ok s.vs30 toro s.rows hp tops htops (thk.zip (zmid.zip normals)) none (by
      intro x hx
      obtain ⟨i, hi⟩ := List.mem_iff_getElem?.1 hx
      obtain ⟨h1, h2, _⟩ := hget i x hi
      exact ⟨hnn _ (List.mem_of_getElem? h1), by rw [h2]; exact hmid i⟩)
    rw [hl3] at hvl
    have hsne : thk.zip vs ≠ [] := by
      intro h
      have := congrArg List.length h
      have h0 := List.length_pos_iff.2 hne
      simp [hvl] at this
      exact hne this
    obtain ⟨r, hr⟩ : ∃ r, (thk.zip vs).getLast? = some r := by
      cases h : (thk.zip vs).getLast? with
      | none => exact absurd (List.getLast?_eq_none_iff.1 h) hsne
      | some r => exact ⟨r, rfl⟩
    have hrun : randProfile s toro draws normals = .ok (if r.2 < 1000 then thk.zip vs ++ [(0, 1000)] else thk.zip vs) := by
      unfold randProfile
      rw [e]
      simp only [← hthk, hzm, htops, bind, Except.bind, hvs]
      rw [if_neg (by simp [hvl])]
      simp only [hr]
      rfl
    refine ⟨_, vs, hrun, hvl, ?_, ?_⟩
    · by_cases hc : r.2 < 1000
      · right; rw [if_pos hc]
      · left; rw [if_neg hc]
    · let g : ℕ → ℝ := fun i => normals.getD i 0
      have hg : ∀ (i : ℕ) x, (thk.zip (zmid.zip normals))[i]? = some x → ρ i = rho1L s.vs30 x.2.1 x.1 ∧ g i = x.2.2 := by
        intro i x hx
        obtain ⟨h1, h2, h3⟩ := hget i x hx
        show rho1L _ _ (thk.getD i 0) = _ ∧ normals.getD i 0 = _
        rw [List.getD_eq_getElem?_getD, List.getD_eq_getElem?_getD, h1, h2, h3]
        exact ⟨rfl, rfl⟩
      intro i v hv
      have hi : i < (thk.zip (zmid.zip normals)).length := by
        rw [hl3, ← hvl]; exact (List.getElem?_eq_some_iff.1 hv).1
      obtain ⟨x, hx⟩ : ∃ x, (thk.zip (zmid.zip normals))[i]? = some x := ⟨_, List.getElem?_eq_getElem hi⟩
      rw [← (hget i x hx).2.1]
      generalize thk.zip (zmid.zip normals) = l at *
      cases l with
      | nil => simp at hx
      | cons a l =>
        obtain ⟨t, z, w⟩ := a
        obtain ⟨b, y, vs', hb, hr', rfl, hy, _⟩ := randVs_cons _ _ _ _ _ _ _ _ _ _ hvs
        have hy' : y = ∑ j ∈ range (0 + 1), arW ρ 0 j * g j := by
          rw [arW_zero, hy rfl, (hg 0 _ rfl).2]
        cases i with
        | zero =>
          simp only [List.getElem?_cons_zero, Option.some.injEq] at hx hv
          subst hx hv
          obtain ⟨v, hv, hcl⟩ := queryClosest_ok s.rows hp.nonempty tops htops z
          rw [hb] at hv
          obtain rfl := Except.ok.inj hv
          exact ⟨b, hcl, by rw [hy']⟩
        | succ i =>
          simp only [List.getElem?_cons_succ] at hx hv
          rw [hy'] at hr'
          have := randVs_ar s.vs30 toro s.rows hp tops htops ρ g l 0 vs' (fun i x hx => by
            have := hg (i + 1) x (by simpa using hx)
            rwa [show 0 + 1 + i = i + 1 by ring]) hr' i x v hx hv
          rwa [show 0 + 1 + i = i + 1 by ring] at this

/-- C152: the correlation of adjacent layers and the standard deviation of Toro (1995), by site class. -/
theorem C152_table (vs30 z t : ℝ) (hz : 0 ≤ z) :
    (vs30 < 180 → sigmaLn true vs30 z = 0.37 ∧ rho1L vs30 z t = 0.5 * min 1 (z / 200) ^ (0.744 : ℝ)) ∧
    (180 ≤ vs30 → vs30 < 360 → sigmaLn true vs30 z = 0.31 ∧
      1 - rho1L vs30 z t = (1 - 0.98 * min 1 (z / 200) ^ (0.344 : ℝ)) * (1 - 0.99 * Real.exp (-t / 3.9))) ∧
    (360 ≤ vs30 → vs30 < 760 → sigmaLn true vs30 z = 0.27 ∧
      1 - rho1L vs30 z t = (1 - min 1 (z / 200) ^ (0.293 : ℝ)) * (1 - 0.97 * Real.exp (-t / 3.8))) ∧
    (760 ≤ vs30 → sigmaLn true vs30 z = 0.36 ∧
      1 - rho1L vs30 z t = (1 - 0.42 * min 1 (z / 200) ^ (0.063 : ℝ)) * (1 - 0.95 * Real.exp (-t / 3.4))) := by
  have key : ∀ r b : ℝ, (if 200 < z then r else r * ((z + 0) / (200 + 0)) ^ b) = r * min 1 (z / 200) ^ b := by
    intro r b
    by_cases h : 200 < z
    · rw [if_pos h, min_eq_left (by rw [le_div_iff₀ (by norm_num)]; linarith), Real.one_rpow, mul_one]
    · rw [if_neg h, min_eq_right (by rw [div_le_one (by norm_num)]; linarith), add_zero, add_zero]
  refine ⟨fun h => ?_, fun h1 h2 => ?_, fun h1 h2 => ?_, fun h1 => ?_⟩
  · have e : toroCoef vs30 = (37 / 100, 0, 5, 50 / 100, 744 / 1000) := by unfold toroCoef; rw [if_pos h]
    unfold sigmaLn rho1L
    rw [e]
    simp only [if_true, key]
    norm_num
  · have e : toroCoef vs30 = (31 / 100, 99 / 100, 39 / 10, 98 / 100, 344 / 1000) := by
      unfold toroCoef; rw [if_neg (not_lt.2 h1), if_pos h2]
    unfold sigmaLn rho1L
    rw [e]
    simp only [if_true, key]
    constructor
    · norm_num
    · norm_num; ring
  · have e : toroCoef vs30 = (27 / 100, 97 / 100, 38 / 10, 1, 293 / 1000) := by
      unfold toroCoef; rw [if_neg (by linarith), if_neg (not_lt.2 h1), if_pos h2]
    unfold sigmaLn rho1L
    rw [e]
    simp only [if_true, key]
    constructor
    · norm_num
    · norm_num; ring
  · have e : toroCoef vs30 = (36 / 100, 95 / 100, 34 / 10, 42 / 100, 63 / 1000) := by
      unfold toroCoef; rw [if_neg (by linarith), if_neg (by linarith), if_neg (not_lt.2 h1)]
    unfold sigmaLn rho1L
    rw [e]
    simp only [if_true, key]
    constructor
    · norm_num
    · norm_num; ring

/-- C152, partial: the standard deviation of Shi & Asimaki (2018) lies between 0.08 and 0.43 for velocities up to 1500 m/s.  Missing: faster
velocities (`C152_negative_violated`). -/
theorem C152_sigma_partial (vs30 v : ℝ) (h0 : 0 ≤ v) (h1 : v ≤ 1500) : 0.08 < sigmaLn false vs30 v ∧ sigmaLn false vs30 v < 0.43 := by
  unfold sigmaLn
  rw [if_neg (by simp)]
  constructor
  · rcases le_or_gt v 900 with h | h
    · nlinarith [sq_nonneg (v - 380), mul_nonneg h0 (sq_nonneg (v - 380)), mul_nonneg (sub_nonneg.2 h) (sq_nonneg (v - 380))]
    · nlinarith [sq_nonneg (v - 1000), mul_nonneg (sub_nonneg.2 h1) (sub_nonneg.2 h.le), mul_nonneg (mul_nonneg (sub_nonneg.2 h1) (sub_nonneg.2 h.le)) h0]
  · rcases le_or_gt v 900 with h | h
    · nlinarith [sq_nonneg (v - 380), mul_nonneg h0 (sq_nonneg (v - 380)), mul_nonneg (sub_nonneg.2 h) h0]
    · nlinarith [sq_nonneg (v - 1000), mul_nonneg (sub_nonneg.2 h1) (sub_nonneg.2 h.le), mul_nonneg h0 (sq_nonneg (v - 1000))]

/-- C152, violated: from 1600 m/s on, which profiles with a larger `Vs_cap` contain, the "standard deviation" is negative and falls without
bound. -/
theorem C152_negative_violated (vs30 v : ℝ) (h : 1600 ≤ v) : sigmaLn false vs30 v < 0 ∧ sigmaLn false vs30 (2 * v) < sigmaLn false vs30 v := by
  unfold sigmaLn
  rw [if_neg (by simp), if_neg (by simp)]
  have h0 : 0 ≤ v - 1600 := by linarith
  constructor <;> nlinarith [mul_nonneg h0 h0, mul_nonneg h0 (mul_nonneg h0 h0)]

/-- Site class C, a layer of 3.8 m at 300 m depth: complete correlation. -/
example : rho1L 500 300 3.8 = 1 := by
  have := ((C152_table 500 300 3.8 (by norm_num)).2.2.1 (by norm_num) (by norm_num)).2
  rw [min_eq_left (by norm_num), Real.one_rpow] at this
  linarith

end Verif
