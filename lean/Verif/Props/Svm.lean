import Verif.Proof.Svm

set_option linter.unusedSectionVars false
set_option linter.unusedVariables false

/-!
Properties C50, C51, C108: the base profile of the sediment velocity model and its
discretisation.
-/

namespace Verif

open Spec

/-! ## C50 -/

/-- `eta` outside of (0, 1] is rejected. -/
theorem C50_eta_rejected (target : ℝ) (z1 : Option ℝ) (cap : CapArg) (eta trial : ℝ) (h : eta ≤ 0 ∨ 1 < eta) :
    mkSvm target z1 cap eta trial = .error .valueError := by
  unfold mkSvm
  rw [if_pos h]

theorem getElem?_dropLast_append {α : Type} (l : List α) (c : α) (i : Nat) (h : i + 1 < l.length) :
    (l.dropLast ++ [c])[i]? = l[i]? := by
  rw [List.getElem?_append_left (by simp; omega), List.getElem?_dropLast, if_pos (by omega)]

/-- With a cap `c` of at least `Vs0 / eta`, or one which no velocity of the formula exceeds: the base profile exists, is valid, its velocities do not decrease with depth
and do not exceed `c`; it starts with 2.4 m of velocity `Vs0`, continues with layers of 10 cm and ends with a half space
of velocity `c`.  The velocities of the formula are kept wherever they do not exceed `eta · c`, and everywhere if none
exceeds `c`.  Missing: other caps below `Vs0 / eta`, see `C50_low_cap_violated`. -/
theorem C50_capped_partial (target : ℝ) (z1 : Option ℝ) (cap : CapArg) (eta trial c : ℝ)
    (hz : 25 / 10 < z1.getD (z1FromVs30 target)) (he0 : 0 < eta) (he1 : eta ≤ 1) (hcap : cap.val = some c)
    (hv0 : 0 < trial) (hv1 : trial ≤ 2500) 
    (hc : svmVs0 trial ≤ c * eta ∨ ∀ j < svmCount (z1.getD (z1FromVs30 target)), svmAt trial ((j : ℝ) * (1 / 10)) ≤ c) :
    ∃ s, mkSvm target z1 cap eta trial = .ok s ∧ Valid s.rows ∧
      (s.rows.map Prod.snd).Pairwise (· ≤ ·) ∧ (∀ r ∈ s.rows, r.2 ≤ c) ∧
      s.rows.head? = some (24 / 10, svmVs0 trial) ∧ s.rows.getLast? = some (0, c) ∧
      s.rows.length = svmCount s.z1 + 1 ∧
      ∀ i, i + 1 < svmCount s.z1 → ∃ w, s.rows[i + 1]? = some (1 / 10, w) ∧
        (svmAt trial ((i : ℝ) * (1 / 10)) ≤ c * eta → w = svmAt trial ((i : ℝ) * (1 / 10))) ∧
        ((∀ j < svmCount s.z1, svmAt trial ((j : ℝ) * (1 / 10)) ≤ c) → w = svmAt trial ((i : ℝ) * (1 / 10))) := by
  have hv := svmVs0_pos hv0 hv1
  obtain ⟨hn2z, _⟩ := svmCount_bounds hz
  have hcp : 0 < c := by
    rcases hc with hc | hc
    · by_contra h
      have := mul_nonpos_of_nonpos_of_nonneg (not_lt.1 h) he0.le
      nlinarith [not_lt.1 h]
    · have := hc 0 (by omega)
      rw [Nat.cast_zero, zero_mul, svmAt_zero] at this
      linarith
  have hVc : svmVs0 trial ≤ c := by
    rcases hc with hc | hc
    · nlinarith
    · have := hc 0 (by omega)
      rwa [Nat.cast_zero, zero_mul, svmAt_zero] at this
  obtain ⟨s, ws, r5, hmk, hws, hsz, hs30, hb, hhb, hf, hsn, hwl, hval, hcons, hconstr, htv⟩ :=
    mkSvm_capped target z1 cap eta trial c hz he0 he1 hcap hcp hv
  have hz' : 25 / 10 < s.z1 := by rw [hsz]; exact hz
  obtain ⟨hn2, _⟩ := svmCount_bounds hz'
  rw [← hsz] at hws
  obtain ⟨ws', hws', hwl', hcase⟩ := capVs_spec (vs := svmSmooth trial s.z1) hcp he0 he1
  have : ws' = ws := Except.ok.inj (hws'.symm.trans hws)
  subst this
  -- values of the capped list
  have hwget : ∀ i < svmCount s.z1, ∃ w, ws'[i]? = some w ∧ w ≤ c ∧ svmVs0 trial ≤ w ∧
      (svmAt trial ((i : ℝ) * (1 / 10)) ≤ c * eta → w = svmAt trial ((i : ℝ) * (1 / 10))) ∧
      ((∀ j < svmCount s.z1, svmAt trial ((j : ℝ) * (1 / 10)) ≤ c) → w = svmAt trial ((i : ℝ) * (1 / 10))) := by
    intro i hi
    have hlow : svmVs0 trial ≤ svmAt trial ((i : ℝ) * (1 / 10)) := by
      rw [← svmAt_zero]; exact svmAt_mono hv le_rfl (by positivity)
    rcases hcase with ⟨hall, rfl⟩ | ⟨idx, hidx, ⟨x, hx, hxgt⟩, hbelow, ⟨y, hy, hyc⟩, hline⟩
    · refine ⟨_, svmSmooth_get _ _ _ hi, hall _ (List.mem_of_getElem? (svmSmooth_get _ _ _ hi)), hlow, fun _ => rfl, fun _ => rfl⟩
    · have hli := hline i (by rw [svmSmooth_length]; exact hi)
      rw [svmSmooth_length] at hidx
      by_cases hlt : i < idx
      · rw [if_pos hlt, svmSmooth_get _ _ _ hi] at hli
        have hle := hbelow i _ (svmSmooth_get _ _ _ hi) hlt
        exact ⟨_, hli, hle.trans (by nlinarith), hlow, fun _ => rfl, fun _ => rfl⟩
      · rw [if_neg hlt] at hli
        have hcl := cap_line (K := ℝ) hcp he0 he1 (not_lt.1 hlt) (show i < (svmSmooth trial s.z1).length by rw [svmSmooth_length]; exact hi)
        have hc' : svmVs0 trial ≤ c * eta := by
          rcases hc with hc | hc
          · exact hc
          · exfalso
            obtain ⟨j, hj⟩ := List.mem_iff_getElem?.1 hy
            have hjl : j < svmCount s.z1 := by
              by_contra hn
              rw [List.getElem?_eq_none (by rw [svmSmooth_length]; omega)] at hj
              cases hj
            rw [svmSmooth_get _ _ _ hjl] at hj
            rw [← hsz] at hc
            have := hc j hjl
            rw [Option.some.inj hj] at this
            linarith
        refine ⟨_, hli, hcl.2, hc'.trans hcl.1, ?_, ?_⟩
        · intro hle
          exfalso
          rw [svmSmooth_get _ _ _ hidx] at hx
          rw [← Option.some.inj hx] at hxgt
          have : svmAt trial ((idx : ℝ) * (1 / 10)) ≤ svmAt trial ((i : ℝ) * (1 / 10)) := by
            apply svmAt_mono hv (by positivity)
            have : (idx : ℝ) ≤ i := by exact_mod_cast not_lt.1 hlt
            linarith
          linarith
        · intro hall
          exfalso
          obtain ⟨j, hj⟩ := List.mem_iff_getElem?.1 hy
          have hjl : j < svmCount s.z1 := by
            by_contra hn
            rw [List.getElem?_eq_none (by rw [svmSmooth_length]; omega)] at hj
            cases hj
          rw [svmSmooth_get _ _ _ hjl] at hj
          have := hall j hjl
          rw [Option.some.inj hj] at this
          linarith
  have hwmono : ∀ (i j : Nat) a b, i < j → ws'[i]? = some a → ws'[j]? = some b → a ≤ b := by
    intro i j a b hij ha hb'
    have hjl : j < svmCount s.z1 := by
      by_contra hn; rw [List.getElem?_eq_none (by omega)] at hb'; cases hb'
    have hil : i < svmCount s.z1 := by omega
    have hsmooth : svmAt trial ((i : ℝ) * (1 / 10)) ≤ svmAt trial ((j : ℝ) * (1 / 10)) := by
      apply svmAt_mono hv (by positivity)
      have : (i : ℝ) ≤ j := by exact_mod_cast hij.le
      linarith
    rcases hcase with ⟨hall, rfl⟩ | ⟨idx, hidx, _, hbelow, _, hline⟩
    · rw [svmSmooth_get _ _ _ hil] at ha
      rw [svmSmooth_get _ _ _ hjl] at hb'
      rw [← Option.some.inj ha, ← Option.some.inj hb']
      exact hsmooth
    · have hli := hline i (by rw [svmSmooth_length]; exact hil)
      have hlj := hline j (by rw [svmSmooth_length]; exact hjl)
      rw [ha] at hli
      rw [hb'] at hlj
      by_cases h1 : i < idx
      · rw [if_pos h1, svmSmooth_get _ _ _ hil] at hli
        have e1 := Option.some.inj hli
        have hle := hbelow i _ (svmSmooth_get _ _ _ hil) h1
        by_cases h2 : j < idx
        · rw [if_pos h2, svmSmooth_get _ _ _ hjl] at hlj
          rw [e1, Option.some.inj hlj]; exact hsmooth
        · rw [if_neg h2] at hlj
          have hcl := cap_line (K := ℝ) hcp he0 he1 (not_lt.1 h2) (show j < (svmSmooth trial s.z1).length by rw [svmSmooth_length]; exact hjl)
          rw [e1, Option.some.inj hlj]
          exact hle.trans hcl.1
      · have h2 : ¬ j < idx := by omega
        rw [if_neg h1] at hli
        rw [if_neg h2] at hlj
        rw [Option.some.inj hli, Option.some.inj hlj]
        have hn : (0 : ℝ) < ((svmSmooth trial s.z1).length : ℝ) - idx := by
          have : (idx : ℝ) < ((svmSmooth trial s.z1).length : ℝ) := by exact_mod_cast hidx
          linarith
        have hd : 0 ≤ c * (1 - eta) / (((svmSmooth trial s.z1).length : ℝ) - idx) :=
          div_nonneg (mul_nonneg hcp.le (by linarith)) hn.le
        have hij' : (i : ℝ) - idx ≤ (j : ℝ) - idx := by
          have : (i : ℝ) ≤ j := by exact_mod_cast hij.le
          linarith
        have := mul_le_mul_of_nonneg_left hij' hd
        linarith
  have hmemw : ∀ x ∈ ws', x ≤ c ∧ svmVs0 trial ≤ x := by
    intro x hx
    obtain ⟨i, hi⟩ := List.mem_iff_getElem?.1 hx
    have hil : i < svmCount s.z1 := by
      by_contra hn; rw [List.getElem?_eq_none (by omega)] at hi; cases hi
    obtain ⟨w, hw, h1, h2, _⟩ := hwget i hil
    rw [hw] at hi
    cases hi
    exact ⟨h1, h2⟩
  have hlen : s.rows.length = svmCount s.z1 + 1 := by
    have := congrArg List.length hf
    simp at this
    omega
  refine ⟨s, hmk, hval, ?_, ?_, ?_, ?_, hlen, ?_⟩
  · rw [hsn, List.pairwise_cons]
    constructor
    · intro x hx
      rcases List.mem_append.1 hx with h | h
      · exact (hmemw x (List.mem_of_mem_dropLast h)).2
      · simp only [List.mem_singleton] at h
        rw [h]; exact hVc
    · rw [List.pairwise_append]
      refine ⟨?_, by simp, ?_⟩
      · have : ws'.Pairwise (· ≤ ·) := by
          rw [List.pairwise_iff_getElem]
          intro i j hi hj hij
          exact hwmono i j _ _ hij (List.getElem?_eq_getElem hi) (List.getElem?_eq_getElem hj)
        exact this.sublist (List.dropLast_sublist _)
      · intro a ha b hb'
        simp only [List.mem_singleton] at hb'
        rw [hb']
        exact (hmemw a (List.mem_of_mem_dropLast ha)).1
  · intro r hr
    have : r.2 ∈ s.rows.map Prod.snd := List.mem_map_of_mem hr
    rw [hsn] at this
    rcases List.mem_cons.1 this with h | h
    · rw [h]; exact hVc
    · rcases List.mem_append.1 h with h | h
      · exact (hmemw _ (List.mem_of_mem_dropLast h)).1
      · simp only [List.mem_singleton] at h; exact h.le
  · cases hr : s.rows with
    | nil => rw [hr] at hf; cases hf
    | cons r rs =>
      rw [hr] at hf hsn
      simp only [List.map_cons, List.cons.injEq] at hf hsn
      simp only [List.head?_cons, Option.some.injEq]
      exact Prod.ext hf.1 hsn.1
  · have h1 : (s.rows.map Prod.fst).getLast? = some 0 := by rw [hf, ← List.cons_append, List.getLast?_concat]
    have h2 : (s.rows.map Prod.snd).getLast? = some c := by rw [hsn, ← List.cons_append, List.getLast?_concat]
    rw [List.getLast?_map] at h1 h2
    cases hl : s.rows.getLast? with
    | none => rw [hl] at h1; cases h1
    | some r =>
      rw [hl] at h1 h2
      simp only [Option.map_some, Option.some.injEq] at h1 h2 ⊢
      exact Prod.ext h1 h2
  · intro i hi
    obtain ⟨w, hw, _, _, h3, h4⟩ := hwget i (by omega)
    refine ⟨w, ?_, h3, h4⟩
    have h1 : (s.rows.map Prod.fst)[i + 1]? = some (1 / 10) := by
      rw [hf, List.getElem?_cons_succ, List.getElem?_append_left (by simp; omega), List.getElem?_replicate, if_pos (by omega)]
    have h2 : (s.rows.map Prod.snd)[i + 1]? = some w := by
      rw [hsn, List.getElem?_cons_succ, getElem?_dropLast_append _ _ _ (by omega), hw]
    rw [List.getElem?_map] at h1 h2
    cases hl : s.rows[i + 1]? with
    | none => rw [hl] at h1; cases h1
    | some r =>
      rw [hl] at h1 h2
      simp only [Option.map_some, Option.some.injEq] at h1 h2 ⊢
      exact Prod.ext h1 h2

/-- The hypotheses hold for instance for Vs30 = 200 m/s, z1 = 100 m and the default cap: Vs0 = 164.4 m/s. -/
example : ∃ s, mkSvm 200 (some 100) .yes (9 / 10) 200 = .ok s ∧ s.rows.getLast? = some (0, 1000) := by
  obtain ⟨s, h, _, _, _, _, hl, _⟩ := C50_capped_partial 200 (some 100) .yes (9 / 10) 200 1000 (by simp; norm_num)
    (by norm_num) (by norm_num) rfl (by norm_num) (by norm_num) (.inl (by unfold svmVs0; norm_num))
  exact ⟨s, h, hl⟩

/-- For every positive cap below `Vs0 / eta` that some velocity of the formula exceeds, the velocity decreases below the first
layer, to `eta` times the cap. -/
theorem C50_low_cap_violated (target : ℝ) (z1 : Option ℝ) (cap : CapArg) (eta trial c : ℝ)
    (hz : 25 / 10 < z1.getD (z1FromVs30 target)) (he0 : 0 < eta) (he1 : eta ≤ 1)
    (hcap : cap.val = some c)
    (hv0 : 0 < trial) (hv1 : trial ≤ 2500) (hc0 : 0 < c) (hc : c * eta < svmVs0 trial)
    (hex : ∃ j < svmCount (z1.getD (z1FromVs30 target)), c < svmAt trial ((j : ℝ) * (1 / 10))) :
    ∃ s, mkSvm target z1 cap eta trial = .ok s ∧ s.rows[0]? = some (24 / 10, svmVs0 trial) ∧
      s.rows[1]? = some (1 / 10, c * eta) ∧ c * eta < svmVs0 trial := by
  have hv := svmVs0_pos hv0 hv1
  obtain ⟨s, ws, r5, hmk, hws, hsz, hs30, hb, hhb, hf, hsn, hwl, hval, hcons, hconstr, htv⟩ :=
    mkSvm_capped target z1 cap eta trial c hz he0 he1 hcap hc0 hv
  have hz' : 25 / 10 < s.z1 := by rw [hsz]; exact hz
  obtain ⟨hn2, _⟩ := svmCount_bounds hz'
  rw [← hsz] at hws
  obtain ⟨ws', hws', hwl', hcase⟩ := capVs_spec (vs := svmSmooth trial s.z1) hc0 he0 he1
  have : ws' = ws := Except.ok.inj (hws'.symm.trans hws)
  subst this
  have hs0 := svmSmooth_get trial s.z1 0 (by omega)
  rw [Nat.cast_zero, zero_mul, svmAt_zero] at hs0
  have hw0 : ws'[0]? = some (c * eta) := by
    rcases hcase with ⟨hall, rfl⟩ | ⟨idx, hidx, _, hbelow, _, hline⟩
    · obtain ⟨j, hj, hjc⟩ := hex
      rw [← hsz] at hj
      exact absurd (hall _ (List.mem_of_getElem? (svmSmooth_get _ _ _ hj))) (not_le.2 hjc)
    · have hi0 : idx = 0 := by
        by_contra hne
        have := hbelow 0 _ hs0 (by omega)
        linarith
      have := hline 0 (by rw [svmSmooth_length]; omega)
      rw [if_neg (by omega), hi0] at this
      simpa using this
  refine ⟨s, hmk, ?_, ?_, hc⟩
  · cases hr : s.rows with
    | nil => rw [hr] at hf; cases hf
    | cons r rs =>
      rw [hr] at hf hsn
      simp only [List.map_cons, List.cons.injEq] at hf hsn
      simp only [List.getElem?_cons_zero, Option.some.injEq]
      exact Prod.ext hf.1 hsn.1
  · have h1 : (s.rows.map Prod.fst)[1]? = some (1 / 10) := by
      rw [hf, List.getElem?_cons_succ, List.getElem?_append_left (by simp; omega), List.getElem?_replicate, if_pos (by omega)]
    have h2 : (s.rows.map Prod.snd)[1]? = some (c * eta) := by
      rw [hsn, List.getElem?_cons_succ, getElem?_dropLast_append _ _ _ (by omega), hw0]
    rw [List.getElem?_map] at h1 h2
    cases hl : s.rows[1]? with
    | none => rw [hl] at h1; cases h1
    | some r =>
      rw [hl] at h1 h2
      simp only [Option.map_some, Option.some.injEq] at h1 h2 ⊢
      exact Prod.ext h1 h2

/-- For every positive cap below the velocity `Vs0` of the topmost layer the profile is built all the same; its first layer
exceeds the cap and the velocity decreases below it. -/
theorem C50_cap_violated (target : ℝ) (z1 : Option ℝ) (eta trial c : ℝ)
    (hz : 25 / 10 < z1.getD (z1FromVs30 target)) (he0 : 0 < eta) (he1 : eta ≤ 1)
    (hv0 : 0 < trial) (hv1 : trial ≤ 2500) (hc0 : 0 < c) (hc : c < svmVs0 trial) :
    ∃ s, mkSvm target z1 (.num c) eta trial = .ok s ∧ s.rows[0]? = some (24 / 10, svmVs0 trial) ∧
      s.rows[1]? = some (1 / 10, c * eta) ∧ c < svmVs0 trial ∧ c * eta < svmVs0 trial := by
  obtain ⟨hn2, _⟩ := svmCount_bounds hz
  have hce : c * eta < svmVs0 trial := by nlinarith
  obtain ⟨s, h1, h2, h3, h4⟩ := C50_low_cap_violated target z1 (.num c) eta trial c hz he0 he1 rfl hv0 hv1 hc0 hce
    ⟨0, by omega, by rw [Nat.cast_zero, zero_mul, svmAt_zero]; exact hc⟩
  exact ⟨s, h1, h2, h3, hc, h4⟩

/-- Exactly for which caps the property holds: the velocities do not decrease and stay within the cap if and only if the cap is
at least `Vs0 / eta` or no velocity of the formula exceeds it. -/
theorem C50_exact (target : ℝ) (z1 : Option ℝ) (cap : CapArg) (eta trial c : ℝ)
    (hz : 25 / 10 < z1.getD (z1FromVs30 target)) (he0 : 0 < eta) (he1 : eta ≤ 1) (hcap : cap.val = some c)
    (hv0 : 0 < trial) (hv1 : trial ≤ 2500) (hc0 : 0 < c) :
    ∃ s, mkSvm target z1 cap eta trial = .ok s ∧
      (((s.rows.map Prod.snd).Pairwise (· ≤ ·) ∧ ∀ r ∈ s.rows, r.2 ≤ c) ↔
        (svmVs0 trial ≤ c * eta ∨ ∀ j < svmCount s.z1, svmAt trial ((j : ℝ) * (1 / 10)) ≤ c)) := by
  by_cases h : svmVs0 trial ≤ c * eta ∨ ∀ j < svmCount (z1.getD (z1FromVs30 target)), svmAt trial ((j : ℝ) * (1 / 10)) ≤ c
  · obtain ⟨s, hs, _, hp, hle, _⟩ := C50_capped_partial target z1 cap eta trial c hz he0 he1 hcap hv0 hv1 h
    obtain ⟨s', _, _, hs', _, hsz, _⟩ := mkSvm_capped target z1 cap eta trial c hz he0 he1 hcap hc0 (svmVs0_pos hv0 hv1)
    rw [hs] at hs'
    obtain rfl := Except.ok.inj hs'
    exact ⟨s, hs, fun _ => by rw [hsz]; exact h, fun _ => ⟨hp, hle⟩⟩
  · rw [not_or] at h
    obtain ⟨h1, h2⟩ := h
    push Not at h2
    obtain ⟨s, hs, hr0, hr1, hlt⟩ := C50_low_cap_violated target z1 cap eta trial c hz he0 he1 hcap hv0 hv1 hc0 (not_le.1 h1) h2
    obtain ⟨s', _, _, hs', _, hsz, _⟩ := mkSvm_capped target z1 cap eta trial c hz he0 he1 hcap hc0 (svmVs0_pos hv0 hv1)
    rw [hs] at hs'
    obtain rfl := Except.ok.inj hs'
    refine ⟨s, hs, ?_, ?_⟩
    · rintro ⟨hp, -⟩
      exfalso
      match hr : s.rows, hr0, hr1, hp with
      | a :: b :: l, hr0, hr1, hp =>
        simp only [List.getElem?_cons_zero, List.getElem?_cons_succ, Option.some.injEq] at hr0 hr1
        subst hr0 hr1
        simp only [List.map_cons, List.pairwise_cons] at hp
        have := hp.1 (c * eta) (by simp)
        linarith
      | [], hr0, _, _ => cases hr0
      | [a], _, hr1, _ => cases hr1
    · rintro (h | h)
      · exact absurd h h1
      · obtain ⟨j, hj, hjc⟩ := h2
        rw [← hsz] at hj
        exact absurd (h j hj) (not_le.2 hjc)

/-- For instance Vs30 = 200 m/s with a cap of 150 m/s. -/
example : ∃ s, mkSvm 200 (some 100) (.num 150) (9 / 10) 200 = .ok s ∧ s.rows[0]? = some (24 / 10, 1644168 / 10000) := by
  obtain ⟨s, h, h0, _⟩ := C50_cap_violated 200 (some 100) (9 / 10) 200 150 (by simp; norm_num)
    (by norm_num) (by norm_num) (by norm_num) (by norm_num) (by norm_num) (by unfold svmVs0; norm_num)
  refine ⟨s, h, ?_⟩
  rw [h0]
  unfold svmVs0
  norm_num

/-! ## C108 -/

theorem sum_svm_thk (n : ℕ) (hn : 1 ≤ n) :
    ((24 / 10 : ℝ) :: (List.replicate (n - 1) (1 / 10 : ℝ) ++ [0])).sum = 24 / 10 + ((n : ℝ) - 1) * (1 / 10) := by
  rw [List.sum_cons, List.sum_append, List.sum_replicate, nsmul_eq_mul, Nat.cast_sub hn]
  simp

/-- The depth of the base profile is within 10 cm of `z1`. -/
theorem C108_depth_partial (target : ℝ) (z1 : Option ℝ) (cap : CapArg) (eta trial c : ℝ)
    (hz : 25 / 10 < z1.getD (z1FromVs30 target)) (he0 : 0 < eta) (he1 : eta ≤ 1) (hcap : cap.val = some c)
    (hv0 : 0 < trial) (hv1 : trial ≤ 2500) (hc : 0 < c) :
    ∃ s, mkSvm target z1 cap eta trial = .ok s ∧ s.z1 = z1.getD (z1FromVs30 target) ∧
      s.z1 - 1 / 10 ≤ s.obj.zMax ∧ s.obj.zMax = (s.rows.map Prod.fst).sum ∧ s.obj.nLayer = svmCount s.z1 := by
  obtain ⟨s, ws, r5, hmk, hws, hsz, hs30, hb, hhb, hf, hsn, hwl, hval, hcons, hconstr, htv⟩ :=
    mkSvm_capped target z1 cap eta trial c hz he0 he1 hcap hc (svmVs0_pos hv0 hv1)
  have hz' : 25 / 10 < s.z1 := by rw [hsz]; exact hz
  obtain ⟨hn2, hle, hlt⟩ := svmCount_bounds hz'
  have hthk : r5.map Row.thk = s.rows.map Prod.fst := by rw [← map_thk_of_tv, htv]
  refine ⟨s, hmk, hsz, ?_, by rw [hconstr.zmax, hthk], ?_⟩
  · rw [hconstr.zmax, hthk, hf, sum_svm_thk _ (by omega)]
    linarith
  · rw [hconstr.nlayer, hthk, hf, if_pos (by rw [← List.cons_append, List.getLast?_concat])]
    have : r5.length = s.rows.length := by rw [← htv, List.length_map]
    have h2 : s.rows.length = (s.rows.map Prod.fst).length := by simp
    rw [this, h2, hf]
    simp
    omega

/-- On sediments deeper than 2.5 m the half space always lies above `z1`. -/
theorem C108_depth_violated (target : ℝ) (z1 : Option ℝ) (cap : CapArg) (eta trial c : ℝ)
    (hz : 25 / 10 < z1.getD (z1FromVs30 target)) (he0 : 0 < eta) (he1 : eta ≤ 1) (hcap : cap.val = some c)
    (hv0 : 0 < trial) (hv1 : trial ≤ 2500) (hc : 0 < c) :
    ∃ s, mkSvm target z1 cap eta trial = .ok s ∧ s.obj.zMax < s.z1 := by
  obtain ⟨s, ws, r5, hmk, hws, hsz, hs30, hb, hhb, hf, hsn, hwl, hval, hcons, hconstr, htv⟩ :=
    mkSvm_capped target z1 cap eta trial c hz he0 he1 hcap hc (svmVs0_pos hv0 hv1)
  have hz' : 25 / 10 < s.z1 := by rw [hsz]; exact hz
  obtain ⟨hn2, hle, hlt⟩ := svmCount_bounds hz'
  have hthk : r5.map Row.thk = s.rows.map Prod.fst := by rw [← map_thk_of_tv, htv]
  refine ⟨s, hmk, ?_⟩
  rw [hconstr.zmax, hthk, hf, sum_svm_thk _ (by omega)]
  exact hlt

theorem mkSvm_shallow (target : ℝ) (z1 : Option ℝ) (cap : CapArg) (eta trial : ℝ)
    (hz0 : 0 < z1.getD (z1FromVs30 target)) (hz : z1.getD (z1FromVs30 target) ≤ 25 / 10) (he0 : 0 < eta) (he1 : eta ≤ 1)
    (hv0 : 0 < target) (hv1 : target ≤ 2500) :
    ∃ s r5, mkSvm target z1 cap eta trial = .ok s ∧ s.z1 = z1.getD (z1FromVs30 target) ∧
      s.rows = [(s.z1, svmVs0 target), (0, 1000)] ∧ s.bedrock = cap.bedrock ∧ Valid s.rows ∧
      Consistent s.store s.obj r5 ∧ Constructed r5 s.obj ∧ r5.map Row.tv = s.rows := by
  set z := z1.getD (z1FromVs30 target) with hzdef
  have hv := svmVs0_pos hv0 hv1
  have hvalid : Valid [(z, svmVs0 target), (0, (1000 : ℝ))] := by
    refine ⟨by simp, ?_, ?_, ?_⟩
    · intro r hr; simp at hr; rw [hr]; exact hz0
    · intro r hr
      simp only [List.mem_cons, List.not_mem_nil, or_false] at hr
      rcases hr with rfl | rfl
      · exact hz0.le
      · exact le_rfl
    · intro r hr
      simp only [List.mem_cons, List.not_mem_nil, or_false] at hr
      rcases hr with rfl | rfl
      · exact hv
      · norm_num
  obtain ⟨o, σ', r5, hmk, hcons, hconstr, htv⟩ := profileOf [] _ hvalid
  refine ⟨⟨target, z, [(z, svmVs0 target), (0, 1000)], o, σ', cap.bedrock, match cap with | .no => false | _ => true⟩, r5, ?_, rfl, rfl, rfl,
    hvalid, hcons, hconstr, htv⟩
  unfold mkSvm
  rw [if_neg (by rintro (h | h) <;> linarith)]
  dsimp only
  rw [← hzdef]
  have hr : svmRows target trial z eta cap = .ok ([(z, svmVs0 target), (0, 1000)], cap) := by
    unfold svmRows; rw [if_pos hz]
  rw [hr]
  simp only [bind, Except.bind]
  rw [show ([Cell.two [(z, svmVs0 target), (0, 1000)]] : Store ℝ) = [] ++ [Cell.two [(z, svmVs0 target), (0, 1000)]] from rfl,
    show (0 : ℕ) = ([] : Store ℝ).length from rfl, hmk]
  rfl

/-- On shallower sediments it lies at `z1`. -/
theorem C108_shallow (target : ℝ) (z1 : Option ℝ) (cap : CapArg) (eta trial : ℝ)
    (hz0 : 0 < z1.getD (z1FromVs30 target)) (hz : z1.getD (z1FromVs30 target) ≤ 25 / 10) (he0 : 0 < eta) (he1 : eta ≤ 1)
    (hv0 : 0 < target) (hv1 : target ≤ 2500) :
    ∃ s, mkSvm target z1 cap eta trial = .ok s ∧ s.obj.zMax = s.z1 ∧ s.obj.nLayer = 1 := by
  obtain ⟨s, r5, hmk, hsz, hrows, hb, hval, hcons, hconstr, htv⟩ :=
    mkSvm_shallow target z1 cap eta trial hz0 hz he0 he1 hv0 hv1
  have hthk : r5.map Row.thk = s.rows.map Prod.fst := by rw [← map_thk_of_tv, htv]
  have hl : r5.length = 2 := by
    have : r5.length = s.rows.length := by rw [← htv, List.length_map]
    rw [this, hrows]; rfl
  refine ⟨s, hmk, ?_, ?_⟩
  · rw [hconstr.zmax, hthk, hrows]; simp
  · rw [hconstr.nlayer, hthk, hrows, hl]; simp

/-- Without `z1` the correlation of the package is used, which gives a positive depth below 140.511 m. -/
theorem C108_default_z1 (v : ℝ) (hv : 0 < v) : 0 < z1FromVs30 v ∧ z1FromVs30 v < 140511 / 1000 := by
  unfold z1FromVs30
  have h1 := Real.exp_pos (-303 / 100000 * v)
  have h2 : Real.exp (-303 / 100000 * v) < 1 := by rw [← Real.exp_zero]; exact Real.exp_lt_exp.2 (by linarith)
  constructor
  · positivity
  · linarith

theorem C108_default_z1_mono (v w : ℝ) (h : v < w) : z1FromVs30 w < z1FromVs30 v := by
  unfold z1FromVs30
  have := Real.exp_lt_exp.2 (show -303 / 100000 * w < -303 / 100000 * v by linarith)
  linarith

/-! ## C51 -/

/-- On sediments deeper than 2.5 m `bedrock_Vs` is the number given (1000 for `True`) and the velocity of the half
space.  Missing: shallower sediments, see the theorems below. -/
theorem C51_bedrock_partial (target : ℝ) (z1 : Option ℝ) (cap : CapArg) (eta trial c : ℝ)
    (hz : 25 / 10 < z1.getD (z1FromVs30 target)) (he0 : 0 < eta) (he1 : eta ≤ 1) (hcap : cap.val = some c)
    (hv0 : 0 < trial) (hv1 : trial ≤ 2500) (hc : 0 < c) :
    ∃ s, mkSvm target z1 cap eta trial = .ok s ∧ s.bedrock = .num c ∧ s.hasBedrock = true ∧
      (s.rows.map Prod.snd).getLast? = some c := by
  obtain ⟨s, ws, r5, hmk, hws, hsz, hs30, hb, hhb, hf, hsn, hwl, hval, hcons, hconstr, htv⟩ :=
    mkSvm_capped target z1 cap eta trial c hz he0 he1 hcap hc (svmVs0_pos hv0 hv1)
  exact ⟨s, hmk, hb, hhb, by rw [hsn, ← List.cons_append, List.getLast?_concat]⟩

/-- On sediments of at most 2.5 m and with the default `Vs_cap=True`, `bedrock_Vs` is the Boolean `True`. -/
theorem C51_shallow_flag_violated (target : ℝ) (z1 : Option ℝ) (eta trial : ℝ)
    (hz0 : 0 < z1.getD (z1FromVs30 target)) (hz : z1.getD (z1FromVs30 target) ≤ 25 / 10) (he0 : 0 < eta) (he1 : eta ≤ 1)
    (hv0 : 0 < target) (hv1 : target ≤ 2500) :
    ∃ s, mkSvm target z1 .yes eta trial = .ok s ∧ s.bedrock = .flag ∧ (s.rows.map Prod.snd).getLast? = some 1000 := by
  obtain ⟨s, r5, hmk, hsz, hrows, hb, _⟩ := mkSvm_shallow target z1 .yes eta trial hz0 hz he0 he1 hv0 hv1
  exact ⟨s, hmk, hb, by rw [hrows]; rfl⟩

/-- There a numeric `Vs_cap` is reported as the bedrock velocity while the half space keeps 1000 m/s. -/
theorem C51_shallow_cap_violated (target : ℝ) (z1 : Option ℝ) (eta trial c : ℝ)
    (hz0 : 0 < z1.getD (z1FromVs30 target)) (hz : z1.getD (z1FromVs30 target) ≤ 25 / 10) (he0 : 0 < eta) (he1 : eta ≤ 1)
    (hv0 : 0 < target) (hv1 : target ≤ 2500) :
    ∃ s, mkSvm target z1 (.num c) eta trial = .ok s ∧ s.bedrock = .num c ∧ (s.rows.map Prod.snd).getLast? = some 1000 := by
  obtain ⟨s, r5, hmk, hsz, hrows, hb, _⟩ := mkSvm_shallow target z1 (.num c) eta trial hz0 hz he0 he1 hv0 hv1
  exact ⟨s, hmk, hb, by rw [hrows]; rfl⟩

example : ∃ s, mkSvm 200 (some 2) .yes (9 / 10) 200 = .ok s ∧ s.bedrock = .flag := by
  obtain ⟨s, h, hb, _⟩ := C51_shallow_flag_violated 200 (some 2) (9 / 10) 200 (by simp) (by simp; norm_num) (by norm_num)
    (by norm_num) (by norm_num) (by norm_num)
  exact ⟨s, h, hb⟩

end Verif
