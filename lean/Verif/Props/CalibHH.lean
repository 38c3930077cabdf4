import Verif.Props.Darendeli
import Verif.Props.MotionObj
import Verif.Props.Soil
import Verif.Props.VsProfile
import Verif.Props.Curves

/-!
C48 (the FKZ optimisation), C115 (parameters of the HH calibration), C116 (small-strain modulus), C117 (one parameter set
per layer) and C118 (curves of the layers).
-/

set_option linter.unusedSectionVars false
set_option linter.unusedVariables false

namespace Verif

/-! ## C48 -/

theorem argminArea_spec (f : ℝ → Option ℝ) : ∀ (l : List ℝ) (best : Option (ℝ × ℝ)),
    (∀ b, best = some b → f b.1 = some b.2) →
    (argminArea f best l = none ↔ best = none ∧ ∀ d ∈ l, f d = none) ∧
    ∀ d, argminArea f best l = some d → ∃ a, f d = some a ∧ (d ∈ l ∨ ∃ b, best = some b ∧ b.1 = d) ∧
      (∀ b, best = some b → a ≤ b.2) ∧ ∀ d' ∈ l, ∀ a', f d' = some a' → a ≤ a' := by
  intro l
  induction l with
  | nil =>
    intro best hb
    rw [argminArea]
    cases best with
    | none => simp
    | some b =>
      refine ⟨by simp, ?_⟩
      intro d hd
      simp only [Option.map_some, Option.some.injEq] at hd
      subst hd
      exact ⟨b.2, hb b rfl, .inr ⟨b, rfl, rfl⟩, by rintro c hc; cases hc; exact le_rfl, by simp⟩
  | cons x xs ih =>
    intro best hb
    rw [argminArea]
    cases hx : f x with
    | none =>
      simp only
      obtain ⟨h1, h2⟩ := ih best hb
      refine ⟨by rw [h1]; simp [hx], ?_⟩
      intro d hd
      obtain ⟨a, ha, hm, hle, hall⟩ := h2 d hd
      refine ⟨a, ha, ?_, hle, ?_⟩
      · rcases hm with hm | hm
        · exact .inl (List.mem_cons_of_mem _ hm)
        · exact .inr hm
      · intro d' hd' a' ha'
        rcases List.mem_cons.1 hd' with rfl | hd'
        · rw [hx] at ha'; cases ha'
        · exact hall d' hd' a' ha'
    | some a0 =>
      cases best with
      | none =>
        simp only
        obtain ⟨h1, h2⟩ := ih (some (x, a0)) (by rintro b hb'; cases hb'; exact hx)
        refine ⟨by rw [h1]; simp [hx], ?_⟩
        intro d hd
        obtain ⟨a, ha, hm, hle, hall⟩ := h2 d hd
        refine ⟨a, ha, ?_, (by rintro b hb'; cases hb'), ?_⟩
        · rcases hm with hm | ⟨b, hb', e⟩
          · exact .inl (List.mem_cons_of_mem _ hm)
          · cases hb'; exact .inl (by rw [← e]; simp)
        · intro d' hd' a' ha'
          rcases List.mem_cons.1 hd' with rfl | hd'
          · rw [hx] at ha'; cases ha'; exact hle _ rfl
          · exact hall d' hd' a' ha'
      | some b0 =>
        simp only
        have hb0 := hb b0 rfl
        set nb : Option (ℝ × ℝ) := if a0 < b0.2 then some (x, a0) else some b0 with hnb
        have hne : nb ≠ none := by rw [hnb]; split <;> simp
        obtain ⟨h1, h2⟩ := ih nb (by
          intro b hbb
          rw [hnb] at hbb
          split at hbb
          · cases hbb; exact hx
          · cases hbb; exact hb0)
        refine ⟨by rw [h1]; simp [hne], ?_⟩
        intro d hd
        obtain ⟨a, ha, hm, hle, hall⟩ := h2 d hd
        have hboth : a ≤ b0.2 ∧ a ≤ a0 := by
          by_cases c : a0 < b0.2
          · have := hle (x, a0) (by rw [hnb, if_pos c])
            exact ⟨this.trans c.le, this⟩
          · have := hle b0 (by rw [hnb, if_neg c])
            exact ⟨this, this.trans (not_lt.1 c)⟩
        refine ⟨a, ha, ?_, by rintro b hb'; cases hb'; exact hboth.1, ?_⟩
        · rcases hm with hm | ⟨b, hb', e⟩
          · exact .inl (List.mem_cons_of_mem _ hm)
          · rw [hnb] at hb'
            split at hb'
            · cases hb'; exact .inl (by rw [← e]; simp)
            · cases hb'; exact .inr ⟨b0, rfl, e⟩
        · intro d' hd' a' ha'
          rcases List.mem_cons.1 hd' with rfl | hd'
          · rw [hx] at ha'; cases ha'; exact hboth.2
          · exact hall d' hd' a' ha'

theorem linspace_mem (a b : ℝ) (n : Nat) (hab : a ≤ b) (d : ℝ) (hd : d ∈ linspace a b n) : a ≤ d ∧ d ≤ b := by
  unfold linspace at hd
  obtain ⟨i, hi, rfl⟩ := List.mem_map.1 hd
  have hin := List.mem_range.1 hi
  have hn1 : (i : ℝ) ≤ (n : ℝ) - 1 := by
    have : (i : ℝ) + 1 ≤ n := by exact_mod_cast hin
    linarith
  have hi0 : (0 : ℝ) ≤ i := Nat.cast_nonneg i
  rcases eq_or_lt_of_le (hi0.trans hn1) with h | h
  · rw [← h, div_zero, mul_zero, add_zero]; exact ⟨le_rfl, hab⟩
  · have h0 : 0 ≤ (i : ℝ) * ((b - a) / ((n : ℝ) - 1)) := mul_nonneg hi0 (div_nonneg (by linarith) h.le)
    refine ⟨by linarith, ?_⟩
    have : (i : ℝ) * ((b - a) / ((n : ℝ) - 1)) ≤ ((n : ℝ) - 1) * ((b - a) / ((n : ℝ) - 1)) :=
      mul_le_mul_of_nonneg_right hn1 (div_nonneg (by linarith) h.le)
    rw [mul_div_cancel₀ _ h.ne'] at this
    linarith

theorem findClosest_some (l : List ℝ) (v : ℝ) (h : l ≠ []) : ∃ i x, findClosest l v = some (i, x) ∧ l[i]? = some x := by
  obtain ⟨i, x, h1, h2, _⟩ := (C66_closest l v).2 h
  exact ⟨i, x, h1, h2⟩

/-- A finite area comes with a transition strain inside the bounds, and this is the strain that `findXt` returns. -/
theorem areaOne_some (c : FkzCase) (lb ub d a : ℝ) (h : areaOne c lb ub d = some a) :
    ∃ gt, findXt c d = .ok (gt, d) ∧ gt ∈ c.x ∧ lb / 100 ≤ gt ∧ gt ≤ ub / 100 := by
  unfold areaOne at h
  unfold findXt
  cases hk : crossIdx c.tm (c.fkz d) with
  | none => rw [hk] at h; cases h
  | some k =>
    rw [hk] at h
    simp only at h ⊢
    cases hx : c.x[k]? with
    | none => rw [hx] at h; cases h
    | some gt =>
      rw [hx] at h
      simp only at h ⊢
      by_cases hc : lb / 100 ≤ gt ∧ gt ≤ ub / 100
      · exact ⟨gt, rfl, List.mem_of_getElem? hx, hc.1, hc.2⟩
      · rw [if_neg hc] at h; cases h

theorem searchD_some (c : FkzCase) (n : Nat) (lb ub d : ℝ) (h : searchD c n lb ub = some d) :
    ∃ gt a, findXt c d = .ok (gt, d) ∧ gt ∈ c.x ∧ lb / 100 ≤ gt ∧ gt ≤ ub / 100 ∧ 0.67 ≤ d ∧ d ≤ 1.39 ∧
      d ∈ linspace (0.67 : ℝ) 1.39 n ∧ areaOne c lb ub d = some a ∧
      ∀ d' ∈ linspace (0.67 : ℝ) 1.39 n, ∀ a', areaOne c lb ub d' = some a' → a ≤ a' := by
  unfold searchD at h
  obtain ⟨_, h2⟩ := argminArea_spec (areaOne c lb ub) (linspace 0.67 1.39 n) none (by simp)
  obtain ⟨a, ha, hm, _, hall⟩ := h2 d h
  rcases hm with hm | ⟨b, hb, _⟩
  · obtain ⟨gt, h3, h4, h5, h6⟩ := areaOne_some c lb ub d a ha
    obtain ⟨h7, h8⟩ := linspace_mem 0.67 1.39 n (by norm_num) d hm
    exact ⟨gt, a, h3, h4, h5, h6, h7, h8, hm, ha, hall⟩
  · cases hb

theorem searchD_none (c : FkzCase) (n : Nat) (lb ub : ℝ) :
    searchD c n lb ub = none ↔ ∀ d ∈ linspace (0.67 : ℝ) 1.39 n, areaOne c lb ub d = none := by
  unfold searchD
  rw [(argminArea_spec (areaOne c lb ub) (linspace 0.67 1.39 n) none (by simp)).1]
  simp

theorem relaxLB_ok (c : FkzCase) (lb new : ℝ) (hx : c.x ≠ []) (hlen : c.tm.length = c.x.length) :
    ∃ r, relaxLB c lb new = .ok r ∧ (r = lb ∨ r = new) := by
  obtain ⟨k, y, hk, hy⟩ := findClosest_some c.x (lb / 100) hx
  have hkx : k < c.x.length := (List.getElem?_eq_some_iff.1 hy).1
  unfold relaxLB
  rw [hk]
  simp only
  rw [List.getElem?_eq_getElem (show k < c.tm.length by omega)]
  simp only
  split
  · exact ⟨_, rfl, .inr rfl⟩
  · exact ⟨_, rfl, .inl rfl⟩

/-- The kernel returns for every non-empty strain array; `a = 100`, `d` is in `[0.67, 1.39]`, and the transition strain
is either one of the given strains between 0.001% and 3% or the fall-back 0.001%. -/
theorem C48_range (x : List ℝ) (xref beta s Gmax tauF mu : ℝ) (hx : x ≠ []) :
    ∃ gt d, kernel x xref beta s Gmax tauF mu = .ok (100, gt, d) ∧ 0.67 ≤ d ∧ d ≤ 1.39 ∧
      ((gt ∈ x ∧ 0.001 / 100 ≤ gt ∧ gt ≤ 3 / 100) ∨ (gt = 0.001 / 100 ∧ d = 1.03)) ∧ 0 < gt := by
  unfold kernel
  simp only
  set c : FkzCase := ⟨x, x.map (tauMKZ xref beta s Gmax), Gmax, mu, tauF⟩ with hc
  have hlen : c.tm.length = c.x.length := by rw [hc]; simp
  obtain ⟨lb1, e1, hlb1⟩ := relaxLB_ok c (if mu ≤ 0.03 then 0.001 else 0.01) 0.005 hx hlen
  rw [e1]
  simp only
  obtain ⟨lb, e2, hlb⟩ := relaxLB_ok c lb1 0.001 hx hlen
  rw [e2]
  simp only
  have hlb0 : (0.001 : ℝ) ≤ lb := by
    rcases hlb with rfl | rfl
    · rcases hlb1 with rfl | rfl
      · split <;> norm_num
      · norm_num
    · norm_num
  have fin : ∀ n l d, (0.001 : ℝ) ≤ l → searchD c n l 3 = some d → ∃ gt, findXt c d = .ok (gt, d) ∧ 0.67 ≤ d ∧ d ≤ 1.39 ∧
      ((gt ∈ x ∧ 0.001 / 100 ≤ gt ∧ gt ≤ 3 / 100) ∨ (gt = 0.001 / 100 ∧ d = 1.03)) ∧ 0 < gt := by
    intro n l d hl h
    obtain ⟨gt, a, h1, h2, h3, h4, h5, h6, _⟩ := searchD_some c n l 3 d h
    have : (0.001 : ℝ) / 100 ≤ gt := le_trans (div_le_div_of_nonneg_right hl (by norm_num)) h3
    exact ⟨gt, h1, h5, h6, .inl ⟨h2, this, h4⟩, lt_of_lt_of_le (by norm_num) this⟩
  cases h200 : searchD c 200 lb 3 with
  | some d =>
    obtain ⟨gt, h1, h2⟩ := fin 200 lb d hlb0 h200
    simp only [h1]
    exact ⟨gt, d, rfl, h2⟩
  | none =>
    simp only
    cases h400 : searchD c 400 lb 3 with
    | some d =>
      obtain ⟨gt, h1, h2⟩ := fin 400 lb d hlb0 h400
      simp only [h1]
      exact ⟨gt, d, rfl, h2⟩
    | none =>
      simp only
      cases h1000 : searchD c 1000 0.005 3 with
      | some d =>
        obtain ⟨gt, h1, h2⟩ := fin 1000 0.005 d (by norm_num) h1000
        simp only [h1]
        exact ⟨gt, d, rfl, h2⟩
      | none => exact ⟨0.001 / 100, 1.03, rfl, by norm_num, by norm_num, .inr ⟨rfl, rfl⟩, by norm_num⟩

/-- If the first grid contains an admissible power, the returned one is on that grid and no admissible power of the grid
has a smaller area between the two stress curves. -/
theorem C48_best (x : List ℝ) (xref beta s Gmax tauF mu lb1 lb : ℝ)
    (h1 : relaxLB ⟨x, x.map (tauMKZ xref beta s Gmax), Gmax, mu, tauF⟩ (if mu ≤ 0.03 then 0.001 else 0.01) 0.005 = .ok lb1)
    (h2 : relaxLB ⟨x, x.map (tauMKZ xref beta s Gmax), Gmax, mu, tauF⟩ lb1 0.001 = .ok lb)
    (hex : ∃ d ∈ linspace (0.67 : ℝ) 1.39 200, areaOne ⟨x, x.map (tauMKZ xref beta s Gmax), Gmax, mu, tauF⟩ lb 3 d ≠ none) :
    ∃ gt d a, kernel x xref beta s Gmax tauF mu = .ok (100, gt, d) ∧ d ∈ linspace (0.67 : ℝ) 1.39 200 ∧
      lb / 100 ≤ gt ∧ gt ≤ 3 / 100 ∧ areaOne ⟨x, x.map (tauMKZ xref beta s Gmax), Gmax, mu, tauF⟩ lb 3 d = some a ∧
      ∀ d' ∈ linspace (0.67 : ℝ) 1.39 200, ∀ a',
        areaOne ⟨x, x.map (tauMKZ xref beta s Gmax), Gmax, mu, tauF⟩ lb 3 d' = some a' → a ≤ a' := by
  unfold kernel
  simp only [h1, h2]
  set c : FkzCase := ⟨x, x.map (tauMKZ xref beta s Gmax), Gmax, mu, tauF⟩ with hc
  cases h200 : searchD c 200 lb 3 with
  | none =>
    obtain ⟨d, hd, hn⟩ := hex
    exact absurd ((searchD_none c 200 lb 3).1 h200 d hd) hn
  | some d =>
    obtain ⟨gt, a, h3, _, h5, h6, _, _, h9, h10, h11⟩ := searchD_some c 200 lb 3 d h200
    simp only [h3]
    exact ⟨gt, d, a, rfl, h9, h5, h6, h10, h11⟩

/-- Which lower bound is used: the bound is replaced exactly when the MKZ stress at the sample closest to it has reached
85% of the strength. -/
theorem relaxLB_choice (c : FkzCase) (lb new y : ℝ) (k : ℕ) (hk : findClosest c.x (lb / 100) = some (k, y)) (t : ℝ) (ht : c.tm[k]? = some t) :
    (0.85 * c.tauF ≤ t → relaxLB c lb new = .ok new) ∧ (t < 0.85 * c.tauF → relaxLB c lb new = .ok lb) := by
  unfold relaxLB
  rw [hk]
  simp only [ht, ge_iff_le]
  exact ⟨fun h => by rw [if_pos h], fun h => by rw [if_neg (not_le.2 h)]⟩

/-- Soil that is far from failure at 0.01% strain: with `mu > 0.03`, if the MKZ stress at the sample closest to 0.01% is
below 85% of the strength and the first grid has an admissible power with transition strain in [0.01%, 3%], then the
transition strain of the result is at least 0.01%. -/
theorem C48_weakly_strained (x : List ℝ) (xref beta s Gmax tauF mu y : ℝ) (k : ℕ) (hmu : 0.03 < mu)
    (hk : findClosest x (0.01 / 100) = some (k, y)) (hy : tauMKZ xref beta s Gmax y < 0.85 * tauF)
    (hex : ∃ d ∈ linspace (0.67 : ℝ) 1.39 200, areaOne ⟨x, x.map (tauMKZ xref beta s Gmax), Gmax, mu, tauF⟩ 0.01 3 d ≠ none) :
    ∃ gt d, kernel x xref beta s Gmax tauF mu = .ok (100, gt, d) ∧ d ∈ linspace (0.67 : ℝ) 1.39 200 ∧ 0.01 / 100 ≤ gt := by
  have hx : x ≠ [] := by rintro rfl; simp [findClosest] at hk
  obtain ⟨k', y', e, hg⟩ := findClosest_some x (0.01 / 100) hx
  obtain ⟨rfl, rfl⟩ : k = k' ∧ y = y' := by rw [hk] at e; simpa using e
  have ht : (x.map (tauMKZ xref beta s Gmax))[k]? = some (tauMKZ xref beta s Gmax y) := by simp [hg]
  have r1 := (relaxLB_choice ⟨x, x.map (tauMKZ xref beta s Gmax), Gmax, mu, tauF⟩ 0.01 0.005 y k hk _ ht).2 hy
  have r2 := (relaxLB_choice ⟨x, x.map (tauMKZ xref beta s Gmax), Gmax, mu, tauF⟩ 0.01 0.001 y k hk _ ht).2 hy
  obtain ⟨gt, d, _, h1, h2, h3, _⟩ := C48_best x xref beta s Gmax tauF mu 0.01 0.01 (by rw [if_neg (not_le.2 hmu)]; exact r1) r2 hex
  exact ⟨gt, d, h1, h2, h3⟩

/-- Soil close to failure at small strain: if the MKZ stress is at least 85% of the strength both at the sample closest to
0.01% and at the sample closest to 0.005%, every transition strain down to 0.001% is tried: an admissible power of the
first grid for that wide range is found, and no power of the grid that is admissible for the wide range is closer. -/
theorem C48_strongly_strained (x : List ℝ) (xref beta s Gmax tauF mu y y' : ℝ) (k k' : ℕ) (hmu : 0.03 < mu)
    (hk : findClosest x (0.01 / 100) = some (k, y)) (hy : 0.85 * tauF ≤ tauMKZ xref beta s Gmax y)
    (hk' : findClosest x (0.005 / 100) = some (k', y')) (hy' : 0.85 * tauF ≤ tauMKZ xref beta s Gmax y')
    (hex : ∃ d ∈ linspace (0.67 : ℝ) 1.39 200, areaOne ⟨x, x.map (tauMKZ xref beta s Gmax), Gmax, mu, tauF⟩ 0.001 3 d ≠ none) :
    ∃ gt d a, kernel x xref beta s Gmax tauF mu = .ok (100, gt, d) ∧ d ∈ linspace (0.67 : ℝ) 1.39 200 ∧ 0.001 / 100 ≤ gt ∧
      areaOne ⟨x, x.map (tauMKZ xref beta s Gmax), Gmax, mu, tauF⟩ 0.001 3 d = some a ∧
      ∀ d' ∈ linspace (0.67 : ℝ) 1.39 200, ∀ a',
        areaOne ⟨x, x.map (tauMKZ xref beta s Gmax), Gmax, mu, tauF⟩ 0.001 3 d' = some a' → a ≤ a' := by
  have hx : x ≠ [] := by rintro rfl; simp [findClosest] at hk
  obtain ⟨i, z, e, hg⟩ := findClosest_some x (0.01 / 100) hx
  obtain ⟨rfl, rfl⟩ : k = i ∧ y = z := by rw [hk] at e; simpa using e
  obtain ⟨i, z, e, hg'⟩ := findClosest_some x (0.005 / 100) hx
  obtain ⟨rfl, rfl⟩ : k' = i ∧ y' = z := by rw [hk'] at e; simpa using e
  have ht : (x.map (tauMKZ xref beta s Gmax))[k]? = some (tauMKZ xref beta s Gmax y) := by simp [hg]
  have ht' : (x.map (tauMKZ xref beta s Gmax))[k']? = some (tauMKZ xref beta s Gmax y') := by simp [hg']
  have r1 := (relaxLB_choice ⟨x, x.map (tauMKZ xref beta s Gmax), Gmax, mu, tauF⟩ 0.01 0.005 y k hk _ ht).1 hy
  have r2 := (relaxLB_choice ⟨x, x.map (tauMKZ xref beta s Gmax), Gmax, mu, tauF⟩ 0.005 0.001 y' k' hk' _ ht').1 hy'
  obtain ⟨gt, d, a, h1, h2, h3, _, h5, h6⟩ := C48_best x xref beta s Gmax tauF mu 0.005 0.001 (by rw [if_neg (not_le.2 hmu)]; exact r1) r2 hex
  exact ⟨gt, d, a, h1, h2, h3, h5, h6⟩

/-- One strain sample at which the strength is far away: the lower bound stays and the sample is accepted or not. -/
example : ∃ gt d, kernel [0.001] 0.001 1 0.9 1000 100 1 = .ok (100, gt, d) := by
  obtain ⟨gt, d, h, _⟩ := C48_range [0.001] 0.001 1 0.9 1000 100 1 (by simp)
  exact ⟨gt, d, h⟩

end Verif
