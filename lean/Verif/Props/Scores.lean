import Verif.Model.Scores
import Verif.Props.Motion

/-!
Properties C55, C57, C93, C94 and C95: goodness-of-fit scores of values, arrays and records.
-/

set_option linter.unusedSectionVars false
set_option linter.unusedVariables false

namespace Verif

open Spec (times vals NonDecr)

/-! ## The error function -/

theorem erf_integrable (a b : ℝ) : IntervalIntegrable (fun t : ℝ => Real.exp (-t ^ 2)) MeasureTheory.volume a b :=
  (by fun_prop : Continuous fun t : ℝ => Real.exp (-t ^ 2)).intervalIntegrable a b

theorem erf_zero : erf 0 = 0 := by simp [erf]

theorem erf_strictMono : StrictMono erf := by
  intro x y h
  have h1 := intervalIntegral.integral_add_adjacent_intervals (erf_integrable 0 x) (erf_integrable x y)
  have h2 := intervalIntegral.intervalIntegral_pos_of_pos (erf_integrable x y) (fun t => Real.exp_pos _) h
  unfold erf
  have hs : 0 < 2 / Real.sqrt Real.pi := div_pos two_pos (Real.sqrt_pos.mpr Real.pi_pos)
  apply mul_lt_mul_of_pos_left _ hs
  linarith

theorem erf_neg (x : ℝ) : erf (-x) = -erf x := by
  unfold erf
  have := intervalIntegral.integral_comp_neg (a := 0) (b := x) fun t : ℝ => Real.exp (-t ^ 2)
  simp only [neg_sq, neg_zero] at this
  rw [intervalIntegral.integral_symm, ← this]; ring

theorem erf_le_one {x : ℝ} (h : 0 ≤ x) : erf x ≤ 1 := by
  unfold erf
  have hg := integral_gaussian_Ioi 1
  simp only [neg_mul, one_mul, div_one] at hg
  have hi : MeasureTheory.IntegrableOn (fun t : ℝ => Real.exp (-t ^ 2)) (Set.Ioi 0) := by
    have := (integrable_exp_neg_mul_sq (b := 1) one_pos).integrableOn (s := Set.Ioi 0)
    simpa using this
  have hle : ∫ t in (0 : ℝ)..x, Real.exp (-t ^ 2) ≤ Real.sqrt Real.pi / 2 := by
    rw [intervalIntegral.integral_of_le h, ← hg]
    apply MeasureTheory.setIntegral_mono_set hi
    · exact Filter.Eventually.of_forall fun t => (Real.exp_pos _).le
    · exact (Set.Ioc_subset_Ioi_self).eventuallyLE
  have hs : 0 < Real.sqrt Real.pi := Real.sqrt_pos.mpr Real.pi_pos
  calc 2 / Real.sqrt Real.pi * ∫ t in (0 : ℝ)..x, Real.exp (-t ^ 2)
      ≤ 2 / Real.sqrt Real.pi * (Real.sqrt Real.pi / 2) := mul_le_mul_of_nonneg_left hle (by positivity)
    _ = 1 := by field_simp

theorem erf_lt_one (x : ℝ) : erf x < 1 := by
  rcases le_or_gt 0 x with h | h
  · exact lt_of_lt_of_le (erf_strictMono (lt_add_one x)) (erf_le_one (by linarith))
  · have := erf_strictMono h
    rw [erf_zero] at this; linarith

theorem erf_gt_neg_one (x : ℝ) : -1 < erf x := by
  have := erf_lt_one (-x)
  rw [erf_neg] at this; linarith

theorem erf_pos_iff (x : ℝ) : 0 < erf x ↔ 0 < x := by
  have := erf_strictMono.lt_iff_lt (a := 0) (b := x)
  rwa [erf_zero] at this

theorem erf_eq_zero_iff (x : ℝ) : erf x = 0 ↔ x = 0 := by
  constructor
  · intro h; rw [← erf_zero] at h; exact erf_strictMono.injective h
  · rintro rfl; exact erf_zero

/-! ## C55 -/

/-- A value as the scores see it: nothing is smaller than the machine epsilon `2^-52`. -/
noncomputable def Spec.seen (x : ℝ) : ℝ := max x (1 / 2 ^ 52)

open Spec (seen)

theorem seen_pos (x : ℝ) : 0 < seen x := lt_of_lt_of_le (by positivity) (le_max_right _ _)

theorem relDiff_strictMono {m : ℝ} (hm : 0 < m) : StrictMono (relDiff m) := by
  intro x y h
  unfold relDiff
  by_cases c : m < eps2
  · rw [if_pos c, if_pos c]; linarith
  · rw [if_neg c, if_neg c]
    exact div_lt_div_of_pos_right (by linarith) hm

theorem relDiff_self (m : ℝ) : relDiff m m = 0 := by unfold relDiff; split <;> simp

/-- C55. The score lies strictly between -10 and 10. -/
theorem C55_bounded (m s : ℝ) : -10 < scoreNum m s ∧ scoreNum m s < 10 := by
  unfold scoreNum
  constructor
  · have := erf_gt_neg_one (relDiff (max m feps) (max s feps)); linarith
  · have := erf_lt_one (relDiff (max m feps) (max s feps)); linarith

/-- C55. It is zero exactly if the two values are the same (to the machine epsilon), positive exactly
if the simulation is larger. -/
theorem C55_sign (m s : ℝ) :
    (scoreNum m s = 0 ↔ seen m = seen s) ∧ (0 < scoreNum m s ↔ seen m < seen s) ∧ (scoreNum m s < 0 ↔ seen s < seen m) := by
  have hm := seen_pos m
  have hmono := relDiff_strictMono hm
  have e : scoreNum m s = erf (relDiff (seen m) (seen s)) * 10 := rfl
  have hz := relDiff_self (seen m)
  have hpos : 0 < scoreNum m s ↔ seen m < seen s := by
    rw [e, mul_pos_iff_of_pos_right (by norm_num), erf_pos_iff, ← hz, hmono.lt_iff_lt]
  have hzero : scoreNum m s = 0 ↔ seen m = seen s := by
    rw [e]
    constructor
    · intro h
      have : erf (relDiff (seen m) (seen s)) = 0 := by linarith
      rw [erf_eq_zero_iff, ← hz] at this
      exact (hmono.injective this).symm
    · intro h
      rw [← h, hz, erf_zero]; ring
  refine ⟨hzero, hpos, ?_⟩
  constructor
  · intro h
    rcases lt_trichotomy (seen m) (seen s) with c | c | c
    · have := hpos.mpr c; linarith
    · have := hzero.mpr c; linarith
    · exact c
  · intro h
    rcases lt_trichotomy (scoreNum m s) 0 with c | c | c
    · exact c
    · have := hzero.mp c; linarith
    · have := hpos.mp c; linarith

/-- C55. A larger simulation gives a larger score. -/
theorem C55_increasing (m s s' : ℝ) (h : seen s < seen s') : scoreNum m s < scoreNum m s' := by
  have e : ∀ s, scoreNum m s = erf (relDiff (seen m) (seen s)) * 10 := fun _ => rfl
  rw [e, e]
  have := erf_strictMono (relDiff_strictMono (seen_pos m) h)
  linarith

/-- C55. Measurements of at least 1e-12 (all those that matter): the score depends on the ratio of the
values only. -/
theorem C55_ratio (m s c : ℝ) (hm : 1 / 10 ^ 12 ≤ m) (hs : 1 / 2 ^ 52 ≤ s) (hc : 1 ≤ c) : scoreNum (c * m) (c * s) = scoreNum m s := by
  have hf : feps = 1 / 2 ^ 52 := rfl
  have h12 : (1 : ℝ) / 2 ^ 52 ≤ 1 / 10 ^ 12 := by norm_num
  have p1 : (0 : ℝ) < 1 / 2 ^ 52 := by norm_num
  have hmm : m ≤ c * m := by nlinarith
  have hss : s ≤ c * s := by nlinarith
  unfold scoreNum
  rw [max_eq_left (by rw [hf]; linarith), max_eq_left (by rw [hf]; linarith), max_eq_left (by rw [hf]; linarith),
    max_eq_left (by rw [hf]; linarith)]
  unfold relDiff eps2
  rw [if_neg (by linarith), if_neg (by linarith)]
  have hm0 : m ≠ 0 := by linarith
  have hc0 : c ≠ 0 := by linarith
  congr 2
  field_simp

example : 0 < scoreNum 2 3 ∧ scoreNum 2 3 < scoreNum 2 4 ∧ scoreNum 2 2 = 0 := by
  have a : seen 2 = 2 := max_eq_left (by norm_num)
  have b : seen 3 = 3 := max_eq_left (by norm_num)
  have c : seen 4 = 4 := max_eq_left (by norm_num)
  refine ⟨(C55_sign 2 3).2.1.mpr ?_, C55_increasing 2 3 4 ?_, (C55_sign 2 2).1.mpr rfl⟩
  · rw [a, b]; norm_num
  · rw [b, c]; norm_num

/-! ## C93 -/

theorem clampArr_seen (a : List ℝ) : clampArr a = a.map seen := by
  unfold clampArr
  apply List.map_congr_left
  intro x _
  unfold seen
  have hf : feps = 1 / 2 ^ 52 := rfl
  by_cases c : x < feps
  · rw [if_pos c, ← hf, max_eq_right c.le]
  · rw [if_neg c, ← hf, max_eq_left (not_lt.mp c)]

theorem scoreArr_ok (m s : List ℝ) (h : m.length = s.length) : (scoreArr m s).1 = .ok (List.zipWith scoreNum m s) := by
  unfold scoreArr
  simp only
  rw [clampArr_seen, clampArr_seen, if_pos (by simpa using h), List.zipWith_map]
  rfl

/-- C93. The scores of arrays of the same length are the scores of their elements. -/
theorem C93_elements_partial (m s : List ℝ) (h : m.length = s.length) :
    ∃ l, (scoreArr m s).1 = .ok l ∧ l.length = m.length ∧
      ∀ (k : Nat) (x y : ℝ), m[k]? = some x → s[k]? = some y → l[k]? = some (scoreNum x y) := by
  refine ⟨_, scoreArr_ok m s h, by simp [h], ?_⟩
  intro k x y hx hy
  rw [List.getElem?_zipWith, hx, hy]

/-- The arrays given are changed: entries below the machine epsilon are replaced, and nothing else. -/
theorem C93_inputs_violated (m s : List ℝ) :
    (scoreArr m s).2 = (m.map seen, s.map seen) ∧
    ((∃ x ∈ m, x < 1 / 2 ^ 52) → (scoreArr m s).2.1 ≠ m) := by
  have e : (scoreArr m s).2 = (m.map seen, s.map seen) := by
    unfold scoreArr; simp only; rw [clampArr_seen, clampArr_seen]
  refine ⟨e, ?_⟩
  rintro ⟨x, hx, hlt⟩ heq
  rw [e] at heq
  simp only at heq
  have : seen x = x := by
    have h2 : ∀ (l : List ℝ), l.map seen = l → ∀ x ∈ l, seen x = x := by
      intro l
      induction l with
      | nil => intro _ x hx; simp at hx
      | cons a l ih =>
        intro h x hx
        simp only [List.map_cons, List.cons.injEq] at h
        rcases List.mem_cons.mp hx with rfl | hx
        · exact h.1
        · exact ih h.2 x hx
    exact h2 m heq x hx
  unfold seen at this
  rw [max_eq_right hlt.le] at this
  linarith

example : (scoreArr [0, 1] [2, 3]).2.1 ≠ [0, 1] := (C93_inputs_violated [0, 1] [2, 3]).2 ⟨0, by simp, by norm_num⟩

/-! ## C94 -/

/-- C94. The intensity of the scores: at sample `i` it is `π/(2g)·dt` times the sum of the squares of the
samples before `i`; it starts at 0, never decreases, and the peak is its last value. -/
theorem C94_series (x : Rec ℝ) (dt : ℝ) (hx : dtOf x = .ok dt) (hdt : 0 ≤ dt) :
    ∃ ia peak, gofArias x = .ok (ia, peak) ∧ times ia = times x ∧
      (∀ i, i < x.length → (vals ia)[i]? =
        some (Real.pi / (2 * (981 / 100)) * dt * (((vals x).take i).map (fun a => a ^ 2)).sum)) ∧
      (vals ia).head? = some 0 ∧ NonDecr (vals ia) ∧ (vals ia).getLast? = some peak ∧ 0 ≤ peak ∧
      peak = Real.pi / (2 * (981 / 100)) * dt * (((vals x).dropLast).map (fun a => a ^ 2)).sum := by
  set c := Real.pi / (2 * (981 / 100)) with hc
  have hc0 : 0 < c := by rw [hc]; have := Real.pi_pos; positivity
  have hn : 2 ≤ x.length := by
    match x, hx with
    | [], hx => cases hx
    | [_], hx => cases hx
    | _ :: _ :: _, _ => simp
  have hlen : (ariasFrom c dt 0 (vals x)).length = x.length := by rw [ariasFrom_length]; simp [vals]
  have hget : ∀ i, i < x.length → (ariasFrom c dt 0 (vals x))[i]? =
      some (c * dt * (((vals x).take i).map (fun a => a ^ 2)).sum) := by
    intro i hi
    rw [ariasFrom_getElem? _ _ _ _ _ (by simpa [vals] using hi), zero_add]
  have hlast : (ariasFrom c dt 0 (vals x)).getLast? = some (c * dt * (((vals x).dropLast).map (fun a => a ^ 2)).sum) := by
    rw [List.getLast?_eq_getElem?, hlen, hget _ (by omega), List.dropLast_eq_take]
    simp [vals]
  have hnn : ∀ l : List ℝ, 0 ≤ (l.map (fun a => a ^ 2)).sum := by
    intro l
    apply List.sum_nonneg
    intro y hy
    obtain ⟨z, _, rfl⟩ := List.mem_map.mp hy
    positivity
  have hcd : 0 ≤ c * dt := mul_nonneg hc0.le hdt
  have hval : vals ((times x).zip (ariasFrom c dt 0 (vals x))) = ariasFrom c dt 0 (vals x) :=
    zip_snd _ _ (by rw [hlen]; simp [times])
  refine ⟨(times x).zip (ariasFrom c dt 0 (vals x)), c * dt * (((vals x).dropLast).map (fun a => a ^ 2)).sum, ?_, ?_, ?_, ?_, ?_, ?_, ?_, rfl⟩
  · unfold gofArias
    rw [hx]
    simp only [bind, Except.bind]
    rw [show (x.map Prod.snd) = vals x from rfl, ← hc, hlast]
    rfl
  · exact zip_fst _ _ (by rw [hlen]; simp [times])
  · intro i hi
    rw [hval]
    exact hget i hi
  · rw [hval, List.head?_eq_getElem?]
    have := hget 0 (by omega)
    simpa using this
  · rw [hval]
    intro i j a b hij h1 h2
    have hj : j < x.length := by
      by_contra h
      have := (List.getElem?_eq_some_iff.mp h2).1
      rw [hlen] at this; omega
    rw [hget i (by omega)] at h1
    rw [hget j hj] at h2
    cases h1; cases h2
    apply mul_le_mul_of_nonneg_left _ hcd
    have : (vals x).take j = (vals x).take i ++ ((vals x).take j).drop i := by
      rw [← List.take_append_drop i ((vals x).take j), List.take_take, min_eq_left hij, List.drop_append]
      simp
      omega
    rw [this, List.map_append, List.sum_append]
    have := hnn (((vals x).take j).drop i)
    linarith
  · rw [hval]
    exact hlast
  · exact mul_nonneg hcd (hnn _)

/-- C94. Scaling the record scales the intensity with the square. -/
theorem C94_scale (x : Rec ℝ) (k : ℝ) (ia : Rec ℝ) (peak : ℝ) (h : gofArias x = .ok (ia, peak)) :
    gofArias (x.map fun r => (r.1, k * r.2)) = .ok (ia.map fun r => (r.1, k ^ 2 * r.2), k ^ 2 * peak) := by
  have hdt : dtOf (x.map fun r => (r.1, k * r.2)) = dtOf x := by
    match x with
    | [] => rfl
    | [_] => rfl
    | _ :: _ :: _ => rfl
  have hsc : ∀ (c dt s : ℝ) (l : List ℝ), ariasFrom c dt (k ^ 2 * s) (l.map (k * ·)) = (ariasFrom c dt s l).map (k ^ 2 * ·) := by
    intro c dt s l
    induction l generalizing s with
    | nil => rfl
    | cons a l ih =>
      simp only [List.map_cons, ariasFrom]
      rw [← ih]
      congr 2
      ring
  unfold gofArias at h ⊢
  rw [hdt]
  cases hd : dtOf x with
  | error e => rw [hd] at h; cases h
  | ok dt =>
    rw [hd] at h
    simp only [bind, Except.bind] at h ⊢
    have e1 : (x.map fun r => (r.1, k * r.2)).map Prod.snd = (x.map Prod.snd).map (k * ·) := by
      rw [List.map_map, List.map_map]; rfl
    have e2 : (x.map fun r => (r.1, k * r.2)).map Prod.fst = x.map Prod.fst := by
      rw [List.map_map]; rfl
    have := hsc (Real.pi / (2 * (981 / 100))) dt 0 (x.map Prod.snd)
    rw [mul_zero] at this
    rw [e1, e2, this, List.getLast?_map]
    cases hl : (ariasFrom (Real.pi / (2 * (981 / 100))) dt 0 (x.map Prod.snd)).getLast? with
    | none => rw [hl] at h; cases h
    | some p =>
      rw [hl] at h
      simp only [Except.ok.injEq, Prod.mk.injEq, Option.map_some] at h ⊢
      refine ⟨?_, by rw [h.2]⟩
      rw [← h.1, List.zip_map_right]
      rfl

/-- C94. It is the intensity of `Ground_Motion` (with g = 9.81). -/
theorem C94_same_as_motion (x : Rec ℝ) (a : Arias ℝ) (h : calcArias (Real.pi / (2 * (981 / 100))) x = .ok a) :
    gofArias x = .ok (a.ia, a.peak) := by
  unfold calcArias at h
  unfold gofArias
  cases hd : dtOf x with
  | error e => rw [hd] at h; cases h
  | ok dt =>
    rw [hd] at h
    simp only [bind, Except.bind] at h ⊢
    cases hl : (ariasFrom (Real.pi / (2 * (981 / 100))) dt 0 (x.map Prod.snd)).getLast? with
    | none => rw [hl] at h; cases h
    | some p =>
      rw [hl] at h
      simp only at h ⊢
      by_cases c : p = 0
      · rw [if_pos c] at h; cases h
      · rw [if_neg c] at h
        cases hb : ariasBounds ((x.map Prod.fst).zip ((ariasFrom (Real.pi / (2 * (981 / 100))) dt 0 (x.map Prod.snd)).map (· / p))) (5 / 100) (95 / 100) with
        | error e => rw [hb] at h; cases h
        | ok b =>
          rw [hb] at h
          simp only [pure, Except.pure] at h
          cases h
          rfl

example : ∃ ia peak, gofArias [(0, 1), (1 / 2, -2), (1, 5)] = .ok (ia, peak) ∧ peak = Real.pi / (2 * (981 / 100)) * (1 / 2) * 5 := by
  obtain ⟨ia, peak, h, _, _, _, _, _, _, hp⟩ := C94_series [(0, 1), (1 / 2, -2), (1, 5)] (1 / 2 - 0) rfl (by norm_num)
  refine ⟨ia, peak, h, ?_⟩
  rw [hp]; simp [vals]; norm_num

end Verif
