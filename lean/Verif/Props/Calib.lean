import Verif.Model.Calib
import Verif.Props.ProfileGeometry
import Mathlib.Analysis.SpecialFunctions.Trigonometric.Basic
import Mathlib.Analysis.Real.Pi.Bounds
import Mathlib.Tactic.Linarith
import Mathlib.Tactic.NormNum
import Mathlib.Tactic.Positivity
import Mathlib.Tactic.FieldSimp

/-!
C45 (vertical stress) and C46 (soil properties used by the calibration).
-/

set_option linter.unusedSectionVars false
set_option linter.unusedVariables false

namespace Verif
namespace Spec

/-- Mass per area above the middle of layer `i`: all layers above, and half of the layer itself. -/
def massAbove {K : Type} [_root_.Field K] (h rho : List K) (i : Nat) : K :=
  ((List.zipWith (fun a b => a * b) rho h).take i).sum + (rho[i]?.getD 0) * (h[i]?.getD 0) / 2

end Spec

open Spec (massAbove)

section C45
variable {K : Type} [Field K] [LinearOrder K] [IsStrictOrderedRing K]

theorem stressLoop_length (g s hp rp : K) (l : List (K × K)) : (stressLoop g s hp rp l).length = l.length := by
  induction l generalizing s hp rp with
  | nil => rfl
  | cons p l ih => obtain ⟨h, r⟩ := p; simp [stressLoop, ih]

theorem stressLoop_get (g M hp rp : K) (l : List (K × K)) : ∀ (i : Nat) p, l[i]? = some p →
    (stressLoop g (g * (M + rp * hp / 2)) hp rp l)[i]? =
      some (g * (M + rp * hp + ((l.map fun q => q.2 * q.1).take i).sum + p.2 * p.1 / 2)) := by
  induction l generalizing M hp rp with
  | nil => intro i p h; simp at h
  | cons q l ih =>
    obtain ⟨h, r⟩ := q
    have e : g * (M + rp * hp / 2) + rp * g * hp / 2 + r * g * h / 2 = g * ((M + rp * hp) + r * h / 2) := by ring
    intro i p hp'
    rw [stressLoop, e]
    cases i with
    | zero =>
      simp only [List.getElem?_cons_zero, Option.some.injEq] at hp' ⊢
      subst hp'; simp only [List.take_zero, List.sum_nil]; ring
    | succ i =>
      rw [List.getElem?_cons_succ] at hp' ⊢
      rw [ih (M + rp * hp) h r i p hp']
      simp only [List.map_cons, List.take_succ_cons, List.sum_cons]
      congr 1; ring

theorem vertStress_core (h rho : List K) (hne : h ≠ []) (hlen : rho.length = h.length) (hfix : fixLast h = h) :
    ∃ s, vertStress h rho = .ok (s, h) ∧ s.length = h.length ∧
      ∀ i, i < h.length → s[i]? = some (981 / 100 * massAbove h rho i) := by
  match h, rho, hne, hlen with
  | h0 :: hs, r0 :: rs, _, hlen =>
    have hl : rs.length = hs.length := by simpa using hlen
    refine ⟨r0 * (981 / 100) * h0 / 2 :: stressLoop (981 / 100) (r0 * (981 / 100) * h0 / 2) h0 r0 (hs.zip rs), ?_, ?_, ?_⟩
    · unfold vertStress
      rw [if_neg (by simp), if_neg (by simp [hl]), hfix]
    · simp [stressLoop_length, hl]
    · intro i hi
      have e : r0 * (981 / 100) * h0 / 2 = 981 / 100 * (0 + r0 * h0 / 2) := by ring
      cases i with
      | zero => simp [massAbove]; ring
      | succ i =>
        have hi' : i < hs.length := by simpa using hi
        rw [List.getElem?_cons_succ, e, stressLoop_get _ 0 h0 r0 (hs.zip rs) i (hs[i], rs[i])
          (by rw [List.getElem?_eq_getElem (by simp [hl, hi']), List.getElem_zip])]
        unfold massAbove
        have hz : List.zipWith (fun a b => a * b) rs hs = (hs.zip rs).map fun q => q.2 * q.1 := by
          rw [List.zip, List.map_zipWith, List.zipWith_comm]
        simp only [List.zipWith_cons_cons, List.take_succ_cons, List.sum_cons, hz, List.getElem?_cons_succ,
          List.getElem?_eq_getElem hi', List.getElem?_eq_getElem (show i < rs.length by omega), Option.getD_some]
        congr 1; ring

/-- The vertical stress at the middle of each layer is `g = 9.81` times the mass per area above that point, and the
thickness array is left as it is. -/
theorem C45_overburden (h rho : List K) (hne : h ≠ []) (hlen : rho.length = h.length) (hlast : h.getLast? ≠ some 0) :
    ∃ s, vertStress h rho = .ok (s, h) ∧ s.length = h.length ∧
      ∀ i, i < h.length → s[i]? = some (981 / 100 * massAbove h rho i) :=
  vertStress_core h rho hne hlen (by rw [fixLast, if_neg hlast])

/-- A last layer without thickness is replaced by a layer of 1 m, also in the array of the caller. -/
theorem C45_halfspace (h rho : List K) (hlen : rho.length = h.length + 1) :
    ∃ s, vertStress (h ++ [0]) rho = .ok (s, h ++ [1]) ∧ s.length = h.length + 1 ∧
      ∀ i, i ≤ h.length → s[i]? = some (981 / 100 * massAbove (h ++ [1]) rho i) := by
  have hf : fixLast (h ++ [0]) = h ++ [1] := by rw [fixLast, if_pos (by simp)]; simp
  have hf1 : fixLast (h ++ [(1 : K)]) = h ++ [1] := by rw [fixLast, if_neg (by simp)]
  obtain ⟨s, h1, h2, h3⟩ := vertStress_core (h ++ [(1 : K)]) rho (by simp) (by simp [hlen]) hf1
  refine ⟨s, ?_, by simpa using h2, fun i hi => h3 i (by simp; omega)⟩
  rw [← h1]
  unfold vertStress
  rw [hf, hf1]
  simp [hlen]

/-- No layers, or a layer without density: IndexError. -/
theorem C45_errors (h rho : List K) (hbad : h = [] ∨ rho.length < h.length) : vertStress h rho = .error .indexError := by
  unfold vertStress
  rcases hbad with rfl | hb
  · simp
  · by_cases h0 : h = []
    · simp [h0]
    · rw [if_neg h0, if_pos hb]

theorem massAbove_step (h rho : List K) (i : Nat) (hlen : rho.length = h.length) (hi : i + 1 < h.length) :
    massAbove h rho (i + 1) = massAbove h rho i + (rho[i]?.getD 0) * (h[i]?.getD 0) / 2 +
      (rho[i + 1]?.getD 0) * (h[i + 1]?.getD 0) / 2 := by
  unfold massAbove
  have h1 : i < (List.zipWith (fun a b => a * b) rho h).length := by simp [hlen]; omega
  rw [List.take_add_one, List.sum_append, List.getElem?_eq_getElem h1]
  simp only [Option.toList_some, List.sum_cons, List.sum_nil, List.getElem_zipWith]
  rw [List.getElem?_eq_getElem (show i < h.length by omega), List.getElem?_eq_getElem (show i < rho.length by omega)]
  simp only [Option.getD_some]; ring

/-- The stresses strictly increase with depth and are positive. -/
theorem C45_increasing (h rho : List K) (hne : h ≠ []) (hlen : rho.length = h.length) (hh : ∀ x ∈ h, 0 < x)
    (hr : ∀ x ∈ rho, 0 < x) :
    ∃ s, vertStress h rho = .ok (s, h) ∧ s.length = h.length ∧ (∀ x ∈ s, 0 < x) ∧
      ∀ (i j : Nat) x y, i < j → s[i]? = some x → s[j]? = some y → x < y := by
  have hlast : h.getLast? ≠ some 0 := by
    intro e
    have := hh 0 (List.mem_of_getLast? e)
    exact lt_irrefl _ this
  obtain ⟨s, h1, h2, h3⟩ := C45_overburden h rho hne hlen hlast
  have pos : ∀ i, i < h.length → 0 < (rho[i]?.getD 0) * (h[i]?.getD 0) := by
    intro i hi
    rw [List.getElem?_eq_getElem hi, List.getElem?_eq_getElem (show i < rho.length by omega)]
    exact mul_pos (hr _ (List.getElem_mem _)) (hh _ (List.getElem_mem _))
  have step : ∀ i, i + 1 < h.length → massAbove h rho i < massAbove h rho (i + 1) := by
    intro i hi
    rw [massAbove_step h rho i hlen hi]
    have a := pos i (by omega); have b := pos (i + 1) hi
    linarith
  have mono : ∀ i k, i + (k + 1) < h.length → massAbove h rho i < massAbove h rho (i + (k + 1)) := by
    intro i k
    induction k with
    | zero => intro hk; exact step i hk
    | succ k ih => intro hk; exact (ih (by omega)).trans (step (i + (k + 1)) hk)
  have m0 : 0 < massAbove h rho 0 := by
    have := pos 0 (List.length_pos_iff.2 hne)
    unfold massAbove
    simp only [List.take_zero, List.sum_nil]; linarith
  have mpos : ∀ i, i < h.length → 0 < massAbove h rho i := by
    intro i hi
    cases i with
    | zero => exact m0
    | succ i => have := mono 0 i (by omega); rw [Nat.zero_add] at this; exact m0.trans this
  refine ⟨s, h1, h2, ?_, ?_⟩
  · intro x hx
    obtain ⟨i, hi, rfl⟩ := List.getElem_of_mem hx
    have := h3 i (by omega)
    rw [List.getElem?_eq_getElem hi, Option.some.injEq] at this
    rw [this]
    have := mpos i (by omega)
    linarith
  · intro i j x y hij hx hy
    have hj : j < s.length := (List.getElem?_eq_some_iff.1 hy).1
    rw [h3 i (by omega), Option.some.injEq] at hx
    rw [h3 j (by omega), Option.some.injEq] at hy
    subst hx hy
    obtain ⟨k, rfl⟩ : ∃ k, j = i + (k + 1) := ⟨j - i - 1, by omega⟩
    have := mono i k (by omega)
    linarith

end C45

/-- Two layers of 2 m and 4 m with densities 1800 and 2000. -/
example : vertStress [2, 4] [1800, (2000 : ℚ)] = .ok ([17658, 74556], [2, 4]) := by decide +kernel
example : vertStress [2, 0] [1800, (2000 : ℚ)] = .ok ([17658, 45126], [2, 1]) := by decide +kernel

/-! ## C46 -/

section C46

theorem rhoOne_ge (z v r : ℝ) (h : rhoOne z v = .ok r) : 1650 ≤ r := by
  unfold rhoOne at h
  by_cases c : v = 0 ∨ rhoDen (if z = 0 then 0.0001 else z) v = 0
  · rw [if_pos c] at h; cases h
  · rw [if_neg c] at h
    have := Except.ok.inj h
    rw [← this]
    have hm : (1.65 : ℝ) ≤ max 1.65 (1 + 1.0 / rhoDen (if z = 0 then 0.0001 else z) v) := le_max_left _ _
    linarith

theorem mapM_all_ok {α β : Type} (f : α → Except PyErr β) (P : α → β → Prop) (hf : ∀ a b, f a = .ok b → P a b) :
    ∀ (l : List α) (r : List β), l.mapM f = .ok r → List.Forall₂ P l r := by
  intro l
  induction l with
  | nil => intro r h; rw [List.mapM_nil] at h; cases h; exact .nil
  | cons a l ih =>
    intro r h
    rw [List.mapM_cons] at h
    cases ha : f a with
    | error e => simp only [bind, Except.bind, ha] at h; cases h
    | ok b =>
      cases hl : l.mapM f with
      | error e => simp only [bind, Except.bind, ha, hl] at h; cases h
      | ok bs =>
        simp only [bind, Except.bind, ha, hl, pure, Except.pure] at h
        cases h
        exact .cons (hf a b ha) (ih bs hl)

theorem mapM_ok_of {α β : Type} (f : α → Except PyErr β) (P : α → β → Prop) :
    ∀ (l : List α), (∀ a ∈ l, ∃ b, f a = .ok b ∧ P a b) → ∃ r, l.mapM f = .ok r ∧ List.Forall₂ P l r := by
  intro l
  induction l with
  | nil => intro _; exact ⟨[], rfl, .nil⟩
  | cons a l ih =>
    intro h
    obtain ⟨b, hb, pb⟩ := h a (by simp)
    obtain ⟨bs, hbs, pbs⟩ := ih fun x hx => h x (List.mem_cons_of_mem _ hx)
    refine ⟨b :: bs, ?_, .cons pb pbs⟩
    rw [List.mapM_cons]
    simp only [bind, Except.bind, hb, hbs, pure, Except.pure]

/-- Computed densities are at least 1650 kg/m³, one per layer. -/
theorem C46_density (h vs rho : List ℝ) (hok : calcRho h vs = .ok rho) :
    rho.length = vs.length ∧ ∀ r ∈ rho, 1650 ≤ r := by
  unfold calcRho at hok
  cases hz : thk2dep h true with
  | error e => rw [hz] at hok; cases hok
  | ok z =>
    rw [hz] at hok
    simp only at hok
    by_cases c : z.length ≠ vs.length
    · rw [if_pos c] at hok; cases hok
    · rw [if_neg c] at hok
      push Not at c
      have := mapM_all_ok (fun p : ℝ × ℝ => rhoOne p.1 p.2) (fun _ r => 1650 ≤ r) (fun a b hb => rhoOne_ge _ _ _ hb) _ _ hok
      refine ⟨?_, ?_⟩
      · rw [← this.length_eq]; simp [c]
      · intro r hr
        obtain ⟨i, hi, rfl⟩ := List.getElem_of_mem hr
        have h2 := List.forall₂_iff_get.1 this
        exact h2.2 i (by rw [h2.1]; exact hi) hi

theorem rhoDen_ge (z v : ℝ) (hz : 0.1 ≤ z) (hv : 0 < v) : 0.614 ≤ rhoDen z v := by
  have hl : -1 ≤ Real.logb 10 z := by
    rw [Real.le_logb_iff_rpow_le (by norm_num) (by linarith)]
    rw [Real.rpow_neg_one]; norm_num at hz ⊢; linarith
  unfold rhoDen
  have : 0 ≤ 58.7 * (Real.logb 10 z + 1.095) / v := by
    apply div_nonneg _ hv.le
    apply mul_nonneg (by norm_num)
    norm_num; linarith
  linarith

/-- If the middle of every layer is at least 10 cm deep the densities exist and are at most 2629 kg/m³. -/
theorem C46_density_exists (h vs : List ℝ) (hlen : h.length = vs.length) (hne : h ≠ []) (hh : ∀ x ∈ h, 0 < x)
    (hv : ∀ x ∈ vs, 0 < x) (h0 : ∀ x, h.head? = some x → 0.2 ≤ x) :
    ∃ rho, calcRho h vs = .ok rho ∧ rho.length = vs.length ∧ ∀ r ∈ rho, 1650 ≤ r ∧ r ≤ 2629 := by
  obtain ⟨dep, hd, hdl, hdi⟩ := C01_thk2dep_midpoints h hne
  have hlast : h.getLast? ≠ some 0 := by
    intro e
    exact lt_irrefl _ (hh 0 (List.mem_of_getLast? e))
  rw [if_neg hlast] at hdl
  have hmid : ∀ z ∈ dep, 0.1 ≤ z := by
    intro z hz
    obtain ⟨i, hi, rfl⟩ := List.getElem_of_mem hz
    have := hdi i hi
    rw [List.getElem?_eq_getElem hi, Option.some.injEq] at this
    rw [this]
    match h, hne with
    | x :: xs, _ =>
      have hx : 0.2 ≤ x := h0 x rfl
      have top : ∀ k, 0 ≤ Spec.topDepth (x :: xs) k := by
        intro k
        unfold Spec.topDepth
        apply List.sum_nonneg
        intro y hy
        exact (hh y (List.mem_of_mem_take hy)).le
      have top1 : ∀ k, 0.2 ≤ Spec.topDepth (x :: xs) (k + 1) := by
        intro k
        unfold Spec.topDepth
        rw [List.take_succ_cons, List.sum_cons]
        have : 0 ≤ (xs.take k).sum := List.sum_nonneg fun y hy => (hh y (List.mem_cons_of_mem _ (List.mem_of_mem_take hy))).le
        linarith
      have := top i; have := top1 i
      linarith
  have key := mapM_ok_of (fun p : ℝ × ℝ => rhoOne p.1 p.2) (fun _ r => 1650 ≤ r ∧ r ≤ 2629) (dep.zip vs) (by
    rintro ⟨z, v⟩ hp
    have hz := hmid z (List.of_mem_zip hp).1
    have hvv := hv v (List.of_mem_zip hp).2
    have hz0 : z ≠ 0 := by rintro rfl; norm_num at hz
    have hd := rhoDen_ge z v hz hvv
    have e : rhoOne z v = .ok (max 1.65 (1 + 1.0 / rhoDen z v) * 1000) := by
      unfold rhoOne
      rw [if_neg hz0, if_neg]
      rintro (h | h)
      · exact hvv.ne' h
      · rw [h] at hd; norm_num at hd
    refine ⟨_, e, rhoOne_ge _ _ _ e, ?_⟩
    have h1 : 1.0 / rhoDen z v ≤ 1.0 / 0.614 := div_le_div_of_nonneg_left (by norm_num) (by norm_num) hd
    have h2 : max 1.65 (1 + 1.0 / rhoDen z v) ≤ 2.629 := by
      apply max_le (by norm_num)
      have : (1.0 : ℝ) / 0.614 ≤ 1.629 := by norm_num
      linarith
    linarith)
  obtain ⟨rho, hr, hf⟩ := key
  refine ⟨rho, ?_, ?_, ?_⟩
  · unfold calcRho
    rw [hd]
    simp only
    rw [if_neg (by rw [hdl, hlen]; simp), hr]
  · rw [← hf.length_eq]; simp [hdl, hlen]
  · intro r hr'
    obtain ⟨i, hi, rfl⟩ := List.getElem_of_mem hr'
    have h2 := List.forall₂_iff_get.1 hf
    exact h2.2 i (by rw [h2.1]; exact hi) hi

/-- For a thin top layer there is no upper limit: for every bound there is a positive velocity at which the density of
a top layer of 2 cm exceeds it. -/
theorem C46_density_unbounded (M : ℝ) : ∃ v r : ℝ, 0 < v ∧ calcRho [0.02] [v] = .ok [r] ∧ M < r := by
  set e : ℝ := 1 / (|M| + 2) with he
  have hM : 0 < |M| + 2 := by positivity
  have he0 : 0 < e := by positivity
  have he1 : e ≤ 1 / 2 := by
    rw [he, div_le_div_iff₀ hM (by norm_num)]
    have := abs_nonneg M; linarith
  have hlog : Real.logb 10 (0.01 : ℝ) = -2 := by
    rw [show (0.01 : ℝ) = (10 : ℝ) ^ (-2 : ℝ) by
      rw [Real.rpow_neg (by norm_num), show (2 : ℝ) = ((2 : ℕ) : ℝ) by norm_num, Real.rpow_natCast]; norm_num]
    rw [Real.logb_rpow (by norm_num) (by norm_num)]
  have hd : 0 < 0.614 - e := by linarith [show (1 : ℝ) / 2 < 0.614 by norm_num]
  set v : ℝ := 58.7 * 0.905 / (0.614 - e) with hv
  have hv0 : 0 < v := by rw [hv]; positivity
  have hden : rhoDen 0.01 v = e := by
    unfold rhoDen
    rw [hlog, hv]
    field_simp
    norm_num
    ring
  have hthk : thk2dep [(0.02 : ℝ)] true = .ok [0.01] := by
    simp [thk2dep, zMid]; norm_num
  refine ⟨v, max 1.65 (1 + 1.0 / e) * 1000, hv0, ?_, ?_⟩
  · unfold calcRho
    rw [hthk]
    simp only [List.length_singleton, ne_eq, not_true, if_false, List.zip_cons_cons, List.zip_nil_right, List.mapM_cons,
      List.mapM_nil]
    unfold rhoOne
    rw [if_neg (by norm_num : ¬ (0.01 : ℝ) = 0), if_neg (by rw [hden]; push Not; exact ⟨hv0.ne', he0.ne'⟩), hden]
    rfl
  · have h1 : (1.0 : ℝ) / e = |M| + 2 := by rw [he]; norm_num
    have h2 : 1 + 1.0 / e ≤ max 1.65 (1 + 1.0 / e) := le_max_right _ _
    have := le_abs_self M
    rw [h1] at h2 ⊢
    have := abs_nonneg M
    nlinarith

/-- `Gmax` is `rho Vs²` of the layer, positive for positive density and velocity. -/
theorem C46_gmax (vs rho : List ℝ) (hlen : vs.length = rho.length) (hv : ∀ x ∈ vs, 0 < x) (hr : ∀ x ∈ rho, 0 < x) :
    (calcGmax vs rho).length = vs.length ∧
    ∀ (i : Nat) v r g, vs[i]? = some v → rho[i]? = some r → (calcGmax vs rho)[i]? = some g → g = r * v ^ 2 ∧ 0 < g := by
  refine ⟨by simp [calcGmax, hlen], ?_⟩
  intro i v r g h1 h2 h3
  unfold calcGmax at h3
  rw [List.getElem?_zipWith, h1, h2] at h3
  have : r * v ^ 2 = g := by simpa using h3
  have hv0 := hv v (List.mem_of_getElem? h1)
  have hr0 := hr r (List.mem_of_getElem? h2)
  exact ⟨this.symm, by rw [← this]; positivity⟩

theorem sinDeg_range (phi : ℝ) (h0 : 0 ≤ phi) (h1 : phi < 90) : 0 ≤ sinDeg phi ∧ sinDeg phi < 1 := by
  have hp := Real.pi_pos
  have hx0 : 0 ≤ phi * (Real.pi / 180) := by positivity
  have hx1 : phi * (Real.pi / 180) < Real.pi / 2 := by nlinarith
  refine ⟨Real.sin_nonneg_of_nonneg_of_le_pi hx0 (by linarith), ?_⟩
  unfold sinDeg
  rw [← Real.sin_pi_div_two]
  exact Real.sin_lt_sin_of_lt_of_le_pi_div_two (by linarith) le_rfl hx1

/-- The lateral stress coefficient is positive, and is `1 - sin phi` for normally consolidated soil. -/
theorem C46_k0 (phi ocr : ℝ) (h0 : 0 ≤ phi) (h1 : phi < 90) (ho : 0 < ocr) :
    0 < k0One phi ocr ∧ k0One phi 1 = 1 - sinDeg phi ∧ (1 ≤ ocr → k0One phi 1 ≤ k0One phi ocr) := by
  obtain ⟨ha, hb⟩ := sinDeg_range phi h0 h1
  refine ⟨?_, ?_, ?_⟩
  · unfold k0One
    exact mul_pos (by linarith) (Real.rpow_pos_of_pos ho _)
  · unfold k0One; rw [Real.one_rpow, mul_one]
  · intro h
    unfold k0One
    exact mul_le_mul_of_nonneg_left (Real.rpow_le_rpow (by norm_num) h ha) (by linarith)

/-- The shear strength is positive; for soft soil it is Ladd's undrained strength, for stiff soil at least the
Mohr-Coulomb strength at the smaller principal stress. -/
theorem C46_strength (v ocr sv k0 phi : ℝ) (hphi : 0 < phi) (hphi' : phi < 90) (ho : 0 < ocr) (hs : 0 < sv) (hk : 0 < k0) :
    0 < strengthOne v ocr sv k0 phi ∧
    (v ≤ 760 → strengthOne v ocr sv k0 phi = 1.2 * 0.28 * ocr ^ (0.8 : ℝ) * sv) ∧
    (760 < v → 1.2 * min sv (k0 * sv) * tanDeg phi ≤ strengthOne v ocr sv k0 phi ∧
      strengthOne v ocr sv k0 phi ≤ 1.2 * max sv (k0 * sv) * tanDeg phi) := by
  obtain ⟨ha, hb⟩ := sinDeg_range phi hphi.le hphi'
  have ht : 0 < tanDeg phi := by
    have hp := Real.pi_pos
    apply Real.tan_pos_of_pos_of_lt_pi_div_two
    · positivity
    · nlinarith
  have hmin : 0 < min sv (k0 * sv) := lt_min hs (mul_pos hk hs)
  have hle : min sv (k0 * sv) ≤ max sv (k0 * sv) := min_le_max
  unfold strengthOne
  by_cases c : v ≤ 760
  · refine ⟨?_, fun _ => by rw [if_pos c], fun h => absurd c (not_le.2 h)⟩
    rw [if_pos c]
    have := Real.rpow_pos_of_pos ho 0.8
    positivity
  · rw [if_neg c]
    simp only
    set s1 := max sv (k0 * sv)
    set s3 := min sv (k0 * sv)
    have lo : s3 ≤ (s1 + s3) / 2 - (s1 - s3) / 2 * sinDeg phi := by nlinarith
    have hi : (s1 + s3) / 2 - (s1 - s3) / 2 * sinDeg phi ≤ s1 := by nlinarith
    refine ⟨?_, fun h => absurd h c, fun _ => ⟨?_, ?_⟩⟩
    · have : 0 < (s1 + s3) / 2 - (s1 - s3) / 2 * sinDeg phi := lt_of_lt_of_le hmin lo
      positivity
    · apply mul_le_mul_of_nonneg_right _ ht.le; linarith
    · apply mul_le_mul_of_nonneg_right _ ht.le; linarith

/-- For stiff soil the strength is 1.2 times the Mohr-Coulomb strength for the normal stress of the plane of obliquity
`phi` on the Mohr circle of the two principal stresses: `(1 - sin phi) / 2` of the larger one and `(1 + sin phi) / 2` of
the smaller one.  It is therefore at most 1.2 times the strength at the mean of the two, and equals
`1.2 * sv * tan phi` when both stresses are equal. -/
theorem C46_mohr (v ocr sv k0 phi : ℝ) (hphi : 0 ≤ phi) (hphi' : phi < 90) (hs : 0 < sv) (hv : 760 < v) :
    strengthOne v ocr sv k0 phi =
      1.2 * ((1 - sinDeg phi) / 2 * max sv (k0 * sv) + (1 + sinDeg phi) / 2 * min sv (k0 * sv)) * tanDeg phi ∧
    strengthOne v ocr sv k0 phi ≤ 1.2 * ((sv + k0 * sv) / 2) * tanDeg phi ∧
    (k0 = 1 → strengthOne v ocr sv k0 phi = 1.2 * sv * tanDeg phi) := by
  obtain ⟨ha, hb⟩ := sinDeg_range phi hphi hphi'
  have ht : 0 ≤ tanDeg phi := by
    have hp := Real.pi_pos
    apply Real.tan_nonneg_of_nonneg_of_le_pi_div_two
    · positivity
    · nlinarith
  have hsum : max sv (k0 * sv) + min sv (k0 * sv) = sv + k0 * sv := max_add_min _ _
  have hle : min sv (k0 * sv) ≤ max sv (k0 * sv) := min_le_max
  have e : strengthOne v ocr sv k0 phi =
      1.2 * ((1 - sinDeg phi) / 2 * max sv (k0 * sv) + (1 + sinDeg phi) / 2 * min sv (k0 * sv)) * tanDeg phi := by
    unfold strengthOne
    rw [if_neg (not_le.2 hv)]
    simp only
    ring
  refine ⟨e, ?_, ?_⟩
  · rw [e]
    apply mul_le_mul_of_nonneg_right _ ht
    rw [← hsum]
    nlinarith
  · rintro rfl
    rw [e]
    simp only [one_mul, max_self, min_self]
    ring

/-- Plasticity index 10 up to 200 m/s, 5 up to 360 m/s, 0 above. -/
theorem C46_pi (v : ℝ) : (v ≤ 200 → piOne v = 10) ∧ (200 < v → v ≤ 360 → piOne v = 5) ∧ (360 < v → piOne v = 0) := by
  unfold piOne
  refine ⟨fun h => by rw [if_pos h], fun h h' => by rw [if_neg (not_le.2 h), if_pos h'], fun h => ?_⟩
  rw [if_neg (by linarith), if_neg (not_le.2 h)]

/-- The over-consolidation ratio is positive and respects its limit. -/
theorem C46_ocr (limit : Option ℝ) (v sv : ℝ) (hv : 0 < v) (hs : 0 < sv) :
    (limit = none → 0 < ocrOne limit v sv ∧ ocrOne limit v sv * sv = 106 * v ^ (1.47 : ℝ)) ∧
    ∀ l, limit = some l → ocrOne limit v sv ≤ l ∧ (0 < l → 0 < ocrOne limit v sv) := by
  have hp : 0 < 0.106 * v ^ (1.47 : ℝ) * 1000 / sv := by
    have := Real.rpow_pos_of_pos hv 1.47
    positivity
  constructor
  · rintro rfl
    refine ⟨hp, ?_⟩
    unfold ocrOne
    simp only
    rw [div_mul_cancel₀ _ hs.ne']
    ring
  · rintro l rfl
    exact ⟨min_le_right _ _, fun hl => lt_min hp hl⟩

example : piOne 200 = 10 ∧ piOne 201 = 5 ∧ piOne 361 = 0 := by
  refine ⟨(C46_pi 200).1 le_rfl, (C46_pi 201).2.1 (by norm_num) (by norm_num), (C46_pi 361).2.2 (by norm_num)⟩

end C46

end Verif
