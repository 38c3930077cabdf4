import Verif.Model.HhFig
import Verif.Props.CalibOut
import Verif.Props.ResPlot
import Verif.Props.FitMkz
import Verif.Props.FreqSpectrum
import Verif.Props.PlotLine
import Verif.Props.Compare

/-!
Property C172: the figures of the HH calibration and of the MKZ fit.
-/

set_option linter.unusedSectionVars false
set_option linter.unusedVariables false

namespace Verif

/-- A line shows the function `f` (of strain in 1) at strains in percent. -/
def Spec.Shows (l : LabLine ℝ) (strain : List ℝ) (f : ℝ → ℝ) : Prop :=
  l.xs = strain ∧ l.ys.length = strain.length ∧ ∀ (k : Nat) e, strain[k]? = some e → l.ys[k]? = some (f (e / 100))

/-- The parameters in one column of the array returned by the calibration. -/
def Spec.colParam (col : List ℝ) : Option HHParam := match col with
  | [gt, a, r, b, s, G, mu, T, d] => some ⟨gt, a, r, b, s, G, mu, T, d⟩
  | _ => none

open Spec (Shows colParam)

theorem layerFig_inv {given : Bool} {vs : ℝ} {q : LayerIn} {gg : List ℝ} {col : List ℝ} {p1 p2 : HhPanel}
    (h : layerFig given vs q gg = .ok (col, p1, p2)) :
    ∃ a gt d e0 es, kernel (q.strain.map (· / 100)) q.gammaRef q.beta q.s q.Gmax q.Tmax
        (muOne q.Gmax q.Tmax q.ocr (meanStress q.sv q.k0 / 1000)) = .ok (a, gt, d) ∧ 0 < gt ∧ q.strain = e0 :: es ∧ 0 ∉ q.strain ∧
      q.strain.length = gg.length ∧
      col = [gt, a, q.gammaRef, q.beta, q.s, q.Gmax, muOne q.Gmax q.Tmax q.ocr (meanStress q.sv q.k0 / 1000), q.Tmax, d] ∧
      p1 = ⟨"Stress [kPa]", [⟨some (if given then "Given $G/G_{\\max}$" else "MKZ"), q.strain, (impliedStress q.Gmax q.strain gg).map (· / 1000)⟩,
          ⟨some "FKZ", q.strain, ((q.strain.map (· / 100)).map (tauFKZ q.Gmax (muOne q.Gmax q.Tmax q.ocr (meanStress q.sv q.k0 / 1000)) d q.Tmax)).map (· / 1000)⟩,
          ⟨none, [es.foldl min e0, es.foldl max e0], [q.Tmax / 1000, q.Tmax / 1000]⟩,
          ⟨some "HH", q.strain, ((q.strain.map (· / 100)).map (hhOne ⟨gt, a, q.gammaRef, q.beta, q.s, q.Gmax,
            muOne q.Gmax q.Tmax q.ocr (meanStress q.sv q.k0 / 1000), q.Tmax, d⟩)).map (· / 1000)⟩], gt * 100,
        [vs, q.Gmax / 1000000, q.Tmax / 1000, q.gammaRef * 100]⟩ ∧
      p2 = ⟨"$G/G_{\\max}$", [⟨none, q.strain, gg⟩,
          ⟨none, q.strain, (q.strain.map (· / 100)).map fun g => muOne q.Gmax q.Tmax q.ocr (meanStress q.sv q.k0 / 1000) /
            (1 + q.Gmax / q.Tmax * muOne q.Gmax q.Tmax q.ocr (meanStress q.sv q.k0 / 1000) * |g|)⟩,
          ⟨none, q.strain, List.zipWith (fun t g => t / (q.Gmax * g)) ((q.strain.map (· / 100)).map (hhOne ⟨gt, a, q.gammaRef, q.beta, q.s,
            q.Gmax, muOne q.Gmax q.Tmax q.ocr (meanStress q.sv q.k0 / 1000), q.Tmax, d⟩)) (q.strain.map (· / 100))⟩], gt * 100,
        [muOne q.Gmax q.Tmax q.ocr (meanStress q.sv q.k0 / 1000), a, gt * 100, d, meanStress q.sv q.k0 / 1000]⟩ := by
  unfold layerFig at h
  simp only at h
  cases hk : kernel (q.strain.map (· / 100)) q.gammaRef q.beta q.s q.Gmax q.Tmax
        (muOne q.Gmax q.Tmax q.ocr (meanStress q.sv q.k0 / 1000)) with
  | error e => rw [hk] at h; cases h
  | ok r =>
    obtain ⟨a, gt, d⟩ := r
    rw [hk] at h
    simp only [tauHH, transition] at h
    by_cases hg : 0 < gt
    · rw [if_neg (not_not.2 hg)] at h
      simp only at h
      cases hs : q.strain with
      | nil => rw [hs] at h; cases h
      | cons e0 es =>
        rw [hs] at h
        simp only at h
        by_cases h1 : 0 ∈ e0 :: es
        · rw [if_pos h1] at h; cases h
        by_cases h2 : (e0 :: es).length = gg.length
        swap
        · rw [if_neg h1, if_pos h2] at h; cases h
        rw [if_neg h1, if_neg (not_not.2 h2)] at h
        simp only [Except.ok.injEq, Prod.mk.injEq] at h
        obtain ⟨rfl, rfl, rfl⟩ := h
        exact ⟨a, gt, d, e0, es, rfl, hg, rfl, h1, h2, rfl, rfl, rfl⟩
    · rw [if_pos hg] at h
      cases h

theorem shows_strain (lab : Option String) (strain : List ℝ) (f g : ℝ → ℝ) (hfg : ∀ x, f x = g x) :
    Shows ⟨lab, strain, (strain.map (· / 100)).map f⟩ strain g := by
  refine ⟨rfl, by simp, fun k e he => ?_⟩
  simp [he, hfg]

theorem hhFoldMin_mem (l : List ℝ) (a : ℝ) : l.foldl min a ∈ a :: l := by
  induction l generalizing a with
  | nil => simp
  | cons b l ih =>
    simp only [List.foldl_cons]
    rcases List.mem_cons.1 (ih (min a b)) with h | h
    · rcases min_choice a b with hm | hm <;> rw [hm] at h <;> simp [h, hm]
    · simp [h]

theorem hhFoldMin_le (l : List ℝ) (a : ℝ) : ∀ x ∈ a :: l, l.foldl min a ≤ x := by
  induction l generalizing a with
  | nil => simp
  | cons b l ih =>
    intro x hx
    simp only [List.foldl_cons]
    have h1 := ih (min a b)
    rcases List.mem_cons.1 hx with rfl | hx
    · exact (h1 _ List.mem_cons_self).trans (min_le_left _ _)
    · rcases List.mem_cons.1 hx with rfl | hx
      · exact (h1 _ List.mem_cons_self).trans (min_le_right _ _)
      · exact h1 x (List.mem_cons_of_mem _ hx)

/-- **C172**, the figure of one layer.  It belongs to the returned parameters: the lines FKZ and HH of the upper panel are the stresses in kPa
of the FKZ and HH models with the parameters in the returned column, the horizontal line is their shear strength in kPa, both vertical lines
are at their transition strain in percent, the titles give their numbers, and the line HH of the lower panel is the secant modulus of HH over
`Gmax`.  The column is the one returned without a figure.  Missing: the first point of the line of the given curve
(`C172_first_point_violated`) and the line of FKZ in the lower panel (`C172_fkz_exact`). -/
theorem C172_layer_partial (given : Bool) (vs : ℝ) (q : LayerIn) (gg : List ℝ) (col : List ℝ) (p1 p2 : HhPanel)
    (h : layerFig given vs q gg = .ok (col, p1, p2)) :
    ∃ (p : HHParam) (l1 l2 l3 l4 m1 m2 m3 : LabLine ℝ) (lo hi : ℝ), colParam col = some p ∧ layerCol q = .ok col ∧
      p1.lines = [l1, l2, l3, l4] ∧ l1.lab = some (if given then "Given $G/G_{\\max}$" else "MKZ") ∧ l2.lab = some "FKZ" ∧
      l4.lab = some "HH" ∧ p2.lines = [m1, m2, m3] ∧
      Shows l2 q.strain (fun g => tauFKZ p.Gmax p.mu p.d p.Tmax g / 1000) ∧ Shows l4 q.strain (fun g => hhOne p g / 1000) ∧
      l3.xs = [lo, hi] ∧ l3.ys = [p.Tmax / 1000, p.Tmax / 1000] ∧ lo ∈ q.strain ∧ hi ∈ q.strain ∧ (∀ e ∈ q.strain, lo ≤ e ∧ e ≤ hi) ∧
      p1.mark = p.gammaT * 100 ∧ p2.mark = p.gammaT * 100 ∧
      p1.title = [vs, p.Gmax / 1000000, p.Tmax / 1000, p.gammaRef * 100] ∧
      p2.title = [p.mu, p.a, p.gammaT * 100, p.d, meanStress q.sv q.k0 / 1000] ∧
      m1.xs = q.strain ∧ m1.ys = gg ∧
      Shows m3 q.strain (fun g => hhOne p g / (p.Gmax * g)) ∧
      l1.xs = q.strain ∧ l1.ys.length = q.strain.length ∧
      ∀ (k : Nat) e g, 0 < k → q.strain[k]? = some e → gg[k]? = some g → l1.ys[k]? = some (p.Gmax * (e / 100) * g / 1000) := by
  obtain ⟨a, gt, d, e0, es, hk, hgt, hst, h0, hl, rfl, rfl, rfl⟩ := layerFig_inv h
  refine ⟨⟨gt, a, q.gammaRef, q.beta, q.s, q.Gmax, muOne q.Gmax q.Tmax q.ocr (meanStress q.sv q.k0 / 1000), q.Tmax, d⟩, _, _, _, _, _, _, _,
    es.foldl min e0, es.foldl max e0, rfl, ?_, rfl, rfl, rfl, rfl, rfl, ?_, ?_, rfl, rfl, ?_, ?_, ?_, rfl, rfl, rfl, rfl, rfl, rfl, ?_, rfl, ?_, ?_⟩
  · unfold layerCol
    rw [hk]
    simp only [tauHH, transition]
    rw [if_neg (not_not.2 hgt)]
  · rw [List.map_map]
    exact shows_strain _ _ _ _ fun x => rfl
  · rw [List.map_map]
    exact shows_strain _ _ _ _ fun x => rfl
  · rw [hst]
    exact hhFoldMin_mem es e0
  · rw [hst]
    exact resFoldMax_mem es e0
  · intro e he
    rw [hst] at he
    refine ⟨hhFoldMin_le es e0 e he, ?_⟩
    rcases List.mem_cons.1 he with rfl | he
    · exact (resFoldMax_ge es e).1
    · exact (resFoldMax_ge es e0).2 e he
  · refine ⟨rfl, by simp, fun k e he => ?_⟩
    simp only
    rw [List.getElem?_zipWith, List.getElem?_map, List.getElem?_map, he]
    rfl
  · simp only [List.length_map]
    unfold impliedStress
    have : (List.zipWith (fun e g => g * q.Gmax * e / 100) q.strain gg).length = q.strain.length := by
      rw [List.length_zipWith, hl, min_self]
    split
    · rename_i he; rw [he] at this; exact this
    · rename_i he; rw [he] at this; simpa using this
  · intro k e g hk0 he hg
    simp only
    have hz : (List.zipWith (fun e g => g * q.Gmax * e / 100) q.strain gg)[k]? = some (g * q.Gmax * e / 100) := by
      rw [List.getElem?_zipWith, he, hg]
    unfold impliedStress
    split
    · rename_i hn; rw [hn] at hz; simp at hz
    · rename_i w rest hn
      rw [hn] at hz
      obtain ⟨k, rfl⟩ := Nat.exists_eq_succ_of_ne_zero hk0.ne'
      rw [List.getElem?_cons_succ] at hz
      rw [List.getElem?_map, List.getElem?_cons_succ, hz]
      simp only [Option.map_some]
      congr 1; ring

/-- C172: the figure of a layer can always be drawn: for strains other than zero and one G/Gmax value for each, and positive soil
properties. -/
theorem C172_exists (given : Bool) (vs : ℝ) (q : LayerIn) (gg : List ℝ) (hst : q.strain ≠ []) (hz : 0 ∉ q.strain)
    (hl : q.strain.length = gg.length) (hG : 0 < q.Gmax) (hT : 0 < q.Tmax) (ho : 0 < q.ocr) (hs : 0 < q.sv) (hk : 0 < q.k0) :
    ∃ col p1 p2, layerFig given vs q gg = .ok (col, p1, p2) := by
  obtain ⟨gt, d, h1, _, _, _, h5⟩ := C48_range (q.strain.map (· / 100)) q.gammaRef q.beta q.s q.Gmax q.Tmax
    (muOne q.Gmax q.Tmax q.ocr (meanStress q.sv q.k0 / 1000)) (by simpa using hst)
  unfold layerFig
  simp only [h1, tauHH, transition]
  rw [if_neg (not_not.2 h5)]
  cases hs' : q.strain with
  | nil => exact absurd hs' hst
  | cons e es =>
    rw [hs'] at hz hl
    simp only
    rw [if_neg hz, if_neg (not_not.2 hl)]
    exact ⟨_, _, _, rfl⟩

-- a layer of 20 MPa modulus with curve values at three strains
example : ∃ col p1 p2, layerFig true 100 ⟨20000000, 30000, 1.5, 50000, 0.5, 0.001, 1, 0.9, [0.001, 0.1, 1]⟩ [1, 0.5, 0.1] = .ok (col, p1, p2) :=
  C172_exists _ _ _ _ (by simp) (by norm_num) rfl (by norm_num) (by norm_num) (by norm_num) (by norm_num) (by norm_num)

/-- C172 fails at the first point of the line of the given curve (labelled "MKZ" for curves that are not given): it is drawn at zero stress,
although the G/Gmax value there, where it is not zero, stands for another stress. -/
theorem C172_first_point_violated (given : Bool) (vs : ℝ) (q : LayerIn) (gg : List ℝ) (col : List ℝ) (p1 p2 : HhPanel)
    (h : layerFig given vs q gg = .ok (col, p1, p2)) (hG : 0 < q.Gmax) (e g : ℝ) (he : q.strain[0]? = some e) (hg : gg[0]? = some g)
    (hg0 : g ≠ 0) :
    ∃ l rest, p1.lines = l :: rest ∧ l.xs[0]? = some e ∧ l.ys[0]? = some 0 ∧ q.Gmax * (e / 100) * g / 1000 ≠ 0 := by
  obtain ⟨a, gt, d, e0, es, hk, hgt, hst, h0, hl, rfl, rfl, rfl⟩ := layerFig_inv h
  refine ⟨_, _, rfl, he, ?_, ?_⟩
  · have hz : (List.zipWith (fun e g => g * q.Gmax * e / 100) q.strain gg)[0]? = some (g * q.Gmax * e / 100) := by
      rw [List.getElem?_zipWith, he, hg]
    show ((impliedStress q.Gmax q.strain gg).map (· / 1000))[0]? = some 0
    unfold impliedStress
    split
    · rename_i hn; rw [hn] at hz; simp at hz
    · simp
  · have : e ≠ 0 := by
      rintro rfl
      exact h0 (List.mem_of_getElem? he)
    positivity

/-- C172, curves that are not given (Darendeli's): from the second point on the line labelled "MKZ" is the MKZ model with the parameters in
the returned column. -/
theorem C172_mkz_line_partial (vs : ℝ) (q : LayerIn) (r : ℝ) (col : List ℝ) (p1 p2 : HhPanel)
    (h : layerFig false vs q (q.strain.map (darGG r)) = .ok (col, p1, p2)) (hr : 0 < r) (hpos : ∀ e ∈ q.strain, 0 < e)
    (h1 : q.gammaRef = r / 100) (h2 : q.beta = 1) (h3 : q.s = 0.9190) :
    ∃ p l rest, colParam col = some p ∧ p1.lines = l :: rest ∧ l.lab = some "MKZ" ∧
      ∀ (k : Nat) e, 0 < k → q.strain[k]? = some e → l.xs[k]? = some e ∧
        l.ys[k]? = some (tauMKZ p.gammaRef p.beta p.s p.Gmax (e / 100) / 1000) := by
  obtain ⟨p, l1, l2, l3, l4, m1, m2, m3, lo, hi, hp, hcol, hlines, hlab, _, _, _, _, _, _, _, _, _, _, _, _, _, _, _, _, _, hxs, _, hk⟩ :=
    C172_layer_partial false vs q _ col p1 p2 h
  have hq : p.gammaRef = q.gammaRef ∧ p.beta = q.beta ∧ p.s = q.s := by
    obtain ⟨a, gt, d, e0, es, _, _, _, _, _, rfl, _, _⟩ := layerFig_inv h
    simp only [colParam, Option.some.injEq] at hp
    rw [← hp]
    exact ⟨rfl, rfl, rfl⟩
  refine ⟨p, l1, [l2, l3, l4], hp, hlines, hlab, ?_⟩
  intro k e hk0 he
  have he0 := hpos e (List.mem_of_getElem? he)
  refine ⟨by rw [hxs, he], ?_⟩
  rw [hk k e (darGG r e) hk0 he (by rw [List.getElem?_map, he]; rfl), hq.1, hq.2.1, hq.2.2, h1, h2, h3]
  unfold tauMKZ darGG
  congr 1
  have e1 : |e / 100| / (r / 100) = e / r := by
    rw [abs_of_pos (by positivity)]
    field_simp
  rw [e1]
  norm_num
  ring

theorem rpow_eq_self_iff {g d : ℝ} (hg : 0 < g) : g ^ d = g ↔ g = 1 ∨ d = 1 := by
  constructor
  · intro h
    have h1 := congrArg Real.log h
    rw [Real.log_rpow hg] at h1
    by_cases hl : Real.log g = 0
    · left
      rcases Real.log_eq_zero.1 hl with h | h | h
      · linarith
      · exact h
      · linarith
    · right
      have : (d - 1) * Real.log g = 0 := by linarith
      rcases mul_eq_zero.1 this with h | h
      · linarith
      · exact absurd h hl
  · rintro (rfl | rfl)
    · exact Real.one_rpow d
    · exact Real.rpow_one g

/-- C172, the line of FKZ in the lower panel.  It is drawn without the exponent `d`; it is the secant modulus over `Gmax` of the FKZ model with
the returned parameters, which the upper panel shows, exactly if `d = 1` (or all strains are 100%). -/
theorem C172_fkz_exact (given : Bool) (vs : ℝ) (q : LayerIn) (gg : List ℝ) (col : List ℝ) (p1 p2 : HhPanel)
    (h : layerFig given vs q gg = .ok (col, p1, p2)) (hpos : ∀ e ∈ q.strain, 0 < e) (hG : 0 < q.Gmax) (hT : 0 < q.Tmax)
    (ho : 0 < q.ocr) (hs : 0 < q.sv) (hk : 0 < q.k0) :
    ∃ p m1 m2 m3, colParam col = some p ∧ p2.lines = [m1, m2, m3] ∧
      (Shows m2 q.strain (fun g => tauFKZ p.Gmax p.mu p.d p.Tmax g / (p.Gmax * g)) ↔ p.d = 1 ∨ ∀ e ∈ q.strain, e = 100) := by
  obtain ⟨a, gt, d, e0, es, hkn, hgt, hst, h0, hl, rfl, rfl, rfl⟩ := layerFig_inv h
  have hm : 0 < meanStress q.sv q.k0 / 1000 := by unfold meanStress; positivity
  have hmu := muOne_pos q.Gmax q.Tmax q.ocr _ hG hT ho hm
  clear h hkn
  generalize muOne q.Gmax q.Tmax q.ocr (meanStress q.sv q.k0 / 1000) = mu at *
  refine ⟨_, _, _, _, rfl, rfl, ?_⟩
  have key : ∀ g : ℝ, 0 < g → (mu / (1 + q.Gmax / q.Tmax * mu * |g|) = tauFKZ q.Gmax mu d q.Tmax g / (q.Gmax * g) ↔ g = 1 ∨ d = 1) := by
    intro g hg
    rw [← rpow_eq_self_iff hg]
    unfold tauFKZ
    have hy : 0 < g ^ d := Real.rpow_pos_of_pos hg d
    rw [abs_of_pos hg]
    generalize g ^ d = y at *
    have hc : 0 < q.Gmax / q.Tmax * mu := by positivity
    generalize q.Gmax / q.Tmax * mu = c at *
    rw [div_div, div_eq_div_iff (by positivity) (by positivity)]
    constructor
    · intro h
      have h1 : mu * q.Gmax * (g - y) = 0 := by linear_combination h
      rcases mul_eq_zero.1 h1 with h2 | h2
      · exact absurd h2 (by positivity)
      · linarith
    · intro h
      rw [h]; ring
  constructor
  · rintro ⟨_, _, hsh⟩
    by_cases hd : d = 1
    · exact .inl hd
    · right
      intro e he
      obtain ⟨k, hke⟩ := List.mem_iff_getElem?.1 he
      have h1 := hsh k e hke
      simp only [List.getElem?_map, hke, Option.map_some, Option.some.injEq] at h1
      rcases (key (e / 100) (by have := hpos e he; positivity)).1 h1 with h2 | h2
      · linarith
      · exact absurd h2 hd
  · intro hd
    refine ⟨rfl, by simp, fun k e he => ?_⟩
    have he' := List.mem_of_getElem? he
    simp only [List.getElem?_map, he, Option.map_some, Option.some.injEq]
    refine (key (e / 100) (by have := hpos e he'; positivity)).2 ?_
    rcases hd with hd | hd
    · exact .inr hd
    · left; rw [hd e he']; norm_num

/-! ## The MKZ fit -/

theorem flatMap_four_len {α β : Type} (f g h k : α → β) (l : List α) : (l.flatMap fun a => [f a, g a, h a, k a]).length = l.length * 4 := by
  induction l with
  | nil => rfl
  | cons a l ih => rw [List.flatMap_cons, List.length_append, ih]; simp; omega


/-- C172, the figure of `fit_MKZ`: it exists exactly when the fit succeeds, with one panel for every four columns.  In panel `k` the data points
are the G/Gmax columns of the material, the fitted line is made of the first two columns returned for it, and the title has its
`gamma_ref`, `s` and `beta` of the returned array. -/
theorem C172_fit (cf : CurveFit) (m : CMat ℝ) :
    ((∃ f, fitMkzFig cf m = .ok f) ↔ ∃ r, fitMkzOut cf m = .ok r) ∧
    ∀ f params fitted, fitMkzFig cf m = .ok f → fitMkzOut cf m = .ok (params, fitted) → f.length = m.cols.length / 4 ∧
      ∀ k p, f[k]? = some p → ∃ x y g r ref s beta z, p.lines = [⟨some "Data points", x, y⟩, ⟨some "Curve fit", g, r⟩] ∧
        m.cols[4 * k]? = some x ∧ m.cols[4 * k + 1]? = some y ∧ fitted.cols[4 * k]? = some g ∧ fitted.cols[4 * k + 1]? = some r ∧
        params[k]? = some [ref, z, s, beta] ∧ p.title = [ref, s, beta] := by
  have hlen : ∀ ps, fitMKZ cf m = .ok ps → ps.length = m.cols.length / 4 := by
    intro ps hps
    unfold fitMKZ at hps
    rw [mapM_len_eq hps, List.length_range]
  cases hps : fitMKZ cf m with
  | error e => simp [fitMkzFig, fitMkzOut, hps]
  | ok ps =>
  cases hgs : ps.mapM fittedGG with
  | error e => simp [fitMkzFig, fitMkzOut, hps, hgs]
  | ok gs =>
  have lp := hlen ps hps
  have lg := (mapM_len_eq hgs).trans lp
  constructor
  · constructor
    · intro _
      unfold fitMkzOut
      rw [hps]
      simp only [hgs]
      exact ⟨_, rfl⟩
    · intro _
      unfold fitMkzFig
      rw [hps]
      simp only [hgs]
      obtain ⟨v, hv⟩ := mapM_range_ok (n := m.cols.length / 4) (f := fun k =>
        match m.cols[k * 4 + 0]?, m.cols[k * 4 + 1]?, ps[k]?, gs[k]? with
        | some g, some y, some p, some r =>
          (.ok ⟨[⟨some "Data points", (g.map (· / 100)).map (· * 100), y⟩, ⟨some "Curve fit", mkzStrains.map (· * 100), r⟩],
            [p.1, p.2.2, p.2.1]⟩ : Except PyErr MkzPanel)
        | _, _, _, _ => .error .indexError) (by
          intro k hk
          rw [List.getElem?_eq_getElem (show k * 4 + 0 < m.cols.length by omega),
            List.getElem?_eq_getElem (show k * 4 + 1 < m.cols.length by omega),
            List.getElem?_eq_getElem (show k < ps.length by omega), List.getElem?_eq_getElem (show k < gs.length by omega)]
          exact ⟨_, rfl⟩)
      exact ⟨v, hv.1⟩
  · intro f params fitted hf ho
    unfold fitMkzFig at hf
    rw [hps] at hf
    simp only [hgs] at hf
    unfold fitMkzOut at ho
    rw [hps] at ho
    simp only [hgs, Except.ok.injEq, Prod.mk.injEq] at ho
    obtain ⟨rfl, rfl⟩ := ho
    refine ⟨by rw [mapM_len_eq hf, List.length_range], ?_⟩
    intro k p hk
    obtain ⟨j, hj, hb⟩ := mapM_getElem hf k p hk
    have hkl : k < m.cols.length / 4 := by
      have := (List.getElem?_eq_some_iff.1 hk).1
      rw [mapM_len_eq hf, List.length_range] at this
      exact this
    rw [List.getElem?_range hkl, Option.some.injEq] at hj
    subst hj
    split at hb
    · rename_i g y q r h1 h2 h3 h4
      cases hb
      have hfit : ∀ t < 4, (gs.flatMap (fun g => [mkzStrains.map (· * 100), g, mkzStrains.map (· * 100),
          (List.replicate 109 (0 : ℝ)).map (· * 100)]) ++ List.replicate (m.cols.length % 4) (List.replicate 109 0))[4 * k + t]? =
          [mkzStrains.map (· * 100), r, mkzStrains.map (· * 100), (List.replicate 109 (0 : ℝ)).map (· * 100)][t]? := by
        intro t ht
        rw [List.getElem?_append_left, show 4 * k + t = k * 4 + t by omega, fourCols _ _ _ _ _ _ _ ht, h4]
        · rfl
        · rw [flatMap_four_len, lg]; omega
      refine ⟨g, y, mkzStrains.map (· * 100), r, q.1, q.2.2, q.2.1, 0, ?_, ?_, ?_, ?_, ?_, ?_, rfl⟩
      · rw [List.map_map]
        have : g.map ((· * 100) ∘ (· / 100)) = g := by
          conv_rhs => rw [← List.map_id g]
          apply List.map_congr_left
          intro x _
          simp
        rw [this]
      · rw [← h1]; congr 1; omega
      · rw [← h2]; congr 1; omega
      · exact hfit 0 (by omega)
      · exact hfit 1 (by omega)
      · rw [List.getElem?_map, h3]; rfl
    · cases hb

end Verif
