import Verif.Props.CalibHH

/-!
C115 (parameters of the HH calibration), C116 (small-strain modulus), C117 (one parameter set per layer) and C118 (curves
of the layers).
-/

set_option linter.unusedSectionVars false
set_option linter.unusedVariables false

namespace Verif

open Spec (Valid Valid5 Admissible)

namespace Spec

/-- What the calibration promises for one layer with MKZ parameters `gr`, `beta`, `s`, modulus `G` and strength `T`: the
nine values in the documented order. -/
def HHColumn (gr beta s G T : ℝ) (col : List ℝ) : Prop :=
  ∃ gt mu d, col = [gt, 100, gr, beta, s, G, mu, T, d] ∧ 0 < gt ∧ gt ≤ 3 / 100 ∧ 0 < mu ∧ 0.67 ≤ d ∧ d ≤ 1.39

end Spec

open Spec (HHColumn)

theorem muOne_pos (G T o p : ℝ) (hG : 0 < G) (hT : 0 < T) (ho : 0 < o) (hp : 0 < p) : 0 < muOne G T o p := by
  have h1 := Real.rpow_pos_of_pos ho 0.47
  have h2 := Real.rpow_pos_of_pos hp 0.28
  have h0 : 0 < 1.0 / (0.000872 * G / T * o ^ (0.47 : ℝ) * p ^ (0.28 : ℝ)) := by positivity
  unfold muOne
  simp only
  split_ifs <;> positivity

/-- The parameter `mu`: the empirical value `Tmax / (0.000872 Gmax OCR^0.47 p0^0.28)`, raised by one standard error
(a factor `10^0.236`) for each of the thresholds 0.02, 0.03 and 0.04 that it does not exceed; it is never lowered. -/
theorem C115_mu (G T o p b : ℝ) (hG : 0 < G) (hT : 0 < T) (ho : 0 < o) (hp : 0 < p)
    (hb : b * (0.000872 * G * o ^ (0.47 : ℝ) * p ^ (0.28 : ℝ)) = T) :
    muOne G T o p = b * (10 ^ (0.236 : ℝ)) ^ (([0.02, 0.03, 0.04] : List ℝ).countP fun t => b ≤ t) ∧ b ≤ muOne G T o p := by
  have h1 := Real.rpow_pos_of_pos ho 0.47
  have h2 := Real.rpow_pos_of_pos hp 0.28
  have e : 1.0 / (0.000872 * G / T * o ^ (0.47 : ℝ) * p ^ (0.28 : ℝ)) = b := by
    rw [← hb]
    have hb0 : b ≠ 0 := by rintro rfl; simp at hb; linarith
    field_simp
    norm_num
  have hb0 : 0 < b := by rw [← e]; positivity
  have r : ∀ k : ℕ, (10 : ℝ) ^ (0.236 * (k : ℝ)) = (10 ^ (0.236 : ℝ)) ^ k := fun k => by
    rw [Real.rpow_mul (by norm_num), Real.rpow_natCast]
  have r1 := r 1
  have r2 := r 2
  have r3 := r 3
  push_cast at r1 r2 r3
  have key : muOne G T o p = b * (10 ^ (0.236 : ℝ)) ^ (([0.02, 0.03, 0.04] : List ℝ).countP fun t => b ≤ t) := by
    unfold muOne
    simp only [e]
    by_cases c1 : b ≤ 0.02
    · have c2 : b ≤ 0.03 := c1.trans (by norm_num)
      have c3 : b ≤ 0.04 := c1.trans (by norm_num)
      rw [if_pos c1, r3]
      simp [c1, c2, c3]
    · rw [if_neg c1]
      by_cases c2 : b ≤ 0.03
      · have c3 : b ≤ 0.04 := c2.trans (by norm_num)
        rw [if_pos c2, r2]
        simp [c1, c2, c3]
      · rw [if_neg c2]
        by_cases c3 : b ≤ 0.04
        · rw [if_pos c3, r1]
          simp [c1, c2, c3]
        · rw [if_neg c3]
          simp [c1, c2, c3]
  refine ⟨key, ?_⟩
  rw [key]
  have : (1 : ℝ) ≤ (10 ^ (0.236 : ℝ)) ^ (([0.02, 0.03, 0.04] : List ℝ).countP fun t => b ≤ t) :=
    one_le_pow₀ (Real.one_le_rpow (by norm_num) (by norm_num))
  nlinarith

/-- A soft layer on the middle step: the value 0.025 is raised twice. -/
example (G T o p : ℝ) (hG : 0 < G) (hT : 0 < T) (ho : 0 < o) (hp : 0 < p)
    (hb : 0.025 * (0.000872 * G * o ^ (0.47 : ℝ) * p ^ (0.28 : ℝ)) = T) :
    muOne G T o p = 0.025 * (10 ^ (0.236 : ℝ)) ^ 2 := by
  rw [(C115_mu G T o p 0.025 hG hT ho hp hb).1]
  congr 2
  norm_num [List.countP_cons]

theorem layerCol_ok (q : LayerIn) (hst : q.strain ≠ []) (hG : 0 < q.Gmax) (hT : 0 < q.Tmax) (ho : 0 < q.ocr) (hs : 0 < q.sv)
    (hk : 0 < q.k0) : ∃ col, layerCol q = .ok col ∧ HHColumn q.gammaRef q.beta q.s q.Gmax q.Tmax col := by
  have hm : 0 < meanStress q.sv q.k0 / 1000 := by unfold meanStress; positivity
  have hmu := muOne_pos q.Gmax q.Tmax q.ocr _ hG hT ho hm
  obtain ⟨gt, d, h1, h2, h3, h4, h5⟩ := C48_range (q.strain.map (· / 100)) q.gammaRef q.beta q.s q.Gmax q.Tmax
    (muOne q.Gmax q.Tmax q.ocr (meanStress q.sv q.k0 / 1000)) (by simpa using hst)
  unfold layerCol
  rw [h1]
  simp only
  obtain ⟨t, ht, _⟩ := (C44_between ⟨gt, 100, q.gammaRef, q.beta, q.s, q.Gmax,
    muOne q.Gmax q.Tmax q.ocr (meanStress q.sv q.k0 / 1000), q.Tmax, d⟩ (q.strain.map (· / 100))).2 h5
  rw [ht]
  refine ⟨_, rfl, gt, _, d, rfl, h5, ?_, hmu, h2, h3⟩
  rcases h4 with h4 | h4
  · exact h4.2.2
  · rw [h4.1]; norm_num

/-- All arrays have `n` entries. -/
structure ArraysOk (a : SoilArrays) (n : Nat) : Prop where
  (vs : a.vs.length = n) (Gmax : a.Gmax.length = n) (Tmax : a.Tmax.length = n) (ocr : a.ocr.length = n)
  (sv : a.sv.length = n) (k0 : a.k0.length = n)
  pos : (∀ x ∈ a.Gmax, 0 < x) ∧ (∀ x ∈ a.Tmax, 0 < x) ∧ (∀ x ∈ a.ocr, 0 < x) ∧ (∀ x ∈ a.sv, 0 < x) ∧ ∀ x ∈ a.k0, 0 < x

theorem ArraysOk.lengths {a : SoilArrays} {n : Nat} (h : ArraysOk a n) : a.lengthsOk = true := by
  unfold SoilArrays.lengthsOk
  simp [h.vs, h.Gmax, h.Tmax, h.ocr, h.sv, h.k0]

theorem soilArrays_ok (h vs rho : List ℝ) (T : Option (List ℝ)) (n : Nat) (hn : 0 < n) (hh : h.length = n) (hv : vs.length = n)
    (hr : rho.length = n) (ph : ∀ x ∈ h, 0 < x) (pv : ∀ x ∈ vs, 0 < x) (pr : ∀ x ∈ rho, 0 < x)
    (hT : ∀ t, T = some t → t.length = n ∧ ∀ x ∈ t, 0 < x) :
    ∃ a, soilArrays h vs rho T = .ok a ∧ ArraysOk a n ∧ a.vs = vs ∧ a.Gmax = calcGmax vs rho ∧ ∀ t, T = some t → a.Tmax = t := by
  obtain ⟨sv, h1, h2, h3, _⟩ := C45_increasing h rho (by rintro rfl; simp at hh; omega) (by omega) ph pr
  have pO : ∀ x ∈ calcOCR none vs sv, 0 < x := by
    intro x hx
    rw [calcOCR] at hx
    obtain ⟨i, hi, rfl⟩ := List.getElem_of_mem hx
    rw [List.getElem_zipWith]
    exact ((C46_ocr none _ _ (pv _ (List.getElem_mem _)) (h3 _ (List.getElem_mem _))).1 rfl).1
  have pK : ∀ x ∈ (calcOCR none vs sv).map (k0One 30), 0 < x := by
    intro x hx
    obtain ⟨o, ho, rfl⟩ := List.mem_map.1 hx
    exact (C46_k0 30 o (by norm_num) (by norm_num) (pO o ho)).1
  have lO : (calcOCR none vs sv).length = n := by simp [calcOCR, hv, h2, hh]
  have lG : (calcGmax vs rho).length = n := by simp [calcGmax, hv, hr]
  have pG : ∀ x ∈ calcGmax vs rho, 0 < x := by
    intro x hx
    rw [calcGmax] at hx
    obtain ⟨i, hi, rfl⟩ := List.getElem_of_mem hx
    rw [List.getElem_zipWith]
    rw [List.length_zipWith] at hi
    have a1 := pv _ (List.getElem_mem (l := vs) (n := i) (by omega))
    have a2 := pr _ (List.getElem_mem (l := rho) (n := i) (by omega))
    positivity
  unfold soilArrays
  rw [h1]
  simp only
  refine ⟨_, rfl, ⟨hv, lG, ?_, lO, by simp [h2, hh], by simp [lO], pG, ?_, pO, h3, pK⟩, rfl, rfl, ?_⟩
  · cases T with
    | none => simp [hv, lO, h2, hh]
    | some t => exact (hT t rfl).1
  · cases T with
    | some t => exact (hT t rfl).2
    | none =>
      intro x hx
      obtain ⟨q, hq, rfl⟩ := List.mem_map.1 hx
      obtain ⟨q1, q2⟩ := List.of_mem_zip (show (q.1, q.2) ∈ _ from hq)
      obtain ⟨q3, q4⟩ := List.of_mem_zip (show (q.2.1, q.2.2) ∈ _ from q2)
      obtain ⟨q5, q6⟩ := List.of_mem_zip (show (q.2.2.1, q.2.2.2) ∈ _ from q4)
      exact (C46_strength _ _ _ _ 30 (by norm_num) (by norm_num) (pO _ q3) (h3 _ q5) (pK _ q6)).1
  · rintro t rfl; rfl

theorem layers_get (a : SoilArrays) (mkz : List (ℝ × ℝ × ℝ)) (strain : List (List ℝ)) (n : Nat) (h : ArraysOk a n)
    (h1 : mkz.length = n) (h2 : strain.length = n) :
    (a.layers mkz strain).length = n ∧ ∀ (j : Nat) q, (a.layers mkz strain)[j]? = some q →
      a.Gmax[j]? = some q.Gmax ∧ a.Tmax[j]? = some q.Tmax ∧ a.ocr[j]? = some q.ocr ∧ a.sv[j]? = some q.sv ∧
      a.k0[j]? = some q.k0 ∧ mkz[j]? = some (q.gammaRef, q.beta, q.s) ∧ strain[j]? = some q.strain := by
  unfold SoilArrays.layers
  refine ⟨by simp [h.Gmax, h.Tmax, h.ocr, h.sv, h.k0, h1, h2], ?_⟩
  intro j q hq
  rw [List.getElem?_map, Option.map_eq_some_iff] at hq
  obtain ⟨r, hr, rfl⟩ := hq
  rw [List.getElem?_zip_eq_some, List.getElem?_zip_eq_some, List.getElem?_zip_eq_some, List.getElem?_zip_eq_some,
    List.getElem?_zip_eq_some, List.getElem?_zip_eq_some] at hr
  obtain ⟨r1, r2, r3, r4, r5, r6, r7⟩ := hr
  exact ⟨r1, r2, r3, r4, r5, r6, r7⟩

/-- Arrays of different lengths are rejected with ValueError before anything is computed, with or without curves. -/
theorem C115_lengths (cf : CurveFit) (a : SoilArrays) (pi phi : NumArg ℝ) (m : CMat ℝ)
    (h : ¬ ∀ l ∈ [a.Gmax, a.Tmax, a.ocr, a.sv, a.k0], l.length = a.vs.length) :
    hhgDarendeli a pi phi = .error .valueError ∧ hhgCurves cf a m = .error .valueError := by
  have : a.lengthsOk = false := by
    simp only [List.mem_cons, List.not_mem_nil, or_false, forall_eq_or_imp, forall_eq] at h
    unfold SoilArrays.lengthsOk
    exact decide_eq_false h
  unfold hhgDarendeli hhgCurves
  simp [this]

/-- Columns for all layers, from MKZ parameters and strains of the layers. -/
theorem layers_cols (a : SoilArrays) (mkz : List (ℝ × ℝ × ℝ)) (strain : List (List ℝ)) (n : Nat) (h : ArraysOk a n)
    (h1 : mkz.length = n) (h2 : strain.length = n) (hst : ∀ s ∈ strain, s ≠ []) :
    ∃ cols, (a.layers mkz strain).mapM layerCol = .ok cols ∧ cols.length = n ∧
      ∀ (j : Nat) G T gr beta s, a.Gmax[j]? = some G → a.Tmax[j]? = some T → mkz[j]? = some (gr, beta, s) →
        ∃ col, cols[j]? = some col ∧ HHColumn gr beta s G T col := by
  obtain ⟨hl, hg⟩ := layers_get a mkz strain n h h1 h2
  obtain ⟨pG, pT, pO, pS, pK⟩ := h.pos
  obtain ⟨cols, hc, hf⟩ := mapM_ok_of layerCol (fun q col => HHColumn q.gammaRef q.beta q.s q.Gmax q.Tmax col)
    (a.layers mkz strain) (by
      intro q hq
      obtain ⟨j, hj⟩ := List.mem_iff_getElem?.1 hq
      obtain ⟨g1, g2, g3, g4, g5, g6, g7⟩ := hg j q hj
      exact layerCol_ok q (hst _ (List.mem_of_getElem? g7)) (pG _ (List.mem_of_getElem? g1)) (pT _ (List.mem_of_getElem? g2))
        (pO _ (List.mem_of_getElem? g3)) (pS _ (List.mem_of_getElem? g4)) (pK _ (List.mem_of_getElem? g5)))
  have hlen : cols.length = n := by rw [← hf.length_eq, hl]
  refine ⟨cols, hc, hlen, ?_⟩
  intro j G T gr beta s eG eT eM
  have hj : j < n := by rw [← h.Gmax]; exact (List.getElem?_eq_some_iff.1 eG).1
  have hjl : j < (a.layers mkz strain).length := by omega
  have hjc : j < cols.length := by omega
  obtain ⟨g1, g2, _, _, _, g6, _⟩ := hg j _ (List.getElem?_eq_getElem hjl)
  have := (List.forall₂_iff_get.1 hf).2 j hjl hjc
  rw [eG] at g1; rw [eT] at g2; rw [eM] at g6
  simp only [Option.some.injEq] at g1 g2 g6
  refine ⟨cols[j], List.getElem?_eq_getElem hjc, ?_⟩
  simp only [List.get_eq_getElem] at this
  obtain ⟨e1, e2, e3⟩ : gr = _ ∧ beta = _ ∧ s = _ := by
    have := g6; rw [Prod.mk.injEq, Prod.mk.injEq] at this; exact this
  rw [g1, g2, e1, e2, e3]
  exact this

theorem geomspace_ok : (geomspace 0.0001 10 400).length = 400 ∧ ∀ g ∈ geomspace 0.0001 10 400, 0 < g := by
  refine ⟨by simp [geomspace], ?_⟩
  intro g hg
  obtain ⟨i, hi, rfl⟩ := List.mem_map.1 hg
  have : (0 : ℝ) < (10 / 0.0001) ^ ((i : ℝ) / (((400 : Nat) : ℝ) - 1)) := Real.rpow_pos_of_pos (by norm_num) _
  positivity

theorem hhgDarendeli_ok (a : SoilArrays) (pi : List ℝ) (n : Nat) (h : ArraysOk a n) (hpi : pi.length = n)
    (ppi : ∀ x ∈ pi, 0 ≤ x) :
    ∃ (cols : List (List ℝ)) (refs : List ℝ), hhgDarendeli a (.arr pi) (.num 30) = .ok cols ∧ cols.length = n ∧ refs.length = n ∧ (∀ r ∈ refs, 0 < r) ∧
      ∀ (j : Nat) G T gr, a.Gmax[j]? = some G → a.Tmax[j]? = some T → refs[j]? = some gr →
        ∃ col, cols[j]? = some col ∧ HHColumn gr 1 0.9190 G T col := by
  obtain ⟨gl, gp⟩ := geomspace_ok
  obtain ⟨c, h1, _, _, h4, h5⟩ := C47_curves_partial a.sv pi a.ocr a.k0 30 (geomspace 0.0001 10 400) (by rw [hpi, h.sv])
    (by rw [h.ocr, h.sv]) (by rw [h.k0, h.sv]) gp
  have hrl : c.ref.length = n := by rw [h4, h.sv]
  have hpos : ∀ r ∈ c.ref, 0 < r := by
    intro r hr
    obtain ⟨i, hi⟩ := List.mem_iff_getElem?.1 hr
    have hin : i < n := by rw [← hrl]; exact (List.getElem?_eq_some_iff.1 hi).1
    have e1 := List.getElem?_eq_getElem (show i < a.sv.length by rw [h.sv]; exact hin)
    have e2 := List.getElem?_eq_getElem (show i < pi.length by rw [hpi]; exact hin)
    have e3 := List.getElem?_eq_getElem (show i < a.ocr.length by rw [h.ocr]; exact hin)
    have e4 := List.getElem?_eq_getElem (show i < a.k0.length by rw [h.k0]; exact hin)
    obtain ⟨_, _, e5⟩ := h5 i _ _ _ _ e1 e2 e3 e4
    rw [hi, Option.some.injEq] at e5
    rw [e5]
    have := darRef_pos ⟨_, _, _, _⟩ ⟨h.pos.2.2.2.1 _ (List.mem_of_getElem? e1), ppi _ (List.mem_of_getElem? e2),
      h.pos.2.2.1 _ (List.mem_of_getElem? e3), (h.pos.2.2.2.2 _ (List.mem_of_getElem? e4)).le⟩
    positivity
  obtain ⟨cols, k1, k2, k3⟩ := layers_cols a (c.ref.map fun r => (r, 1, 0.9190)) (c.ref.map fun _ => geomspace 0.0001 10 400) n h
    (by simp [hrl]) (by simp [hrl]) (by
      intro s hs
      obtain ⟨_, _, rfl⟩ := List.mem_map.1 hs
      intro e; rw [e] at gl; simp at gl)
  refine ⟨cols, c.ref, ?_, k2, hrl, hpos, ?_⟩
  · unfold hhgDarendeli
    rw [h.lengths]
    simp only [Bool.not_true, Bool.false_eq_true, if_false]
    rw [h1]
    exact k1
  · intro j G T gr e1 e2 e3
    exact k3 j G T gr 1 0.9190 e1 e2 (by rw [List.getElem?_map, e3]; rfl)

/-- What an accepted profile gives: positive thicknesses and velocities of the layers above the last row. -/
theorem accepted_layers (c : Cell ℝ) (h : checkVsFormat c = .ok ()) :
    c.thk.dropLast.length = c.vs.dropLast.length ∧ (∀ x ∈ c.thk.dropLast, 0 < x) ∧ ∀ x ∈ c.vs, 0 < x := by
  cases c with
  | two rows =>
    have hv := (checkVsFormat_two_ok rows).1 h
    refine ⟨by simp [Cell.thk, Cell.vs], ?_, ?_⟩
    · intro x hx
      simp only [Cell.thk, ← List.map_dropLast] at hx
      obtain ⟨r, hr, rfl⟩ := List.mem_map.1 hx
      exact hv.thk_pos r hr
    · intro x hx
      simp only [Cell.vs] at hx
      obtain ⟨r, hr, rfl⟩ := List.mem_map.1 hx
      exact hv.vs_pos r hr
  | five rows =>
    have hv := (checkVsFormat_five_ok rows).1 h
    refine ⟨by simp [Cell.thk, Cell.vs], ?_, ?_⟩
    · intro x hx
      simp only [Cell.thk, ← List.map_dropLast] at hx
      obtain ⟨r, hr, rfl⟩ := List.mem_map.1 hx
      exact hv.thk_pos r hr
    · intro x hx
      simp only [Cell.vs] at hx
      obtain ⟨r, hr, rfl⟩ := List.mem_map.1 hx
      exact (hv.pos r hr).1

/-- The calibration from an accepted profile with finite densities succeeds; each layer above the last row gets the nine
parameters with `beta = 1`, `s = 0.919`, `Gmax` the computed density times squared velocity, and the given strength. -/
theorem C115_profile (c : Cell ℝ) (T : Option (List ℝ)) (rho : List ℝ) (h : checkVsFormat c = .ok ())
    (hrho : calcRho c.thk.dropLast c.vs.dropLast = .ok rho)
    (hT : ∀ t, T = some t → t.length = c.vs.dropLast.length ∧ ∀ x ∈ t, 0 < x) :
    ∃ cols, hhFromProfile c T = .ok cols ∧ cols.length = c.vs.dropLast.length ∧
      ∀ j, j < c.vs.dropLast.length → ∃ v r gr Tm col, c.vs[j]? = some v ∧ rho[j]? = some r ∧ 1650 ≤ r ∧ 0 < gr ∧ 0 < Tm ∧
        (∀ t, T = some t → t[j]? = some Tm) ∧ cols[j]? = some col ∧ 0 < r * v ^ 2 ∧
        HHColumn gr 1 0.9190 (r * v ^ 2) Tm col := by
  obtain ⟨hl, pt, pv⟩ := accepted_layers c h
  obtain ⟨hrl, hrg⟩ := C46_density _ _ _ hrho
  have pv' : ∀ x ∈ c.vs.dropLast, 0 < x := fun x hx => pv x (List.mem_of_mem_dropLast hx)
  have hn : 0 < c.vs.dropLast.length := by
    by_contra hc
    have h0 : c.thk.dropLast = [] := List.length_eq_zero_iff.1 (by omega)
    rw [h0] at hrho
    unfold calcRho thk2dep at hrho
    simp at hrho
  obtain ⟨a, h1, h2, h3, h4, h5⟩ := soilArrays_ok c.thk.dropLast c.vs.dropLast rho T _ hn hl rfl hrl pt pv'
    (fun x hx => lt_of_lt_of_le (by norm_num) (hrg x hx)) hT
  obtain ⟨cols, refs, g1, g2, g3, g4, g5⟩ := hhgDarendeli_ok a (c.vs.dropLast.map piOne) _ h2 (by simp) (by
    intro x hx
    obtain ⟨v, _, rfl⟩ := List.mem_map.1 hx
    unfold piOne
    split_ifs <;> norm_num)
  refine ⟨cols, ?_, g2, ?_⟩
  · unfold hhFromProfile
    rw [h]
    simp only
    have : tmaxOk c.vs.dropLast.length T = true := by
      cases T with
      | none => rfl
      | some t => simp [tmaxOk, (hT t rfl).1]
    rw [this, hrho]
    simp only [Bool.not_true, Bool.false_eq_true, if_false]
    rw [h1]
    exact g1
  · intro j hj
    have eV := List.getElem?_eq_getElem hj
    have eV' : c.vs[j]? = some (c.vs.dropLast[j]) := by
      rw [List.getElem_dropLast]; exact List.getElem?_eq_getElem _
    have eR := List.getElem?_eq_getElem (show j < rho.length by omega)
    have eT := List.getElem?_eq_getElem (show j < a.Tmax.length by rw [h2.Tmax]; exact hj)
    have eF := List.getElem?_eq_getElem (show j < refs.length by rw [g3]; exact hj)
    have eG : a.Gmax[j]? = some (rho[j] * (c.vs.dropLast[j]) ^ 2) := by
      rw [h4, calcGmax, List.getElem?_zipWith, eV, eR]
    have hr1 := hrg _ (List.mem_of_getElem? eR)
    have hv1 := pv _ (List.mem_of_getElem? eV')
    obtain ⟨col, hc1, hc2⟩ := g5 j _ _ _ eG eT eF
    exact ⟨_, _, _, _, col, eV', eR, hr1, g4 _ (List.mem_of_getElem? eF), h2.pos.2.1 _ (List.mem_of_getElem? eT),
      fun t ht => by rw [← h5 t ht]; exact eT, hc1, by positivity, hc2⟩

/-- Rejected: an unaccepted profile, a strength array of the wrong length, a profile without soil layers. -/
theorem C115_rejects (c : Cell ℝ) (T : Option (List ℝ)) :
    (∀ e, checkVsFormat c = .error e → hhFromProfile c T = .error e) ∧
    (checkVsFormat c = .ok () → (∃ t, T = some t ∧ t.length ≠ c.vs.dropLast.length) → hhFromProfile c T = .error .valueError) ∧
    (checkVsFormat c = .ok () → T = none → c.thk.dropLast = [] → hhFromProfile c T = .error .indexError) := by
  refine ⟨?_, ?_, ?_⟩
  · intro e he
    unfold hhFromProfile
    rw [he]
  · rintro h ⟨t, rfl, ht⟩
    unfold hhFromProfile
    rw [h]
    have : tmaxOk c.vs.dropLast.length (some t) = false := by unfold tmaxOk; exact decide_eq_false ht
    rw [this]
    rfl
  · rintro h rfl h0
    unfold hhFromProfile
    rw [h]
    simp [tmaxOk, h0, calcRho, thk2dep]

/-- Reading the array back: one dictionary per layer, with the nine HH keys in the order of the column. -/
theorem columns_dicts (cols : List (List ℝ)) (hne : cols ≠ []) (h9 : ∀ l ∈ cols, l.length = 9) :
    ∃ ds, from2D deserializeHH (rowsOfCols cols) = .ok ds ∧
      List.Forall₂ (fun col d => hhOrder.mapM (Dict.look d) = .ok col ∧ ∀ k, k ∈ d.map Prod.fst ↔ k ∈ hhKeys) cols ds := by
  unfold from2D rowsOfCols
  rw [transpose_transpose cols 9 (by omega) hne h9]
  apply mapM_ok_of
  intro col hcol
  have := h9 col hcol
  match col, this with
  | [x0, x1, x2, x3, x4, x5, x6, x7, x8], _ => exact ⟨_, rfl, rfl, by intro k; simp [hhKeys]⟩

theorem hhColumn_length {gr beta s G T : ℝ} {col : List ℝ} (h : HHColumn gr beta s G T col) : col.length = 9 := by
  obtain ⟨gt, mu, d, rfl, _⟩ := h
  rfl

/-- `HH_Calibration(profile).fit()` for a profile with a half space: one dictionary of the nine HH parameters per soil
layer. -/
theorem C115_fit (cf : CurveFit) (rows : List (Row ℝ)) (rho : List ℝ) (hv : Valid5 rows)
    (hhs : (rows.map Row.thk).getLast? = some 0)
    (hrho : calcRho (rows.dropLast.map Row.thk) (rows.dropLast.map Row.vs) = .ok rho) :
    ∃ ds, hhcFit cf rows none none = .ok ds ∧ ds.length = layerCount rows ∧
      ∀ (j : Nat) d, ds[j]? = some d → (∀ k, k ∈ d.map Prod.fst ↔ k ∈ hhKeys) ∧
        ∃ gr G T col, 0 < gr ∧ 0 < G ∧ 0 < T ∧ hhOrder.mapM (Dict.look d) = .ok col ∧ HHColumn gr 1 0.9190 G T col := by
  have hck := (checkVsFormat_five_ok rows).2 hv
  have hrho' : calcRho (Cell.five rows).thk.dropLast (Cell.five rows).vs.dropLast = .ok rho := by
    simpa [Cell.thk, Cell.vs, List.map_dropLast] using hrho
  obtain ⟨cols, h1, h2, h3⟩ := C115_profile (.five rows) none rho hck hrho' (by simp)
  have hlen : (Cell.five rows).vs.dropLast.length = rows.length - 1 := by simp [Cell.vs]
  have h9 : ∀ l ∈ cols, l.length = 9 := by
    intro l hl
    obtain ⟨j, hj⟩ := List.mem_iff_getElem?.1 hl
    obtain ⟨v, r, gr, Tm, col, _, _, _, _, _, _, h4, _, h5⟩ := h3 j (by rw [← h2]; exact (List.getElem?_eq_some_iff.1 hj).1)
    rw [hj, Option.some.injEq] at h4
    rw [h4]; exact hhColumn_length h5
  have hne : cols ≠ [] := by
    rintro rfl
    have h0 : rows.dropLast = [] := by
      apply List.length_eq_zero_iff.1
      rw [List.length_dropLast]
      rw [hlen] at h2; exact h2.symm
    rw [h0] at hrho
    simp [calcRho, thk2dep] at hrho
  obtain ⟨ds, h4, h5⟩ := columns_dicts cols hne h9
  refine ⟨ds, ?_, ?_, ?_⟩
  · unfold hhcFit hhcInit
    simp only [Option.map_none, tmaxOk, Bool.not_true, Bool.false_eq_true, if_false]
    rw [h1]
    exact h4
  · rw [← h5.length_eq, h2, hlen, layerCount, if_pos hhs]
  · intro j d hd
    have hjd : j < ds.length := (List.getElem?_eq_some_iff.1 hd).1
    have hjc : j < cols.length := by rw [h5.length_eq]; exact hjd
    have h6 := (List.forall₂_iff_get.1 h5).2 j hjc hjd
    simp only [List.get_eq_getElem] at h6
    rw [List.getElem?_eq_getElem hjd, Option.some.injEq] at hd
    rw [hd] at h6
    obtain ⟨v, r, gr, Tm, col, _, _, _, p1, p2, _, p4, p5, p6⟩ := h3 j (by rw [← h2]; exact hjc)
    rw [List.getElem?_eq_getElem hjc, Option.some.injEq] at p4
    refine ⟨h6.2, gr, _, Tm, col, p1, p5, p2, ?_, p6⟩
    rw [← p4]; exact h6.1

/-- A 10 m layer over a half space: one parameter set, strength and modulus positive. -/
example (cf : CurveFit) : ∃ ds, hhcFit cf [⟨10, 200, 0.02, 1700, 1⟩, ⟨0, 600, 0.01, 2000, 0⟩] none none = .ok ds ∧ ds.length = 1 := by
  obtain ⟨rho, h, _⟩ := C46_density_exists [10] [200] rfl (by simp) (by simp) (by simp) (by simp; norm_num)
  obtain ⟨ds, h1, h2, _⟩ := C115_fit cf [⟨10, 200, 0.02, 1700, 1⟩, ⟨0, 600, 0.01, 2000, 0⟩] rho
    ⟨by simp, by simp, by simp, by simp; norm_num, by simp; exact ⟨⟨1, by simp⟩, ⟨0, by simp⟩⟩, by simp, by simp⟩ (by simp) h
  exact ⟨ds, h1, by rw [h2]; simp [layerCount]⟩

end Verif
