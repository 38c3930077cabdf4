import Verif.Model.SvmLayers
import Verif.Props.SvmRand
import Mathlib.Analysis.Convex.SpecificFunctions.Basic
import Mathlib.Analysis.Convex.SpecificFunctions.Pow
import Mathlib.Analysis.SpecialFunctions.Pow.Continuity

set_option linter.unusedSectionVars false
set_option linter.unusedVariables false

/-!
Property C151: the mean layer thickness of the sediment velocity model and the random layering.
-/

namespace Verif

open Spec

namespace Spec

/-- `m` is a mean thickness of a layer with its top at depth `z`: Eq (7) of Shi & Asimaki (2018), thickness = 1.125 times the depth of the
middle of the layer to the power 0.62. -/
def MeanThickness (z m : ℝ) : Prop := 0 < m ∧ m = 1.125 * (z + m / 2) ^ (0.62 : ℝ)

end Spec

open Spec (MeanThickness)

/-- `1.125 (z + t/2)^0.62 - t` is strictly concave in `t`: if it is at least 0 at a positive `a` and 0 at a positive `m`, then `a ≤ m`. -/
theorem thk_concave {z a m : ℝ} (hz : 0 ≤ z) (ha : 0 < a) (hm : MeanThickness z m) (h : a ≤ 1.125 * (z + a / 2) ^ (0.62 : ℝ)) : a ≤ m := by
  obtain ⟨hm0, hme⟩ := hm
  by_contra hc
  have hc : m < a := lt_of_not_ge hc
  -- the point m lies between 0 and a
  have hlam : 0 < m / a := div_pos hm0 ha
  have hlam1 : m / a < 1 := (div_lt_one ha).2 hc
  have hconc := Real.strictConcaveOn_rpow (p := (0.62 : ℝ)) (by norm_num) (by norm_num)
  have hne : z ≠ z + a / 2 := by intro e; linarith
  have h1 := hconc.2 (show z ∈ Set.Ici (0 : ℝ) from hz) (show z + a / 2 ∈ Set.Ici (0 : ℝ) from by simp only [Set.mem_Ici]; linarith) hne
    (show 0 < 1 - m / a by linarith) hlam (by ring)
  simp only [smul_eq_mul] at h1
  have e : (1 - m / a) * z + m / a * (z + a / 2) = z + m / 2 := by field_simp; ring
  rw [e] at h1
  have hzp : 0 ≤ z ^ (0.62 : ℝ) := Real.rpow_nonneg hz _
  have h2 : m / a * (a / 1.125) ≤ m / a * (z + a / 2) ^ (0.62 : ℝ) := by
    refine mul_le_mul_of_nonneg_left ?_ hlam.le
    rw [div_le_iff₀ (by norm_num)]; linarith
  have h3 : m / a * (a / 1.125) = m / 1.125 := by field_simp
  have h4 : 0 ≤ (1 - m / a) * z ^ (0.62 : ℝ) := mul_nonneg (by linarith) hzp
  have h5 : (z + m / 2) ^ (0.62 : ℝ) = m / 1.125 := by rw [eq_div_iff (by norm_num)]; linarith
  rw [h5] at h1
  linarith

theorem thk_exists {z : ℝ} (hz : 0 ≤ z) : ∃ m, MeanThickness z m := by
  -- positive near 0, negative at z + 4
  have hcont : ContinuousOn (fun t : ℝ => 1.125 * (z + t / 2) ^ (0.62 : ℝ) - t) (Set.Icc 0.1 (z + 4)) := by
    refine ContinuousOn.sub (ContinuousOn.mul continuousOn_const (ContinuousOn.rpow_const ?_ ?_)) continuousOn_id
    · exact (continuous_const.add (continuous_id.div_const 2)).continuousOn
    · intro t ht; right; norm_num
  have hlo : (0 : ℝ) ≤ 1.125 * (z + 0.1 / 2) ^ (0.62 : ℝ) - 0.1 := by
    have h1 : (0.05 : ℝ) ^ (0.62 : ℝ) ≤ (z + 0.1 / 2) ^ (0.62 : ℝ) := Real.rpow_le_rpow (by norm_num) (by linarith) (by norm_num)
    have h2 : (0.1 : ℝ) ≤ (0.05 : ℝ) ^ (0.62 : ℝ) := by
      have : (0.1 : ℝ) = ((0.1 : ℝ) ^ (50 : ℕ)) ^ (1 / 50 : ℝ) := by
        rw [← Real.rpow_natCast, ← Real.rpow_mul (by norm_num)]; norm_num
      have h3 : (0.05 : ℝ) ^ (0.62 : ℝ) = ((0.05 : ℝ) ^ (31 : ℕ)) ^ (1 / 50 : ℝ) := by
        rw [← Real.rpow_natCast, ← Real.rpow_mul (by norm_num)]; norm_num
      rw [h3]
      conv_lhs => rw [this]
      exact Real.rpow_le_rpow (by norm_num) (by norm_num) (by norm_num)
    linarith
  have hhi : 1.125 * (z + (z + 4) / 2) ^ (0.62 : ℝ) - (z + 4) ≤ 0 := by
    have hw : (1 : ℝ) ≤ z + (z + 4) / 2 := by linarith
    -- x^0.62 ≤ 0.62 (x / c) c^0.62 + 0.38 c^0.62 ; take c = 2 : Bernoulli
    have hb := rpow_one_add_le_one_add_mul_self (s := (z + (z + 4) / 2) / 2 - 1) (by linarith) (p := (0.62 : ℝ)) (by norm_num) (by norm_num)
    have e : (z + (z + 4) / 2) ^ (0.62 : ℝ) = 2 ^ (0.62 : ℝ) * (1 + ((z + (z + 4) / 2) / 2 - 1)) ^ (0.62 : ℝ) := by
      rw [← Real.mul_rpow (by norm_num) (by linarith)]; congr 1; ring
    have h2 : (2 : ℝ) ^ (0.62 : ℝ) ≤ 1.6 := by
      have h3 : (2 : ℝ) ^ (0.62 : ℝ) = ((2 : ℝ) ^ (31 : ℕ)) ^ (1 / 50 : ℝ) := by
        rw [← Real.rpow_natCast, ← Real.rpow_mul (by norm_num)]; norm_num
      have h4 : (1.6 : ℝ) = ((1.6 : ℝ) ^ (50 : ℕ)) ^ (1 / 50 : ℝ) := by
        rw [← Real.rpow_natCast, ← Real.rpow_mul (by norm_num)]; norm_num
      rw [h3]
      conv_rhs => rw [h4]
      exact Real.rpow_le_rpow (by norm_num) (by norm_num) (by norm_num)
    have h5 : 0 ≤ 1 + (0.62 : ℝ) * ((z + (z + 4) / 2) / 2 - 1) := by linarith
    have h6 := mul_le_mul h2 hb (Real.rpow_nonneg (by linarith) _) (by norm_num)
    rw [e]
    linarith
  obtain ⟨m, hm, he⟩ := intermediate_value_Icc' (by linarith) hcont ⟨hhi, hlo⟩
  refine ⟨m, by linarith [hm.1], ?_⟩
  simp only at he
  linarith

/-- C151: at every depth there is exactly one mean thickness. -/
theorem C151_unique (z : ℝ) (hz : 0 ≤ z) : ∃! m, MeanThickness z m := by
  obtain ⟨m, hm⟩ := thk_exists hz
  refine ⟨m, hm, fun m' hm' => ?_⟩
  exact le_antisymm (thk_concave hz hm'.1 hm hm'.2.le) (thk_concave hz hm.1 hm' hm.2.le)

/-- C151: the function whose root is sought is defined exactly where the middle of the layer is not above the ground, whatever
the sign of the trial thickness, and vanishes at a thickness `t > 0` exactly if `t` is the mean thickness. -/
theorem C151_equation (z t : ℝ) (hz : 0 ≤ z) :
    (thkDepth t z = none ↔ z + t / 2 < 0) ∧ (0 < t → (thkDepth t z = some 0 ↔ MeanThickness z t)) := by
  unfold thkDepth
  constructor
  · by_cases h : z + t / 2 < 0
    · simp [h]
    · rw [if_neg h]; simp [h]
  · intro ht
    rw [if_neg (by linarith), Option.some.injEq]
    constructor
    · intro h
      exact ⟨ht, by norm_num at h ⊢; linarith⟩
    · rintro ⟨_, h⟩
      norm_num at h ⊢
      linarith

/-- C151: the deeper the layer, the thicker it is on average. -/
theorem C151_increasing (z z' m m' : ℝ) (hz : 0 ≤ z) (h : z < z') (hm : MeanThickness z m) (hm' : MeanThickness z' m') : m < m' := by
  have h1 : m < 1.125 * (z' + m / 2) ^ (0.62 : ℝ) := by
    have := Real.rpow_lt_rpow (x := z + m / 2) (y := z' + m / 2) (z := (0.62 : ℝ)) (by linarith [hm.1]) (by linarith) (by norm_num)
    have := hm.2
    linarith
  rcases lt_or_eq_of_le (thk_concave (by linarith) hm.1 hm' h1.le) with h2 | h2
  · exact h2
  · subst h2; exact absurd hm'.2 h1.ne

/-- C151: the mean thickness of the first layer is below 2 m, the least thickness allowed; that of every layer with its top at 2 m or
deeper is above it. -/
theorem C151_two (z m : ℝ) (hm : MeanThickness z m) : (z = 0 → m < 0.5) ∧ (2 ≤ z → 2 < m) := by
  constructor
  · rintro rfl
    by_contra hc
    have hc : 0.5 ≤ m := not_lt.1 hc
    obtain ⟨h0, he⟩ := hm
    -- m^0.38 ≥ 0.5^0.38 > 1.125 / 2^0.62
    rw [zero_add, Real.div_rpow h0.le (by norm_num)] at he
    have e1 : m = m ^ (0.62 : ℝ) * m ^ (0.38 : ℝ) := by
      rw [← Real.rpow_add h0]; norm_num
    have hp : 0 < m ^ (0.62 : ℝ) := Real.rpow_pos_of_pos h0 _
    have hq : 0 < (2 : ℝ) ^ (0.62 : ℝ) := Real.rpow_pos_of_pos (by norm_num) _
    have e2 : m ^ (0.38 : ℝ) * 2 ^ (0.62 : ℝ) = 1.125 := by
      have : m ^ (0.62 : ℝ) * (m ^ (0.38 : ℝ) * 2 ^ (0.62 : ℝ)) = m ^ (0.62 : ℝ) * 1.125 := by
        rw [← mul_assoc, ← e1]
        conv_lhs => rw [he]
        field_simp
      exact mul_left_cancel₀ hp.ne' this
    have h1 : (0.5 : ℝ) ^ (0.38 : ℝ) ≤ m ^ (0.38 : ℝ) := Real.rpow_le_rpow (by norm_num) hc (by norm_num)
    have h2 : (1.125 : ℝ) < (0.5 : ℝ) ^ (0.38 : ℝ) * 2 ^ (0.62 : ℝ) := by
      have e3 : (0.5 : ℝ) ^ (0.38 : ℝ) * 2 ^ (0.62 : ℝ) = 2 ^ (0.24 : ℝ) := by
        rw [show (0.5 : ℝ) = 2⁻¹ by norm_num, Real.inv_rpow (by norm_num), ← Real.rpow_neg (by norm_num), ← Real.rpow_add (by norm_num)]
        norm_num
      rw [e3]
      have h3 : (2 : ℝ) ^ (0.24 : ℝ) = ((2 : ℝ) ^ (6 : ℕ)) ^ (1 / 25 : ℝ) := by
        rw [← Real.rpow_natCast, ← Real.rpow_mul (by norm_num)]; norm_num
      have h4 : (1.125 : ℝ) = ((1.125 : ℝ) ^ (25 : ℕ)) ^ (1 / 25 : ℝ) := by
        rw [← Real.rpow_natCast, ← Real.rpow_mul (by norm_num)]; norm_num
      rw [h3]
      conv_lhs => rw [h4]
      exact Real.rpow_lt_rpow (by norm_num) (by norm_num) (by norm_num)
    have := mul_le_mul_of_nonneg_right h1 hq.le
    linarith
  · intro hz
    have h2 : (2 : ℝ) < 1.125 * (z + 2 / 2) ^ (0.62 : ℝ) := by
      have h1 : (3 : ℝ) ^ (0.62 : ℝ) ≤ (z + 2 / 2) ^ (0.62 : ℝ) := Real.rpow_le_rpow (by norm_num) (by linarith) (by norm_num)
      have h3 : (3 : ℝ) ^ (0.62 : ℝ) = ((3 : ℝ) ^ (31 : ℕ)) ^ (1 / 50 : ℝ) := by
        rw [← Real.rpow_natCast, ← Real.rpow_mul (by norm_num)]; norm_num
      have h4 : (1.8 : ℝ) = ((1.8 : ℝ) ^ (50 : ℕ)) ^ (1 / 50 : ℝ) := by
        rw [← Real.rpow_natCast, ← Real.rpow_mul (by norm_num)]; norm_num
      have h5 : (1.8 : ℝ) < (3 : ℝ) ^ (0.62 : ℝ) := by
        rw [h3]
        conv_lhs => rw [h4]
        exact Real.rpow_lt_rpow (by norm_num) (by norm_num) (by norm_num)
      linarith
    rcases lt_or_eq_of_le (thk_concave (by linarith) (by norm_num) hm h2.le) with h3 | h3
    · exact h3
    · rw [← h3] at hm; exact absurd hm.2 h2.ne

/-- C151, partial: the search for the mean thickness ends exactly if the solver succeeds at the first call, whose result is then used.
Missing: that it always ends (`C151_retry_violated`). -/
theorem C151_retry_partial (solve : (ℝ → Option ℝ) → ℝ → ℝ × ℤ) (fuel : ℕ) (z m : ℝ) :
    meanThk solve (fuel + 1) z = some m ↔
      (solve (fun t => thkDepth t z) (z + 4)).2 = 1 ∧ (solve (fun t => thkDepth t z) (z + 4)).1 = m := by
  unfold meanThk
  constructor
  · induction fuel with
    | zero => intro h; rw [retrySolve] at h; split_ifs at h with c; · exact ⟨c, Option.some.inj h⟩
              · cases h
    | succ n ih => intro h; rw [retrySolve] at h; split_ifs at h with c; · exact ⟨c, Option.some.inj h⟩
                   · exact ih h
  · rintro ⟨h1, h2⟩; rw [retrySolve, if_pos h1, h2]

/-- C151, violated: "keeps trying until fsolve() properly converges": if the first call does not converge, all further calls, made with the
same arguments, do not either, and the loop never ends. -/
theorem C151_retry_violated (solve : (ℝ → Option ℝ) → ℝ → ℝ × ℤ) (z : ℝ) (h : (solve (fun t => thkDepth t z) (z + 4)).2 ≠ 1) (fuel : ℕ) :
    meanThk solve fuel z = none := by
  unfold meanThk
  induction fuel with
  | zero => rfl
  | succ n ih => rw [retrySolve, if_neg h, ih]

/-- The solver finds a positive root, if there is one, of each of the equations for the mean thickness. -/
def Spec.Solves (solve : (ℝ → Option ℝ) → ℝ → ℝ × ℤ) : Prop :=
  ∀ z, 0 ≤ z → (solve (fun t => thkDepth t z) (z + 4)).2 = 1 ∧ 0 < (solve (fun t => thkDepth t z) (z + 4)).1 ∧
    thkDepth (solve (fun t => thkDepth t z) (z + 4)).1 z = some 0

theorem meanThk_ok {solve : (ℝ → Option ℝ) → ℝ → ℝ × ℤ} (hs : Spec.Solves solve) (fuel : ℕ) {z : ℝ} (hz : 0 ≤ z) :
    ∃ m, meanThk solve (fuel + 1) z = some m ∧ MeanThickness z m := by
  obtain ⟨h1, h2, h3⟩ := hs z hz
  refine ⟨_, (C151_retry_partial solve fuel z _).2 ⟨h1, rfl⟩, h2, ?_⟩
  generalize (solve (fun t => thkDepth t z) (z + 4)).1 = m at *
  unfold thkDepth at h3
  rw [if_neg (by linarith)] at h3
  have := Option.some.inj h3
  norm_num at this ⊢
  linarith

/-- The thicknesses of the loop are those of `layerLoop` for draws with the mean thickness as mean. -/
theorem shiLoop_ok {solve : (ℝ → Option ℝ) → ℝ → ℝ × ℤ} (hs : Spec.Solves solve) (fuel : ℕ) (z1 : ℝ) (gs : List ℝ) : ∀ (st : Bool) (z : ℝ), 0 ≤ z →
    ∃ draws : List ℝ, draws.length = gs.length ∧ shiLoop solve (fuel + 1) z1 st z gs = layerLoop z1 st z draws ∧
      ∀ (i : ℕ) (d g : ℝ), draws[i]? = some d → gs[i]? = some g → ∃ m,
        MeanThickness (z + ((draws.take i).map (max · 2)).sum) m ∧
        d = m + 0.951 * (z + ((draws.take i).map (max · 2)).sum + m / 2) ^ (0.628 : ℝ) * g := by
  induction gs with
  | nil => intro st z hz; exact ⟨[], rfl, by rw [shiLoop, layerLoop], by intro i d g h; simp at h⟩
  | cons g gs ih =>
    intro st z hz
    obtain ⟨m, hm, hM⟩ := meanThk_ok hs fuel hz
    obtain ⟨draws, hl, he, hp⟩ := ih true (z + max (thkRand m z g) 2) (by have := le_max_right (thkRand m z g) 2; linarith)
    refine ⟨thkRand m z g :: draws, by simp [hl], ?_, ?_⟩
    · rw [shiLoop, layerLoop]
      simp only [hm, he]
    · intro i d g' hd hg
      cases i with
      | zero =>
        simp only [List.getElem?_cons_zero, Option.some.injEq] at hd hg
        subst hd hg
        refine ⟨m, by simpa using hM, ?_⟩
        unfold thkRand; norm_num
      | succ i =>
        simp only [List.getElem?_cons_succ] at hd hg
        obtain ⟨m', h1, h2⟩ := hp i d g' hd hg
        refine ⟨m', ?_, ?_⟩
        · simp only [List.take_succ_cons, List.map_cons, List.sum_cons]; rwa [← add_assoc]
        · simp only [List.take_succ_cons, List.map_cons, List.sum_cons]; rwa [← add_assoc]

/-- C151: with a solver that finds the mean thicknesses, the random layering ends for all normal draws; the layers fill the basin, and every
layer but the last has the thickness `mean + std * draw`, at least 2 m, with the mean of Eq (7) and the standard deviation of Eq (8) of Shi &
Asimaki (2018) at its own depth. -/
theorem C151_layering (solve : (ℝ → Option ℝ) → ℝ → ℝ × ℤ) (hs : Spec.Solves solve) (fuel : ℕ) (z1 : ℝ) (hz : 0 < z1) (gs : List ℝ)
    (hg : z1 ≤ 2 * (gs.length : ℝ)) :
    ∃ raw thk, shiLoop solve (fuel + 1) z1 false 0 gs = some raw ∧ closeLayers z1 raw = thk ∧ thk.sum = z1 ∧ (∀ t ∈ thk, 0 < t) ∧
      ∀ (i : ℕ) (t : ℝ), i + 1 < thk.length → thk[i]? = some t → ∃ m g, gs[i]? = some g ∧ MeanThickness (topDepth thk i) m ∧
        t = max (m + 0.951 * (topDepth thk i + m / 2) ^ (0.628 : ℝ) * g) 2 := by
  obtain ⟨draws, hl, he, hp⟩ := shiLoop_ok hs fuel z1 gs false 0 le_rfl
  obtain ⟨raw, e, hne, hsum, hpos, h2, hdr, _⟩ := C52_layering z1 hz draws (by rw [hl]; exact hg)
  refine ⟨raw, _, by rw [he, e], rfl, hsum, hpos, ?_⟩
  intro i t hi ht
  obtain ⟨d, hd, rfl⟩ := hdr i t hi ht
  have hig : i < gs.length := by rw [← hl]; exact (List.getElem?_eq_some_iff.1 hd).1
  obtain ⟨m, h3, h4⟩ := hp i d gs[i] hd (List.getElem?_eq_getElem hig)
  have etop : topDepth (closeLayers z1 raw) i = 0 + ((draws.take i).map (max · 2)).sum := by
    rw [zero_add]
    unfold topDepth
    congr 1
    apply List.ext_getElem?
    intro k
    rw [List.getElem?_map, List.getElem?_take, List.getElem?_take]
    by_cases hk : k < i
    · rw [if_pos hk, if_pos hk]
      obtain ⟨x, hx⟩ : ∃ x, (closeLayers z1 raw)[k]? = some x := ⟨_, List.getElem?_eq_getElem (by omega)⟩
      obtain ⟨d', hd', rfl⟩ := hdr k x (by omega) hx
      rw [hx, hd']; rfl
    · rw [if_neg hk, if_neg hk]; rfl
  rw [etop]
  exact ⟨m, gs[i], List.getElem?_eq_getElem hig, h3, by rw [h4]⟩

/-- C151: Toro's layering: the expected thickness grows with depth, and the thicknesses are those of the layering loop for whole
numbers that are at least 1. -/
theorem C151_toro (draw : ℝ → ℝ → ℕ) (z1 : ℝ) :
    (∀ z z', 0 ≤ z → z < z' → 0 < toroLambda z ∧ toroLambda z < toroLambda z') ∧
    ∀ (fuel : ℕ) (st : Bool) (z : ℝ) (ws raw : List ℝ), toroLoop draw z1 fuel st z ws = some raw →
      ∃ ns : List ℕ, (∀ n ∈ ns, 1 ≤ n) ∧ layerLoop z1 st z (ns.map (fun n : ℕ => (n : ℝ))) = some raw := by
  constructor
  · intro z z' h0 h
    have hp : ∀ z : ℝ, 0 ≤ z → toroLambda z = (z + 1086 / 100) ^ (89 / 100 : ℝ) / (198 / 100) := by
      intro z hz
      unfold toroLambda
      rw [Real.rpow_neg (by linarith)]
      field_simp
    rw [hp z h0, hp z' (by linarith)]
    refine ⟨div_pos (Real.rpow_pos_of_pos (by linarith) _) (by norm_num), ?_⟩
    exact div_lt_div_of_pos_right (Real.rpow_lt_rpow (by linarith) (by linarith) (by norm_num)) (by norm_num)
  · intro fuel
    induction fuel with
    | zero => intro st z ws raw h; rw [toroLoop] at h; cases h
    | succ n ih =>
      intro st z ws raw h
      rw [toroLoop] at h
      by_cases hc : st = true ∧ ¬z < z1
      · rw [if_pos hc] at h
        refine ⟨[], by simp, ?_⟩
        rw [layerLoop.eq_def]; dsimp only; rw [if_pos hc]; exact h
      · rw [if_neg hc] at h
        cases hw : ws.dropWhile (fun w => draw (toroLambda z) w = 0) with
        | nil => rw [hw] at h; cases h
        | cons w ws' =>
          rw [hw] at h
          dsimp only at h
          cases hr : toroLoop draw z1 n true (z + max (draw (toroLambda z) w : ℝ) 2) ws' with
          | none => rw [hr] at h; cases h
          | some r =>
            rw [hr] at h
            obtain ⟨ns, h1, h2⟩ := ih _ _ _ _ hr
            refine ⟨draw (toroLambda z) w :: ns, ?_, ?_⟩
            · intro k hk
              rcases List.mem_cons.1 hk with rfl | hk
              · have := List.head?_dropWhile_not (fun w => decide (draw (toroLambda z) w = 0)) ws
                rw [hw] at this
                simp at this
                omega
              · exact h1 k hk
            · rw [List.map_cons, layerLoop, if_neg hc, h2]; exact h

/-- A solver as required exists: the one that picks the root. -/
example : ∃ solve, Spec.Solves solve := by
  classical
  refine ⟨fun f x0 => (if h : ∃ m, 0 < m ∧ f m = some 0 then h.choose else 0, 1), ?_⟩
  intro z hz
  have h : ∃ m, 0 < m ∧ thkDepth m z = some 0 := by
    obtain ⟨m, h0, he⟩ := thk_exists hz
    refine ⟨m, h0, ?_⟩
    unfold thkDepth
    rw [if_neg (by linarith)]
    congr 1
    norm_num at he ⊢
    linarith
  simp only [dif_pos h]
  exact ⟨trivial, h.choose_spec.1, h.choose_spec.2⟩

end Verif
