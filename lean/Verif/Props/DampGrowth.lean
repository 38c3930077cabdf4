import Verif.Props.DampSampling
import Mathlib.Analysis.SpecialFunctions.Pow.Asymptotics

/-!
C213: damping computed from a soil model grows with the strain and falls with the reference strain.
-/

set_option linter.unusedSectionVars false
set_option linter.unusedVariables false

namespace Verif

namespace Spec

/-- Every strain is `q` times the strain before it, which for the first one is `p` (a logarithmic grid). -/
def Geometric (q p : ℝ) : List ℝ → Prop
  | [] => True
  | e :: es => e = q * p ∧ Geometric q e es

end Spec

open Spec (masing IsBackbone Climbing MKZSet Geometric)

/-! ## Growth with strain -/

/-- Area of the trapezoid between two points of the curve, relative to the growth of `τ γ`. -/
noncomputable def segRatio (p q : ℝ × ℝ) : ℝ := (p.2 + q.2) * (q.1 - p.1) / (q.2 * q.1 - p.2 * p.1)

/-- The relative area of the segments does not decrease along the curve. -/
def SegUp (b : ℝ) (p : ℝ × ℝ) : List (ℝ × ℝ) → Prop
  | [] => True
  | q :: r => (p.1 < q.1 ∧ p.2 ≤ q.2) ∧ b ≤ segRatio p q ∧ SegUp (segRatio p q) q r

/-- Damping from twice the area under the curve. -/
noncomputable def dampAt (A : ℝ) (p : ℝ × ℝ) : ℝ := max (2 / Real.pi * (A / (p.2 * p.1) - 1)) 0

theorem dampAt_mono {A A' : ℝ} {p p' : ℝ × ℝ} (h : A / (p.2 * p.1) ≤ A' / (p'.2 * p'.1)) : dampAt A p ≤ dampAt A' p' := by
  have := Real.pi_pos
  exact max_le_max (mul_le_mul_of_nonneg_left (by linarith) (by positivity)) le_rfl

theorem damping_chain (pts : List (ℝ × ℝ)) : ∀ (b A : ℝ) (p : ℝ × ℝ), 0 < p.1 → 0 < p.2 → A / (p.2 * p.1) ≤ max b 1 → SegUp b p pts →
    List.IsChain (· ≤ ·) (dampAt A p :: List.zipWith dampAt (Spec.twiceArea A p pts) pts) := by
  induction pts with
  | nil => intro b A p _ _ _ _; simp [Spec.twiceArea]
  | cons q r ih =>
    intro b A p hp1 hp2 hA ⟨⟨h1, h2⟩, h3, h4⟩
    have hq1 : 0 < q.1 := hp1.trans h1
    have hq2 : 0 < q.2 := hp2.trans_le h2
    have hP : 0 < p.2 * p.1 := mul_pos hp2 hp1
    have hPQ : p.2 * p.1 < q.2 * q.1 :=
      (mul_lt_mul_of_pos_left h1 hp2).trans_le (mul_le_mul_of_nonneg_right h2 hq1.le)
    have hQ := hP.trans hPQ
    set b' := segRatio p q with hb'
    have hw : (p.2 + q.2) * (q.1 - p.1) = b' * (q.2 * q.1 - p.2 * p.1) := by
      rw [hb', segRatio, div_mul_cancel₀]; linarith
    set R := A / (p.2 * p.1) with hR
    have hAR : A = R * (p.2 * p.1) := by rw [hR, div_mul_cancel₀ _ hP.ne']
    have hval : (A + (p.2 + q.2) * (q.1 - p.1)) / (q.2 * q.1) = (R * (p.2 * p.1) + b' * (q.2 * q.1 - p.2 * p.1)) / (q.2 * q.1) := by
      rw [hw, ← hAR]
    have hRm : R ≤ max b' 1 := hA.trans (max_le_max h3 le_rfl)
    have hd : 0 < q.2 * q.1 - p.2 * p.1 := by linarith
    have hnew : (A + (p.2 + q.2) * (q.1 - p.1)) / (q.2 * q.1) ≤ max b' 1 := by
      rw [hval, div_le_iff₀ hQ]
      have k1 := mul_le_mul_of_nonneg_right hRm hP.le
      have k2 := mul_le_mul_of_nonneg_right (le_max_left b' 1) hd.le
      linarith
    simp only [Spec.twiceArea, List.zipWith_cons_cons]
    rw [List.isChain_cons_cons]
    refine ⟨?_, ih b' _ q hq1 hq2 hnew h4⟩
    rcases le_or_gt R b' with hc | hc
    · apply dampAt_mono
      rw [hval, ← hR, le_div_iff₀ hQ]
      have := mul_le_mul_of_nonneg_right hc hd.le
      linarith
    · have hR1 : R ≤ 1 := by
        rcases le_max_iff.1 hRm with h | h
        · exact absurd h (not_le.2 hc)
        · exact h
      have : dampAt A p = 0 := by
        unfold dampAt
        rw [← hR]
        apply max_eq_right
        apply mul_nonpos_of_nonneg_of_nonpos _ (by linarith)
        have := Real.pi_pos
        positivity
      rw [this]
      exact le_max_right _ _

theorem isChain_pairwise {l : List ℝ} (h : List.IsChain (· ≤ ·) l) : l.Pairwise (· ≤ ·) :=
  List.isChain_iff_pairwise.1 h

/-- The damping of a sampled curve does not decrease when the relative area of its segments does not decrease. -/
theorem damping_grows {f : ℝ → ℝ} (hf : IsBackbone f) (g : ℝ) (hg : g ≠ 0) (e0 : ℝ) (es : List ℝ) (h0 : 0 < e0)
    (hcl : Climbing e0 es) (b : ℝ) (hu : SegUp b (e0, f e0) (es.map fun x => (x, f x))) :
    ∃ d, calcDamping Real.pi (e0 :: es) ((e0 :: es).map f) g = .ok d ∧ d.Pairwise (· ≤ ·) := by
  have hp := climbing_pos 0 le_rfl (e0 :: es) ⟨h0, hcl⟩
  have h := C40_value Real.pi g ((e0 :: es).map fun e => (e, f e)) (by simp) hg (by
    intro q hq
    obtain ⟨e, he, rfl⟩ := List.mem_map.1 hq
    exact ⟨(hp e he).ne', (hf.pos e (hp e he)).ne'⟩)
  rw [List.map_map, List.map_map] at h
  have e1 : (e0 :: es).map (Prod.fst ∘ fun e => (e, f e)) = e0 :: es := by
    conv_rhs => rw [← List.map_id (e0 :: es)]
    rfl
  have e2 : (e0 :: es).map (Prod.snd ∘ fun e => (e, f e)) = (e0 :: es).map f := rfl
  rw [e1, e2] at h
  refine ⟨_, h, isChain_pairwise ?_⟩
  have hpos := hf.pos e0 h0
  have key := damping_chain (es.map fun x => (x, f x)) b (f e0 * e0) (e0, f e0) h0 hpos
    (by rw [div_self (mul_pos hpos h0).ne']; exact le_max_right _ _) hu
  have e3 : (0 : ℝ) + (0 + f e0) * (e0 - 0) = f e0 * e0 := by ring
  simp only [Spec.hysteretic, List.map_cons, Spec.twiceArea, List.zipWith_cons_cons, e3]
  exact key

theorem segRatio_geo (x t t' q : ℝ) (hx : 0 < x) (ht : 0 < t) :
    segRatio (x, t) (q * x, t') = (1 + t' / t) * (q - 1) / (q * (t' / t) - 1) := by
  unfold segRatio
  have e1 : (t + t') * (q * x - x) = (t * x) * ((1 + t' / t) * (q - 1)) := by field_simp
  have e2 : t' * (q * x) - t * x = (t * x) * (q * (t' / t) - 1) := by field_simp
  simp only
  rw [e1, e2, mul_div_mul_left _ _ (mul_pos ht hx).ne']

theorem segVal_anti (q r r' : ℝ) (hq : 1 < q) (hr : 1 ≤ r) (h : r ≤ r') :
    (1 + r') * (q - 1) / (q * r' - 1) ≤ (1 + r) * (q - 1) / (q * r - 1) := by
  have k1 : 0 < q * r - 1 := by nlinarith
  have k2 : 0 < q * r' - 1 := by nlinarith
  rw [div_le_div_iff₀ k2 k1]
  have : 0 ≤ (q - 1) * ((1 + q) * (r' - r)) :=
    mul_nonneg (by linarith) (mul_nonneg (by linarith) (by linarith))
  nlinarith

theorem geometric_climbing (q : ℝ) (hq : 1 < q) : ∀ (es : List ℝ) (p : ℝ), 0 < p → Geometric q p es → Climbing p es
  | [], _, _, _ => trivial
  | e :: es, p, hp, h => by
    have : p < e := by rw [h.1]; nlinarith
    exact ⟨this, geometric_climbing q hq es e (hp.trans this) h.2⟩

theorem segUp_geometric {f : ℝ → ℝ} (hf : IsBackbone f) (q : ℝ) (hq : 1 < q)
    (hr : ∀ x y, 0 < x → x ≤ y → f (q * y) / f y ≤ f (q * x) / f x) (es : List ℝ) : ∀ (b p : ℝ), 0 < p →
      b ≤ (1 + f (q * p) / f p) * (q - 1) / (q * (f (q * p) / f p) - 1) → Geometric q p es →
      SegUp b (p, f p) (es.map fun x => (x, f x)) := by
  induction es with
  | nil => intro b p _ _ _; trivial
  | cons e es ih =>
    intro b p hp hb ⟨he, hg⟩
    subst he
    have hfp := hf.pos p hp
    have hlt : p < q * p := by nlinarith
    have hqp : 0 < q * p := hp.trans hlt
    have hm : f p ≤ f (q * p) := hf.mono (Set.mem_Ici.2 hp.le) (Set.mem_Ici.2 hqp.le) hlt.le
    refine ⟨⟨hlt, hm⟩, ?_, ?_⟩
    · show b ≤ segRatio (p, f p) (q * p, f (q * p))
      rw [segRatio_geo p _ _ q hp hfp]; exact hb
    · show SegUp (segRatio (p, f p) (q * p, f (q * p))) (q * p, f (q * p)) _
      apply ih _ (q * p) hqp _ hg
      rw [segRatio_geo p _ _ q hp hfp]
      apply segVal_anti q _ _ hq _ (hr p (q * p) hp hlt.le)
      rw [le_div_iff₀ (hf.pos _ hqp), one_mul]
      exact hf.mono (Set.mem_Ici.2 hqp.le) (Set.mem_Ici.2 (by nlinarith)) (by nlinarith)

/-- C213, any curve on a logarithmic grid: let the stress-strain curve `f` not decrease, and let the ratio of the stresses at `q γ` and
at `γ` not increase with `γ`. Sampled at strains each of which is `q` times the one before, it gives damping ratios which do not
decrease with strain. -/
theorem C213_geometric {f : ℝ → ℝ} (hf : IsBackbone f) (g q : ℝ) (hg : g ≠ 0) (hq : 1 < q)
    (hr : ∀ x y, 0 < x → x ≤ y → f (q * y) / f y ≤ f (q * x) / f x) (e0 : ℝ) (es : List ℝ) (h0 : 0 < e0) (hge : Geometric q e0 es) :
    ∃ d, calcDamping Real.pi (e0 :: es) ((e0 :: es).map f) g = .ok d ∧ d.Pairwise (· ≤ ·) :=
  damping_grows hf g hg e0 es h0 (geometric_climbing q hq es e0 h0 hge) _
    (segUp_geometric hf q hq hr es _ e0 h0 le_rfl hge)

section
variable {gr beta s G : ℝ}

theorem mkz_form (h1 : 0 < gr) (x : ℝ) (hx : 0 < x) : tauMKZ gr beta s G x = G * x / (1 + beta / gr ^ s * x ^ s) := by
  unfold tauMKZ
  rw [abs_of_pos hx, Real.div_rpow hx.le h1.le]
  congr 2
  ring

theorem mkz_ratio (h1 : 0 < gr) (h2 : 0 < beta) (hs : 0 < s) (hG : 0 < G) (q : ℝ) (hq : 1 ≤ q) (x y : ℝ) (hx : 0 < x) (hxy : x ≤ y) :
    tauMKZ gr beta s G (q * y) / tauMKZ gr beta s G y ≤ tauMKZ gr beta s G (q * x) / tauMKZ gr beta s G x := by
  have hy := hx.trans_le hxy
  have hq0 : 0 < q := by linarith
  have hb : 0 < beta / gr ^ s := div_pos h2 (Real.rpow_pos_of_pos h1 s)
  have hk : 1 ≤ q ^ s := Real.one_le_rpow hq hs.le
  have hxs : 0 < x ^ s := Real.rpow_pos_of_pos hx s
  have hle : x ^ s ≤ y ^ s := Real.rpow_le_rpow hx.le hxy hs.le
  set b := beta / gr ^ s with hbd
  have e : ∀ z : ℝ, 0 < z → tauMKZ gr beta s G (q * z) / tauMKZ gr beta s G z = q * ((1 + b * z ^ s) / (1 + q ^ s * (b * z ^ s))) := by
    intro z hz
    rw [mkz_form h1 _ (mul_pos hq0 hz), mkz_form h1 _ hz, Real.mul_rpow hq0.le hz.le, ← hbd]
    have hz' : 0 < z ^ s := Real.rpow_pos_of_pos hz s
    have : 1 + b * (q ^ s * z ^ s) = 1 + q ^ s * (b * z ^ s) := by ring
    rw [this]
    have k1 : 0 < 1 + b * z ^ s := by positivity
    have k2 : 0 < 1 + q ^ s * (b * z ^ s) := by positivity
    field_simp
  rw [e y hy, e x hx]
  apply mul_le_mul_of_nonneg_left _ hq0.le
  have hu : 0 < b * x ^ s := mul_pos hb hxs
  have huv : b * x ^ s ≤ b * y ^ s := mul_le_mul_of_nonneg_left hle hb.le
  set u := b * x ^ s
  set v := b * y ^ s
  have hv : 0 < v := hu.trans_le huv
  rw [div_le_div_iff₀ (by positivity) (by positivity)]
  have := mul_nonneg (sub_nonneg.2 hk) (sub_nonneg.2 huv)
  nlinarith

theorem geometric_div (c q : ℝ) : ∀ (es : List ℝ) (p : ℝ), Geometric q p es → Geometric q (p / c) (es.map (· / c))
  | [], _, _ => trivial
  | e :: es, p, h => ⟨by simp only [h.1]; ring, geometric_div c q es e h.2⟩

theorem pairwise_scale (c : ℝ) (hc : 0 ≤ c) (l : List ℝ) (h : l.Pairwise (· ≤ ·)) : (l.map (· * c)).Pairwise (· ≤ ·) := by
  rw [List.pairwise_map]
  exact h.imp fun hab => mul_le_mul_of_nonneg_right hab hc

/-- C213, partial: `MKZ_Param.get_damping` for strains on a logarithmic grid (such as the default strains) returns damping ratios which do
not decrease with strain. Missing: other grids (`C213_sparse_violated`). -/
theorem C213_mkz_partial (d : Dict ℝ) (h : MKZSet d gr s beta G) (h1 : 0 < gr) (h2 : 0 < beta) (hs : 0 < s) (hs1 : s ≤ 1) (hG : 0 < G)
    (q e0 : ℝ) (hq : 1 < q) (h0 : 0 < e0) (es : List ℝ) (hge : Geometric q e0 es) :
    ∃ x, paramDamping .mkz d (e0 :: es) = .ok x ∧ x.Pairwise (· ≤ ·) := by
  obtain ⟨x, a1, a2⟩ := C213_geometric (mkz_isBackbone h1 h2 hs hs1 hG) G q hG.ne' hq
    (fun x y hx hxy => mkz_ratio h1 h2 hs hG q hq.le x y hx hxy) (e0 / 100) (es.map (· / 100)) (by positivity)
    (geometric_div 100 q es e0 hge)
  refine ⟨x.map (· * 100), ?_, pairwise_scale 100 (by norm_num) x a2⟩
  unfold paramDamping
  rw [dampingFromParam_mkz d h, List.map_cons, a1]
  rfl

theorem segRatio_hyp (b x y : ℝ) (hb : 0 < b) (hx : 0 < x) (hxy : x < y) (hG : 0 < G) :
    segRatio (x, G * x / (1 + b * x)) (y, G * y / (1 + b * y)) = 1 + b / (1 / x + 1 / y + b) := by
  unfold segRatio
  have hy := hx.trans hxy
  have k1 : 0 < 1 + b * x := by positivity
  have k2 : 0 < 1 + b * y := by positivity
  have e1 : G * y / (1 + b * y) * y - G * x / (1 + b * x) * x = G * (y - x) * (x + y + b * x * y) / ((1 + b * x) * (1 + b * y)) := by
    field_simp; ring
  have e2 : (G * x / (1 + b * x) + G * y / (1 + b * y)) * (y - x) = G * (y - x) * (x + y + 2 * b * x * y) / ((1 + b * x) * (1 + b * y)) := by
    field_simp; ring
  simp only
  rw [e1, e2, div_div_div_cancel_right₀ (by positivity), mul_div_mul_left _ _ (mul_pos hG (by linarith)).ne']
  have k3 : 0 < x + y + b * x * y := by positivity
  have k4 : 1 / x + 1 / y + b = (x + y + b * x * y) / (x * y) := by field_simp; ring
  rw [k4]
  field_simp
  ring

/-- C213, the hyperbolic model (s = 1): whatever increasing strains are asked for, the damping ratios do not decrease. -/
theorem C213_hyperbolic (d : Dict ℝ) (h : MKZSet d gr 1 beta G) (h1 : 0 < gr) (h2 : 0 < beta) (hG : 0 < G) (pct : List ℝ) (hne : pct ≠ [])
    (hcl : Climbing 0 pct) : ∃ x, paramDamping .mkz d pct = .ok x ∧ x.Pairwise (· ≤ ·) := by
  cases pct with
  | nil => exact absurd rfl hne
  | cons e0 es =>
    have hb : 0 < beta / gr := div_pos h2 h1
    have hform : ∀ x : ℝ, 0 < x → tauMKZ gr beta 1 G x = G * x / (1 + beta / gr * x) := by
      intro x hx
      rw [mkz_form h1 x hx, Real.rpow_one, Real.rpow_one]
    have hbb := mkz_isBackbone h1 h2 one_pos le_rfl hG
    have hup : ∀ (es : List ℝ) (b p : ℝ), 0 < p → Climbing p es → b ≤ 1 + beta / gr / (1 / p + 1 / p + beta / gr) →
        SegUp b (p, tauMKZ gr beta 1 G p) (es.map fun x => (x, tauMKZ gr beta 1 G x)) := by
      intro es
      induction es with
      | nil => intro b p _ _ _; trivial
      | cons e es ih =>
        intro b p hp hcl hbp
        have he := hp.trans hcl.1
        have hseg : segRatio (p, tauMKZ gr beta 1 G p) (e, tauMKZ gr beta 1 G e) = 1 + beta / gr / (1 / p + 1 / e + beta / gr) := by
          rw [hform p hp, hform e he, segRatio_hyp _ p e hb hp hcl.1 hG]
        have i1 : 1 / e ≤ 1 / p := one_div_le_one_div_of_le hp hcl.1.le
        have i2 : 0 < 1 / e := by positivity
        refine ⟨⟨hcl.1, hbb.mono (Set.mem_Ici.2 hp.le) (Set.mem_Ici.2 he.le) hcl.1.le⟩, ?_, ?_⟩
        · show b ≤ segRatio (p, tauMKZ gr beta 1 G p) (e, tauMKZ gr beta 1 G e)
          rw [hseg]
          refine hbp.trans (add_le_add le_rfl ?_)
          exact div_le_div_of_nonneg_left hb.le (by positivity) (by linarith)
        · show SegUp (segRatio (p, tauMKZ gr beta 1 G p) (e, tauMKZ gr beta 1 G e)) (e, tauMKZ gr beta 1 G e) _
          apply ih _ e he hcl.2
          rw [hseg]
          refine add_le_add le_rfl ?_
          exact div_le_div_of_nonneg_left hb.le (by positivity) (by linarith)
    have hcl' : Climbing 0 ((e0 :: es).map (· / 100)) := by
      have := climbing_div 100 (by norm_num) (e0 :: es) 0 hcl
      rwa [zero_div] at this
    have h0 : 0 < e0 / 100 := hcl'.1
    obtain ⟨x, a1, a2⟩ := damping_grows hbb G hG.ne' (e0 / 100) (es.map (· / 100)) h0 hcl'.2 _ (hup _ _ _ h0 hcl'.2 le_rfl)
    refine ⟨x.map (· * 100), ?_, pairwise_scale 100 (by norm_num) x a2⟩
    unfold paramDamping
    rw [dampingFromParam_mkz d h, List.map_cons, a1]
    rfl

/-! ## The hysteretic damping of the model itself -/

/-- C213, the model itself: the hysteretic damping of the MKZ model (area under the curve, no sampling) does not decrease with strain. -/
theorem C213_masing (h1 : 0 < gr) (h2 : 0 < beta) (hs : 0 < s) (hs1 : s ≤ 1) (hG : 0 < G) (e e' : ℝ) (he : 0 < e) (hee : e ≤ e') :
    masing (tauMKZ gr beta s G) e ≤ masing (tauMKZ gr beta s G) e' := by
  have hb := mkz_isBackbone (G := G) h1 h2 hs hs1 hG
  have he' := he.trans_le hee
  have hpi := Real.pi_pos
  have hc := mkz_cont (G := G) h1 h2 hs
  have hsub : ∀ c : ℝ, 0 < c → 2 * (∫ x in (0 : ℝ)..c, tauMKZ gr beta s G x) / (tauMKZ gr beta s G c * c) =
      2 * ∫ u in (0 : ℝ)..1, tauMKZ gr beta s G (c * u) / tauMKZ gr beta s G c := by
    intro c hc
    have hp := hb.pos c hc
    have k := intervalIntegral.mul_integral_comp_mul_left (f := tauMKZ gr beta s G) (a := 0) (b := 1) (c := c)
    rw [mul_zero, mul_one] at k
    rw [← k, intervalIntegral.integral_div]
    field_simp
  have hint : ∀ c : ℝ, IntervalIntegrable (fun u => tauMKZ gr beta s G (c * u) / tauMKZ gr beta s G c) MeasureTheory.volume 0 1 := by
    intro c
    apply Continuous.intervalIntegrable
    exact (hc.comp (continuous_const.mul continuous_id)).div_const _
  unfold masing
  apply mul_le_mul_of_nonneg_left _ (by positivity)
  apply sub_le_sub_right
  rw [hsub e he, hsub e' he']
  apply mul_le_mul_of_nonneg_left _ (by norm_num)
  apply intervalIntegral.integral_mono_on (by norm_num) (hint e) (hint e')
  intro u hu
  rcases eq_or_lt_of_le hu.1 with rfl | hu0
  · simp [hb.zero]
  · have k := mkz_ratio (G := G) h1 h2 hs hG (1 / u) (by rw [le_div_iff₀ hu0]; linarith [hu.2]) (e * u) (e' * u) (by positivity)
      (mul_le_mul_of_nonneg_right hee hu0.le)
    have e1 : 1 / u * (e * u) = e := by field_simp
    have e2 : 1 / u * (e' * u) = e' := by field_simp
    rw [e1, e2] at k
    have p1 := hb.pos e he
    have p2 := hb.pos e' he'
    have p3 := hb.pos (e * u) (mul_pos he hu0)
    have p4 := hb.pos (e' * u) (mul_pos he' hu0)
    rw [div_le_div_iff₀ p4 p3] at k
    rw [div_le_div_iff₀ p1 p2]
    linarith

/-! ## Dependence on the reference strain -/

theorem twiceArea_compare {f f' : ℝ → ℝ} (c c' : ℝ) (es : List ℝ) : ∀ (A A' p : ℝ) (i : Nat), Climbing p es →
    c' * A' ≤ c * A → c' * f' p ≤ c * f p → (∀ x ∈ es.take (i + 1), c' * f' x ≤ c * f x) →
      ∀ a a', (Spec.twiceArea A (p, f p) (es.map fun x => (x, f x)))[i]? = some a →
        (Spec.twiceArea A' (p, f' p) (es.map fun x => (x, f' x)))[i]? = some a' → c' * a' ≤ c * a := by
  induction es with
  | nil => intro A A' p i _ _ _ _ a a' h _; simp [Spec.twiceArea] at h
  | cons e es ih =>
    intro A A' p i hcl hA hp hx a a' h h'
    have he := hx e (by simp)
    have hd : 0 ≤ e - p := by linarith [hcl.1]
    have key : c' * (A' + (f' p + f' e) * (e - p)) ≤ c * (A + (f p + f e) * (e - p)) := by
      have := mul_le_mul_of_nonneg_right (add_le_add hp he) hd
      linarith
    cases i with
    | zero =>
      simp only [List.map_cons, Spec.twiceArea, List.getElem?_cons_zero, Option.some.injEq] at h h'
      subst h h'
      exact key
    | succ i =>
      simp only [List.map_cons, Spec.twiceArea, List.getElem?_cons_succ] at h h'
      refine ih _ _ e i hcl.2 key he (fun x hx' => hx x ?_) a a' h h'
      rw [List.take_succ_cons]
      exact List.mem_cons_of_mem _ hx'

theorem take_le_of_climbing (es : List ℝ) : ∀ (p : ℝ) (i : Nat) e, Climbing p es → es[i]? = some e → ∀ x ∈ es.take (i + 1), p < x ∧ x ≤ e := by
  induction es with
  | nil => intro p i e _ h; simp at h
  | cons a es ih =>
    intro p i e hcl he x hx
    rw [List.take_succ_cons] at hx
    cases i with
    | zero =>
      simp only [List.getElem?_cons_zero, Option.some.injEq] at he
      simp only [List.take_zero, List.mem_singleton] at hx
      subst hx he
      exact ⟨hcl.1, le_rfl⟩
    | succ i =>
      simp only [List.getElem?_cons_succ] at he
      rcases List.mem_cons.1 hx with rfl | hx
      · exact ⟨hcl.1, climbing_le es x hcl.2 e (List.mem_of_getElem? he)⟩
      · obtain ⟨k1, k2⟩ := ih a i e hcl.2 he x hx
        exact ⟨hcl.1.trans k1, k2⟩

/-- C213, reference strain: of two MKZ soils with the same exponent, the one with the larger reference strain and the smaller `beta` has
the smaller damping, at each strain of any increasing list of strains and whatever the moduli. -/
theorem C213_reference {gr' beta' G' : ℝ} (d d' : Dict ℝ) (h : MKZSet d gr s beta G) (h' : MKZSet d' gr' s beta' G')
    (h1 : 0 < gr) (h2' : 0 < beta') (hs : 0 < s) (hs1 : s ≤ 1) (hG : 0 < G) (hG' : 0 < G') (hgr : gr ≤ gr') (hbe : beta' ≤ beta)
    (pct : List ℝ) (hne : pct ≠ []) (hcl : Climbing 0 pct) :
    ∃ x x', paramDamping .mkz d pct = .ok x ∧ paramDamping .mkz d' pct = .ok x' ∧ x.length = pct.length ∧ x'.length = pct.length ∧
      ∀ (i : Nat) y y', x[i]? = some y → x'[i]? = some y' → y' ≤ y := by
  have h1' : 0 < gr' := h1.trans_le hgr
  have h2 : 0 < beta := h2'.trans_le hbe
  have hb := mkz_isBackbone (G := G) h1 h2 hs hs1 hG
  have hb' := mkz_isBackbone (G := G') h1' h2' hs hs1 hG'
  have hcl' : Climbing 0 (pct.map (· / 100)) := by
    have := climbing_div 100 (by norm_num) pct 0 hcl
    rwa [zero_div] at this
  have hne' : pct.map (· / 100) ≠ [] := by simpa using hne
  obtain ⟨x, a1, a2, a3⟩ := damping_sampled hb G hG.ne' _ hne' hcl'
  obtain ⟨x', b1, b2, b3⟩ := damping_sampled hb' G' hG'.ne' _ hne' hcl'
  refine ⟨x.map (· * 100), x'.map (· * 100), ?_, ?_, by simp [a2], by simp [b2], fun i y y' hy hy' => ?_⟩
  · unfold paramDamping
    rw [dampingFromParam_mkz d h, a1]
    rfl
  · unfold paramDamping
    rw [dampingFromParam_mkz d' h', b1]
    rfl
  rw [List.getElem?_map, Option.map_eq_some_iff] at hy hy'
  obtain ⟨z, hz, rfl⟩ := hy
  obtain ⟨z', hz', rfl⟩ := hy'
  have hil : i < (pct.map (· / 100)).length := by rw [← a2]; exact (List.getElem?_eq_some_iff.1 hz).1
  obtain ⟨e, he⟩ : ∃ e, (pct.map (· / 100))[i]? = some e := ⟨_, List.getElem?_eq_getElem hil⟩
  obtain ⟨a, ha, hza⟩ := a3 i e he
  obtain ⟨a', ha', hza'⟩ := b3 i e he
  rw [hz] at hza
  rw [hz'] at hza'
  cases hza
  cases hza'
  have hpe := climbing_pos 0 le_rfl _ hcl' e (List.mem_of_getElem? he)
  have hfe := hb.pos e hpe
  have hfe' := hb'.pos e hpe
  have hcoef : beta' / gr' ^ s ≤ beta / gr ^ s := by
    have k1 : gr ^ s ≤ gr' ^ s := Real.rpow_le_rpow h1.le hgr hs.le
    exact div_le_div₀ h2.le hbe (Real.rpow_pos_of_pos h1 s) k1
  have hb0 : 0 < beta / gr ^ s := div_pos h2 (Real.rpow_pos_of_pos h1 s)
  have hb0' : 0 < beta' / gr' ^ s := div_pos h2' (Real.rpow_pos_of_pos h1' s)
  have key := twiceArea_compare (f := tauMKZ gr beta s G) (f' := tauMKZ gr' beta' s G') (1 / tauMKZ gr beta s G e) (1 / tauMKZ gr' beta' s G' e)
    (pct.map (· / 100)) 0 0 0 i hcl' (by simp) (by rw [hb.zero, hb'.zero]; simp) (by
      intro w hw
      obtain ⟨w0, we⟩ := take_le_of_climbing _ 0 i e hcl' he w hw
      rw [one_div_mul_eq_div, one_div_mul_eq_div, mkz_form h1 w w0, mkz_form h1 e hpe, mkz_form h1' w w0, mkz_form h1' e hpe]
      have hws : 0 < w ^ s := Real.rpow_pos_of_pos w0 s
      have hes : w ^ s ≤ e ^ s := Real.rpow_le_rpow w0.le we hs.le
      have hes0 := hws.trans_le hes
      set b := beta / gr ^ s
      set b' := beta' / gr' ^ s
      have q : ∀ (g c : ℝ), 0 < g → 0 < c → g * w / (1 + c * w ^ s) / (g * e / (1 + c * e ^ s)) = w / e * ((1 + c * e ^ s) / (1 + c * w ^ s)) := by
        intro g c hg hc
        have k1 : 0 < 1 + c * w ^ s := by positivity
        have k2 : 0 < 1 + c * e ^ s := by positivity
        field_simp
      rw [q G b hG hb0, q G' b' hG' hb0']
      apply mul_le_mul_of_nonneg_left _ (by positivity)
      rw [div_le_div_iff₀ (by positivity) (by positivity)]
      have := mul_nonneg (sub_nonneg.2 hcoef) (sub_nonneg.2 hes)
      nlinarith) a a' ha ha'
  apply mul_le_mul_of_nonneg_right _ (by norm_num)
  apply max_le_max _ le_rfl
  apply mul_le_mul_of_nonneg_left _ (by have := Real.pi_pos; positivity)
  apply sub_le_sub_right
  have key2 := div_le_div_of_nonneg_right key hpe.le
  have q1 : 1 / tauMKZ gr' beta' s G' e * a' / e = a' / (tauMKZ gr' beta' s G' e * e) := by field_simp
  have q2 : 1 / tauMKZ gr beta s G e * a / e = a / (tauMKZ gr beta s G e * e) := by field_simp
  rw [q1, q2] at key2
  exact key2

/-! ## Sparse strains -/

theorem mkz_unbounded (h1 : 0 < gr) (h2 : 0 < beta) (hs : 0 < s) (hs1 : s < 1) (hG : 0 < G) (M : ℝ) :
    ∃ X : ℝ, ∀ x, X ≤ x → M ≤ tauMKZ gr beta s G x := by
  have ht := tendsto_rpow_atTop (y := 1 - s) (by linarith)
  have hg : 0 < gr ^ s := Real.rpow_pos_of_pos h1 s
  have hc : 0 < G / (1 + beta / gr ^ s) := by positivity
  obtain ⟨X, hX⟩ := Filter.eventually_atTop.1 ((ht.const_mul_atTop hc).eventually_ge_atTop M)
  refine ⟨max X 1, fun x hx => ?_⟩
  have hx1 : 1 ≤ x := (le_max_right _ _).trans hx
  have hx0 : 0 < x := by linarith
  refine (hX x ((le_max_left _ _).trans hx)).trans ?_
  rw [mkz_form h1 x hx0]
  have k1 : 1 ≤ x ^ s := Real.one_le_rpow hx1 hs.le
  have k2 : x = x ^ (1 - s) * x ^ s := by
    rw [← Real.rpow_add hx0]; simp
  have k3 : 0 < x ^ (1 - s) := Real.rpow_pos_of_pos hx0 _
  have hb : 0 < beta / gr ^ s := by positivity
  rw [div_mul_eq_mul_div, div_le_div_iff₀ (by positivity) (by positivity)]
  have k4 : G * x = G * x ^ (1 - s) * x ^ s := by rw [mul_assoc, ← k2]
  rw [k4]
  have k5 : 1 + beta / gr ^ s * x ^ s ≤ x ^ s * (1 + beta / gr ^ s) := by linarith
  calc G * x ^ (1 - s) * (1 + beta / gr ^ s * x ^ s) ≤ G * x ^ (1 - s) * (x ^ s * (1 + beta / gr ^ s)) :=
        mul_le_mul_of_nonneg_left k5 (by positivity)
    _ = _ := by ring

/-- C213, violated: for every MKZ soil with an exponent below 1 and every strain `e` there is a larger strain `E` such that, asked for the
damping at `e/2`, `e` and `E`, `MKZ_Param` returns a smaller damping at `E` than at `e`: the long step cuts off the area under the curve. -/
theorem C213_sparse_violated (d : Dict ℝ) (h : MKZSet d gr s beta G) (h1 : 0 < gr) (h2 : 0 < beta) (hs : 0 < s) (hs1 : s < 1) (hG : 0 < G)
    (e : ℝ) (he : 0 < e) :
    ∃ E y z, e < E ∧ dampingFromParam .mkz d [e / 2, e, E] = .ok [0, y, z] ∧ z < y := by
  have hb := mkz_isBackbone (G := G) h1 h2 hs hs1.le hG
  obtain ⟨_, y, hy, hy0, _⟩ := C184_sampling_violated d h h1 h2 hs hs1.le hG e he
  set f := tauMKZ gr beta s G with hf
  have he2 : 0 < e / 2 := by positivity
  have hfe := hb.pos e he
  have hval : ∀ es : List ℝ, es ≠ [] → (∀ x ∈ es, 0 < x) → dampingFromParam .mkz d es =
      .ok (Spec.hysteretic Real.pi (es.map fun x => (x, f x))) := by
    intro es hne hpos
    rw [dampingFromParam_mkz d h]
    have k := C40_value Real.pi G (es.map fun x => (x, f x)) (by simpa using hne) hG.ne' (by
      intro q hq
      obtain ⟨x, hx, rfl⟩ := List.mem_map.1 hq
      exact ⟨(hpos x hx).ne', (hb.pos x (hpos x hx)).ne'⟩)
    rw [List.map_map, List.map_map] at k
    have e1 : es.map (Prod.fst ∘ fun e => (e, f e)) = es := by
      conv_rhs => rw [← List.map_id es]
      rfl
    have e2 : es.map (Prod.snd ∘ fun e => (e, f e)) = es.map f := rfl
    rw [e1, e2] at k
    exact k
  rw [hval _ (by simp) (by intro x hx; simp at hx; rcases hx with rfl | rfl <;> assumption)] at hy
  simp only [Spec.hysteretic, List.map_cons, List.map_nil, Spec.twiceArea, List.zipWith_cons_cons, List.zipWith_nil_left,
    Except.ok.injEq, List.cons.injEq, and_true] at hy
  obtain ⟨hy1, hy2⟩ := hy
  set A := 0 + (0 + f (e / 2)) * (e / 2 - 0) + (f (e / 2) + f e) * (e - e / 2) with hA
  have hA0 : 0 ≤ A := by
    have := hb.pos _ he2
    have k : A = f (e / 2) * (e / 2) + (f (e / 2) + f e) * (e / 2) := by rw [hA]; ring
    rw [k]; positivity
  have hpi := Real.pi_pos
  -- a stress so large that the damping is below `y`
  obtain ⟨X, hX⟩ := mkz_unbounded (G := G) h1 h2 hs hs1 hG (2 / Real.pi * (A / e + f e) / y + 1)
  refine ⟨max X (2 * e), y, max (2 / Real.pi * ((A + (f e + f (max X (2 * e))) * (max X (2 * e) - e)) / (f (max X (2 * e)) * max X (2 * e)) - 1)) 0,
    lt_of_lt_of_le (by linarith) (le_max_right _ _), ?_, ?_⟩
  · rw [hval _ (by simp) (by
      intro x hx
      simp at hx
      rcases hx with rfl | rfl | rfl
      · exact he2
      · exact he
      · exact lt_of_lt_of_le (by linarith) (le_max_right X (2 * e)))]
    simp only [Spec.hysteretic, List.map_cons, List.map_nil, Spec.twiceArea, List.zipWith_cons_cons, List.zipWith_nil_left,
      Except.ok.injEq, List.cons.injEq, and_true]
    exact ⟨hy1, hy2, rfl⟩
  · set E := max X (2 * e) with hE
    have hEe : e < E := lt_of_lt_of_le (by linarith) (le_max_right _ _)
    have hE0 := he.trans hEe
    have hfE : 2 / Real.pi * (A / e + f e) / y + 1 ≤ f E := hX E (le_max_left _ _)
    have hfE0 := hb.pos E hE0
    apply max_lt _ hy0
    have k0 : (A + (f e + f E) * (E - e)) / (f E * E) - 1 ≤ (A / e + f e) / f E := by
      rw [sub_le_iff_le_add, div_le_iff₀ (mul_pos hfE0 hE0), add_mul ((A / e + f e) / f E), one_mul]
      have m1 : (A / e + f e) / f E * (f E * E) = A * (E / e) + f e * E := by field_simp
      rw [m1]
      have m2 : A ≤ A * (E / e) := by
        have : 1 ≤ E / e := by rw [le_div_iff₀ he]; linarith
        nlinarith
      have m3 : 0 ≤ (f e + f E) * e := by positivity
      nlinarith
    have k1 : 2 / Real.pi * ((A + (f e + f E) * (E - e)) / (f E * E) - 1) ≤ 2 / Real.pi * ((A / e + f e) / f E) :=
      mul_le_mul_of_nonneg_left k0 (by positivity)
    refine k1.trans_lt ?_
    rw [← mul_div_assoc, div_lt_iff₀ hfE0]
    have k2 : 2 / Real.pi * (A / e + f e) / y < f E := by linarith
    rw [div_lt_iff₀ hy0] at k2
    linarith

/-- Non-vacuity: strains 0.01 %, 0.1 %, 1 % and 10 % are a logarithmic grid. -/
example : Geometric 10 (1 / 100) [1 / 10, 1, 10] := by
  refine ⟨?_, ?_, ?_, trivial⟩ <;> norm_num

end

end Verif
