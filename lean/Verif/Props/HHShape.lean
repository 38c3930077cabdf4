import Verif.Props.Soil

/-!
# What the parameters of the soil models do (C205) and the shape of the HH backbone (C206)

`helper_mkz_model.py` L8-47, `helper_hh_model.py` L10-159.
-/

set_option linter.unusedSectionVars false
set_option linter.unusedVariables false

namespace Verif

/-! ## C205 -/

/-- At the reference strain the MKZ stress is the elastic stress divided by `1 + beta`, whatever `s` is. -/
theorem C205_mkz_ref (gr beta s G : ℝ) (hgr : 0 < gr) : tauMKZ gr beta s G gr = G * gr / (1 + beta) := by
  unfold tauMKZ
  rw [abs_of_pos hgr, div_self hgr.ne', Real.one_rpow, mul_one]

/-- A larger reference strain, a smaller `beta` or a larger modulus never lower the MKZ stress. -/
theorem C205_mkz_stiffer (gr gr' beta beta' s G G' x : ℝ) (hgr : 0 < gr) (h1 : gr ≤ gr') (hb : 0 < beta') (h2 : beta' ≤ beta)
    (hs : 0 ≤ s) (hG : 0 ≤ G) (h3 : G ≤ G') (hx : 0 ≤ x) : tauMKZ gr beta s G x ≤ tauMKZ gr' beta' s G' x := by
  unfold tauMKZ
  rw [abs_of_nonneg hx]
  have hgr' : 0 < gr' := lt_of_lt_of_le hgr h1
  have hp : (x / gr') ^ s ≤ (x / gr) ^ s := by
    apply Real.rpow_le_rpow (by positivity) _ hs
    gcongr
  have hq : 0 ≤ (x / gr') ^ s := Real.rpow_nonneg (by positivity) s
  have hden : beta' * (x / gr') ^ s ≤ beta * (x / gr) ^ s := by
    apply mul_le_mul h2 hp hq (by linarith)
  have hnn : 0 ≤ beta' * (x / gr') ^ s := mul_nonneg hb.le hq
  apply div_le_div₀ (mul_nonneg (hG.trans h3) hx) (by gcongr) (by linarith) (by linarith)

/-- The exponent `s` turns the curve about the reference strain: a larger `s` gives more stress below it
and less stress above it. -/
theorem C205_mkz_shape (gr beta s s' G x : ℝ) (hgr : 0 < gr) (hb : 0 < beta) (hss : s ≤ s') (hG : 0 ≤ G) (hx : 0 < x) :
    (x ≤ gr → tauMKZ gr beta s G x ≤ tauMKZ gr beta s' G x) ∧ (gr ≤ x → tauMKZ gr beta s' G x ≤ tauMKZ gr beta s G x) := by
  have h0 : 0 < x / gr := by positivity
  have hp := Real.rpow_pos_of_pos h0 s
  have hp' := Real.rpow_pos_of_pos h0 s'
  unfold tauMKZ
  rw [abs_of_pos hx]
  constructor
  · intro h
    have : (x / gr) ^ s' ≤ (x / gr) ^ s := Real.rpow_le_rpow_of_exponent_ge h0 ((div_le_one hgr).2 h) hss
    apply div_le_div_of_nonneg_left (by positivity) (by positivity)
    gcongr
  · intro h
    have : (x / gr) ^ s ≤ (x / gr) ^ s' := Real.rpow_le_rpow_of_exponent_le ((one_le_div hgr).2 h) hss
    apply div_le_div_of_nonneg_left (by positivity) (by positivity)
    gcongr

/-- A larger `mu`, modulus or strength never lowers the FKZ stress. -/
theorem C205_fkz_stiffer (G G' mu mu' d T T' x : ℝ) (hG : 0 < G) (h1 : G ≤ G') (hmu : 0 < mu) (h2 : mu ≤ mu') (hT : 0 < T)
    (h3 : T ≤ T') (hx : 0 < x) : tauFKZ G mu d T x ≤ tauFKZ G' mu' d T' x := by
  unfold tauFKZ
  rw [abs_of_pos hx]
  have hX : 0 < x ^ d := Real.rpow_pos_of_pos hx d
  generalize x ^ d = X at hX
  have hG' : 0 < G' := lt_of_lt_of_le hG h1
  have hmu' : 0 < mu' := lt_of_lt_of_le hmu h2
  have hT' : 0 < T' := lt_of_lt_of_le hT h3
  have e : ∀ m g t : ℝ, 0 < m → 0 < g → 0 < t → m * g * X / (1 + g / t * m * X) = 1 / (1 / (m * g * X) + 1 / t) := by
    intro m g t hm hg ht
    field_simp
  rw [e mu G T hmu hG hT, e mu' G' T' hmu' hG' hT']
  apply one_div_le_one_div_of_le (by positivity)
  have a1 : 1 / (mu' * G' * X) ≤ 1 / (mu * G * X) := one_div_le_one_div_of_le (by positivity) (by gcongr)
  have a2 : 1 / T' ≤ 1 / T := one_div_le_one_div_of_le hT h3
  linarith

/-- Half of the strength is reached at the strain `(Tmax / (mu Gmax)) ^ (1 / d)`. -/
theorem C205_fkz_half (G mu d T : ℝ) (hG : 0 < G) (hmu : 0 < mu) (hd : 0 < d) (hT : 0 < T) :
    tauFKZ G mu d T ((T / (mu * G)) ^ (1 / d)) = T / 2 := by
  have hq : 0 < T / (mu * G) := by positivity
  unfold tauFKZ
  rw [abs_of_pos (Real.rpow_pos_of_pos hq _), ← Real.rpow_mul hq.le, one_div, inv_mul_cancel₀ hd.ne', Real.rpow_one]
  field_simp
  norm_num

/-- For strains up to one a larger exponent `d` never raises the FKZ stress. -/
theorem C205_fkz_shape (G mu d d' T x : ℝ) (hG : 0 < G) (hmu : 0 < mu) (hdd : d ≤ d') (hT : 0 < T) (hx : 0 < x) (hx1 : x ≤ 1) :
    tauFKZ G mu d' T x ≤ tauFKZ G mu d T x := by
  have hX : 0 < x ^ d := Real.rpow_pos_of_pos hx d
  have hX' : 0 < x ^ d' := Real.rpow_pos_of_pos hx d'
  have hle : x ^ d' ≤ x ^ d := Real.rpow_le_rpow_of_exponent_ge hx hx1 hdd
  unfold tauFKZ
  rw [abs_of_pos hx]
  rw [div_le_div_iff₀ (by positivity) (by positivity)]
  have : mu * G * x ^ d' ≤ mu * G * x ^ d := by gcongr
  nlinarith

theorem iv_at (a gt r : ℝ) (hgt : 0 < gt) : transIv a gt (gt * (10 : ℝ) ^ r) = r - 4.039 * a ^ (-1.036 : ℝ) := by
  have h10 : (0 : ℝ) < (10 : ℝ) ^ r := Real.rpow_pos_of_pos (by norm_num) r
  unfold transIv
  rw [abs_of_pos (by positivity), mul_div_assoc, mul_comm, div_mul_cancel₀ _ hgt.ne',
    Real.logb_rpow (by norm_num) (by norm_num)]

theorem gt_pow_ne (gt r : ℝ) (hgt : 0 < gt) : gt * (10 : ℝ) ^ r ≠ 0 :=
  (mul_pos hgt (Real.rpow_pos_of_pos (by norm_num) r)).ne'

/-- The two models have equal weights at `gamma_t` times ten to the power `4.039 a^-1.036`; the weights
depend on the strain only through its ratio to `gamma_t`, and a larger `gamma_t` never lowers the weight of
the MKZ model. -/
theorem C205_transition (a gt : ℝ) (ha : 0 < a) (hgt : 0 < gt) :
    transOne a gt (gt * (10 : ℝ) ^ (4.039 * a ^ (-1.036 : ℝ))) = 1 / 2 ∧
    (∀ k g, 0 < k → transOne a (k * gt) (k * g) = transOne a gt g) ∧
    (∀ gt' g, gt ≤ gt' → transOne a gt g ≤ transOne a gt' g) := by
  have hscale : ∀ k g gt : ℝ, 0 < gt → 0 < k → transOne a (k * gt) (k * g) = transOne a gt g := by
    intro k g gt hgt hk
    have hz : k * g = 0 ↔ g = 0 := by
      constructor
      · intro h; rcases mul_eq_zero.1 h with h | h
        · exact absurd h hk.ne'
        · exact h
      · intro h; rw [h, mul_zero]
    have hi : transIv a (k * gt) (k * g) = transIv a gt g := by
      unfold transIv
      rw [abs_mul, abs_of_pos hk, mul_div_mul_left _ _ hk.ne']
    unfold transOne
    rw [hi]
    by_cases hg : g = 0
    · rw [if_pos hg, if_pos (hz.2 hg)]
    · rw [if_neg hg, if_neg (fun h => hg (hz.1 h))]
  refine ⟨?_, fun k g hk => hscale k g gt hgt hk, ?_⟩
  · unfold transOne
    rw [if_neg (gt_pow_ne _ _ hgt), iv_at a gt _ hgt, sub_self, mul_zero, Real.rpow_zero]
    norm_num
  · intro gt' g hle
    have hgt' : 0 < gt' := lt_of_lt_of_le hgt hle
    have h1 := hscale (gt' / gt) g gt hgt (by positivity)
    rw [div_mul_cancel₀ _ hgt.ne'] at h1
    rw [← h1]
    apply C44_weight_antitone a gt' _ _ ha hgt'
    rw [abs_mul, abs_of_pos (by positivity : 0 < gt' / gt)]
    have : 1 ≤ gt' / gt := (one_le_div hgt).2 hle
    nlinarith [abs_nonneg g]

/-- At `gamma_t` itself the MKZ model still has more than half of the weight. -/
theorem C205_onset (a gt : ℝ) (ha : 0 < a) (hgt : 0 < gt) : 1 / 2 < transOne a gt gt := by
  have hc : 0 < 4.039 * a ^ (-1.036 : ℝ) := mul_pos (by norm_num) (Real.rpow_pos_of_pos ha _)
  have hi := iv_at a gt 0 hgt
  rw [Real.rpow_zero, mul_one] at hi
  unfold transOne
  rw [if_neg hgt.ne', hi]
  have hpos : 0 < -a * (0 - 4.039 * a ^ (-1.036 : ℝ)) := by nlinarith
  generalize -a * (0 - 4.039 * a ^ (-1.036 : ℝ)) = u at hpos
  split_ifs with h1 h2
  · norm_num
  · linarith
  · have : (1 : ℝ) < (10 : ℝ) ^ u := Real.one_lt_rpow (by norm_num) hpos
    have h3 : 1 / (1 + (10 : ℝ) ^ u) < 1 / 2 := one_div_lt_one_div_of_lt (by norm_num) (by linarith)
    linarith

namespace Spec

/-- `q` describes a soil at least as stiff and strong as `p`, with the same transition and exponents. -/
structure FirmerHH (p q : HHParam) : Prop where
  gt : q.gammaT = p.gammaT
  a : q.a = p.a
  s : q.s = p.s
  d : q.d = p.d
  gr : p.gammaRef ≤ q.gammaRef
  beta : q.beta ≤ p.beta
  G : p.Gmax ≤ q.Gmax
  mu : p.mu ≤ q.mu
  T : p.Tmax ≤ q.Tmax

end Spec

/-- Consequently the HH stress of a stiffer or stronger soil is nowhere lower. -/
theorem C205_hh_stiffer (p q : HHParam) (gamma tp tq : List ℝ) (h : Spec.FirmerHH p q) (hgr : 0 < p.gammaRef) (hb : 0 < q.beta)
    (hs : 0 ≤ p.s) (hG : 0 < p.Gmax) (hmu : 0 < p.mu) (hT : 0 < p.Tmax) (hpos : ∀ g ∈ gamma, 0 < g)
    (hp : tauHH p gamma = .ok tp) (hq : tauHH q gamma = .ok tq) : List.Forall₂ (· ≤ ·) tp tq := by
  have hform : ∀ (r : HHParam) t, tauHH r gamma = .ok t → t = gamma.map (hhOne r) := by
    intro r t ht
    unfold tauHH transition at ht
    split_ifs at ht with h0
    exact (Except.ok.inj ht).symm
  rw [hform p tp hp, hform q tq hq, List.forall₂_map_left_iff, List.forall₂_map_right_iff, List.forall₂_same]
  intro g hg
  have hg0 := hpos g hg
  obtain ⟨w0, w1⟩ := C44_weight_range p.a p.gammaT g
  have hm := C205_mkz_stiffer p.gammaRef q.gammaRef p.beta q.beta p.s p.Gmax q.Gmax g hgr h.gr hb h.beta hs hG.le h.G hg0.le
  have hf := C205_fkz_stiffer p.Gmax q.Gmax p.mu q.mu p.d p.Tmax q.Tmax g hG h.G hmu h.mu hT h.T hg0
  unfold hhOne
  rw [h.gt, h.a, h.s, h.d]
  have e1 := mul_le_mul_of_nonneg_left hm w0
  have e2 := mul_le_mul_of_nonneg_left hf (by linarith : 0 ≤ 1 - transOne p.a p.gammaT g)
  linarith

/-- Non-vacuity: a set of positive parameters and a firmer one. -/
example : Spec.FirmerHH ⟨1, 100, 1, 1, 1, 1, 1, 1, 1⟩ ⟨1, 100, 2, 1, 1, 3, 1, 2, 1⟩ := by
  constructor <;> norm_num

/-! ## C206 -/

theorem hh_list (p : HHParam) (gamma : List ℝ) (hgt : 0 < p.gammaT) : tauHH p gamma = .ok (gamma.map (hhOne p)) := by
  unfold tauHH transition
  rw [if_neg (not_not.2 hgt)]

theorem fkz_mono (G mu d T x y : ℝ) (hG : 0 < G) (hmu : 0 < mu) (hd : 0 < d) (hT : 0 < T) (hx : 0 < x) (hxy : x ≤ y) :
    tauFKZ G mu d T x ≤ tauFKZ G mu d T y := by
  rcases hxy.eq_or_lt with rfl | h
  · exact le_rfl
  · exact (C43_strength G mu d T x y hG hmu hd hT hx h).2.1.le

theorem hh_mono (p : HHParam) (ha : 0 < p.a) (hgt : 0 < p.gammaT) (hgr : 0 < p.gammaRef) (hb : 0 < p.beta) (hs : 0 < p.s)
    (hs1 : p.s ≤ 1) (hG : 0 < p.Gmax) (hmu : 0 < p.mu) (hd : 0 < p.d) (hT : 0 < p.Tmax) (x y : ℝ) (hx : 0 < x) (hxy : x ≤ y)
    (hMF : tauMKZ p.gammaRef p.beta p.s p.Gmax x ≤ tauFKZ p.Gmax p.mu p.d p.Tmax x) : hhOne p x ≤ hhOne p y := by
  have hm := C42_monotone hgr hb hs hs1 hG x y hxy
  have hf := fkz_mono p.Gmax p.mu p.d p.Tmax x y hG hmu hd hT hx hxy
  have hw := C44_weight_antitone p.a p.gammaT x y ha hgt
    (by rw [abs_of_pos hx, abs_of_pos (lt_of_lt_of_le hx hxy)]; exact hxy)
  obtain ⟨v0, v1⟩ := C44_weight_range p.a p.gammaT y
  unfold hhOne
  generalize transOne p.a p.gammaT y = v at *
  generalize transOne p.a p.gammaT x = w at *
  generalize tauMKZ p.gammaRef p.beta p.s p.Gmax x = m at *
  generalize tauMKZ p.gammaRef p.beta p.s p.Gmax y = m' at *
  generalize tauFKZ p.Gmax p.mu p.d p.Tmax x = f at *
  generalize tauFKZ p.Gmax p.mu p.d p.Tmax y = f' at *
  have e1 := mul_le_mul_of_nonneg_left hm v0
  have e2 := mul_le_mul_of_nonneg_left hf (by linarith : 0 ≤ 1 - v)
  have e3 := mul_nonneg (sub_nonneg.2 hw) (sub_nonneg.2 hMF)
  nlinarith

/-- The HH stress does not decrease along increasing strains as long as the MKZ stress is not above the
FKZ stress at the strains passed.  Missing: strains at which the MKZ stress is above the FKZ stress, where
the transition goes downwards; `C206_violated` shows that the claim is false there. -/
theorem C206_monotone_partial (p : HHParam) (ha : 0 < p.a) (hgt : 0 < p.gammaT) (hgr : 0 < p.gammaRef) (hb : 0 < p.beta)
    (hs : 0 < p.s) (hs1 : p.s ≤ 1) (hG : 0 < p.Gmax) (hmu : 0 < p.mu) (hd : 0 < p.d) (hT : 0 < p.Tmax) (gamma t : List ℝ)
    (hpos : ∀ g ∈ gamma, 0 < g) (hinc : gamma.Pairwise (· ≤ ·))
    (hMF : ∀ g ∈ gamma, tauMKZ p.gammaRef p.beta p.s p.Gmax g ≤ tauFKZ p.Gmax p.mu p.d p.Tmax g)
    (h : tauHH p gamma = .ok t) : t.Pairwise (· ≤ ·) := by
  rw [hh_list p gamma hgt] at h
  rw [← Except.ok.inj h, List.pairwise_map]
  refine List.Pairwise.imp_of_mem ?_ hinc
  intro x y hx hy hxy
  exact hh_mono p ha hgt hgr hb hs hs1 hG hmu hd hT x y (hpos x hx) hxy (hMF x hx)

/-- The HH stress is not above the strength at strains where the MKZ stress is not.  Missing: strains at
which the MKZ stress is above the strength. -/
theorem C206_strength_partial (p : HHParam) (hgt : 0 < p.gammaT) (hG : 0 < p.Gmax) (hmu : 0 < p.mu) (hd : 0 < p.d)
    (hT : 0 < p.Tmax) (gamma t : List ℝ) (hpos : ∀ g ∈ gamma, 0 < g)
    (hM : ∀ g ∈ gamma, tauMKZ p.gammaRef p.beta p.s p.Gmax g ≤ p.Tmax) (h : tauHH p gamma = .ok t) : ∀ x ∈ t, x ≤ p.Tmax := by
  rw [hh_list p gamma hgt] at h
  rw [← Except.ok.inj h]
  intro x hx
  obtain ⟨g, hg, rfl⟩ := List.mem_map.1 hx
  have hf : tauFKZ p.Gmax p.mu p.d p.Tmax g ≤ p.Tmax :=
    ((C43_strength p.Gmax p.mu p.d p.Tmax (g / 2) g hG hmu hd hT (half_pos (hpos g hg)) (half_lt_self (hpos g hg))).2.2).le
  obtain ⟨w0, w1⟩ := C44_weight_range p.a p.gammaT g
  have e1 := mul_le_mul_of_nonneg_left (hM g hg) w0
  have e2 := mul_le_mul_of_nonneg_left hf (by linarith : 0 ≤ 1 - transOne p.a p.gammaT g)
  unfold hhOne
  linarith

/-- From a strain on, the HH stress is the FKZ stress, hence below the strength. -/
theorem C206_large (p : HHParam) (ha : 0 < p.a) (hgt : 0 < p.gammaT) (hG : 0 < p.Gmax) (hmu : 0 < p.mu) (hd : 0 < p.d)
    (hT : 0 < p.Tmax) : ∃ g0, 0 < g0 ∧ ∀ (gamma t : List ℝ), (∀ g ∈ gamma, g0 ≤ g) → tauHH p gamma = .ok t →
      t = gamma.map (tauFKZ p.Gmax p.mu p.d p.Tmax) ∧ ∀ x ∈ t, 0 < x ∧ x < p.Tmax := by
  set g0 : ℝ := p.gammaT * (10 : ℝ) ^ (4.039 * p.a ^ (-1.036 : ℝ) + 306 / p.a) with hg0
  have hg0p : 0 < g0 := mul_pos hgt (Real.rpow_pos_of_pos (by norm_num) _)
  have hw0 : transOne p.a p.gammaT g0 = 0 := by
    have hi := iv_at p.a p.gammaT (4.039 * p.a ^ (-1.036 : ℝ) + 306 / p.a) hgt
    rw [← hg0] at hi
    have e : -p.a * transIv p.a p.gammaT g0 = -306 := by
      rw [hi]; field_simp; ring
    unfold transOne
    rw [if_neg hg0p.ne', e, if_neg (by norm_num), if_pos (by norm_num)]
  refine ⟨g0, hg0p, ?_⟩
  intro gamma t hge h
  rw [hh_list p gamma hgt] at h
  have hone : ∀ g ∈ gamma, hhOne p g = tauFKZ p.Gmax p.mu p.d p.Tmax g := by
    intro g hg
    have hgp : 0 < g := lt_of_lt_of_le hg0p (hge g hg)
    have h1 := C44_weight_antitone p.a p.gammaT g0 g ha hgt (by rw [abs_of_pos hg0p, abs_of_pos hgp]; exact hge g hg)
    have h2 := (C44_weight_range p.a p.gammaT g).1
    have h3 : transOne p.a p.gammaT g = 0 := by linarith
    unfold hhOne
    rw [h3]; ring
  have ht : t = gamma.map (tauFKZ p.Gmax p.mu p.d p.Tmax) := by
    rw [← Except.ok.inj h]
    exact List.map_congr_left hone
  refine ⟨ht, ?_⟩
  intro x hx
  rw [ht] at hx
  obtain ⟨g, hg, rfl⟩ := List.mem_map.1 hx
  have hgp : 0 < g := lt_of_lt_of_le hg0p (hge g hg)
  have := C43_strength p.Gmax p.mu p.d p.Tmax (g / 2) g hG hmu hd hT (half_pos hgp) (half_lt_self hgp)
  exact ⟨this.1.trans this.2.1, this.2.2⟩

/-- Whatever the other parameters are, if the MKZ stress is above the strength at some strain, there are
transition strains for which the HH stress is above the strength at that strain and lower at a larger one:
`tau_HH` neither stays below `Tmax` nor is it a non-decreasing function of the strain. -/
theorem C206_violated (p : HHParam) (ha : 0 < p.a) (hG : 0 < p.Gmax) (hmu : 0 < p.mu) (hd : 0 < p.d) (hT : 0 < p.Tmax) (g : ℝ)
    (hg : 0 < g) (hM : p.Tmax < tauMKZ p.gammaRef p.beta p.s p.Gmax g) :
    ∃ gt g' t t', 0 < gt ∧ g < g' ∧ tauHH { p with gammaT := gt } [g, g'] = .ok [t, t'] ∧ p.Tmax < t ∧ t' < p.Tmax := by
  have hc : 0 < 4.039 * p.a ^ (-1.036 : ℝ) := mul_pos (by norm_num) (Real.rpow_pos_of_pos ha _)
  have h10 : ∀ r : ℝ, (0 : ℝ) < (10 : ℝ) ^ r := fun r => Real.rpow_pos_of_pos (by norm_num) r
  set gt : ℝ := g * (10 : ℝ) ^ (306 / p.a) with hgtd
  have hgt : 0 < gt := mul_pos hg (h10 _)
  set q : HHParam := { p with gammaT := gt } with hq
  obtain ⟨g0, hg0, hlarge⟩ := C206_large q ha hgt hG hmu hd hT
  have hw : transOne q.a q.gammaT g = 1 := by
    have hi := iv_at p.a gt (-(306 / p.a)) hgt
    have e0 : gt * (10 : ℝ) ^ (-(306 / p.a)) = g := by
      rw [hgtd, mul_assoc, ← Real.rpow_add (by norm_num), add_neg_cancel, Real.rpow_zero, mul_one]
    rw [e0] at hi
    have e : 305 < -p.a * transIv p.a gt g := by
      rw [hi]
      have : -p.a * (-(306 / p.a) - 4.039 * p.a ^ (-1.036 : ℝ)) = 306 + p.a * (4.039 * p.a ^ (-1.036 : ℝ)) := by
        field_simp; ring
      rw [this]
      have := mul_pos ha hc
      linarith
    show transOne p.a gt g = 1
    unfold transOne
    rw [if_neg hg.ne', if_pos e]
  refine ⟨gt, max g0 (2 * g), hhOne q g, hhOne q (max g0 (2 * g)), hgt, lt_max_of_lt_right (by linarith), hh_list q _ hgt, ?_, ?_⟩
  · unfold hhOne
    rw [hw]
    show p.Tmax < 1 * tauMKZ p.gammaRef p.beta p.s p.Gmax g + (1 - 1) * _
    rw [one_mul, sub_self, zero_mul, add_zero]
    exact hM
  · obtain ⟨h1, h2⟩ := hlarge [max g0 (2 * g)] _ (by intro x hx; rw [List.mem_singleton.1 hx]; exact le_max_left _ _)
      (hh_list q _ hgt)
    exact (h2 _ (List.mem_map_of_mem List.mem_cons_self)).2

/-- Non-vacuity of `C206_violated`: `gamma_ref = beta = s = Gmax = 1`, strength 1/4, strain 1. -/
example : (1 / 4 : ℝ) < tauMKZ 1 1 1 1 1 := by
  rw [C205_mkz_ref 1 1 1 1 one_pos]; norm_num

/-- Non-vacuity of the partial theorems: with strength 1 and `mu = d = 1` the two models agree. -/
example : tauMKZ 1 1 1 1 2 ≤ tauFKZ 1 1 1 1 2 := by
  unfold tauMKZ tauFKZ
  rw [abs_of_pos (by norm_num : (0 : ℝ) < 2), Real.rpow_one, Real.rpow_one]
  norm_num

end Verif
