import Verif.Props.ScoresSwap
import Verif.Props.ScoreProc

/-!
C211: scores of two motions which are multiplied by the same factor.
-/

set_option linter.unusedSectionVars false
set_option linter.unusedVariables false

namespace Verif

open Spec (times vals scaled Homogeneous)

namespace Spec

/-- Values `m` (measured) and `s` (simulated) are above the thresholds of the score, before and after multiplication by `c`. -/
def AboveThresholds (c m s : ℝ) : Prop := 1 / 10 ^ 12 ≤ m ∧ 1 / 10 ^ 12 ≤ c * m ∧ 1 / 2 ^ 52 ≤ s ∧ 1 / 2 ^ 52 ≤ c * s

end Spec

open Spec (AboveThresholds)

theorem scoreNum_common {c m s : ℝ} (hc : 0 < c) (h : AboveThresholds c m s) : scoreNum (c * m) (c * s) = scoreNum m s := by
  obtain ⟨h1, h2, h3, h4⟩ := h
  rw [scoreNum_rel _ _ h1 h3, scoreNum_rel _ _ h2 h4, mul_div_mul_left _ _ hc.ne']

theorem scoreNum_tiny {m s : ℝ} (hm : m ≤ 1 / 2 ^ 52) (hs : s ≤ 1 / 2 ^ 52) : scoreNum m s = 0 := by
  have e : scoreNum m s = scoreNum feps feps := by
    unfold scoreNum
    rw [max_eq_right (by unfold feps; exact hm), max_eq_right (by unfold feps; exact hs), max_self]
  rw [e, scoreNum_self]

theorem absPeak_scaled (c : ℝ) (x : Rec ℝ) (h : x ≠ []) : ∃ p, absPeak (scaled c x) = .ok p := by
  unfold absPeak
  rw [if_neg (by unfold scaled; simpa using h)]
  exact ⟨_, rfl⟩

theorem calcRms_ne {x : Rec ℝ} {v : ℝ} (h : calcRms x = .ok v) : x ≠ [] := by
  rintro rfl
  simp [calcRms, meanArr, bind, Except.bind] at h

/-- Both motions times `c`: what the intensity scores become. -/
theorem d1234_common {sp : SigProc} {c : ℝ} (hc : c ≠ 0) (hs : Homogeneous c sp) {x y : Rec ℝ} {fmin fmax : Option ℝ} {base : Bool}
    {r : ℝ × ℝ × ℝ × ℝ} (h : d1234 sp x y fmin fmax base = .ok r) :
    ∃ ia ja ie je : ℝ, d1234 sp (scaled c x) (scaled c y) fmin fmax base =
        .ok (r.1, r.2.1, scoreNum (c ^ 2 * ia) (c ^ 2 * ja), scoreNum (c ^ 2 * ie) (c ^ 2 * je)) ∧
      r.2.2.1 = scoreNum ia ja ∧ r.2.2.2 = scoreNum ie je ∧
      ∃ (bm bs am as : Rec ℝ) (iam ias : Rec ℝ × ℝ) (vm vs : Rec ℝ × Rec ℝ) (iem ies : Rec ℝ × ℝ),
        optStep base sp.baseline (trim15 x) = .ok bm ∧ optStep base sp.baseline (trim15 y) = .ok bs ∧
        gofFilter sp fmin fmax bm = .ok am ∧ gofFilter sp fmin fmax bs = .ok as ∧
        gofArias am = .ok iam ∧ gofArias as = .ok ias ∧ numInt am = .ok vm ∧ numInt as = .ok vs ∧
        gofArias vm.1 = .ok iem ∧ gofArias vs.1 = .ok ies ∧ ia = iam.2 ∧ ja = ias.2 ∧ ie = iem.2 ∧ je = ies.2 := by
  obtain ⟨bm, bs, am, as, iam, ias, vm, vs, iem, ies, nam, nas, nem, nes, a, e, s1, s2, h1, h2, h3, h4, h5, h6, h7, h8, h9, h10,
    h11, h12, h13, h14, h15, h16, h17, h18, h19, h20, h21, h22⟩ := d1234_inv h
  refine ⟨iam.2, ias.2, iem.2, ies.2, ?_, h21, h22, bm, bs, am, as, iam, ias, vm, vs, iem, ies, h1, h2, h3, h4, h5, h6, h7, h8, h9, h10, rfl, rfl, rfl, rfl⟩
  have hc2 : c ^ 2 ≠ 0 := pow_ne_zero 2 hc
  unfold d1234
  simp only [scaled_trim, scaled_times, scaled_opt hs.baseline h1, scaled_opt hs.baseline h2, scaled_filter hs h3, scaled_filter hs h4,
    scaled_arias h5, scaled_arias h6, scaled_numInt h7, scaled_numInt h8, scaled_arias h9, scaled_arias h10, scaled_norm hc2 h11,
    scaled_norm hc2 h12, scaled_norm hc2 h13, scaled_norm hc2 h14, h15, h16, h17, h18, h19, h20, bind, Except.bind, pure, Except.pure]

/-- Both motions times `c`: what the RMS scores become. -/
theorem d567_common {sp : SigProc} {c : ℝ} (hc : 0 < c) (hs : Homogeneous c sp) {x y : Rec ℝ} {fmin fmax : Option ℝ} {base : Bool}
    {r : ℝ × ℝ × ℝ} (h : d567 sp x y fmin fmax base = .ok r) :
    ∃ a b v w u z : ℝ, r = (scoreNum a b, scoreNum v w, scoreNum u z) ∧
      d567 sp (scaled c x) (scaled c y) fmin fmax base =
        .ok (scoreNum (c * a) (c * b), scoreNum (c * v) (c * w), scoreNum (c * u) (c * z)) ∧
      ∃ (am as bm bs um us : Rec ℝ) (im is : Rec ℝ × Rec ℝ),
        optStep base (gofFilter sp fmin fmax) (trim15 x) = .ok am ∧ optStep base (gofFilter sp fmin fmax) (trim15 y) = .ok as ∧
        optStep base sp.baseline am = .ok bm ∧ optStep base sp.baseline as = .ok bs ∧ numInt bm = .ok im ∧ numInt bs = .ok is ∧
        optStep base sp.wavelet im.2 = .ok um ∧ optStep base sp.wavelet is.2 = .ok us ∧
        calcRms am = .ok a ∧ calcRms as = .ok b ∧ calcRms im.1 = .ok v ∧ calcRms is.1 = .ok w ∧ calcRms um = .ok u ∧ calcRms us = .ok z := by
  obtain ⟨am, as, ram, ras, bm, bs, im, is, rvm, rvs, um, us, rum, rus, h1, h2, h3, h4, h5, h6, h7, h8, h9, h10, h11, h12, h13, h14,
    h15⟩ := d567_inv h
  refine ⟨ram, ras, rvm, rvs, rum, rus, h15, ?_, am, as, bm, bs, um, us, im, is, h1, h2, h5, h6, h7, h8, h11, h12, h3, h4, h9, h10, h13, h14⟩
  obtain ⟨p1, hp1⟩ := absPeak_scaled c am (calcRms_ne h3)
  obtain ⟨p2, hp2⟩ := absPeak_scaled c as (calcRms_ne h4)
  unfold d567
  simp only [scaled_trim, scaled_opt (fun x y h => scaled_filter hs h) h1, scaled_opt (fun x y h => scaled_filter hs h) h2, hp1, hp2,
    scaled_rms hc.le h3, scaled_rms hc.le h4, scaled_opt hs.baseline h5, scaled_opt hs.baseline h6, scaled_numInt h7, scaled_numInt h8,
    scaled_rms hc.le h9, scaled_rms hc.le h10, scaled_opt hs.wavelet h11, scaled_opt hs.wavelet h12, scaled_rms hc.le h13, scaled_rms hc.le h14,
    bind, Except.bind, pure, Except.pure]

theorem hasDt_scaled (c : ℝ) (x : Rec ℝ) : hasDt (scaled c x) = hasDt x := by unfold hasDt; rw [scaled_dt]

theorem scaled_length (c : ℝ) (x : Rec ℝ) : (scaled c x).length = x.length := by unfold scaled; simp

/-- C211: the cross-correlation score of two motions does not change when both are multiplied by the same factor. -/
theorem C211_d10 {sp : SigProc} {c : ℝ} (hc : 0 < c) (hs : Homogeneous c sp) {x y : Rec ℝ} {fmin fmax : Option ℝ} {base : Bool} {r : ℝ}
    (h : d10 sp x y fmin fmax base = .ok r) : d10 sp (scaled c x) (scaled c y) fmin fmax base = .ok r := by
  unfold d10 at h ⊢
  simp only [bind, Except.bind] at h ⊢
  cases h1 : optStep base sp.baseline x with
  | error e => rw [h1] at h; cases h
  | ok m =>
  rw [h1] at h; simp only at h
  cases h2 : optStep base sp.baseline y with
  | error e => rw [h2] at h; cases h
  | ok s =>
  rw [h2] at h; simp only at h
  rw [scaled_opt hs.baseline h1, scaled_opt hs.baseline h2]; simp only [hasDt_scaled, scaled_length]
  cases h3 : hasDt m with
  | error e => rw [h3] at h; cases h
  | ok d1 =>
  cases h4 : hasDt s with
  | error e => rw [h3, h4] at h; cases h
  | ok d2 =>
  rw [h3, h4] at h; simp only at h ⊢
  cases h5 : gofRange fmin fmax with
  | error e => rw [h5] at h; cases h
  | ok f =>
  rw [h5] at h; simp only at h ⊢
  by_cases hl : m.length ≠ s.length
  · rw [if_pos hl] at h; cases h
  rw [if_neg hl] at h ⊢
  simp only [scaled_vals] at h ⊢
  set a1 := m.map Prod.snd with ha1
  set a2 := s.map Prod.snd with ha2
  have es : ∀ l : List ℝ, ((l.map (c * ·)).map fun z => z * z).sum = c ^ 2 * (l.map fun z => z * z).sum := by
    intro l
    rw [← sum_map_mul]
    rw [List.map_map, List.map_map]
    congr 1
    apply List.map_congr_left
    intro z _; simp only [Function.comp]; ring
  have en : (List.zipWith (· * ·) (a1.map (c * ·)) (a2.map (c * ·))).sum = c ^ 2 * (List.zipWith (· * ·) a1 a2).sum := by
    rw [← sum_map_mul, List.map_zipWith, List.zipWith_map]
    congr 2
    funext u v; ring
  rw [es, es, en]
  have hc2 : 0 < c ^ 2 := by positivity
  set N := (List.zipWith (· * ·) a1 a2).sum
  set E1 := (a1.map fun z => z * z).sum
  set E2 := (a2.map fun z => z * z).sum
  have q1 : (c ^ 2 * E1 * d1 < 0 ∨ c ^ 2 * E2 * d2 < 0) ↔ (E1 * d1 < 0 ∨ E2 * d2 < 0) := by
    have : ∀ E d : ℝ, c ^ 2 * E * d < 0 ↔ E * d < 0 := by
      intro E d
      rw [mul_assoc]
      constructor
      · intro h; by_contra h'; push Not at h'; exact absurd h (not_lt.2 (mul_nonneg hc2.le h'))
      · intro h; exact mul_neg_of_pos_of_neg hc2 h
    rw [this, this]
  by_cases hneg : E1 * d1 < 0 ∨ E2 * d2 < 0
  · rw [if_pos hneg] at h; cases h
  rw [if_neg hneg] at h
  rw [if_neg (fun h' => hneg (q1.1 h'))]
  have eD : √(c ^ 2 * E1 * d1) * √(c ^ 2 * E2 * d2) = c ^ 2 * (√(E1 * d1) * √(E2 * d2)) := by
    rw [mul_assoc, mul_assoc, Real.sqrt_mul hc2.le, Real.sqrt_mul hc2.le, Real.sqrt_sq hc.le]; ring
  rw [eD]
  by_cases hz : √(E1 * d1) * √(E2 * d2) = 0 ∨ N * d1 = 0
  · rw [if_pos hz] at h; cases h
  rw [if_neg hz] at h
  push Not at hz
  rw [if_neg (by
    push Not
    exact ⟨mul_ne_zero hc2.ne' hz.1, by rw [mul_assoc]; exact mul_ne_zero hc2.ne' hz.2⟩)]
  rw [← h, mul_assoc (c ^ 2), mul_div_mul_left _ _ hc2.ne']

/-- C211, intensities (scores 1-4): the scores of the shapes of the intensity curves do not change when both motions are multiplied by the same
factor; those of the final values do not change if the values are above the absolute thresholds 1e-12 and 2.2e-16 of the score. -/
theorem C211_d1234_partial {sp : SigProc} {c : ℝ} (hc : 0 < c) (hs : Homogeneous c sp) {x y : Rec ℝ} {fmin fmax : Option ℝ} {base : Bool}
    {r : ℝ × ℝ × ℝ × ℝ} (h : d1234 sp x y fmin fmax base = .ok r) :
    ∃ r', d1234 sp (scaled c x) (scaled c y) fmin fmax base = .ok r' ∧ r'.1 = r.1 ∧ r'.2.1 = r.2.1 ∧
      ((∀ bm bs am as iam ias, optStep base sp.baseline (trim15 x) = .ok bm → optStep base sp.baseline (trim15 y) = .ok bs →
          gofFilter sp fmin fmax bm = .ok am → gofFilter sp fmin fmax bs = .ok as → gofArias am = .ok iam → gofArias as = .ok ias →
          AboveThresholds (c ^ 2) iam.2 ias.2 ∧
          ∀ vm vs iem ies, numInt am = .ok vm → numInt as = .ok vs → gofArias vm.1 = .ok iem → gofArias vs.1 = .ok ies →
            AboveThresholds (c ^ 2) iem.2 ies.2) → r' = r) := by
  obtain ⟨ia, ja, ie, je, e, e1, e2, bm, bs, am, as, iam, ias, vm, vs, iem, ies, h1, h2, h3, h4, h5, h6, h7, h8, h9, h10, rfl, rfl, rfl, rfl⟩ :=
    d1234_common hc.ne' hs h
  refine ⟨_, e, rfl, rfl, fun ht => ?_⟩
  obtain ⟨t1, t2⟩ := ht bm bs am as iam ias h1 h2 h3 h4 h5 h6
  have t3 := t2 vm vs iem ies h7 h8 h9 h10
  rw [scoreNum_common (by positivity) t1, scoreNum_common (by positivity) t3, ← e1, ← e2]

/-- C211, root mean squares (scores 5-7): no change if the values are above the thresholds. -/
theorem C211_d567_partial {sp : SigProc} {c : ℝ} (hc : 0 < c) (hs : Homogeneous c sp) {x y : Rec ℝ} {fmin fmax : Option ℝ} {base : Bool}
    {r : ℝ × ℝ × ℝ} (h : d567 sp x y fmin fmax base = .ok r)
    (ht : ∀ am as bm bs um us im is a b v w u z,
        optStep base (gofFilter sp fmin fmax) (trim15 x) = .ok am → optStep base (gofFilter sp fmin fmax) (trim15 y) = .ok as →
        optStep base sp.baseline am = .ok bm → optStep base sp.baseline as = .ok bs → numInt bm = .ok im → numInt bs = .ok is →
        optStep base sp.wavelet im.2 = .ok um → optStep base sp.wavelet is.2 = .ok us →
        calcRms am = .ok a → calcRms as = .ok b → calcRms im.1 = .ok v → calcRms is.1 = .ok w → calcRms um = .ok u → calcRms us = .ok z →
        AboveThresholds c a b ∧ AboveThresholds c v w ∧ AboveThresholds c u z) :
    d567 sp (scaled c x) (scaled c y) fmin fmax base = .ok r := by
  obtain ⟨a, b, v, w, u, z, e, e', am, as, bm, bs, um, us, im, is, h1, h2, h3, h4, h5, h6, h7, h8, h9, h10, h11, h12, h13, h14⟩ := d567_common hc hs h
  obtain ⟨t1, t2, t3⟩ := ht am as bm bs um us im is a b v w u z h1 h2 h3 h4 h5 h6 h7 h8 h9 h10 h11 h12 h13 h14
  rw [e', scoreNum_common hc t1, scoreNum_common hc t2, scoreNum_common hc t3, e]

theorem scoreArr_common {c : ℝ} (hc : 0 < c) (l m : List ℝ) (h : ∀ p ∈ l, ∀ q ∈ m, AboveThresholds c p q) :
    (scoreArr (l.map (c * ·)) (m.map (c * ·))).1 = (scoreArr l m).1 := by
  have len : ∀ z : List ℝ, (clampArr z).length = z.length := by intro z; unfold clampArr; simp
  by_cases hl : l.length = m.length
  · have e : ∀ a b : List ℝ, a.length = b.length → (scoreArr a b).1 = .ok (List.zipWith scoreNum a b) := by
      intro a b hab
      have : ∃ z, (scoreArr a b).1 = .ok z := by
        unfold scoreArr
        simp only [len, hab, if_true]
        exact ⟨_, rfl⟩
      obtain ⟨z, hz⟩ := this
      rw [hz, scoreArr_inv _ _ _ hz]
    rw [e _ _ (by simpa using hl), e _ _ hl]
    congr 1
    rw [List.zipWith_map]
    apply List.ext_getElem (by simp)
    intro i h1 h2
    simp only [List.getElem_zipWith]
    exact scoreNum_common hc (h _ (List.getElem_mem _) _ (List.getElem_mem _))
  · unfold scoreArr
    simp only [len, List.length_map]
    rw [if_neg hl, if_neg hl]

/-- C211, spectra (scores 8 and 9): no change if the values are above the thresholds. -/
theorem C211_d89_partial {sp : SigProc} {c : ℝ} (hc : 0 < c) (hs : Homogeneous c sp) {x y : Rec ℝ} {fmin fmax : Option ℝ} {base : Bool}
    {r : ℝ × ℝ} (h : d89 sp x y fmin fmax base = .ok r)
    (ht : ∀ m s m' s', optStep base sp.baseline x = .ok m → optStep base sp.baseline m = .ok m' →
      optStep base sp.baseline y = .ok s → optStep base sp.baseline s = .ok s' →
      (∀ a b q q', sp.spectrum a b m' = .ok q → sp.spectrum a b s' = .ok q' → ∀ u ∈ q.2, ∀ v ∈ q'.2, AboveThresholds c u v) ∧
      ∀ fm fs sm ss, sp.fourier m' = .ok fm → sp.fourier s' = .ok fs → sp.smooth fm = .ok sm → sp.smooth fs = .ok ss →
        ∀ u ∈ sm, ∀ v ∈ ss, AboveThresholds c u v) :
    d89 sp (scaled c x) (scaled c y) fmin fmax base = .ok r := by
  unfold d89 at h ⊢
  simp only [bind, Except.bind] at h ⊢
  cases h1 : optStep base sp.baseline x with
  | error e => rw [h1] at h; cases h
  | ok m =>
  cases h2 : optStep base sp.baseline y with
  | error e => rw [h1, h2] at h; cases h
  | ok s =>
  rw [h1, h2] at h; rw [scaled_opt hs.baseline h1, scaled_opt hs.baseline h2]; simp only [hasDt_scaled] at h ⊢
  cases h3 : hasDt m with
  | error e => rw [h3] at h; cases h
  | ok d1 =>
  cases h4 : hasDt s with
  | error e => rw [h3, h4] at h; cases h
  | ok d2 =>
  rw [h3, h4] at h; simp only at h ⊢
  cases h5 : gofRange fmin fmax with
  | error e => rw [h5] at h; cases h
  | ok f =>
  rw [h5] at h; simp only at h ⊢
  cases h6 : optStep base sp.baseline m with
  | error e => rw [h6] at h; cases h
  | ok m' =>
  cases h7 : optStep base sp.baseline s with
  | error e => rw [h6, h7] at h; cases h
  | ok s' =>
  rw [h6, h7] at h; rw [scaled_opt hs.baseline h6, scaled_opt hs.baseline h7]; simp only at h ⊢
  obtain ⟨ht1, ht2⟩ := ht m s m' s' h1 h6 h2 h7
  by_cases hz : f.1 = 0 ∨ f.2 = 0
  · rw [if_pos hz] at h; cases h
  rw [if_neg hz] at h ⊢
  cases h8 : sp.spectrum (min (1 / f.2) (1 / 100)) (max (1 / f.1) 5) m' with
  | error e => rw [h8] at h; cases h
  | ok rm =>
  cases h9 : sp.spectrum (min (1 / f.2) (1 / 100)) (max (1 / f.1) 5) s' with
  | error e => rw [h8, h9] at h; cases h
  | ok rs =>
  rw [h8, h9] at h; rw [hs.spectrum _ _ _ _ h8, hs.spectrum _ _ _ _ h9]; simp only at h ⊢
  cases h10 : firstGe rm.1 (1 / f.2) with
  | error e => rw [h10] at h; cases h
  | ok i1 =>
  rw [h10] at h; simp only at h ⊢
  cases h11 : lastLe rm.1 (1 / f.1) with
  | error e => rw [h11] at h; cases h
  | ok i2 =>
  rw [h11] at h; simp only at h ⊢
  cases h12 : sp.fourier m' with
  | error e => rw [h12] at h; cases h
  | ok fm =>
  cases h13 : sp.fourier s' with
  | error e => rw [h12, h13] at h; cases h
  | ok fs =>
  rw [h12, h13] at h; rw [hs.fourier _ _ h12, hs.fourier _ _ h13]; simp only at h ⊢
  cases h14 : sp.smooth fm with
  | error e => rw [h14] at h; cases h
  | ok sm =>
  cases h15 : sp.smooth fs with
  | error e => rw [h14, h15] at h; cases h
  | ok ss =>
  rw [h14, h15] at h; rw [hs.smooth _ _ h14, hs.smooth _ _ h15]; simp only [scaled_times] at h ⊢
  rw [← h]
  have e8 : (scoreArr ((List.take i2 (rm.2.map (c * ·))).drop i1) ((List.take i2 (rs.2.map (c * ·))).drop i1)).1 =
      (scoreArr ((rm.2.take i2).drop i1) ((rs.2.take i2).drop i1)).1 := by
    rw [← List.map_take, ← List.map_drop, ← List.map_take, ← List.map_drop]
    refine scoreArr_common hc _ _ fun p hp q hq => ?_
    exact ht1 _ _ _ _ h8 h9 p (List.mem_of_mem_take (List.mem_of_mem_drop hp)) q (List.mem_of_mem_take (List.mem_of_mem_drop hq))
  have e9 : ∀ j j' : Nat, (scoreArr ((List.take j (sm.map (c * ·))).drop j') ((List.take j (ss.map (c * ·))).drop j')).1 =
      (scoreArr ((sm.take j).drop j') ((ss.take j).drop j')).1 := by
    intro j j'
    rw [← List.map_take, ← List.map_drop, ← List.map_take, ← List.map_drop]
    refine scoreArr_common hc _ _ fun p hp q hq => ?_
    exact ht2 _ _ _ _ h12 h13 h14 h15 p (List.mem_of_mem_take (List.mem_of_mem_drop hp)) q (List.mem_of_mem_take (List.mem_of_mem_drop hq))
  simp only [e8, e9]

/-- C211 is violated: multiplied by a small enough factor, any two motions get perfect RMS scores and any two final intensities
perfect scores, because of the absolute thresholds. -/
theorem C211_violated {sp : SigProc} (hs : ∀ c, 0 < c → Homogeneous c sp) {x y : Rec ℝ} {fmin fmax : Option ℝ} {base : Bool}
    {r : ℝ × ℝ × ℝ} {q : ℝ × ℝ × ℝ × ℝ} (h : d567 sp x y fmin fmax base = .ok r) (h' : d1234 sp x y fmin fmax base = .ok q) :
    ∃ c0 > 0, ∀ c, 0 < c → c ≤ c0 → d567 sp (scaled c x) (scaled c y) fmin fmax base = .ok (0, 0, 0) ∧
      d1234 sp (scaled c x) (scaled c y) fmin fmax base = .ok (q.1, q.2.1, 0, 0) := by
  obtain ⟨bm, bs, am, as, iam, ias, vm, vs, iem, ies, nam, nas, nem, nes, g, e, s1, s2, a1, a2, a3, a4, a5, a6, a7, a8, a9, a10, -⟩ := d1234_inv h'
  obtain ⟨am', as', ram, ras, bm', bs', im, is, rvm, rvs, um, us, rum, rus, h1, h2, h3, h4, h5, h6, h7, h8, h9, h10, h11, h12, h13, h14,
    h15⟩ := d567_inv h
  set S := |ram| + |ras| + |rvm| + |rvs| + |rum| + |rus| + |iam.2| + |ias.2| + |iem.2| + |ies.2| + 1 with hS
  have n : ∀ v : ℝ, 0 ≤ |v| := abs_nonneg
  have S1 : 1 ≤ S := by have := n ram; have := n ras; have := n rvm; have := n rvs; have := n rum; have := n rus; have := n iam.2; have := n ias.2; have := n iem.2; have := n ies.2; linarith
  refine ⟨1 / 2 ^ 52 / S, by positivity, fun c hc hle => ?_⟩
  have hcS : c * S ≤ 1 / 2 ^ 52 := by rwa [le_div_iff₀ (by linarith)] at hle
  have c1 : c ≤ 1 := le_trans hle (by rw [div_le_one (by linarith)]; refine le_trans ?_ S1; norm_num)
  have small : ∀ v : ℝ, |v| ≤ S → c * v ≤ 1 / 2 ^ 52 := fun v hv =>
    le_trans (mul_le_mul_of_nonneg_left (le_trans (le_abs_self v) hv) hc.le) hcS
  have small2 : ∀ v : ℝ, |v| ≤ S → c ^ 2 * v ≤ 1 / 2 ^ 52 := by
    intro v hv
    have : c ^ 2 * |v| ≤ c * S := by
      rw [pow_two, mul_assoc]
      exact mul_le_mul_of_nonneg_left (le_trans (mul_le_of_le_one_left (abs_nonneg v) c1) hv) hc.le
    have hv2 : c ^ 2 * v ≤ c ^ 2 * |v| := mul_le_mul_of_nonneg_left (le_abs_self v) (by positivity)
    linarith
  have b1 := n ram
  have b2 := n ras
  have b3 := n rvm
  have b4 := n rvs
  have b5 := n rum
  have b6 := n rus
  have b7 := n iam.2
  have b8 := n ias.2
  have b9 := n iem.2
  have b10 := n ies.2
  constructor
  · obtain ⟨a, b, v, w, u, z, e, e', am2, as2, bm2, bs2, um2, us2, im2, is2, k1, k2, k3, k4, k5, k6, k7, k8, k9, k10, k11, k12, k13, k14⟩ :=
      d567_common hc (hs c hc) h
    cases Except.ok.inj (h1.symm.trans k1)
    cases Except.ok.inj (h2.symm.trans k2)
    cases Except.ok.inj (h5.symm.trans k3)
    cases Except.ok.inj (h6.symm.trans k4)
    cases Except.ok.inj (h7.symm.trans k5)
    cases Except.ok.inj (h8.symm.trans k6)
    cases Except.ok.inj (h11.symm.trans k7)
    cases Except.ok.inj (h12.symm.trans k8)
    cases Except.ok.inj (h3.symm.trans k9)
    cases Except.ok.inj (h4.symm.trans k10)
    cases Except.ok.inj (h9.symm.trans k11)
    cases Except.ok.inj (h10.symm.trans k12)
    cases Except.ok.inj (h13.symm.trans k13)
    cases Except.ok.inj (h14.symm.trans k14)
    rw [e', scoreNum_tiny (small _ (by linarith)) (small _ (by linarith)), scoreNum_tiny (small _ (by linarith)) (small _ (by linarith)),
      scoreNum_tiny (small _ (by linarith)) (small _ (by linarith))]
  · obtain ⟨ia, ja, ie, je, e, e1, e2, bm2, bs2, am2, as2, iam2, ias2, vm2, vs2, iem2, ies2, k1, k2, k3, k4, k5, k6, k7, k8, k9, k10, rfl, rfl, rfl, rfl⟩ :=
      d1234_common hc.ne' (hs c hc) h'
    cases Except.ok.inj (a1.symm.trans k1)
    cases Except.ok.inj (a2.symm.trans k2)
    cases Except.ok.inj (a3.symm.trans k3)
    cases Except.ok.inj (a4.symm.trans k4)
    cases Except.ok.inj (a5.symm.trans k5)
    cases Except.ok.inj (a6.symm.trans k6)
    cases Except.ok.inj (a7.symm.trans k7)
    cases Except.ok.inj (a8.symm.trans k8)
    cases Except.ok.inj (a9.symm.trans k9)
    cases Except.ok.inj (a10.symm.trans k10)
    rw [e, scoreNum_tiny (small2 _ (by linarith)) (small2 _ (by linarith)), scoreNum_tiny (small2 _ (by linarith)) (small2 _ (by linarith))]

/-- C211 for the signal processing of the package: cross correlation. -/
theorem C211_package (design : Design ℝ) (w g : List ℝ) (hw : w ≠ []) (hg : g ≠ []) (he : w.length % 2 = 0) (hge : g.length % 2 = 0) (c : ℝ)
    (hc : 0 < c) (x y : Rec ℝ) (fmin fmax : Option ℝ) (base : Bool) (r : ℝ) (h : d10 (gofProc design w g) x y fmin fmax base = .ok r) :
    d10 (gofProc design w g) (scaled c x) (scaled c y) fmin fmax base = .ok r :=
  C211_d10 hc (C129_homogeneous design w g hw hg he hge c hc) h

/-- C211, for the signal processing of the package: the shapes of the intensity curves (scores 1 and 2). -/
theorem C211_shapes (design : Design ℝ) (w g : List ℝ) (hw : w ≠ []) (hg : g ≠ []) (he : w.length % 2 = 0) (hge : g.length % 2 = 0) (c : ℝ)
    (hc : 0 < c) (x y : Rec ℝ) (fmin fmax : Option ℝ) (base : Bool) (r : ℝ × ℝ × ℝ × ℝ)
    (h : d1234 (gofProc design w g) x y fmin fmax base = .ok r) :
    ∃ r', d1234 (gofProc design w g) (scaled c x) (scaled c y) fmin fmax base = .ok r' ∧ r'.1 = r.1 ∧ r'.2.1 = r.2.1 := by
  obtain ⟨r', h1, h2, h3, -⟩ := C211_d1234_partial hc (C129_homogeneous design w g hw hg he hge c hc) h
  exact ⟨r', h1, h2, h3⟩

/-- A measured value 3 and a simulated value 4 get the same score in units a hundred times smaller. -/
example : scoreNum (100 * 3) (100 * 4) = scoreNum 3 4 ∧ scoreNum 3 4 ≠ 0 := by
  refine ⟨scoreNum_common (by norm_num) ⟨by norm_num, by norm_num, by norm_num, by norm_num⟩, ?_⟩
  intro h
  have := (C55_sign 3 4).1.mp h
  unfold Spec.seen at this
  norm_num at this

end Verif
