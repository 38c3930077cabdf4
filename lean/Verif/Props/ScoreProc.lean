import Verif.Model.ScoreProc
import Verif.Props.ScoresScale
import Verif.Props.Baseline
import Verif.Props.Spectrum
import Verif.Props.SineSmooth
import Verif.Props.Wavelet
import Verif.Props.MotionObj
import Verif.Props.Oscillator

/-!
Property C129: the scores with the signal processing of the package; a simulation which is the measurement times a
factor.
-/

set_option linter.unusedSectionVars false
set_option linter.unusedVariables false

namespace Verif

open Spec (times vals scaled Homogeneous halfWidth)

theorem scaled_diff (c : ℝ) (l : List ℝ) : diff (l.map (c * ·)) = (diff l).map (c * ·) := by
  induction l with
  | nil => rfl
  | cons a l ih =>
    cases l with
    | nil => rfl
    | cons b l =>
      simp only [List.map_cons, diff] at ih ⊢
      rw [ih]
      simp only [List.cons.injEq, and_true]
      ring

theorem scaled_colStack {c : ℝ} {t v : List ℝ} {y : Rec ℝ} (h : colStack t v = .ok y) :
    colStack t (v.map (c * ·)) = .ok (scaled c y) := by
  unfold colStack at h ⊢
  rw [List.length_map]
  by_cases hl : t.length = v.length
  · rw [if_neg (not_not.2 hl)] at h ⊢
    cases h
    rw [scaled_zip]
  · rw [if_pos hl] at h; cases h

theorem scaled_numDiff {c : ℝ} {x y : Rec ℝ} (h : numDiff x = .ok y) : numDiff (scaled c x) = .ok (scaled c y) := by
  unfold numDiff at h ⊢
  rw [scaled_times, scaled_vals]
  simp only at h ⊢
  by_cases h0 : (0 : ℝ) ∈ diff (x.map Prod.fst)
  · rw [if_pos h0] at h; cases h
  · rw [if_neg h0] at h ⊢
    have := scaled_colStack (c := c) h
    rw [List.map_cons, mul_zero, List.map_zipWith] at this
    rw [scaled_diff, List.zipWith_map_left, ← this]
    congr 3
    funext a b
    ring

theorem scaled_trend {c : ℝ} {x y : Rec ℝ} (h : removeTrend x = .ok y) : removeTrend (scaled c x) = .ok (scaled c y) := by
  unfold removeTrend at h ⊢
  have e : lineFit (scaled c x) = (lineFit x).map (fun f => (c * f.1, c * f.2)) := lineFit_scale c x
  rw [e]
  cases hf : lineFit x with
  | error e => rw [hf] at h; cases h
  | ok f =>
    rw [hf] at h
    simp only [bind, Except.bind, Except.map] at h ⊢
    have := scaled_colStack (c := c) h
    rw [scaled_times, ← this, List.map_map]
    unfold scaled
    rw [List.map_map]
    congr 1
    refine List.map_congr_left fun p _ => ?_
    simp only [Function.comp]
    ring

/-- Baseline correction of a positive multiple, whatever the time axis. -/
theorem C129_baseline (design : Design ℝ) (cutoff c : ℝ) (hc : 0 < c) (x y : Rec ℝ)
    (h : baselineCorrect design cutoff x = .ok y) : baselineCorrect design cutoff (scaled c x) = .ok (scaled c y) := by
  unfold baselineCorrect at h ⊢
  have hb : baseFiltered design cutoff (scaled c x) = (baseFiltered design cutoff x).map (scaleRec c) :=
    baseFiltered_scale design cutoff c hc x
  rw [hb]
  cases h1 : baseFiltered design cutoff x with
  | error e => rw [h1] at h; cases h
  | ok an =>
  rw [h1] at h
  simp only [bind, Except.bind, Except.map] at h ⊢
  cases h2 : numInt an with
  | error e => rw [h2] at h; cases h
  | ok vu =>
  rw [h2] at h
  have e2 : numInt (scaleRec c an) = .ok (scaled c vu.1, scaled c vu.2) := scaled_numInt h2
  rw [e2]
  simp only at h ⊢
  cases h3 : removeTrend vu.2 with
  | error e => rw [h3] at h; cases h
  | ok u2 =>
  rw [h3] at h
  rw [scaled_trend h3]
  simp only at h ⊢
  cases h4 : numDiff u2 with
  | error e => rw [h4] at h; cases h
  | ok v2 =>
  rw [h4] at h
  rw [scaled_numDiff h4]
  simp only at h ⊢
  exact scaled_numDiff h

/-- Filtering of a multiple. -/
theorem scaled_filterKernel (design : Design ℝ) (n : Nat) (ft : FType) (cut : Cut ℝ) (c : ℝ) (x y : Rec ℝ)
    (h : filterKernel design n ft cut x = .ok y) : filterKernel design n ft cut (scaled c x) = .ok (scaled c y) := by
  rcases uses_filterKernel design n ft cut (times x) with ⟨e, he⟩ | ⟨sos, hs⟩
  · rw [he x rfl] at h; cases h
  · have hy := (Except.ok.inj ((hs x rfl).symm.trans h)).symm
    have e1 : times (scaled c x) = times x := scaled_times c x
    have e2 : vals (scaled c x) = (vals x).map (c * ·) := scaled_vals c x
    rw [hs _ e1, hy, scaled_zip, e1, e2, sosfilt_smul]

theorem scaled_gofFourier {c : ℝ} (hc : 0 ≤ c) {x y : Rec ℝ} (h : gofFourier x = .ok y) :
    gofFourier (scaled c x) = .ok (scaled c y) := by
  unfold gofFourier at h ⊢
  cases hf : fourierTransform true false x with
  | error e => rw [hf] at h; cases h
  | ok r =>
  rw [hf] at h
  simp only [bind, Except.bind, pure, Except.pure] at h
  cases h
  obtain ⟨dt, hd, h0, hl, hr⟩ := C105_values_partial _ _ x r hf
  cases hf' : fourierTransform true false (scaled c x) with
  | error e =>
    unfold fourierTransform at hf'
    rw [scaled_dt, hd] at hf'
    simp only [bind, Except.bind, if_neg h0] at hf'
    cases hf'
  | ok r' =>
  obtain ⟨dt', hd', h0', hl', hr'⟩ := C105_values_partial _ _ _ r' hf'
  rw [scaled_dt, hd] at hd'
  cases hd'
  simp only [bind, Except.bind, pure, Except.pure]
  congr 1
  have hlen : r'.length = r.length := by rw [hl, hl']; unfold scaled; rw [List.length_map]
  refine List.ext_getElem? fun k => ?_
  unfold scaled
  rw [List.getElem?_map, List.getElem?_map, List.getElem?_map]
  by_cases hk : k < r.length
  · have hk' := hr' k (by omega)
    rw [hr k hk, hk']
    have e2 : (scaled c x).map Prod.snd = (x.map Prod.snd).map (c * ·) := scaled_vals c x
    have e3 : (scaled c x).length = x.length := by unfold scaled; rw [List.length_map]
    rw [e2, e3, coeff_scale]
    simp [abs_of_nonneg hc]
  · rw [List.getElem?_eq_none (by omega), List.getElem?_eq_none (by omega)]
    rfl

theorem scaled_gofSpectrum {c : ℝ} (hc : 0 ≤ c) {a b : ℝ} {x : Rec ℝ} {r : List ℝ × List ℝ} (h : gofSpectrum a b x = .ok r) :
    gofSpectrum a b (scaled c x) = .ok (r.1, r.2.map (c * ·)) := by
  unfold gofSpectrum at h ⊢
  by_cases h0 : a ≤ 0 ∨ b ≤ 0
  · rw [if_pos h0] at h; cases h
  rw [if_neg h0] at h ⊢
  cases hs : responseSpectraR (1 / 20) (logspace a b 100) 1 x with
  | error e => rw [hs] at h; cases h
  | ok rows =>
  rw [hs] at h
  simp only [bind, Except.bind, pure, Except.pure] at h
  cases h
  have e : responseSpectraR (1 / 20) (logspace a b 100) 1 (scaled c x) = _ := C26_scaling _ _ _ _ x c rows hs
  rw [e]
  simp only [bind, Except.bind, pure, Except.pure, List.map_map, abs_of_nonneg hc]
  rfl

theorem subsample_self {α : Type} (l : List α) : subsample 1 l = l := by
  unfold subsample
  simp only [Nat.sub_self, Nat.add_zero, Nat.div_one, Nat.mul_one]
  induction l using List.reverseRecOn with
  | nil => rfl
  | append_singleton l a ih =>
    rw [List.length_append, List.length_singleton, List.range_succ, List.filterMap_append]
    congr 1
    · conv_rhs => rw [← ih]
      refine List.filterMap_congr fun i hi => ?_
      rw [List.getElem?_append_left (List.mem_range.1 hi)]
    · simp

/-- The response spectrum used by the scores: at each period the largest absolute total acceleration of the oscillator of that
period with 5% damping, driven by the motion. -/
theorem C129_spectrum {a b : ℝ} {x : Rec ℝ} {r : List ℝ × List ℝ} (h : gofSpectrum a b x = .ok r) :
    r.2.length = r.1.length ∧ ∃ dt, dtOf x = .ok dt ∧
    ∀ (k : Nat) (T : ℝ), r.1[k]? = some T → 0 < T → 0 < dt →
      ∀ u v : ℝ → ℝ, Spec.Driven (1 / 20) (2 * Real.pi / T) dt (x.map Prod.snd) u v →
      r.2[k]? = some (maxAbs ((List.range x.length).map fun j : Nat =>
        -(2 * (1 / 20) * (2 * Real.pi / T) * v (j * dt)) - (2 * Real.pi / T) ^ 2 * u (j * dt))) := by
  unfold gofSpectrum at h
  by_cases h0 : a ≤ 0 ∨ b ≤ 0
  · rw [if_pos h0] at h; cases h
  rw [if_neg h0] at h
  cases hs : responseSpectraR (1 / 20) (logspace a b 100) 1 x with
  | error e => rw [hs] at h; cases h
  | ok rows =>
  rw [hs] at h
  simp only [bind, Except.bind, pure, Except.pure] at h
  cases h
  obtain ⟨hl, dt, hd, hk⟩ := C28_response (1 / 20) (by norm_num) (by norm_num) _ 1 x rows hs
  rw [subsample_self] at hd hk
  refine ⟨by simpa using hl, dt, hd, ?_⟩
  intro k T hT h1 h2 u v hdr
  obtain ⟨row, hrow, _, _, hsa, _⟩ := hk k T hT h1 h2 u v hdr
  rw [List.getElem?_map, hrow, Option.map_some, hsa]

/-- The signal processing of the package commutes with positive factors. -/
theorem C129_homogeneous (design : Design ℝ) (h g : List ℝ) (hh : h ≠ []) (hg : g ≠ []) (he : h.length % 2 = 0)
    (hge : g.length % 2 = 0) (c : ℝ) (hc : 0 < c) : Homogeneous c (gofProc design h g) where
  baseline x y hy := C129_baseline design _ c hc x y hy
  highpass f x y hy := by
    cases f with
    | none => exact scaled_filterKernel design 4 .highpass .other c x y hy
    | some a => exact scaled_filterKernel design 4 .highpass (.num a) c x y hy
  bandpass f b x y hy := by
    cases f with
    | none => cases hy
    | some a => exact scaled_filterKernel design 4 .bandpass (.pair a b) c x y hy
  wavelet x y hy := C124_scaled h g hh hg he hge 6 c x y hy
  spectrum a b x r hr := scaled_gofSpectrum hc.le hr
  fourier x y hy := scaled_gofFourier hc.le hy
  smooth x l hl := by
    have := C128_scale (3 / 10) c x l hl
    rw [abs_of_pos hc] at this
    exact this

theorem colStack_times {t v : List ℝ} {y : Rec ℝ} (h : colStack t v = .ok y) : y.map Prod.fst = t := by
  unfold colStack at h
  by_cases hl : t.length = v.length
  · rw [if_neg (not_not.2 hl)] at h
    cases h
    exact zip_fst _ _ hl
  · rw [if_pos hl] at h; cases h

theorem numDiff_times {x y : Rec ℝ} (h : numDiff x = .ok y) : y.map Prod.fst = x.map Prod.fst := by
  unfold numDiff at h
  simp only at h
  by_cases h0 : (0 : ℝ) ∈ diff (x.map Prod.fst)
  · rw [if_pos h0] at h; cases h
  · rw [if_neg h0] at h
    exact colStack_times h

/-- The baseline correction keeps the time axis, whatever it is. -/
theorem C129_axis (design : Design ℝ) (cutoff : ℝ) (x y : Rec ℝ)
    (h : baselineCorrect design cutoff x = .ok y) : times y = times x ∧ y.length = x.length := by
  have key : times y = times x := by
    unfold baselineCorrect at h
    cases h1 : baseFiltered design cutoff x with
    | error e => rw [h1] at h; cases h
    | ok an =>
    rw [h1] at h
    simp only [bind, Except.bind] at h
    have t1 : an.map Prod.fst = x.map Prod.fst := by
      unfold baseFiltered at h1
      simp only [bind, Except.bind] at h1
      split at h1
      · cases h1
      split at h1
      · cases h1
      split at h1
      · cases h1
      split at h1
      · cases h1
      split at h1
      · cases h1
      split at h1
      · cases h1
      exact colStack_times h1
    cases h2 : numInt an with
    | error e => rw [h2] at h; cases h
    | ok vu =>
    rw [h2] at h
    simp only at h
    have t2 : vu.2.map Prod.fst = an.map Prod.fst := by
      cases hd : dtOf an with
      | error e => unfold numInt at h2; rw [hd] at h2; cases h2
      | ok d =>
        rw [numInt_ok d an hd] at h2
        cases h2
        refine zip_fst _ _ ?_
        simp [cumsum, cumsumFrom_length, times, vals]
    cases h3 : removeTrend vu.2 with
    | error e => rw [h3] at h; cases h
    | ok u2 =>
    rw [h3] at h
    simp only at h
    have t3 : u2.map Prod.fst = vu.2.map Prod.fst := by
      unfold removeTrend at h3
      cases hf : lineFit vu.2 with
      | error e => rw [hf] at h3; cases h3
      | ok f => rw [hf] at h3; exact colStack_times h3
    cases h4 : numDiff u2 with
    | error e => rw [h4] at h; cases h
    | ok v2 =>
    rw [h4] at h
    simp only at h
    show y.map Prod.fst = x.map Prod.fst
    rw [numDiff_times h, numDiff_times h4, t3, t2, t1]
  refine ⟨key, ?_⟩
  have := congrArg List.length key
  rwa [times_length, times_length] at this

/-- … and keeps the number of samples. -/
theorem C129_samples (design : Design ℝ) (h g : List ℝ) : Spec.KeepsSamples (gofProc design h g) := by
  refine ⟨fun x y hy => ?_, fun f x y hy => ?_, fun f b x y hy => ?_⟩
  · exact (C129_axis design _ x y hy).2
  · cases f with
    | none => exact (C64_axis design 4 .highpass .other x y hy).2
    | some a => exact (C64_axis design 4 .highpass (.num a) x y hy).2
  · cases f with
    | none => cases hy
    | some a => exact (C64_axis design 4 .bandpass (.pair a b) x y hy).2

/-! ### the scores -/

/-- Scores 1 to 4 of a simulation which is the measurement times `c`: the shapes agree, the peaks of the Arias and energy
integrals are off by `c²`. -/
theorem C129_d1234 (design : Design ℝ) (h g : List ℝ) (hh : h ≠ []) (hg : g ≠ []) (he : h.length % 2 = 0)
    (hge : g.length % 2 = 0) (c : ℝ) (hc : 0 < c) (x : Rec ℝ) (fmin fmax : Option ℝ) (base : Bool) (r : ℝ × ℝ × ℝ × ℝ)
    (hr : d1234 (gofProc design h g) x (scaled c x) fmin fmax base = .ok r) :
    r.1 = 0 ∧ r.2.1 = 0 ∧
    ∃ (a : Rec ℝ) (v : Rec ℝ × Rec ℝ) (ia ie : Rec ℝ × ℝ),
      (∃ b, optStep base (baselineCorrect design (1 / 5)) (trim15 x) = .ok b ∧ gofFilter (gofProc design h g) fmin fmax b = .ok a) ∧
      numInt a = .ok v ∧ gofArias a = .ok ia ∧ gofArias v.1 = .ok ie ∧
      (1 / 10 ^ 12 ≤ ia.2 → 1 / 2 ^ 52 ≤ c ^ 2 * ia.2 → r.2.2.1 = erf (c ^ 2 - 1) * 10) ∧
      (1 / 10 ^ 12 ≤ ie.2 → 1 / 2 ^ 52 ≤ c ^ 2 * ie.2 → r.2.2.2 = erf (c ^ 2 - 1) * 10) :=
  C100_d1234 hc (C129_homogeneous design h g hh hg he hge c hc) hr

/-- Scores 5 to 7 of a multiple. -/
theorem C129_d567 (design : Design ℝ) (h g : List ℝ) (hh : h ≠ []) (hg : g ≠ []) (he : h.length % 2 = 0)
    (hge : g.length % 2 = 0) (c : ℝ) (hc : 0 < c) (x : Rec ℝ) (fmin fmax : Option ℝ) (base : Bool) (r : ℝ × ℝ × ℝ)
    (hr : d567 (gofProc design h g) x (scaled c x) fmin fmax base = .ok r) :
    ∃ (a b u : Rec ℝ) (i : Rec ℝ × Rec ℝ) (ra rv ru : ℝ),
      optStep base (gofFilter (gofProc design h g) fmin fmax) (trim15 x) = .ok a ∧
      optStep base (baselineCorrect design (1 / 5)) a = .ok b ∧ numInt b = .ok i ∧
      optStep base (baselineWavelet h g 6) i.2 = .ok u ∧ calcRms a = .ok ra ∧ calcRms i.1 = .ok rv ∧ calcRms u = .ok ru ∧
      (1 / 10 ^ 12 ≤ ra → 1 / 2 ^ 52 ≤ c * ra → r.1 = erf (c - 1) * 10) ∧
      (1 / 10 ^ 12 ≤ rv → 1 / 2 ^ 52 ≤ c * rv → r.2.1 = erf (c - 1) * 10) ∧
      (1 / 10 ^ 12 ≤ ru → 1 / 2 ^ 52 ≤ c * ru → r.2.2 = erf (c - 1) * 10) :=
  C100_d567 hc (C129_homogeneous design h g hh hg he hge c hc) hr

/-- The labels of the Fourier spectrum are increasing. -/
theorem gofFourier_sorted {x y : Rec ℝ} {dt : ℝ} (hd : dtOf x = .ok dt) (hdt : 0 < dt) (h : gofFourier x = .ok y) :
    (y.map Prod.fst).Pairwise (· ≤ ·) := by
  unfold gofFourier at h
  cases hf : fourierTransform true false x with
  | error e => rw [hf] at h; cases h
  | ok r =>
  rw [hf] at h
  simp only [bind, Except.bind, pure, Except.pure] at h
  cases h
  obtain ⟨dt', hd', h0, hl, hr⟩ := C105_values_partial _ _ x r hf
  rw [hd] at hd'
  cases hd'
  rw [List.pairwise_iff_getElem]
  intro i j hi hj hij
  simp only [List.length_map] at hi hj
  have e1 := hr i hi
  have e2 := hr j hj
  rw [List.getElem?_eq_getElem hi] at e1
  rw [List.getElem?_eq_getElem hj] at e2
  simp only [List.getElem_map, Option.some.inj e1, Option.some.inj e2]
  have : (0 : ℝ) ≤ (x.length : ℝ) * dt := by positivity
  refine div_le_div_of_nonneg_right ?_ this
  have : (i : ℝ) ≤ j := by exact_mod_cast hij.le
  linarith

theorem optStep_dt {design : Design ℝ} {base : Bool} {x y : Rec ℝ} (h : optStep base (baselineCorrect design (1 / 5)) x = .ok y) :
    dtOf y = dtOf x := by
  unfold optStep at h
  cases base with
  | true => exact dtOf_times (C129_axis design _ x y h).1
  | false => cases h; rfl

/-- Scores 8 and 9 of a multiple, for a measurement with response spectrum and, between `fmin` and `fmax`, smoothed Fourier
amplitudes of at least 1e-12.  Missing: the frequency at which the smoothed spectrum is always zero (`C129_fourier_violated`). -/
theorem C129_d89_partial (design : Design ℝ) (h g : List ℝ) (hh : h ≠ []) (hg : g ≠ []) (he : h.length % 2 = 0)
    (hge : g.length % 2 = 0) (c : ℝ) (hc : 0 < c) (hc2 : 1 / 2 ^ 10 ≤ c) (x : Rec ℝ) (dt lo hi : ℝ) (base : Bool) (r : ℝ × ℝ)
    (hd : dtOf x = .ok dt) (hdt : 0 < dt)
    (hspec : ∀ a b m m' q, optStep base (baselineCorrect design (1 / 5)) x = .ok m →
      optStep base (baselineCorrect design (1 / 5)) m = .ok m' → gofSpectrum a b m' = .ok q → ∀ p ∈ q.2, 1 / 10 ^ 12 ≤ p)
    (hfour : ∀ m m' fm sm, optStep base (baselineCorrect design (1 / 5)) x = .ok m →
      optStep base (baselineCorrect design (1 / 5)) m = .ok m' → gofFourier m' = .ok fm → sineSmooth (3 / 10) fm = .ok sm →
      ∀ (k : Nat) f p, (fm.map Prod.fst)[k]? = some f → sm[k]? = some p → lo ≤ f → f ≤ hi → 1 / 10 ^ 12 ≤ p)
    (hr : d89 (gofProc design h g) x (scaled c x) (some lo) (some hi) base = .ok r) :
    r = (erf (c - 1) * 10, erf (c - 1) * 10) := by
  refine C100_d89 hc hc2 (C129_homogeneous design h g hh hg he hge c hc) hspec ?_ hr
  intro lo' hi' m m' fm sm e1 e2 h1 h2 h3 h4
  cases e1
  cases e2
  refine ⟨gofFourier_sorted (dt := dt) ?_ hdt h3, hfour m m' fm sm h1 h2 h3 h4⟩
  rw [optStep_dt h2, optStep_dt h1, hd]

theorem erf_abs (x : ℝ) : |erf x| = erf |x| := by
  rcases le_total 0 x with h | h
  · rw [abs_of_nonneg h, abs_of_nonneg]
    have := erf_strictMono.monotone h
    rwa [erf_zero] at this
  · rw [abs_of_nonpos h, abs_of_nonpos, erf_neg]
    have := erf_strictMono.monotone h
    rwa [erf_zero] at this

/-- The score of a multiple is never further from 0 than `10 erf |c - 1|`. -/
theorem scoreNum_multiple_le {p c : ℝ} (hc : 0 < c) : |scoreNum p (c * p)| ≤ |erf (c - 1)| * 10 := by
  have he0 : (0 : ℝ) < feps := by unfold feps; norm_num
  have hM : 0 < max p feps := lt_max_of_lt_right he0
  have key : |max (c * p) feps - max p feps| ≤ |c - 1| * max p feps := by
    rcases le_total 1 c with h1 | h1
    · have a1 : max (c * p) feps ≤ c * max p feps :=
        max_le (mul_le_mul_of_nonneg_left (le_max_left _ _) hc.le)
          (by nlinarith [le_max_right p feps])
      have a2 : max p feps ≤ max (c * p) feps := by
        refine max_le ?_ (le_max_right _ _)
        rcases le_total 0 p with hp | hp
        · exact le_trans (by nlinarith) (le_max_left _ _)
        · exact le_trans (by linarith) (le_max_right _ _)
      rw [abs_of_nonneg (by linarith), abs_of_nonneg (by linarith)]
      linarith
    · have a1 : c * max p feps ≤ max (c * p) feps := by
        rw [mul_max_of_nonneg _ _ hc.le]
        exact max_le_max le_rfl (by nlinarith)
      have a2 : max (c * p) feps ≤ max p feps := by
        refine max_le ?_ (le_max_right _ _)
        rcases le_total 0 p with hp | hp
        · exact le_trans (by nlinarith) (le_max_left _ _)
        · exact le_trans (by nlinarith) (le_max_right _ _)
      rw [abs_of_nonpos (by linarith), abs_of_nonpos (by linarith)]
      linarith
  have key2 : |relDiff (max p feps) (max (c * p) feps)| ≤ |c - 1| := by
    unfold relDiff
    split_ifs with h
    · have : eps2 ≤ 1 := by unfold eps2; norm_num
      calc _ ≤ |c - 1| * max p feps := key
        _ ≤ |c - 1| * 1 := mul_le_mul_of_nonneg_left (by linarith) (abs_nonneg _)
        _ = _ := mul_one _
    · rw [abs_div, abs_of_pos hM, div_le_iff₀ hM]
      exact key
  unfold scoreNum
  rw [abs_mul, erf_abs, erf_abs, abs_of_pos (by norm_num : (0 : ℝ) < 10)]
  have := erf_strictMono.monotone key2
  linarith

theorem sum_abs_le (l : List ℝ) (B : ℝ) (hl : ∀ v ∈ l, |v| ≤ B) : |l.sum| ≤ l.length * B := by
  induction l with
  | nil => simp
  | cons a l ih =>
    rw [List.sum_cons, List.length_cons]
    have h1 := hl a (List.mem_cons_self ..)
    have h2 := ih fun v hv => hl v (List.mem_cons_of_mem _ hv)
    have := abs_add_le a l.sum
    push_cast
    linarith

theorem mean_with_zero {l : List ℝ} {B v : ℝ} (hB : 0 < B) (hl : ∀ v ∈ l, |v| ≤ B) (h0 : (0 : ℝ) ∈ l)
    (h : meanArr l = .ok v) : |v| < B := by
  have hne : l ≠ [] := List.ne_nil_of_mem h0
  unfold meanArr at h
  rw [if_neg hne] at h
  cases h
  obtain ⟨s, t, rfl⟩ := List.append_of_mem h0
  have h1 := sum_abs_le s B fun v hv => hl v (List.mem_append_left _ hv)
  have h2 := sum_abs_le t B fun v hv => hl v (List.mem_append_right _ (List.mem_cons_of_mem _ hv))
  have h3 := abs_add_le s.sum t.sum
  have hpos : (0 : ℝ) < ((s ++ 0 :: t).length : ℝ) := by
    rw [List.length_append, List.length_cons]; positivity
  rw [abs_div, abs_of_pos hpos, div_lt_iff₀ hpos, List.sum_append, List.sum_cons, zero_add]
  rw [List.length_append, List.length_cons]
  push_cast
  nlinarith

/-- Score 9 of a multiple is not the score of its factor as soon as the scored range reaches the frequency one window width
below the end of the spectrum (as with the default `fmax`): the smoothed spectra are zero there, which counts as perfect
agreement. -/
theorem C129_fourier_violated (design : Design ℝ) (h g : List ℝ) (hh : h ≠ []) (hg : g ≠ []) (he : h.length % 2 = 0)
    (hge : g.length % 2 = 0) (c : ℝ) (hc : 0 < c) (hc1 : c ≠ 1) (x fm : Rec ℝ) (dt df lo hi f : ℝ) (r : ℝ × ℝ)
    (hd : dtOf x = .ok dt) (hdt : 0 < dt) (hf : gofFourier x = .ok fm) (hdf : dtOf fm = .ok df)
    (hw : 2 ≤ halfWidth (3 / 10) df) (hn : halfWidth (3 / 10) df + 2 ≤ fm.length)
    (hbin : (fm.map Prod.fst)[fm.length - 1 - halfWidth (3 / 10) df]? = some f) (h1 : lo ≤ f) (h2 : f ≤ hi)
    (hr : d89 (gofProc design h g) x (scaled c x) (some lo) (some hi) false = .ok r) :
    |r.2| < |erf (c - 1)| * 10 := by
  obtain ⟨lo', hi', e1, e2, _, T, Sx, Ty, Sy, fx, fy, ax, ay, i1, i2, j1, j2, _, _, k3, k4, k5, k6, _, k8, _, k10⟩ :=
    C96_spectral hr
  cases e1
  cases e2
  cases Except.ok.inj (k3.symm.trans hf)
  have hfy : fy = scaled c fm := Except.ok.inj (k4.symm.trans (scaled_gofFourier hc.le hf))
  subst hfy
  have hay : ay = ax.map (c * ·) := by
    have := C128_scale (3 / 10) c fm ax k5
    rw [abs_of_pos hc] at this
    exact Except.ok.inj (k6.symm.trans this)
  subst hay
  have hz : ax[fm.length - 1 - halfWidth (3 / 10) df]? = some 0 := C128_end_violated (3 / 10) df fm ax hdf k5 hw hn
  have hj := (k10 (gofFourier_sorted hd hdt hf) (scaled_times c fm) _ _ hbin).mpr ⟨h1, h2⟩
  rw [← List.map_take, ← List.map_drop, List.zipWith_map_right, List.zipWith_self] at k8
  refine mean_with_zero ?_ ?_ ?_ k8
  · have : erf (c - 1) ≠ 0 := fun e => hc1 (by have := (erf_eq_zero_iff _).mp e; linarith)
    have := abs_pos.mpr this
    linarith
  · intro v hv
    obtain ⟨p, _, rfl⟩ := List.mem_map.1 hv
    exact scoreNum_multiple_le hc
  · refine List.mem_map.2 ⟨0, ?_, by rw [mul_zero, scoreNum_self]⟩
    refine List.mem_iff_getElem?.2 ⟨fm.length - 1 - halfWidth (3 / 10) df - j1, ?_⟩
    rw [List.getElem?_drop, List.getElem?_take_of_lt (by omega), ← hz]
    congr 1
    omega

/-- A record of 20 s meets the conditions on the window, with a window of 7 steps of 1/20 Hz to each side. -/
example (x : Rec ℝ) (hx : x.length = 200) (hd : dtOf x = .ok (1 / 10)) :
    ∃ fm, gofFourier x = .ok fm ∧ fm.length = 100 ∧ dtOf fm = .ok (1 / 20) ∧ halfWidth (3 / 10) (1 / 20) = 7 := by
  obtain ⟨r, hr⟩ := C105_succeeds true false x (1 / 10) hd (by norm_num)
  obtain ⟨dt, hd', h0, hl, hv⟩ := C105_values_partial _ _ x r hr
  rw [hd] at hd'
  cases hd'
  rw [hx] at hl
  have hl' : r.length = 100 := by rw [hl]; rfl
  refine ⟨r.map fun p => (p.1, p.2.re), by unfold gofFourier; rw [hr]; rfl, by rw [List.length_map, hl'], ?_, ?_⟩
  · match r, hl', hv with
    | p :: q :: rest, _, hv =>
      have a := hv 0 (by simp)
      have b := hv 1 (by simp)
      simp only [List.getElem?_cons_zero, Option.some.injEq] at a
      simp only [List.getElem?_cons_succ, List.getElem?_cons_zero, Option.some.injEq] at b
      simp only [List.map_cons, dtOf, a, b, hx]
      norm_num
  · unfold halfWidth
    have : ⌊(2 : ℝ) / (1.854305 / (3 / 10) * (1 / 20))⌋ = 6 := by
      rw [Int.floor_eq_iff]; norm_num
    rw [this]; rfl

end Verif
