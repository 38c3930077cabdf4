import Verif.Props.Reversal
import Verif.Props.ScoreProc
import Verif.Props.ScoresUnit

/-!
C218, C219: motions in the opposite direction and the signal processing, the baseline correction and the goodness-of-fit scores.
-/

set_option linter.unusedSectionVars false
set_option linter.unusedVariables false

namespace Verif

namespace Spec

/-- No sample is equal to the mean of the first five. -/
def OffMean (v : List ℝ) : Prop := ∀ z ∈ v, 5 * z ≠ (v.take 5).sum

/-- Signal processing whose filters turn the motion in the opposite direction into the opposite answer, and whose spectra are the same for
both directions. -/
structure DirectionFree (sp : SigProc) : Prop where
  highpass : ∀ f x y, sp.highpass f x = .ok y → sp.highpass f (opposite x) = .ok (opposite y)
  bandpass : ∀ f g x y, sp.bandpass f g x = .ok y → sp.bandpass f g (opposite x) = .ok (opposite y)
  wavelet : ∀ x y, sp.wavelet x = .ok y → sp.wavelet (opposite x) = .ok (opposite y)
  spectrum : ∀ a b x r, sp.spectrum a b x = .ok r → sp.spectrum a b (opposite x) = .ok r
  fourier : ∀ x y, sp.fourier x = .ok y → sp.fourier (opposite x) = .ok y

/-- The motion itself or the motion in the opposite direction. -/
def turned (b : Bool) (x : Rec ℝ) : Rec ℝ := if b then opposite x else x

end Spec

open Spec (times vals scaled opposite Uniform OffMean DirectionFree turned)

theorem opposite_scaled (x : Rec ℝ) : opposite x = scaled (-1) x := by simp [opposite, scaled]

/-! ### Signal processing -/

/-- C218, filters: every filter turns the motion in the opposite direction into the opposite answer. -/
theorem C218_filters (design : Design ℝ) (n : Nat) (ft : FType) (cut : Cut ℝ) (x y : Rec ℝ)
    (h : filterKernel design n ft cut x = .ok y) : filterKernel design n ft cut (opposite x) = .ok (opposite y) := by
  rw [opposite_scaled, opposite_scaled]
  exact scaled_filterKernel design n ft cut (-1) x y h

/-- C218, wavelets: so does the baseline correction with wavelets. -/
theorem C218_wavelet (h g : List ℝ) (hh : h ≠ []) (hg : g ≠ []) (he : h.length % 2 = 0) (hge : g.length % 2 = 0) (level : ℕ)
    (x y : Rec ℝ) (hy : baselineWavelet h g level x = .ok y) : baselineWavelet h g level (opposite x) = .ok (opposite y) := by
  rw [opposite_scaled, opposite_scaled]
  exact C124_scaled h g hh hg he hge level (-1) x y hy

/-- C218, Fourier amplitudes: the same for both directions. -/
theorem C218_fourier {x y : Rec ℝ} (h : gofFourier x = .ok y) : gofFourier (opposite x) = .ok y := by
  rw [opposite_scaled]
  unfold gofFourier at h ⊢
  cases hf : fourierTransform true false x with
  | error e => rw [hf] at h; cases h
  | ok r =>
  rw [hf] at h
  simp only [bind, Except.bind, pure, Except.pure] at h
  cases h
  obtain ⟨dt, hd, h0, hl, hr⟩ := C105_values_partial _ _ x r hf
  cases hf' : fourierTransform true false (scaled (-1) x) with
  | error e =>
    unfold fourierTransform at hf'
    rw [scaled_dt, hd] at hf'
    simp only [bind, Except.bind, if_neg h0] at hf'
    cases hf'
  | ok r' =>
  obtain ⟨dt', hd', h0', hl', hr'⟩ := C105_values_partial _ _ _ r' hf'
  rw [scaled_dt, hd] at hd'
  cases hd'
  simp only [bind, Except.bind, pure, Except.pure]
  congr 1
  have hlen : r'.length = r.length := by rw [hl, hl']; unfold scaled; rw [List.length_map]
  refine List.ext_getElem? fun k => ?_
  rw [List.getElem?_map, List.getElem?_map]
  by_cases hk : k < r.length
  · have hk' := hr' k (by omega)
    rw [hr k hk, hk']
    have e2 : (scaled (-1) x).map Prod.snd = (x.map Prod.snd).map (-1 * ·) := scaled_vals (-1) x
    have e3 : (scaled (-1) x).length = x.length := by unfold scaled; rw [List.length_map]
    rw [e2, e3, coeff_scale]
    simp
  · rw [List.getElem?_eq_none (by omega), List.getElem?_eq_none (by omega)]

/-- C218, response spectrum of the scores: the same for both directions. -/
theorem C218_spectrum {a b : ℝ} {x : Rec ℝ} {r : List ℝ × List ℝ} (h : gofSpectrum a b x = .ok r) :
    gofSpectrum a b (opposite x) = .ok r := by
  unfold gofSpectrum at h ⊢
  by_cases h0 : a ≤ 0 ∨ b ≤ 0
  · rw [if_pos h0] at h; cases h
  rw [if_neg h0] at h ⊢
  cases hs : responseSpectraR (1 / 20) (logspace a b 100) 1 x with
  | error e => rw [hs] at h; cases h
  | ok rows =>
  rw [hs] at h
  have e : responseSpectraR (1 / 20) (logspace a b 100) 1 (opposite x) = .ok rows := C216_spectra _ _ _ _ x rows hs
  rw [e]
  exact h

/-! ### Baseline correction -/

theorem flag_neg {z : ℝ} (hz : z ≠ 0) : nonNegFlag (-1 * z) = !nonNegFlag z := by
  unfold nonNegFlag
  rcases lt_or_gt_of_ne hz with h | h
  · simp [h.le, not_le.2 h]
  · simp [h.le, not_le.2 h]

theorem findIdx_neg {a0 : ℝ} (h0 : a0 ≠ 0) : ∀ (l : List ℝ), (∀ z ∈ l, z ≠ 0) →
    ((l.map (-1 * ·)).findIdx? fun x => nonNegFlag x != nonNegFlag (-1 * a0)) = l.findIdx? fun x => nonNegFlag x != nonNegFlag a0
  | [], _ => rfl
  | z :: l, hl => by
    have ih := findIdx_neg h0 l fun z hz => hl z (List.mem_cons_of_mem _ hz)
    have hz := hl z List.mem_cons_self
    rw [List.map_cons, List.findIdx?_cons, List.findIdx?_cons, ih]
    simp only [flag_neg hz, flag_neg h0]
    congr 1
    cases nonNegFlag z <;> cases nonNegFlag a0 <;> rfl

theorem crossLeft_neg (a : List ℝ) (ha : ∀ z ∈ a, z ≠ 0) : crossLeft (a.map (-1 * ·)) = crossLeft a := by
  cases a with
  | nil => rfl
  | cons a0 r =>
    rw [List.map_cons, crossLeft, crossLeft, findIdx_neg (ha a0 List.mem_cons_self) r fun z hz => ha z (List.mem_cons_of_mem _ hz)]

theorem crossRight_neg (a : List ℝ) (ha : ∀ z ∈ a, z ≠ 0) : crossRight (a.map (-1 * ·)) = crossRight a := by
  unfold crossRight
  rw [← List.map_reverse, List.length_map]
  have hr : ∀ z ∈ a.reverse, z ≠ 0 := fun z hz => ha z (List.mem_reverse.1 hz)
  cases hc : a.reverse with
  | nil => rfl
  | cons a0 r =>
    rw [hc] at hr
    rw [List.map_cons]
    dsimp only
    rw [findIdx_neg (hr a0 List.mem_cons_self) r fun z hz => hr z (List.mem_cons_of_mem _ hz)]

theorem padCut_neg (nz : Nat) (a : List ℝ) (ha : ∀ z ∈ a, z ≠ 0) : padCut nz (a.map (-1 * ·)) = (padCut nz a).map (-1 * ·) := by
  unfold padCut
  rw [crossLeft_neg a ha, crossRight_neg a ha]
  simp [List.map_drop, List.map_take]

theorem removeMean_ne {v a : List ℝ} (hv : OffMean v) (h : removeMean v = .ok a) : ∀ z ∈ a, z ≠ 0 := by
  match v, h with
  | x0 :: x1 :: x2 :: x3 :: x4 :: r, h =>
    intro z hz h0
    rw [← Except.ok.inj h] at hz
    obtain ⟨w, hw, rfl⟩ := List.mem_map.1 hz
    refine hv w hw ?_
    simp only [List.take_succ_cons, List.take_zero, List.sum_cons, List.sum_nil]
    linarith

theorem baseFiltered_neg (design : Design ℝ) (cutoff : ℝ) (x : Rec ℝ) (hx : OffMean (vals x)) :
    baseFiltered design cutoff (scaleRec (-1) x) = (baseFiltered design cutoff x).map (scaleRec (-1)) := by
  unfold baseFiltered
  have e1 : dtOf (scaleRec (-1) x) = dtOf x := dtOf_times (times_scaleRec (-1) x)
  have e2 : removeMean ((scaleRec (-1) x).map Prod.snd) = (removeMean (x.map Prod.snd)).map (fun b => b.map (-1 * ·)) := by
    rw [← removeMean_scale]
    exact congrArg removeMean (vals_scaleRec (-1) x)
  have e3 : (scaleRec (-1) x).map Prod.fst = x.map Prod.fst := times_scaleRec (-1) x
  have e4 : (scaleRec (-1) x).length = x.length := by rw [scaleRec, List.length_map]
  rw [e1, e2, e3, e4]
  cases hd : dtOf x with
  | error e => rfl
  | ok dt =>
    cases ha : removeMean (x.map Prod.snd) with
    | error e => rfl
    | ok a =>
      have hz := removeMean_ne hx ha
      simp only [bind, Except.bind, Except.map]
      by_cases h0 : cutoff = 0
      · rw [if_pos h0, if_pos h0]
      rw [if_neg h0, if_neg h0]
      by_cases h1 : dt = 0
      · rw [if_pos h1, if_pos h1]
      rw [if_neg h1, if_neg h1, crossLeft_neg a hz, padCut_neg _ a hz, List.length_map]
      set ac := padCut (nrZpad cutoff dt (crossLeft a)) a
      rw [colStack_eq (linspace_len _ _ _), colStack_eq (by rw [linspace_len, List.length_map])]
      dsimp only
      set tc := linspace dt ((ac.length : ℝ) * dt) ac.length with htc
      have l1 : tc.length = ac.length := linspace_len _ _ _
      have l2 : tc.length = (ac.map (-1 * ·)).length := by rw [l1, List.length_map]
      rcases uses_filterKernel design 4 .highpass (.num cutoff) tc with ⟨e, he⟩ | ⟨sos, hs⟩
      · rw [he _ (zip_fst _ _ l1), he _ (zip_fst _ _ l2)]
      · rw [hs _ (zip_fst _ _ l1), hs _ (zip_fst _ _ l2)]
        dsimp only
        have v1 : vals (tc.zip ac) = ac := zip_snd _ _ l1
        have v2 : vals (tc.zip (ac.map (-1 * ·))) = ac.map (-1 * ·) := zip_snd _ _ l2
        have t1 : times (tc.zip ac) = tc := zip_fst _ _ l1
        have t2 : times (tc.zip (ac.map (-1 * ·))) = tc := zip_fst _ _ l2
        rw [v1, v2, t1, t2, zip_snd tc (sosfilt sos ac) (by rw [sosfilt_length, l1]),
          zip_snd tc (sosfilt sos (ac.map (-1 * ·))) (by rw [sosfilt_length, l2]),
          sosfilt_smul, shiftBack_scale, colStack_eq (by rw [List.length_map, List.length_map, shiftBack_length]),
          colStack_eq (by rw [List.length_map, shiftBack_length])]
        dsimp only
        rw [scaleRec_zip]

/-- C218, baseline correction: a motion none of whose samples is equal to the mean of the first five has, in the opposite direction, the opposite
corrected motion.  Missing: motions with such samples, in particular those that begin at rest, for which the property does not hold
(`C218_baseline_violated`). -/
theorem C218_baseline_partial (design : Design ℝ) (cutoff : ℝ) (x y : Rec ℝ) (hx : OffMean (vals x))
    (h : baselineCorrect design cutoff x = .ok y) : baselineCorrect design cutoff (opposite x) = .ok (opposite y) := by
  rw [opposite_scaled, opposite_scaled]
  unfold baselineCorrect at h ⊢
  have hb : baseFiltered design cutoff (scaled (-1) x) = (baseFiltered design cutoff x).map (scaleRec (-1)) :=
    baseFiltered_neg design cutoff x hx
  rw [hb]
  cases h1 : baseFiltered design cutoff x with
  | error e => rw [h1] at h; cases h
  | ok an =>
  rw [h1] at h
  simp only [bind, Except.bind, Except.map] at h ⊢
  cases h2 : numInt an with
  | error e => rw [h2] at h; cases h
  | ok vu =>
  rw [h2] at h
  have e2 : numInt (scaleRec (-1) an) = .ok (scaled (-1) vu.1, scaled (-1) vu.2) := scaled_numInt h2
  rw [e2]
  simp only at h ⊢
  cases h3 : removeTrend vu.2 with
  | error e => rw [h3] at h; cases h
  | ok u2 =>
  rw [h3] at h
  rw [scaled_trend h3]
  simp only at h ⊢
  cases h4 : numDiff u2 with
  | error e => rw [h4] at h; cases h
  | ok v2 =>
  rw [h4] at h
  rw [scaled_numDiff h4]
  simp only at h ⊢
  exact scaled_numDiff h

theorem sectFrom_onset (c : Sect ℝ) (v : ℝ) (t : List ℝ) : ∀ m : Nat,
    ∃ t', sectFrom c (0, 0) (List.replicate m 0 ++ v :: t) = List.replicate m 0 ++ c.b0 * v :: t'
  | 0 => ⟨_, by simp only [List.replicate_zero, List.nil_append, sectFrom, add_zero]; rfl⟩
  | m + 1 => by
    obtain ⟨t', ht'⟩ := sectFrom_onset c v t m
    refine ⟨t', ?_⟩
    rw [List.replicate_succ, List.cons_append, List.cons_append, ← ht']
    simp [sectFrom]

/-- The first sample that is not zero is still not zero after filtering, and the zeros before it remain. -/
theorem sosfilt_onset (m : Nat) : ∀ (sos : List (Sect ℝ)) (v : ℝ) (t : List ℝ), v ≠ 0 → (∀ s ∈ sos, s.b0 ≠ 0) →
    ∃ v' t', v' ≠ 0 ∧ sosfilt sos (List.replicate m 0 ++ v :: t) = List.replicate m 0 ++ v' :: t'
  | [], v, t, hv, _ => ⟨v, t, hv, rfl⟩
  | c :: sos, v, t, hv, hs => by
    obtain ⟨t1, h1⟩ := sectFrom_onset c v t m
    obtain ⟨v', t', hv', h'⟩ := sosfilt_onset m sos (c.b0 * v) t1 (mul_ne_zero (hs c List.mem_cons_self) hv)
      fun s h => hs s (List.mem_cons_of_mem _ h)
    refine ⟨v', t', hv', ?_⟩
    rw [← h', ← h1]
    rfl

theorem findIdx_none {l : List ℝ} {a0 : ℝ} (h0 : 0 ≤ a0) (hl : ∀ z ∈ l, 0 ≤ z) :
    (l.findIdx? fun x => nonNegFlag x != nonNegFlag a0) = none := by
  rw [List.findIdx?_eq_none_iff]
  intro z hz
  simp [nonNegFlag, hl z hz, h0]

theorem cross_nonneg (a : List ℝ) (ha : ∀ z ∈ a, 0 ≤ z) (hne : a ≠ []) : crossLeft a = 0 ∧ crossRight a = a.length := by
  constructor
  · cases a with
    | nil => rfl
    | cons a0 r =>
      rw [crossLeft, findIdx_none (ha a0 List.mem_cons_self) fun z hz => ha z (List.mem_cons_of_mem _ hz)]
  · unfold crossRight
    have hr : ∀ z ∈ a.reverse, 0 ≤ z := fun z hz => ha z (List.mem_reverse.1 hz)
    cases hc : a.reverse with
    | nil => exact absurd (List.reverse_eq_nil_iff.1 hc) hne
    | cons a0 r =>
      rw [hc] at hr
      dsimp only
      rw [findIdx_none (hr a0 List.mem_cons_self) fun z hz => hr z (List.mem_cons_of_mem _ hz)]

theorem removeMean_rest {k : Nat} (hk : 5 ≤ k) (w : List ℝ) :
    removeMean (List.replicate k 0 ++ w) = .ok (List.replicate k 0 ++ w) := by
  obtain ⟨j, rfl⟩ := Nat.exists_eq_add_of_le hk
  rw [show 5 + j = j + 5 by omega]
  simp [List.replicate_succ, removeMean]

/-- What the high-pass filter makes of a record: all sections have a direct term, so the onset stays where it is. -/
theorem highpass_onset {design : Design ℝ} {cutoff : ℝ} {x y : Rec ℝ} {m : Nat} {v : ℝ} {t : List ℝ}
    (hdes : ∀ w sos, design 4 .highpass [w] = .ok sos → ∀ s ∈ sos, s.b0 ≠ 0) (hx : vals x = List.replicate m 0 ++ v :: t)
    (hv : v ≠ 0) (h : filterKernel design 4 .highpass (.num cutoff) x = .ok y) : (vals y).getD m 0 ≠ 0 := by
  simp only [filterKernel] at h
  unfold filterOne at h
  cases hd : dtOf x with
  | error e => rw [hd] at h; cases h
  | ok dt =>
  rw [hd] at h
  simp only [bind, Except.bind] at h
  by_cases h0 : dt = 0
  · rw [if_pos h0] at h; cases h
  rw [if_neg h0] at h
  simp only [if_true] at h
  by_cases hc : cutoff ≤ 0
  · rw [if_pos hc] at h
    cases h
    rw [hx, List.getD_eq_getElem?_getD, List.getElem?_append_right (by simp)]
    simpa using hv
  · rw [if_neg hc] at h
    unfold applyFilter at h
    cases hs : design 4 .highpass [cutoff / (1 / dt / 2)] with
    | error e => rw [hs] at h; cases h
    | ok sos =>
    rw [hs] at h
    simp only [bind, Except.bind] at h
    rw [colStack_eq (by rw [sosfilt_length, List.length_map, List.length_map])] at h
    cases h
    obtain ⟨v', t', hv', e⟩ := sosfilt_onset m sos v t hv (hdes _ _ hs)
    have hx' : x.map Prod.snd = List.replicate m 0 ++ v :: t := hx
    have : vals ((x.map Prod.fst).zip (sosfilt sos (x.map Prod.snd))) = sosfilt sos (x.map Prod.snd) :=
      zip_snd _ _ (by rw [sosfilt_length, List.length_map, List.length_map])
    rw [this, hx', e, List.getD_eq_getElem?_getD, List.getElem?_append_right (by simp)]
    simpa using hv'

/-- C218 is violated for the baseline correction: take any motion which is at rest for five samples or more and positive from then on.  In the
opposite direction it is erased (all samples of the corrected motion are zero), while the corrected motion itself is not zero: zero samples count as
positive in the search for the first and the last change of sign.  The design of the filter is any with a direct term in each section, as Butterworth
filters have. -/
theorem C218_baseline_violated (design : Design ℝ) (hdes : ∀ w sos, design 4 .highpass [w] = .ok sos → ∀ s ∈ sos, s.b0 ≠ 0)
    (cutoff d : ℝ) (hd : d ≠ 0) (x r r' : Rec ℝ) (ht : Uniform d (times x)) (k : Nat) (hk : 5 ≤ k) (v : ℝ) (w : List ℝ) (hv : 0 < v)
    (hw : ∀ z ∈ w, 0 < z) (hne : w ≠ []) (hx : vals x = List.replicate k 0 ++ v :: w)
    (h : baselineCorrect design cutoff x = .ok r) (h' : baselineCorrect design cutoff (opposite x) = .ok r') :
    vals r' = List.replicate x.length 0 ∧ (vals r).getD (k + 1) 0 ≠ 0 ∧ r' ≠ opposite r := by
  have hlen : x.length = k + 1 + w.length := by
    have := congrArg List.length hx
    rw [Spec.vals, List.length_map] at this
    simp at this
    omega
  have hwl := List.length_pos_iff.2 hne
  have tO : times (opposite x) = times x := by simp [times, opposite]
  have vO : vals (opposite x) = List.replicate k 0 ++ -v :: w.map fun y => -y := by
    have : vals (opposite x) = (vals x).map fun y => -y := by simp [vals, opposite]
    rw [this, hx]
    simp
  have lO : (opposite x).length = x.length := by simp [opposite]
  have e1 : vals r' = List.replicate x.length 0 := by
    have := C106_erased_violated design cutoff d (opposite x) r' hd (by rw [tO]; exact ht) h' true (List.replicate k 0)
      (-v :: w.map fun y => -y) (by intro hn; rw [List.replicate_eq_nil_iff] at hn; omega) (by simp) (by rw [vO]; exact removeMean_rest hk _)
      (by
        intro z hz
        rw [(List.mem_replicate.1 hz).2]
        simp [nonNegFlag])
      (by
        intro z hz
        rcases List.mem_cons.1 hz with rfl | hz
        · simp [nonNegFlag, hv]
        · obtain ⟨y, hy, rfl⟩ := List.mem_map.1 hz
          simp [nonNegFlag, hw y hy])
    rw [this, lO]
  have e2 : (vals r).getD (k + 1) 0 ≠ 0 := by
    obtain ⟨a, y, ha, hy, _, hs⟩ := C106_samples_partial design cutoff d x r hd ht h
    rw [hx, removeMean_rest hk] at ha
    cases ha
    have hnn : ∀ z ∈ List.replicate k 0 ++ v :: w, 0 ≤ z := by
      intro z hz
      rcases List.mem_append.1 hz with hz | hz
      · rw [(List.mem_replicate.1 hz).2]
      · rcases List.mem_cons.1 hz with rfl | hz
        · exact hv.le
        · exact (hw z hz).le
    obtain ⟨hcl, hcr⟩ := cross_nonneg _ hnn (by simp)
    rw [hs (k + 1) (by omega) (by omega)]
    have hnz := nrZpad_ge cutoff d (crossLeft (List.replicate k 0 ++ v :: w))
    set nz := nrZpad cutoff d (crossLeft (List.replicate k 0 ++ v :: w)) with hz
    have hp : vals (padRec d nz (List.replicate k 0 ++ v :: w)) = List.replicate (nz + k) 0 ++ v :: (w ++ List.replicate nz 0) := by
      rw [vals_padRec, padCut, hcl, hcr, List.drop_zero, List.take_of_length_le (by omega), ← List.replicate_append_replicate]
      simp only [List.append_assoc, List.cons_append]
    rw [hcl, show nz - 0 - 1 + (k + 1) = nz + k by omega]
    exact highpass_onset hdes hp hv.ne' hy
  refine ⟨e1, e2, fun hc => e2 ?_⟩
  have e3 : vals (opposite r) = (vals r).map fun y => -y := by simp [vals, opposite]
  rw [hc, e3] at e1
  rw [List.getD_eq_getElem?_getD]
  have e4 := congrArg (fun l => l[k + 1]?) e1
  simp only [List.getElem?_map, List.getElem?_replicate] at e4
  rw [if_pos (by omega)] at e4
  cases hg : (vals r)[k + 1]? with
  | none => rw [hg] at e4; cases e4
  | some z =>
    rw [hg] at e4
    simpa using e4

/-- A motion at rest for five samples and constant from then on. -/
noncomputable def exPulse : Rec ℝ := [(0, 0), (1, 0), (2, 0), (3, 0), (4, 0), (5, 1), (6, 1)]

/-- The pulse is there after the correction, the opposite pulse is erased. -/
example : ∃ r r', baselineCorrect (fun _ _ _ => .ok [⟨1, -1, 0, 0, 0⟩]) (1/5) exPulse = .ok r ∧
    baselineCorrect (fun _ _ _ => .ok [⟨1, -1, 0, 0, 0⟩]) (1/5) (opposite exPulse) = .ok r' ∧
    vals r' = [0, 0, 0, 0, 0, 0, 0] ∧ (vals r).getD 6 0 ≠ 0 := by
  have ht : Uniform (1 : ℝ) (times exPulse) := by
    intro i a b ha hb
    match i with
    | 0 => cases ha; cases hb; norm_num
    | 1 => cases ha; cases hb; norm_num
    | 2 => cases ha; cases hb; norm_num
    | 3 => cases ha; cases hb; norm_num
    | 4 => cases ha; cases hb; norm_num
    | 5 => cases ha; cases hb; norm_num
    | i + 6 => simp [times, exPulse] at hb
  have ht' : Uniform (1 : ℝ) (times (opposite exPulse)) := by
    rw [show times (opposite exPulse) = times exPulse by simp [times, opposite]]; exact ht
  obtain ⟨r, hr⟩ := C106_succeeds (fun _ _ _ => .ok [⟨1, -1, 0, 0, 0⟩]) (1/5) 1 exPulse one_ne_zero ht (by simp [exPulse])
    (by norm_num) (fun _ => ⟨_, rfl⟩)
  obtain ⟨r', hr'⟩ := C106_succeeds (fun _ _ _ => .ok [⟨1, -1, 0, 0, 0⟩]) (1/5) 1 (opposite exPulse) one_ne_zero ht'
    (by simp [exPulse, opposite]) (by norm_num) (fun _ => ⟨_, rfl⟩)
  have := C218_baseline_violated (fun _ _ _ => .ok [⟨1, -1, 0, 0, 0⟩]) (by
      intro w sos h s hs
      cases h
      rw [List.mem_singleton.1 hs]
      norm_num) (1/5) 1 one_ne_zero exPulse r r' ht 5 le_rfl 1 [1] one_pos (by simp) (by simp) (by simp [vals, exPulse]) hr hr'
  exact ⟨r, r', hr, hr', this.1, this.2.1⟩

/-! ### Scores -/

theorem turned_scaled (b : Bool) (x : Rec ℝ) : turned b x = scaled (if b then -1 else 1) x := by
  cases b
  · simp [turned, scaled]
  · simp only [turned, if_true]; exact opposite_scaled x

theorem turned_times (b : Bool) (x : Rec ℝ) : (turned b x).map Prod.fst = x.map Prod.fst := by
  rw [turned_scaled, scaled_times]

theorem turned_length (b : Bool) (x : Rec ℝ) : (turned b x).length = x.length := by
  rw [turned_scaled, scaled_length]

theorem turned_trim (b : Bool) (x : Rec ℝ) : trim15 (turned b x) = turned b (trim15 x) := by
  rw [turned_scaled, turned_scaled, scaled_trim]

theorem turned_hasDt (b : Bool) (x : Rec ℝ) : hasDt (turned b x) = hasDt x := by
  rw [turned_scaled, hasDt_scaled]

theorem turned_odd {f : Rec ℝ → Except PyErr (Rec ℝ)} (hf : ∀ x y, f x = .ok y → f (opposite x) = .ok (opposite y)) (b : Bool)
    {x y : Rec ℝ} (h : f x = .ok y) : f (turned b x) = .ok (turned b y) := by
  cases b
  · exact h
  · exact hf x y h

theorem turned_even {α : Type} {f : Rec ℝ → Except PyErr α} (hf : ∀ x y, f x = .ok y → f (opposite x) = .ok y) (b : Bool)
    {x : Rec ℝ} {y : α} (h : f x = .ok y) : f (turned b x) = .ok y := by
  cases b
  · exact h
  · exact hf x y h

theorem turned_opt {base : Bool} {f : Rec ℝ → Except PyErr (Rec ℝ)}
    (hf : base = true → ∀ x y, f x = .ok y → f (opposite x) = .ok (opposite y)) (b : Bool)
    {x y : Rec ℝ} (h : optStep base f x = .ok y) : optStep base f (turned b x) = .ok (turned b y) := by
  unfold optStep at h ⊢
  cases base with
  | true => exact turned_odd (hf rfl) b h
  | false => cases h; rfl

theorem turned_filter {sp : SigProc} (hs : DirectionFree sp) {fmin fmax : Option ℝ} (b : Bool) {x y : Rec ℝ}
    (h : gofFilter sp fmin fmax x = .ok y) : gofFilter sp fmin fmax (turned b x) = .ok (turned b y) := by
  unfold gofFilter at h ⊢
  cases fmax with
  | none => exact turned_odd (hs.highpass _) b h
  | some f => exact turned_odd (hs.bandpass _ _) b h

theorem turned_arias (b : Bool) {x : Rec ℝ} {p : Rec ℝ × ℝ} (h : gofArias x = .ok p) : gofArias (turned b x) = .ok p := by
  rw [turned_scaled, scaled_arias h]
  have : (if b then (-1 : ℝ) else 1) ^ 2 = 1 := by cases b <;> simp
  rw [this, one_mul]
  congr 1
  refine Prod.ext ?_ rfl
  simp [scaled]

theorem turned_numInt (b : Bool) {x : Rec ℝ} {p : Rec ℝ × Rec ℝ} (h : numInt x = .ok p) :
    numInt (turned b x) = .ok (turned b p.1, turned b p.2) := by
  rw [turned_scaled, turned_scaled, turned_scaled, scaled_numInt h]

theorem turned_rms (b : Bool) {x : Rec ℝ} {v : ℝ} (h : calcRms x = .ok v) : calcRms (turned b x) = .ok v := by
  cases b
  · exact h
  · rw [← h]
    unfold calcRms
    simp [turned, opposite, Function.comp_def]

/-- The processing of the package. -/
theorem C219_package (design : Design ℝ) (h g : List ℝ) (hh : h ≠ []) (hg : g ≠ []) (he : h.length % 2 = 0) (hge : g.length % 2 = 0) :
    DirectionFree (gofProc design h g) where
  highpass f x y hy := by
    cases f with
    | none => exact C218_filters design 4 .highpass .other x y hy
    | some a => exact C218_filters design 4 .highpass (.num a) x y hy
  bandpass f b x y hy := by
    cases f with
    | none => cases hy
    | some a => exact C218_filters design 4 .bandpass (.pair a b) x y hy
  wavelet x y hy := C218_wavelet h g hh hg he hge 6 x y hy
  spectrum a b x r hr := C218_spectrum hr
  fourier x y hy := C218_fourier hy

/-- C219 is violated by scores 1 to 4: with either or both of the motions in the opposite direction they are the same, so a simulation of the
wrong polarity is not told apart. -/
theorem C219_d1234_violated {sp : SigProc} (hs : DirectionFree sp) (b c : Bool) {x y : Rec ℝ} {fmin fmax : Option ℝ} {base : Bool}
    (hb : base = true → ∀ x y, sp.baseline x = .ok y → sp.baseline (opposite x) = .ok (opposite y))
    {r : ℝ × ℝ × ℝ × ℝ} (h : d1234 sp x y fmin fmax base = .ok r) : d1234 sp (turned b x) (turned c y) fmin fmax base = .ok r := by
  obtain ⟨bm, bs, am, as, iam, ias, vm, vs, iem, ies, nam, nas, nem, nes, a, e, s1, s2, h1, h2, h3, h4, h5, h6, h7, h8, h9, h10,
    h11, h12, h13, h14, h15, h16, h17, h18, h19, h20, h21, h22⟩ := d1234_inv h
  unfold d1234
  simp only [turned_trim, turned_times, turned_opt hb b h1, turned_opt hb c h2, turned_filter hs b h3, turned_filter hs c h4,
    turned_arias b h5, turned_arias c h6, turned_numInt b h7, turned_numInt c h8, turned_arias b h9, turned_arias c h10,
    h11, h12, h13, h14, h15, h16, h17, h18, h19, h20, bind, Except.bind, pure, Except.pure]
  rw [← h21, ← h22]

/-- C219 is violated by scores 5 to 7. -/
theorem C219_d567_violated {sp : SigProc} (hs : DirectionFree sp) (b c : Bool) {x y : Rec ℝ} {fmin fmax : Option ℝ} {base : Bool}
    (hb : base = true → ∀ x y, sp.baseline x = .ok y → sp.baseline (opposite x) = .ok (opposite y))
    {r : ℝ × ℝ × ℝ} (h : d567 sp x y fmin fmax base = .ok r) : d567 sp (turned b x) (turned c y) fmin fmax base = .ok r := by
  obtain ⟨am, as, ram, ras, bm, bs, im, is, rvm, rvs, um, us, rum, rus, h1, h2, h3, h4, h5, h6, h7, h8, h9, h10, h11, h12, h13, h14,
    h15⟩ := d567_inv h
  obtain ⟨p1, hp1⟩ : ∃ p, absPeak (turned b am) = .ok p := by rw [turned_scaled]; exact absPeak_scaled _ am (calcRms_ne h3)
  obtain ⟨p2, hp2⟩ : ∃ p, absPeak (turned c as) = .ok p := by rw [turned_scaled]; exact absPeak_scaled _ as (calcRms_ne h4)
  unfold d567
  simp only [turned_trim, turned_opt (fun _ x y h => turned_filter hs true h) b h1, turned_opt (fun _ x y h => turned_filter hs true h) c h2,
    hp1, hp2, turned_rms b h3, turned_rms c h4, turned_opt hb b h5, turned_opt hb c h6, turned_numInt b h7, turned_numInt c h8,
    turned_rms b h9, turned_rms c h10, turned_opt (fun _ => hs.wavelet) b h11, turned_opt (fun _ => hs.wavelet) c h12, turned_rms b h13,
    turned_rms c h14, bind, Except.bind, pure, Except.pure]
  rw [h15]

/-- C219 is violated by scores 8 and 9. -/
theorem C219_d89_violated {sp : SigProc} (hs : DirectionFree sp) (b c : Bool) {x y : Rec ℝ} {fmin fmax : Option ℝ} {base : Bool}
    (hb : base = true → ∀ x y, sp.baseline x = .ok y → sp.baseline (opposite x) = .ok (opposite y))
    {r : ℝ × ℝ} (h : d89 sp x y fmin fmax base = .ok r) : d89 sp (turned b x) (turned c y) fmin fmax base = .ok r := by
  unfold d89 at h ⊢
  simp only [bind, Except.bind] at h ⊢
  cases h1 : optStep base sp.baseline x with
  | error e => rw [h1] at h; cases h
  | ok m =>
  cases h2 : optStep base sp.baseline y with
  | error e => rw [h1, h2] at h; cases h
  | ok s =>
  rw [h1, h2] at h; rw [turned_opt hb b h1, turned_opt hb c h2]; simp only [turned_hasDt] at h ⊢
  cases h3 : hasDt m with
  | error e => rw [h3] at h; cases h
  | ok d1 =>
  cases h4 : hasDt s with
  | error e => rw [h3, h4] at h; cases h
  | ok d2 =>
  rw [h3, h4] at h; simp only at h ⊢
  cases h5 : gofRange fmin fmax with
  | error e => rw [h5] at h; cases h
  | ok f =>
  rw [h5] at h; simp only at h ⊢
  cases h6 : optStep base sp.baseline m with
  | error e => rw [h6] at h; cases h
  | ok m' =>
  cases h7 : optStep base sp.baseline s with
  | error e => rw [h6, h7] at h; cases h
  | ok s' =>
  rw [h6, h7] at h; rw [turned_opt hb b h6, turned_opt hb c h7]; simp only at h ⊢
  by_cases hz : f.1 = 0 ∨ f.2 = 0
  · rw [if_pos hz] at h; cases h
  rw [if_neg hz] at h ⊢
  cases h8 : sp.spectrum (min (1 / f.2) (1 / 100)) (max (1 / f.1) 5) m' with
  | error e => rw [h8] at h; cases h
  | ok rm =>
  cases h9 : sp.spectrum (min (1 / f.2) (1 / 100)) (max (1 / f.1) 5) s' with
  | error e => rw [h8, h9] at h; cases h
  | ok rs =>
  rw [h8, h9] at h; rw [turned_even (hs.spectrum _ _) b h8, turned_even (hs.spectrum _ _) c h9]; simp only at h ⊢
  cases h12 : sp.fourier m' with
  | error e => rw [h12] at h; revert h; cases firstGe rm.1 (1 / f.2) <;> cases lastLe rm.1 (1 / f.1) <;> intro h <;> cases h
  | ok fm =>
  cases h13 : sp.fourier s' with
  | error e => rw [h12, h13] at h; revert h; cases firstGe rm.1 (1 / f.2) <;> cases lastLe rm.1 (1 / f.1) <;> intro h <;> cases h
  | ok fs =>
  rw [turned_even hs.fourier b h12, turned_even hs.fourier c h13]
  rw [h12, h13] at h
  exact h

/-- C219 is violated by score 10, the cross-correlation: it takes the absolute value of the correlation. -/
theorem C219_d10_violated {sp : SigProc} (b c : Bool) {x y : Rec ℝ} {fmin fmax : Option ℝ} {base : Bool}
    (hb : base = true → ∀ x y, sp.baseline x = .ok y → sp.baseline (opposite x) = .ok (opposite y))
    {r : ℝ} (h : d10 sp x y fmin fmax base = .ok r) : d10 sp (turned b x) (turned c y) fmin fmax base = .ok r := by
  unfold d10 at h ⊢
  simp only [bind, Except.bind] at h ⊢
  cases h1 : optStep base sp.baseline x with
  | error e => rw [h1] at h; cases h
  | ok m =>
  rw [h1] at h; simp only at h
  cases h2 : optStep base sp.baseline y with
  | error e => rw [h2] at h; cases h
  | ok s =>
  rw [h2] at h; simp only at h
  rw [turned_opt hb b h1, turned_opt hb c h2]; simp only [turned_hasDt, turned_length]
  cases h3 : hasDt m with
  | error e => rw [h3] at h; cases h
  | ok d1 =>
  cases h4 : hasDt s with
  | error e => rw [h3, h4] at h; cases h
  | ok d2 =>
  rw [h3, h4] at h; simp only at h ⊢
  cases h5 : gofRange fmin fmax with
  | error e => rw [h5] at h; cases h
  | ok f =>
  rw [h5] at h; simp only at h ⊢
  by_cases hl : m.length ≠ s.length
  · rw [if_pos hl] at h; cases h
  rw [if_neg hl] at h ⊢
  have sq : ∀ (b : Bool) (z : Rec ℝ), (((turned b z).map Prod.snd).map fun u => u * u) = ((z.map Prod.snd).map fun u => u * u) := by
    intro b z
    cases b
    · rfl
    · simp [turned, opposite, Function.comp_def]
  have sg : ∃ ε : ℝ, |ε| = 1 ∧ (List.zipWith (· * ·) ((turned b m).map Prod.snd) ((turned c s).map Prod.snd)).sum =
      ε * (List.zipWith (· * ·) (m.map Prod.snd) (s.map Prod.snd)).sum := by
    refine ⟨(if b then -1 else 1) * (if c then -1 else 1), by cases b <;> cases c <;> simp, ?_⟩
    rw [turned_scaled, turned_scaled, scaled_vals, scaled_vals, ← sum_map_mul, List.map_zipWith, List.zipWith_map]
    congr 2
    funext u v; ring
  obtain ⟨ε, he, hN⟩ := sg
  have he0 : ε ≠ 0 := by intro h0; rw [h0] at he; simp at he
  simp only [sq, hN]
  split at h
  · cases h
  rename_i hneg
  rw [if_neg hneg]
  split at h
  · cases h
  rename_i hz
  push Not at hz
  rw [if_neg (by
    push Not
    exact ⟨hz.1, by rw [mul_assoc]; exact mul_ne_zero he0 hz.2⟩)]
  rw [← h, mul_assoc, mul_div_assoc, abs_mul, he, one_mul]

/-- C219 is violated by all scores of the package (without baseline correction): the simulation in the opposite direction gets the scores of the
simulation. -/
theorem C219_violated (design : Design ℝ) (h g : List ℝ) (hh : h ≠ []) (hg : g ≠ []) (he : h.length % 2 = 0) (hge : g.length % 2 = 0)
    {x y : Rec ℝ} {fmin fmax : Option ℝ} {r : ℝ × ℝ × ℝ × ℝ} {q : ℝ × ℝ × ℝ} {s : ℝ × ℝ} {t : ℝ}
    (h1 : d1234 (gofProc design h g) x y fmin fmax false = .ok r) (h2 : d567 (gofProc design h g) x y fmin fmax false = .ok q)
    (h3 : d89 (gofProc design h g) x y fmin fmax false = .ok s) (h4 : d10 (gofProc design h g) x y fmin fmax false = .ok t) :
    d1234 (gofProc design h g) x (opposite y) fmin fmax false = .ok r ∧ d567 (gofProc design h g) x (opposite y) fmin fmax false = .ok q ∧
    d89 (gofProc design h g) x (opposite y) fmin fmax false = .ok s ∧ d10 (gofProc design h g) x (opposite y) fmin fmax false = .ok t := by
  have hs := C219_package design h g hh hg he hge
  exact ⟨C219_d1234_violated hs false true (by simp) h1, C219_d567_violated hs false true (by simp) h2,
    C219_d89_violated hs false true (by simp) h3, C219_d10_violated false true (by simp) h4⟩

/-- C219, the part that holds: with both motions in the opposite direction all scores are the same.  Missing: the scores do not recognise that only one
of the motions is in the opposite direction (`C219_violated`), and baseline correction depends on the direction (`C218_baseline_violated`). -/
theorem C219_both_partial (design : Design ℝ) (h g : List ℝ) (hh : h ≠ []) (hg : g ≠ []) (he : h.length % 2 = 0) (hge : g.length % 2 = 0)
    {x y : Rec ℝ} {fmin fmax : Option ℝ} {r : ℝ × ℝ × ℝ × ℝ} {q : ℝ × ℝ × ℝ} {s : ℝ × ℝ} {t : ℝ}
    (h1 : d1234 (gofProc design h g) x y fmin fmax false = .ok r) (h2 : d567 (gofProc design h g) x y fmin fmax false = .ok q)
    (h3 : d89 (gofProc design h g) x y fmin fmax false = .ok s) (h4 : d10 (gofProc design h g) x y fmin fmax false = .ok t) :
    d1234 (gofProc design h g) (opposite x) (opposite y) fmin fmax false = .ok r ∧
    d567 (gofProc design h g) (opposite x) (opposite y) fmin fmax false = .ok q ∧
    d89 (gofProc design h g) (opposite x) (opposite y) fmin fmax false = .ok s ∧
    d10 (gofProc design h g) (opposite x) (opposite y) fmin fmax false = .ok t := by
  have hs := C219_package design h g hh hg he hge
  exact ⟨C219_d1234_violated hs true true (by simp) h1, C219_d567_violated hs true true (by simp) h2,
    C219_d89_violated hs true true (by simp) h3, C219_d10_violated true true (by simp) h4⟩

/-- Two samples and the opposite two samples: the cross-correlation score is that of two equal motions. -/
example : ∃ r, d10 (gofProc (fun _ _ _ => .ok []) [1, 1] [1, 1]) [(0, 1), (1, 2)] [(0, 1), (1, 2)] (some 1) (some 2) false = .ok r ∧
    d10 (gofProc (fun _ _ _ => .ok []) [1, 1] [1, 1]) [(0, 1), (1, 2)] (opposite [(0, 1), (1, 2)]) (some 1) (some 2) false = .ok r ∧
    r = 1 / 10 := by
  have e : d10 (gofProc (fun _ _ _ => .ok []) [1, 1] [1, 1]) [(0, 1), (1, 2)] [(0, 1), (1, 2)] (some 1) (some 2) false = .ok (1 / 10) := by
    unfold d10
    norm_num [optStep, hasDt, dtOf, gofRange, bind, Except.bind]
  exact ⟨_, e, C219_d10_violated false true (by simp) e, rfl⟩

end Verif
