import Verif.Props.Scores
import Mathlib.Algebra.Order.BigOperators.Ring.Finset

/-!
Properties C57, C95 and C98: scores of records.
-/

set_option linter.unusedSectionVars false
set_option linter.unusedVariables false

namespace Verif

open Spec (times vals NonDecr seen)

theorem scoreNum_self (x : ℝ) : scoreNum x x = 0 := (C55_sign x x).1.mpr rfl

theorem zipWith_score_self (l : List ℝ) : List.zipWith scoreNum l l = l.map fun _ => 0 := by
  rw [List.zipWith_self]
  apply List.map_congr_left
  intro x _; exact scoreNum_self x

theorem meanArr_zero (l : List ℝ) (r : ℝ) (h : meanArr (l.map fun _ => (0 : ℝ)) = .ok r) : r = 0 := by
  unfold meanArr at h
  by_cases c : (l.map fun _ => (0 : ℝ)) = []
  · rw [if_pos c] at h; cases h
  · rw [if_neg c] at h
    cases h
    simp

/-- The mean of scores is a score. -/
theorem meanArr_score (m s : List ℝ) (r : ℝ) (h : meanArr (List.zipWith scoreNum m s) = .ok r) : -10 < r ∧ r < 10 := by
  unfold meanArr at h
  by_cases c : (List.zipWith scoreNum m s) = []
  · rw [if_pos c] at h; cases h
  · rw [if_neg c] at h
    cases h
    have hb : ∀ x ∈ List.zipWith scoreNum m s, -10 < x ∧ x < 10 := by
      intro x hx
      obtain ⟨a, _, b, _, rfl⟩ := zipWith_mem _ _ _ _ hx
      exact C55_bounded a b
    generalize List.zipWith scoreNum m s = l at c hb
    have key : ∀ l : List ℝ, l ≠ [] → (∀ x ∈ l, -10 < x ∧ x < 10) → -10 * (l.length : ℝ) < l.sum ∧ l.sum < 10 * (l.length : ℝ) := by
      intro l
      induction l with
      | nil => intro h; exact absurd rfl h
      | cons a l ih =>
        intro _ h
        have ha := h a (by simp)
        by_cases hl : l = []
        · subst hl; simp; constructor <;> linarith [ha.1, ha.2]
        · have := ih hl fun x hx => h x (by simp [hx])
          simp only [List.sum_cons, List.length_cons, Nat.cast_add, Nat.cast_one]
          constructor <;> linarith [ha.1, ha.2, this.1, this.2]
    have hpos : (0 : ℝ) < l.length := by exact_mod_cast List.length_pos_iff.mpr c
    have := key l c hb
    rw [lt_div_iff₀ hpos, div_lt_iff₀ hpos]
    exact this

theorem scoreAny_vec (m s : List ℝ) (l : List ℝ) (h : scoreAny (.vec m) (.vec s) = .ok l) : l = List.zipWith scoreNum m s := by
  rw [scoreAny] at h
  by_cases c : m.length = s.length
  · rw [scoreArr_ok m s c] at h; cases h; rfl
  · unfold scoreArr at h
    simp only [clampArr_seen, List.length_map] at h
    rw [if_neg c] at h
    split at h <;> cases h

theorem scoreArr_inv (m s : List ℝ) (l : List ℝ) (h : (scoreArr m s).1 = .ok l) : l = List.zipWith scoreNum m s :=
  scoreAny_vec m s l (by rw [scoreAny]; exact h)

theorem scoreAny_mixed (m : List ℝ) (rows : List (List ℝ)) (l : List ℝ) :
    scoreAny (.vec m) (.mat rows) ≠ .ok l ∧ scoreAny (.mat rows) (.vec m) ≠ .ok l := by
  constructor
  · rw [scoreAny]; split <;> simp
  · rw [scoreAny]; split <;> simp

theorem gofInterp_mat {q y t : List ℝ} {r : NArr} (h : gofInterp q y t = .ok r) : ∃ rows, r = .mat rows := by
  unfold gofInterp at h
  split at h
  · simp only [bind, Except.bind] at h
    split at h
    · cases h
    · cases h; exact ⟨_, rfl⟩
  · cases h

/-- All steps of `d_1234`. -/
theorem d1234_inv {sp : SigProc} {meas simu : Rec ℝ} {fmin fmax : Option ℝ} {base : Bool} {r : ℝ × ℝ × ℝ × ℝ}
    (h : d1234 sp meas simu fmin fmax base = .ok r) :
    ∃ (bm bs am as : Rec ℝ) (iam ias : Rec ℝ × ℝ) (vm vs : Rec ℝ × Rec ℝ) (iem ies : Rec ℝ × ℝ) (nam nas nem nes : List ℝ)
      (a e : NArr × NArr) (s1 s2 : List ℝ),
      optStep base sp.baseline (trim15 meas) = .ok bm ∧ optStep base sp.baseline (trim15 simu) = .ok bs ∧
      gofFilter sp fmin fmax bm = .ok am ∧ gofFilter sp fmin fmax bs = .ok as ∧
      gofArias am = .ok iam ∧ gofArias as = .ok ias ∧ numInt am = .ok vm ∧ numInt as = .ok vs ∧
      gofArias vm.1 = .ok iem ∧ gofArias vs.1 = .ok ies ∧
      normIa iam = .ok nam ∧ normIa ias = .ok nas ∧ normIa iem = .ok nem ∧ normIa ies = .ok nes ∧
      sameGrid ((trim15 meas).map Prod.fst) ((trim15 simu).map Prod.fst) nam nas = .ok a ∧
      sameGrid ((trim15 meas).map Prod.fst) ((trim15 simu).map Prod.fst) nem nes = .ok e ∧
      scoreAny a.1.tail1 a.2.tail1 = .ok s1 ∧ scoreAny e.1.tail1 e.2.tail1 = .ok s2 ∧
      meanArr s1 = .ok r.1 ∧ meanArr s2 = .ok r.2.1 ∧ r.2.2.1 = scoreNum iam.2 ias.2 ∧ r.2.2.2 = scoreNum iem.2 ies.2 := by
  unfold d1234 at h
  simp only [bind, Except.bind] at h
  iterate 20 (split at h; · cases h)
  cases h
  exact ⟨_, _, _, _, _, _, _, _, _, _, _, _, _, _, _, _, _, _, by assumption, by assumption, by assumption, by assumption,
    by assumption, by assumption, by assumption, by assumption, by assumption, by assumption, by assumption, by assumption,
    by assumption, by assumption, by assumption, by assumption, by assumption, by assumption, by assumption, by assumption, rfl, rfl⟩

theorem sameGrid_vec {t1 t2 m s : List ℝ} {a : NArr × NArr} (h : sameGrid t1 t2 m s = .ok a) :
    (m.length = s.length ∧ a = (.vec m, .vec s)) ∨
    (m.length ≠ s.length ∧ ((∃ rows, a = (.mat rows, .vec s)) ∨ ∃ rows, a = (.vec m, .mat rows))) := by
  unfold sameGrid at h
  by_cases c : m.length < s.length
  · rw [if_pos c] at h
    simp only [bind, Except.bind] at h
    split at h
    · cases h
    · rename_i r hr
      cases h
      obtain ⟨rows, rfl⟩ := gofInterp_mat hr
      exact Or.inr ⟨by omega, Or.inl ⟨rows, rfl⟩⟩
  · rw [if_neg c] at h
    by_cases c2 : s.length < m.length
    · rw [if_pos c2] at h
      simp only [bind, Except.bind] at h
      split at h
      · cases h
      · rename_i r hr
        cases h
        obtain ⟨rows, rfl⟩ := gofInterp_mat hr
        exact Or.inr ⟨by omega, Or.inr ⟨rows, rfl⟩⟩
    · rw [if_neg c2] at h
      cases h
      exact Or.inl ⟨by omega, rfl⟩

/-- Only curves of the same length can be scored. -/
theorem grid_score {t1 t2 m s : List ℝ} {a : NArr × NArr} {l : List ℝ} (h : sameGrid t1 t2 m s = .ok a)
    (hs : scoreAny a.1.tail1 a.2.tail1 = .ok l) :
    m.length = s.length ∧ l = List.zipWith scoreNum (m.drop 1) (s.drop 1) := by
  rcases sameGrid_vec h with ⟨hl, rfl⟩ | ⟨_, ⟨rows, rfl⟩ | ⟨rows, rfl⟩⟩
  · exact ⟨hl, scoreAny_vec _ _ _ hs⟩
  · exact absurd hs (scoreAny_mixed _ _ _).2
  · exact absurd hs (scoreAny_mixed _ _ _).1

/-! ## C95 -/

/-- C95. Equal records get the scores 0 in intensity and energy. -/
theorem C95_d1234 {sp : SigProc} {x : Rec ℝ} {fmin fmax : Option ℝ} {base : Bool} {r : ℝ × ℝ × ℝ × ℝ}
    (h : d1234 sp x x fmin fmax base = .ok r) : r = (0, 0, 0, 0) := by
  obtain ⟨bm, bs, am, as, iam, ias, vm, vs, iem, ies, nam, nas, nem, nes, a, e, s1, s2, h1, h2, h3, h4, h5, h6, h7, h8, h9, h10,
    h11, h12, h13, h14, h15, h16, h17, h18, h19, h20, h21, h22⟩ := d1234_inv h
  cases Except.ok.inj (h1.symm.trans h2)
  cases Except.ok.inj (h3.symm.trans h4)
  cases Except.ok.inj (h5.symm.trans h6)
  cases Except.ok.inj (h7.symm.trans h8)
  cases Except.ok.inj (h9.symm.trans h10)
  cases Except.ok.inj (h11.symm.trans h12)
  cases Except.ok.inj (h13.symm.trans h14)
  obtain ⟨_, e1⟩ := grid_score h15 h17
  obtain ⟨_, e2⟩ := grid_score h16 h18
  rw [e1, zipWith_score_self] at h19
  rw [e2, zipWith_score_self] at h20
  obtain ⟨r1, r2, r3, r4⟩ := r
  simp only at h19 h20 h21 h22
  rw [meanArr_zero _ _ h19, meanArr_zero _ _ h20, h21, h22, scoreNum_self, scoreNum_self]

/-- C95. Any two records: the four scores lie between -10 and 10. -/
theorem C95_d1234_bounded {sp : SigProc} {x y : Rec ℝ} {fmin fmax : Option ℝ} {base : Bool} {r : ℝ × ℝ × ℝ × ℝ}
    (h : d1234 sp x y fmin fmax base = .ok r) :
    (-10 < r.1 ∧ r.1 < 10) ∧ (-10 < r.2.1 ∧ r.2.1 < 10) ∧ (-10 < r.2.2.1 ∧ r.2.2.1 < 10) ∧ (-10 < r.2.2.2 ∧ r.2.2.2 < 10) := by
  obtain ⟨bm, bs, am, as, iam, ias, vm, vs, iem, ies, nam, nas, nem, nes, a, e, s1, s2, h1, h2, h3, h4, h5, h6, h7, h8, h9, h10,
    h11, h12, h13, h14, h15, h16, h17, h18, h19, h20, h21, h22⟩ := d1234_inv h
  obtain ⟨_, e1⟩ := grid_score h15 h17
  obtain ⟨_, e2⟩ := grid_score h16 h18
  rw [e1] at h19
  rw [e2] at h20
  refine ⟨meanArr_score _ _ _ h19, meanArr_score _ _ _ h20, ?_, ?_⟩
  · rw [h21]; exact C55_bounded _ _
  · rw [h22]; exact C55_bounded _ _

/-- All steps of `d_567`. -/
theorem d567_inv {sp : SigProc} {meas simu : Rec ℝ} {fmin fmax : Option ℝ} {base : Bool} {r : ℝ × ℝ × ℝ}
    (h : d567 sp meas simu fmin fmax base = .ok r) :
    ∃ (am as : Rec ℝ) (ram ras : ℝ) (bm bs : Rec ℝ) (im is : Rec ℝ × Rec ℝ) (rvm rvs : ℝ) (um us : Rec ℝ) (rum rus : ℝ),
      optStep base (gofFilter sp fmin fmax) (trim15 meas) = .ok am ∧ optStep base (gofFilter sp fmin fmax) (trim15 simu) = .ok as ∧
      calcRms am = .ok ram ∧ calcRms as = .ok ras ∧ optStep base sp.baseline am = .ok bm ∧ optStep base sp.baseline as = .ok bs ∧
      numInt bm = .ok im ∧ numInt bs = .ok is ∧ calcRms im.1 = .ok rvm ∧ calcRms is.1 = .ok rvs ∧
      optStep base sp.wavelet im.2 = .ok um ∧ optStep base sp.wavelet is.2 = .ok us ∧ calcRms um = .ok rum ∧ calcRms us = .ok rus ∧
      r = (scoreNum ram ras, scoreNum rvm rvs, scoreNum rum rus) := by
  unfold d567 at h
  simp only [bind, Except.bind] at h
  iterate 16 (split at h; · cases h)
  cases h
  exact ⟨_, _, _, _, _, _, _, _, _, _, _, _, _, _, by assumption, by assumption, by assumption, by assumption, by assumption,
    by assumption, by assumption, by assumption, by assumption, by assumption, by assumption, by assumption, by assumption,
    by assumption, rfl⟩

/-- C95. Equal records get the RMS scores 0, and any RMS scores lie between -10 and 10. -/
theorem C95_d567 {sp : SigProc} {x y : Rec ℝ} {fmin fmax : Option ℝ} {base : Bool} {r : ℝ × ℝ × ℝ}
    (h : d567 sp x y fmin fmax base = .ok r) :
    (x = y → r = (0, 0, 0)) ∧ (-10 < r.1 ∧ r.1 < 10) ∧ (-10 < r.2.1 ∧ r.2.1 < 10) ∧ (-10 < r.2.2 ∧ r.2.2 < 10) := by
  obtain ⟨am, as, ram, ras, bm, bs, im, is, rvm, rvs, um, us, rum, rus, h1, h2, h3, h4, h5, h6, h7, h8, h9, h10, h11, h12, h13, h14,
    h15⟩ := d567_inv h
  subst h15
  refine ⟨?_, C55_bounded _ _, C55_bounded _ _, C55_bounded _ _⟩
  rintro rfl
  cases Except.ok.inj (h1.symm.trans h2)
  cases Except.ok.inj (h3.symm.trans h4)
  cases Except.ok.inj (h5.symm.trans h6)
  cases Except.ok.inj (h7.symm.trans h8)
  cases Except.ok.inj (h9.symm.trans h10)
  cases Except.ok.inj (h11.symm.trans h12)
  cases Except.ok.inj (h13.symm.trans h14)
  rw [scoreNum_self, scoreNum_self, scoreNum_self]

/-- C95. Equal records get the spectral scores 0, and any spectral scores lie between -10 and 10. -/
theorem C95_d89 {sp : SigProc} {x y : Rec ℝ} {fmin fmax : Option ℝ} {base : Bool} {r : ℝ × ℝ}
    (h : d89 sp x y fmin fmax base = .ok r) :
    (x = y → r = (0, 0)) ∧ (-10 < r.1 ∧ r.1 < 10) ∧ (-10 < r.2 ∧ r.2 < 10) := by
  unfold d89 at h
  simp only [bind, Except.bind] at h
  cases h1 : optStep base sp.baseline x with
  | error e => rw [h1] at h; cases h
  | ok m =>
  rw [h1] at h; simp only at h
  cases h2 : optStep base sp.baseline y with
  | error e => rw [h2] at h; cases h
  | ok s =>
  rw [h2] at h; simp only at h
  cases h3 : hasDt m with
  | error e => rw [h3] at h; cases h
  | ok d1 =>
  rw [h3] at h; simp only at h
  cases h4 : hasDt s with
  | error e => rw [h4] at h; cases h
  | ok d2 =>
  rw [h4] at h; simp only at h
  cases h5 : gofRange fmin fmax with
  | error e => rw [h5] at h; cases h
  | ok f =>
  rw [h5] at h; simp only at h
  cases h6 : optStep base sp.baseline m with
  | error e => rw [h6] at h; cases h
  | ok m' =>
  rw [h6] at h; simp only at h
  cases h7 : optStep base sp.baseline s with
  | error e => rw [h7] at h; cases h
  | ok s' =>
  rw [h7] at h; simp only at h
  by_cases hz : f.1 = 0 ∨ f.2 = 0
  · rw [if_pos hz] at h; cases h
  rw [if_neg hz] at h
  cases h8 : sp.spectrum (min (1 / f.2) (1 / 100)) (max (1 / f.1) 5) m' with
  | error e => rw [h8] at h; cases h
  | ok rm =>
  rw [h8] at h; simp only at h
  cases h9 : sp.spectrum (min (1 / f.2) (1 / 100)) (max (1 / f.1) 5) s' with
  | error e => rw [h9] at h; cases h
  | ok rs =>
  rw [h9] at h; simp only at h
  cases h10 : firstGe rm.1 (1 / f.2) with
  | error e => rw [h10] at h; cases h
  | ok i1 =>
  rw [h10] at h; simp only at h
  cases h11 : lastLe rm.1 (1 / f.1) with
  | error e => rw [h11] at h; cases h
  | ok i2 =>
  rw [h11] at h; simp only at h
  cases h12 : sp.fourier m' with
  | error e => rw [h12] at h; cases h
  | ok fm =>
  rw [h12] at h; simp only at h
  cases h13 : sp.fourier s' with
  | error e => rw [h13] at h; cases h
  | ok fs =>
  rw [h13] at h; simp only at h
  cases h14 : sp.smooth fm with
  | error e => rw [h14] at h; cases h
  | ok sm =>
  rw [h14] at h; simp only at h
  cases h15 : sp.smooth fs with
  | error e => rw [h15] at h; cases h
  | ok ss =>
  rw [h15] at h; simp only at h
  cases h16 : firstGe (fm.map Prod.fst) f.1 with
  | error e => rw [h16] at h; cases h
  | ok j1 =>
  rw [h16] at h; simp only at h
  cases h17 : firstGe (fs.map Prod.fst) f.1 with
  | error e => rw [h17] at h; cases h
  | ok j1' =>
  rw [h17] at h; simp only at h
  cases h18 : lastLe (fm.map Prod.fst) f.2 with
  | error e => rw [h18] at h; cases h
  | ok j2 =>
  rw [h18] at h; simp only at h
  cases h19 : lastLe (fs.map Prod.fst) f.2 with
  | error e => rw [h19] at h; cases h
  | ok j2' =>
  rw [h19] at h; simp only at h
  cases h20 : (scoreArr ((rm.2.take i2).drop i1) ((rs.2.take i2).drop i1)).1 with
  | error e => rw [h20] at h; cases h
  | ok s8 =>
  rw [h20] at h; simp only at h
  cases h21 : meanArr s8 with
  | error e => rw [h21] at h; cases h
  | ok d8 =>
  rw [h21] at h; simp only at h
  cases h22 : (scoreArr ((sm.take (min j2 j2')).drop (max j1 j1')) ((ss.take (min j2 j2')).drop (max j1 j1'))).1 with
  | error e => rw [h22] at h; cases h
  | ok s9 =>
  rw [h22] at h; simp only at h
  cases h23 : meanArr s9 with
  | error e => rw [h23] at h; cases h
  | ok d9 =>
  rw [h23] at h
  cases h
  rw [scoreArr_inv _ _ _ h20] at h21
  rw [scoreArr_inv _ _ _ h22] at h23
  refine ⟨?_, meanArr_score _ _ _ h21, meanArr_score _ _ _ h23⟩
  rintro rfl
  cases Except.ok.inj (h1.symm.trans h2)
  cases Except.ok.inj (h6.symm.trans h7)
  cases Except.ok.inj (h8.symm.trans h9)
  cases Except.ok.inj (h12.symm.trans h13)
  cases Except.ok.inj (h14.symm.trans h15)
  rw [zipWith_score_self] at h21 h23
  rw [meanArr_zero _ _ h21, meanArr_zero _ _ h23]

/-! ## C96 -/

/-- C96. With baseline correction the RMS scores depend on the records only through what passes the filter
of the frequency range. The part missing: calls without baseline correction, see `C96_unfiltered_violated`. -/
theorem C96_filtered_partial (sp : SigProc) (x y x' y' : Rec ℝ) (fmin fmax : Option ℝ)
    (hx : gofFilter sp fmin fmax (trim15 x) = gofFilter sp fmin fmax (trim15 x'))
    (hy : gofFilter sp fmin fmax (trim15 y) = gofFilter sp fmin fmax (trim15 y')) :
    d567 sp x y fmin fmax true = d567 sp x' y' fmin fmax true := by
  have h : ∀ z : Rec ℝ, optStep true (gofFilter sp fmin fmax) z = gofFilter sp fmin fmax z := fun _ => rfl
  unfold d567
  simp only [h, hx, hy]

/-- C96. Without baseline correction the frequency range is ignored: any two ranges give the same RMS scores. -/
theorem C96_unfiltered_violated (sp : SigProc) (x y : Rec ℝ) (fmin fmax fmin' fmax' : Option ℝ) :
    d567 sp x y fmin fmax false = d567 sp x y fmin' fmax' false := rfl

/-! ## C98 -/

/-- The steps keep the number of samples. -/
def Spec.KeepsSamples (sp : SigProc) : Prop :=
  (∀ x y, sp.baseline x = .ok y → y.length = x.length) ∧ (∀ f x y, sp.highpass f x = .ok y → y.length = x.length) ∧
  (∀ f g x y, sp.bandpass f g x = .ok y → y.length = x.length)

theorem gofArias_length {x : Rec ℝ} {p : Rec ℝ × ℝ} (h : gofArias x = .ok p) : p.1.length = x.length := by
  unfold gofArias at h
  simp only [bind, Except.bind] at h
  split at h
  · cases h
  · split at h
    · cases h
    · cases h
      simp [ariasFrom_length]

/-- C98. Records of different lengths (after the removal of 29 samples) are never scored: the branch
which should bring them to one grid exchanges the arguments of the interpolation and keeps a pair. -/
theorem C98_lengths_violated {sp : SigProc} (hk : Spec.KeepsSamples sp) {x y : Rec ℝ} {fmin fmax : Option ℝ} {base : Bool}
    (hl : x.length ≠ y.length) (hx : 30 ≤ x.length) (r : ℝ × ℝ × ℝ × ℝ) : d1234 sp x y fmin fmax base ≠ .ok r := by
  intro h
  obtain ⟨bm, bs, am, as, iam, ias, vm, vs, iem, ies, nam, nas, nem, nes, a, e, s1, s2, h1, h2, h3, h4, h5, h6, h7, h8, h9, h10,
    h11, h12, h13, h14, h15, h16, h17, h18, h19, h20, h21, h22⟩ := d1234_inv h
  have kb : ∀ x y : Rec ℝ, optStep base sp.baseline x = .ok y → y.length = x.length := by
    intro x y h
    unfold optStep at h
    cases base with
    | true => exact hk.1 x y h
    | false => cases h; rfl
  have kf : ∀ x y : Rec ℝ, gofFilter sp fmin fmax x = .ok y → y.length = x.length := by
    intro x y h
    unfold gofFilter at h
    cases fmax with
    | none => exact hk.2.1 _ x y h
    | some f => exact hk.2.2 _ _ x y h
  have kn : ∀ (p : Rec ℝ × ℝ) (n : List ℝ), normIa p = .ok n → n.length = p.1.length := by
    intro p n h
    unfold normIa at h
    split at h
    · cases h
    · cases h; simp
  obtain ⟨e1, _⟩ := grid_score h15 h17
  rw [kn _ _ h11, kn _ _ h12, gofArias_length h5, gofArias_length h6, kf _ _ h3, kf _ _ h4, kb _ _ h1, kb _ _ h2] at e1
  unfold trim15 at e1
  simp at e1
  omega

/-! ## C57 -/

theorem zipWith_mul_map (c : ℝ) (a : List ℝ) : List.zipWith (· * ·) a (a.map (c * ·)) = (a.map fun x => x * x).map (c * ·) := by
  induction a with
  | nil => rfl
  | cons x a ih => simp only [List.map_cons, List.zipWith_cons_cons, ih]; congr 1; ring

theorem sum_map_mul (c : ℝ) (l : List ℝ) : (l.map (c * ·)).sum = c * l.sum := by
  induction l with
  | nil => simp
  | cons a l ih => simp only [List.map_cons, List.sum_cons, ih]; ring

/-- Cauchy–Schwarz for lists. -/
theorem list_cauchy : ∀ a b : List ℝ, (List.zipWith (· * ·) a b).sum ^ 2 ≤ (a.map fun x => x * x).sum * (b.map fun x => x * x).sum := by
  have nn : ∀ a : List ℝ, 0 ≤ (a.map fun x => x * x).sum := by
    intro a
    apply List.sum_nonneg
    intro y hy
    obtain ⟨z, _, rfl⟩ := List.mem_map.mp hy
    exact mul_self_nonneg z
  intro a
  induction a with
  | nil => intro b; simp
  | cons x a ih =>
    intro b
    cases b with
    | nil => simp
    | cons y b =>
      have := ih b
      have na := nn a
      have nb := nn b
      simp only [List.zipWith_cons_cons, List.map_cons, List.sum_cons]
      set P := (List.zipWith (· * ·) a b).sum
      set A := (a.map fun x => x * x).sum
      set B := (b.map fun x => x * x).sum
      have hxy : 2 * (x * y * P) ≤ x * x * B + y * y * A := by
        by_contra hc
        push Not at hc
        have h1 : 0 ≤ x * x * B + y * y * A := add_nonneg (mul_nonneg (mul_self_nonneg x) nb) (mul_nonneg (mul_self_nonneg y) na)
        have h2 : (x * x * B + y * y * A) ^ 2 < (2 * (x * y * P)) ^ 2 := by
          apply pow_lt_pow_left₀ hc h1 (by norm_num)
        have h3 : (x * y) ^ 2 * P ^ 2 ≤ (x * y) ^ 2 * (A * B) := mul_le_mul_of_nonneg_left this (sq_nonneg _)
        nlinarith [sq_nonneg (x * x * B - y * y * A)]
      nlinarith

/-- All steps of `d_10`. -/
theorem d10_inv {sp : SigProc} {x y : Rec ℝ} {fmin fmax : Option ℝ} {base : Bool} {r : ℝ}
    (h : d10 sp x y fmin fmax base = .ok r) :
    ∃ (m s : Rec ℝ) (dt1 dt2 : ℝ), optStep base sp.baseline x = .ok m ∧ optStep base sp.baseline y = .ok s ∧
      dtOf m = .ok dt1 ∧ dtOf s = .ok dt2 ∧ dt1 ≠ 0 ∧ dt2 ≠ 0 ∧ m.length = s.length ∧
      (∃ lo hi : ℝ, fmin = some lo ∧ fmax = some hi ∧ lo < hi) ∧
      0 ≤ ((vals m).map fun x => x * x).sum * dt1 ∧ 0 ≤ ((vals s).map fun x => x * x).sum * dt2 ∧
      Real.sqrt (((vals m).map fun x => x * x).sum * dt1) * Real.sqrt (((vals s).map fun x => x * x).sum * dt2) ≠ 0 ∧
      (List.zipWith (· * ·) (vals m) (vals s)).sum * dt1 ≠ 0 ∧
      r = 1 / (10 * |(List.zipWith (· * ·) (vals m) (vals s)).sum * dt1 /
        (Real.sqrt (((vals m).map fun x => x * x).sum * dt1) * Real.sqrt (((vals s).map fun x => x * x).sum * dt2))|) := by
  have hd : ∀ (z : Rec ℝ) (d : ℝ), hasDt z = .ok d → dtOf z = .ok d ∧ d ≠ 0 := by
    intro z d h
    unfold hasDt at h
    simp only [bind, Except.bind] at h
    split at h
    · cases h
    · rename_i v hv
      by_cases c : v = 0
      · rw [if_pos c] at h; cases h
      · rw [if_neg c] at h; cases h; exact ⟨hv, c⟩
  unfold d10 at h
  simp only [bind, Except.bind] at h
  cases h1 : optStep base sp.baseline x with
  | error e => rw [h1] at h; cases h
  | ok m =>
  rw [h1] at h; simp only at h
  cases h2 : optStep base sp.baseline y with
  | error e => rw [h2] at h; cases h
  | ok s =>
  rw [h2] at h; simp only at h
  cases h3 : hasDt m with
  | error e => rw [h3] at h; cases h
  | ok d1 =>
  rw [h3] at h; simp only at h
  cases h4 : hasDt s with
  | error e => rw [h4] at h; cases h
  | ok d2 =>
  rw [h4] at h; simp only at h
  cases h5 : gofRange fmin fmax with
  | error e => rw [h5] at h; cases h
  | ok f =>
  rw [h5] at h; simp only at h
  by_cases c1 : m.length = s.length
  swap
  · rw [if_pos c1] at h; cases h
  rw [if_neg (by rw [not_not]; exact c1)] at h
  by_cases c2 : (((m.map Prod.snd).map fun x => x * x).sum * d1 < 0 ∨ ((s.map Prod.snd).map fun x => x * x).sum * d2 < 0)
  · rw [if_pos c2] at h; cases h
  rw [if_neg c2] at h
  split at h
  · cases h
  · rename_i c3
    push Not at c2 c3
    cases h
    refine ⟨m, s, d1, d2, rfl, rfl, (hd _ _ h3).1, (hd _ _ h4).1, (hd _ _ h3).2, (hd _ _ h4).2, c1, ?_, c2.1, c2.2, c3.1, c3.2, rfl⟩
    unfold gofRange at h5
    cases fmin with
    | none => cases h5
    | some lo =>
      cases fmax with
      | none => cases h5
      | some hi =>
        simp only at h5
        by_cases c : hi ≤ lo
        · rw [if_pos c] at h5; cases h5
        · exact ⟨lo, hi, rfl, rfl, not_le.mp c⟩

/-- Squared form of the score: `(10·d10)² · dt1 · (Σ a₁a₂)² = dt2 · Σa₁² · Σa₂²`. -/
theorem d10_sq {A B P d1 d2 : ℝ} (hd1 : d1 ≠ 0) (hA : 0 ≤ A * d1) (hB : 0 ≤ B * d2) (hden : Real.sqrt (A * d1) * Real.sqrt (B * d2) ≠ 0)
    (hnum : P * d1 ≠ 0) :
    (10 * (1 / (10 * |P * d1 / (Real.sqrt (A * d1) * Real.sqrt (B * d2))|))) ^ 2 * (d1 * P ^ 2) = d2 * (A * B) := by
  have hs : (Real.sqrt (A * d1) * Real.sqrt (B * d2)) ^ 2 = (A * d1) * (B * d2) := by
    rw [mul_pow, Real.sq_sqrt hA, Real.sq_sqrt hB]
  set q := Real.sqrt (A * d1) * Real.sqrt (B * d2) with hq
  have hP : P ≠ 0 := left_ne_zero_of_mul hnum
  have habs : |P * d1 / q| ≠ 0 := abs_ne_zero.mpr (div_ne_zero hnum hden)
  have h1 : (10 * (1 / (10 * |P * d1 / q|))) ^ 2 = q ^ 2 / (P * d1) ^ 2 := by
    have : 10 * (1 / (10 * |P * d1 / q|)) = 1 / |P * d1 / q| := by field_simp
    rw [this, div_pow, one_pow, sq_abs, div_pow, one_div_div]
  rw [h1, hs]
  field_simp

/-- C57. For equal time steps the cross-correlation score is at least 0.1. The part missing: different time
steps, see `C57_steps_violated`. -/
theorem C57_least_partial {sp : SigProc} {x y : Rec ℝ} {fmin fmax : Option ℝ} {base : Bool} {r : ℝ}
    (h : d10 sp x y fmin fmax base = .ok r)
    (hdt : ∀ m s d, optStep base sp.baseline x = .ok m → optStep base sp.baseline y = .ok s → dtOf m = .ok d → dtOf s = .ok d) :
    1 / 10 ≤ r := by
  obtain ⟨m, s, d1, d2, h1, h2, h3, h4, n1, n2, hl, _, hA, hB, hden, hnum, hr⟩ := d10_inv h
  have he : d2 = d1 := by
    have := hdt m s d1 h1 h2 h3
    rw [h4] at this; exact Except.ok.inj this
  subst he
  have key := d10_sq n1 hA hB hden hnum
  rw [← hr] at key
  have cs := list_cauchy (vals m) (vals s)
  set P := (List.zipWith (· * ·) (vals m) (vals s)).sum
  set A := ((vals m).map fun x => x * x).sum
  set B := ((vals s).map fun x => x * x).sum
  have hP : P ≠ 0 := left_ne_zero_of_mul hnum
  have hP2 : 0 < P ^ 2 := by positivity
  have h10 : (10 * r) ^ 2 * P ^ 2 = A * B := by
    have : d2 * ((10 * r) ^ 2 * P ^ 2) = d2 * (A * B) := by linarith
    exact mul_left_cancel₀ n1 this
  have hr0 : 0 ≤ r := by rw [hr]; positivity
  have h1' : 1 ≤ (10 * r) ^ 2 := by
    have : P ^ 2 * 1 ≤ P ^ 2 * (10 * r) ^ 2 := by linarith
    exact le_of_mul_le_mul_left this hP2
  have : 1 ≤ 10 * r := by
    by_contra hc
    push Not at hc
    have : (10 * r) ^ 2 < 1 := by nlinarith
    linarith
  linarith

/-- C57. Proportional records with the same time step get exactly 0.1, also with opposite sign. -/
theorem C57_proportional {sp : SigProc} {x y : Rec ℝ} {fmin fmax : Option ℝ} {base : Bool} {r c : ℝ}
    (h : d10 sp x y fmin fmax base = .ok r)
    (hdt : ∀ m s d, optStep base sp.baseline x = .ok m → optStep base sp.baseline y = .ok s → dtOf m = .ok d →
      dtOf s = .ok d ∧ vals s = (vals m).map (c * ·)) : r = 1 / 10 := by
  obtain ⟨m, s, d1, d2, h1, h2, h3, h4, n1, n2, hl, _, hA, hB, hden, hnum, hr⟩ := d10_inv h
  obtain ⟨e1, e2⟩ := hdt m s d1 h1 h2 h3
  have he : d2 = d1 := by rw [h4] at e1; exact Except.ok.inj e1
  subst he
  have key := d10_sq n1 hA hB hden hnum
  rw [← hr] at key
  have eP : (List.zipWith (· * ·) (vals m) (vals s)).sum = c * ((vals m).map fun x => x * x).sum := by
    rw [e2, zipWith_mul_map, sum_map_mul]
  have eB : ((vals s).map fun x => x * x).sum = c ^ 2 * ((vals m).map fun x => x * x).sum := by
    rw [e2, List.map_map, ← sum_map_mul, List.map_map]
    congr 1
    apply List.map_congr_left
    intro z _; simp; ring
  rw [eP] at key hnum
  rw [eB] at key
  set A := ((vals m).map fun x => x * x).sum
  have hcA : c * A ≠ 0 := left_ne_zero_of_mul hnum
  have hr0 : 0 ≤ r := by rw [hr]; positivity
  have : (10 * r) ^ 2 = 1 := by
    have h2 : d2 * (c * A) ^ 2 * (10 * r) ^ 2 = d2 * (c * A) ^ 2 * 1 := by linarith
    exact mul_left_cancel₀ (mul_ne_zero n1 (pow_ne_zero 2 hcA)) h2
  have h1' : 10 * r = 1 := by
    rcases (sq_eq_sq_iff_eq_or_eq_neg.mp (this.trans (one_pow 2).symm)) with h | h
    all_goals first | exact h | linarith
  linarith

/-- Records of the same values but with different time steps: the score is below 0.1 if the time step of the
measurement is the larger one, so that 0.1 is not the best value. -/
theorem C57_steps_violated {sp : SigProc} {x y : Rec ℝ} {fmin fmax : Option ℝ} {r d1 d2 : ℝ}
    (h : d10 sp x y fmin fmax false = .ok r) (hv : vals x = vals y) (h1 : dtOf x = .ok d1) (h2 : dtOf y = .ok d2)
    (h0 : 0 < d2) (hlt : d2 < d1) : r < 1 / 10 := by
  obtain ⟨m, s, e1, e2, i1, i2, h3, h4, n1, n2, hl, _, hA, hB, hden, hnum, hr⟩ := d10_inv h
  cases i1; cases i2
  rw [h1] at h3; cases h3
  rw [h2] at h4; cases h4
  have key := d10_sq n1 hA hB hden hnum
  rw [← hr, ← hv] at key
  rw [← hv] at hnum
  have eP : (List.zipWith (· * ·) (vals x) (vals x)).sum = ((vals x).map fun x => x * x).sum := by rw [List.zipWith_self]
  rw [eP] at key hnum
  set A := ((vals x).map fun x => x * x).sum
  have hA0 : A ≠ 0 := left_ne_zero_of_mul hnum
  have hA2 : 0 < A ^ 2 := by positivity
  have hsq : (10 * r) ^ 2 * d1 = d2 := by
    have : A ^ 2 * ((10 * r) ^ 2 * d1) = A ^ 2 * d2 := by linarith
    exact mul_left_cancel₀ (ne_of_gt hA2) this
  by_contra hc
  push Not at hc
  have : 1 ≤ (10 * r) ^ 2 := by nlinarith
  nlinarith

/-- Without `fmin` or `fmax` the scores d8, d9 and d10 are never computed although both are optional. -/
theorem C95_defaults_violated (sp : SigProc) (x y : Rec ℝ) (fmin fmax : Option ℝ) (base : Bool)
    (h : fmin = none ∨ fmax = none) : (∀ r, d10 sp x y fmin fmax base ≠ .ok r) ∧ ∀ r, d89 sp x y fmin fmax base ≠ .ok r := by
  have hg : gofRange fmin fmax = .error .typeError := by
    unfold gofRange
    rcases h with rfl | rfl
    · rfl
    · cases fmin <;> rfl
  constructor
  · intro r hr
    obtain ⟨_, _, _, _, _, _, _, _, _, _, _, ⟨lo, hi, e1, e2, _⟩, _⟩ := d10_inv hr
    rcases h with h | h
    · rw [h] at e1; cases e1
    · rw [h] at e2; cases e2
  · intro r hr
    unfold d89 at hr
    simp only [bind, Except.bind] at hr
    iterate 4 (split at hr; · cases hr)
    rw [hg] at hr
    cases hr

/-! Concrete records: a score of the cross-correlation of a record with itself and with a slower copy. -/

/-- No signal processing. -/
noncomputable def idProc : SigProc where
  baseline x := .ok x
  highpass _ x := .ok x
  bandpass _ _ x := .ok x
  wavelet x := .ok x
  spectrum _ _ x := .ok (x.map Prod.fst, x.map Prod.snd)
  fourier x := .ok x
  smooth x := .ok (x.map Prod.snd)

example : Spec.KeepsSamples idProc := by
  refine ⟨?_, ?_, ?_⟩
  · intro x y h; cases h; rfl
  · intro f x y h; cases h; rfl
  · intro f g x y h; cases h; rfl

example : ∃ r, d10 idProc [(0, 1), (1, 2)] [(0, 3), (1, 6)] (some 1) (some 2) true = .ok r ∧ r = 1 / 10 := by
  have h5 : Real.sqrt 5 * Real.sqrt 45 = 15 := by
    rw [← Real.sqrt_mul (by norm_num), show (5 : ℝ) * 45 = 15 ^ 2 by norm_num, Real.sqrt_sq (by norm_num)]
  have : ∃ r, d10 idProc [(0, 1), (1, 2)] [(0, 3), (1, 6)] (some 1) (some 2) true = .ok r := by
    unfold d10
    have e5 : ((1 : ℝ) * 1 + (2 * 2 + 0)) * (1 - 0) = 5 := by norm_num
    have e45 : ((3 : ℝ) * 3 + (6 * 6 + 0)) * (1 - 0) = 45 := by norm_num
    simp only [bind, Except.bind, optStep, idProc, if_true, hasDt, dtOf, gofRange]
    norm_num [h5]
  obtain ⟨r, hr⟩ := this
  refine ⟨r, hr, C57_proportional (c := 3) hr ?_⟩
  intro m s d h1 h2 h3
  cases h1; cases h2
  refine ⟨h3, ?_⟩
  simp [vals]; norm_num

end Verif
