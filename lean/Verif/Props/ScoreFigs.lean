import Verif.Model.ScoreFigs
import Verif.Props.ScoreProc
import Verif.Props.MotionCompare
import Verif.Props.Printed

/-!
Property C174: the figures of the goodness-of-fit scores.
-/

set_option linter.unusedSectionVars false
set_option linter.unusedVariables false

namespace Verif

namespace Spec

/-- `y` is the curve `ia` divided by its last value, except that after the first point values below the machine epsilon are raised to
it. -/
def Normalised (ia : List ℝ) (peak : ℝ) (y : List ℝ) : Prop :=
  y.length = ia.length ∧ ∀ (k : Nat) v, ia[k]? = some v → ∃ w, y[k]? = some w ∧
    (k = 0 ∨ 1 / 2 ^ 52 ≤ v / peak → w = v / peak) ∧ (k ≠ 0 → v / peak < 1 / 2 ^ 52 → w = 1 / 2 ^ 52)

/-- The lines of the two records, each at its times, in either order. -/
def Both (tm m ts s : List ℝ) (l : List (LabLine ℝ)) : Prop :=
  l = [⟨some "Measurement", tm, m⟩, ⟨some "Simulation", ts, s⟩] ∨ l = [⟨some "Simulation", ts, s⟩, ⟨some "Measurement", tm, m⟩]

/-- The line drawn first reaches at least as far from zero as the second. -/
def LargerFirst (l : List (LabLine ℝ)) : Prop :=
  ∀ p q, l = [p, q] → ∀ v ∈ q.ys, ∃ w ∈ p.ys, |v| ≤ |w|

/-- No point of the lines lies to the right of the limits of the axis, and none to the left if the times are not negative. -/
def WithinAxis (p : ScorePanel) : Prop :=
  ∀ l ∈ p.lines, ∀ x ∈ l.xs, x ≤ p.xlim.2 ∧ (0 ≤ x → p.xlim.1 ≤ x)

/-- `s'` is `s` but with the values at points of `[a, b]` raised to at least 2^-52. -/
def RaisedTo (a b : ℝ) (t s s' : List ℝ) : Prop :=
  s'.length = s.length ∧ ∀ (k : Nat) u v, t[k]? = some u → s[k]? = some v →
    s'[k]? = some (if a ≤ u ∧ u ≤ b then max v (1 / 2 ^ 52) else v)

/-- The area under the larger of two lines over the points of `[a, b]`: the points of its upper edge. -/
noncomputable def areaUnder (a b : ℝ) (t m s : List ℝ) : List (ℝ × ℝ) :=
  ((t.zip (m.zip s)).filter fun p => decide (a ≤ p.1 ∧ p.1 ≤ b)).map fun p => (p.1, max p.2.1 p.2.2)

/-- A panel comparing two spectra over the points `t` (and `t'`), scored over `[a, b]` with the score `r`. -/
def SpectrumPanel (a b r : ℝ) (t m t' s : List ℝ) (p : ScorePanel) : Prop :=
  p.title = [fmtF 2 r] ∧ (∃ m' s', RaisedTo a b t m m' ∧ RaisedTo a b t s s' ∧
    p.lines = [⟨some "Measurement", t, m'⟩, ⟨some "Simulation", t', s'⟩] ∧
    ∃ f : List ℝ × List ℝ, p.fill = some f ∧ f.1.length = f.2.length ∧ f.1.zip f.2 = areaUnder a b t m' s') ∧
  ∀ x ∈ t, p.xlim.1 ≤ x ∧ x ≤ p.xlim.2

end Spec

open Spec (Normalised Both LargerFirst WithinAxis times vals)

theorem foldl_max_spec : ∀ (l : List ℝ) (a : ℝ), (l.foldl max a = a ∨ l.foldl max a ∈ l) ∧ a ≤ l.foldl max a ∧ ∀ v ∈ l, v ≤ l.foldl max a := by
  intro l
  induction l with
  | nil => intro a; exact ⟨Or.inl rfl, le_refl _, fun v h => by cases h⟩
  | cons b l ih =>
    intro a
    obtain ⟨h1, h2, h3⟩ := ih (max a b)
    rw [List.foldl_cons]
    refine ⟨?_, (le_max_left _ _).trans h2, ?_⟩
    · rcases h1 with h1 | h1
      · rw [h1]
        rcases max_choice a b with c | c
        · exact Or.inl c
        · rw [c]; exact Or.inr List.mem_cons_self
      · exact Or.inr (List.mem_cons_of_mem _ h1)
    · intro v hv
      rcases List.mem_cons.mp hv with rfl | hv
      · exact (le_max_right _ _).trans h2
      · exact h3 v hv

theorem npMaxR_spec {l : List ℝ} {m : ℝ} (h : npMaxR l = .ok m) : m ∈ l ∧ ∀ v ∈ l, v ≤ m := by
  cases l with
  | nil => cases h
  | cons a l =>
    simp only [npMaxR, Except.ok.injEq] at h
    subst h
    obtain ⟨h1, h2, h3⟩ := foldl_max_spec l a
    refine ⟨?_, ?_⟩
    · rcases h1 with h1 | h1
      · rw [h1]; exact List.mem_cons_self
      · exact List.mem_cons_of_mem _ h1
    · intro v hv
      rcases List.mem_cons.mp hv with rfl | hv
      · exact h2
      · exact h3 v hv

theorem npMaxR_ok {l : List ℝ} (h : l ≠ []) : ∃ m, npMaxR l = .ok m := by
  cases l with
  | nil => exact absurd rfl h
  | cons a l => exact ⟨_, rfl⟩

theorem labLine_inv {K : Type} {lab : Option String} {x y : List K} {l : LabLine K} (h : labLine lab x y = .ok l) :
    x.length = y.length ∧ l = ⟨lab, x, y⟩ := by
  unfold labLine at h
  split at h
  · rename_i c; cases h; exact ⟨c, rfl⟩
  · cases h

theorem twoLines_inv {tm ts m s : List ℝ} {l : List (LabLine ℝ)} (h : twoLines tm ts m s = .ok l) :
    tm.length = m.length ∧ ts.length = s.length ∧ l = [⟨some "Measurement", tm, m⟩, ⟨some "Simulation", ts, s⟩] := by
  unfold twoLines at h
  simp only [bind, Except.bind] at h
  split at h
  · cases h
  rename_i a ha
  split at h
  · cases h
  rename_i b hb
  cases h
  obtain ⟨e1, rfl⟩ := labLine_inv ha
  obtain ⟨e2, rfl⟩ := labLine_inv hb
  exact ⟨e1, e2, rfl⟩

theorem twoLines_ok {tm ts m s : List ℝ} (h1 : tm.length = m.length) (h2 : ts.length = s.length) :
    twoLines tm ts m s = .ok [⟨some "Measurement", tm, m⟩, ⟨some "Simulation", ts, s⟩] := by
  unfold twoLines
  rw [labLine_ok _ _ _ h1, labLine_ok _ _ _ h2]; rfl

theorem afterScore_length (l : List ℝ) : (afterScore l).length = l.length := by
  cases l with
  | nil => rfl
  | cons a l => simp [afterScore, clampArr]

/-- All steps of `d_1234` with a figure. -/
theorem d1234Fig_inv {sp : SigProc} {meas simu : Rec ℝ} {fmin fmax : Option ℝ} {base : Bool} {r : ℝ × ℝ × ℝ × ℝ} {fig : List ScorePanel}
    (h : d1234Fig sp meas simu fmin fmax base = .ok (r, fig)) :
    d1234 sp meas simu fmin fmax base = .ok r ∧
    ∃ (bm bs am as : Rec ℝ) (iam ias : Rec ℝ × ℝ) (vm vs : Rec ℝ × Rec ℝ) (iem ies : Rec ℝ × ℝ) (nam nas nem nes : List ℝ)
      (l1 l2 l3 l4 : List (LabLine ℝ)) (x1 x2 : ℝ),
      optStep base sp.baseline (trim15 meas) = .ok bm ∧ optStep base sp.baseline (trim15 simu) = .ok bs ∧
      gofFilter sp fmin fmax bm = .ok am ∧ gofFilter sp fmin fmax bs = .ok as ∧
      gofArias am = .ok iam ∧ gofArias as = .ok ias ∧ numInt am = .ok vm ∧ numInt as = .ok vs ∧
      gofArias vm.1 = .ok iem ∧ gofArias vs.1 = .ok ies ∧
      normIa iam = .ok nam ∧ normIa ias = .ok nas ∧ normIa iem = .ok nem ∧ normIa ies = .ok nes ∧
      twoLines ((trim15 meas).map Prod.fst) ((trim15 meas).map Prod.fst) (afterScore nam) (afterScore nas) = .ok l1 ∧
      npMaxR (iam.1.map Prod.fst) = .ok x1 ∧
      twoLines ((trim15 meas).map Prod.fst) ((trim15 meas).map Prod.fst) (afterScore nem) (afterScore nes) = .ok l2 ∧
      npMaxR (iem.1.map Prod.fst) = .ok x2 ∧
      twoLines ((trim15 meas).map Prod.fst) ((trim15 meas).map Prod.fst) (iam.1.map Prod.snd) (ias.1.map Prod.snd) = .ok l3 ∧
      twoLines ((trim15 meas).map Prod.fst) ((trim15 meas).map Prod.fst) (iem.1.map Prod.snd) (ies.1.map Prod.snd) = .ok l4 ∧
      fig = [⟨[fmtF 2 r.1], l1, none, (0, x1)⟩, ⟨[fmtF 2 r.2.1], l2, none, (0, x2)⟩, ⟨[fmtF 2 r.2.2.1], l3, none, (0, x1)⟩,
        ⟨[fmtF 2 r.2.2.2], l4, none, (0, x2)⟩] := by
  unfold d1234Fig at h
  simp only [bind, Except.bind] at h
  iterate 26 (split at h; · cases h)
  simp only [pure, Except.pure, Except.ok.injEq, Prod.mk.injEq] at h
  obtain ⟨rfl, rfl⟩ := h
  constructor
  · unfold d1234
    simp only [bind, Except.bind, *]
    rfl
  · exact ⟨_, _, _, _, _, _, _, _, _, _, _, _, _, _, _, _, _, _, _, _, by assumption, by assumption, by assumption, by assumption,
      by assumption, by assumption, by assumption, by assumption, by assumption, by assumption, by assumption, by assumption,
      by assumption, by assumption, by assumption, by assumption, by assumption, by assumption, by assumption, by assumption, rfl⟩

theorem clampArr_get (l : List ℝ) (k : Nat) : (clampArr l)[k]? = l[k]?.map fun x => if x < 1 / 2 ^ 52 then 1 / 2 ^ 52 else x := by
  unfold clampArr feps
  rw [List.getElem?_map]

theorem afterScore_get (l : List ℝ) (k : Nat) (v : ℝ) (h : l[k]? = some v) :
    (afterScore l)[k]? = some (if k ≠ 0 ∧ v < 1 / 2 ^ 52 then 1 / 2 ^ 52 else v) := by
  cases l with
  | nil => cases h
  | cons a l =>
    cases k with
    | zero =>
      simp only [afterScore, List.take_succ_cons, List.take_zero, List.drop_succ_cons, List.drop_zero, List.singleton_append,
        List.getElem?_cons_zero, ne_eq, not_true_eq_false, false_and, if_false] at h ⊢
      exact h
    | succ k =>
      simp only [afterScore, List.take_succ_cons, List.take_zero, List.drop_succ_cons, List.drop_zero, List.singleton_append,
        List.getElem?_cons_succ] at h ⊢
      rw [clampArr_get, h]
      simp

theorem normIa_shown {p : Rec ℝ × ℝ} {n : List ℝ} (h : normIa p = .ok n) : Normalised (p.1.map Prod.snd) p.2 (afterScore n) := by
  unfold normIa at h
  split at h
  · cases h
  · cases h
    refine ⟨by rw [afterScore_length]; simp, ?_⟩
    intro k v hv
    have hk : (p.1.map fun r => r.2 / p.2)[k]? = some (v / p.2) := by
      rw [List.getElem?_map] at hv ⊢
      cases hp : p.1[k]? with
      | none => rw [hp] at hv; cases hv
      | some q =>
        rw [hp] at hv
        simp only [Option.map_some, Option.some.injEq] at hv ⊢
        rw [hv]
    refine ⟨_, afterScore_get _ k _ hk, ?_, ?_⟩
    · rintro (rfl | h)
      · simp
      · rw [if_neg (fun c => absurd h (not_le.mpr c.2))]
    · intro h1 h2
      rw [if_pos ⟨h1, h2⟩]

/-- C174. The figure of scores 1 to 4 has four panels: the normalised Arias intensities, the normalised energy integrals, the Arias
intensities and the energy integrals of measurement and simulation (after baseline correction and filter), with the two scores' digits in
the titles; the numbers drawn are those that are scored, which differ from the normalised curves below the machine epsilon only.
Missing: the simulation is drawn at the times of the measurement (`C174_times_violated`). -/
theorem C174_intensity_partial {sp : SigProc} {meas simu : Rec ℝ} {fmin fmax : Option ℝ} {base : Bool} {r : ℝ × ℝ × ℝ × ℝ}
    {fig : List ScorePanel} (h : d1234Fig sp meas simu fmin fmax base = .ok (r, fig)) :
    ∃ (bm bs am as : Rec ℝ) (iam ias : Rec ℝ × ℝ) (vm vs : Rec ℝ × Rec ℝ) (iem ies : Rec ℝ × ℝ) (yam yas yem yes : List ℝ) (x1 x2 : ℝ),
      optStep base sp.baseline (trim15 meas) = .ok bm ∧ optStep base sp.baseline (trim15 simu) = .ok bs ∧
      gofFilter sp fmin fmax bm = .ok am ∧ gofFilter sp fmin fmax bs = .ok as ∧
      gofArias am = .ok iam ∧ gofArias as = .ok ias ∧ numInt am = .ok vm ∧ numInt as = .ok vs ∧
      gofArias vm.1 = .ok iem ∧ gofArias vs.1 = .ok ies ∧
      Normalised (vals iam.1) iam.2 yam ∧ Normalised (vals ias.1) ias.2 yas ∧ Normalised (vals iem.1) iem.2 yem ∧
      Normalised (vals ies.1) ies.2 yes ∧
      fig = [⟨[fmtF 2 r.1], [⟨some "Measurement", times (trim15 meas), yam⟩, ⟨some "Simulation", times (trim15 meas), yas⟩], none, (0, x1)⟩,
        ⟨[fmtF 2 r.2.1], [⟨some "Measurement", times (trim15 meas), yem⟩, ⟨some "Simulation", times (trim15 meas), yes⟩], none, (0, x2)⟩,
        ⟨[fmtF 2 r.2.2.1], [⟨some "Measurement", times (trim15 meas), vals iam.1⟩, ⟨some "Simulation", times (trim15 meas), vals ias.1⟩],
          none, (0, x1)⟩,
        ⟨[fmtF 2 r.2.2.2], [⟨some "Measurement", times (trim15 meas), vals iem.1⟩, ⟨some "Simulation", times (trim15 meas), vals ies.1⟩],
          none, (0, x2)⟩] := by
  obtain ⟨_, bm, bs, am, as, iam, ias, vm, vs, iem, ies, nam, nas, nem, nes, l1, l2, l3, l4, x1, x2, h1, h2, h3, h4, h5, h6, h7, h8, h9,
    h10, h11, h12, h13, h14, h15, h16, h17, h18, h19, h20, rfl⟩ := d1234Fig_inv h
  obtain ⟨_, _, rfl⟩ := twoLines_inv h15
  obtain ⟨_, _, rfl⟩ := twoLines_inv h17
  obtain ⟨_, _, rfl⟩ := twoLines_inv h19
  obtain ⟨_, _, rfl⟩ := twoLines_inv h20
  exact ⟨bm, bs, am, as, iam, ias, vm, vs, iem, ies, _, _, _, _, x1, x2, h1, h2, h3, h4, h5, h6, h7, h8, h9, h10, normIa_shown h11,
    normIa_shown h12, normIa_shown h13, normIa_shown h14, rfl⟩

/-- C174. The line of the simulation is at its own times exactly if they are those of the measurement. -/
theorem C174_times_exact {sp : SigProc} {meas simu : Rec ℝ} {fmin fmax : Option ℝ} {base : Bool} {r : ℝ × ℝ × ℝ × ℝ}
    {fig : List ScorePanel} (h : d1234Fig sp meas simu fmin fmax base = .ok (r, fig)) (p : ScorePanel) (hp : p ∈ fig) :
    ∃ l, p.lines[1]? = some l ∧ l.lab = some "Simulation" ∧ (l.xs = times (trim15 simu) ↔ times (trim15 meas) = times (trim15 simu)) := by
  obtain ⟨bm, bs, am, as, iam, ias, vm, vs, iem, ies, yam, yas, yem, yes, x1, x2, h1, h2, h3, h4, h5, h6, h7, h8, h9, h10, h11, h12, h13,
    h14, rfl⟩ := C174_intensity_partial h
  simp only [List.mem_cons, List.not_mem_nil, or_false] at hp
  rcases hp with rfl | rfl | rfl | rfl <;> exact ⟨_, rfl, rfl, Iff.rfl⟩

/-- C174 fails for records that are not sampled at the same times (other step or other start, same number of samples): in every panel
the simulation is drawn at wrong times. -/
theorem C174_times_violated {sp : SigProc} {meas simu : Rec ℝ} {fmin fmax : Option ℝ} {base : Bool} {r : ℝ × ℝ × ℝ × ℝ}
    {fig : List ScorePanel} (h : d1234Fig sp meas simu fmin fmax base = .ok (r, fig))
    (ht : times (trim15 meas) ≠ times (trim15 simu)) (p : ScorePanel) (hp : p ∈ fig) :
    ∃ l, p.lines[1]? = some l ∧ l.lab = some "Simulation" ∧ l.xs ≠ times (trim15 simu) := by
  obtain ⟨l, a, b, c⟩ := C174_times_exact h p hp
  exact ⟨l, a, b, fun e => ht (c.mp e)⟩

/-- C174. Scores 1 to 4 are the same with the figure, which never fails. -/
theorem C174_same_intensity {sp : SigProc} (hk : Spec.KeepsSamples sp) {meas simu : Rec ℝ} {fmin fmax : Option ℝ} {base : Bool}
    (r : ℝ × ℝ × ℝ × ℝ) : d1234 sp meas simu fmin fmax base = .ok r ↔ ∃ fig, d1234Fig sp meas simu fmin fmax base = .ok (r, fig) := by
  constructor
  · intro h
    obtain ⟨bm, bs, am, as, iam, ias, vm, vs, iem, ies, nam, nas, nem, nes, a, e, s1, s2, h1, h2, h3, h4, h5, h6, h7, h8, h9, h10,
      h11, h12, h13, h14, h15, h16, h17, h18, h19, h20, h21, h22⟩ := d1234_inv h
    have kb : ∀ x y : Rec ℝ, optStep base sp.baseline x = .ok y → y.length = x.length := by
      intro x y h
      unfold optStep at h
      cases base with
      | true => exact hk.1 x y h
      | false => cases h; rfl
    have kf : ∀ x y : Rec ℝ, gofFilter sp fmin fmax x = .ok y → y.length = x.length := by
      intro x y h
      unfold gofFilter at h
      cases fmax with
      | none => exact hk.2.1 _ x y h
      | some f => exact hk.2.2 _ _ x y h
    have kn : ∀ (p : Rec ℝ × ℝ) (n : List ℝ), normIa p = .ok n → n.length = p.1.length := by
      intro p n h
      unfold normIa at h
      split at h
      · cases h
      · cases h; simp
    have kv : ∀ (x : Rec ℝ) (v : Rec ℝ × Rec ℝ), numInt x = .ok v → v.1.length = x.length := by
      intro x v h
      cases hd : dtOf x with
      | error e => unfold numInt at h; rw [hd] at h; cases h
      | ok d =>
        rw [numInt_ok d x hd] at h
        cases h
        simp [cumsum, cumsumFrom_length, times, vals]
    have ka : ∀ (x : Rec ℝ) (p : Rec ℝ × ℝ), gofArias x = .ok p → p.1 ≠ [] := by
      intro x p h c
      have hl := gofArias_length h
      rw [c] at hl
      have : x = [] := List.length_eq_zero_iff.mp hl.symm
      subst this
      cases h
    obtain ⟨g1, _⟩ := grid_score h15 h17
    obtain ⟨g2, _⟩ := grid_score h16 h18
    have e1 : (trim15 meas).length = nam.length := by rw [kn _ _ h11, gofArias_length h5, kf _ _ h3, kb _ _ h1]
    have e2 : (trim15 meas).length = nem.length := by rw [kn _ _ h13, gofArias_length h9, kv _ _ h7, kf _ _ h3, kb _ _ h1]
    have t1 := twoLines_ok (tm := (trim15 meas).map Prod.fst) (ts := (trim15 meas).map Prod.fst) (m := afterScore nam) (s := afterScore nas)
      (by rw [List.length_map, afterScore_length, e1]) (by rw [List.length_map, afterScore_length, e1, g1])
    have t2 := twoLines_ok (tm := (trim15 meas).map Prod.fst) (ts := (trim15 meas).map Prod.fst) (m := afterScore nem) (s := afterScore nes)
      (by rw [List.length_map, afterScore_length, e2]) (by rw [List.length_map, afterScore_length, e2, g2])
    have t3 := twoLines_ok (tm := (trim15 meas).map Prod.fst) (ts := (trim15 meas).map Prod.fst) (m := iam.1.map Prod.snd)
      (s := ias.1.map Prod.snd) (by rw [List.length_map, List.length_map, e1, kn _ _ h11])
      (by rw [List.length_map, List.length_map, e1, g1, kn _ _ h12])
    have t4 := twoLines_ok (tm := (trim15 meas).map Prod.fst) (ts := (trim15 meas).map Prod.fst) (m := iem.1.map Prod.snd)
      (s := ies.1.map Prod.snd) (by rw [List.length_map, List.length_map, e2, kn _ _ h13])
      (by rw [List.length_map, List.length_map, e2, g2, kn _ _ h14])
    obtain ⟨x1, m1⟩ := npMaxR_ok (l := iam.1.map Prod.fst) (by simpa using ka _ _ h5)
    obtain ⟨x2, m2⟩ := npMaxR_ok (l := iem.1.map Prod.fst) (by simpa using ka _ _ h9)
    obtain ⟨r1, r2, r3, r4⟩ := r
    simp only at h19 h20 h21 h22
    unfold d1234Fig
    simp only [bind, Except.bind, h1, h2, h3, h4, h5, h6, h7, h8, h9, h10, h11, h12, h13, h14, h15, h16, h17, h18, h19, h20, h21, h22,
      t1, t2, t3, t4, m1, m2, pure, Except.pure]
    exact ⟨_, rfl⟩
  · rintro ⟨fig, h⟩
    exact (d1234Fig_inv h).1

/-! ## Scores 5 to 7 -/

theorem peakLines_inv {pm ps : ℝ} {tm ts : List ℝ} {m s : Rec ℝ} {l : List (LabLine ℝ)} (h : peakLines pm ps tm ts m s = .ok l) :
    tm.length = m.length ∧ ts.length = s.length ∧ Both tm (vals m) ts (vals s) l ∧
    l = if ps ≤ pm then [⟨some "Measurement", tm, vals m⟩, ⟨some "Simulation", ts, vals s⟩]
      else [⟨some "Simulation", ts, vals s⟩, ⟨some "Measurement", tm, vals m⟩] := by
  unfold peakLines at h
  simp only [bind, Except.bind] at h
  split at h
  · cases h
  rename_i a ha
  split at h
  · cases h
  rename_i b hb
  cases h
  obtain ⟨e1, rfl⟩ := labLine_inv ha
  obtain ⟨e2, rfl⟩ := labLine_inv hb
  refine ⟨by simpa using e1, by simpa using e2, ?_, rfl⟩
  unfold Spec.Both
  by_cases c : ps ≤ pm
  · rw [if_pos c]; exact Or.inl rfl
  · rw [if_neg c]; exact Or.inr rfl

theorem peakLines_ok {pm ps : ℝ} {tm ts : List ℝ} {m s : Rec ℝ} (h1 : tm.length = m.length) (h2 : ts.length = s.length) :
    ∃ l, peakLines pm ps tm ts m s = .ok l := by
  unfold peakLines
  rw [labLine_ok _ _ _ (by simpa using h1), labLine_ok _ _ _ (by simpa using h2)]
  exact ⟨_, rfl⟩

theorem absPeak_inv {x : Rec ℝ} {p : ℝ} (h : absPeak x = .ok p) : x ≠ [] ∧ p = maxAbs (vals x) := by
  unfold absPeak at h
  split at h
  · cases h
  · rename_i c; cases h; exact ⟨c, rfl⟩

theorem absPeak_ok {x : Rec ℝ} (h : x ≠ []) : absPeak x = .ok (maxAbs (vals x)) := if_neg h

theorem vals_ne_nil {x : Rec ℝ} (h : x ≠ []) : vals x ≠ [] := by simpa [Spec.vals] using h

/-- Lines ordered by the peaks of the records drawn. -/
theorem peakLines_larger {tm ts : List ℝ} {m s : Rec ℝ} {l : List (LabLine ℝ)} (hm : m ≠ []) (hs : s ≠ [])
    (h : peakLines (maxAbs (vals m)) (maxAbs (vals s)) tm ts m s = .ok l) : LargerFirst l := by
  obtain ⟨_, _, _, rfl⟩ := peakLines_inv h
  intro p q e v hv
  by_cases c : maxAbs (vals s) ≤ maxAbs (vals m)
  · rw [if_pos c] at e
    simp only [List.cons.injEq, and_true] at e
    obtain ⟨rfl, rfl⟩ := e
    obtain ⟨w, hw, e⟩ := maxAbs_mem (vals_ne_nil hm)
    exact ⟨w, hw, ((le_maxAbs hv).trans c).trans e.ge⟩
  · rw [if_neg c] at e
    simp only [List.cons.injEq, and_true] at e
    obtain ⟨rfl, rfl⟩ := e
    obtain ⟨w, hw, e⟩ := maxAbs_mem (vals_ne_nil hs)
    exact ⟨w, hw, ((le_maxAbs hv).trans (not_le.mp c).le).trans e.ge⟩

theorem both_within {tm ts m s : List ℝ} {l : List (LabLine ℝ)} {t : List ℝ} {x1 x2 : ℝ} (h : Both tm m ts s l)
    (h1 : npMaxR tm = .ok x1) (h2 : npMaxR ts = .ok x2) : WithinAxis ⟨t, l, none, (0, max x1 x2)⟩ := by
  intro ln hl x hx
  have key : ln.xs = tm ∨ ln.xs = ts := by
    rcases h with rfl | rfl <;> simp only [List.mem_cons, List.not_mem_nil, or_false] at hl <;> rcases hl with rfl | rfl <;> simp
  refine ⟨?_, fun c => c⟩
  rcases key with k | k
  · rw [k] at hx; exact ((npMaxR_spec h1).2 x hx).trans (le_max_left _ _)
  · rw [k] at hx; exact ((npMaxR_spec h2).2 x hx).trans (le_max_right _ _)

/-- All steps of `d_567` with a figure. -/
theorem d567Fig_inv {sp : SigProc} {meas simu : Rec ℝ} {fmin fmax : Option ℝ} {base : Bool} {r : ℝ × ℝ × ℝ} {fig : List ScorePanel}
    (h : d567Fig sp meas simu fmin fmax base = .ok (r, fig)) :
    d567 sp meas simu fmin fmax base = .ok r ∧
    ∃ (am as : Rec ℝ) (pam pas ram ras : ℝ) (bm bs : Rec ℝ) (im is : Rec ℝ × Rec ℝ) (rvm rvs pvm pvs : ℝ) (um us : Rec ℝ) (pum pus rum rus : ℝ)
      (l1 l2 l3 : List (LabLine ℝ)) (x1 x2 : ℝ),
      optStep base (gofFilter sp fmin fmax) (trim15 meas) = .ok am ∧ optStep base (gofFilter sp fmin fmax) (trim15 simu) = .ok as ∧
      absPeak am = .ok pam ∧ absPeak as = .ok pas ∧
      calcRms am = .ok ram ∧ calcRms as = .ok ras ∧ optStep base sp.baseline am = .ok bm ∧ optStep base sp.baseline as = .ok bs ∧
      numInt bm = .ok im ∧ numInt bs = .ok is ∧ calcRms im.1 = .ok rvm ∧ calcRms is.1 = .ok rvs ∧
      absPeak im.1 = .ok pvm ∧ absPeak is.1 = .ok pvs ∧
      optStep base sp.wavelet im.2 = .ok um ∧ optStep base sp.wavelet is.2 = .ok us ∧ absPeak um = .ok pum ∧ absPeak us = .ok pus ∧
      calcRms um = .ok rum ∧ calcRms us = .ok rus ∧
      peakLines pam pas ((trim15 meas).map Prod.fst) ((trim15 simu).map Prod.fst) bm bs = .ok l1 ∧
      npMaxR ((trim15 meas).map Prod.fst) = .ok x1 ∧ npMaxR ((trim15 simu).map Prod.fst) = .ok x2 ∧
      peakLines pvm pvs ((trim15 meas).map Prod.fst) ((trim15 simu).map Prod.fst) im.1 is.1 = .ok l2 ∧
      peakLines pum pus ((trim15 meas).map Prod.fst) ((trim15 simu).map Prod.fst) um us = .ok l3 ∧
      r = (scoreNum ram ras, scoreNum rvm rvs, scoreNum rum rus) ∧
      fig = [⟨[fmtF 2 r.1, fmtF 2 r.2.1, fmtF 2 r.2.2], l1, none, (0, max x1 x2)⟩, ⟨[], l2, none, (0, max x1 x2)⟩,
        ⟨[], l3, none, (0, max x1 x2)⟩] := by
  unfold d567Fig at h
  simp only [bind, Except.bind] at h
  iterate 25 (split at h; · cases h)
  simp only [pure, Except.pure, Except.ok.injEq, Prod.mk.injEq] at h
  obtain ⟨rfl, rfl⟩ := h
  constructor
  · unfold d567
    simp only [bind, Except.bind, *]
    rfl
  · exact ⟨_, _, _, _, _, _, _, _, _, _, _, _, _, _, _, _, _, _, _, _, _, _, _, _, _, by assumption, by assumption, by assumption,
      by assumption, by assumption, by assumption, by assumption, by assumption, by assumption, by assumption, by assumption,
      by assumption, by assumption, by assumption, by assumption, by assumption, by assumption, by assumption, by assumption,
      by assumption, by assumption, by assumption, by assumption, by assumption, by assumption, rfl, rfl⟩

/-- C174. The figure of scores 5 to 7 has three panels: acceleration, velocity and displacement of both records, each at its own times and
within the axes, with the digits of the scores in the title; the larger velocity and the larger displacement are drawn first, so that the
other one is not hidden, and without baseline correction the larger acceleration too.  Missing: with baseline correction the accelerations
drawn are the corrected ones, while the score and the order of the lines are those of the records before the correction. -/
theorem C174_rms_partial {sp : SigProc} {meas simu : Rec ℝ} {fmin fmax : Option ℝ} {base : Bool} {r : ℝ × ℝ × ℝ}
    {fig : List ScorePanel} (h : d567Fig sp meas simu fmin fmax base = .ok (r, fig)) :
    ∃ (am as bm bs : Rec ℝ) (im is : Rec ℝ × Rec ℝ) (um us : Rec ℝ) (ram ras rvm rvs rum rus : ℝ) (p1 p2 p3 : ScorePanel),
      optStep base (gofFilter sp fmin fmax) (trim15 meas) = .ok am ∧ optStep base (gofFilter sp fmin fmax) (trim15 simu) = .ok as ∧
      optStep base sp.baseline am = .ok bm ∧ optStep base sp.baseline as = .ok bs ∧ numInt bm = .ok im ∧ numInt bs = .ok is ∧
      optStep base sp.wavelet im.2 = .ok um ∧ optStep base sp.wavelet is.2 = .ok us ∧
      calcRms am = .ok ram ∧ calcRms as = .ok ras ∧ calcRms im.1 = .ok rvm ∧ calcRms is.1 = .ok rvs ∧ calcRms um = .ok rum ∧
      calcRms us = .ok rus ∧ r = (scoreNum ram ras, scoreNum rvm rvs, scoreNum rum rus) ∧
      fig = [p1, p2, p3] ∧ p1.title = [fmtF 2 r.1, fmtF 2 r.2.1, fmtF 2 r.2.2] ∧
      Both (times (trim15 meas)) (vals bm) (times (trim15 simu)) (vals bs) p1.lines ∧
      Both (times (trim15 meas)) (vals im.1) (times (trim15 simu)) (vals is.1) p2.lines ∧
      Both (times (trim15 meas)) (vals um) (times (trim15 simu)) (vals us) p3.lines ∧
      WithinAxis p1 ∧ WithinAxis p2 ∧ WithinAxis p3 ∧ LargerFirst p2.lines ∧ LargerFirst p3.lines ∧ (base = false → LargerFirst p1.lines) := by
  obtain ⟨_, am, as, pam, pas, ram, ras, bm, bs, im, is, rvm, rvs, pvm, pvs, um, us, pum, pus, rum, rus, l1, l2, l3, x1, x2, h1, h2, h3, h4,
    h5, h6, h7, h8, h9, h10, h11, h12, h13, h14, h15, h16, h17, h18, h19, h20, h21, h22, h23, h24, h25, hr, rfl⟩ := d567Fig_inv h
  obtain ⟨n3, rfl⟩ := absPeak_inv h3
  obtain ⟨n4, rfl⟩ := absPeak_inv h4
  obtain ⟨n13, rfl⟩ := absPeak_inv h13
  obtain ⟨n14, rfl⟩ := absPeak_inv h14
  obtain ⟨n17, rfl⟩ := absPeak_inv h17
  obtain ⟨n18, rfl⟩ := absPeak_inv h18
  obtain ⟨_, _, b1, _⟩ := peakLines_inv h21
  obtain ⟨_, _, b2, _⟩ := peakLines_inv h24
  obtain ⟨_, _, b3, _⟩ := peakLines_inv h25
  refine ⟨am, as, bm, bs, im, is, um, us, ram, ras, rvm, rvs, rum, rus, _, _, _, h1, h2, h7, h8, h9, h10, h15, h16, h5, h6, h11, h12, h19,
    h20, hr, rfl, rfl, b1, b2, b3, both_within b1 h22 h23, both_within b2 h22 h23, both_within b3 h22 h23, peakLines_larger n13 n14 h24,
    peakLines_larger n17 n18 h25, ?_⟩
  rintro rfl
  have e1 : bm = am := by cases h7; rfl
  have e2 : bs = as := by cases h8; rfl
  subst e1 e2
  exact peakLines_larger n3 n4 h21

/-- C174. Scores 5 to 7 are the same with the figure, which never fails. -/
theorem C174_same_rms {sp : SigProc} (hk : Spec.KeepsSamples sp) (hw : ∀ x y, sp.wavelet x = .ok y → y.length = x.length) {meas simu : Rec ℝ}
    {fmin fmax : Option ℝ} {base : Bool} (r : ℝ × ℝ × ℝ) :
    d567 sp meas simu fmin fmax base = .ok r ↔ ∃ fig, d567Fig sp meas simu fmin fmax base = .ok (r, fig) := by
  constructor
  · intro h
    obtain ⟨am, as, ram, ras, bm, bs, im, is, rvm, rvs, um, us, rum, rus, h1, h2, h3, h4, h5, h6, h7, h8, h9, h10, h11, h12, h13, h14,
      h15⟩ := d567_inv h
    have kb : ∀ x y : Rec ℝ, optStep base sp.baseline x = .ok y → y.length = x.length := by
      intro x y h
      unfold optStep at h
      cases base with
      | true => exact hk.1 x y h
      | false => cases h; rfl
    have kw : ∀ x y : Rec ℝ, optStep base sp.wavelet x = .ok y → y.length = x.length := by
      intro x y h
      unfold optStep at h
      cases base with
      | true => exact hw x y h
      | false => cases h; rfl
    have kf : ∀ x y : Rec ℝ, optStep base (gofFilter sp fmin fmax) x = .ok y → y.length = x.length := by
      intro x y h
      unfold optStep gofFilter at h
      cases base with
      | false => cases h; rfl
      | true =>
        cases fmax with
        | none => exact hk.2.1 _ x y h
        | some f => exact hk.2.2 _ _ x y h
    have kv : ∀ (x : Rec ℝ) (v : Rec ℝ × Rec ℝ), numInt x = .ok v → v.1.length = x.length ∧ v.2.length = x.length := by
      intro x v h
      cases hd : dtOf x with
      | error e => unfold numInt at h; rw [hd] at h; cases h
      | ok d =>
        rw [numInt_ok d x hd] at h
        cases h
        constructor <;> simp [cumsum, cumsumFrom_length, times, vals]
    have kr : ∀ (x : Rec ℝ) (v : ℝ), calcRms x = .ok v → x ≠ [] := by
      rintro x v h rfl
      simp [calcRms, meanArr, bind, Except.bind] at h
    have em : bm.length = (trim15 meas).length := by rw [kb _ _ h5, kf _ _ h1]
    have es : bs.length = (trim15 simu).length := by rw [kb _ _ h6, kf _ _ h2]
    have evm : im.1.length = (trim15 meas).length := by rw [(kv _ _ h7).1, em]
    have evs : is.1.length = (trim15 simu).length := by rw [(kv _ _ h8).1, es]
    have eum : um.length = (trim15 meas).length := by rw [kw _ _ h11, (kv _ _ h7).2, em]
    have eus : us.length = (trim15 simu).length := by rw [kw _ _ h12, (kv _ _ h8).2, es]
    have nm : trim15 meas ≠ [] := by
      intro c
      have := kf _ _ h1
      rw [c] at this
      exact kr _ _ h3 (List.length_eq_zero_iff.mp this)
    have ns : trim15 simu ≠ [] := by
      intro c
      have := kf _ _ h2
      rw [c] at this
      exact kr _ _ h4 (List.length_eq_zero_iff.mp this)
    obtain ⟨l1, q1⟩ := peakLines_ok (pm := maxAbs (vals am)) (ps := maxAbs (vals as)) (tm := (trim15 meas).map Prod.fst)
      (ts := (trim15 simu).map Prod.fst) (m := bm) (s := bs) (by rw [List.length_map, em]) (by rw [List.length_map, es])
    obtain ⟨l2, q2⟩ := peakLines_ok (pm := maxAbs (vals im.1)) (ps := maxAbs (vals is.1)) (tm := (trim15 meas).map Prod.fst)
      (ts := (trim15 simu).map Prod.fst) (m := im.1) (s := is.1) (by rw [List.length_map, evm]) (by rw [List.length_map, evs])
    obtain ⟨l3, q3⟩ := peakLines_ok (pm := maxAbs (vals um)) (ps := maxAbs (vals us)) (tm := (trim15 meas).map Prod.fst)
      (ts := (trim15 simu).map Prod.fst) (m := um) (s := us) (by rw [List.length_map, eum]) (by rw [List.length_map, eus])
    obtain ⟨x1, m1⟩ := npMaxR_ok (l := (trim15 meas).map Prod.fst) (by simpa using nm)
    obtain ⟨x2, m2⟩ := npMaxR_ok (l := (trim15 simu).map Prod.fst) (by simpa using ns)
    unfold d567Fig
    simp only [bind, Except.bind, h1, h2, h3, h4, h5, h6, h7, h8, h9, h10, h11, h12, h13, h14, h15, absPeak_ok (kr _ _ h3),
      absPeak_ok (kr _ _ h4), absPeak_ok (kr _ _ h9), absPeak_ok (kr _ _ h10), absPeak_ok (kr _ _ h13), absPeak_ok (kr _ _ h14), q1, q2, q3,
      m1, m2, pure, Except.pure]
    exact ⟨_, rfl⟩
  · rintro ⟨fig, h⟩
    exact (d567Fig_inv h).1

/-! ## Score 10 -/

/-- C174. Score 10 is the same with the figure; the figure, which never fails, shows both records after baseline correction, each at its own
times and within the axes. -/
theorem C174_cross {sp : SigProc} {meas simu : Rec ℝ} {fmin fmax : Option ℝ} {base : Bool} (r : ℝ) :
    d10 sp meas simu fmin fmax base = .ok r ↔ ∃ m s p, optStep base sp.baseline meas = .ok m ∧ optStep base sp.baseline simu = .ok s ∧
      d10Fig sp meas simu fmin fmax base = .ok (r, [p]) ∧ Both (times m) (vals m) (times s) (vals s) p.lines ∧ WithinAxis p := by
  constructor
  · intro h
    obtain ⟨m, s, d1, d2, h1, h2, h3, h4, _⟩ := d10_inv h
    have nm : m ≠ [] := by rintro rfl; cases h3
    have ns : s ≠ [] := by rintro rfl; cases h4
    obtain ⟨x1, m1⟩ := npMaxR_ok (l := m.map Prod.fst) (by simpa using nm)
    obtain ⟨x2, m2⟩ := npMaxR_ok (l := s.map Prod.fst) (by simpa using ns)
    have hb : Both (times m) (vals m) (times s) (vals s) [⟨some "Simulation", times s, vals s⟩, ⟨some "Measurement", times m, vals m⟩] :=
      Or.inr rfl
    refine ⟨m, s, _, h1, h2, ?_, hb, both_within (t := []) hb m1 m2⟩
    unfold d10Fig
    simp only [bind, Except.bind, h1, h2, h, m1, m2, labLine_ok _ _ _ (show (s.map Prod.fst).length = (s.map Prod.snd).length by simp),
      labLine_ok _ _ _ (show (m.map Prod.fst).length = (m.map Prod.snd).length by simp)]
    rfl
  · rintro ⟨m, s, p, h1, h2, h, _⟩
    unfold d10Fig at h
    simp only [bind, Except.bind, h1, h2] at h
    split at h
    · cases h
    iterate 4 (split at h; · cases h)
    simp only [pure, Except.pure, Except.ok.injEq, Prod.mk.injEq] at h
    rw [← h.1]
    assumption

/-! ## Scores 8 and 9 -/

theorem slice_get {α : Type} (l : List α) (i j q : Nat) : ((l.take j).drop i)[q]? = if i + q < j then l[i + q]? else none := by
  rw [List.getElem?_drop, List.getElem?_take]

theorem afterSlice_length (i j : Nat) (l : List ℝ) : (afterSlice i j l).length = l.length := by
  unfold afterSlice clampArr
  simp
  omega

theorem afterSlice_get (i j : Nat) (l : List ℝ) (n : Nat) (v : ℝ) (h : l[n]? = some v) :
    (afterSlice i j l)[n]? = some (if i ≤ n ∧ n < j ∧ v < 1 / 2 ^ 52 then 1 / 2 ^ 52 else v) := by
  have hn : n < l.length := (List.getElem?_eq_some_iff.mp h).1
  unfold afterSlice
  rcases Nat.lt_or_ge n j with hj | hj
  · rw [List.getElem?_append_left (by simp [clampArr]; omega)]
    rcases Nat.lt_or_ge n i with hi | hi
    · rw [List.getElem?_append_left (by simp; omega), List.getElem?_take, if_pos hi, List.getElem?_take, if_pos hj, h,
        if_neg (by omega)]
    · rw [List.getElem?_append_right (by simp; omega), clampArr_get, slice_get]
      have e : i + (n - ((l.take j).take i).length) = n := by simp; omega
      rw [e, if_pos hj, h]
      simp only [Option.map_some, Option.some.injEq]
      by_cases c : v < 1 / 2 ^ 52
      · rw [if_pos c, if_pos ⟨hi, hj, c⟩]
      · rw [if_neg c, if_neg (fun d => c d.2.2)]
  · rw [List.getElem?_append_right (by simp [clampArr]; omega), List.getElem?_drop]
    have e : j + (n - ((l.take j).take i ++ clampArr ((l.take j).drop i)).length) = n := by simp [clampArr]; omega
    rw [e, h, if_neg (by omega)]

theorem fillBetween_inv {x m s : List ℝ} {f : List ℝ × List ℝ} (h : fillBetween x m s = .ok f) :
    m.length = s.length ∧ x.length = m.length ∧ f = (x, List.zipWith max m s) := by
  unfold fillBetween at h
  simp only at h
  split at h
  · rename_i c
    cases h
    refine ⟨c.1, ?_, rfl⟩
    rw [c.2, List.length_zipWith, c.1, min_self]
  · cases h

/-- All steps of `d_89` with a figure. -/
theorem d89Fig_inv {sp : SigProc} {meas simu : Rec ℝ} {fmin fmax : Option ℝ} {base : Bool} {r : ℝ × ℝ} {fig : List ScorePanel}
    (h : d89Fig sp meas simu fmin fmax base = .ok (r, fig)) :
    d89 sp meas simu fmin fmax base = .ok r ∧
    ∃ (m s m' s' : Rec ℝ) (f : ℝ × ℝ) (rm rs : List ℝ × List ℝ) (i1 i2 : Nat) (fm fs : Rec ℝ) (sm ss : List ℝ) (j1 j1' j2 j2' : Nat)
      (fl8 fl9 : List ℝ × List ℝ) (l8a l8b l9a l9b : LabLine ℝ) (x8 x9 y8 y9 : ℝ),
      optStep base sp.baseline meas = .ok m ∧ optStep base sp.baseline simu = .ok s ∧ gofRange fmin fmax = .ok f ∧
      optStep base sp.baseline m = .ok m' ∧ optStep base sp.baseline s = .ok s' ∧
      sp.spectrum (min (1 / f.2) (1 / 100)) (max (1 / f.1) 5) m' = .ok rm ∧
      sp.spectrum (min (1 / f.2) (1 / 100)) (max (1 / f.1) 5) s' = .ok rs ∧
      firstGe rm.1 (1 / f.2) = .ok i1 ∧ lastLe rm.1 (1 / f.1) = .ok i2 ∧ sp.fourier m' = .ok fm ∧ sp.fourier s' = .ok fs ∧
      sp.smooth fm = .ok sm ∧ sp.smooth fs = .ok ss ∧ firstGe (fm.map Prod.fst) f.1 = .ok j1 ∧ firstGe (fs.map Prod.fst) f.1 = .ok j1' ∧
      lastLe (fm.map Prod.fst) f.2 = .ok j2 ∧ lastLe (fs.map Prod.fst) f.2 = .ok j2' ∧
      fillBetween ((rm.1.take i2).drop i1) (((afterSlice i1 i2 rm.2).take i2).drop i1) (((afterSlice i1 i2 rs.2).take i2).drop i1) = .ok fl8 ∧
      labLine (some "Measurement") rm.1 (afterSlice i1 i2 rm.2) = .ok l8a ∧ labLine (some "Simulation") rs.1 (afterSlice i1 i2 rs.2) = .ok l8b ∧
      fillBetween (((fm.map Prod.fst).take (min j2 j2')).drop (max j1 j1')) (((afterSlice (max j1 j1') (min j2 j2') sm).take (min j2 j2')).drop (max j1 j1'))
        (((afterSlice (max j1 j1') (min j2 j2') ss).take (min j2 j2')).drop (max j1 j1')) = .ok fl9 ∧
      labLine (some "Measurement") (fm.map Prod.fst) (afterSlice (max j1 j1') (min j2 j2') sm) = .ok l9a ∧
      labLine (some "Simulation") (fs.map Prod.fst) (afterSlice (max j1 j1') (min j2 j2') ss) = .ok l9b ∧
      npMaxR rm.1 = .ok x8 ∧ npMaxR (fm.map Prod.fst) = .ok x9 ∧ npMaxR (rm.1.map fun v => -v) = .ok y8 ∧
      npMaxR ((fm.map Prod.fst).map fun v => -v) = .ok y9 ∧
      fig = [⟨[fmtF 2 r.1], [l8a, l8b], some fl8, (-y8, x8)⟩, ⟨[fmtF 2 r.2], [l9a, l9b], some fl9, (-y9, x9)⟩] := by
  unfold d89Fig at h
  simp only [bind, Except.bind] at h
  iterate 34 (split at h; · cases h)
  simp only [pure, Except.pure, Except.ok.injEq, Prod.mk.injEq] at h
  obtain ⟨rfl, rfl⟩ := h
  constructor
  · unfold d89
    simp only [bind, Except.bind, *]
    rfl
  · exact ⟨_, _, _, _, _, _, _, _, _, _, _, _, _, _, _, _, _, _, _, _, _, _, _, _, _, _, _, by assumption, by assumption, by assumption,
      by assumption, by assumption, by assumption, by assumption, by assumption, by assumption, by assumption, by assumption,
      by assumption, by assumption, by assumption, by assumption, by assumption, by assumption, by assumption, by assumption,
      by assumption, by assumption, by assumption, by assumption, by assumption, by assumption, by assumption, by assumption, rfl⟩

open Spec (RaisedTo areaUnder SpectrumPanel)

theorem slice_filter {α : Type} (P : α → Bool) : ∀ (l : List α) (i j : Nat), (∀ (k : Nat) y, l[k]? = some y → ((i ≤ k ∧ k < j) ↔ P y = true)) →
    (l.take j).drop i = l.filter P := by
  intro l
  induction l with
  | nil => intro i j _; simp
  | cons a l ih =>
    intro i j h
    have h0 := h 0 a rfl
    cases i with
    | zero =>
      cases j with
      | zero =>
        rw [List.take_zero, List.drop_nil]
        symm
        rw [List.filter_eq_nil_iff]
        intro y hy
        obtain ⟨k, hk⟩ := List.mem_iff_getElem?.mp hy
        exact fun c => by have := (h k y hk).2 c; omega
      | succ j =>
        have pa : P a = true := h0.1 ⟨Nat.zero_le _, Nat.succ_pos _⟩
        rw [List.filter_cons_of_pos pa, ← ih 0 j]
        · simp
        · intro k y hy
          rw [← h (k + 1) y (by simpa using hy)]
          omega
    | succ i =>
      have pa : ¬ P a = true := fun c => by have := h0.2 c; omega
      rw [List.filter_cons_of_neg pa]
      cases j with
      | zero =>
        rw [← ih 0 0]
        · simp
        · intro k y hy
          rw [← h (k + 1) y (by simpa using hy)]
          omega
      | succ j =>
        rw [← ih i j]
        · simp
        · intro k y hy
          rw [← h (k + 1) y (by simpa using hy)]
          omega

theorem afterSlice_raised {i j : Nat} {a b : ℝ} {t l : List ℝ} (h : ∀ (k : Nat) y, t[k]? = some y → ((i ≤ k ∧ k < j) ↔ (a ≤ y ∧ y ≤ b))) :
    RaisedTo a b t l (afterSlice i j l) := by
  refine ⟨afterSlice_length i j l, fun k u v hu hv => ?_⟩
  rw [afterSlice_get i j l k v hv]
  have e := h k u hu
  by_cases c : a ≤ u ∧ u ≤ b
  · rw [if_pos c]
    by_cases d : v < 1 / 2 ^ 52
    · rw [if_pos ⟨(e.2 c).1, (e.2 c).2, d⟩, max_eq_right (le_of_lt d)]
    · rw [if_neg (fun q => d q.2.2), max_eq_left (not_lt.mp d)]
  · rw [if_neg c, if_neg (fun q => c (e.1 ⟨q.1, q.2.1⟩))]

theorem slice_zip {α β : Type} (l : List α) (m : List β) (i j : Nat) :
    ((l.take j).drop i).zip ((m.take j).drop i) = ((l.zip m).take j).drop i := by
  simp only [List.zip, List.take_zipWith, List.drop_zipWith]

theorem zip_zipWith_max : ∀ (t m s : List ℝ), t.zip (List.zipWith max m s) = (t.zip (m.zip s)).map fun p => (p.1, max p.2.1 p.2.2)
  | [], _, _ => by simp
  | _ :: _, [], _ => by simp
  | _ :: _, _ :: _, [] => by simp
  | a :: t, b :: m, c :: s => by
    have := zip_zipWith_max t m s
    simpa using this

theorem fill_area {i j : Nat} {a b : ℝ} {t m s : List ℝ} (h : ∀ (k : Nat) y, t[k]? = some y → ((i ≤ k ∧ k < j) ↔ (a ≤ y ∧ y ≤ b))) :
    ((t.take j).drop i).zip (List.zipWith max ((m.take j).drop i) ((s.take j).drop i)) = areaUnder a b t m s := by
  rw [zip_zipWith_max, slice_zip, slice_zip, areaUnder]
  congr 1
  apply slice_filter
  intro k y hy
  rw [List.getElem?_zip_eq_some] at hy
  rw [h k y.1 hy.1]
  simp

/-- The two spectra of one panel, over sorted points of which `i` is the first not below `a` and `j - 1` the last not above `b`. -/
theorem spectrum_panel {i j : Nat} {a b r : ℝ} {t m t' s : List ℝ} {fl : List ℝ × List ℝ} {la lb : LabLine ℝ} {x y : ℝ}
    (h : ∀ (k : Nat) u, t[k]? = some u → ((i ≤ k ∧ k < j) ↔ (a ≤ u ∧ u ≤ b)))
    (hf : fillBetween ((t.take j).drop i) (((afterSlice i j m).take j).drop i) (((afterSlice i j s).take j).drop i) = .ok fl)
    (ha : labLine (some "Measurement") t (afterSlice i j m) = .ok la) (hb : labLine (some "Simulation") t' (afterSlice i j s) = .ok lb)
    (hx : npMaxR t = .ok x) (hy : npMaxR (t.map fun v => -v) = .ok y) :
    SpectrumPanel a b r t m t' s ⟨[fmtF 2 r], [la, lb], some fl, (-y, x)⟩ := by
  obtain ⟨e1, rfl⟩ := labLine_inv ha
  obtain ⟨e2, rfl⟩ := labLine_inv hb
  obtain ⟨f1, f2, rfl⟩ := fillBetween_inv hf
  refine ⟨rfl, ⟨_, _, afterSlice_raised h, afterSlice_raised h, rfl, _, rfl, ?_, fill_area h⟩, fun v hv => ?_⟩
  · show _ = (List.zipWith max _ _).length
    rw [List.length_zipWith, ← f1, min_self, f2]
  · have p := (npMaxR_spec hx).2 v hv
    have q := (npMaxR_spec hy).2 (-v) (List.mem_map.mpr ⟨v, hv, rfl⟩)
    exact ⟨by show -y ≤ v; linarith, p⟩

/-- C174. The figure of scores 8 and 9 belongs to the same two scores and shows the spectra they are computed from (of the records after two
baseline corrections, if asked for), with the area under the larger of the two lines shaded exactly over the scored periods (1/fmax to 1/fmin) and
frequencies (fmin to fmax). The abscissae of the spectra must not decrease, and those of the two Fourier spectra must agree.
Missing: inside the scored range amplitudes below 2^-52 are drawn as 2^-52, and the vertical extent of the axes. -/
theorem C174_spectra_partial {sp : SigProc} {meas simu : Rec ℝ} {fmin fmax : Option ℝ} {base : Bool} {r : ℝ × ℝ} {fig : List ScorePanel}
    (h : d89Fig sp meas simu fmin fmax base = .ok (r, fig)) :
    d89 sp meas simu fmin fmax base = .ok r ∧
    ∃ lo hi x y m s T Sx Ty Sy fx fy ax ay p q, fmin = some lo ∧ fmax = some hi ∧
      optStep base sp.baseline meas = .ok x ∧ optStep base sp.baseline x = .ok m ∧
      optStep base sp.baseline simu = .ok y ∧ optStep base sp.baseline y = .ok s ∧
      sp.spectrum (min (1 / hi) (1 / 100)) (max (1 / lo) 5) m = .ok (T, Sx) ∧
      sp.spectrum (min (1 / hi) (1 / 100)) (max (1 / lo) 5) s = .ok (Ty, Sy) ∧
      sp.fourier m = .ok fx ∧ sp.fourier s = .ok fy ∧ sp.smooth fx = .ok ax ∧ sp.smooth fy = .ok ay ∧ fig = [p, q] ∧
      (T.Pairwise (· ≤ ·) → SpectrumPanel (1 / hi) (1 / lo) r.1 T Sx Ty Sy p) ∧
      ((times fx).Pairwise (· ≤ ·) → times fy = times fx → SpectrumPanel lo hi r.2 (times fx) ax (times fy) ay q) := by
  obtain ⟨h0, x, y, m, s, f, ⟨T, Sx⟩, ⟨Ty, Sy⟩, i1, i2, fx, fy, ax, ay, j1, j1', j2, j2', fl8, fl9, l8a, l8b, l9a, l9b, x8, x9, y8, y9, h1, h2, h3,
    h4, h5, h6, h7, h8, h9, h10, h11, h12, h13, h14, h15, h16, h17, h18, h19, h20, h21, h22, h23, h24, h25, h26, h27, rfl⟩ := d89Fig_inv h
  have hg : ∃ lo hi, fmin = some lo ∧ fmax = some hi ∧ f = (lo, hi) := by
    unfold gofRange at h3
    cases fmin with
    | none => cases h3
    | some lo =>
      cases fmax with
      | none => cases h3
      | some hi =>
        refine ⟨lo, hi, rfl, rfl, ?_⟩
        simp only at h3
        split at h3
        · cases h3
        · exact (Except.ok.inj h3).symm
  obtain ⟨lo, hi, rfl, rfl, rfl⟩ := hg
  refine ⟨h0, lo, hi, x, y, m, s, T, Sx, Ty, Sy, fx, fy, ax, ay, _, _, rfl, rfl, h1, h4, h2, h5, h6, h7, h10, h11, h12, h13, rfl, ?_, ?_⟩
  · intro hs
    exact spectrum_panel (fun k u hu => and_congr (firstGe_sorted h8 hs k u hu) (lastLe_sorted h9 hs k u hu)) h18 h19 h20 h24 h26
  · intro hs he
    have hs' : (fx.map Prod.fst).Pairwise (· ≤ ·) := hs
    have he' : fy.map Prod.fst = fx.map Prod.fst := he
    rw [he'] at h15 h17
    rw [h14] at h15; cases h15
    rw [h16] at h17; cases h17
    rw [max_self, min_self] at h21 h22 h23
    exact spectrum_panel (fun k u hu => and_congr (firstGe_sorted h14 hs' k u hu) (lastLe_sorted h16 hs' k u hu)) h21 h22 h23 h25 h27

/-- All steps of `d_89` without a figure. -/
theorem d89_steps {sp : SigProc} {meas simu : Rec ℝ} {fmin fmax : Option ℝ} {base : Bool} {r : ℝ × ℝ}
    (h : d89 sp meas simu fmin fmax base = .ok r) :
    ∃ (m s : Rec ℝ) (d1 d2 : ℝ) (f : ℝ × ℝ) (m' s' : Rec ℝ) (rm rs : List ℝ × List ℝ) (i1 i2 : Nat) (fm fs : Rec ℝ) (sm ss : List ℝ)
      (j1 j1' j2 j2' : Nat) (s8 : List ℝ) (d8 : ℝ) (s9 : List ℝ) (d9 : ℝ),
      optStep base sp.baseline meas = .ok m ∧ optStep base sp.baseline simu = .ok s ∧ hasDt m = .ok d1 ∧ hasDt s = .ok d2 ∧
      gofRange fmin fmax = .ok f ∧
      optStep base sp.baseline m = .ok m' ∧ optStep base sp.baseline s = .ok s' ∧ ¬ (f.1 = 0 ∨ f.2 = 0) ∧
      sp.spectrum (min (1 / f.2) (1 / 100)) (max (1 / f.1) 5) m' = .ok rm ∧
      sp.spectrum (min (1 / f.2) (1 / 100)) (max (1 / f.1) 5) s' = .ok rs ∧
      firstGe rm.1 (1 / f.2) = .ok i1 ∧ lastLe rm.1 (1 / f.1) = .ok i2 ∧ sp.fourier m' = .ok fm ∧ sp.fourier s' = .ok fs ∧
      sp.smooth fm = .ok sm ∧ sp.smooth fs = .ok ss ∧ firstGe (fm.map Prod.fst) f.1 = .ok j1 ∧ firstGe (fs.map Prod.fst) f.1 = .ok j1' ∧
      lastLe (fm.map Prod.fst) f.2 = .ok j2 ∧ lastLe (fs.map Prod.fst) f.2 = .ok j2' ∧
      (scoreArr ((rm.2.take i2).drop i1) ((rs.2.take i2).drop i1)).1 = .ok s8 ∧ meanArr s8 = .ok d8 ∧
      (scoreArr ((sm.take (min j2 j2')).drop (max j1 j1')) ((ss.take (min j2 j2')).drop (max j1 j1'))).1 = .ok s9 ∧ meanArr s9 = .ok d9 ∧
      r = (d8, d9) := by
  unfold d89 at h
  simp only [bind, Except.bind] at h
  iterate 24 (split at h; · cases h)
  refine ⟨_, _, _, _, _, _, _, _, _, _, _, _, _, _, _, _, _, _, _, _, _, _, _, by assumption, by assumption, by assumption, by assumption, by assumption,
    by assumption, by assumption, by assumption, by assumption, by assumption, by assumption, by assumption, by assumption, by assumption, by assumption,
    by assumption, by assumption, by assumption, by assumption, by assumption, by assumption, by assumption, by assumption, by assumption,
    (Except.ok.inj h).symm⟩

theorem scoreArr_lengths {m s l : List ℝ} {i j : Nat} (h : (scoreArr ((m.take j).drop i) ((s.take j).drop i)).1 = .ok l) :
    ((m.take j).drop i).length = ((s.take j).drop i).length := by
  unfold scoreArr clampArr at h
  simp only [List.length_map] at h
  split at h
  · assumption
  · split at h <;> cases h

theorem fillBetween_ok {t m s : List ℝ} {i j : Nat} (h1 : t.length = m.length) (h : ((m.take j).drop i).length = ((s.take j).drop i).length) :
    ∃ f, fillBetween ((t.take j).drop i) (((afterSlice i j m).take j).drop i) (((afterSlice i j s).take j).drop i) = .ok f := by
  unfold fillBetween
  have e : (((afterSlice i j m).take j).drop i).length = (((afterSlice i j s).take j).drop i).length := by
    simp only [List.length_drop, List.length_take, afterSlice_length] at h ⊢
    exact h
  have e2 : ((t.take j).drop i).length = (List.zipWith max (((afterSlice i j m).take j).drop i) (((afterSlice i j s).take j).drop i)).length := by
    rw [List.length_zipWith, ← e, min_self]
    simp only [List.length_drop, List.length_take, afterSlice_length, h1]
  exact ⟨_, if_pos ⟨e, e2⟩⟩

/-- C174. Asking for the figure of scores 8 and 9 changes neither the scores nor whether they are computed, if the spectra have as many values as
points and both Fourier spectra as many points. -/
theorem C174_same_spectra {sp : SigProc} {meas simu : Rec ℝ} {fmin fmax : Option ℝ} {base : Bool}
    (hsp : ∀ a b x p, sp.spectrum a b x = .ok p → p.1.length = p.2.length) (hsm : ∀ x y, sp.smooth x = .ok y → y.length = x.length)
    (r : ℝ × ℝ) :
    d89 sp meas simu fmin fmax base = .ok r ↔ ∃ fig, d89Fig sp meas simu fmin fmax base = .ok (r, fig) := by
  constructor
  · intro h
    obtain ⟨m, s, d1, d2, f, m', s', rm, rs, i1, i2, fm, fs, sm, ss, j1, j1', j2, j2', s8, d8, s9, d9, em, es, ed1, ed2, ef, em', es', hz, erm, ers,
      ei1, ei2, efm, efs, esm, ess, ej1, ej1', ej2, ej2', es8, ed8, es9, ed9, rfl⟩ := d89_steps h
    have l1 := hsp _ _ _ _ erm
    have l2 := hsp _ _ _ _ ers
    have l3 : (fm.map Prod.fst).length = sm.length := by rw [List.length_map]; exact (hsm _ _ esm).symm
    have l4 : (fs.map Prod.fst).length = ss.length := by rw [List.length_map]; exact (hsm _ _ ess).symm
    obtain ⟨fl8, q1⟩ := fillBetween_ok l1 (scoreArr_lengths es8)
    obtain ⟨fl9, q2⟩ := fillBetween_ok l3 (scoreArr_lengths es9)
    have q3 := labLine_ok (some "Measurement") rm.1 (afterSlice i1 i2 rm.2) (by rw [afterSlice_length, l1])
    have q4 := labLine_ok (some "Simulation") rs.1 (afterSlice i1 i2 rs.2) (by rw [afterSlice_length, l2])
    have q5 := labLine_ok (some "Measurement") (fm.map Prod.fst) (afterSlice (max j1 j1') (min j2 j2') sm) (by rw [afterSlice_length, l3])
    have q6 := labLine_ok (some "Simulation") (fs.map Prod.fst) (afterSlice (max j1 j1') (min j2 j2') ss) (by rw [afterSlice_length, l4])
    have n1 : rm.1 ≠ [] := by intro c; rw [c] at ei1; cases ei1
    have n2 : fm.map Prod.fst ≠ [] := by intro c; rw [c] at ej1; cases ej1
    obtain ⟨x8, q7⟩ := npMaxR_ok n1
    obtain ⟨x9, q8⟩ := npMaxR_ok n2
    obtain ⟨y8, q9⟩ := npMaxR_ok (l := rm.1.map fun v => -v) (by simpa using n1)
    obtain ⟨y9, q10⟩ := npMaxR_ok (l := (fm.map Prod.fst).map fun v => -v) (fun c => n2 (List.map_eq_nil_iff.mp c))
    refine ⟨[⟨[fmtF 2 d8], [⟨some "Measurement", rm.1, afterSlice i1 i2 rm.2⟩, ⟨some "Simulation", rs.1, afterSlice i1 i2 rs.2⟩], some fl8, (-y8, x8)⟩,
      ⟨[fmtF 2 d9], [⟨some "Measurement", fm.map Prod.fst, afterSlice (max j1 j1') (min j2 j2') sm⟩,
        ⟨some "Simulation", fs.map Prod.fst, afterSlice (max j1 j1') (min j2 j2') ss⟩], some fl9, (-y9, x9)⟩], ?_⟩
    unfold d89Fig
    simp only [bind, Except.bind, em, es, ed1, ed2, ef, em', es', if_neg hz, erm, ers, ei1, ei2, efm, efs, esm, ess, ej1, ej1', ej2, ej2', es8,
      ed8, es9, ed9, q1, q2, q3, q4, q5, q6, q7, q8, q9, q10]
    rfl
  · rintro ⟨fig, h⟩
    exact (d89Fig_inv h).1

/-! ## The functions of the package -/

/-- C174. For the signal processing of the package (any filter design; wavelet filters of even length) asking for the figures changes no score and
no score fails because of them. -/
theorem C174_package (design : Design ℝ) (h g : List ℝ) (hh : h ≠ []) (hg : g ≠ []) (he : h.length % 2 = 0) (hge : g.length % 2 = 0)
    (meas simu : Rec ℝ) (fmin fmax : Option ℝ) (base : Bool) :
    (∀ r, d1234 (gofProc design h g) meas simu fmin fmax base = .ok r ↔ ∃ fig, d1234Fig (gofProc design h g) meas simu fmin fmax base = .ok (r, fig)) ∧
    (∀ r, d567 (gofProc design h g) meas simu fmin fmax base = .ok r ↔ ∃ fig, d567Fig (gofProc design h g) meas simu fmin fmax base = .ok (r, fig)) ∧
    (∀ r, d89 (gofProc design h g) meas simu fmin fmax base = .ok r ↔ ∃ fig, d89Fig (gofProc design h g) meas simu fmin fmax base = .ok (r, fig)) ∧
    ∀ r, d10 (gofProc design h g) meas simu fmin fmax base = .ok r ↔ ∃ fig, d10Fig (gofProc design h g) meas simu fmin fmax base = .ok (r, fig) := by
  have hk := C129_samples design h g
  refine ⟨fun r => C174_same_intensity hk r, fun r => C174_same_rms hk ?_ r, fun r => C174_same_spectra ?_ ?_ r, fun r => ?_⟩
  · intro x y hy
    by_cases hx : x = []
    · subst hx
      change baselineWavelet h g 6 [] = .ok y at hy
      unfold baselineWavelet at hy
      rw [if_pos rfl] at hy
      cases hy
    · change baselineWavelet h g 6 x = .ok y at hy
      rw [baseline_eq h g hh hg he hge x hx 6] at hy
      cases hy
      simp [ofSeq]
  · intro a b x p hp
    change gofSpectrum a b x = .ok p at hp
    unfold gofSpectrum at hp
    split at hp
    · cases hp
    · simp only [bind, Except.bind] at hp
      split at hp
      · cases hp
      · rename_i rows hr
        cases hp
        unfold responseSpectraR responseSpectra at hr
        simp only [bind, Except.bind] at hr
        iterate 3 (split at hr; · cases hr)
        cases hr
        simp
  · intro x y hy
    exact (C128_shape _ x y hy).1
  · constructor
    · intro hr
      obtain ⟨_, _, p, _, _, hf, _⟩ := (C174_cross r).mp hr
      exact ⟨[p], hf⟩
    · rintro ⟨fig, hf⟩
      unfold d10Fig at hf
      simp only [bind, Except.bind] at hf
      iterate 7 (split at hf; · cases hf)
      simp only [pure, Except.pure, Except.ok.injEq, Prod.mk.injEq] at hf
      rw [← hf.1]
      assumption

/-! Concrete cases: the shaded area of a record compared with itself, and of a line drawn with a raised value. -/

example : fillBetween [1 / 2, 1] [1, 5] [3, 2] = .ok ([1 / 2, 1], [3, 5]) := by norm_num [fillBetween]

example : areaUnder (1 / 2) 1 [1 / 4, 1 / 2, 1, 2] [9, 1, 5, 9] [9, 3, 2, 9] = [(1 / 2, 3), (1, 5)] := by
  norm_num [areaUnder, List.filter_cons]

example : ∃ fig, d89Fig idProc [(1 / 2, 1), (1, 2), (3 / 2, 3)] [(1 / 2, 1), (1, 2), (3 / 2, 3)] (some 1) (some 2) true = .ok ((0, 0), fig) := by
  rw [← C174_same_spectra]
  · have e1 : firstGe [(1 / 2 : ℝ), 1, 3 / 2] (1 / 2) = .ok 0 := by norm_num [firstGe, List.findIdx?_cons]
    have e2 : lastLe [(1 / 2 : ℝ), 1, 3 / 2] (1 / 1) = .ok 2 := by norm_num [lastLe, List.findIdx?_cons]
    have e3 : firstGe [(1 / 2 : ℝ), 1, 3 / 2] 1 = .ok 1 := by norm_num [firstGe, List.findIdx?_cons]
    have e4 : lastLe [(1 / 2 : ℝ), 1, 3 / 2] 2 = .ok 3 := by norm_num [lastLe, List.findIdx?_cons]
    have e5 : (scoreArr [1, 2] [1, 2]).1 = .ok [0, 0] := by norm_num [scoreArr, clampArr, erf_zero]
    have e6 : (scoreArr [2, 3] [2, 3]).1 = .ok [0, 0] := by norm_num [scoreArr, clampArr, erf_zero]
    have e7 : meanArr [0, 0] = .ok 0 := by simp [meanArr]
    have e8 : ((1 : ℝ) = 0 ∨ (2 : ℝ) = 0) = False := by norm_num
    have e9 : ((1 : ℝ) < 2) = True := by norm_num
    have e10 : hasDt [((1 / 2 : ℝ), (1 : ℝ)), (1, 2), (3 / 2, 3)] = .ok (1 - 1 / 2) := by norm_num [hasDt, dtOf, bind, Except.bind]
    have e11 : gofRange (some (1 : ℝ)) (some 2) = .ok (1, 2) := by norm_num [gofRange]
    unfold d89
    simp only [bind, Except.bind, optStep, idProc, if_true, e10, e11, e8, if_false, List.map, e1, e2, e3, e4, List.take, List.drop, min_self, max_self,
      e5, e6, e7]
    rfl
  · intro a b x p hp
    cases hp
    simp
  · intro x y hy
    cases hy
    simp

end Verif
