import Verif.Model.MotionFigs
import Verif.Props.Compare
import Verif.Props.ResPlot

/-!
Property C170: the figure of `Ground_Motion.compare`.
-/

set_option linter.unusedSectionVars false
set_option linter.unusedVariables false

namespace Verif

open Spec (coeff)

/-- The record that plays the role of the input, and the one that plays the role of the output. -/
def Spec.roles (self other : Rec ℝ) (thisAsInput : Bool) : Rec ℝ × Rec ℝ := match thisAsInput with
  | true => (self, other)
  | false => (other, self)

open Spec (roles)

theorem labLine_ok {K : Type} (lab : Option String) (x y : List K) (h : x.length = y.length) : labLine lab x y = .ok ⟨lab, x, y⟩ :=
  if_pos h

theorem fouAmp_ok (x : Rec ℝ) (d : ℝ) (hd : dtOf x = .ok d) (h0 : d ≠ 0) :
    fouAmp x = .ok ((List.range ((x.length + 1) / 2)).map fun k : Nat => ((k : ℝ) + 1) / ((x.length : ℝ) * d),
      (List.range ((x.length + 1) / 2)).map fun k : Nat => ‖coeff (x.map Prod.snd) k‖) := by
  obtain ⟨s, hs⟩ := C105_succeeds true false x d hd h0
  obtain ⟨d', hd', _, l, r⟩ := C105_values_partial _ _ _ s hs
  rw [hd] at hd'
  cases hd'
  simp only [Bool.false_eq_true, if_false, if_true] at l r
  unfold fouAmp
  rw [hs]
  simp only [Except.map, Except.ok.injEq, Prod.mk.injEq]
  constructor
  · apply List.ext_getElem?
    intro k
    rcases Nat.lt_or_ge k s.length with hk | hk
    · rw [List.getElem?_map, r k hk, List.getElem?_map, List.getElem?_range (by omega)]; rfl
    · rw [List.getElem?_eq_none (by simpa using hk), List.getElem?_eq_none (by simp; omega)]
  · apply List.ext_getElem?
    intro k
    rcases Nat.lt_or_ge k s.length with hk | hk
    · rw [List.getElem?_map, r k hk, List.getElem?_map, List.getElem?_range (by omega)]
      simp
    · rw [List.getElem?_eq_none (by simpa using hk), List.getElem?_eq_none (by simp; omega)]

theorem aligned_dtOf {a b : Rec ℝ} {d : ℝ} (hl : a.length = b.length) (ht : Spec.times a = Spec.times b) (hd : dtOf a = .ok d) :
    dtOf b = .ok d := by
  match a, b, hl, ht, hd with
  | p :: q :: a, p' :: q' :: b, _, ht, hd =>
    have ht : p.1 :: q.1 :: _ = p'.1 :: q'.1 :: _ := ht
    have hd : Except.ok (q.1 - p.1) = (.ok d : Except PyErr ℝ) := hd
    rw [← hd]
    show Except.ok (q'.1 - p'.1) = _
    rw [List.cons.injEq, List.cons.injEq] at ht
    rw [ht.1, ht.2.1]

/-- The frequencies, amplification and phase of a comparison in closed form. -/
theorem compareTwo_closed {smooth : Bool} {x y : Rec ℝ} {r : Comparison} (h : compareTwo smooth x y = .ok r) :
    ∃ d, dtOf r.input = .ok d ∧ dtOf r.output = .ok d ∧ d ≠ 0 ∧ r.input.length = r.output.length ∧
      r.input.map Prod.fst = r.output.map Prod.fst ∧
      r.freq = (List.range ((r.input.length + 1) / 2)).map (fun k : Nat => ((k : ℝ) + 1) / ((r.input.length : ℝ) * d)) ∧
      r.ampl = (List.range ((r.input.length + 1) / 2)).map (fun k : Nat =>
        ‖coeff (r.output.map Prod.snd) k / coeff (r.input.map Prod.snd) k‖) ∧
      r.phase = (List.range ((r.input.length + 1) / 2)).map (fun k : Nat =>
        Complex.arg (coeff (r.output.map Prod.snd) k / coeff (r.input.map Prod.snd) k)) ∧
      (∀ k < (r.input.length + 1) / 2, coeff (r.input.map Prod.snd) k ≠ 0) ∧
      ∀ q, r.smoothed = some q → q.length = r.ampl.length := by
  obtain ⟨ha, si, so, hsi, hso, hnz, hf, _, _, h0, h1⟩ := compareTwo_inv h
  obtain ⟨hl, ht⟩ := alignRecs_len ha
  obtain ⟨_, la, lp, lf, hk⟩ := C127_ratio smooth _ _ r h
  obtain ⟨d, hd, hd0, l1, r1⟩ := C105_values_partial _ _ _ si hsi
  simp only [Bool.false_eq_true, if_false] at l1 r1
  have key : ∀ (l : List ℝ) (f : Nat → ℝ), l.length = (r.input.length + 1) / 2 →
      (∀ k < (r.input.length + 1) / 2, l[k]? = some (f k)) → l = (List.range ((r.input.length + 1) / 2)).map f := by
    intro l f hll hlk
    apply List.ext_getElem?
    intro k
    rcases Nat.lt_or_ge k ((r.input.length + 1) / 2) with hk | hk
    · rw [hlk k hk, List.getElem?_map, List.getElem?_range hk]; rfl
    · rw [List.getElem?_eq_none (by omega), List.getElem?_eq_none (by simpa using hk)]
  refine ⟨d, hd, aligned_dtOf hl ht hd, hd0, hl, ht, key _ _ (by omega) ?_, key _ _ la ?_, key _ _ (by omega) ?_, ?_, ?_⟩
  · intro k hk'
    rw [hf, List.getElem?_map, r1 k (by omega)]; rfl
  · intro k hk'
    exact (hk k (by omega)).2.1
  · intro k hk'
    exact (hk k (by omega)).2.2
  · intro k hk'
    exact (hk k (by omega)).1
  · intro q hq
    cases smooth with
    | false => rw [h0 rfl] at hq; cases hq
    | true =>
      obtain ⟨q', hq', e⟩ := h1 rfl
      rw [hq] at e
      cases e
      have hpos : ∀ v ∈ r.ampl, 0 ≤ v := by
        intro v hv
        obtain ⟨k, hkl, rfl⟩ := List.mem_iff_getElem.1 hv
        have e := (hk k hkl).2.1
        rw [List.getElem?_eq_getElem hkl] at e
        rw [Option.some.inj e]
        exact norm_nonneg _
      exact (C65_log_smooth _ _ _ 0 r.ampl.sum hq' (fun v hv => ⟨hpos v hv, List.single_le_sum hpos v hv⟩) le_rfl
        (List.sum_nonneg hpos)).1

theorem compareFig_ok (t : CmpTexts) (smooth : Bool) (x y : Rec ℝ) (r : Comparison) (h : compareTwo smooth x y = .ok r) :
    ∃ d, dtOf r.input = .ok d ∧ d ≠ 0 ∧ compareFig t smooth x y = .ok [
      ⟨"Acceleration", if maxAbs (r.input.map Prod.snd) ≤ maxAbs (r.output.map Prod.snd) then
        [⟨some t.outName, r.input.map Prod.fst, r.output.map Prod.snd⟩, ⟨some t.inName, r.input.map Prod.fst, r.input.map Prod.snd⟩]
        else [⟨some t.inName, r.input.map Prod.fst, r.input.map Prod.snd⟩,
          ⟨some t.outName, r.input.map Prod.fst, r.output.map Prod.snd⟩]⟩,
      ⟨t.ampLab, ⟨some "Unsmoothed", r.freq, r.ampl⟩ :: r.smoothed.toList.map (fun q => ⟨some "Smoothed", r.freq, q⟩) ++
        [⟨none, r.freq, List.replicate r.freq.length 1⟩]⟩,
      ⟨t.phsLab, [⟨none, r.freq, r.phase⟩]⟩,
      ⟨"Fourier amplitudes", [
        ⟨some t.outName, r.freq, (List.range ((r.input.length + 1) / 2)).map fun k : Nat => ‖coeff (r.output.map Prod.snd) k‖⟩,
        ⟨some t.inName, r.freq, (List.range ((r.input.length + 1) / 2)).map fun k : Nat => ‖coeff (r.input.map Prod.snd) k‖⟩]⟩] := by
  obtain ⟨d, hd, hd', h0, hl, ht, hf, ha, hp, hc, hs⟩ := compareTwo_closed h
  refine ⟨d, hd, h0, ?_⟩
  have lf : r.freq.length = (r.input.length + 1) / 2 := by rw [hf]; simp
  have la : r.ampl.length = (r.input.length + 1) / 2 := by rw [ha]; simp
  have lp : r.phase.length = (r.input.length + 1) / 2 := by rw [hp]; simp
  have hsm : r.smoothed.toList.mapM (labLine (some "Smoothed") r.freq) =
      .ok (r.smoothed.toList.map fun q => ⟨some "Smoothed", r.freq, q⟩) := by
    cases hq : r.smoothed with
    | none => rfl
    | some q =>
      simp only [Option.toList_some, List.mapM_cons, List.mapM_nil, List.map_cons, List.map_nil]
      unfold labLine
      rw [if_pos (by rw [hs q hq, lf, la])]
      rfl
  unfold compareFig
  rw [h]
  simp only [bind, Except.bind]
  unfold siteAmpFig
  rw [← ht, checkTimes_self, hsm, fouAmp_ok _ _ hd h0, fouAmp_ok _ _ hd' h0]
  simp only [bind, Except.bind, pure, Except.pure]
  rw [labLine_ok (some t.outName) (r.input.map Prod.fst) (r.output.map Prod.snd) (by simp [hl])]
  dsimp only
  rw [labLine_ok (some t.inName) (r.input.map Prod.fst) (r.input.map Prod.snd) (by simp)]
  dsimp only
  rw [labLine_ok (some "Unsmoothed") r.freq r.ampl (by rw [lf, la]), labLine_ok none r.freq r.phase (by rw [lf, lp])]
  dsimp only
  rw [labLine_ok none r.freq (List.replicate r.freq.length 1) (by simp)]
  dsimp only
  rw [← hl, ← hf]

theorem motionCompare_eq (self other : Rec ℝ) (b s : Bool) (i o : String) :
    motionCompare self (some other) b s i o = compareFig ⟨i, o, "Amplification\n(" ++ i ++ " ➡ " ++ o ++ ")",
      "Phase shift [rad]\n(" ++ i ++ " ➡ " ++ o ++ ")"⟩ s (roles self other b).1 (roles self other b).2 := by
  cases b <;> rfl

/-- **C170**, what the figure shows.  `roles` gives the records that act as input and output.  With `a` and `b` those records at the
common times: the time panel has the line named as the input with the values of `a` and the line named as the output with the values
of `b`, in either order; the amplification panel has the ratio of the Fourier amplitudes of `b` to those of `a` at the frequencies
`(k + 1) / (n dt)`; the phase panel the angle of the ratio; the last panel both Fourier amplitudes under their own names; the labels
of the transfer function axes name the input before the output.  The figure exists whenever the two records can be compared: the check of
the times cannot fail. -/
theorem C170_figure (self other : Rec ℝ) (thisAsInput smooth : Bool) (inName outName : String) (r : Comparison)
    (h : compareTwo smooth (roles self other thisAsInput).1 (roles self other thisAsInput).2 = .ok r) :
    ∃ d time amp phs fou, motionCompare self (some other) thisAsInput smooth inName outName = .ok [time, amp, phs, fou] ∧
      alignRecs (roles self other thisAsInput).1 (roles self other thisAsInput).2 = .ok (r.input, r.output) ∧
      dtOf r.input = .ok d ∧ d ≠ 0 ∧
      time.lines.Perm [⟨some inName, r.input.map Prod.fst, r.input.map Prod.snd⟩,
        ⟨some outName, r.output.map Prod.fst, r.output.map Prod.snd⟩] ∧
      amp.ylab = "Amplification\n(" ++ inName ++ " ➡ " ++ outName ++ ")" ∧
      phs.ylab = "Phase shift [rad]\n(" ++ inName ++ " ➡ " ++ outName ++ ")" ∧
      (∃ fs as ps is os rest, amp.lines = ⟨some "Unsmoothed", fs, as⟩ :: rest ∧ phs.lines = [⟨none, fs, ps⟩] ∧
        fou.lines = [⟨some outName, fs, os⟩, ⟨some inName, fs, is⟩] ∧
        fs.length = (r.input.length + 1) / 2 ∧ as.length = fs.length ∧ ps.length = fs.length ∧ is.length = fs.length ∧
        os.length = fs.length ∧
        ∀ k < fs.length, fs[k]? = some (((k : ℝ) + 1) / ((r.input.length : ℝ) * d)) ∧
          is[k]? = some ‖coeff (r.input.map Prod.snd) k‖ ∧ os[k]? = some ‖coeff (r.output.map Prod.snd) k‖ ∧
          as[k]? = some (‖coeff (r.output.map Prod.snd) k‖ / ‖coeff (r.input.map Prod.snd) k‖) ∧
          ps[k]? = some (Complex.arg (coeff (r.output.map Prod.snd) k / coeff (r.input.map Prod.snd) k)) ∧
          (∀ l ∈ rest, l.xs = fs) ∧ (smooth = true → ∃ l ∈ rest, l.lab = some "Smoothed") ∧
          (smooth = false → ∀ l ∈ rest, l.lab = none)) := by
  obtain ⟨d, hd, h0, hfig⟩ := compareFig_ok ⟨inName, outName, "Amplification\n(" ++ inName ++ " ➡ " ++ outName ++ ")",
    "Phase shift [rad]\n(" ++ inName ++ " ➡ " ++ outName ++ ")"⟩ smooth _ _ r h
  obtain ⟨d', hd', _, _, hl, ht, hf, ha, hp, hc, hs⟩ := compareTwo_closed h
  rw [hd] at hd'
  cases hd'
  obtain ⟨hal, _, _, _, _, _, _, _, _, hs0, hs1⟩ := compareTwo_inv h
  have lf : r.freq.length = (r.input.length + 1) / 2 := by rw [hf]; simp
  have la : r.ampl.length = (r.input.length + 1) / 2 := by rw [ha]; simp
  have lp : r.phase.length = (r.input.length + 1) / 2 := by rw [hp]; simp
  have kk := (motionCompare_eq self other thisAsInput smooth inName outName).trans hfig
  refine ⟨d, _, _, _, _, kk, hal, hd, h0, ?_, rfl, rfl, r.freq, r.ampl, r.phase,
    (List.range ((r.input.length + 1) / 2)).map fun k : Nat => ‖coeff (r.input.map Prod.snd) k‖,
    (List.range ((r.input.length + 1) / 2)).map fun k : Nat => ‖coeff (r.output.map Prod.snd) k‖,
    r.smoothed.toList.map (fun q => ⟨some "Smoothed", r.freq, q⟩) ++ [⟨none, r.freq, List.replicate r.freq.length 1⟩],
    rfl, rfl, rfl, lf, by omega, by omega, by simp [lf], by simp [lf], ?_⟩
  · rw [ht]
    split_ifs
    · exact List.Perm.swap _ _ _
    · exact List.Perm.refl _
  · intro k hk
    rw [lf] at hk
    have hget : ∀ f : Nat → ℝ, ((List.range ((r.input.length + 1) / 2)).map f)[k]? = some (f k) := by
      intro f
      rw [List.getElem?_map, List.getElem?_range hk]; rfl
    refine ⟨by rw [hf, hget], hget _, hget _, by rw [ha, hget, norm_div], by rw [hp, hget], ?_, ?_, ?_⟩
    · intro l hl'
      rcases List.mem_append.1 hl' with h' | h'
      · obtain ⟨q, _, rfl⟩ := List.mem_map.1 h'; rfl
      · rw [List.mem_singleton.1 h']
    · intro hst
      obtain ⟨q, _, hq⟩ := hs1 hst
      exact ⟨⟨some "Smoothed", r.freq, q⟩, by simp [hq], rfl⟩
    · intro hsf l hl'
      rw [hs0 hsf] at hl'
      simp at hl'
      rw [hl']

/-- C170: the figure does not depend on which of the two motions the method is called on, only on their roles. -/
theorem C170_roles (x y : Rec ℝ) (thisAsInput smooth : Bool) (inName outName : String) :
    motionCompare x (some y) thisAsInput smooth inName outName = motionCompare y (some x) (!thisAsInput) smooth inName outName := by
  cases thisAsInput <;> rfl

/-- C170: an argument that is not a motion is rejected with a TypeError. -/
theorem C170_type (x : Rec ℝ) (b s : Bool) (i o : String) : motionCompare x none b s i o = .error .typeError := rfl

theorem alignRecs_swap (x y : Rec ℝ) : alignRecs x y = (alignRecs y x).map Prod.swap := by
  match x, y with
  | [], [] => rfl
  | [], [_] => rfl
  | [], _ :: _ :: _ => rfl
  | [_], [] => rfl
  | [_], [_] => rfl
  | [_], _ :: _ :: _ => rfl
  | _ :: _ :: _, [] => rfl
  | _ :: _ :: _, [_] => rfl
  | p :: q :: x, p' :: q' :: y =>
    rw [alignRecs_eq, alignRecs_eq, alignTimes_comm]
    cases alignTimes ((p' :: q' :: y).map Prod.fst) ((p :: q :: x).map Prod.fst) with
    | error e => rfl
    | ok t => rfl

/-- C170: the method gives a figure exactly when the two records can be compared, and otherwise the error of that comparison. -/
theorem C170_when (self other : Rec ℝ) (b s : Bool) (i o : String) :
    (∀ e, motionCompare self (some other) b s i o = .error e ↔
      compareTwo s (roles self other b).1 (roles self other b).2 = .error e) ∧
    ((∃ f, motionCompare self (some other) b s i o = .ok f) ↔
      ∃ r, compareTwo s (roles self other b).1 (roles self other b).2 = .ok r) := by
  cases hc : compareTwo s (roles self other b).1 (roles self other b).2 with
  | error e =>
    have : motionCompare self (some other) b s i o = .error e := by
      cases b <;> (simp only [roles] at hc; simp [motionCompare, compareFig, hc, bind, Except.bind])
    rw [this]
    simp
  | ok r =>
    obtain ⟨_, _, _, _, _, h, _⟩ := C170_figure self other b s i o r hc
    rw [h]
    simp

/-- C170: the two motions with their roles exchanged.  Every amplification becomes its reciprocal. -/
theorem C170_exchanged (x y : Rec ℝ) (b s1 s2 : Bool) (i o i' o' : String) (f g : List (LabPanel ℝ))
    (hf : motionCompare x (some y) b s1 i o = .ok f) (hg : motionCompare x (some y) (!b) s2 i' o' = .ok g) :
    ∃ fs as ps as' ps' p q p' q', (f[1]?.map LabPanel.lines) = some (⟨some "Unsmoothed", fs, as⟩ :: p) ∧
      (g[1]?.map LabPanel.lines) = some (⟨some "Unsmoothed", fs, as'⟩ :: q) ∧
      (f[2]?.map LabPanel.lines) = some [⟨none, fs, ps⟩] ∧ (g[2]?.map LabPanel.lines) = some [⟨none, fs, ps'⟩] ∧
      as' = as.map (·⁻¹) ∧ ps' = ps.map (fun v => if v = Real.pi then Real.pi else -v) ∧
      (f[3]?.map LabPanel.lines) = some [⟨some o, fs, p'⟩, ⟨some i, fs, q'⟩] ∧
      (g[3]?.map LabPanel.lines) = some [⟨some o', fs, q'⟩, ⟨some i', fs, p'⟩] := by
  obtain ⟨r, hr⟩ := (C170_when x y b s1 i o).2.1 ⟨f, hf⟩
  obtain ⟨u, hu⟩ := (C170_when x y (!b) s2 i' o').2.1 ⟨g, hg⟩
  have hsw : compareTwo s2 (roles x y b).2 (roles x y b).1 = .ok u := by cases b <;> exact hu
  obtain ⟨e1, e2, e3, e4⟩ := C127_swapped s1 s2 _ _ r u hr hsw
  obtain ⟨d, hd, _, h1⟩ := compareFig_ok ⟨i, o, "Amplification\n(" ++ i ++ " ➡ " ++ o ++ ")",
    "Phase shift [rad]\n(" ++ i ++ " ➡ " ++ o ++ ")"⟩ s1 _ _ r hr
  obtain ⟨d', hd', _, h2⟩ := compareFig_ok ⟨i', o', "Amplification\n(" ++ i' ++ " ➡ " ++ o' ++ ")",
    "Phase shift [rad]\n(" ++ i' ++ " ➡ " ++ o' ++ ")"⟩ s2 _ _ u hu
  have k1 := (motionCompare_eq x y b s1 i o).trans h1
  have k2 := (motionCompare_eq x y (!b) s2 i' o').trans h2
  rw [hf, Except.ok.injEq] at k1
  rw [hg, Except.ok.injEq] at k2
  obtain ⟨d1, a1, _, _, l1, t1, f1, _⟩ := compareTwo_closed hr
  obtain ⟨d2, a2, b2, _, l2, t2, f2, _⟩ := compareTwo_closed hu
  have hdd : d1 = d2 := by
    rw [e2, a1] at b2
    exact Except.ok.inj b2
  have hfr : u.freq = r.freq := by rw [f2, f1, e1, ← l1, hdd]
  rw [k1, k2]
  refine ⟨r.freq, r.ampl, r.phase, u.ampl, u.phase,
    r.smoothed.toList.map (fun q => ⟨some "Smoothed", r.freq, q⟩) ++ [⟨none, r.freq, List.replicate r.freq.length 1⟩],
    u.smoothed.toList.map (fun q => ⟨some "Smoothed", u.freq, q⟩) ++ [⟨none, u.freq, List.replicate u.freq.length 1⟩],
    (List.range ((r.input.length + 1) / 2)).map fun k : Nat => ‖coeff (r.output.map Prod.snd) k‖,
    (List.range ((r.input.length + 1) / 2)).map fun k : Nat => ‖coeff (r.input.map Prod.snd) k‖, rfl, ?_, rfl, ?_, e3, e4, rfl, ?_⟩
  · rw [hfr]; rfl
  · rw [hfr]; rfl
  · rw [hfr, e1, e2, ← l1]; rfl

/-- C170 fails for short records: with the default smoothing there is no figure if the common times are fewer than 29. -/
theorem C170_short_violated (self other : Rec ℝ) (b : Bool) (i o : String) (a c : Rec ℝ)
    (ha : alignRecs (roles self other b).1 (roles self other b).2 = .ok (a, c)) (hl : a.length < 29) (f : List (LabPanel ℝ)) :
    motionCompare self (some other) b true i o ≠ .ok f := by
  intro hf
  obtain ⟨r, hr⟩ := (C170_when self other b true i o).2.1 ⟨f, hf⟩
  exact C127_short_violated _ _ a c ha hl r hr

/-- C170 fails for records that start at time 0: their first sample is not shown.  Two records that differ in the acceleration at time 0
only give the same figure, in either role. -/
theorem C170_first_sample_violated (d v w : ℝ) (q : ℝ × ℝ) (x y : Rec ℝ) (hd : 0 < d) (hq : q.1 = d)
    (hy : ∃ dy, dtOf y = .ok dy ∧ d ≤ dy) (b s : Bool) (i o : String) :
    motionCompare ((0, v) :: q :: x) (some y) b s i o = motionCompare ((0, w) :: q :: x) (some y) b s i o := by
  have e := C127_first_sample_violated d v w q x y hd hq hy
  have e' : alignRecs y ((0, v) :: q :: x) = alignRecs y ((0, w) :: q :: x) := by
    rw [alignRecs_swap, e, ← alignRecs_swap]
  cases b
  · simp only [motionCompare, compareFig, compareTwo, Bool.false_eq_true, if_false, e']
  · simp only [motionCompare, compareFig, compareTwo, if_true, e]

-- a pulse at times 1 and 2 compared with three times itself, called on either motion
example : ∃ time amp phs fou, motionCompare [(1, 3), (2, 0)] (some [(1, 1), (2, 0)]) false false "rock" "soil" =
      .ok [time, amp, phs, fou] ∧ amp.ylab = "Amplification\n(rock ➡ soil)" ∧
    ∃ fs rest, amp.lines = ⟨some "Unsmoothed", fs, [3]⟩ :: rest := by
  obtain ⟨r, hr, ha, _⟩ := compare_pulse
  obtain ⟨d, _, _, h⟩ := compareFig_ok ⟨"rock", "soil", "Amplification\n(" ++ "rock" ++ " ➡ " ++ "soil" ++ ")",
    "Phase shift [rad]\n(" ++ "rock" ++ " ➡ " ++ "soil" ++ ")"⟩ false [(1, 1), (2, 0)] [(1, 3), (2, 0)] r hr
  rw [ha] at h
  exact ⟨_, _, _, _, (motionCompare_eq _ _ _ _ _ _).trans h,
    (by decide : "Amplification\n(" ++ "rock" ++ " ➡ " ++ "soil" ++ ")" = "Amplification\n(rock ➡ soil)"), r.freq, _, rfl⟩

end Verif
