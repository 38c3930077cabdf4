import Verif.Model.ResPlot
import Mathlib.Tactic.Linarith
import Mathlib.Tactic.Positivity
import Mathlib.Tactic.NormNum
import Mathlib.Algebra.Order.Ring.Rat
import Mathlib.Data.Rat.Floor

/-!
C159: the figures of simulation results show the results, in the units of the labels.
-/

set_option linter.unusedSectionVars false
set_option linter.unusedVariables false

namespace Verif

variable {K : Type} [Field K] [LinearOrder K] [IsStrictOrderedRing K]

/-- How many of the units of the label make one SI unit. -/
def Spec.LabelFactor : String → Option K
  | "Max. accel. [m/s/s]" => some 1
  | "Max. veloc. [cm/s]" => some 100
  | "Max. displ. [cm]" => some 100
  | "gamma_max [%]" => some 100
  | "tau_max [kPa]" => some (1 / 1000)
  | _ => none

/-- A panel shows the quantity `q` (SI) of the rows `l` at their depths: one line, through one point per row in the order of the
rows, the quantity in the unit of the label. -/
def Spec.ShowsProfile {R : Type} (p : ResPanel K) (l : List R) (q depth : R → K) : Prop :=
  ∃ f xs ys, Spec.LabelFactor p.label = some f ∧ p.lines = [(xs, ys)] ∧ xs.length = l.length ∧ ys.length = l.length ∧
    ∀ (i : Nat) r, l[i]? = some r → xs[i]? = some (q r * f) ∧ ys[i]? = some (depth r)

open Spec (LabelFactor ShowsProfile)

theorem shows_map {R : Type} (l : List R) (q : R → K) (d g : R → K) (lab : String) (f : K) (hf : LabelFactor lab = some f)
    (hg : ∀ r, g r = q r * f) : ShowsProfile ⟨lab, [(l.map g, l.map d)]⟩ l q d := by
  refine ⟨f, _, _, hf, rfl, by simp, by simp, fun i r hr => ?_⟩
  rw [List.getElem?_map, List.getElem?_map, hr]
  simp [hg]

theorem resFoldMax_ge (l : List K) (a : K) : a ≤ l.foldl max a ∧ ∀ x ∈ l, x ≤ l.foldl max a := by
  induction l generalizing a with
  | nil => simp
  | cons b l ih =>
    obtain ⟨h1, h2⟩ := ih (max a b)
    simp only [List.foldl_cons]
    refine ⟨(le_max_left a b).trans h1, fun x hx => ?_⟩
    rcases List.mem_cons.1 hx with rfl | hx
    · exact (le_max_right a x).trans h1
    · exact h2 x hx

theorem resFoldMax_mem (l : List K) (a : K) : l.foldl max a ∈ a :: l := by
  induction l generalizing a with
  | nil => simp
  | cons b l ih =>
    simp only [List.foldl_cons]
    have := ih (max a b)
    rcases List.mem_cons.1 this with h | h
    · rcases max_choice a b with hm | hm <;> rw [hm] at h <;> simp [h, hm]
    · simp [h]

/-- **C159**, profiles of the maxima: five panels, showing acceleration, velocity and displacement at the interfaces and strain and
stress at the middle of the layers, each in the unit of its label; depth increases downwards and the axis ends at the deepest
interface, so that no row of the tables is cut off as long as the layers are above the deepest interface. -/
theorem C159_profiles (avd : List (K × K × K × K)) (gt : List (K × K × K)) (h : avd ≠ []) :
    ∃ m a v d g t, maxFigure avd gt = .ok m ∧ m.panels = [a, v, d, g, t] ∧
      a.label = "Max. accel. [m/s/s]" ∧ v.label = "Max. veloc. [cm/s]" ∧ d.label = "Max. displ. [cm]" ∧
      g.label = "gamma_max [%]" ∧ t.label = "tau_max [kPa]" ∧
      ShowsProfile a avd (fun r => r.2.1) (fun r => r.1) ∧ ShowsProfile v avd (fun r => r.2.2.1) (fun r => r.1) ∧
      ShowsProfile d avd (fun r => r.2.2.2) (fun r => r.1) ∧ ShowsProfile g gt (fun r => r.2.1) (fun r => r.1) ∧
      ShowsProfile t gt (fun r => r.2.2) (fun r => r.1) ∧
      m.top = 0 ∧ (∃ r ∈ avd, r.1 = m.bottom) ∧ ∀ r ∈ avd, r.1 ≤ m.bottom := by
  cases avd with
  | nil => exact absurd rfl h
  | cons r rs =>
    refine ⟨_, _, _, _, _, _, rfl, rfl, rfl, rfl, rfl, rfl, rfl, ?_, ?_, ?_, ?_, ?_, rfl, ?_, ?_⟩
    · exact shows_map (r :: rs) _ _ _ _ 1 rfl (by simp)
    · exact shows_map (r :: rs) _ _ _ _ 100 rfl (by simp)
    · exact shows_map (r :: rs) _ _ _ _ 100 rfl (by simp)
    · exact shows_map gt _ _ _ _ 100 rfl (by simp)
    · exact shows_map gt _ _ _ _ (1 / 1000) rfl (by intro r; ring)
    · have := resFoldMax_mem (rs.map Prod.fst) r.1
      rw [← List.map_cons (f := Prod.fst)] at this
      obtain ⟨q, hq, e⟩ := List.mem_map.1 this
      exact ⟨q, hq, e⟩
    · intro q hq
      obtain ⟨h1, h2⟩ := resFoldMax_ge (rs.map Prod.fst) r.1
      rcases List.mem_cons.1 hq with rfl | hq
      · exact h1
      · exact h2 _ (List.mem_map.2 ⟨q, hq, rfl⟩)

/-- The second figure exists exactly if both tables of maxima do. -/
theorem C159_two_figures (fou : Rec K → Except PyErr (List K × List K)) (xin xout : Rec K) (tf tfs : Option (TfCols K))
    (avd : Option (List (K × K × K × K))) (gt : Option (List (K × K × K))) (f1 : List (ResPanel K)) (f2 : Option (MaxFigure K))
    (h : resPlot fou xin xout tf tfs avd gt = .ok (f1, f2)) :
    resPlot1 fou xin xout tf tfs = .ok f1 ∧
    ((f2 = none ∧ (avd = none ∨ gt = none)) ∨ ∃ a g m, avd = some a ∧ gt = some g ∧ f2 = some m ∧ maxFigure a g = .ok m) := by
  unfold resPlot at h
  cases h1 : resPlot1 fou xin xout tf tfs with
  | error e => rw [h1] at h; cases h
  | ok p =>
    rw [h1] at h
    simp only [bind, Except.bind] at h
    cases avd with
    | none => cases h; exact ⟨rfl, .inl ⟨rfl, .inl rfl⟩⟩
    | some a =>
      cases gt with
      | none => cases h; exact ⟨rfl, .inl ⟨rfl, .inr rfl⟩⟩
      | some g =>
        dsimp only at h
        cases h2 : maxFigure a g with
        | error e => rw [h2] at h; cases h
        | ok m => rw [h2] at h; cases h; exact ⟨rfl, .inr ⟨a, g, m, rfl, rfl, rfl, h2⟩⟩

/-! ## The first figure -/

theorem timeClose_self (a : K) : timeClose a a = true := by
  unfold timeClose
  rw [sub_self, abs_zero]
  exact decide_eq_true (by positivity)

theorem checkTimes_self (a : List K) : checkTimes a a = .ok () := by
  unfold checkTimes
  split
  · rw [if_pos (by simp [timeClose_self])]
  · rw [if_pos (by simp [timeClose_self])]
  · rw [if_neg (by simp), if_pos]
    rw [List.all_eq_true]
    intro p hp
    obtain ⟨i, hi, e⟩ := List.getElem_of_mem hp
    rw [← e, List.getElem_zip]
    exact timeClose_self _

/-- For arrays of the same length: the assertion holds exactly if all times agree up to 0.0001 s plus a hundred thousandth of the
output's time; otherwise AssertionError. -/
theorem checkTimes_exact (a b : List K) (h : a.length = b.length) :
    (checkTimes a b = .ok () ↔ ∀ (i : Nat) x y, a[i]? = some x → b[i]? = some y → |x - y| ≤ 1 / 10000 + 1 / 100000 * |y|) ∧
    (checkTimes a b = .ok () ∨ checkTimes a b = .error .assertionError) := by
  have hz : checkTimes a b = if (a.zip b).all (fun p => timeClose p.1 p.2) then .ok () else .error .assertionError := by
    unfold checkTimes
    split
    · obtain ⟨y, rfl⟩ : ∃ y, b = [y] := List.length_eq_one_iff.1 (by simpa using h.symm)
      simp
    · obtain ⟨x, rfl⟩ : ∃ x, a = [x] := List.length_eq_one_iff.1 (by simpa using h)
      simp
    · rw [if_neg (by simpa using h)]
  rw [hz]
  constructor
  · constructor
    · intro hc i x y hx hy
      split_ifs at hc with hall
      rw [List.all_eq_true] at hall
      have hm : (x, y) ∈ a.zip b := by
        refine List.mem_of_getElem? (i := i) ?_
        rw [List.getElem?_zip_eq_some]
        exact ⟨hx, hy⟩
      have := hall _ hm
      unfold timeClose at this
      exact of_decide_eq_true this
    · intro hall
      rw [if_pos]
      rw [List.all_eq_true]
      intro p hp
      obtain ⟨i, hi⟩ := List.getElem?_of_mem hp
      rw [show p = (p.1, p.2) from rfl, List.getElem?_zip_eq_some] at hi
      exact decide_eq_true (hall i _ _ hi.1 hi.2)
  · split_ifs
    · exact .inl rfl
    · exact .inr rfl

theorem timePanel_ok (xin xout : Rec K) (h : xin.length = xout.length) :
    timePanel xin xout = .ok ⟨"Acceleration", if maxAbs (xin.map Prod.snd) ≤ maxAbs (xout.map Prod.snd) then
      [(xin.map Prod.fst, xout.map Prod.snd), (xin.map Prod.fst, xin.map Prod.snd)] else
      [(xin.map Prod.fst, xin.map Prod.snd), (xin.map Prod.fst, xout.map Prod.snd)]⟩ := by
  unfold timePanel plLine
  rw [if_pos (by simp), if_pos (by simp [h])]
  rfl

/-- **C159**, time histories: if the two records have the same times, both are drawn in full at their times, the one with the larger
peak first (so that it does not hide the other one), and the last panel shows their Fourier amplitudes. -/
theorem C159_motions (fou : Rec K → Except PyErr (List K × List K)) (xin xout : Rec K) (ht : xin.map Prod.fst = xout.map Prod.fst)
    (fi fo : List K × List K) (hi : fou xin = .ok fi) (ho : fou xout = .ok fo) :
    resPlot1 fou xin xout none none = .ok [⟨"Acceleration", if maxAbs (xin.map Prod.snd) ≤ maxAbs (xout.map Prod.snd) then
        [(xout.map Prod.fst, xout.map Prod.snd), (xin.map Prod.fst, xin.map Prod.snd)] else
        [(xin.map Prod.fst, xin.map Prod.snd), (xout.map Prod.fst, xout.map Prod.snd)]⟩, ⟨"Fourier amplitudes", [fo, fi]⟩] := by
  have hl : xin.length = xout.length := by simpa using congrArg List.length ht
  unfold resPlot1 plotSiteAmp
  rw [← ht, checkTimes_self, timePanel_ok xin xout hl]
  simp only [Option.map_none, bind, Except.bind, hi, ho]
  rfl

/-- With a transfer function the amplification, the line at 1, and the phase are drawn at its frequencies; a smoothed transfer function
with the same frequencies is drawn beside it. -/
theorem C159_transfer_partial (fou : Rec K → Except PyErr (List K × List K)) (xin xout : Rec K)
    (ht : xin.map Prod.fst = xout.map Prod.fst) (fi fo : List K × List K) (hi : fou xin = .ok fi) (ho : fou xout = .ok fo)
    (t : TfCols K) (h1 : t.ampl.length = t.freq.length) (h2 : t.phase.length = t.freq.length) (s : Option (TfCols K))
    (hs : ∀ q ∈ s, q.freq = t.freq ∧ q.ampl.length = q.freq.length) :
    ∃ m, resPlot1 fou xin xout (some t) s = .ok [m,
      ⟨"Amplification", (t.freq, t.ampl) :: s.toList.map (fun q => (q.freq, q.ampl)) ++ [(t.freq, t.freq.map fun _ => 1)]⟩,
      ⟨"Phase shift [rad]", [(t.freq, t.phase)]⟩, ⟨"Fourier amplitudes", [fo, fi]⟩] := by
  have hl : xin.length = xout.length := by simpa using congrArg List.length ht
  refine ⟨⟨"Acceleration", if maxAbs (xin.map Prod.snd) ≤ maxAbs (xout.map Prod.snd) then
      [(xin.map Prod.fst, xout.map Prod.snd), (xin.map Prod.fst, xin.map Prod.snd)] else
      [(xin.map Prod.fst, xin.map Prod.snd), (xin.map Prod.fst, xout.map Prod.snd)]⟩, ?_⟩
  unfold resPlot1 plotSiteAmp
  rw [← ht, checkTimes_self, timePanel_ok xin xout hl]
  have ha : ampPanels ⟨t.freq, t.ampl, s.map TfCols.ampl, some t.phase⟩ = .ok [⟨"Amplification",
      (t.freq, t.ampl) :: s.toList.map (fun q => (q.freq, q.ampl)) ++ [(t.freq, t.freq.map fun _ => 1)]⟩,
      ⟨"Phase shift [rad]", [(t.freq, t.phase)]⟩] := by
    unfold ampPanels plLine
    cases s with
    | none => simp [h1, h2, bind, Except.bind, pure, Except.pure]
    | some q =>
      obtain ⟨hf, hq⟩ := hs q rfl
      simp [h1, h2, hq, hf, bind, Except.bind, pure, Except.pure]
  simp only [Option.map_some, bind, Except.bind, ha, hi, ho]
  rfl

/-- C159 fails for smoothed transfer functions on other frequencies: their amplitudes are drawn at the frequencies of the unsmoothed
one if there are as many of them, and ValueError is raised otherwise. -/
theorem C159_smoothed_violated (fou : Rec K → Except PyErr (List K × List K)) (xin xout : Rec K)
    (ht : xin.map Prod.fst = xout.map Prod.fst) (fi fo : List K × List K) (hi : fou xin = .ok fi) (ho : fou xout = .ok fo)
    (t s : TfCols K) (h1 : t.ampl.length = t.freq.length) (h2 : t.phase.length = t.freq.length) :
    (s.ampl.length ≠ t.freq.length → resPlot1 fou xin xout (some t) (some s) = .error .valueError) ∧
    (s.ampl.length = t.freq.length → ∃ m p f, resPlot1 fou xin xout (some t) (some s) = .ok [m,
      ⟨"Amplification", [(t.freq, t.ampl), (t.freq, s.ampl), (t.freq, t.freq.map fun _ => 1)]⟩, p, f]) := by
  have hl : xin.length = xout.length := by simpa using congrArg List.length ht
  constructor
  · intro hne
    unfold resPlot1 plotSiteAmp
    rw [← ht, checkTimes_self, timePanel_ok xin xout hl]
    have ha : ampPanels ⟨t.freq, t.ampl, some s.ampl, some t.phase⟩ = .error .valueError := by
      unfold ampPanels plLine
      have hne' : ¬ t.freq.length = s.ampl.length := fun h => hne h.symm
      simp [h1, hne', bind, Except.bind]
    simp only [Option.map_some, bind, Except.bind, ha]
  · intro he
    obtain ⟨m, hm⟩ := C159_transfer_partial fou xin xout ht fi fo hi ho t h1 h2 (some ⟨t.freq, s.ampl, []⟩) (by simp [he])
    refine ⟨m, ⟨"Phase shift [rad]", [(t.freq, t.phase)]⟩, ⟨"Fourier amplitudes", [fo, fi]⟩, ?_⟩
    unfold resPlot1 at hm ⊢
    exact hm

/-- Without the unsmoothed transfer function the smoothed one is not drawn. -/
theorem C159_smoothed_alone_violated (fou : Rec K → Except PyErr (List K × List K)) (xin xout : Rec K) (s : TfCols K) :
    resPlot1 fou xin xout none (some s) = resPlot1 fou xin xout none none := rfl

/-- C159 fails for records whose times differ by less than the tolerance: the output is drawn at the times of the input. -/
theorem C159_times_violated (fou : Rec K → Except PyErr (List K × List K)) (xin xout : Rec K) (hl : xin.length = xout.length)
    (ht : ∀ (i : Nat) x y, (xin.map Prod.fst)[i]? = some x → (xout.map Prod.fst)[i]? = some y → |x - y| ≤ 1 / 10000 + 1 / 100000 * |y|)
    (hne : xin.map Prod.fst ≠ xout.map Prod.fst) (fi fo : List K × List K) (hi : fou xin = .ok fi) (ho : fou xout = .ok fo) :
    ∃ m f, resPlot1 fou xin xout none none = .ok [m, f] ∧ (xin.map Prod.fst, xout.map Prod.snd) ∈ m.lines ∧
      (xout.map Prod.fst, xout.map Prod.snd) ∉ m.lines := by
  refine ⟨⟨"Acceleration", if maxAbs (xin.map Prod.snd) ≤ maxAbs (xout.map Prod.snd) then
      [(xin.map Prod.fst, xout.map Prod.snd), (xin.map Prod.fst, xin.map Prod.snd)] else
      [(xin.map Prod.fst, xin.map Prod.snd), (xin.map Prod.fst, xout.map Prod.snd)]⟩, ⟨"Fourier amplitudes", [fo, fi]⟩, ?_, ?_, ?_⟩
  · unfold resPlot1 plotSiteAmp
    rw [((checkTimes_exact (xin.map Prod.fst) (xout.map Prod.fst) (by simpa using hl)).1).2 ht, timePanel_ok xin xout hl]
    simp only [Option.map_none, bind, Except.bind, hi, ho]
    rfl
  · dsimp only
    split_ifs <;> simp
  · dsimp only
    split_ifs <;> simp [Ne.symm hne]

/-- When the first figure fails: times that do not agree raise AssertionError, records of different lengths (two or more samples)
ValueError. -/
theorem C159_rejects (fou : Rec K → Except PyErr (List K × List K)) (xin xout : Rec K) (tf tfs : Option (TfCols K)) :
    (xin.length = xout.length → (∃ (i : Nat) (x y : K), (xin.map Prod.fst)[i]? = some x ∧ (xout.map Prod.fst)[i]? = some y ∧
      1 / 10000 + 1 / 100000 * |y| < |x - y|) → resPlot1 fou xin xout tf tfs = .error .assertionError) ∧
    (xin.length ≠ xout.length → xin.length ≠ 1 → xout.length ≠ 1 → resPlot1 fou xin xout tf tfs = .error .valueError) := by
  constructor
  · rintro hl ⟨i, x, y, hx, hy, hlt⟩
    have hex := checkTimes_exact (xin.map Prod.fst) (xout.map Prod.fst) (by simpa using hl)
    have : checkTimes (xin.map Prod.fst) (xout.map Prod.fst) = .error .assertionError := by
      rcases hex.2 with h | h
      · exact absurd ((hex.1.1 h) i x y hx hy) (not_le.2 hlt)
      · exact h
    unfold resPlot1 plotSiteAmp
    rw [this]; rfl
  · intro hl h1 h2
    have : checkTimes (xin.map Prod.fst) (xout.map Prod.fst) = .error .valueError := by
      unfold checkTimes
      split
      · rename_i x hx
        exact absurd (by simpa using congrArg List.length hx) h1
      · rename_i y hy _
        exact absurd (by simpa using congrArg List.length hy) h2
      · rw [if_pos (by simpa using hl)]
    unfold resPlot1 plotSiteAmp
    rw [this]; rfl

/-! Concrete cases. -/

example : (maxFigure [((0 : ℚ), 3, 1 / 10, 1 / 100), (5, 2, 1 / 20, 0)] [(5 / 2, 1 / 1000, 40000)]).toOption.map
    (fun m => (m.panels.map ResPanel.lines, m.bottom)) = some ([[([3, 2], [0, 5])], [([10, 5], [0, 5])], [([1, 0], [0, 5])],
      [([1 / 10], [5 / 2])], [([40], [5 / 2])]], 5) := by decide +kernel

/-- Records one tenth of a millisecond apart are drawn on one time axis. -/
example : resPlot1 (fun _ => .ok ([1], [1])) [((0 : ℚ), 1), (1 / 100, 2)] [(1 / 10000, 3), (1 / 100 + 1 / 10000, 4)] none none =
    .ok [⟨"Acceleration", [([0, 1 / 100], [3, 4]), ([0, 1 / 100], [1, 2])]⟩, ⟨"Fourier amplitudes", [([1], [1]), ([1], [1])]⟩] := by
  decide +kernel

end Verif
