import Verif.Props.Figures

/-!
C156: figures and axes that are passed in.  C157: keyword arguments that are handed on.
-/

set_option linter.unusedSectionVars false
set_option linter.unusedVariables false

namespace Verif

section
variable {K V : Type}

/-- All axes are in figures that exist. -/
def Spec.WellFormed (c : Canvas K V) : Prop := ∀ a ∈ c.axs, a.fig < c.figs

/-- Axes that are passed in exist. -/
def Spec.Exists (c : Canvas K V) (ax : Option Nat) : Prop := ∀ i, ax = some i → i < c.axs.length

/-- The line of a list of points. -/
def Spec.lineOf (pts : List (K × K)) (kw : Kw V) : PlLine K V := ⟨pts.map Prod.fst, pts.map Prod.snd, kw⟩

open Spec (WellFormed Exists lineOf)

/-- Drawing one line after the figure and the axes have been determined. -/
theorem draw_one (c : Canvas K V) (fig ax : Option Nat) (hx : Exists c ax) (l : PlLine K V) (hl : l.x.length = l.y.length) :
    ∃ c', drawOn (processFigAx c fig ax false).2.2 (processFigAx c fig ax false).2.1 l =
        (.ok (ax.getD c.axs.length), c') ∧
      (processFigAx c fig ax false).1 = fig.getD c.figs ∧
      c'.figs = c.figs + (if fig = none then 1 else 0) ∧
      c'.axs.length = c.axs.length + (if ax = none then 1 else 0) ∧
      (∀ j, j < c.axs.length → ax ≠ some j → c'.axs[j]? = c.axs[j]?) ∧
      (ax = none → c'.axs[c.axs.length]? = some ⟨fig.getD c.figs, [l], "", [], false⟩) ∧
      (∀ i a, ax = some i → c.axs[i]? = some a → c'.axs[i]? = some { a with lines := a.lines ++ [l] }) := by
  cases ax with
  | none =>
    cases fig with
    | none =>
      refine ⟨_, by simp [processFigAx, newFig, pushAx, drawOn, hl]; rfl, rfl, rfl, by simp, ?_, ?_, ?_⟩
      · intro j hj _
        simp [List.getElem?_modify, List.getElem?_append_left hj, Nat.ne_of_gt hj]
      · intro _; simp [List.getElem?_modify]
      · intro i a h; cases h
    | some f =>
      refine ⟨{ c with axs := (c.axs ++ [(⟨f, [], "", [], false⟩ : PlAx K V)]).modify c.axs.length fun a => { a with lines := a.lines ++ [l] } },
        by simp [processFigAx, newFig, pushAx, drawOn, hl], rfl, rfl, by simp, ?_, ?_, ?_⟩
      · intro j hj _
        simp [List.getElem?_modify, List.getElem?_append_left hj, Nat.ne_of_gt hj]
      · intro _; simp [List.getElem?_modify]
      · intro i a h; cases h
  | some i =>
    cases fig with
    | none =>
      refine ⟨_, by simp [processFigAx, newFig, drawOn, hl]; rfl, rfl, rfl, by simp, ?_, ?_, ?_⟩
      · intro j hj hne
        have : i ≠ j := fun h => hne (by rw [h])
        simp [List.getElem?_modify, this]
      · intro h; cases h
      · intro j a h ha
        cases h
        simp [List.getElem?_modify, ha]
    | some f =>
      refine ⟨{ c with axs := c.axs.modify i fun a => { a with lines := a.lines ++ [l] } },
        by simp [processFigAx, drawOn, hl], rfl, rfl, by simp, ?_, ?_, ?_⟩
      · intro j hj hne
        have : i ≠ j := fun h => hne (by rw [h])
        simp [List.getElem?_modify, this]
      · intro h; cases h
      · intro j a h ha
        cases h
        simp [List.getElem?_modify, ha]

/-! ## C156 -/

/-- Drawing a curve always succeeds.  The line shows the points of the curve (or of the data, as requested) with the given
options; it is added to the axes passed in, or to new axes; all other axes stay as they are. -/
theorem C156_curve (c : Canvas K V) (interp : Bool) (cv : PlCurve K) (fig ax : Option Nat) (hx : Exists c ax) (kw : Kw V) :
    ∃ c', curvePlot c interp cv fig ax kw = (.ok (fig.getD c.figs, ax.getD c.axs.length), c') ∧
      c'.figs = c.figs + (if fig = none then 1 else 0) ∧
      c'.axs.length = c.axs.length + (if ax = none then 1 else 0) ∧
      (∀ j, j < c.axs.length → ax ≠ some j → c'.axs[j]? = c.axs[j]?) ∧
      (ax = none → c'.axs[c.axs.length]? =
        some ⟨fig.getD c.figs, [lineOf (if interp = true then cv.shown else cv.raw) kw], "", [], false⟩) ∧
      (∀ i a, ax = some i → c.axs[i]? = some a →
        c'.axs[i]? = some { a with lines := a.lines ++ [lineOf (if interp = true then cv.shown else cv.raw) kw] }) := by
  have hline : curveLine interp cv kw = lineOf (if interp = true then cv.shown else cv.raw) kw := by
    cases interp <;> rfl
  obtain ⟨c', h1, h2, h3, h4, h5, h6, h7⟩ := draw_one c fig ax hx (curveLine interp cv kw) (by rw [hline]; simp [lineOf])
  refine ⟨c', ?_, h3, h4, h5, ?_, ?_⟩
  · simp only [curvePlot, h1, h2]
  · rw [← hline]; exact h6
  · rw [← hline]; exact h7

/-- Drawing a spectrum: as for a curve; frequencies against the spectrum or its amplitudes. -/
theorem C156_spectrum (c : Canvas K V) (freq s a : List K) (hs : freq.length = s.length) (ha : freq.length = a.length)
    (plotAbs : Bool) (fig ax : Option Nat) (hx : Exists c ax) (kw : Kw V) :
    ∃ c', spectrumPlot c freq s a plotAbs fig ax kw = (.ok (fig.getD c.figs, ax.getD c.axs.length), c') ∧
      c'.figs = c.figs + (if fig = none then 1 else 0) ∧
      (∀ j, j < c.axs.length → ax ≠ some j → c'.axs[j]? = c.axs[j]?) ∧
      (ax = none → c'.axs[c.axs.length]? =
        some ⟨fig.getD c.figs, [⟨freq, if plotAbs = true then a else s, kw⟩], "", [], false⟩) ∧
      (∀ i b, ax = some i → c.axs[i]? = some b →
        c'.axs[i]? = some { b with lines := b.lines ++ [⟨freq, if plotAbs = true then a else s, kw⟩] }) := by
  obtain ⟨c', h1, h2, h3, _, h5, h6, h7⟩ := draw_one c fig ax hx ⟨freq, if plotAbs = true then a else s, kw⟩
    (by cases plotAbs <;> simp [hs, ha] <;> omega)
  refine ⟨c', ?_, h3, h5, h6, h7⟩
  simp only [spectrumPlot, h1, h2]

/-- A spectrum whose ordinates are not as many as the frequencies is not drawn: ValueError. -/
theorem C156_unequal (c : Canvas K V) (freq s a : List K) (plotAbs : Bool) (fig ax : Option Nat) (kw : Kw V) :
    (spectrumPlot c freq s a plotAbs fig ax kw).1 = .error .valueError ↔ freq.length ≠ (if plotAbs then a else s).length := by
  unfold spectrumPlot
  generalize (if plotAbs then a else s) = y
  have hd : ∀ (d : Canvas K V) (i : Nat), drawOn d (some i) (⟨freq, y, kw⟩ : PlLine K V) =
      if freq.length ≠ y.length then (.error .valueError, d)
      else (.ok i, { d with axs := d.axs.modify i fun b => { b with lines := b.lines ++ [⟨freq, y, kw⟩] } }) := fun _ _ => rfl
  have hs : ∃ i, (processFigAx c fig ax false).2.1 = some i := by
    cases ax <;> cases fig <;> exact ⟨_, rfl⟩
  obtain ⟨i, hi⟩ := hs
  dsimp only
  rw [hi, hd]
  by_cases h : freq.length ≠ y.length
  · rw [if_pos h]; simp [h]
  · rw [if_neg h]; simpa using h

/-- C156, exactly: the axes returned by `Curve.plot` are axes of the figure returned if and only if no axes are passed in, or
axes are passed in together with their own figure. -/
theorem C156_exact (c : Canvas K V) (hw : WellFormed c) (interp : Bool) (cv : PlCurve K) (fig ax : Option Nat)
    (hx : Exists c ax) (kw : Kw V) (f i : Nat) (c' : Canvas K V) (h : curvePlot c interp cv fig ax kw = (.ok (f, i), c')) :
    (∃ a, c'.axs[i]? = some a ∧ a.fig = f) ↔ ax = none ∨ ∃ j a, ax = some j ∧ c.axs[j]? = some a ∧ fig = some a.fig := by
  obtain ⟨c'', h1, _, _, _, h5, h6⟩ := C156_curve c interp cv fig ax hx kw
  rw [h1] at h
  cases h
  cases ax with
  | none => simp only [true_or, iff_true]; exact ⟨_, h5 rfl, rfl⟩
  | some j =>
    have hj := hx j rfl
    have hja : c.axs[j]? = some c.axs[j] := List.getElem?_eq_getElem hj
    have h7 := h6 j _ rfl hja
    constructor
    · rintro ⟨a, ha, hf⟩
      simp only [Option.getD_some] at ha
      rw [h7, Option.some.injEq] at ha
      right
      refine ⟨j, _, rfl, hja, ?_⟩
      have h8 : c.axs[j].fig = fig.getD c.figs := by rw [← hf, ← ha]
      cases fig with
      | none => exact absurd h8 (Nat.ne_of_lt (hw _ (List.getElem_mem hj)))
      | some g => rw [h8]; rfl
    · rintro (h8 | ⟨j', a, hjj, ha, hf⟩)
      · cases h8
      · cases hjj
        refine ⟨_, h6 j a rfl ha, ?_⟩
        rw [hf]; rfl

/-- C156 fails when axes are passed in without their figure: a new figure without any axes is made and returned, and the
returned axes are those of another figure. -/
theorem C156_axes_only_violated (c : Canvas K V) (hw : WellFormed c) (interp : Bool) (cv : PlCurve K) (i : Nat)
    (hi : i < c.axs.length) (kw : Kw V) :
    ∃ c', curvePlot c interp cv none (some i) kw = (.ok (c.figs, i), c') ∧ c'.figs = c.figs + 1 ∧
      ∀ a ∈ c'.axs, a.fig ≠ c.figs := by
  obtain ⟨c', h1, h2, h3, h4, _, h6⟩ := C156_curve c interp cv none (some i) (by intro j h; cases h; exact hi) kw
  refine ⟨c', h1, h2, ?_⟩
  intro a ha
  obtain ⟨j, hj⟩ := List.mem_iff_getElem?.1 ha
  have hjl : j < c.axs.length := by
    have := (List.getElem?_eq_some_iff.1 hj).1
    rw [h3] at this; simpa using this
  have hja : c.axs[j]? = some c.axs[j] := List.getElem?_eq_getElem hjl
  by_cases hij : j = i
  · subst hij
    rw [h6 j _ rfl hja, Option.some.injEq] at hj
    rw [← hj]
    exact Nat.ne_of_lt (hw c.axs[j] (List.getElem_mem hjl))
  · rw [h4 j hjl (by intro h; cases h; exact hij rfl), hja, Option.some.injEq] at hj
    rw [← hj]
    exact Nat.ne_of_lt (hw _ (List.getElem_mem hjl))

theorem multiLoop_run (interp : Bool) (f i : Nat) (cvs : List (PlCurve K)) : ∀ (c : Canvas K V) (a : PlAx K V),
    c.axs[i]? = some a →
    ∃ c', multiLoop interp f (some i) cvs c = (.ok (), c') ∧ c'.figs = c.figs ∧ c'.axs.length = c.axs.length ∧
      c'.axs[i]? = some { a with lines := a.lines ++ cvs.map fun cv => lineOf (if interp = true then cv.shown else cv.raw) [] } ∧
      ∀ j, j ≠ i → c'.axs[j]? = c.axs[j]? := by
  induction cvs with
  | nil => intro c a ha; exact ⟨c, rfl, rfl, rfl, by simpa using ha, fun _ _ => rfl⟩
  | cons cv cvs ih =>
    intro c a ha
    have hi : i < c.axs.length := (List.getElem?_eq_some_iff.1 ha).1
    obtain ⟨c1, h1, h2, h3, h4, _, h6⟩ := C156_curve c interp cv (some f) (some i) (by intro j h; cases h; exact hi) []
    obtain ⟨c', g1, g2, g3, g4, g5⟩ := ih c1 _ (h6 i a rfl ha)
    simp only [reduceCtorEq, if_false, Nat.add_zero] at h2 h3
    refine ⟨c', ?_, g2.trans h2, g3.trans h3, ?_, ?_⟩
    · simp only [multiLoop, h1, g1]
    · rw [g4]; simp
    · intro j hj
      rw [g5 j hj]
      rcases Nat.lt_or_ge j c.axs.length with hjl | hjl
      · exact h4 j hjl (by intro h; cases h; exact hj rfl)
      · rw [List.getElem?_eq_none (by omega), List.getElem?_eq_none hjl]

/-- Drawing several curves: one line per curve, in the order of the curves, all on one axes object; that of the caller only if
figure and axes are both passed in (axes without figure are left alone, as documented); everything else stays as it is. -/
theorem C156_multi (c : Canvas K V) (interp : Bool) (cvs : List (PlCurve K)) (fig ax : Option Nat) (hx : Exists c ax)
    (kw : Kw V) :
    ∃ i c' a, multiPlot c interp cvs fig ax kw = (.ok (fig.getD c.figs, some i), c') ∧ c'.axs[i]? = some a ∧
      c'.figs = c.figs + (if fig = none then 1 else 0) ∧
      (∀ j, j < c.axs.length → j ≠ i → c'.axs[j]? = c.axs[j]?) ∧
      (fig = none ∨ ax = none → i = c.axs.length ∧
        a = ⟨fig.getD c.figs, cvs.map fun cv => lineOf (if interp = true then cv.shown else cv.raw) [], "", [], false⟩) ∧
      (∀ f k b, fig = some f → ax = some k → c.axs[k]? = some b → i = k ∧
        a = { b with lines := b.lines ++ cvs.map fun cv => lineOf (if interp = true then cv.shown else cv.raw) [] }) := by
  have new : ∀ (c1 : Canvas K V) (f : Nat), ∃ c', multiLoop interp f (some c1.axs.length) cvs
        { c1 with axs := c1.axs ++ [⟨f, [], "", [], false⟩] } = (.ok (), c') ∧ c'.figs = c1.figs ∧
        c'.axs[c1.axs.length]? =
          some ⟨f, cvs.map fun cv => lineOf (if interp = true then cv.shown else cv.raw) [], "", [], false⟩ ∧
        ∀ j, j < c1.axs.length → c'.axs[j]? = c1.axs[j]? := by
    intro c1 f
    obtain ⟨c', g1, g2, _, g4, g5⟩ := multiLoop_run interp f c1.axs.length cvs
      { c1 with axs := c1.axs ++ [⟨f, [], "", [], false⟩] } ⟨f, [], "", [], false⟩ (by simp)
    refine ⟨c', g1, g2, by simpa using g4, fun j hj => ?_⟩
    rw [g5 j (by omega)]
    exact List.getElem?_append_left hj
  cases fig with
  | none =>
    obtain ⟨c', g1, g2, g3, g4⟩ := new { c with figs := c.figs + 1 } c.figs
    refine ⟨c.axs.length, c', _, ?_, g3, g2, fun j hj _ => g4 j hj, fun _ => ⟨rfl, rfl⟩, fun f k b h => by cases h⟩
    simp only [multiPlot, processFigAx, newFig, pushAx, and_self, if_true]
    simp only at g1
    rw [g1]; rfl
  | some f =>
    cases ax with
    | none =>
      obtain ⟨c', g1, g2, g3, g4⟩ := new c f
      refine ⟨c.axs.length, c', _, ?_, g3, g2, fun j hj _ => g4 j hj, fun _ => ⟨rfl, rfl⟩, fun f k b _ h => by cases h⟩
      simp only [multiPlot, processFigAx, pushAx, and_self, if_true]
      rw [g1]; rfl
    | some k =>
      have hk := hx k rfl
      have hka : c.axs[k]? = some c.axs[k] := List.getElem?_eq_getElem hk
      obtain ⟨c', g1, g2, _, g4, g5⟩ := multiLoop_run interp f k cvs c _ hka
      refine ⟨k, c', _, ?_, g4, g2, fun j _ hj => g5 j hj, fun h => ?_, fun f' k' b hf hk' hb => ?_⟩
      · simp only [multiPlot, g1]; rfl
      · rcases h with h | h <;> cases h
      · cases hk'
        rw [hka, Option.some.injEq] at hb
        exact ⟨rfl, by rw [hb]⟩

end

section
variable {K V : Type} [Field K] [LinearOrder K] [IsStrictOrderedRing K] [FloorRing K]

open Spec (Usable times vals)

/-- C156 fails for motions: axes that are passed in are removed from their figure, nothing is drawn on them, and they are none
of the axes returned. -/
theorem C156_motion_violated (c c' : Canvas K V) (x : Rec K) (h2 : 2 ≤ x.length) (unit : String)
    (hun : unit = "m" ∨ unit = "cm") (fig : Option Nat) (i : Nat) (a : PlAx K V) (ha : c.axs[i]? = some a) (hg : a.gone = false)
    (f i1 i2 i3 : Nat) (h : plotMotion c x unit fig (some i) = (.ok (f, i1, i2, i3), c')) :
    c'.axs[i]? = some { a with gone := true } ∧ i ≠ i1 ∧ i ≠ i2 ∧ i ≠ i3 := by
  have hu : Usable c (some i) := by intro j hj; cases hj; exact ⟨a, ha, hg⟩
  match x, h2 with
  | r :: s :: x, _ =>
    have hd : dtOf (r :: s :: x) = .ok (s.1 - r.1) := rfl
    have hk := argmaxAbs_first (vals (r :: s :: x)) (by simp [vals])
    obtain ⟨p, hp, _⟩ := id hk
    obtain ⟨c1, tk, _, _, hl, _, h6, he, hok⟩ := plotMotion_run c _ _ hd _ _ (numInt_ok _ _ hd) unit hun fig _ hu _ p hk hp
    simp only [reduceCtorEq, if_false, Nat.add_zero] at hl
    have hi : i < c1.axs.length := by rw [hl]; exact (List.getElem?_eq_some_iff.1 ha).1
    by_cases hlt : argmaxAbs (vals (r :: s :: x)) + Spec.fortieth (r :: s :: x).length < (r :: s :: x).length
    · rw [hok _ (List.getElem?_eq_getElem (by simpa [times] using hlt))] at h
      cases h
      refine ⟨?_, by omega, by omega, by omega⟩
      rw [← h6 i a rfl ha]
      exact List.getElem?_append_left hi
    · rw [he (by omega)] at h
      cases h

end

/-! ## C157 -/

section
variable {K V : Type}

/-- C157 fails for several curves: the keyword arguments have no influence on what is drawn; every line is drawn without
options. -/
theorem C157_multi_violated (c : Canvas K V) (interp : Bool) (cvs : List (PlCurve K)) (fig ax : Option Nat) (kw : Kw V) :
    multiPlot c interp cvs fig ax kw = multiPlot c interp cvs fig ax [] := rfl

/-- C157 fails for the curves of a parameter set: the two lines are drawn without the options. -/
theorem C157_param_violated (strain ggmax damping : List K) (kw : Kw V) :
    (paramLines strain ggmax damping kw).1 = ⟨strain, ggmax, []⟩ ∧ (paramLines strain ggmax damping kw).2 = ⟨strain, damping, []⟩ :=
  ⟨rfl, rfl⟩

/-- A single curve is drawn with exactly the keyword arguments given. -/
theorem C157_curve_partial (c : Canvas K V) (interp : Bool) (cv : PlCurve K) (fig : Option Nat) (kw : Kw V) :
    ∃ r c' a, curvePlot c interp cv fig none kw = (.ok r, c') ∧ c'.axs[r.2]? = some a ∧ a.lines.map PlLine.opts = [kw] := by
  obtain ⟨c', h1, _, _, _, h5, _⟩ := C156_curve c interp cv fig none (by intro i h; cases h) kw
  exact ⟨_, c', _, h1, h5 rfl, rfl⟩

theorem kwGet_none_iff (kw : Kw V) (k : String) : kwGet kw k = none ↔ k ∉ kw.map Prod.fst := by
  unfold kwGet
  rw [Option.map_eq_none_iff, List.find?_eq_none]
  simp only [beq_iff_eq, List.mem_map, not_exists, not_and]

/-- C157 for profiles, exactly: the arguments are accepted if and only if no argument is called `vs_profile` and a title is given
only for a profile that was not read from a file.  Then `plot_Vs_profile` gets as title the file name or else the given title,
and all other arguments unchanged. -/
theorem C157_vs_exact (nul : V) (file : Option V) (kw : Kw V) :
    ((∃ args, vsPlotArgs nul file kw = .ok args) ↔
      "vs_profile" ∉ kw.map Prod.fst ∧ (file = none ∨ "title" ∉ kw.map Prod.fst)) ∧
    ∀ args, vsPlotArgs nul file kw = .ok args →
      args = ("title", (file.or (kwGet kw "title")).getD nul) :: kw.filter fun p => p.1 != "title" := by
  have filt : "title" ∉ kw.map Prod.fst → kw.filter (fun p => p.1 != "title") = kw := by
    intro h
    rw [List.filter_eq_self]
    intro p hp
    simp only [bne_iff_ne, ne_eq]
    exact fun he => h (List.mem_map.2 ⟨p, hp, he⟩)
  have mem : ∀ k, k ∈ kw.map Prod.fst ↔ ∃ p ∈ kw, p.1 = k := fun k => List.mem_map
  unfold vsPlotArgs vsTitle
  cases file with
  | some f =>
    simp only [Option.getD_some, callKw, List.map_cons, List.map_nil, Bool.true_eq_false, false_and, if_false, Option.or_some]
    by_cases h : ∃ p ∈ kw, p.1 ∈ ["vs_profile"] ++ ["title"]
    · rw [if_pos h]
      refine ⟨⟨fun ⟨a, ha⟩ => (by cases ha), fun ⟨h1, h2⟩ => ?_⟩, fun a ha => by cases ha⟩
      obtain ⟨p, hp, hm⟩ := h
      rcases h2 with h2 | h2
      · cases h2
      · rw [mem] at h1 h2
        simp only [List.cons_append, List.nil_append, List.mem_cons, List.not_mem_nil, or_false] at hm
        rcases hm with hm | hm
        · exact absurd ⟨p, hp, hm⟩ h1
        · exact absurd ⟨p, hp, hm⟩ h2
    · rw [if_neg h]
      have h1 : "vs_profile" ∉ kw.map Prod.fst := by
        rw [mem]; rintro ⟨p, hp, he⟩; exact h ⟨p, hp, by simp [he]⟩
      have h2 : "title" ∉ kw.map Prod.fst := by
        rw [mem]; rintro ⟨p, hp, he⟩; exact h ⟨p, hp, by simp [he]⟩
      refine ⟨⟨fun _ => ⟨h1, .inr h2⟩, fun _ => ⟨_, rfl⟩⟩, fun a ha => ?_⟩
      cases ha
      rw [filt h2]; rfl
  | none =>
    cases ht : kwGet kw "title" with
    | none =>
      have h2 := (kwGet_none_iff kw "title").1 ht
      simp only [Option.getD_none, callKw, List.map_cons, List.map_nil, Bool.true_eq_false, false_and, if_false, Option.or_none]
      by_cases h : ∃ p ∈ kw, p.1 ∈ ["vs_profile"] ++ ["title"]
      · rw [if_pos h]
        refine ⟨⟨fun ⟨a, ha⟩ => (by cases ha), fun ⟨h1, _⟩ => ?_⟩, fun a ha => by cases ha⟩
        obtain ⟨p, hp, hm⟩ := h
        rw [mem] at h1 h2
        simp only [List.cons_append, List.nil_append, List.mem_cons, List.not_mem_nil, or_false] at hm
        rcases hm with hm | hm
        · exact absurd ⟨p, hp, hm⟩ h1
        · exact absurd ⟨p, hp, hm⟩ h2
      · rw [if_neg h]
        have h1 : "vs_profile" ∉ kw.map Prod.fst := by
          rw [mem]; rintro ⟨p, hp, he⟩; exact h ⟨p, hp, by simp [he]⟩
        refine ⟨⟨fun _ => ⟨h1, .inl trivial⟩, fun _ => ⟨_, rfl⟩⟩, fun a ha => ?_⟩
        cases ha
        rw [filt h2]; rfl
    | some t =>
      simp only [Option.getD_some, callKw, List.map_cons, List.map_nil, Bool.true_eq_false, false_and, if_false, Option.none_or]
      by_cases h : ∃ p ∈ kw.filter (fun p => p.1 != "title"), p.1 ∈ ["vs_profile"] ++ ["title"]
      · rw [if_pos h]
        refine ⟨⟨fun ⟨a, ha⟩ => (by cases ha), fun ⟨h1, _⟩ => ?_⟩, fun a ha => by cases ha⟩
        obtain ⟨p, hp, hm⟩ := h
        rw [List.mem_filter, bne_iff_ne] at hp
        rw [mem] at h1
        simp only [List.cons_append, List.nil_append, List.mem_cons, List.not_mem_nil, or_false] at hm
        rcases hm with hm | hm
        · exact absurd ⟨p, hp.1, hm⟩ h1
        · exact absurd hm hp.2
      · rw [if_neg h]
        have h1 : "vs_profile" ∉ kw.map Prod.fst := by
          rw [mem]; rintro ⟨p, hp, he⟩
          refine h ⟨p, List.mem_filter.2 ⟨hp, ?_⟩, by simp [he]⟩
          rw [he]; decide
        refine ⟨⟨fun _ => ⟨h1, .inl trivial⟩, fun _ => ⟨_, rfl⟩⟩, fun a ha => ?_⟩
        cases ha; rfl

/-- C157 fails for titles of profiles: a profile that was read from a file cannot be drawn with a title, which would be passed
twice (TypeError). -/
theorem C157_vs_title_violated (nul f : V) (kw : Kw V) (t : V) (h : ("title", t) ∈ kw) :
    vsPlotArgs nul (some f) kw = .error .typeError := by
  simp only [vsPlotArgs, vsTitle, callKw]
  exact if_pos ⟨_, h, by simp⟩

/-- C157 fails for the sediment velocity model: no title can be given (TypeError). -/
theorem C157_svm_title_violated (ttl : V) (kw : Kw V) (t : V) (h : ("title", t) ∈ kw) :
    svmPlotArgs ttl kw = .error .typeError := by
  simp only [svmPlotArgs, callKw]
  exact if_pos ⟨_, h, by simp⟩

/-- Arguments that are no parameters of `plot_Vs_profile` reach the line, and so do colour, width and label. -/
theorem C157_line (dflt args : Kw V) (k : String) (v : V) (h : (k, v) ∈ args) :
    (k ∉ vsPlotParams → (k, v) ∈ vsLineOpts dflt args) ∧
    (k ∈ dflt.map Prod.fst → (∀ w, (k, w) ∈ args → w = v) → (k, v) ∈ vsLineOpts dflt args) := by
  unfold vsLineOpts
  refine ⟨fun hk => List.mem_append_right _ (List.mem_filter.2 ⟨h, by simpa using hk⟩), fun hk hu => ?_⟩
  obtain ⟨q, hq, hqk⟩ := List.mem_map.1 hk
  refine List.mem_append_left _ (List.mem_map.2 ⟨q, hq, ?_⟩)
  rw [hqk]
  cases hg : kwGet args k with
  | none => exact absurd (List.mem_map.2 ⟨_, h, rfl⟩) ((kwGet_none_iff args k).1 hg)
  | some w =>
    unfold kwGet at hg
    rw [Option.map_eq_some_iff] at hg
    obtain ⟨p, hp, hpw⟩ := hg
    have h1 := List.mem_of_find?_eq_some hp
    have h2 := List.find?_some hp
    simp only [beq_iff_eq] at h2
    obtain ⟨pk, pw⟩ := p
    simp only at h2 hpw
    subst h2 hpw
    rw [hu _ h1]; rfl

/-- No option reaches the line twice, and those of the axes (`title`, `max_depth`, ...) do not reach it at all. -/
theorem C157_once (dflt args : Kw V) (hd : dflt.map Prod.fst = ["c", "lw", "label"]) (hn : (args.map Prod.fst).Nodup) :
    ((vsLineOpts dflt args).map Prod.fst).Nodup ∧
    ∀ k ∈ ["fig", "ax", "figsize", "dpi", "title", "max_depth"], k ∉ (vsLineOpts dflt args).map Prod.fst := by
  have e : (vsLineOpts dflt args).map Prod.fst = ["c", "lw", "label"] ++ (args.filter fun p => p.1 ∉ vsPlotParams).map Prod.fst := by
    unfold vsLineOpts
    rw [List.map_append, List.map_map, ← hd]
    rfl
  have hf : ∀ k ∈ (args.filter fun p => p.1 ∉ vsPlotParams).map Prod.fst, k ∉ vsPlotParams := by
    intro k hk
    obtain ⟨q, hq, rfl⟩ := List.mem_map.1 hk
    simpa using (List.mem_filter.1 hq).2
  rw [e]
  constructor
  · refine List.nodup_append'.2 ⟨by decide, hn.sublist (List.filter_sublist.map _), ?_⟩
    intro k hk hk2
    refine hf k hk2 ?_
    clear hk2
    revert k
    decide
  · intro k hk hc
    rcases List.mem_append.1 hc with h | h
    · clear hc
      revert k
      decide
    · refine hf k h ?_
      clear hc h
      revert k
      decide

/-- C157 for the site-effect adjustment, exactly: accepted are `taper`, `deconv` and `dpi` only, arguments of
`amplify_motion`. -/
theorem C157_adjust_exact (tr sh : V) (kw : Kw V) :
    (∃ a, adjustArgs tr sh kw = .ok a) ↔ ∀ p ∈ kw, p.1 = "taper" ∨ p.1 = "deconv" ∨ p.1 = "dpi" := by
  unfold adjustArgs callKw
  simp only [List.map_cons, List.map_nil, true_and]
  by_cases h : ∃ p ∈ kw, p.1 ∈ ["input_motion", "transfer_function_single_sided"] ++ ["show_fig", "return_fig_obj", "extrap_tf"]
  · rw [if_pos h]
    refine ⟨fun ⟨a, ha⟩ => (by cases ha), fun hall => ?_⟩
    obtain ⟨p, hp, hm⟩ := h
    rcases hall p hp with he | he | he <;> rw [he] at hm <;> simp at hm
  · rw [if_neg h]
    split
    · rename_i h2
      refine ⟨fun ⟨a, ha⟩ => (by cases ha), fun hall => ?_⟩
      obtain ⟨p, hp, hm⟩ := h2
      rw [List.mem_append] at hp
      rcases hp with hp | hp
      · simp only [List.mem_cons, List.not_mem_nil, or_false] at hp
        rcases hp with rfl | rfl | rfl <;> simp [amplifyParams] at hm
      · rcases hall p hp with he | he | he <;> rw [he] at hm <;> simp [amplifyParams] at hm
    · rename_i h2
      refine ⟨fun _ p hp => ?_, fun _ => ⟨_, rfl⟩⟩
      have h3 : p.1 ∈ amplifyParams := by
        by_contra hc; exact h2 ⟨p, List.mem_append_right _ hp, hc⟩
      have h4 : p.1 ∉ ["input_motion", "transfer_function_single_sided"] ++ ["show_fig", "return_fig_obj", "extrap_tf"] :=
        fun hc => h ⟨p, hp, hc⟩
      simp only [amplifyParams, List.cons_append, List.nil_append, List.mem_cons, List.not_mem_nil, or_false, not_or] at h3 h4
      tauto

/-- C157 fails for the site-effect adjustment: its keyword arguments are documented as those of `matplotlib.pyplot.plot`, but each
of them other than `dpi` (for instance `color`) raises TypeError. -/
theorem C157_adjust_violated (tr sh : V) (kw : Kw V) (k : String) (v : V) (h : (k, v) ∈ kw) (hk : k ∉ amplifyParams) :
    adjustArgs tr sh kw = .error .typeError := by
  unfold adjustArgs callKw
  split
  · rfl
  · rw [if_pos ⟨rfl, _, List.mem_append_right _ h, hk⟩]

/-- C157 for smoothing, exactly: of the arguments of `log_smooth`, all but those that `get_smoothed` fills in itself are
accepted. -/
theorem C157_smooth_exact (a b c d : V) (kw : Kw V) :
    (∃ r, getSmoothedArgs a b c d kw = .ok r) ↔
      ∀ p ∈ kw, p.1 = "window" ∨ p.1 = "n_pts" ∨ p.1 = "fix_ends" ∨ p.1 = "beta1" ∨ p.1 = "beta2" := by
  unfold getSmoothedArgs callKw
  simp only [List.map_cons, List.map_nil, true_and]
  by_cases h : ∃ p ∈ kw, p.1 ∈ ["signal"] ++ ["win_len", "fmin", "fmax", "lin_space"]
  · rw [if_pos h]
    refine ⟨fun ⟨a, ha⟩ => (by cases ha), fun hall => ?_⟩
    obtain ⟨p, hp, hm⟩ := h
    rcases hall p hp with he | he | he | he | he <;> rw [he] at hm <;> simp at hm
  · rw [if_neg h]
    split
    · rename_i h2
      refine ⟨fun ⟨a, ha⟩ => (by cases ha), fun hall => ?_⟩
      obtain ⟨p, hp, hm⟩ := h2
      rw [List.mem_append] at hp
      rcases hp with hp | hp
      · simp only [List.mem_cons, List.not_mem_nil, or_false] at hp
        rcases hp with rfl | rfl | rfl | rfl <;> simp [smoothParams] at hm
      · rcases hall p hp with he | he | he | he | he <;> rw [he] at hm <;> simp [smoothParams] at hm
    · rename_i h2
      refine ⟨fun _ p hp => ?_, fun _ => ⟨_, rfl⟩⟩
      have h3 : p.1 ∈ smoothParams := by
        by_contra hc; exact h2 ⟨p, List.mem_append_right _ hp, hc⟩
      have h4 : p.1 ∉ ["signal"] ++ ["win_len", "fmin", "fmax", "lin_space"] := fun hc => h ⟨p, hp, hc⟩
      simp only [smoothParams, List.cons_append, List.nil_append, List.mem_cons, List.not_mem_nil, or_false, not_or] at h3 h4
      tauto

end

/-! ## Concrete cases -/

/-- A record of 24 samples that grows to its last sample: the index of the annotation is 24. -/
example : (plotMotion (K := ℚ) (V := Unit) ⟨0, []⟩ ((List.range 24).map fun i : Nat => ((i : ℚ) / 10, (i : ℚ))) "m" none none).1 =
    .error .indexError := by decide +kernel

/-- A record of four samples. -/
example : plotMotion (K := ℚ) (V := Unit) ⟨0, []⟩ [(0, 1), (1, -3), (2, 3), (3, 0)] "cm" none none =
    (.ok (0, 1, 2, 3), ⟨1, [⟨0, [], "", [], true⟩,
      ⟨0, [⟨[0, 1, 2, 3], [1, -3, 3, 0], []⟩, ⟨[1], [-3], []⟩], "Acceleration [gal]", [⟨1, -3, 3, "gal"⟩], false⟩,
      ⟨0, [⟨[0, 1, 2, 3], [1, -2, 1, 1], []⟩], "Velocity [cm/s]", [], false⟩,
      ⟨0, [⟨[0, 1, 2, 3], [1, -1, 0, 1], []⟩], "Displacement [cm]", [], false⟩]⟩) := by decide +kernel

/-- Two curves on the axes of the caller, which already has a line. -/
example : (multiPlot (K := ℚ) (V := Nat) ⟨1, [⟨0, [⟨[1], [1], []⟩], "", [], false⟩]⟩ true
    [⟨[(1, 2)], []⟩, ⟨[(3, 4)], []⟩] (some 0) (some 0) [("lw", 3)]).2.axs =
    [⟨0, [⟨[1], [1], []⟩, ⟨[1], [2], []⟩, ⟨[3], [4], []⟩], "", [], false⟩] := by decide +kernel

example : adjustArgs (V := Nat) 1 1 [("color", 2)] = .error .typeError := by decide +kernel

end Verif
