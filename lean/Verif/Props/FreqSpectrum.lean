import Verif.Props.Spectrum

set_option linter.unusedSectionVars false
set_option linter.unusedVariables false

namespace Verif

open Complex
open Spec (Within)

/-! ## C107 -/

theorem mkSpect_inv {df : ℝ} {raw : Spect} {f : List ℝ} {v : List ℂ} {s : FreqSpec} (h : mkSpect df raw f v = .ok s) :
    f ≠ [] ∧ s.rawDf = df ∧ s.rawData = raw ∧ s.nPts = f.length ∧ s.freq = f ∧ s.spectrum = v ∧
      s.amplitude = v.map (fun z => ‖z‖) ∧ s.phase = v.map arg ∧ (∀ x ∈ f, s.fmin ≤ x ∧ x ≤ s.fmax) ∧
      s.fmin ∈ f ∧ s.fmax ∈ f := by
  cases f with
  | nil => cases h
  | cons f0 rest =>
    cases h
    refine ⟨by simp, rfl, rfl, rfl, rfl, rfl, rfl, rfl, ?_, ?_, ?_⟩
    · have key : ∀ (l : List ℝ) (a : ℝ), (l.foldl min a ≤ a ∧ a ≤ l.foldl max a) ∧
          ∀ x ∈ l, l.foldl min a ≤ x ∧ x ≤ l.foldl max a := by
        intro l
        induction l with
        | nil => intro a; exact ⟨⟨le_rfl, le_rfl⟩, fun x hx => by cases hx⟩
        | cons b l ih =>
          intro a
          obtain ⟨⟨h1, h2⟩, h3⟩ := ih (min a b)
          obtain ⟨⟨h4, h5⟩, h6⟩ := ih (max a b)
          refine ⟨⟨h1.trans (min_le_left _ _), (le_max_left _ _).trans h5⟩, fun x hx => ?_⟩
          rcases List.mem_cons.1 hx with rfl | hx
          · exact ⟨h1.trans (min_le_right _ _), (le_max_right _ _).trans h5⟩
          · exact ⟨(h3 x hx).1, (h6 x hx).2⟩
      intro x hx
      rcases List.mem_cons.1 hx with rfl | hx
      · exact (key rest x).1
      · exact (key rest f0).2 x hx
    · have key : ∀ (l : List ℝ) (a : ℝ), l.foldl min a ∈ a :: l := by
        intro l
        induction l with
        | nil => intro a; simp
        | cons b l ih =>
          intro a
          rw [List.foldl_cons]
          rcases List.mem_cons.1 (ih (min a b)) with h | h
          · rw [h]
            rcases min_choice a b with e | e <;> rw [e] <;> simp
          · simp [h]
      exact key rest f0
    · have key : ∀ (l : List ℝ) (a : ℝ), l.foldl max a ∈ a :: l := by
        intro l
        induction l with
        | nil => intro a; simp
        | cons b l ih =>
          intro a
          rw [List.foldl_cons]
          rcases List.mem_cons.1 (ih (max a b)) with h | h
          · rw [h]
            rcases max_choice a b with e | e <;> rw [e] <;> simp
          · simp [h]
      exact key rest f0

theorem newSpect_inv {data : SData} {df : Option ℝ} {interp : Option InterpArgs} {s : FreqSpec}
    (h : newSpect data df interp = .ok s) :
    ∃ r f v, readSpect data df = .ok r ∧ mkSpect r.2 r.1 f v = .ok s ∧ v.length = f.length ∧
      ((interp = none ∧ f = r.1.map Prod.fst ∧ v = r.1.map Prod.snd) ∨
       ∃ g, interp = some g ∧ (g.logScale = true → 0 < g.fmin ∧ 0 < g.fmax) ∧ f = queryGrid g ∧
         (queryGrid g).mapM (interpC r.1) = .ok v) := by
  unfold newSpect at h
  cases hr : readSpect data df with
  | error e => rw [hr] at h; cases h
  | ok r =>
    rw [hr] at h
    simp only [bind, Except.bind] at h
    cases interp with
    | none =>
      exact ⟨r, _, _, rfl, h, by simp, .inl ⟨rfl, rfl, rfl⟩⟩
    | some g =>
      dsimp only at h
      by_cases hg : g.logScale = true ∧ ¬ (0 < g.fmin ∧ 0 < g.fmax)
      · rw [if_pos hg] at h; cases h
      rw [if_neg hg] at h
      cases hm : (queryGrid g).mapM (interpC r.1) with
      | error e => rw [hm] at h; cases h
      | ok v =>
        rw [hm] at h
        refine ⟨r, queryGrid g, v, rfl, h, ?_, .inr ⟨g, rfl, ?_, rfl, hm⟩⟩
        · clear hg h
          generalize queryGrid g = q at hm
          induction q generalizing v with
          | nil => cases hm; rfl
          | cons a q ih =>
            rw [List.mapM_cons] at hm
            cases ha : interpC r.1 a with
            | error e => rw [ha] at hm; cases hm
            | ok w =>
              rw [ha] at hm
              cases hq : q.mapM (interpC r.1) with
              | error e => rw [hq] at hm; cases hm
              | ok ws => rw [hq] at hm; cases hm; simp [ih ws hq]
        · intro hl
          by_contra hc
          exact hg ⟨hl, hc⟩

/-- Amplitude and phase of a spectrum describe it: amplitudes are not negative, phases lie in (-π, π], and
amplitude · exp(i · phase) is the spectrum. -/
theorem C107_polar (data : SData) (df : Option ℝ) (interp : Option InterpArgs) (s : FreqSpec)
    (h : newSpect data df interp = .ok s) :
    s.amplitude.length = s.spectrum.length ∧ s.phase.length = s.spectrum.length ∧ s.freq.length = s.spectrum.length ∧
    s.nPts = s.freq.length ∧
    (∀ a ∈ s.amplitude, 0 ≤ a) ∧ (∀ p ∈ s.phase, -Real.pi < p ∧ p ≤ Real.pi) ∧
    List.zipWith (fun (a p : ℝ) => (a : ℂ) * exp (I * p)) s.amplitude s.phase = s.spectrum := by
  obtain ⟨r, f, v, _, hm, hl, hx⟩ := newSpect_inv h
  obtain ⟨_, _, _, e4, e5, e6, e7, e8, _⟩ := mkSpect_inv hm
  rw [e4, e5, e6, e7, e8]
  refine ⟨by simp, by simp, hl.symm, rfl, ?_, ?_, ?_⟩
  · intro a ha
    obtain ⟨z, _, rfl⟩ := List.mem_map.1 ha
    exact norm_nonneg z
  · intro a ha
    obtain ⟨z, _, rfl⟩ := List.mem_map.1 ha
    exact ⟨neg_pi_lt_arg z, arg_le_pi z⟩
  · clear hx hl e6 e7 e8 hm
    induction v with
    | nil => rfl
    | cons z v ih =>
      rw [List.map_cons, List.map_cons, List.zipWith_cons_cons, ih]
      congr 1
      rw [mul_comm I]
      exact norm_mul_exp_arg_mul_I z

/-- Without interpolation, frequencies and values are those given; `fmin` and `fmax` are the extreme frequencies. -/
theorem C107_raw (rows : Spect) (df : Option ℝ) (h2 : 2 ≤ rows.length) :
    ∃ s, newSpect (.two rows) df none = .ok s ∧ s.freq = rows.map Prod.fst ∧ s.spectrum = rows.map Prod.snd ∧
      s.rawData = rows ∧ (∀ x ∈ s.freq, s.fmin ≤ x ∧ x ≤ s.fmax) ∧ s.fmin ∈ s.freq ∧ s.fmax ∈ s.freq ∧
      ∀ p q, rows[0]? = some p → rows[1]? = some q → s.rawDf = q.1 - p.1 := by
  match rows, h2 with
  | p :: q :: rows, _ =>
    have : ∃ s, newSpect (.two (p :: q :: rows)) df none = .ok s := ⟨_, rfl⟩
    obtain ⟨s, hs⟩ := this
    refine ⟨s, hs, ?_⟩
    obtain ⟨r, f, v, hr, hm, hl, ⟨_, rfl, rfl⟩ | ⟨g, hg, _⟩⟩ := newSpect_inv hs
    · cases hr
      obtain ⟨_, e2, e3, e4, e5, e6, e7, e8, e9, e10, e11⟩ := mkSpect_inv hm
      rw [e2, e3, e5, e6]
      refine ⟨rfl, rfl, rfl, e9, e10, e11, ?_⟩
      intro a b ha hb
      cases ha
      cases hb
      rfl
    · cases hg

theorem mapM_getElem {α β : Type} {f : α → Except PyErr β} : ∀ {l : List α} {v : List β}, l.mapM f = .ok v →
    ∀ (k : Nat) b, v[k]? = some b → ∃ a, l[k]? = some a ∧ f a = .ok b
  | [], v, h, k, b, hb => by cases h; simp at hb
  | a :: l, v, h, k, b, hb => by
    rw [List.mapM_cons] at h
    cases ha : f a with
    | error e => rw [ha] at h; cases h
    | ok w =>
      rw [ha] at h
      cases hq : l.mapM f with
      | error e => rw [hq] at h; cases h
      | ok ws =>
        rw [hq] at h
        cases h
        cases k with
        | zero => cases hb; exact ⟨a, rfl, ha⟩
        | succ k => exact mapM_getElem hq k b hb

/-- One-column data are given the frequencies df, 2 df, …. -/
theorem C107_one_column (col : List ℂ) (d : ℝ) (hd : d ≠ 0) (h2 : 2 ≤ col.length) :
    ∃ s, newSpect (.one col) (some d) none = .ok s ∧ s.spectrum = col ∧ s.rawDf = d ∧
      ∀ k < col.length, s.freq[k]? = some (((k : ℝ) + 1) * d) := by
  have hn1 : ((col.length : ℝ) - 1) ≠ 0 := by
    have : (2 : ℝ) ≤ col.length := by exact_mod_cast h2
    have : (0 : ℝ) < (col.length : ℝ) - 1 := by linarith
    exact this.ne'
  have hlin : ∀ k < col.length, (linspace d ((col.length : ℝ) * d) col.length)[k]? = some (((k : ℝ) + 1) * d) := by
    intro k hk
    unfold linspace
    rw [List.getElem?_map, List.getElem?_range hk]
    simp only [Option.map_some]
    congr 1
    field_simp
    ring
  have hread : readSpect (.one col) (some d) = .ok ((linspace d ((col.length : ℝ) * d) col.length).zip col, d) := by
    unfold readSpect
    dsimp only
    have h0 := hlin 0 (by omega)
    have h1 := hlin 1 (by omega)
    match hL : linspace d ((col.length : ℝ) * d) col.length with
    | [] => rw [hL] at h0; cases h0
    | [_] => rw [hL] at h1; cases h1
    | c0 :: c1 :: t =>
      rw [hL] at h0 h1
      have e0 : c0 = ((0 : ℕ) + 1) * d := Option.some.inj h0
      have e1 : c1 = ((1 : ℕ) + 1) * d := Option.some.inj h1
      dsimp only
      rw [if_neg hd, if_pos]
      have : c1 - c0 - d = 0 := by rw [e0, e1]; push_cast; ring
      rw [this, abs_zero, zero_div]
      positivity
  have hlen : (linspace d ((col.length : ℝ) * d) col.length).length = col.length := by simp [linspace]
  have hfst : ((linspace d ((col.length : ℝ) * d) col.length).zip col).map Prod.fst
      = linspace d ((col.length : ℝ) * d) col.length := List.map_fst_zip hlen.le
  have hsnd : ((linspace d ((col.length : ℝ) * d) col.length).zip col).map Prod.snd = col := List.map_snd_zip hlen.ge
  have : ∃ s, newSpect (.one col) (some d) none = .ok s := by
    unfold newSpect
    rw [hread]
    simp only [bind, Except.bind, hfst]
    unfold mkSpect
    cases hL : linspace d ((col.length : ℝ) * d) col.length with
    | nil => rw [hL] at hlen; simp at hlen; omega
    | cons f0 rest => exact ⟨_, rfl⟩
  obtain ⟨s, hs⟩ := this
  refine ⟨s, hs, ?_⟩
  obtain ⟨r, f, v, hr, hm, hl, ⟨_, rfl, rfl⟩ | ⟨g, hg, _⟩⟩ := newSpect_inv hs
  · rw [hread] at hr
    cases hr
    obtain ⟨_, e2, e3, e4, e5, e6, e7, e8, e9, e10, e11⟩ := mkSpect_inv hm
    rw [e2, e5, e6, hfst]
    exact ⟨hsnd, rfl, hlin⟩
  · cases hg

/-- Interpolated spectra: `n_pts` values on the requested grid, whose real (and imaginary) parts stay within the range of
those given. -/
theorem C107_interpolated (data : SData) (df : Option ℝ) (g : InterpArgs) (s : FreqSpec) (lo hi : ℝ)
    (h : newSpect data df (some g) = .ok s) :
    s.spectrum.length = g.nPts ∧ s.freq.length = g.nPts ∧
    ((∀ p ∈ s.rawData, lo ≤ p.2.re ∧ p.2.re ≤ hi) → ∀ z ∈ s.spectrum, lo ≤ z.re ∧ z.re ≤ hi) ∧
    ((∀ p ∈ s.rawData, lo ≤ p.2.im ∧ p.2.im ≤ hi) → ∀ z ∈ s.spectrum, lo ≤ z.im ∧ z.im ≤ hi) := by
  obtain ⟨r, f, v, hr, hm, hl, ⟨hn, _⟩ | ⟨g', hg, _, rfl, hv⟩⟩ := newSpect_inv h
  · cases hn
  · cases hg
    obtain ⟨_, _, e3, e4, e5, e6, e7, e8, e9, e10, e11⟩ := mkSpect_inv hm
    have hq : (queryGrid g).length = g.nPts := by
      unfold queryGrid
      split
      · exact logspace_length _ _ _
      · simp [linspace]
    rw [e3, e5, e6]
    refine ⟨by rw [hl, hq], hq, ?_, ?_⟩
    · intro hb z hz
      obtain ⟨k, hk⟩ := List.mem_iff_getElem?.1 hz
      obtain ⟨a, _, ha⟩ := mapM_getElem hv k z hk
      unfold interpC at ha
      cases h1 : npInterp (r.1.map fun p => (p.1, p.2.re)) a with
      | error e => rw [h1] at ha; cases ha
      | ok re =>
        rw [h1] at ha
        cases h2 : npInterp (r.1.map fun p => (p.1, p.2.im)) a with
        | error e => rw [h2] at ha; cases ha
        | ok im =>
          rw [h2] at ha
          cases ha
          refine npInterp_bounds h1 fun q hq => ?_
          obtain ⟨p, hp, rfl⟩ := List.mem_map.1 hq
          exact hb p hp
    · intro hb z hz
      obtain ⟨k, hk⟩ := List.mem_iff_getElem?.1 hz
      obtain ⟨a, _, ha⟩ := mapM_getElem hv k z hk
      unfold interpC at ha
      cases h1 : npInterp (r.1.map fun p => (p.1, p.2.re)) a with
      | error e => rw [h1] at ha; cases ha
      | ok re =>
        rw [h1] at ha
        cases h2 : npInterp (r.1.map fun p => (p.1, p.2.im)) a with
        | error e => rw [h2] at ha; cases ha
        | ok im =>
          rw [h2] at ha
          cases ha
          refine npInterp_bounds h2 fun q hq => ?_
          obtain ⟨p, hp, rfl⟩ := List.mem_map.1 hq
          exact hb p hp

/-- The logarithmic grid starts at `fmin` and ends at `fmax`. -/
theorem C107_grid_ends (g : InterpArgs) (h2 : 2 ≤ g.nPts) (h0 : 0 < g.fmin) (h1 : 0 < g.fmax) :
    (queryGrid g)[0]? = some g.fmin ∧ (queryGrid g)[g.nPts - 1]? = some g.fmax := by
  have hn1 : ((g.nPts : ℝ) - 1) ≠ 0 := by
    have : (2 : ℝ) ≤ g.nPts := by exact_mod_cast h2
    have : (0 : ℝ) < (g.nPts : ℝ) - 1 := by linarith
    exact this.ne'
  have hc : (((g.nPts - 1 : ℕ)) : ℝ) = (g.nPts : ℝ) - 1 := by rw [Nat.cast_sub (by omega)]; simp
  have hlin : ∀ a b : ℝ, (linspace a b g.nPts)[0]? = some a ∧ (linspace a b g.nPts)[g.nPts - 1]? = some b := by
    intro a b
    unfold linspace
    rw [List.getElem?_map, List.getElem?_map, List.getElem?_range (by omega), List.getElem?_range (by omega)]
    simp only [Option.map_some, hc]
    constructor
    · simp
    · congr 1
      field_simp
      ring
  unfold queryGrid
  split
  · unfold logspace
    rw [List.getElem?_map, List.getElem?_map, (hlin _ _).1, (hlin _ _).2]
    simp only [Option.map_some]
    rw [Real.rpow_logb (by norm_num) (by norm_num) h0, Real.rpow_logb (by norm_num) (by norm_num) h1]
    exact ⟨rfl, rfl⟩
  · exact hlin _ _

/-- The frequencies of an interpolated spectrum: equally spaced, or equally spaced on a logarithmic scale, as asked for. -/
theorem C107_grid_points (data : SData) (df : Option ℝ) (g : InterpArgs) (s : FreqSpec) (h : newSpect data df (some g) = .ok s)
    (k : Nat) (hk : k < g.nPts) :
    (g.logScale = false → s.freq[k]? = some (g.fmin + (k : ℝ) * ((g.fmax - g.fmin) / ((g.nPts : ℝ) - 1)))) ∧
    (g.logScale = true → 0 < g.fmin ∧ 0 < g.fmax ∧
      s.freq[k]? = some (g.fmin * (g.fmax / g.fmin) ^ ((k : ℝ) / ((g.nPts : ℝ) - 1)))) := by
  obtain ⟨r, f, v, hr, hm, hl, ⟨hn, _⟩ | ⟨g', hg, hpos, rfl, hv⟩⟩ := newSpect_inv h
  · cases hn
  · cases hg
    obtain ⟨_, _, e3, e4, e5, e6, e7, e8, e9, e10, e11⟩ := mkSpect_inv hm
    rw [e5]
    constructor
    · intro hg
      unfold queryGrid
      rw [hg]
      exact linspace_getElem? _ _ _ _ hk
    · intro hg
      obtain ⟨h0, h1⟩ := hpos hg
      refine ⟨h0, h1, ?_⟩
      unfold queryGrid
      rw [hg]
      simp only [if_true]
      unfold logspace
      rw [List.getElem?_map, linspace_getElem? _ _ _ _ hk, Option.map_some]
      congr 1
      rw [Real.rpow_add (by norm_num), Real.rpow_logb (by norm_num) (by norm_num) h0, ← Real.logb_div h1.ne' h0.ne',
        show (k : ℝ) * (Real.logb 10 (g.fmax / g.fmin) / ((g.nPts : ℝ) - 1)) =
          Real.logb 10 (g.fmax / g.fmin) * ((k : ℝ) / ((g.nPts : ℝ) - 1)) by ring, Real.rpow_mul (by norm_num),
        Real.rpow_logb (by norm_num) (by norm_num) (div_pos h1 h0)]

/-! ## C70 -/

theorem zipWith_polar_shift (v : List ℂ) (ph : List ℝ) (hl : ph.length = v.length)
    (h : ∀ (i : Nat) a x, (v.map arg)[i]? = some a → ph[i]? = some x → ∃ k : Int, x = a + 2 * Real.pi * k) :
    List.zipWith (fun (a p : ℝ) => (a : ℂ) * exp (I * p)) (v.map fun z => ‖z‖) ph = v := by
  induction v generalizing ph with
  | nil => rfl
  | cons z v ih =>
    cases ph with
    | nil => simp at hl
    | cons p ph =>
      rw [List.map_cons, List.zipWith_cons_cons, ih ph (by simpa using hl)
        (fun i a x ha hx => h (i + 1) a x (by simpa using ha) (by simpa using hx))]
      congr 1
      obtain ⟨k, hk⟩ := h 0 (arg z) p rfl rfl
      have : exp (I * (p : ℂ)) = exp (arg z * I) := by
        rw [Complex.exp_eq_exp_iff_exists_int]
        refine ⟨k, ?_⟩
        rw [hk]
        push_cast
        ring
      rw [this]
      exact norm_mul_exp_arg_mul_I z

/-- The spectrum returned by `get_unwrapped_phase(robust=False)` has the values of the original one, and therefore the
same phases: nothing is unwrapped. -/
theorem C70_nothing_unwrapped_violated (data : SData) (df : Option ℝ) (interp : Option InterpArgs) (s u : FreqSpec)
    (h : newSpect data df interp = .ok s) (hu : unwrappedSpect false s = .ok u) :
    u.spectrum = s.spectrum ∧ u.phase = s.phase ∧ u.amplitude = s.amplitude := by
  obtain ⟨r, f, v, _, hm, hl, _⟩ := newSpect_inv h
  obtain ⟨_, _, _, e4, e5, e6, e7, e8, _⟩ := mkSpect_inv hm
  unfold unwrappedSpect at hu
  simp only [Bool.false_eq_true, if_false] at hu
  obtain ⟨r', f', v', hr', hm', hl', ⟨_, hf', hv'⟩ | ⟨g, hg, _⟩⟩ := newSpect_inv hu
  swap
  · cases hg
  obtain ⟨_, _, _, e4', e5', e6', e7', e8', _⟩ := mkSpect_inv hm'
  rw [e7, e8] at hr'
  obtain ⟨c1, _, c3, _⟩ := C32_unwrap Real.pi Real.pi Real.pi_pos 0 (v.map arg) ⟨0, by simp⟩
  rw [zipWith_polar_shift v _ (by rw [c1, List.length_map]) c3] at hr'
  have hv : v' = v := by
    rw [hv']
    unfold readSpect at hr'
    dsimp only at hr'
    split at hr'
    · split at hr'
      · cases hr'
      · split at hr'
        · cases hr'
          exact List.map_snd_zip (by simp [linspace])
        · cases hr'
    · cases hr'
  rw [e6', e7', e8', e6, e7, e8, hv]
  exact ⟨rfl, rfl, rfl⟩

/-- With either option the phases of the result lie in (-π, π]. -/
theorem C70_wrapped_violated (robust : Bool) (s u : FreqSpec) (hu : unwrappedSpect robust s = .ok u) :
    ∀ p ∈ u.phase, -Real.pi < p ∧ p ≤ Real.pi := by
  unfold unwrappedSpect at hu
  exact (C107_polar _ _ _ u hu).2.2.2.2.2.1

/-- The frequencies of the result are df, 2 df, … instead of those of the spectrum. -/
theorem C70_frequencies_violated (robust : Bool) (s u : FreqSpec) (hu : unwrappedSpect robust s = .ok u) :
    ∀ (k : Nat) f, u.freq[k]? = some f → f = ((k : ℝ) + 1) * s.rawDf := by
  unfold unwrappedSpect at hu
  intro k f hf
  dsimp only at hu
  set col := List.zipWith (fun (a p : ℝ) => (a : ℂ) * exp (I * p)) s.amplitude
    (if robust then robustUnwrap Real.pi Real.pi s.phase else npUnwrapFrom Real.pi Real.pi 0 s.phase)
  obtain ⟨r, f', v, hr, hm, hl, ⟨_, rfl, rfl⟩ | ⟨g, hg, _⟩⟩ := newSpect_inv hu
  swap
  · cases hg
  have h2 : 2 ≤ col.length ∧ s.rawDf ≠ 0 := by
    unfold readSpect at hr
    dsimp only at hr
    split at hr
    · rename_i c0 c1 t hL
      have := congrArg List.length hL
      simp only [linspace, List.length_map, List.length_range, List.length_cons] at this
      by_cases h0 : s.rawDf = 0
      · rw [if_pos h0] at hr; cases hr
      · exact ⟨by omega, h0⟩
    · cases hr
  obtain ⟨s', hs', _, _, hfreq⟩ := C107_one_column col s.rawDf h2.2 h2.1
  have : s' = u := Except.ok.inj (hs'.symm.trans hu)
  subst this
  have hk : k < col.length := by
    have hlen := (C107_polar _ _ _ s' hu).2.2.1
    have hsp : s'.spectrum = col := by
      obtain ⟨s'', hs'', e, _⟩ := C107_one_column col s.rawDf h2.2 h2.1
      have : s'' = s' := Except.ok.inj (hs''.symm.trans hu)
      rw [← this, e]
    rw [hsp] at hlen
    by_contra hc
    rw [List.getElem?_eq_none (by rw [hlen]; exact not_lt.1 hc)] at hf
    cases hf
  rw [hfreq k hk] at hf
  exact (Option.some.inj hf).symm

/-- `get_smoothed` never returns without a figure, its default. -/
theorem C70_smoothed_violated (s : FreqSpec) (winLen : Nat) (logScale : Bool) (y : List ℝ) :
    smoothedSpect s winLen false logScale ≠ .ok y := by
  unfold smoothedSpect
  cases logSmooth { winLen := winLen, linSpace := !logScale, fmin := some s.fmin, fmax := some s.fmax }
    (s.spectrum.map re) with
  | error e => intro h; cases h
  | ok v => intro h; cases h

/-- With a figure, the smoothed real spectrum has as many samples as the spectrum and stays in its range. -/
theorem C70_smoothed_partial (s : FreqSpec) (winLen : Nat) (logScale : Bool) (y : List ℝ) (hi : ℝ)
    (h : smoothedSpect s winLen true logScale = .ok y) (h0 : 0 ≤ hi) (hs : ∀ z ∈ s.spectrum, 0 ≤ z.re ∧ z.re ≤ hi) :
    y.length = s.spectrum.length ∧ ∀ a ∈ y, 0 ≤ a ∧ a ≤ hi := by
  unfold smoothedSpect at h
  cases hl : logSmooth { winLen := winLen, linSpace := !logScale, fmin := some s.fmin, fmax := some s.fmax }
    (s.spectrum.map re) with
  | error e => rw [hl] at h; cases h
  | ok v =>
    rw [hl] at h
    cases h
    obtain ⟨l, w⟩ := C65_log_smooth _ _ _ 0 hi hl (by
      intro a ha
      obtain ⟨z, hz, rfl⟩ := List.mem_map.1 ha
      exact hs z hz) le_rfl h0
    rw [List.length_map] at l
    exact ⟨l, w⟩

/-- A spectrum with the phases 0, 3, -3 at 1, 2, 4 Hz: after `get_unwrapped_phase` the phases are the same and the last
frequency has become 3 Hz. -/
example : ∃ s u, newSpect (.two [(1, 1), (2, exp (3 * I)), (4, exp (-3 * I))]) none none = .ok s ∧
    unwrappedSpect false s = .ok u ∧ u.phase = s.phase ∧ s.freq[2]? = some 4 ∧ u.freq[2]? = some 3 := by
  obtain ⟨s, hs, hf, hsp, hraw, _⟩ := C107_raw [(1, 1), (2, exp (3 * I)), (4, exp (-3 * I))] none (by simp)
  obtain ⟨r, f, v, hr, hm, hl, ⟨_, rfl, rfl⟩ | ⟨g, hg, _⟩⟩ := newSpect_inv hs
  swap
  · cases hg
  cases hr
  obtain ⟨_, e2, _, e4, e5, e6, e7, e8, _⟩ := mkSpect_inv hm
  have hdf : s.rawDf = 1 := by rw [e2]; norm_num
  obtain ⟨c1, _, c3, _⟩ := C32_unwrap Real.pi Real.pi Real.pi_pos 0 s.phase ⟨0, by simp⟩
  have hlen : (List.zipWith (fun (a p : ℝ) => (a : ℂ) * exp (I * p)) s.amplitude
      (npUnwrapFrom Real.pi Real.pi 0 s.phase)).length = 3 := by
    rw [List.length_zipWith, c1, e7, e8]; simp
  obtain ⟨u, hu, hus, _, huf⟩ := C107_one_column _ s.rawDf (by rw [hdf]; norm_num) (by rw [hlen]; norm_num)
  have hu' : unwrappedSpect false s = .ok u := hu
  refine ⟨s, u, hs, hu', (C70_nothing_unwrapped_violated _ _ _ s u hs hu').2.1, by rw [hf]; rfl, ?_⟩
  rw [huf 2 (by rw [hlen]; norm_num), hdf]
  norm_num

/-- A spectrum of non-negative real values has zero phase, and amplitude equal to the spectrum. -/
theorem C113_real_phase_partial (rows : Spect) (df : Option ℝ) (grid : Option InterpArgs) (s : FreqSpec)
    (h : newSpect (.two rows) df grid = .ok s) (hreal : ∀ z ∈ s.spectrum, 0 ≤ z.re ∧ z.im = 0) :
    (∀ a ∈ s.phase, a = 0) ∧ s.amplitude = s.spectrum.map Complex.re := by
  obtain ⟨r, f, v, hr, hm, hl, -⟩ := newSpect_inv h
  obtain ⟨_, e2, _, e4, e5, e6, e7, e8, _⟩ := mkSpect_inv hm
  rw [e6] at hreal
  rw [e6, e7, e8]
  constructor
  · intro a ha
    obtain ⟨z, hz, rfl⟩ := List.mem_map.1 ha
    exact Complex.arg_eq_zero_iff.2 (hreal z hz)
  · refine List.map_congr_left ?_
    intro z hz
    obtain ⟨h1, h2⟩ := hreal z hz
    have : z = (z.re : ℂ) := Complex.ext rfl (by simpa using h2)
    rw [this, Complex.norm_of_nonneg h1]
    rfl

/-- At every negative real value the phase is π, not zero. -/
theorem C113_real_phase_violated (rows : Spect) (df : Option ℝ) (grid : Option InterpArgs) (s : FreqSpec)
    (h : newSpect (.two rows) df grid = .ok s) (k : ℕ) (z : ℂ) (hz : s.spectrum[k]? = some z) (hre : z.re < 0) (him : z.im = 0) :
    s.phase[k]? = some Real.pi := by
  obtain ⟨r, f, v, hr, hm, hl, -⟩ := newSpect_inv h
  obtain ⟨_, e2, _, e4, e5, e6, e7, e8, _⟩ := mkSpect_inv hm
  rw [e6] at hz
  rw [e8, List.getElem?_map, hz]
  exact congrArg some (Complex.arg_eq_pi_iff.2 ⟨hre, him⟩)

/-- The phase factors `(1, -2)` as a spectrum: real values, phase `(0, π)`. -/
example : ∃ s, newSpect (.two [(1, 1), (2, -2)]) none none = .ok s ∧ s.phase[0]? = some 0 ∧ s.phase[1]? = some Real.pi := by
  obtain ⟨s, hs, hf, hsp, -⟩ := C107_raw [(1, 1), (2, -2)] none (by simp)
  refine ⟨s, hs, ?_, C113_real_phase_violated _ _ _ s hs 1 (-2) (by rw [hsp]; rfl) (by simp) (by simp)⟩
  obtain ⟨r, f, v, hr, hm, hl, -⟩ := newSpect_inv hs
  obtain ⟨_, e2, _, e4, e5, e6, e7, e8, _⟩ := mkSpect_inv hm
  rw [e8, ← e6, hsp]
  simp

end Verif
