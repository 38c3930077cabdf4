import Verif.Model.ProfileTf
import Verif.Props.FreqSpectrum
import Verif.Props.MotionMethods
import Verif.Props.Phase

/-!
Property C131: transfer functions, amplification functions and fundamental frequencies of a profile.
-/

set_option linter.unusedSectionVars false
set_option linter.unusedVariables false

namespace Verif

open Complex
open Spec (Valid5 DampedLay SiteResponse WaveNumber upgoing MakesUp FirstPeak Rising)

/-- The spectrum tabulates `T` at the multiples of `df` up to `fmax`, and nothing else. -/
def Spec.Tabulates (s : FreqSpec) (df fmax : ℝ) (T : ℝ → ℂ) : Prop :=
  s.spectrum.length = s.freq.length ∧
  ∀ i : Nat, (((i : ℝ) + 1) * df ≤ fmax →
      s.freq[i]? = some (((i : ℝ) + 1) * df) ∧ s.spectrum[i]? = some (T (((i : ℝ) + 1) * df)) ∧
      s.amplitude[i]? = some ‖T (((i : ℝ) + 1) * df)‖) ∧
    (fmax < ((i : ℝ) + 1) * df → s.freq[i]? = none)

open Spec (Tabulates)

theorem findF0_ok {x : List (ℝ × ℝ)} (h : 2 ≤ x.length) : ∃ f, findF0 x = .ok f ∧ f ∈ x.map Prod.fst := by
  unfold findF0
  rw [if_neg (by omega)]
  rcases f0Loop_spec 0 (x.map Prod.snd) (by simpa using h) with ⟨k, h1, h3, h4⟩ | ⟨h1, h3⟩
  · simp only [List.length_map] at h3
    have e : (if f0Loop 1 0 (x.map Prod.snd) + 2 = x.length then f0Loop 1 0 (x.map Prod.snd) + 1 else f0Loop 1 0 (x.map Prod.snd)) = k := by
      rw [h1, if_neg (by omega)]; omega
    simp only [e]
    rw [List.getElem?_eq_getElem (by omega : k < x.length)]
    exact ⟨_, rfl, List.mem_map_of_mem (List.getElem_mem _)⟩
  · simp only [List.length_map] at h1
    have e : (if f0Loop 1 0 (x.map Prod.snd) + 2 = x.length then f0Loop 1 0 (x.map Prod.snd) + 1 else f0Loop 1 0 (x.map Prod.snd)) = x.length - 1 := by
      rw [if_pos (by omega)]; omega
    simp only [e]
    rw [List.getElem?_eq_getElem (by omega : x.length - 1 < x.length)]
    exact ⟨_, rfl, List.mem_map_of_mem (List.getElem_mem _)⟩

theorem linearTf_two {ls : List Lay} {df fmax : ℝ} (hdf : 0 < df) (h2 : 2 * df ≤ fmax) : 2 ≤ (linearTf ls df fmax).length := by
  by_contra hc
  have : (linearTf ls df fmax)[1]? = none := List.getElem?_eq_none (by omega)
  have := (C33_grid ls df fmax hdf 1).1.1 this
  push_cast at this
  linarith

theorem linearTfOut_ok {rows : List (Row ℝ)} (hv : Valid5 rows) {df fmax : ℝ} (hdf : 0 < df) (h2 : 2 * df ≤ fmax) :
    ∃ a b, linearTfOut rows df fmax = .ok (linearTf (rows.map rowLay) df fmax, a, b) ∧
      findF0 ((linearTf (rows.map rowLay) df fmax).map fun r => (r.1, r.2.2.1)) = .ok a ∧
      findF0 ((linearTf (rows.map rowLay) df fmax).map fun r => (r.1, r.2.2.2.2)) = .ok b := by
  have hl := linearTf_two (ls := rows.map rowLay) hdf h2
  obtain ⟨a, ha, _⟩ := findF0_ok (x := (linearTf (rows.map rowLay) df fmax).map fun r => (r.1, r.2.2.1)) (by simpa using hl)
  obtain ⟨c, hc, _⟩ := findF0_ok (x := (linearTf (rows.map rowLay) df fmax).map fun r => (r.1, r.2.2.2.1)) (by simpa using hl)
  obtain ⟨b, hb, _⟩ := findF0_ok (x := (linearTf (rows.map rowLay) df fmax).map fun r => (r.1, r.2.2.2.2)) (by simpa using hl)
  refine ⟨a, b, ?_, ha, hb⟩
  unfold linearTfOut
  have hfl : ¬⌊fmax / df⌋ < 0 := by
    rw [not_lt]
    apply Int.floor_nonneg.2
    have : 0 < fmax := by linarith
    positivity
  simp only [(checkVsFormat_five_ok rows).2 hv, bind, Except.bind, if_neg hdf.ne', if_neg hfl, ha, hb, hc, pure, Except.pure]

theorem tfSpectrum_tab {ls : List Lay} {df fmax : ℝ} (hdf : 0 < df) (h2 : 2 * df ≤ fmax) (pick : TfRow → ℂ) (T : ℝ → ℂ)
    (hT : ∀ r ∈ linearTf ls df fmax, pick r = T r.1) :
    ∃ s, tfSpectrum (linearTf ls df fmax) pick = .ok s ∧ Tabulates s df fmax T ∧
      s.freq.zip s.amplitude = (linearTf ls df fmax).map fun r => (r.1, ‖pick r‖) := by
  have hl := linearTf_two (ls := ls) hdf h2
  obtain ⟨s, hs, e1, e2, _⟩ := C107_raw ((linearTf ls df fmax).map fun r => (r.1, pick r)) none (by simpa using hl)
  have ha : s.amplitude = s.spectrum.map fun z => ‖z‖ := by
    obtain ⟨r, f, v, hr, hm, hl, hx⟩ := newSpect_inv hs
    obtain ⟨_, _, e3, e4, e5, e6, e7, e8, e9, e10, e11⟩ := mkSpect_inv hm
    rw [e6, e7]
  rw [List.map_map] at e1 e2
  refine ⟨s, hs, ⟨by rw [e1, e2]; simp, fun i => ⟨fun hi => ?_, fun hi => ?_⟩⟩, ?_⟩
  · have hg := C33_grid ls df fmax hdf i
    cases hr : (linearTf ls df fmax)[i]? with
    | none => exact absurd (hg.1.1 hr) (not_lt.2 hi)
    | some r =>
      have h1 := (hg.2 r hr).1
      have hp := hT r (List.mem_of_getElem? hr)
      rw [h1] at hp
      refine ⟨?_, ?_, ?_⟩
      · rw [e1, List.getElem?_map, hr]; simp [h1]
      · rw [e2, List.getElem?_map, hr]; simp [hp]
      · rw [ha, e2, List.getElem?_map, List.getElem?_map, hr]; simp [hp]
  · rw [e1, List.getElem?_map, (C33_grid ls df fmax hdf i).1.2 hi]; rfl
  · rw [ha, e1, e2, List.map_map]
    generalize linearTf ls df fmax = t
    induction t with
    | nil => rfl
    | cons r t ih => simp only [List.map_cons, List.zip_cons_cons, ih]; rfl

theorem linearTf_values {ls : List Lay} {df fmax : ℝ} (hdf : 0 < df) : ∀ r ∈ linearTf ls df fmax,
    r.2.1 = (tfRo (2 * Real.pi * r.1) ls, tfIn (2 * Real.pi * r.1) ls, tfBh (2 * Real.pi * r.1) ls) ∧
    r.2.2 = (‖r.2.1.1‖, ‖r.2.1.2.1‖, ‖r.2.1.2.2‖) := by
  intro r hr
  obtain ⟨i, hi⟩ := List.mem_iff_getElem?.1 hr
  exact ((C33_grid ls df fmax hdf i).2 r hi).2

/-- For every valid profile and every positive resolution with at least two frequencies, both methods succeed.  The
transfer functions, in the order outcrop, borehole, incident, are tabulated at the multiples of the resolution up to the
maximum frequency; the amplification functions are their moduli at the same frequencies. -/
theorem C131_tables (rows : List (Row ℝ)) (hv : Valid5 rows) (df fmax : ℝ) (hdf : 0 < df) (h2 : 2 * df ≤ fmax) :
    ∃ t a, transferFunctions rows df fmax = .ok t ∧ amplFunctions rows df fmax = .ok a ∧
      Tabulates t.1 df fmax (fun f => tfRo (2 * Real.pi * f) (rows.map rowLay)) ∧
      Tabulates t.2.1 df fmax (fun f => tfBh (2 * Real.pi * f) (rows.map rowLay)) ∧
      Tabulates t.2.2 df fmax (fun f => tfIn (2 * Real.pi * f) (rows.map rowLay)) ∧
      Tabulates a.1 df fmax (fun f => ‖tfRo (2 * Real.pi * f) (rows.map rowLay)‖) ∧
      Tabulates a.2.1 df fmax (fun f => ‖tfBh (2 * Real.pi * f) (rows.map rowLay)‖) ∧
      Tabulates a.2.2 df fmax (fun f => ‖tfIn (2 * Real.pi * f) (rows.map rowLay)‖) := by
  obtain ⟨x, y, ho, _⟩ := linearTfOut_ok hv hdf h2
  have hval := linearTf_values (ls := rows.map rowLay) (df := df) (fmax := fmax) hdf
  obtain ⟨s1, h1, t1, _⟩ := tfSpectrum_tab (ls := rows.map rowLay) hdf h2 (fun r => r.2.1.1) (fun f => tfRo (2 * Real.pi * f) (rows.map rowLay))
    (fun r hr => by simp only [(hval r hr).1])
  obtain ⟨s2, h2', t2, _⟩ := tfSpectrum_tab (ls := rows.map rowLay) hdf h2 (fun r => r.2.1.2.2) (fun f => tfBh (2 * Real.pi * f) (rows.map rowLay))
    (fun r hr => by simp only [(hval r hr).1])
  obtain ⟨s3, h3, t3, _⟩ := tfSpectrum_tab (ls := rows.map rowLay) hdf h2 (fun r => r.2.1.2.1) (fun f => tfIn (2 * Real.pi * f) (rows.map rowLay))
    (fun r hr => by simp only [(hval r hr).1])
  obtain ⟨u1, k1, v1, _⟩ := tfSpectrum_tab (ls := rows.map rowLay) hdf h2 (fun r => (r.2.2.1 : ℂ)) (fun f => (‖tfRo (2 * Real.pi * f) (rows.map rowLay)‖ : ℂ))
    (fun r hr => by simp only [(hval r hr).2, (hval r hr).1])
  obtain ⟨u2, k2, v2, _⟩ := tfSpectrum_tab (ls := rows.map rowLay) hdf h2 (fun r => (r.2.2.2.2 : ℂ)) (fun f => (‖tfBh (2 * Real.pi * f) (rows.map rowLay)‖ : ℂ))
    (fun r hr => by simp only [(hval r hr).2, (hval r hr).1])
  obtain ⟨u3, k3, v3, _⟩ := tfSpectrum_tab (ls := rows.map rowLay) hdf h2 (fun r => (r.2.2.2.1 : ℂ)) (fun f => (‖tfIn (2 * Real.pi * f) (rows.map rowLay)‖ : ℂ))
    (fun r hr => by simp only [(hval r hr).2, (hval r hr).1])
  refine ⟨(s1, s2, s3), (u1, u2, u3), ?_, ?_, t1, t2, t3, v1, v2, v3⟩
  · unfold transferFunctions
    simp only [ho, bind, Except.bind, h1, h2', h3, pure, Except.pure]
  · unfold amplFunctions
    simp only [ho, bind, Except.bind, k1, k2, k3, pure, Except.pure]

/-- What the tabulated values mean: for every harmonic motion of the soil column at a tabulated frequency, the values of the
three transfer functions times twice the incident amplitude, the base displacement and the incident amplitude are the
surface displacement; the values are neither zero nor infinite. -/
theorem C131_waves (rows : List (Row ℝ)) (hv : Valid5 rows) (df fmax : ℝ) (hdf : 0 < df) (t : FreqSpec × FreqSpec × FreqSpec)
    (h2 : 2 * df ≤ fmax) (ht : transferFunctions rows df fmax = .ok t) (i : Nat) (φ : ℝ) (ro bh inc : ℂ) (hf : t.1.freq[i]? = some φ)
    (hro : t.1.spectrum[i]? = some ro) (hbh : t.2.1.spectrum[i]? = some bh) (hin : t.2.2.spectrum[i]? = some inc) :
    ro ≠ 0 ∧ bh ≠ 0 ∧ inc = 2 * ro ∧
    ∀ (fs : List Spec.Field), SiteResponse (2 * Real.pi * φ) (rows.map rowLay) fs →
      ∀ (f g : Spec.Field) (m : Lay), fs.head? = some f → fs.getLast? = some g → (rows.map rowLay).getLast? = some m →
        ∀ k, WaveNumber (2 * Real.pi * φ) m k →
          ro * (2 * upgoing k g) = f.u 0 ∧ bh * g.u 0 = f.u 0 ∧ inc * upgoing k g = f.u 0 := by
  obtain ⟨t', a, ht', _, ⟨_, t1⟩, ⟨_, t2⟩, ⟨_, t3⟩, _⟩ := C131_tables rows hv df fmax hdf h2
  obtain rfl : t' = t := Except.ok.inj (ht'.symm.trans ht)
  have hle : ((i : ℝ) + 1) * df ≤ fmax := by
    by_contra hc
    rw [(t1 i).2 (not_le.1 hc)] at hf
    cases hf
  obtain ⟨f1, s1, _⟩ := (t1 i).1 hle
  obtain ⟨_, s2, _⟩ := (t2 i).1 hle
  obtain ⟨_, s3, _⟩ := (t3 i).1 hle
  obtain rfl := Option.some.inj (f1.symm.trans hf)
  obtain rfl := Option.some.inj (s1.symm.trans hro)
  obtain rfl := Option.some.inj (s2.symm.trans hbh)
  obtain rfl := Option.some.inj (s3.symm.trans hin)
  have hw : 0 < 2 * Real.pi * (((i : ℝ) + 1) * df) := by positivity
  obtain ⟨n1, n2, n3⟩ := C79_nonzero _ hw (rows.map rowLay) (by simpa using hv.nonempty) (valid5_damped hv)
  refine ⟨n1, n3, C33_ratio _ _, ?_⟩
  intro fs hfs f g m h1 h3 h4 k hk
  obtain ⟨e1, e2, e3⟩ := C33_wave _ hw _ (valid5_damped hv) fs hfs f g m h1 h3 h4 k hk
  exact ⟨e1, e3, e2⟩

/-- Invalid profiles are refused; fewer than two frequencies cannot be handled (the search for the first peak fails), nor
can a resolution of 0. -/
theorem C131_rejects (rows : List (Row ℝ)) (df fmax : ℝ) :
    (¬Valid5 rows → ∃ e, transferFunctions rows df fmax = .error e ∧ amplFunctions rows df fmax = .error e) ∧
    (Valid5 rows → df = 0 → transferFunctions rows df fmax = .error .other ∧ amplFunctions rows df fmax = .error .other) ∧
    (Valid5 rows → 0 < df → 0 ≤ fmax → fmax < 2 * df →
      transferFunctions rows df fmax = .error .unboundLocal ∧ amplFunctions rows df fmax = .error .unboundLocal) ∧
    (Valid5 rows → 0 < df → fmax < 0 →
      transferFunctions rows df fmax = .error .valueError ∧ amplFunctions rows df fmax = .error .valueError) := by
  have go : ∀ e, linearTfOut rows df fmax = .error e →
      transferFunctions rows df fmax = .error e ∧ amplFunctions rows df fmax = .error e := by
    intro e he
    unfold transferFunctions amplFunctions
    simp only [he, bind, Except.bind, and_self]
  refine ⟨fun hv => ?_, fun hv h0 => go _ ?_, fun hv hd h0 h1 => go _ ?_, fun hv hd h1 => go _ ?_⟩
  · cases hc : checkVsFormat (.five rows) with
    | ok u => cases u; exact absurd ((checkVsFormat_five_ok rows).1 hc) hv
    | error e =>
      refine ⟨e, go e ?_⟩
      unfold linearTfOut
      simp only [hc, bind, Except.bind]
  · unfold linearTfOut
    simp only [(checkVsFormat_five_ok rows).2 hv, bind, Except.bind, if_pos h0]
  · unfold linearTfOut
    have hfl : ¬⌊fmax / df⌋ < 0 := by
      rw [not_lt]; exact Int.floor_nonneg.2 (by positivity)
    have hl : (linearTf (rows.map rowLay) df fmax).length < 2 := by
      have := (C33_grid (rows.map rowLay) df fmax hd 1).1.2 (by push_cast; linarith)
      have := List.getElem?_eq_none_iff.1 this
      omega
    have : findF0 ((linearTf (rows.map rowLay) df fmax).map fun r => (r.1, r.2.2.1)) = .error .unboundLocal :=
      C31_short _ (by simpa using hl)
    simp only [(checkVsFormat_five_ok rows).2 hv, bind, Except.bind, if_neg hd.ne', if_neg hfl, this]
  · unfold linearTfOut
    have hfl : ⌊fmax / df⌋ < 0 := by
      rw [Int.floor_lt]
      push_cast
      exact div_neg_of_neg_of_pos h1 hd
    simp only [(checkVsFormat_five_ok rows).2 hv, bind, Except.bind, if_neg hd.ne', if_pos hfl]

theorem tfRes_pos : (0 : ℝ) < tfRes := by unfold tfRes; norm_num
theorem tfRes_two : 2 * tfRes ≤ 30 := by unfold tfRes; norm_num

theorem tab_f0 {rows : List (Row ℝ)} (hv : Valid5 rows) (T : ℝ → ℂ) (pick : TfRow → ℂ)
    (hT : ∀ r ∈ linearTf (rows.map rowLay) tfRes 30, pick r = T r.1) :
    ∃ s f, tfSpectrum (linearTf (rows.map rowLay) tfRes 30) pick = .ok s ∧ specF0 s = .ok f ∧
      (∃ k : Nat, k < 599 ∧ f = ((k : ℝ) + 1) * tfRes) ∧
      (∀ i : Nat, i < 597 → (∀ j : Nat, j < i → ‖T (((j : ℝ) + 1) * tfRes)‖ < ‖T (((j : ℝ) + 2) * tfRes)‖) →
        ‖T (((i : ℝ) + 2) * tfRes)‖ ≤ ‖T (((i : ℝ) + 1) * tfRes)‖ → f = ((i : ℝ) + 1) * tfRes) ∧
      ((∀ j : Nat, j < 598 → ‖T (((j : ℝ) + 1) * tfRes)‖ < ‖T (((j : ℝ) + 2) * tfRes)‖) → f = 599 * tfRes) := by
  obtain ⟨s, hs, ⟨hlen, htab⟩, hz⟩ := tfSpectrum_tab (ls := rows.map rowLay) (df := tfRes) (fmax := 30) tfRes_pos tfRes_two pick T hT
  have hN : (linearTf (rows.map rowLay) tfRes 30).length = 599 := by
    apply le_antisymm
    · have := (C33_grid (rows.map rowLay) tfRes 30 tfRes_pos 599).1.2 (by unfold tfRes; norm_num)
      exact List.getElem?_eq_none_iff.1 this
    · by_contra hc
      have := List.getElem?_eq_none_iff.2 (show (linearTf (rows.map rowLay) tfRes 30).length ≤ 598 by omega)
      have := (C33_grid (rows.map rowLay) tfRes 30 tfRes_pos 598).1.1 this
      unfold tfRes at this; norm_num at this
  set x := s.freq.zip s.amplitude with hx
  have hxl : x.length = 599 := by rw [hz, List.length_map, hN]
  have hget : ∀ k : Nat, k < 599 → x[k]? = some (((k : ℝ) + 1) * tfRes, ‖T (((k : ℝ) + 1) * tfRes)‖) := by
    intro k hk
    have hk' : ((k : ℝ) + 1) * tfRes ≤ 30 := by
      have : (k : ℝ) ≤ 598 := by exact_mod_cast (by omega : k ≤ 598)
      unfold tfRes; linarith
    obtain ⟨e1, _, e3⟩ := (htab k).1 hk'
    rw [hx, List.getElem?_zip_eq_some (z := (((k : ℝ) + 1) * tfRes, ‖T (((k : ℝ) + 1) * tfRes)‖)) |>.2 ⟨e1, e3⟩]
  have hval : ∀ (k : Nat) u, (x.map Prod.snd)[k]? = some u → k < 599 ∧ u = ‖T (((k : ℝ) + 1) * tfRes)‖ := by
    intro k u hu
    have hk : k < 599 := by
      have := (List.getElem?_eq_some_iff.1 hu).1
      simpa [hxl] using this
    rw [List.getElem?_map, hget k hk] at hu
    exact ⟨hk, (Option.some.inj hu).symm⟩
  obtain ⟨f, hf, hmem⟩ := findF0_ok (x := x) (by omega)
  refine ⟨s, f, hs, hf, ?_, ?_, ?_⟩
  · obtain ⟨p, hp, rfl⟩ := List.mem_map.1 hmem
    obtain ⟨k, hk⟩ := List.mem_iff_getElem?.1 hp
    have hk6 : k < 599 := by have := (List.getElem?_eq_some_iff.1 hk).1; omega
    rw [hget k hk6] at hk
    exact ⟨k, hk6, by rw [← Option.some.inj hk]⟩
  · intro i hi hrise hfall
    have hpk : FirstPeak (x.map Prod.snd) i := by
      refine ⟨fun j u v hj hu hv' => ?_, _, _, ?_, ?_, hfall⟩
      · rw [(hval j u hu).2, (hval _ v hv').2]
        have := hrise j hj
        push_cast
        rw [show (j : ℝ) + 1 + 1 = j + 2 by ring]
        exact this
      · rw [List.getElem?_map, hget i (by omega)]; rfl
      · rw [List.getElem?_map, hget (i + 1) (by omega)]
        push_cast
        rw [show (i : ℝ) + 1 + 1 = i + 2 by ring]; rfl
    have := C31_first_peak_partial x i hpk (by omega) (((i : ℝ) + 1) * tfRes) (by rw [List.getElem?_map, hget i (by omega)]; rfl)
    exact Except.ok.inj (hf.symm.trans this)
  · intro hrise
    have hr : Rising (x.map Prod.snd) := by
      intro j u v hu hv'
      obtain ⟨h1, e1⟩ := hval j u hu
      obtain ⟨h3, e3⟩ := hval _ v hv'
      rw [e1, e3]
      have := hrise j (by omega)
      push_cast
      rw [show (j : ℝ) + 1 + 1 = j + 2 by ring]
      exact this
    have := C31_rising x hr (by omega) (599 * tfRes) (by
      rw [List.getLast?_eq_getElem?, List.length_map, hxl, List.getElem?_map, hget 598 (by omega)]
      norm_num)
    exact Except.ok.inj (hf.symm.trans this)

/-- The fundamental frequencies of a valid profile always exist.  Both are multiples of 0.05 Hz up to 29.95 Hz, the last of the 599
tabulated frequencies: the first one at which the amplification stops rising, 29.95 Hz if it never does.  Missing: a first peak at
29.90 Hz, for which 29.95 Hz is returned (`C31_second_last_violated`), and 30 Hz, which the table does not reach
(`C131_top_violated`). -/
theorem C131_f0_partial (rows : List (Row ℝ)) (hv : Valid5 rows) :
    ∃ f g, f0Ro rows = .ok f ∧ f0Bh rows = .ok g ∧
      (∃ k : Nat, k < 599 ∧ f = ((k : ℝ) + 1) * tfRes) ∧ (∃ k : Nat, k < 599 ∧ g = ((k : ℝ) + 1) * tfRes) ∧
      (let A := fun k : Nat => ‖tfRo (2 * Real.pi * (((k : ℝ) + 1) * tfRes)) (rows.map rowLay)‖
       (∀ i, i < 597 → (∀ j < i, A j < A (j + 1)) → A (i + 1) ≤ A i → f = ((i : ℝ) + 1) * tfRes) ∧
       ((∀ j < 598, A j < A (j + 1)) → f = 599 * tfRes)) ∧
      (let A := fun k : Nat => ‖tfBh (2 * Real.pi * (((k : ℝ) + 1) * tfRes)) (rows.map rowLay)‖
       (∀ i, i < 597 → (∀ j < i, A j < A (j + 1)) → A (i + 1) ≤ A i → g = ((i : ℝ) + 1) * tfRes) ∧
       ((∀ j < 598, A j < A (j + 1)) → g = 599 * tfRes)) := by
  have hdf : (0 : ℝ) < tfRes := tfRes_pos
  obtain ⟨x, y, ho, _⟩ := linearTfOut_ok hv hdf tfRes_two
  have hval := linearTf_values (ls := rows.map rowLay) (df := tfRes) (fmax := 30) hdf
  obtain ⟨s1, f, h1, hf, m1, p1, q1⟩ := tab_f0 hv (fun f => (‖tfRo (2 * Real.pi * f) (rows.map rowLay)‖ : ℂ)) (fun r => (r.2.2.1 : ℂ))
    (fun r hr => by simp only [(hval r hr).2, (hval r hr).1])
  obtain ⟨s2, g, h2, hg, m2, p2, q2⟩ := tab_f0 hv (fun f => (‖tfBh (2 * Real.pi * f) (rows.map rowLay)‖ : ℂ)) (fun r => (r.2.2.2.2 : ℂ))
    (fun r hr => by simp only [(hval r hr).2, (hval r hr).1])
  obtain ⟨u3, k3, v3, _⟩ := tfSpectrum_tab (ls := rows.map rowLay) hdf tfRes_two (fun r => (r.2.2.2.1 : ℂ))
    (fun f => (‖tfIn (2 * Real.pi * f) (rows.map rowLay)‖ : ℂ)) (fun r hr => by simp only [(hval r hr).2, (hval r hr).1])
  have hA : amplFunctions rows tfRes 30 = .ok (s1, s2, u3) := by
    unfold amplFunctions
    simp only [ho, bind, Except.bind, h1, h2, k3, pure, Except.pure]
  have ecast : ∀ j : Nat, (((j + 1 : Nat) : ℝ) + 1) * tfRes = ((j : ℝ) + 2) * tfRes := by intro j; push_cast; ring
  refine ⟨f, g, ?_, ?_, m1, m2, ⟨fun i hi h3 h4 => p1 i hi ?_ ?_, fun h => q1 ?_⟩, ⟨fun i hi h3 h4 => p2 i hi ?_ ?_, fun h => q2 ?_⟩⟩
  · unfold f0Ro; simp only [hA, bind, Except.bind, hf]
  · unfold f0Bh; simp only [hA, bind, Except.bind, hg]
  · intro j hj; have := h3 j hj; simp only [ecast] at this; simpa using this
  · simp only [ecast] at h4; simpa using h4
  · intro j hj; have := h j hj; simp only [ecast] at this; simpa using this
  · intro j hj; have := h3 j hj; simp only [ecast] at this; simpa using this
  · simp only [ecast] at h4; simpa using h4
  · intro j hj; have := h j hj; simp only [ecast] at this; simpa using this

/-- C131, violated: the default table is asked for up to 30 Hz in steps of 0.05 Hz, and 30 is 600 times 0.05; but the table of a valid
profile has 599 frequencies and its last is below 29.951 Hz, because the double 0.05 is a little more than 1/20.  A fundamental frequency
of 30 Hz is never returned. -/
theorem C131_top_violated (rows : List (Row ℝ)) (hv : Valid5 rows) :
    (∃ t, transferFunctions rows tfRes 30 = .ok t ∧ t.1.freq.length = 599 ∧ ∀ f ∈ t.1.freq, f < 29.951) ∧
    f0Ro rows ≠ .ok 30 ∧ f0Bh rows ≠ .ok 30 := by
  refine ⟨?_, ?_⟩
  · obtain ⟨t, a, ht, _, ⟨_, t1⟩, _⟩ := C131_tables rows hv tfRes 30 tfRes_pos tfRes_two
    refine ⟨t, ht, ?_, ?_⟩
    · apply le_antisymm
      · have := (t1 599).2 (by unfold tfRes; norm_num)
        exact List.getElem?_eq_none_iff.1 this
      · obtain ⟨e, _⟩ := (t1 598).1 (by unfold tfRes; norm_num)
        have := (List.getElem?_eq_some_iff.1 e).1
        omega
    · intro f hf
      obtain ⟨k, hk⟩ := List.mem_iff_getElem?.1 hf
      by_cases hle : ((k : ℝ) + 1) * tfRes ≤ 30
      · obtain ⟨e, _⟩ := (t1 k).1 hle
        rw [Option.some.inj (hk.symm.trans e)]
        have hk6 : (k : ℝ) ≤ 598 := by
          by_contra hc
          have : 599 ≤ k := by
            by_contra h2
            exact hc (by exact_mod_cast (by omega : k ≤ 598))
          have : (599 : ℝ) ≤ k := by exact_mod_cast this
          unfold tfRes at hle; linarith
        unfold tfRes; linarith
      · rw [(t1 k).2 (not_le.1 hle)] at hk; cases hk
  · obtain ⟨f, g, hf, hg, ⟨k, hk, e⟩, ⟨l, hl, e'⟩, _⟩ := C131_f0_partial rows hv
    have aux : ∀ k : Nat, k < 599 → ((k : ℝ) + 1) * tfRes ≠ 30 := by
      intro k hk
      have : (k : ℝ) ≤ 598 := by exact_mod_cast (by omega : k ≤ 598)
      unfold tfRes; intro h; linarith
    rw [hf, hg]
    exact ⟨fun h => aux k hk (by rw [← e]; exact Except.ok.inj h), fun h => aux l hl (by rw [← e']; exact Except.ok.inj h)⟩

/-- Dividing the soil above the base into thinner layers of the same material changes none of the tables and neither of the fundamental
frequencies. -/
theorem C131_subdivision (rows rows' : List (Row ℝ)) (hv : Valid5 rows) (hv' : Valid5 rows') (b : Lay) (ls : List Lay) (gs : List (List Lay))
    (h1 : rows.map rowLay = ls ++ [b]) (h2 : rows'.map rowLay = gs.flatten ++ [b]) (h : List.Forall₂ MakesUp ls gs) (df fmax : ℝ) :
    transferFunctions rows' df fmax = transferFunctions rows df fmax ∧
    amplFunctions rows' df fmax = amplFunctions rows df fmax ∧ f0Ro rows' = f0Ro rows ∧ f0Bh rows' = f0Bh rows := by
  have hp : ∀ l ∈ ls, 0 < l.vs ∧ 0 < l.rho := by
    intro l hl
    have := valid5_damped hv l (by rw [h1]; simp [hl])
    exact ⟨this.2.1, this.2.2.1⟩
  have ht : ∀ df fmax, linearTf (rows'.map rowLay) df fmax = linearTf (rows.map rowLay) df fmax := by
    intro df fmax
    unfold linearTf
    refine List.map_congr_left fun f hf => ?_
    obtain ⟨e1, e2, e3⟩ := C34_subdivision (2 * Real.pi * f) b ls gs hp h
    rw [h1, h2]
    simp only [e1, e2, e3]
  have ho : ∀ df fmax, linearTfOut rows' df fmax = linearTfOut rows df fmax := by
    intro df fmax
    unfold linearTfOut
    simp only [(checkVsFormat_five_ok rows).2 hv, (checkVsFormat_five_ok rows').2 hv', ht]
  refine ⟨?_, ?_, ?_, ?_⟩
  · unfold transferFunctions; rw [ho]
  · unfold amplFunctions; rw [ho]
  · unfold f0Ro amplFunctions; rw [ho]
  · unfold f0Bh amplFunctions; rw [ho]

/-- A profile of one layer does not amplify: its amplification never rises, and the first tabulated frequency is returned. -/
theorem C131_one_layer (r : Row ℝ) (hv : Valid5 [r]) : f0Ro [r] = .ok tfRes ∧ f0Bh [r] = .ok tfRes := by
  obtain ⟨f, g, hf, hg, _, _, ⟨p1, _⟩, ⟨p2, _⟩⟩ := C131_f0_partial [r] hv
  have u : ∀ w, tfRo w ([r].map rowLay) = 1 ∧ tfBh w ([r].map rowLay) = 1 := fun w =>
    ⟨(C33_uniform w (rowLay r)).1, (C33_uniform w (rowLay r)).2.2⟩
  have e1 := p1 0 (by norm_num) (fun j hj => by omega) (by simp only [(u _).1]; exact le_rfl)
  have e2 := p2 0 (by norm_num) (fun j hj => by omega) (by simp only [(u _).2]; exact le_rfl)
  rw [hf, hg, e1, e2]
  norm_num

example : f0Ro [⟨10, 200, 1 / 20, 1800, 1⟩] = .ok tfRes := by
  refine (C131_one_layer _ ⟨by simp, by simp, ?_, ?_, ?_, by simp, ?_⟩).1
  · intro r hr; simp only [List.mem_singleton] at hr; subst hr; norm_num
  · intro r hr; simp only [List.mem_singleton] at hr; subst hr; norm_num
  · intro r hr; simp only [List.mem_singleton] at hr; subst hr; exact ⟨1, by norm_num⟩
  · intro r hr; simp only [List.mem_singleton] at hr; subst hr; norm_num

end Verif
