import Verif.Model.Spectrum
import Verif.Props.Smooth
import Verif.Props.Phase
import Verif.Proof.Fourier

set_option linter.unusedSectionVars false
set_option linter.unusedVariables false

namespace Verif

open Complex

namespace Spec

/-- The discrete Fourier coefficient of `k` cycles over the record. -/
noncomputable def coeff (a : List ℝ) (k : Nat) : ℂ :=
  ∑ j ∈ Finset.range a.length, (a.getD j 0 : ℂ) * exp (-(2 * Real.pi * I * j * k / a.length))

end Spec

open Spec (coeff Within)

/-! ## C105 -/

theorem getD_ofReal (a : List ℝ) (j : Nat) : (a.map fun r : ℝ => (r : ℂ)).getD j 0 = ((a.getD j 0 : ℝ) : ℂ) := by
  rw [List.getD_eq_getElem?_getD, List.getD_eq_getElem?_getD, List.getElem?_map]
  cases a[j]? <;> simp

theorem fft_coeff (x : Rec ℝ) (k : Nat) (h : k < x.length) :
    (fftL (x.map fun p => (p.2 : ℂ))).getD k 0 = coeff (x.map Prod.snd) k := by
  have e : (x.map fun p => (p.2 : ℂ)) = (x.map Prod.snd).map fun r : ℝ => (r : ℂ) := by rw [List.map_map]; rfl
  rw [fftL_getD _ _ (by rw [List.length_map]; exact h), e, coeff]
  rw [List.length_map]
  refine Finset.sum_congr rfl fun j _ => ?_
  rw [getD_ofReal]

/-- The rows of `fourier_transform`: row `k` holds the coefficient of `k` cycles (or its magnitude) and the label
`(k + 1) / (N dt)`.  The coefficient belongs to the frequency `k / (N dt)`. -/
theorem C105_values_partial (realVal doubleSided : Bool) (x : Rec ℝ) (r : Spect)
    (h : fourierTransform realVal doubleSided x = .ok r) :
    ∃ dt, dtOf x = .ok dt ∧ dt ≠ 0 ∧ r.length = (if doubleSided then x.length else (x.length + 1) / 2) ∧
      ∀ k < r.length, r[k]? = some (((k : ℝ) + 1) / ((x.length : ℝ) * dt),
        if realVal then ((‖coeff (x.map Prod.snd) k‖ : ℝ) : ℂ) else coeff (x.map Prod.snd) k) := by
  unfold fourierTransform at h
  cases hd : dtOf x with
  | error e => rw [hd] at h; cases h
  | ok dt =>
    rw [hd] at h
    simp only [bind, Except.bind] at h
    by_cases h0 : dt = 0
    · rw [if_pos h0] at h; cases h
    rw [if_neg h0] at h
    have hr := (Except.ok.inj h).symm
    refine ⟨dt, rfl, h0, ?_⟩
    set m := if doubleSided then x.length else (x.length + 1) / 2 with hm
    have hmx : m ≤ x.length := by
      rw [hm]; split
      · exact le_rfl
      · omega
    have lX : ((fftL (x.map fun p => (p.2 : ℂ))).take m).length = m := by
      rw [List.length_take, fftL_length, List.length_map, min_eq_left hmx]
    have hX : ∀ k < m, ((fftL (x.map fun p => (p.2 : ℂ))).take m)[k]? = some (coeff (x.map Prod.snd) k) := by
      intro k hk
      have hk' : k < (fftL (x.map fun p => (p.2 : ℂ))).length := by rw [fftL_length, List.length_map]; omega
      rw [List.getElem?_take, if_pos hk, List.getElem?_eq_getElem hk', ← fft_coeff x k (by omega),
        List.getD_eq_getElem _ _ hk']
    have lr : r.length = m := by
      rw [hr, List.length_zip, List.length_map, List.length_range]
      cases realVal
      · simp only [Bool.false_eq_true, if_false]; rw [lX, min_self]
      · simp only [if_true]; rw [List.length_map, lX, min_self]
    refine ⟨lr, fun k hk => ?_⟩
    rw [lr] at hk
    rw [hr]
    unfold List.zip
    rw [List.getElem?_zipWith, List.getElem?_map, List.getElem?_range hk]
    cases realVal
    · simp only [Bool.false_eq_true, if_false, Option.map_some]
      rw [hX k hk]
    · simp only [if_true, Option.map_some]
      rw [List.getElem?_map, hX k hk]
      rfl

/-- Success: on records of at least two samples with a time step. -/
theorem C105_succeeds (realVal doubleSided : Bool) (x : Rec ℝ) (dt : ℝ) (h : dtOf x = .ok dt) (h0 : dt ≠ 0) :
    ∃ r, fourierTransform realVal doubleSided x = .ok r := by
  unfold fourierTransform
  rw [h]
  simp only [bind, Except.bind]
  rw [if_neg h0]
  exact ⟨_, rfl⟩

theorem coeff_const (c : ℝ) (N : Nat) (hN : 0 < N) (k : Nat) (hk : k < N) :
    coeff (List.replicate N c) k = if k = 0 then (N * c : ℂ) else 0 := by
  have h := root_sum N hN (-(k : ℤ))
  unfold coeff
  rw [List.length_replicate]
  have e : ∀ j ∈ Finset.range N, ((List.replicate N c).getD j 0 : ℂ) * exp (-(2 * Real.pi * I * j * k / N))
      = c * exp (2 * Real.pi * I * ((-(k : ℤ) : ℤ) : ℂ) * j / N) := by
    intro j hj
    rw [List.getD_eq_getElem _ _ (by rw [List.length_replicate]; exact Finset.mem_range.1 hj), List.getElem_replicate]
    congr 2
    push_cast
    ring
  rw [Finset.sum_congr rfl e, ← Finset.mul_sum, h]
  by_cases hk0 : k = 0
  · subst hk0; simp [mul_comm]
  · rw [if_neg hk0, if_neg, mul_zero]
    intro hdvd
    have := Int.le_of_dvd (by omega) ((dvd_neg).1 hdvd)
    omega

/-- A constant record of value `c`: the only coefficient that is not zero is labelled `1 / (N dt)` instead of 0 — and no
row is labelled 0. -/
theorem C105_constant_violated (x : Rec ℝ) (c : ℝ) (r : Spect) (hx : ∀ p ∈ x, p.2 = c)
    (h : fourierTransform true false x = .ok r) :
    ∃ dt, dtOf x = .ok dt ∧ r[0]? = some (1 / ((x.length : ℝ) * dt), ((x.length * |c| : ℝ) : ℂ)) ∧
      (∀ (k : Nat) p, 0 < k → r[k]? = some p → p.2 = 0) ∧ ∀ p ∈ r, p.1 ≠ 0 := by
  obtain ⟨dt, hd, h0, hl, hr⟩ := C105_values_partial _ _ x r h
  have hlen : 2 ≤ x.length := by
    match x, hd with
    | _ :: _ :: _, _ => simp
  have hv : x.map Prod.snd = List.replicate x.length c :=
    List.eq_replicate_iff.2 ⟨by simp, fun b hb => by obtain ⟨p, hp, rfl⟩ := List.mem_map.1 hb; exact hx p hp⟩
  simp only [Bool.false_eq_true, if_false] at hl
  simp only [↓reduceIte] at hr
  rw [hv] at hr
  refine ⟨dt, hd, ?_, ?_, ?_⟩
  · rw [hr 0 (by omega), coeff_const c _ (by omega) 0 (by omega)]
    simp
  · intro k p hk hp
    have hkr : k < r.length := by
      by_contra hc
      rw [List.getElem?_eq_none (not_lt.1 hc)] at hp; cases hp
    rw [hr k hkr, coeff_const c _ (by omega) k (by omega), if_neg (by omega)] at hp
    rw [← Option.some.inj hp]
    simp
  · intro p hp
    obtain ⟨k, hk, rfl⟩ := List.mem_iff_getElem.1 hp
    have := hr k hk
    rw [List.getElem?_eq_getElem hk] at this
    rw [Option.some.inj this]
    have h1 : (0 : ℝ) < k + 1 := by positivity
    have h2 : (x.length : ℝ) ≠ 0 := by
      have : x.length ≠ 0 := by omega
      exact_mod_cast this
    exact div_ne_zero h1.ne' (mul_ne_zero h2 h0)

theorem cos_coeff (N m k : Nat) (h0 : 0 < m) (hm : 2 * m < N) (hk : k ≤ m) :
    coeff ((List.range N).map fun j : Nat => Real.cos (2 * Real.pi * m * j / N)) k
      = if k = m then (N / 2 : ℂ) else 0 := by
  have hN : 0 < N := by omega
  unfold coeff
  rw [List.length_map, List.length_range]
  have e : ∀ j ∈ Finset.range N,
      ((((List.range N).map fun j : Nat => Real.cos (2 * Real.pi * m * j / N)).getD j 0 : ℝ) : ℂ)
        * exp (-(2 * Real.pi * I * j * k / N))
      = exp (2 * Real.pi * I * (((m : ℤ) - k : ℤ) : ℂ) * j / N) / 2
        + exp (2 * Real.pi * I * ((-((m : ℤ) + k) : ℤ) : ℂ) * j / N) / 2 := by
    intro j hj
    have hj' := Finset.mem_range.1 hj
    have : (((List.range N).map fun j : Nat => Real.cos (2 * Real.pi * m * j / N)).getD j 0)
        = Real.cos (2 * Real.pi * m * j / N) := by
      simp [List.getD_eq_getElem?_getD, hj']
    rw [this, Complex.ofReal_cos, Complex.cos, div_mul_eq_mul_div, add_mul, ← Complex.exp_add, ← Complex.exp_add,
      add_div]
    push_cast
    congr 3 <;> ring
  rw [Finset.sum_congr rfl e, Finset.sum_add_distrib, ← Finset.sum_div, ← Finset.sum_div, root_sum N hN, root_sum N hN]
  have h2 : ¬ (N : ℤ) ∣ -((m : ℤ) + k) := by
    intro hdvd
    have := Int.le_of_dvd (by omega) ((dvd_neg).1 hdvd)
    omega
  rw [if_neg h2]
  by_cases hkm : k = m
  · subst hkm; simp
  · rw [if_neg hkm, if_neg]
    · simp
    · intro hdvd
      have := Int.le_of_dvd (by omega) hdvd
      omega

/-- A cosine of `m` cycles, below the Nyquist frequency: the row labelled with its frequency `m / (N dt)` holds 0, and
its magnitude `N / 2` is in the row labelled `(m + 1) / (N dt)`. -/
theorem C105_cosine_violated (x : Rec ℝ) (m : Nat) (r : Spect) (h0 : 0 < m) (hm : 2 * m < x.length)
    (hx : x.map Prod.snd = (List.range x.length).map fun j : Nat => Real.cos (2 * Real.pi * m * j / x.length))
    (h : fourierTransform true false x = .ok r) :
    ∃ dt, dtOf x = .ok dt ∧ r[m - 1]? = some ((m : ℝ) / ((x.length : ℝ) * dt), 0) ∧
      r[m]? = some (((m : ℝ) + 1) / ((x.length : ℝ) * dt), ((x.length / 2 : ℝ) : ℂ)) := by
  obtain ⟨dt, hd, _, hl, hr⟩ := C105_values_partial _ _ x r h
  simp only [Bool.false_eq_true, if_false] at hl
  simp only [↓reduceIte] at hr
  rw [hx] at hr
  refine ⟨dt, hd, ?_, ?_⟩
  · rw [hr (m - 1) (by omega), cos_coeff _ m (m - 1) h0 hm (by omega), if_neg (by omega)]
    have : ((m - 1 : ℕ) : ℝ) + 1 = m := by
      have : ((m - 1 : ℕ) : ℝ) = (m : ℝ) - 1 := by rw [Nat.cast_sub (by omega)]; simp
      rw [this]; ring
    rw [this]
    simp
  · rw [hr m (by omega), cos_coeff _ m m h0 hm le_rfl, if_pos rfl]
    simp

theorem coeff_scale (c : ℝ) (a : List ℝ) (k : Nat) : coeff (a.map (c * ·)) k = c * coeff a k := by
  unfold coeff
  rw [List.length_map, Finset.mul_sum]
  refine Finset.sum_congr rfl fun j _ => ?_
  have : (a.map (c * ·)).getD j 0 = c * a.getD j 0 := by
    rw [List.getD_eq_getElem?_getD, List.getD_eq_getElem?_getD, List.getElem?_map]
    cases a[j]? <;> simp
  rw [this]
  push_cast
  ring

theorem calcTransfer_inv {x y : Rec ℝ} {amp smooth : Bool} {r : Spect} (h : calcTransfer x y amp smooth = .ok r) :
    x.length = y.length ∧ ∃ si so, fourierTransform false false x = .ok si ∧ fourierTransform false false y = .ok so ∧
      (∀ p ∈ si, p.2 ≠ 0) ∧
      (smooth = false → r = (si.map Prod.fst).zip (if amp then
        (List.zipWith (fun o i => o.2 / i.2) so si).map fun z => ((‖z‖ : ℝ) : ℂ)
        else List.zipWith (fun o i => o.2 / i.2) so si)) ∧
      (smooth = true → amp = true ∧
        ∃ q, linSmooth ((List.zipWith (fun o i => o.2 / i.2) so si).map fun z => ‖z‖) 15 .hanning = .ok q ∧
        r = (si.map Prod.fst).zip (q.map fun r : ℝ => (r : ℂ))) := by
  unfold calcTransfer at h
  cases hx : dtOf x with
  | error e => rw [hx] at h; cases h
  | ok d1 =>
  cases hy : dtOf y with
  | error e => rw [hx, hy] at h; cases h
  | ok d2 =>
  rw [hx, hy] at h
  simp only [bind, Except.bind] at h
  by_cases hc : allClose d1 d2
  swap
  · rw [if_pos hc] at h; cases h
  rw [if_neg (not_not.2 hc)] at h
  by_cases hl : x.length = y.length
  swap
  · rw [if_pos hl] at h; cases h
  rw [if_neg (not_not.2 hl)] at h
  cases hsi : fourierTransform false false x with
  | error e => rw [hsi] at h; cases h
  | ok si =>
  cases hso : fourierTransform false false y with
  | error e => rw [hsi, hso] at h; cases h
  | ok so =>
  rw [hsi, hso] at h
  dsimp only at h
  refine ⟨hl, si, so, rfl, rfl, ?_⟩
  by_cases ha : amp = false ∧ smooth = true
  · rw [if_pos ha] at h; cases h
  rw [if_neg ha] at h
  by_cases hz : ∃ p ∈ si, p.2 = 0
  · rw [if_pos hz] at h; cases h
  rw [if_neg hz] at h
  refine ⟨fun p hp h0 => hz ⟨p, hp, h0⟩, ?_, ?_⟩
  · rintro rfl
    rw [if_neg (by decide)] at h
    exact (Except.ok.inj h).symm
  · rintro rfl
    rw [if_pos rfl] at h
    refine ⟨by cases amp <;> simp_all, ?_⟩
    cases hq : linSmooth ((List.zipWith (fun o i => o.2 / i.2) so si).map fun z => ‖z‖) 15 .hanning with
    | error e => rw [hq] at h; cases h
    | ok q =>
      rw [hq] at h
      exact ⟨q, rfl, (Except.ok.inj h).symm⟩

/-- Value `k` of the transfer function is the ratio of the coefficients of `k` cycles of output and input. -/
theorem C105_ratio (x y : Rec ℝ) (amp : Bool) (r : Spect) (h : calcTransfer x y amp false = .ok r) :
    x.length = y.length ∧ r.length = (x.length + 1) / 2 ∧
    ∀ k < r.length, ∃ f, coeff (x.map Prod.snd) k ≠ 0 ∧ r[k]? = some (f,
      if amp then ((‖coeff (y.map Prod.snd) k / coeff (x.map Prod.snd) k‖ : ℝ) : ℂ)
      else coeff (y.map Prod.snd) k / coeff (x.map Prod.snd) k) := by
  obtain ⟨hl, si, so, hsi, hso, hnz, hr, _⟩ := calcTransfer_inv h
  have hr := hr rfl
  obtain ⟨d1, _, _, l1, r1⟩ := C105_values_partial _ _ x si hsi
  obtain ⟨_, _, _, l2, r2⟩ := C105_values_partial _ _ y so hso
  simp only [Bool.false_eq_true, if_false] at l1 l2 r1 r2
  have lz : (List.zipWith (fun (o i : ℝ × ℂ) => o.2 / i.2) so si).length = (x.length + 1) / 2 := by
    rw [List.length_zipWith, l1, l2, ← hl, min_self]
  have lr : r.length = (x.length + 1) / 2 := by
    rw [hr, List.length_zip, List.length_map, l1]
    cases amp
    · simp only [Bool.false_eq_true, if_false]; rw [lz, min_self]
    · simp only [if_true]; rw [List.length_map, lz, min_self]
  refine ⟨hl, lr, fun k hk => ?_⟩
  rw [lr] at hk
  have e1 := r1 k (by omega)
  have e2 := r2 k (by omega)
  have hn := hnz _ (List.mem_of_getElem? e1)
  dsimp only at hn
  refine ⟨((k : ℝ) + 1) / ((x.length : ℝ) * d1), hn, ?_⟩
  · rw [hr]
    unfold List.zip
    rw [List.getElem?_zipWith, List.getElem?_map, e1]
    cases amp
    · simp only [Bool.false_eq_true, if_false, Option.map_some]
      rw [List.getElem?_zipWith, e2, e1]
    · simp only [if_true, Option.map_some]
      rw [List.getElem?_map, List.getElem?_zipWith, e2, e1]
      rfl

/-- A record and its multiple by `c` have the transfer function `c` (its magnitude `|c|`). -/
theorem C105_multiple (x y : Rec ℝ) (c : ℝ) (amp : Bool) (r : Spect) (hy : y.map Prod.snd = (x.map Prod.snd).map (c * ·))
    (h : calcTransfer x y amp false = .ok r) : ∀ p ∈ r, p.2 = if amp then ((|c| : ℝ) : ℂ) else (c : ℂ) := by
  obtain ⟨_, _, hk⟩ := C105_ratio x y amp r h
  intro p hp
  obtain ⟨k, hkl, rfl⟩ := List.mem_iff_getElem.1 hp
  obtain ⟨f, hn, e⟩ := hk k hkl
  rw [List.getElem?_eq_getElem hkl] at e
  rw [Option.some.inj e, hy, coeff_scale, mul_div_cancel_right₀ _ hn]
  cases amp
  · simp
  · simp

/-- Smoothed transfer functions: as many rows, non-negative, and not above the largest unsmoothed magnitude. -/
theorem C105_smoothed (x y : Rec ℝ) (amp : Bool) (r u : Spect) (M : ℝ) (h : calcTransfer x y amp true = .ok r)
    (hu : calcTransfer x y true false = .ok u) (hM : ∀ p ∈ u, p.2.re ≤ M) :
    amp = true ∧ r.length = u.length ∧ ∀ p ∈ r, p.2.im = 0 ∧ 0 ≤ p.2.re ∧ p.2.re ≤ M := by
  obtain ⟨hl, si, so, hsi, hso, hnz, _, hr⟩ := calcTransfer_inv h
  obtain ⟨_, si', so', hsi', hso', _, hr', _⟩ := calcTransfer_inv hu
  cases hsi.symm.trans hsi'
  cases hso.symm.trans hso'
  obtain ⟨ha, q, hq, rfl⟩ := hr rfl
  have hr' := hr' rfl
  simp only [if_true] at hr'
  set tf := List.zipWith (fun (o i : ℝ × ℂ) => o.2 / i.2) so si
  obtain ⟨_, _, _, l1, r1⟩ := C105_values_partial _ _ x si hsi
  obtain ⟨_, _, _, l2, r2⟩ := C105_values_partial _ _ y so hso
  simp only [Bool.false_eq_true, if_false] at l1 l2
  have lz : tf.length = si.length := by
    show (List.zipWith _ so si).length = _
    rw [List.length_zipWith, l1, l2, ← hl, min_self]
  have hpos : 0 < tf.length := by
    obtain ⟨hlq, _⟩ := linSmooth_inv hq
    rw [List.length_map] at hlq
    omega
  have hw : Within 0 M (tf.map fun z => ‖z‖) := by
    intro a ha'
    obtain ⟨z, hz, rfl⟩ := List.mem_map.1 ha'
    refine ⟨norm_nonneg z, ?_⟩
    obtain ⟨k, hk, rfl⟩ := List.mem_iff_getElem.1 hz
    have hk' : k < u.length := by
      rw [hr', List.length_zip, List.length_map, List.length_map, lz, min_self, ← lz]; exact hk
    have := hM _ (List.getElem_mem hk')
    simp only [hr', List.getElem_zip, List.getElem_map] at this
    simpa using this
  have hM0 : 0 ≤ M := by
    have hh := hw _ (List.getElem_mem (l := tf.map fun z => ‖z‖) (n := 0) (by rw [List.length_map]; exact hpos))
    exact hh.1.trans hh.2
  obtain ⟨lq, wq⟩ := C65_lin_smooth _ q _ _ 0 M hq hw le_rfl hM0
  rw [List.length_map] at lq
  refine ⟨ha, ?_, ?_⟩
  · rw [hr', List.length_zip, List.length_zip, List.length_map, List.length_map, List.length_map, lq]
  · intro p hp
    obtain ⟨z, hz, hz'⟩ := List.mem_map.1 (List.of_mem_zip hp).2
    rw [← hz']
    refine ⟨Complex.ofReal_im z, ?_⟩
    rw [Complex.ofReal_re]
    exact wq z hz

/-- Signals of different lengths, and smoothing of complex values, are rejected. -/
theorem C105_rejected (x y : Rec ℝ) (d1 d2 : ℝ) (hx : dtOf x = .ok d1) (hy : dtOf y = .ok d2) :
    (x.length ≠ y.length → ∀ amp smooth, calcTransfer x y amp smooth = .error .valueError) ∧
    (1 / 10 ^ 6 + 1 / 10 ^ 5 * |d2| < |d1 - d2| → ∀ amp smooth, calcTransfer x y amp smooth = .error .valueError) ∧
    (d1 ≠ 0 → d2 ≠ 0 → calcTransfer x y false true = .error .valueError) := by
  refine ⟨fun hl amp smooth => ?_, fun hc amp smooth => ?_, fun h1 h2 => ?_⟩
  · unfold calcTransfer
    rw [hx, hy]
    simp only [bind, Except.bind]
    by_cases hc : allClose d1 d2
    · rw [if_neg (not_not.2 hc), if_pos hl]
    · rw [if_pos hc]
  · unfold calcTransfer
    rw [hx, hy]
    simp only [bind, Except.bind]
    rw [if_pos (by unfold allClose; exact not_le.2 hc)]
  · unfold calcTransfer
    rw [hx, hy]
    simp only [bind, Except.bind]
    by_cases hc : allClose d1 d2
    swap
    · rw [if_pos hc]
    rw [if_neg (not_not.2 hc)]
    by_cases hl : x.length = y.length
    swap
    · rw [if_pos hl]
    rw [if_neg (not_not.2 hl)]
    obtain ⟨si, hsi⟩ := C105_succeeds false false x d1 hx h1
    obtain ⟨so, hso⟩ := C105_succeeds false false y d2 hy h2
    rw [hsi, hso]
    simp

end Verif
