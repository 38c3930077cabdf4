import Verif.Model.Oscillator
import Mathlib.Analysis.Calculus.Deriv.MeanValue
import Mathlib.Analysis.SpecialFunctions.ExpDeriv
import Mathlib.Analysis.SpecialFunctions.Trigonometric.Deriv

/-!
Property C28: the time stepping of `response_spectra` solves the oscillator equation
exactly for a piecewise linear ground acceleration.
-/

set_option linter.unusedSectionVars false
set_option linter.unusedVariables false

namespace Verif

/-- The equation of motion of a damped oscillator on [0, dt]: `v = u'` and
`v' + 2ξω v + ω² u = -a(t)`, the ground acceleration varying linearly from `a0` to `a1`. -/
def Spec.Oscillates (xi wn dt a0 a1 : ℝ) (u v : ℝ → ℝ) : Prop :=
  ∀ t ∈ Set.Icc 0 dt, HasDerivWithinAt u (v t) (Set.Icc 0 dt) t ∧
    HasDerivWithinAt v (-(2 * xi * wn * v t) - wn ^ 2 * u t - (a0 + (a1 - a0) * (t / dt))) (Set.Icc 0 dt) t

open Spec

section
variable (xi wn dt a0 a1 u0 v0 : ℝ)

/-- Closed-form solution: displacement. -/
noncomputable def oscBeta : ℝ := -((a1 - a0) / dt) / wn ^ 2
noncomputable def oscAlpha : ℝ := (-a0 - 2 * xi * wn * oscBeta wn dt a0 a1) / wn ^ 2
noncomputable def oscC1 : ℝ := u0 - oscAlpha xi wn dt a0 a1
noncomputable def oscC2 : ℝ :=
  (v0 - oscBeta wn dt a0 a1 + xi * wn * oscC1 xi wn dt a0 a1 u0) / wdOf xi wn

noncomputable def oscU (t : ℝ) : ℝ :=
  oscAlpha xi wn dt a0 a1 + oscBeta wn dt a0 a1 * t + Real.exp (-xi * wn * t) *
    (oscC1 xi wn dt a0 a1 u0 * Real.cos (wdOf xi wn * t) + oscC2 xi wn dt a0 a1 u0 v0 * Real.sin (wdOf xi wn * t))

noncomputable def oscV (t : ℝ) : ℝ :=
  oscBeta wn dt a0 a1 + Real.exp (-xi * wn * t) *
    ((wdOf xi wn * oscC2 xi wn dt a0 a1 u0 v0 - xi * wn * oscC1 xi wn dt a0 a1 u0) * Real.cos (wdOf xi wn * t)
      - (wdOf xi wn * oscC1 xi wn dt a0 a1 u0 + xi * wn * oscC2 xi wn dt a0 a1 u0 v0) * Real.sin (wdOf xi wn * t))

end

theorem damped_deriv (b w p q t : ℝ) :
    HasDerivAt (fun t => Real.exp (b * t) * (p * Real.cos (w * t) + q * Real.sin (w * t)))
      (Real.exp (b * t) * ((b * p + w * q) * Real.cos (w * t) + (b * q - w * p) * Real.sin (w * t))) t := by
  have hl : ∀ c : ℝ, HasDerivAt (fun t : ℝ => c * t) c t := fun c => by
    simpa using (hasDerivAt_id t).const_mul c
  have h1 := (hl b).exp
  have h2 := ((hl w).cos.const_mul p).add ((hl w).sin.const_mul q)
  refine (h1.mul h2).congr_deriv ?_
  simp only [Pi.add_apply]
  ring

variable {xi wn dt a0 a1 u0 v0 : ℝ}

theorem wd_ne (hx : xi ^ 2 < 1) (hw : 0 < wn) : wdOf xi wn ≠ 0 :=
  (mul_pos hw (Real.sqrt_pos.2 (by linarith))).ne'

theorem wd_sq (hx : xi ^ 2 < 1) : wdOf xi wn ^ 2 = wn ^ 2 * (1 - xi ^ 2) := by
  unfold wdOf; rw [mul_pow, Real.sq_sqrt (by linarith)]

theorem oscU_deriv (t : ℝ) : HasDerivAt (oscU xi wn dt a0 a1 u0 v0) (oscV xi wn dt a0 a1 u0 v0 t) t := by
  have hb := ((hasDerivAt_id t).const_mul (oscBeta wn dt a0 a1)).const_add (oscAlpha xi wn dt a0 a1)
  have := hb.add (damped_deriv (-xi * wn) (wdOf xi wn) (oscC1 xi wn dt a0 a1 u0) (oscC2 xi wn dt a0 a1 u0 v0) t)
  refine this.congr_deriv ?_
  unfold oscV; ring

theorem oscV_deriv (hx : xi ^ 2 < 1) (hw : 0 < wn) (hdt : 0 < dt) (t : ℝ) :
    HasDerivAt (oscV xi wn dt a0 a1 u0 v0)
      (-(2 * xi * wn * oscV xi wn dt a0 a1 u0 v0 t) - wn ^ 2 * oscU xi wn dt a0 a1 u0 v0 t
        - (a0 + (a1 - a0) * (t / dt))) t := by
  have h := (damped_deriv (-xi * wn) (wdOf xi wn)
    (wdOf xi wn * oscC2 xi wn dt a0 a1 u0 v0 - xi * wn * oscC1 xi wn dt a0 a1 u0)
    (-(wdOf xi wn * oscC1 xi wn dt a0 a1 u0 + xi * wn * oscC2 xi wn dt a0 a1 u0 v0)) t).const_add
      (oscBeta wn dt a0 a1)
  have h2 : HasDerivAt (oscV xi wn dt a0 a1 u0 v0) _ t := h.congr_of_eventuallyEq (by
    apply Filter.Eventually.of_forall; intro s; unfold oscV; ring)
  refine h2.congr_deriv ?_
  have hq := wd_sq (wn := wn) hx
  have hal : wn ^ 2 * oscAlpha xi wn dt a0 a1 = -a0 - 2 * xi * wn * oscBeta wn dt a0 a1 := by
    unfold oscAlpha; field_simp
  have hbe : wn ^ 2 * oscBeta wn dt a0 a1 = -((a1 - a0) / dt) := by
    unfold oscBeta; field_simp
  have ht : (a1 - a0) * (t / dt) = (a1 - a0) / dt * t := by ring
  rw [ht]
  unfold oscV oscU
  generalize oscC1 xi wn dt a0 a1 u0 = c1
  generalize oscC2 xi wn dt a0 a1 u0 v0 = c2
  generalize oscAlpha xi wn dt a0 a1 = al at *
  generalize oscBeta wn dt a0 a1 = be at *
  generalize wdOf xi wn = wd at *
  generalize (a1 - a0) / dt = s at *
  linear_combination hal + t * hbe
    - (Real.exp (-xi * wn * t) * (c1 * Real.cos (wd * t) + c2 * Real.sin (wd * t))) * hq

theorem osc_initial (hx : xi ^ 2 < 1) (hw : 0 < wn) :
    oscU xi wn dt a0 a1 u0 v0 0 = u0 ∧ oscV xi wn dt a0 a1 u0 v0 0 = v0 := by
  have hd := wd_ne hx hw
  constructor
  · unfold oscU oscC1; simp
  · unfold oscV
    have : wdOf xi wn * oscC2 xi wn dt a0 a1 u0 v0 =
        v0 - oscBeta wn dt a0 a1 + xi * wn * oscC1 xi wn dt a0 a1 u0 := by
      unfold oscC2; field_simp
    simp [this]

theorem osc_final (hx : xi ^ 2 < 1) (hw : 0 < wn) (hdt : 0 < dt) :
    oscU xi wn dt a0 a1 u0 v0 dt = u0 * (oscCoefs xi wn dt).A + v0 * (oscCoefs xi wn dt).B
      + (-1) * a0 * (oscCoefs xi wn dt).C + (-1) * a1 * (oscCoefs xi wn dt).D ∧
    oscV xi wn dt a0 a1 u0 v0 dt = u0 * (oscCoefs xi wn dt).A' + v0 * (oscCoefs xi wn dt).B'
      + (-1) * a0 * (oscCoefs xi wn dt).C' + (-1) * a1 * (oscCoefs xi wn dt).D' := by
  have hq0 : 0 < Real.sqrt (1 - xi ^ 2) := Real.sqrt_pos.2 (by linarith)
  have hqs : Real.sqrt (1 - xi ^ 2) ^ 2 = 1 - xi ^ 2 := Real.sq_sqrt (by linarith)
  simp only [oscCoefs]
  unfold oscU oscV oscC2 oscC1 oscAlpha oscBeta wdOf
  generalize Real.sin (wn * Real.sqrt (1 - xi ^ 2) * dt) = S
  generalize Real.cos (wn * Real.sqrt (1 - xi ^ 2) * dt) = C
  generalize Real.exp (-xi * wn * dt) = E
  generalize Real.sqrt (1 - xi ^ 2) = q at *
  constructor
  · field_simp
    ring
  · field_simp
    have : q ^ 2 = 1 - xi ^ 2 := hqs
    ring_nf
    simp only [show q ^ 2 = 1 - xi ^ 2 from hqs, show q ^ 3 = q * (1 - xi ^ 2) by rw [← hqs]; ring]
    ring

/-- Uniqueness: two solutions with the same initial state agree on the interval. -/
theorem osc_unique (hx : 0 ≤ xi) (hw : 0 < wn) {u v u' v' : ℝ → ℝ}
    (h : Oscillates xi wn dt a0 a1 u v) (h' : Oscillates xi wn dt a0 a1 u' v')
    (hu : u 0 = u' 0) (hv : v 0 = v' 0) : ∀ t ∈ Set.Icc 0 dt, u t = u' t ∧ v t = v' t := by
  set e : ℝ → ℝ := fun t => (v t - v' t) ^ 2 + wn ^ 2 * (u t - u' t) ^ 2 with he
  have hd : ∀ t ∈ Set.Icc 0 dt, HasDerivWithinAt e (-(4 * xi * wn * (v t - v' t) ^ 2)) (Set.Icc 0 dt) t := by
    intro t ht
    obtain ⟨d1, d2⟩ := h t ht
    obtain ⟨d1', d2'⟩ := h' t ht
    have := ((d2.sub d2').pow 2).add (((d1.sub d1').pow 2).const_mul (wn ^ 2))
    refine this.congr_deriv ?_
    simp only [Pi.sub_apply, Nat.cast_ofNat, Nat.add_one_sub_one, pow_one]
    ring
  have hanti : AntitoneOn e (Set.Icc 0 dt) := by
    apply antitoneOn_of_deriv_nonpos (convex_Icc 0 dt)
    · exact fun t ht => (hd t ht).continuousWithinAt
    · intro t ht
      rw [interior_Icc] at ht
      exact ((hd t (Set.Ioo_subset_Icc_self ht)).hasDerivAt (Icc_mem_nhds ht.1 ht.2)).differentiableAt.differentiableWithinAt
    · intro t ht
      rw [interior_Icc] at ht
      rw [((hd t (Set.Ioo_subset_Icc_self ht)).hasDerivAt (Icc_mem_nhds ht.1 ht.2)).deriv]
      have : 0 ≤ 4 * xi * wn * (v t - v' t) ^ 2 := by positivity
      linarith
  intro t ht
  have h0 : (0 : ℝ) ∈ Set.Icc 0 dt := ⟨le_rfl, ht.1.trans ht.2⟩
  have hle := hanti h0 ht ht.1
  simp only [he, hu, hv, sub_self] at hle
  have p1 : 0 ≤ (v t - v' t) ^ 2 := sq_nonneg _
  have p2 : 0 ≤ wn ^ 2 * (u t - u' t) ^ 2 := by positivity
  have e1 : (v t - v' t) ^ 2 = 0 := by norm_num at hle; linarith
  have e2 : wn ^ 2 * (u t - u' t) ^ 2 = 0 := by norm_num at hle; linarith
  have e3 : (u t - u' t) ^ 2 = 0 := by
    rcases mul_eq_zero.1 e2 with h | h
    · exact absurd h (by positivity)
    · exact h
  exact ⟨sub_eq_zero.1 (pow_eq_zero_iff (two_ne_zero)|>.1 e3), sub_eq_zero.1 (pow_eq_zero_iff (two_ne_zero)|>.1 e1)⟩

/-- C28, one step: the state at the end of a step computed with the code's coefficients
is that of the exact solution. -/
theorem C28_step (hx0 : 0 ≤ xi) (hx : xi < 1) (hw : 0 < wn) (hdt : 0 < dt) {u v : ℝ → ℝ}
    (h : Oscillates xi wn dt a0 a1 u v) :
    u dt = u 0 * (oscCoefs xi wn dt).A + v 0 * (oscCoefs xi wn dt).B
      + (-1) * a0 * (oscCoefs xi wn dt).C + (-1) * a1 * (oscCoefs xi wn dt).D ∧
    v dt = u 0 * (oscCoefs xi wn dt).A' + v 0 * (oscCoefs xi wn dt).B'
      + (-1) * a0 * (oscCoefs xi wn dt).C' + (-1) * a1 * (oscCoefs xi wn dt).D' := by
  have hx2 : xi ^ 2 < 1 := by nlinarith
  have hs : Oscillates xi wn dt a0 a1 (oscU xi wn dt a0 a1 (u 0) (v 0)) (oscV xi wn dt a0 a1 (u 0) (v 0)) :=
    fun t ht => ⟨(oscU_deriv t).hasDerivWithinAt, (oscV_deriv hx2 hw hdt t).hasDerivWithinAt⟩
  obtain ⟨i1, i2⟩ := osc_initial (dt := dt) (a0 := a0) (a1 := a1) (u0 := u 0) (v0 := v 0) hx2 hw
  obtain ⟨e1, e2⟩ := osc_unique hx0 hw h hs i1.symm i2.symm dt ⟨hdt.le, le_rfl⟩
  obtain ⟨f1, f2⟩ := osc_final (u0 := u 0) (v0 := v 0) (a0 := a0) (a1 := a1) hx2 hw hdt
  exact ⟨e1.trans f1, e2.trans f2⟩

/-- An oscillator at rest at time 0 driven by the ground acceleration samples `a`
(interval `dt`, linear between samples). -/
def Spec.Driven (xi wn dt : ℝ) (a : List ℝ) (u v : ℝ → ℝ) : Prop :=
  u 0 = 0 ∧ v 0 = 0 ∧ ∀ (j : Nat) a0 a1, a[j]? = some a0 → a[j + 1]? = some a1 →
    Oscillates xi wn dt a0 a1 (fun t => u (j * dt + t)) (fun t => v (j * dt + t))

theorem stepFrom_exact (k : Coefs ℝ) (a : List ℝ) : ∀ (s : ℝ × ℝ) (f : Nat → ℝ × ℝ), f 0 = s →
    (∀ (j : Nat) a0 a1, a[j]? = some a0 → a[j + 1]? = some a1 →
      f (j + 1) = ((f j).1 * k.A + (f j).2 * k.B + (-1) * a0 * k.C + (-1) * a1 * k.D,
        (f j).1 * k.A' + (f j).2 * k.B' + (-1) * a0 * k.C' + (-1) * a1 * k.D')) →
    stepFrom k s a = (List.range a.length).map f := by
  induction a with
  | nil => intro s f h0 h; rfl
  | cons x a ih =>
    intro s f h0 h
    match a, ih with
    | [], ih => simp [stepFrom, h0]
    | y :: rest, ih =>
      rw [stepFrom, ih _ (fun j => f (j + 1))]
      · rw [List.length_cons (a := x), List.range_succ_eq_map, List.map_cons, List.map_map, h0]
        rfl
      · rw [h 0 x y rfl rfl, h0]
      · intro j a0 a1 h1 h2
        exact h (j + 1) a0 a1 (by simpa using h1) (by simpa using h2)

/-- C28: the displacement and velocity histories computed for an oscillator are the values
at the sampling times of the exact response of that oscillator, starting at rest, to the
ground acceleration interpolated linearly between samples. -/
theorem C28_exact (xi wn dt : ℝ) (hx0 : 0 ≤ xi) (hx : xi < 1) (hw : 0 < wn) (hdt : 0 < dt) (a : List ℝ)
    (u v : ℝ → ℝ) (h : Driven xi wn dt a u v) :
    stepFrom (oscCoefs xi wn dt) (0, 0) a = (List.range a.length).map fun j : Nat => (u (j * dt), v (j * dt)) := by
  obtain ⟨h1, h2, h3⟩ := h
  apply stepFrom_exact
  · simp [h1, h2]
  · intro j a0 a1 e0 e1
    have := C28_step hx0 hx hw hdt (h3 j a0 a1 e0 e1)
    have hj : ((j : ℝ) * dt + dt) = ((j + 1 : Nat) : ℝ) * dt := by push_cast; ring
    simp only [add_zero, hj] at this
    ext
    · exact this.1
    · exact this.2

/-- State of the exact response at the sampling times. -/
noncomputable def oscState (xi wn dt : ℝ) (a : List ℝ) : Nat → ℝ × ℝ
  | 0 => (0, 0)
  | j + 1 =>
    (oscU xi wn dt (a[j]?.getD 0) (a[j + 1]?.getD 0) (oscState xi wn dt a j).1 (oscState xi wn dt a j).2 dt,
     oscV xi wn dt (a[j]?.getD 0) (a[j + 1]?.getD 0) (oscState xi wn dt a j).1 (oscState xi wn dt a j).2 dt)

/-- C28: the exact response exists for every record, so `C28_exact` speaks about all of
them. -/
theorem C28_exists (xi wn dt : ℝ) (hx0 : 0 ≤ xi) (hx : xi < 1) (hw : 0 < wn) (hdt : 0 < dt) (a : List ℝ) :
    ∃ u v, Driven xi wn dt a u v := by
  have hx2 : xi ^ 2 < 1 := by nlinarith
  let st := oscState xi wn dt a
  let U : Nat → ℝ → ℝ := fun j => oscU xi wn dt (a[j]?.getD 0) (a[j + 1]?.getD 0) (st j).1 (st j).2
  let V : Nat → ℝ → ℝ := fun j => oscV xi wn dt (a[j]?.getD 0) (a[j + 1]?.getD 0) (st j).1 (st j).2
  let u : ℝ → ℝ := fun t => U ⌊t / dt⌋.toNat (t - ⌊t / dt⌋.toNat * dt)
  let v : ℝ → ℝ := fun t => V ⌊t / dt⌋.toNat (t - ⌊t / dt⌋.toNat * dt)
  have hinit : ∀ j, U j 0 = (st j).1 ∧ V j 0 = (st j).2 := fun j => osc_initial hx2 hw
  have hU : ∀ (j : Nat), ∀ t ∈ Set.Icc 0 dt, u (j * dt + t) = U j t ∧ v (j * dt + t) = V j t := by
    intro j t ht
    rcases ht.2.eq_or_lt with he | hlt
    · have hfl : ⌊(j * dt + t) / dt⌋.toNat = j + 1 := by
        have : ((j : ℝ) * dt + t) / dt = ((j + 1 : ℕ) : ℝ) := by rw [he]; push_cast; field_simp
        rw [this, Int.floor_natCast, Int.toNat_natCast]
      simp only [u, v, hfl]
      have hz : (j : ℝ) * dt + t - ((j + 1 : ℕ) : ℝ) * dt = 0 := by rw [he]; push_cast; ring
      rw [hz, (hinit (j + 1)).1, (hinit (j + 1)).2, he]
      exact ⟨rfl, rfl⟩
    · have hfl : ⌊(j * dt + t) / dt⌋.toNat = j := by
        have : ⌊((j : ℝ) * dt + t) / dt⌋ = (j : ℤ) := by
          rw [Int.floor_eq_iff]
          constructor
          · rw [le_div_iff₀ hdt]; push_cast; linarith [ht.1]
          · rw [div_lt_iff₀ hdt]; push_cast; linarith
        rw [this, Int.toNat_natCast]
      simp only [u, v, hfl]
      rw [show (j : ℝ) * dt + t - j * dt = t by ring]
      exact ⟨rfl, rfl⟩
  refine ⟨u, v, ?_, ?_, ?_⟩
  · have := (hU 0 0 ⟨le_rfl, hdt.le⟩).1
    simp only [Nat.cast_zero, zero_mul, add_zero] at this
    rw [this, (hinit 0).1]; rfl
  · have := (hU 0 0 ⟨le_rfl, hdt.le⟩).2
    simp only [Nat.cast_zero, zero_mul, add_zero] at this
    rw [this, (hinit 0).2]; rfl
  · intro j a0 a1 h0 h1 t ht
    have hd1 : HasDerivAt (U j) (V j t) t := oscU_deriv t
    have hd2 : HasDerivAt (V j) _ t := oscV_deriv hx2 hw hdt t
    simp only [h0, h1, Option.getD_some] at hd2
    have e := hU j t ht
    constructor
    · have := (hd1.hasDerivWithinAt (s := Set.Icc 0 dt)).congr (fun s hs => (hU j s hs).1) e.1
      exact this.congr_deriv e.2.symm
    · have := (hd2.hasDerivWithinAt (s := Set.Icc 0 dt)).congr (fun s hs => (hU j s hs).2) e.2
      refine this.congr_deriv ?_
      show _ = -(2 * xi * wn * v (j * dt + t)) - wn ^ 2 * u (j * dt + t) - _
      rw [e.1, e.2]
      simp only [U, V, h0, h1, Option.getD_some]

/-- C28: what is reported.  SA, SV and SD are the largest absolute values of absolute
acceleration, relative velocity and relative displacement of the exact response over the
sampling times, PSV = ω SD and PSA = ω² SD. -/
theorem C28_spectra (xi dt : ℝ) (hx0 : 0 ≤ xi) (hx : xi < 1) (hdt : 0 < dt) (wn : ℝ) (hw : 0 < wn) (a : List ℝ)
    (u v : ℝ → ℝ) (h : Driven xi wn dt a u v) :
    let row := timeStepping (oscCoefs xi wn dt) wn xi a
    row.sd = maxAbs ((List.range a.length).map fun j : Nat => u (j * dt)) ∧
    row.sv = maxAbs ((List.range a.length).map fun j : Nat => v (j * dt)) ∧
    row.sa = maxAbs ((List.range a.length).map fun j : Nat =>
      -(2 * xi * wn * v (j * dt)) - wn ^ 2 * u (j * dt)) ∧
    row.psv = wn * row.sd ∧ row.psa = wn ^ 2 * row.sd := by
  have he := C28_exact xi wn dt hx0 hx hw hdt a u v h
  simp only [timeStepping]
  rw [he]
  refine ⟨by simp [List.map_map, Function.comp_def], by simp [List.map_map, Function.comp_def], ?_, by ring, by ring⟩
  congr 1
  apply List.ext_getElem?
  intro i
  rw [List.getElem?_zipWith]
  simp only [List.getElem?_map]
  by_cases hi : i < a.length
  · rw [List.getElem?_range hi, List.getElem?_eq_getElem hi]
    simp only [Option.map_some]
    congr 1; ring
  · rw [List.getElem?_eq_none (by simpa using hi)]
    simp

/-- `response_spectra` as called: the row of the period `T` describes the oscillator of circular frequency
`2 pi / T`, driven by every `interval`-th sample of the motion with the time step of these samples. -/
theorem C28_response (xi : ℝ) (hx0 : 0 ≤ xi) (hx : xi < 1) (Tn : List ℝ) (interval : Nat) (acc : Rec ℝ)
    (rows : List (SpecRow ℝ)) (h : responseSpectraR xi Tn interval acc = .ok rows) :
    rows.length = Tn.length ∧ ∃ dt, dtOf (subsample interval acc) = .ok dt ∧
    ∀ (k : Nat) (T : ℝ), Tn[k]? = some T → 0 < T → 0 < dt →
      ∀ u v : ℝ → ℝ, Driven xi (2 * Real.pi / T) dt ((subsample interval acc).map Prod.snd) u v →
      ∃ row, rows[k]? = some row ∧
        row.sd = maxAbs ((List.range (subsample interval acc).length).map fun j : Nat => u (j * dt)) ∧
        row.sv = maxAbs ((List.range (subsample interval acc).length).map fun j : Nat => v (j * dt)) ∧
        row.sa = maxAbs ((List.range (subsample interval acc).length).map fun j : Nat =>
          -(2 * xi * (2 * Real.pi / T) * v (j * dt)) - (2 * Real.pi / T) ^ 2 * u (j * dt)) ∧
        row.psv = 2 * Real.pi / T * row.sd ∧ row.psa = (2 * Real.pi / T) ^ 2 * row.sd := by
  unfold responseSpectraR responseSpectra at h
  by_cases c : interval = 0
  · rw [if_pos c] at h; cases h
  rw [if_neg c] at h
  cases hs : spacingOk ((subsample interval acc).map Prod.fst) with
  | error e => simp only [bind, Except.bind, hs] at h; cases h
  | ok w =>
    simp only [bind, Except.bind, hs] at h
    cases hd : dtOf (subsample interval acc) with
    | error e => rw [hd] at h; cases h
    | ok dt =>
      rw [hd] at h
      have e := Except.ok.inj h
      refine ⟨by rw [← e]; simp, dt, rfl, ?_⟩
      intro k T hT hTp hdt u v hdr
      have hw : 0 < 2 * Real.pi / T := by positivity
      have := C28_spectra xi dt hx0 hx hdt _ hw _ u v hdr
      simp only [List.length_map] at this
      refine ⟨_, ?_, this⟩
      rw [← e, List.getElem?_map, List.getElem?_map, hT]
      rfl

end Verif
