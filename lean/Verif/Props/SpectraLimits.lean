import Verif.Props.SampledSpectra

/-!
C196: response spectra at very short and very long periods.
-/

set_option linter.unusedSectionVars false
set_option linter.unusedVariables false

namespace Verif

open Filter Topology
open Spec (Oscillates Driven)

namespace Spec

/-- Velocity and displacement, at the samples, of a ground that is at rest at first and whose acceleration varies linearly between the
samples `a` (interval `dt`): exact integrals. -/
noncomputable def ground (a : List ℝ) (dt : ℝ) : ℕ → ℝ × ℝ
  | 0 => (0, 0)
  | j + 1 => ((ground a dt j).1 + dt * (a.getD j 0 + a.getD (j + 1) 0) / 2,
      (ground a dt j).2 + dt * (ground a dt j).1 + dt ^ 2 * (2 * a.getD j 0 + a.getD (j + 1) 0) / 6)

end Spec

open Spec (ground)

/-! ## The computed histories -/

/-- The states that are computed. -/
noncomputable def oscHist (xi dt : ℝ) (a : List ℝ) (wn : ℝ) : ℕ → ℝ × ℝ
  | 0 => (0, 0)
  | j + 1 => ((oscHist xi dt a wn j).1 * (oscCoefs xi wn dt).A + (oscHist xi dt a wn j).2 * (oscCoefs xi wn dt).B +
        (-1) * a.getD j 0 * (oscCoefs xi wn dt).C + (-1) * a.getD (j + 1) 0 * (oscCoefs xi wn dt).D,
      (oscHist xi dt a wn j).1 * (oscCoefs xi wn dt).A' + (oscHist xi dt a wn j).2 * (oscCoefs xi wn dt).B' +
        (-1) * a.getD j 0 * (oscCoefs xi wn dt).C' + (-1) * a.getD (j + 1) 0 * (oscCoefs xi wn dt).D')

theorem getD_of_get? {l : List ℝ} {j : ℕ} {x : ℝ} (h : l[j]? = some x) : l.getD j 0 = x := by
  rw [List.getD_eq_getElem?_getD, h]; rfl

theorem hist_step (xi dt : ℝ) (a : List ℝ) (wn : ℝ) :
    stepFrom (oscCoefs xi wn dt) (0, 0) a = (List.range a.length).map fun j : ℕ => oscHist xi dt a wn j := by
  apply stepFrom_exact
  · rfl
  · intro j a0 a1 h0 h1
    rw [oscHist, getD_of_get? h0, getD_of_get? h1]

theorem zipWith_range {β γ : Type} (f : ℕ → β) (g : β → ℝ → γ) (a : List ℝ) :
    List.zipWith g ((List.range a.length).map f) a = (List.range a.length).map fun j : ℕ => g (f j) (a.getD j 0) := by
  apply List.ext_getElem?
  intro i
  rw [List.getElem?_zipWith, List.getElem?_map, List.getElem?_map]
  rcases lt_or_ge i a.length with h | h
  · rw [List.getElem?_range h, List.getElem?_eq_getElem h, Option.map_some, Option.map_some, List.getD_eq_getElem _ _ h]
  · rw [List.getElem?_eq_none (by simpa using h), List.getElem?_eq_none h]; rfl

theorem hist_row (xi dt : ℝ) (a : List ℝ) (wn : ℝ) :
    let row := timeStepping (oscCoefs xi wn dt) wn xi a
    row.sd = maxAbs ((List.range a.length).map fun j : ℕ => (oscHist xi dt a wn j).1) ∧
    row.sv = maxAbs ((List.range a.length).map fun j : ℕ => (oscHist xi dt a wn j).2) ∧
    row.sa = maxAbs ((List.range a.length).map fun j : ℕ => 2 * xi * (wn * (oscHist xi dt a wn j).2) + wn ^ 2 * (oscHist xi dt a wn j).1) ∧
    row.psa = maxAbs ((List.range a.length).map fun j : ℕ => wn ^ 2 * (oscHist xi dt a wn j).1) ∧
    row.psv = |wn| * row.sd ∨ wn < 0 := by
  intro row
  rcases lt_or_ge wn 0 with h | hw
  · exact Or.inr h
  left
  have e1 : row.sd = maxAbs ((List.range a.length).map fun j : ℕ => (oscHist xi dt a wn j).1) := by
    show maxAbs ((stepFrom (oscCoefs xi wn dt) (0, 0) a).map Prod.fst) = _
    rw [hist_step, List.map_map]; rfl
  refine ⟨e1, ?_, ?_, ?_, ?_⟩
  · show maxAbs ((stepFrom (oscCoefs xi wn dt) (0, 0) a).map Prod.snd) = _
    rw [hist_step, List.map_map]; rfl
  · show maxAbs (List.zipWith _ (stepFrom (oscCoefs xi wn dt) (0, 0) a) a) = _
    rw [hist_step, zipWith_range]
    have := maxAbs_map_mul (-1) ((List.range a.length).map fun j : ℕ =>
      -(2 * wn * xi * (oscHist xi dt a wn j).2 + wn ^ 2 * (oscHist xi dt a wn j).1 + a.getD j 0) + a.getD j 0)
    rw [abs_neg, abs_one, one_mul, List.map_map] at this
    rw [← this]
    congr 1
    refine List.map_congr_left fun j _ => ?_
    simp only [Function.comp]
    ring
  · have e2 : row.psa = row.sd * wn * wn := rfl
    rw [e2, e1]
    have := maxAbs_map_mul (wn ^ 2) ((List.range a.length).map fun j : ℕ => (oscHist xi dt a wn j).1)
    rw [List.map_map, abs_of_nonneg (sq_nonneg wn)] at this
    rw [show (fun j : ℕ => wn ^ 2 * (oscHist xi dt a wn j).1) = (fun x => wn ^ 2 * x) ∘ fun j : ℕ => (oscHist xi dt a wn j).1 from rfl, this]
    ring
  · show row.sd * wn = _
    rw [abs_of_nonneg hw]; ring

/-! ## Short periods -/

theorem maxAbs_tendsto {l : Filter ℝ} (ns : List ℕ) (f : ℝ → ℕ → ℝ) (g : ℕ → ℝ) (h : ∀ j ∈ ns, Tendsto (fun w => f w j) l (𝓝 (g j))) :
    Tendsto (fun w => maxAbs (ns.map (f w))) l (𝓝 (maxAbs (ns.map g))) := by
  induction ns with
  | nil => exact tendsto_const_nhds
  | cons n ns ih =>
    simp only [List.map_cons, maxAbs, List.foldr_cons]
    exact (h n (by simp)).abs.max (ih fun j hj => h j (by simp [hj]))

theorem tendsto_zero_mul_bdd {f g : ℝ → ℝ} (hf : Tendsto f atTop (𝓝 0)) (hg : ∀ x, |g x| ≤ 1) : Tendsto (fun x => f x * g x) atTop (𝓝 0) := by
  refine squeeze_zero_norm (fun x => ?_) (by simpa using hf.abs)
  rw [Real.norm_eq_abs, abs_mul]
  exact mul_le_of_le_one_right (abs_nonneg _) (hg x)

theorem coef_limits {xi dt : ℝ} (hx0 : 0 < xi) (hx : xi < 1) (hdt : 0 < dt) :
    Tendsto (fun w => (oscCoefs xi w dt).A) atTop (𝓝 0) ∧ Tendsto (fun w => w * (oscCoefs xi w dt).B) atTop (𝓝 0) ∧
    Tendsto (fun w => w ^ 2 * (oscCoefs xi w dt).C) atTop (𝓝 0) ∧ Tendsto (fun w => w ^ 2 * (oscCoefs xi w dt).D) atTop (𝓝 1) ∧
    Tendsto (fun w => (oscCoefs xi w dt).A' / w) atTop (𝓝 0) ∧ Tendsto (fun w => (oscCoefs xi w dt).B') atTop (𝓝 0) ∧
    Tendsto (fun w => w * (oscCoefs xi w dt).C') atTop (𝓝 0) ∧ Tendsto (fun w => w * (oscCoefs xi w dt).D') atTop (𝓝 0) := by
  have hq : 0 < Real.sqrt (1 - xi ^ 2) := Real.sqrt_pos.2 (by nlinarith)
  set q := Real.sqrt (1 - xi ^ 2) with hqd
  have hE : Tendsto (fun w => Real.exp (-xi * w * dt)) atTop (𝓝 0) := by
    refine Real.tendsto_exp_atBot.comp ?_
    have : Tendsto (fun w : ℝ => (xi * dt) * w) atTop atTop := tendsto_id.const_mul_atTop (by positivity)
    refine (tendsto_neg_atTop_atBot.comp this).congr fun w => ?_
    simp only [Function.comp]; ring
  have hI : Tendsto (fun w : ℝ => w⁻¹) atTop (𝓝 0) := tendsto_inv_atTop_zero
  have hs : ∀ w, |Real.sin (wdOf xi w * dt)| ≤ 1 := fun w => Real.abs_sin_le_one _
  have hc : ∀ w, |Real.cos (wdOf xi w * dt)| ≤ 1 := fun w => Real.abs_cos_le_one _
  have hne : ∀ᶠ w : ℝ in atTop, w ≠ 0 := eventually_ne_atTop 0
  have ES := tendsto_zero_mul_bdd hE hs
  have EC := tendsto_zero_mul_bdd hE hc
  refine ⟨?_, ?_, ?_, ?_, ?_, ?_, ?_, ?_⟩
  · have := (ES.const_mul (xi / q)).add EC
    simp only [mul_zero, add_zero] at this
    refine this.congr fun w => ?_
    simp only [oscCoefs]; ring
  · have := ES.const_mul (1 / q)
    simp only [mul_zero] at this
    refine this.congr' (hne.mono fun w hw => ?_)
    simp only [oscCoefs]
    rw [show wdOf xi w = w * q from rfl]
    field_simp
  · have t1 := (hI.const_mul (2 * xi / dt))
    have t2 := ((hI.const_mul ((1 - 2 * xi ^ 2) / q / dt)).sub_const (xi / q)).mul ES
    have t3 := ((hI.const_mul (2 * xi / dt)).const_add 1).mul EC
    have := (t1.add t2).sub t3
    simp only [mul_zero, add_zero, sub_zero] at this
    refine this.congr' (hne.mono fun w hw => ?_)
    simp only [oscCoefs]
    rw [show wdOf xi w = w * q from rfl, ← hqd]
    field_simp
    ring
  · have t1 := (hI.const_mul (2 * xi / dt)).const_sub 1
    have t2 := (hI.const_mul ((2 * xi ^ 2 - 1) / q / dt)).mul ES
    have t3 := (hI.const_mul (2 * xi / dt)).mul EC
    have := (t1.add t2).add t3
    simp only [mul_zero, add_zero, sub_zero] at this
    refine this.congr' (hne.mono fun w hw => ?_)
    simp only [oscCoefs]
    rw [show wdOf xi w = w * q from rfl]
    field_simp
    ring
  · have := ES.const_mul (-(1 / q))
    simp only [mul_zero] at this
    refine this.congr' (hne.mono fun w hw => ?_)
    simp only [oscCoefs]
    rw [← hqd]
    field_simp
  · have := EC.sub (ES.const_mul (xi / q))
    simp only [mul_zero, sub_zero] at this
    refine this.congr fun w => ?_
    simp only [oscCoefs]; ring
  · have t1 := hI.const_mul (-1 / dt)
    have t2 := ((hI.const_mul (xi / dt / q)).const_add (1 / q)).mul ES
    have t3 := (hI.const_mul (1 / dt)).mul EC
    have := (t1.add t2).add t3
    simp only [mul_zero, add_zero] at this
    refine this.congr' (hne.mono fun w hw => ?_)
    simp only [oscCoefs]
    rw [← hqd]
    field_simp
    ring
  · have t1 := hI.const_mul (1 / dt)
    have t2 := ((ES.const_mul (xi / q)).add EC).const_sub 1
    have := t1.mul t2
    simp only [mul_zero, zero_mul] at this
    refine this.congr' (hne.mono fun w hw => ?_)
    simp only [oscCoefs]
    rw [← hqd]
    field_simp

theorem hist_short {xi dt : ℝ} (hx0 : 0 < xi) (hx : xi < 1) (hdt : 0 < dt) (a : List ℝ) (j : ℕ) :
    Tendsto (fun w => w ^ 2 * (oscHist xi dt a w j).1) atTop (𝓝 (if j = 0 then 0 else -a.getD j 0)) ∧
    Tendsto (fun w => w * (oscHist xi dt a w j).2) atTop (𝓝 0) := by
  obtain ⟨cA, cB, cC, cD, cA', cB', cC', cD'⟩ := coef_limits hx0 hx hdt
  induction j with
  | zero => simp [oscHist]
  | succ j ih =>
    obtain ⟨i1, i2⟩ := ih
    have hne : ∀ᶠ w : ℝ in atTop, w ≠ 0 := eventually_ne_atTop 0
    constructor
    · have := (((i1.mul cA).add (i2.mul cB)).sub (cC.const_mul (a.getD j 0))).sub (cD.const_mul (a.getD (j + 1) 0))
      simp only [mul_zero, add_zero, zero_add, mul_one, sub_zero, zero_sub] at this
      rw [if_neg (by omega)]
      refine this.congr fun w => ?_
      rw [oscHist]; ring
    · have := (((i1.mul cA').add (i2.mul cB')).sub (cC'.const_mul (a.getD j 0))).sub (cD'.const_mul (a.getD (j + 1) 0))
      simp only [mul_zero, add_zero, zero_add, mul_one, sub_zero, zero_sub] at this
      refine this.congr' (hne.mono fun w hw => ?_)
      simp only [oscHist]
      field_simp
      ring

theorem maxAbs_range_tail (a : List ℝ) : maxAbs ((List.range a.length).map fun j : ℕ => if j = 0 then 0 else -a.getD j 0) = maxAbs a.tail := by
  cases a with
  | nil => rfl
  | cons x a =>
    rw [List.length_cons, List.range_succ_eq_map, List.map_cons, List.map_map, List.tail_cons]
    have e : (List.range a.length).map ((fun j : ℕ => if j = 0 then 0 else -(x :: a).getD j 0) ∘ Nat.succ) = a.map (fun y => (-1) * y) := by
      apply List.ext_getElem?
      intro i
      rw [List.getElem?_map, List.getElem?_map]
      rcases lt_or_ge i a.length with h | h
      · rw [List.getElem?_range h, List.getElem?_eq_getElem h]
        simp [h]
      · rw [List.getElem?_eq_none (by simpa using h), List.getElem?_eq_none h]; rfl
    rw [e, if_pos rfl]
    show max |(0 : ℝ)| (maxAbs _) = _
    rw [maxAbs_map_mul, abs_zero, abs_neg, abs_one, one_mul, max_eq_right (maxAbs_nonneg _)]

/-- C196, short periods: as the frequency of the oscillator grows, its spectral acceleration and pseudo-acceleration tend to the largest
acceleration of the record after its first sample, and spectral displacement and velocity to zero. -/
theorem C196_short {xi dt : ℝ} (hx0 : 0 < xi) (hx : xi < 1) (hdt : 0 < dt) (a : List ℝ) :
    Tendsto (fun w => (timeStepping (oscCoefs xi w dt) w xi a).sa) atTop (𝓝 (maxAbs a.tail)) ∧
    Tendsto (fun w => (timeStepping (oscCoefs xi w dt) w xi a).psa) atTop (𝓝 (maxAbs a.tail)) ∧
    Tendsto (fun w => (timeStepping (oscCoefs xi w dt) w xi a).sv) atTop (𝓝 0) ∧
    Tendsto (fun w => (timeStepping (oscCoefs xi w dt) w xi a).sd) atTop (𝓝 0) := by
  have hpos : ∀ᶠ w : ℝ in atTop, 0 < w := eventually_gt_atTop 0
  have hz : maxAbs ((List.range a.length).map fun _ : ℕ => (0 : ℝ)) = 0 := by
    induction a.length with
    | zero => rfl
    | succ n ih => rw [List.range_succ_eq_map, List.map_cons, List.map_map]; show max |(0 : ℝ)| (maxAbs _) = 0; rw [abs_zero]; simpa [Function.comp_def] using ih.le
  have hI : Tendsto (fun w : ℝ => w⁻¹) atTop (𝓝 0) := tendsto_inv_atTop_zero
  have row : ∀ w : ℝ, 0 < w → _ := fun w hw => (hist_row xi dt a w).resolve_right (not_lt.2 hw.le)
  refine ⟨?_, ?_, ?_, ?_⟩
  · rw [← maxAbs_range_tail a]
    refine (maxAbs_tendsto (List.range a.length) (fun w j => 2 * xi * (w * (oscHist xi dt a w j).2) + w ^ 2 * (oscHist xi dt a w j).1) _
      fun j _ => ?_).congr' (hpos.mono fun w hw => ((row w hw).2.2.1).symm)
    have h := hist_short hx0 hx hdt a j
    simpa using (h.2.const_mul (2 * xi)).add h.1
  · rw [← maxAbs_range_tail a]
    refine (maxAbs_tendsto (List.range a.length) (fun w j => w ^ 2 * (oscHist xi dt a w j).1) _
      fun j _ => (hist_short hx0 hx hdt a j).1).congr' (hpos.mono fun w hw => ((row w hw).2.2.2.1).symm)
  · rw [← hz]
    refine (maxAbs_tendsto (List.range a.length) (fun w j => (oscHist xi dt a w j).2) (fun _ => 0)
      fun j _ => ?_).congr' (hpos.mono fun w hw => ((row w hw).2.1).symm)
    have := hI.mul (hist_short hx0 hx hdt a j).2
    rw [zero_mul] at this
    refine this.congr' (hpos.mono fun w hw => ?_)
    field_simp
  · rw [← hz]
    refine (maxAbs_tendsto (List.range a.length) (fun w j => (oscHist xi dt a w j).1) (fun _ => 0)
      fun j _ => ?_).congr' (hpos.mono fun w hw => ((row w hw).1).symm)
    have := (hI.mul hI).mul (hist_short hx0 hx hdt a j).1
    rw [zero_mul, zero_mul] at this
    refine this.congr' (hpos.mono fun w hw => ?_)
    field_simp

theorem maxAbs_cons (x : ℝ) (a : List ℝ) : maxAbs (x :: a) = max |x| (maxAbs a) := rfl

/-- C196: hence at short periods spectral acceleration tends to the peak ground acceleration, provided that the first sample does not
exceed all others.  Missing: records whose first sample is the largest. -/
theorem C196_pga_partial {xi dt : ℝ} (hx0 : 0 < xi) (hx : xi < 1) (hdt : 0 < dt) (x : ℝ) (a : List ℝ) (h0 : |x| ≤ maxAbs a) :
    Tendsto (fun w => (timeStepping (oscCoefs xi w dt) w xi (x :: a)).sa) atTop (𝓝 (maxAbs (x :: a))) ∧
    Tendsto (fun w => (timeStepping (oscCoefs xi w dt) w xi (x :: a)).psa) atTop (𝓝 (maxAbs (x :: a))) := by
  obtain ⟨h1, h2, -⟩ := C196_short hx0 hx hdt (x :: a)
  rw [maxAbs_cons, max_eq_right h0]
  exact ⟨h1, h2⟩

/-- C196: if the first sample of a record is larger than all others, spectral acceleration does not tend to the peak ground acceleration: the
oscillator is at rest at the time of the first sample, and the values between samples are not looked at. -/
theorem C196_pga_violated {xi dt : ℝ} (hx0 : 0 < xi) (hx : xi < 1) (hdt : 0 < dt) (x : ℝ) (a : List ℝ) (h0 : maxAbs a < |x|) :
    ¬ Tendsto (fun w => (timeStepping (oscCoefs xi w dt) w xi (x :: a)).sa) atTop (𝓝 (maxAbs (x :: a))) ∧
    ¬ Tendsto (fun w => (timeStepping (oscCoefs xi w dt) w xi (x :: a)).psa) atTop (𝓝 (maxAbs (x :: a))) := by
  obtain ⟨h1, h2, -⟩ := C196_short hx0 hx hdt (x :: a)
  rw [maxAbs_cons, max_eq_left h0.le]
  exact ⟨fun h => h0.ne (tendsto_nhds_unique h1 h), fun h => h0.ne (tendsto_nhds_unique h2 h)⟩

/-! ## Long periods -/

/-- Acceleration, velocity and displacement of the ground during a step. -/
theorem ground_bound (a : List ℝ) (dt M : ℝ) (hdt : 0 < dt) (hM : ∀ v ∈ a, |v| ≤ M) (hM0 : 0 ≤ M) (j : ℕ) :
    |(ground a dt j).1| ≤ M * (j * dt) ∧ |(ground a dt j).2| ≤ M * (j * dt) ^ 2 := by
  have hA : ∀ i, |a.getD i 0| ≤ M := fun i => by
    by_cases hi : i < a.length
    · rw [List.getD_eq_getElem _ _ hi]; exact hM _ (List.getElem_mem hi)
    · rw [List.getD_eq_default _ _ (by omega)]; simpa using hM0
  induction j with
  | zero => simp [ground]
  | succ j ih =>
    obtain ⟨i1, i2⟩ := ih
    have b0 := abs_le.1 (hA j)
    have b1 := abs_le.1 (hA (j + 1))
    rw [abs_le] at i1 i2
    have hj : (0 : ℝ) ≤ j := Nat.cast_nonneg j
    have p1 : ∀ y, |y| ≤ M → |dt * y| ≤ dt * M := fun y hy => by
      rw [abs_mul, abs_of_pos hdt]; exact mul_le_mul_of_nonneg_left hy hdt.le
    constructor
    · rw [ground, abs_le]
      push_cast
      constructor <;> nlinarith
    · rw [ground]
      push_cast
      have k1 : |dt * (ground a dt j).1| ≤ dt * (M * (j * dt)) := by
        rw [abs_mul, abs_of_pos hdt]; exact mul_le_mul_of_nonneg_left (abs_le.2 i1) hdt.le
      have k2 : |dt ^ 2 * (2 * a.getD j 0 + a.getD (j + 1) 0) / 6| ≤ dt ^ 2 * M := by
        rw [mul_div_assoc, abs_mul, abs_of_pos (by positivity : 0 < dt ^ 2)]
        refine mul_le_mul_of_nonneg_left ?_ (by positivity)
        rw [abs_le]; constructor <;> linarith [b0.1, b0.2, b1.1, b1.2]
      rw [abs_le] at k1 k2 ⊢
      have k3 : 0 ≤ M * (j * dt ^ 2) := by positivity
      constructor <;> nlinarith

theorem getD_le (a : List ℝ) (M : ℝ) (hM : ∀ v ∈ a, |v| ≤ M) (hM0 : 0 ≤ M) (i : ℕ) : |a.getD i 0| ≤ M := by
  by_cases hi : i < a.length
  · rw [List.getD_eq_getElem _ _ hi]; exact hM _ (List.getElem_mem hi)
  · rw [List.getD_eq_default _ _ (by omega)]; simpa using hM0

/-- A slow oscillator stays where it is while the ground moves. -/
theorem slow_osc {xi wn dt M : ℝ} (hx : 0 ≤ xi) (hw : 0 < wn) (hdt : 0 < dt) (a : List ℝ) (hM : ∀ v ∈ a, |v| ≤ M) (hM0 : 0 ≤ M) (u v : ℝ → ℝ)
    (hd : Driven xi wn dt a u v) (T : ℝ) (hT : T = (a.length - 1 : ℕ) * dt) (j : ℕ) (hj : j < a.length) :
    Real.sqrt ((v (j * dt) + (ground a dt j).1) ^ 2 + wn ^ 2 * (u (j * dt) + (ground a dt j).2) ^ 2) ≤ wn * M * T * (2 * xi + wn * T) * (j * dt) ∧
    |u (j * dt) + (ground a dt j).2| ≤ wn * M * T * (2 * xi + wn * T) * (j * dt) ^ 2 := by
  have hT0 : 0 ≤ T := by rw [hT]; positivity
  set δ := wn * M * T * (2 * xi + wn * T) with hδ
  have hδ0 : 0 ≤ δ := by positivity
  induction j with
  | zero => simp [hd.1, hd.2.1, ground]
  | succ j ih =>
    obtain ⟨i1, i2⟩ := ih (by omega)
    have hj' : j < a.length := by omega
    set a0 := a.getD j 0 with ha0
    set a1 := a.getD (j + 1) 0 with ha1
    have g0 : a[j]? = some a0 := by rw [ha0, List.getD_eq_getElem _ _ hj', List.getElem?_eq_getElem hj']
    have g1 : a[j + 1]? = some a1 := by rw [ha1, List.getD_eq_getElem _ _ hj, List.getElem?_eq_getElem hj]
    have ho := hd.2.2 j a0 a1 g0 g1
    set V := (ground a dt j).1 with hV
    set X := (ground a dt j).2 with hX
    obtain ⟨bV, bX⟩ := ground_bound a dt M hdt hM hM0 j
    rw [← hV] at bV
    rw [← hX] at bX
    have b0 := getD_le a M hM hM0 j
    have b1 := getD_le a M hM hM0 (j + 1)
    rw [← ha0] at b0
    rw [← ha1] at b1
    set P : ℝ → ℝ := fun r => X + V * r + a0 * r ^ 2 / 2 + (a1 - a0) * r ^ 3 / (6 * dt) with hP
    set Q : ℝ → ℝ := fun r => V + a0 * r + (a1 - a0) * r ^ 2 / (2 * dt) with hQ
    have dP : ∀ r, HasDerivAt P (Q r) r := by
      intro r
      have h1 := (((hasDerivAt_id r).const_mul V).const_add X)
      have h2 := (((hasDerivAt_id r).pow 2).const_mul a0).div_const 2
      have h3 := (((hasDerivAt_id r).pow 3).const_mul (a1 - a0)).div_const (6 * dt)
      refine ((h1.add h2).add h3).congr_deriv ?_
      simp only [id, hQ]
      field_simp
      ring
    have dQ : ∀ r, HasDerivAt Q (a0 + (a1 - a0) * (r / dt)) r := by
      intro r
      have h1 := (((hasDerivAt_id r).const_mul a0).const_add V)
      have h3 := (((hasDerivAt_id r).pow 2).const_mul (a1 - a0)).div_const (2 * dt)
      refine (h1.add h3).congr_deriv ?_
      simp only [id]
      field_simp
      ring
    have hjT : (j : ℝ) * dt + dt ≤ T := by
      rw [hT]
      have : ((j + 1 : ℕ) : ℝ) ≤ ((a.length - 1 : ℕ) : ℝ) := by exact_mod_cast (by omega : j + 1 ≤ a.length - 1)
      have := mul_le_mul_of_nonneg_right this hdt.le
      push_cast at this
      linarith
    have hj0 : 0 ≤ (j : ℝ) * dt := by positivity
    -- bounds on the motion of the ground
    have hQb : ∀ r ∈ Set.Icc 0 dt, |Q r| ≤ M * (j * dt + r) := by
      intro r hr
      have e : Q r = V + (a0 * (r - r ^ 2 / (2 * dt)) + a1 * (r ^ 2 / (2 * dt))) := by simp only [hQ]; ring
      have w1 : 0 ≤ r ^ 2 / (2 * dt) := by positivity
      have w2 : r ^ 2 / (2 * dt) ≤ r := by
        rw [div_le_iff₀ (by positivity)]; nlinarith [hr.1, hr.2]
      have t1 : |a0 * (r - r ^ 2 / (2 * dt))| ≤ M * (r - r ^ 2 / (2 * dt)) := by
        rw [abs_mul, abs_of_nonneg (by linarith : 0 ≤ r - r ^ 2 / (2 * dt))]
        exact mul_le_mul_of_nonneg_right b0 (by linarith)
      have t2 : |a1 * (r ^ 2 / (2 * dt))| ≤ M * (r ^ 2 / (2 * dt)) := by
        rw [abs_mul, abs_of_nonneg w1]; exact mul_le_mul_of_nonneg_right b1 w1
      rw [e]
      have := abs_add_le V (a0 * (r - r ^ 2 / (2 * dt)) + a1 * (r ^ 2 / (2 * dt)))
      have := abs_add_le (a0 * (r - r ^ 2 / (2 * dt))) (a1 * (r ^ 2 / (2 * dt)))
      linarith
    have hPb : ∀ r ∈ Set.Icc 0 dt, |P r| ≤ M * (j * dt + r) ^ 2 := by
      intro r hr
      have e : P r = X + V * r + (a0 * (r ^ 2 / 2 - r ^ 3 / (6 * dt)) + a1 * (r ^ 3 / (6 * dt))) := by simp only [hP]; ring
      have w1 : 0 ≤ r ^ 3 / (6 * dt) := by have := hr.1; positivity
      have w2 : r ^ 3 / (6 * dt) ≤ r ^ 2 / 2 := by
        rw [div_le_iff₀ (by positivity)]
        have := mul_le_mul_of_nonneg_left hr.2 (sq_nonneg r)
        nlinarith [sq_nonneg r]
      have t1 : |a0 * (r ^ 2 / 2 - r ^ 3 / (6 * dt))| ≤ M * (r ^ 2 / 2 - r ^ 3 / (6 * dt)) := by
        rw [abs_mul, abs_of_nonneg (by linarith : 0 ≤ r ^ 2 / 2 - r ^ 3 / (6 * dt))]
        exact mul_le_mul_of_nonneg_right b0 (by linarith)
      have t2 : |a1 * (r ^ 3 / (6 * dt))| ≤ M * (r ^ 3 / (6 * dt)) := by
        rw [abs_mul, abs_of_nonneg w1]; exact mul_le_mul_of_nonneg_right b1 w1
      have t3 : |V * r| ≤ M * (j * dt) * r := by
        rw [abs_mul, abs_of_nonneg hr.1]; exact mul_le_mul_of_nonneg_right bV hr.1
      rw [e]
      have s1 := abs_add_le (X + V * r) (a0 * (r ^ 2 / 2 - r ^ 3 / (6 * dt)) + a1 * (r ^ 3 / (6 * dt)))
      have s2 := abs_add_le (a0 * (r ^ 2 / 2 - r ^ 3 / (6 * dt))) (a1 * (r ^ 3 / (6 * dt)))
      have s3 := abs_add_le X (V * r)
      have s4 : 0 ≤ M * (j * dt) * r := by have := hr.1; positivity
      have s5 : 0 ≤ M * r ^ 2 := by positivity
      nlinarith
    have hφ : ∀ r ∈ Set.Icc 0 dt, |2 * xi * wn * Q r + wn ^ 2 * P r| ≤ δ := by
      intro r hr
      have l0 : (j : ℝ) * dt + r ≤ T := by linarith [hr.2]
      have l00 : 0 ≤ (j : ℝ) * dt + r := by linarith [hr.1]
      have l1 : |Q r| ≤ M * T := (hQb r hr).trans (mul_le_mul_of_nonneg_left l0 hM0)
      have l2 : |P r| ≤ M * T ^ 2 := (hPb r hr).trans (mul_le_mul_of_nonneg_left (pow_le_pow_left₀ l00 l0 2) hM0)
      have m1 : |2 * xi * wn * Q r| ≤ 2 * xi * wn * (M * T) := by
        rw [abs_mul, abs_of_nonneg (by positivity : 0 ≤ 2 * xi * wn)]; exact mul_le_mul_of_nonneg_left l1 (by positivity)
      have m2 : |wn ^ 2 * P r| ≤ wn ^ 2 * (M * T ^ 2) := by
        rw [abs_mul, abs_of_nonneg (by positivity : 0 ≤ wn ^ 2)]; exact mul_le_mul_of_nonneg_left l2 (by positivity)
      have := abs_add_le (2 * xi * wn * Q r) (wn ^ 2 * P r)
      rw [hδ]
      linarith
    have dz : ∀ r ∈ Set.Icc 0 dt, HasDerivWithinAt (fun r => u (j * dt + r) + P r) (v (j * dt + r) + Q r) (Set.Icc 0 dt) r :=
      fun r hr => (ho r hr).1.add (dP r).hasDerivWithinAt
    have dd : ∀ r ∈ Set.Icc 0 dt, HasDerivWithinAt (fun r => v (j * dt + r) + Q r)
        (-(2 * xi * wn * (v (j * dt + r) + Q r)) - wn ^ 2 * (u (j * dt + r) + P r) + (2 * xi * wn * Q r + wn ^ 2 * P r)) (Set.Icc 0 dt) r :=
      fun r hr => ((ho r hr).2.add (dQ r).hasDerivWithinAt).congr_deriv (by ring)
    have P0 : P 0 = X := by simp [hP]
    have Q0 : Q 0 = V := by simp [hQ]
    have P1 : P dt = (ground a dt (j + 1)).2 := by
      rw [ground, ← hV, ← hX, ← ha0, ← ha1]; simp only [hP]; field_simp; ring
    have Q1 : Q dt = (ground a dt (j + 1)).1 := by
      rw [ground, ← hV, ← ha0, ← ha1]; simp only [hQ]; field_simp; ring
    have e3 : ((j + 1 : ℕ) : ℝ) * dt = j * dt + dt := by push_cast; ring
    have energy : ∀ r ∈ Set.Icc 0 dt, Real.sqrt ((v (j * dt + r) + Q r) ^ 2 + wn ^ 2 * (u (j * dt + r) + P r) ^ 2) ≤ δ * (j * dt) + δ * r := by
      intro r hr
      have hsub : Set.Icc 0 r ⊆ Set.Icc 0 dt := Set.Icc_subset_Icc le_rfl hr.2
      have := osc_energy (a := 0) (b := r) (xi := xi) (wn := wn) (δ := δ) hr.1 hx hw hδ0 (fun r => u (j * dt + r) + P r)
        (fun r => v (j * dt + r) + Q r) (fun r => 2 * xi * wn * Q r + wn ^ 2 * P r) (fun t ht => (dz t (hsub ht)).mono hsub)
        (fun t ht => (dd t (hsub ht)).mono hsub) (fun t ht => hφ t (hsub ht))
      simp only [add_zero, sub_zero, P0, Q0] at this
      linarith
    have hdm : dt ∈ Set.Icc 0 dt := ⟨hdt.le, le_rfl⟩
    constructor
    · have := energy dt hdm
      rw [e3, ← P1, ← Q1]
      linarith
    · have hz := (convex_Icc 0 dt).norm_image_sub_le_of_norm_hasDerivWithin_le (f := fun r => u (j * dt + r) + P r)
        (f' := fun r => v (j * dt + r) + Q r) (C := δ * (j * dt + dt)) dz (fun r hr => by
          rw [Real.norm_eq_abs]
          refine (abs_le_energy wn _ _ _ hw (energy r hr)).1.trans ?_
          have := mul_le_mul_of_nonneg_left hr.2 hδ0
          linarith) (show (0 : ℝ) ∈ Set.Icc 0 dt from ⟨le_rfl, hdt.le⟩) hdm
      simp only [add_zero, P0, sub_zero, Real.norm_eq_abs, abs_of_pos hdt] at hz
      rw [e3, ← P1]
      have s1 := abs_add_le (u (j * dt + dt) + P dt - (u (j * dt) + X)) (u (j * dt) + X)
      rw [sub_add_cancel] at s1
      have s2 : 0 ≤ δ * (j * dt) * dt := by positivity
      have s3 : δ * (j * dt + dt) ^ 2 = δ * (j * dt) ^ 2 + δ * (j * dt + dt) * dt + δ * (j * dt) * dt := by ring
      rw [s3]
      linarith

/-- Peaks of two histories that are close to each other. -/
theorem peaks_close (n : ℕ) (f g : ℕ → ℝ) (E : ℝ) (hE : 0 ≤ E) (h : ∀ j < n, |f j - g j| ≤ E) :
    |maxAbs ((List.range n).map f) - maxAbs ((List.range n).map g)| ≤ E := by
  have key : ∀ f g : ℕ → ℝ, (∀ j < n, |f j - g j| ≤ E) → maxAbs ((List.range n).map f) ≤ maxAbs ((List.range n).map g) + E := by
    intro f g h
    rcases Nat.eq_zero_or_pos n with rfl | hn
    · simpa [maxAbs] using hE
    · obtain ⟨x, hx, e⟩ := maxAbs_mem (l := (List.range n).map f) (by simp; omega)
      obtain ⟨j, hj, rfl⟩ := List.mem_map.1 hx
      have hj' := List.mem_range.1 hj
      have h1 : |g j| ≤ maxAbs ((List.range n).map g) := le_maxAbs (List.mem_map.2 ⟨j, hj, rfl⟩)
      have h2 := abs_add_le (f j - g j) (g j)
      rw [sub_add_cancel] at h2
      rw [← e]
      linarith [h j hj']
  rw [abs_le]
  have k1 := key f g h
  have k2 := key g f fun j hj => by rw [abs_sub_comm]; exact h j hj
  constructor <;> linarith

/-- C196, long periods: spectral velocity and displacement are the peak velocity and displacement of a ground whose acceleration varies linearly
between the samples, up to terms that vanish with the frequency of the oscillator. -/
theorem C196_long {xi wn dt M : ℝ} (hx : 0 ≤ xi) (hx1 : xi < 1) (hw : 0 < wn) (hdt : 0 < dt) (a : List ℝ) (hM : ∀ v ∈ a, |v| ≤ M) (hM0 : 0 ≤ M)
    (T : ℝ) (hT : T = (a.length - 1 : ℕ) * dt) :
    |(timeStepping (oscCoefs xi wn dt) wn xi a).sv - maxAbs ((List.range a.length).map fun j : ℕ => (ground a dt j).1)| ≤
      wn * M * T * (2 * xi + wn * T) * T ∧
    |(timeStepping (oscCoefs xi wn dt) wn xi a).sd - maxAbs ((List.range a.length).map fun j : ℕ => (ground a dt j).2)| ≤
      wn * M * T * (2 * xi + wn * T) * T ^ 2 := by
  have hT0 : 0 ≤ T := by rw [hT]; positivity
  obtain ⟨u, v, hd⟩ := C28_exists xi wn dt hx hx1 hw hdt a
  obtain ⟨s1, s2, -⟩ := C28_spectra xi dt hx hx1 hdt wn hw a u v hd
  have neg : ∀ f : ℕ → ℝ, maxAbs ((List.range a.length).map fun j => -f j) = maxAbs ((List.range a.length).map f) := by
    intro f
    have := maxAbs_map_mul (-1) ((List.range a.length).map f)
    rw [List.map_map, abs_neg, abs_one, one_mul] at this
    rw [← this]
    congr 1
    refine List.map_congr_left fun j _ => ?_
    simp
  have hjT : ∀ j < a.length, (j : ℝ) * dt ≤ T := fun j hj => by
    rw [hT]
    exact mul_le_mul_of_nonneg_right (by exact_mod_cast (by omega : j ≤ a.length - 1)) hdt.le
  have hδ : 0 ≤ wn * M * T * (2 * xi + wn * T) := by positivity
  constructor
  · rw [s2, ← neg]
    refine peaks_close _ _ _ _ (by positivity) fun j hj => ?_
    rw [show -v (j * dt) - (ground a dt j).1 = -(v (j * dt) + (ground a dt j).1) by ring, abs_neg]
    refine (abs_le_energy wn _ _ _ hw (slow_osc hx hw hdt a hM hM0 u v hd T hT j hj).1).1.trans ?_
    exact mul_le_mul_of_nonneg_left (hjT j hj) hδ
  · rw [s1, ← neg]
    refine peaks_close _ _ _ _ (by positivity) fun j hj => ?_
    rw [show -u (j * dt) - (ground a dt j).2 = -(u (j * dt) + (ground a dt j).2) by ring, abs_neg]
    refine (slow_osc hx hw hdt a hM hM0 u v hd T hT j hj).2.trans ?_
    exact mul_le_mul_of_nonneg_left (pow_le_pow_left₀ (by positivity) (hjT j hj) 2) hδ

/-- C196: hence, as the frequency of the oscillator tends to zero, spectral velocity and displacement tend to these peaks. -/
theorem C196_long_limit {xi dt : ℝ} (hx : 0 ≤ xi) (hx1 : xi < 1) (hdt : 0 < dt) (a : List ℝ) :
    Tendsto (fun w => (timeStepping (oscCoefs xi w dt) w xi a).sv) (𝓝[>] 0) (𝓝 (maxAbs ((List.range a.length).map fun j : ℕ => (ground a dt j).1))) ∧
    Tendsto (fun w => (timeStepping (oscCoefs xi w dt) w xi a).sd) (𝓝[>] 0) (𝓝 (maxAbs ((List.range a.length).map fun j : ℕ => (ground a dt j).2))) := by
  set T : ℝ := (a.length - 1 : ℕ) * dt with hT
  have key : ∀ k : ℕ, Tendsto (fun w : ℝ => w * maxAbs a * T * (2 * xi + w * T) * T ^ k) (𝓝[>] 0) (𝓝 0) := by
    intro k
    have : ContinuousAt (fun w : ℝ => w * maxAbs a * T * (2 * xi + w * T) * T ^ k) 0 := by fun_prop
    have h := this.tendsto
    simp only [zero_mul] at h
    exact h.mono_left nhdsWithin_le_nhds
  have hb : ∀ v ∈ a, |v| ≤ maxAbs a := fun v hv => le_maxAbs hv
  constructor
  · refine tendsto_iff_dist_tendsto_zero.2 (squeeze_zero' (Eventually.of_forall fun _ => dist_nonneg) ?_ (key 1))
    filter_upwards [self_mem_nhdsWithin] with w hw
    rw [Real.dist_eq, pow_one]
    exact (C196_long hx hx1 hw hdt a hb (maxAbs_nonneg a) T hT).1
  · refine tendsto_iff_dist_tendsto_zero.2 (squeeze_zero' (Eventually.of_forall fun _ => dist_nonneg) ?_ (key 2))
    filter_upwards [self_mem_nhdsWithin] with w hw
    rw [Real.dist_eq]
    exact (C196_long hx hx1 hw hdt a hb (maxAbs_nonneg a) T hT).2

/-! ## Comparison with the peaks of the integrated record -/

theorem cumsum_getD (a : List ℝ) (dt : ℝ) : (cumsum a).map (· * dt) = (List.range a.length).map fun j : ℕ => ∑ k ∈ Finset.range (j + 1), a.getD k 0 * dt := by
  apply list_range_map
  · rw [integral_len]
  · intro i hi
    rw [List.getElem?_map, cumsum_getK _ _ hi, Option.map_some, ← Finset.sum_mul]
    congr 2
    have : ∀ (m : ℕ), m ≤ a.length → (a.take m).sum = ∑ k ∈ Finset.range m, a.getD k 0 := by
      intro m
      induction m with
      | zero => intro _; simp
      | succ m ih =>
        intro hm
        rw [Finset.sum_range_succ, ← ih (by omega), List.take_add_one, List.sum_append, List.getElem?_eq_getElem (by omega : m < a.length),
          List.getD_eq_getElem _ _ (by omega : m < a.length)]
        simp
    exact this (i + 1) (by omega)

/-- Velocity and displacement from `num_int`. -/
theorem numInt_hist {x v u : Rec ℝ} {dt : ℝ} (hd : dtOf x = .ok dt) (h : numInt x = .ok (v, u)) :
    (v.map Prod.snd) = (List.range x.length).map (fun j : ℕ => ∑ k ∈ Finset.range (j + 1), (x.map Prod.snd).getD k 0 * dt) ∧
    (u.map Prod.snd) = (List.range x.length).map (fun j : ℕ => ∑ i ∈ Finset.range (j + 1), (∑ k ∈ Finset.range (i + 1), (x.map Prod.snd).getD k 0 * dt) * dt) := by
  unfold numInt at h
  rw [hd] at h
  simp only [Bind.bind, Except.bind, Pure.pure, Except.pure, Except.ok.injEq, Prod.mk.injEq] at h
  obtain ⟨h1, h2⟩ := h
  have e1 : (cumsum (x.map Prod.snd)).map (· * dt) = (List.range x.length).map (fun j : ℕ => ∑ k ∈ Finset.range (j + 1), (x.map Prod.snd).getD k 0 * dt) := by
    rw [cumsum_getD, List.length_map]
  constructor
  · rw [← h1, List.map_snd_zip (by rw [integral_len]; simp), e1]
  · rw [← h2, List.map_snd_zip (by rw [integral_len, integral_len]; simp), e1, cumsum_getD]
    simp only [List.length_map, List.length_range]
    refine List.map_congr_left fun j hj => Finset.sum_congr rfl fun i hi => ?_
    have hi' : i < x.length := by have := List.mem_range.1 hj; have := Finset.mem_range.1 hi; omega
    rw [List.getD_eq_getElem _ _ (by simpa using hi')]
    simp

theorem ground_vel (a : List ℝ) (dt : ℝ) (j : ℕ) :
    (ground a dt j).1 = (∑ k ∈ Finset.range (j + 1), a.getD k 0 * dt) - dt * (a.getD 0 0 + a.getD j 0) / 2 := by
  induction j with
  | zero => simp [ground]; ring
  | succ j ih => rw [Finset.sum_range_succ, ground, ih]; ring

theorem ground_close (a : List ℝ) (dt M : ℝ) (hdt : 0 < dt) (hM : ∀ v ∈ a, |v| ≤ M) (hM0 : 0 ≤ M) (j : ℕ) :
    |(ground a dt j).1 - ∑ k ∈ Finset.range (j + 1), a.getD k 0 * dt| ≤ M * dt ∧
    |(ground a dt j).2 - ∑ i ∈ Finset.range (j + 1), (∑ k ∈ Finset.range (i + 1), a.getD k 0 * dt) * dt| ≤ M * dt * (dt + 3 / 2 * (j * dt)) := by
  have hA := fun i => abs_le.1 (getD_le a M hM hM0 i)
  constructor
  · rw [ground_vel, show ∀ s t : ℝ, s - t - s = -t by intros; ring, abs_neg, mul_div_assoc, abs_mul, abs_of_pos hdt, mul_comm]
    refine mul_le_mul_of_nonneg_right ?_ hdt.le
    rw [abs_le]
    constructor <;> linarith [(hA 0).1, (hA 0).2, (hA j).1, (hA j).2]
  · induction j with
    | zero =>
      simp only [ground, zero_add, Finset.sum_range_one, Nat.cast_zero, zero_mul, mul_zero, add_zero, zero_sub, abs_neg]
      rw [mul_assoc, abs_mul, abs_of_pos (by positivity : 0 < dt * dt), mul_assoc]
      exact mul_le_mul_of_nonneg_right (abs_le.2 (hA 0)) (by positivity)
    | succ j ih =>
      rw [Finset.sum_range_succ, ground, ground_vel]
      set S := ∑ i ∈ Finset.range (j + 1), (∑ k ∈ Finset.range (i + 1), a.getD k 0 * dt) * dt with hS
      rw [Finset.sum_range_succ (fun k => a.getD k 0 * dt) (j + 1)]
      set R := ∑ k ∈ Finset.range (j + 1), a.getD k 0 * dt with hR
      have e : (ground a dt j).2 + dt * (R - dt * (a.getD 0 0 + a.getD j 0) / 2) + dt ^ 2 * (2 * a.getD j 0 + a.getD (j + 1) 0) / 6 -
          (S + (R + a.getD (j + 1) 0 * dt) * dt) = ((ground a dt j).2 - S) + dt ^ 2 * (-(a.getD 0 0 / 2 + a.getD j 0 / 6 + 5 / 6 * a.getD (j + 1) 0)) := by
        ring
      rw [e]
      have k : |dt ^ 2 * (-(a.getD 0 0 / 2 + a.getD j 0 / 6 + 5 / 6 * a.getD (j + 1) 0))| ≤ dt ^ 2 * (3 / 2 * M) := by
        rw [abs_mul, abs_of_pos (by positivity : 0 < dt ^ 2), abs_neg]
        refine mul_le_mul_of_nonneg_left ?_ (by positivity)
        rw [abs_le]
        constructor <;> linarith [(hA 0).1, (hA 0).2, (hA j).1, (hA j).2, (hA (j + 1)).1, (hA (j + 1)).2]
      have := abs_add_le ((ground a dt j).2 - S) (dt ^ 2 * (-(a.getD 0 0 / 2 + a.getD j 0 / 6 + 5 / 6 * a.getD (j + 1) 0)))
      push_cast
      linarith

/-- C196, long periods: spectral velocity and displacement are the peak ground velocity and displacement of `num_int`, up to terms that vanish with
the frequency and up to a multiple of the time step.  Missing: the terms with the time step do not vanish at long periods (`C196_long_violated`). -/
theorem C196_long_peaks_partial {xi wn dt M : ℝ} (hx : 0 ≤ xi) (hx1 : xi < 1) (hw : 0 < wn) (hdt : 0 < dt) (x v u : Rec ℝ) (hd : dtOf x = .ok dt)
    (hi : numInt x = .ok (v, u)) (hM : ∀ p ∈ x, |p.2| ≤ M) (T : ℝ) (hT : T = (x.length - 1 : ℕ) * dt) :
    |(timeStepping (oscCoefs xi wn dt) wn xi (x.map Prod.snd)).sv - maxAbs (v.map Prod.snd)| ≤ wn * M * T ^ 2 * (2 * xi + wn * T) + M * dt ∧
    |(timeStepping (oscCoefs xi wn dt) wn xi (x.map Prod.snd)).sd - maxAbs (u.map Prod.snd)| ≤
      wn * M * T ^ 3 * (2 * xi + wn * T) + M * dt * (dt + 3 / 2 * T) := by
  have hT0 : 0 ≤ T := by rw [hT]; positivity
  have hM' : ∀ v ∈ x.map Prod.snd, |v| ≤ M := by
    intro v hv
    obtain ⟨p, hp, rfl⟩ := List.mem_map.1 hv
    exact hM p hp
  have hM0 : 0 ≤ M := by
    match x, hd with
    | p :: _ :: _, _ => exact (abs_nonneg _).trans (hM p (by simp))
  obtain ⟨l1, l2⟩ := C196_long hx hx1 hw hdt (x.map Prod.snd) hM' hM0 T (by rw [List.length_map]; exact hT)
  obtain ⟨e1, e2⟩ := numInt_hist hd hi
  have hjT : ∀ j < x.length, (j : ℝ) * dt ≤ T := fun j hj => by
    rw [hT]
    exact mul_le_mul_of_nonneg_right (by exact_mod_cast (by omega : j ≤ x.length - 1)) hdt.le
  have c1 := peaks_close x.length (fun j => (ground (x.map Prod.snd) dt j).1) (fun j => ∑ k ∈ Finset.range (j + 1), (x.map Prod.snd).getD k 0 * dt)
    (M * dt) (by positivity) fun j hj => (ground_close _ dt M hdt hM' hM0 j).1
  have c2 := peaks_close x.length (fun j => (ground (x.map Prod.snd) dt j).2)
    (fun j => ∑ i ∈ Finset.range (j + 1), (∑ k ∈ Finset.range (i + 1), (x.map Prod.snd).getD k 0 * dt) * dt)
    (M * dt * (dt + 3 / 2 * T)) (by positivity) fun j hj => by
      refine (ground_close _ dt M hdt hM' hM0 j).2.trans (mul_le_mul_of_nonneg_left ?_ (by positivity))
      linarith [hjT j hj]
  rw [List.length_map] at l1 l2
  rw [e1, e2]
  constructor
  · refine (abs_sub_le _ _ _).trans ((add_le_add l1 c1).trans (le_of_eq ?_))
    ring
  · refine (abs_sub_le _ _ _).trans ((add_le_add l2 c2).trans (le_of_eq ?_))
    ring

/-- C196: for a record of constant acceleration `c`, spectral velocity does not tend to the peak velocity of the integrated record at long periods, but
to a value that is smaller by `|c| dt`. -/
theorem C196_long_violated {xi dt : ℝ} (hx : 0 ≤ xi) (hx1 : xi < 1) (hdt : 0 < dt) (t0 c : ℝ) (hc : c ≠ 0) (n : ℕ) (hn : 2 ≤ n) (v u : Rec ℝ)
    (hi : numInt ((List.range n).map fun j : ℕ => (t0 + j * dt, c)) = .ok (v, u)) :
    maxAbs (v.map Prod.snd) = |c| * (n * dt) ∧
    Tendsto (fun w => (timeStepping (oscCoefs xi w dt) w xi (((List.range n).map fun j : ℕ => (t0 + j * dt, c)).map Prod.snd)).sv) (𝓝[>] 0)
      (𝓝 (maxAbs (v.map Prod.snd) - |c| * dt)) := by
  have hd : dtOf ((List.range n).map fun j : ℕ => (t0 + j * dt, c)) = .ok dt := by
    have := samples_dt (fun _ => c) t0 dt n hn
    simpa [Spec.samples] using this
  obtain ⟨e1, -⟩ := numInt_hist hd hi
  have ha : ((List.range n).map fun j : ℕ => (t0 + j * dt, c)).map Prod.snd = List.replicate n c := by
    rw [List.map_map]; simp [Function.comp_def, List.map_const']
  have hg : ∀ k < n, (List.replicate n c).getD k 0 = c := fun k hk => by
    rw [List.getD_eq_getElem _ _ (by simpa using hk)]; simp
  rw [ha] at e1 ⊢
  have lin : ∀ (f : ℕ → ℝ) (b : ℝ), (∀ j < n, f j = c * ((j : ℝ) + b) * dt) → 0 ≤ b →
      maxAbs ((List.range n).map f) = |c| * (((n - 1 : ℕ) : ℝ) + b) * dt := by
    intro f b hf hb
    obtain ⟨y, hy, e⟩ := maxAbs_mem (l := (List.range n).map f) (by simp; omega)
    obtain ⟨j, hj, rfl⟩ := List.mem_map.1 hy
    have hj' := List.mem_range.1 hj
    have absf : ∀ j < n, |f j| = |c| * ((j : ℝ) + b) * dt := fun j hj => by
      rw [hf j hj, abs_mul, abs_mul, abs_of_pos hdt, abs_of_nonneg (by positivity : 0 ≤ (j : ℝ) + b)]
    apply le_antisymm
    · rw [← e, absf j hj']
      have : (j : ℝ) ≤ ((n - 1 : ℕ) : ℝ) := by exact_mod_cast (by omega : j ≤ n - 1)
      gcongr
    · rw [← absf (n - 1) (by omega)]
      exact le_maxAbs (List.mem_map.2 ⟨n - 1, List.mem_range.2 (by omega), rfl⟩)
  have hn1 : ((n - 1 : ℕ) : ℝ) = n - 1 := by rw [Nat.cast_sub (by omega)]; simp
  have s1 : maxAbs (v.map Prod.snd) = |c| * (n * dt) := by
    rw [e1, List.length_map, List.length_range, lin _ 1 _ zero_le_one, hn1]
    · ring
    · intro j hj
      rw [Finset.sum_congr rfl fun k hk => by rw [hg k (by have := Finset.mem_range.1 hk; omega)]]
      simp
      ring
  refine ⟨s1, ?_⟩
  have := (C196_long_limit hx hx1 hdt (List.replicate n c)).1
  rw [List.length_replicate, lin _ 0 _ le_rfl, hn1] at this
  · rw [s1, show |c| * (n * dt) - |c| * dt = |c| * ((n : ℝ) - 1 + 0) * dt by ring]
    exact this
  · intro j hj
    rw [ground_vel, hg 0 (by omega), hg j hj, Finset.sum_congr rfl fun k hk => by rw [hg k (by have := Finset.mem_range.1 hk; omega)]]
    simp
    ring

/-- The statements are about computed spectra: the rows of `response_spectra` are those of `timeStepping`. -/
example : Tendsto (fun w => (timeStepping (oscCoefs (1 / 20) w (1 / 100)) w (1 / 20) [0, 1, -3, 2]).psa) atTop (𝓝 3) := by
  have := (C196_pga_partial (xi := 1 / 20) (dt := 1 / 100) (by norm_num) (by norm_num) (by norm_num) 0 [1, -3, 2] (by simp [maxAbs])).2
  have e : maxAbs [(0 : ℝ), 1, -3, 2] = 3 := by norm_num [maxAbs]
  rwa [e] at this

end Verif
