import Verif.Props.Motion
import Verif.Props.TruncFig
import Verif.Props.MotionHist
import Mathlib.Analysis.SpecialFunctions.Trigonometric.Bounds
import Mathlib.Analysis.SpecialFunctions.Trigonometric.Deriv
import Mathlib.MeasureTheory.Integral.IntervalIntegral.Basic
import Mathlib.MeasureTheory.Integral.IntervalIntegral.FundThmCalculus
import Mathlib.Analysis.Calculus.MeanValue

/-!
C185: a record that is sampled from a function of time.  Velocity, displacement, acceleration and Arias intensity computed from the
samples, compared with integrals and derivative of the function.
-/

set_option linter.unusedSectionVars false
set_option linter.unusedVariables false

namespace Verif

namespace Spec

/-- `n` samples of `f`, from `t0` on, at steps of `dt`. -/
def samples (f : ℝ → ℝ) (t0 dt : ℝ) (n : Nat) : Rec ℝ := (List.range n).map fun k : Nat => (t0 + k * dt, f (t0 + k * dt))

/-- `f` changes by at most `L` per unit of time. -/
def Changes (L : ℝ) (f : ℝ → ℝ) : Prop := ∀ s t, |f s - f t| ≤ L * |s - t|

end Spec

open Spec (samples Changes)

variable {f : ℝ → ℝ} {L : ℝ}

theorem changes_nonneg (h : Changes L f) : 0 ≤ L := by
  have := h 1 0
  simp only [sub_zero, abs_one, mul_one] at this
  exact (abs_nonneg _).trans this

theorem changes_cont (h : Changes L f) : Continuous f := by
  have hl : LipschitzWith (Real.toNNReal L) f := by
    apply LipschitzWith.of_dist_le_mul
    intro x y
    rw [Real.dist_eq, Real.dist_eq, Real.coe_toNNReal _ (changes_nonneg h)]
    exact h x y
  exact hl.continuous

theorem changes_int (h : Changes L f) (a b : ℝ) : IntervalIntegrable f MeasureTheory.volume a b :=
  (changes_cont h).intervalIntegrable a b

/-- One step of a rectangle rule. -/
theorem rect_err (h : Changes L f) (a b c : ℝ) (hab : a ≤ b) (hc : a ≤ c ∧ c ≤ b) :
    |f c * (b - a) - ∫ x in a..b, f x| ≤ L * (b - a) ^ 2 := by
  have e : f c * (b - a) - (∫ x in a..b, f x) = ∫ x in a..b, (f c - f x) := by
    rw [intervalIntegral.integral_sub (by simp) (changes_int h a b), intervalIntegral.integral_const, smul_eq_mul, mul_comm]
  rw [e, ← Real.norm_eq_abs]
  have := intervalIntegral.norm_integral_le_of_norm_le_const (f := fun x => f c - f x) (a := a) (b := b) (C := L * (b - a)) (by
    intro x hx
    rw [Set.uIoc_of_le hab] at hx
    rw [Real.norm_eq_abs]
    refine (h c x).trans (mul_le_mul_of_nonneg_left ?_ (changes_nonneg h))
    rw [abs_le]
    constructor <;> linarith [hx.1, hx.2])
  rw [abs_of_nonneg (by linarith : (0 : ℝ) ≤ b - a)] at this
  calc _ ≤ _ := this
    _ = _ := by ring

/-- Rectangle rule with the values at the ends of the steps. -/
theorem right_rule (h : Changes L f) (t0 dt : ℝ) (hdt : 0 ≤ dt) (i : Nat) :
    |(∑ j ∈ Finset.range i, f (t0 + (j + 1 : ℕ) * dt) * dt) - ∫ x in t0..(t0 + i * dt), f x| ≤ i * (L * dt ^ 2) := by
  induction i with
  | zero => simp
  | succ i ih =>
    have hsplit : (∫ x in t0..(t0 + ((i + 1 : ℕ) : ℝ) * dt), f x) =
        (∫ x in t0..(t0 + (i : ℝ) * dt), f x) + ∫ x in (t0 + (i : ℝ) * dt)..(t0 + ((i + 1 : ℕ) : ℝ) * dt), f x :=
      (intervalIntegral.integral_add_adjacent_intervals (changes_int h _ _) (changes_int h _ _)).symm
    have hs : t0 + ((i + 1 : ℕ) : ℝ) * dt - (t0 + (i : ℝ) * dt) = dt := by push_cast; ring
    have hr := rect_err h (t0 + (i : ℝ) * dt) (t0 + ((i + 1 : ℕ) : ℝ) * dt) (t0 + ((i + 1 : ℕ) : ℝ) * dt) (by linarith)
      ⟨by linarith, le_rfl⟩
    rw [hs] at hr
    rw [Finset.sum_range_succ, hsplit]
    calc |(∑ j ∈ Finset.range i, f (t0 + (j + 1 : ℕ) * dt) * dt) + f (t0 + (i + 1 : ℕ) * dt) * dt -
          ((∫ x in t0..(t0 + (i : ℝ) * dt), f x) + ∫ x in (t0 + (i : ℝ) * dt)..(t0 + ((i + 1 : ℕ) : ℝ) * dt), f x)|
        = |((∑ j ∈ Finset.range i, f (t0 + (j + 1 : ℕ) * dt) * dt) - ∫ x in t0..(t0 + (i : ℝ) * dt), f x) +
          (f (t0 + (i + 1 : ℕ) * dt) * dt - ∫ x in (t0 + (i : ℝ) * dt)..(t0 + ((i + 1 : ℕ) : ℝ) * dt), f x)| := by
          congr 1; ring
      _ ≤ _ := abs_add_le _ _
      _ ≤ i * (L * dt ^ 2) + L * dt ^ 2 := add_le_add ih hr
      _ = _ := by push_cast; ring

/-- Rectangle rule with the values at the beginnings of the steps. -/
theorem left_rule (h : Changes L f) (t0 dt : ℝ) (hdt : 0 ≤ dt) (i : Nat) :
    |(∑ j ∈ Finset.range i, f (t0 + j * dt) * dt) - ∫ x in t0..(t0 + i * dt), f x| ≤ i * (L * dt ^ 2) := by
  induction i with
  | zero => simp
  | succ i ih =>
    have hsplit : (∫ x in t0..(t0 + ((i + 1 : ℕ) : ℝ) * dt), f x) =
        (∫ x in t0..(t0 + (i : ℝ) * dt), f x) + ∫ x in (t0 + (i : ℝ) * dt)..(t0 + ((i + 1 : ℕ) : ℝ) * dt), f x :=
      (intervalIntegral.integral_add_adjacent_intervals (changes_int h _ _) (changes_int h _ _)).symm
    have hs : t0 + ((i + 1 : ℕ) : ℝ) * dt - (t0 + (i : ℝ) * dt) = dt := by push_cast; ring
    have hr := rect_err h (t0 + (i : ℝ) * dt) (t0 + ((i + 1 : ℕ) : ℝ) * dt) (t0 + (i : ℝ) * dt) (by linarith)
      ⟨le_rfl, by linarith⟩
    rw [hs] at hr
    rw [Finset.sum_range_succ, hsplit]
    calc |(∑ j ∈ Finset.range i, f (t0 + j * dt) * dt) + f (t0 + i * dt) * dt -
          ((∫ x in t0..(t0 + (i : ℝ) * dt), f x) + ∫ x in (t0 + (i : ℝ) * dt)..(t0 + ((i + 1 : ℕ) : ℝ) * dt), f x)|
        = |((∑ j ∈ Finset.range i, f (t0 + j * dt) * dt) - ∫ x in t0..(t0 + (i : ℝ) * dt), f x) +
          (f (t0 + i * dt) * dt - ∫ x in (t0 + (i : ℝ) * dt)..(t0 + ((i + 1 : ℕ) : ℝ) * dt), f x)| := by
          congr 1; ring
      _ ≤ _ := abs_add_le _ _
      _ ≤ i * (L * dt ^ 2) + L * dt ^ 2 := add_le_add ih hr
      _ = _ := by push_cast; ring

theorem sum_range_map (w : Nat → ℝ) (n : Nat) : ((List.range n).map w).sum = ∑ j ∈ Finset.range n, w j := by
  induction n with
  | zero => rfl
  | succ n ih => rw [List.range_succ, List.map_append, List.sum_append, ih, Finset.sum_range_succ]; simp

theorem cumsum_range (w : Nat → ℝ) (n i : Nat) (h : i < n) :
    (cumsum ((List.range n).map w))[i]? = some (∑ j ∈ Finset.range (i + 1), w j) := by
  rw [cumsum_getK _ _ (by simpa using h), ← List.map_take, List.take_range, min_eq_left (by omega), sum_range_map]

theorem samples_times (f : ℝ → ℝ) (t0 dt : ℝ) (n : Nat) :
    (samples f t0 dt n).map Prod.fst = (List.range n).map fun k : Nat => t0 + k * dt := by
  unfold samples
  rw [List.map_map]
  rfl

theorem samples_vals (f : ℝ → ℝ) (t0 dt : ℝ) (n : Nat) :
    (samples f t0 dt n).map Prod.snd = (List.range n).map fun k : Nat => f (t0 + k * dt) := by
  unfold samples
  rw [List.map_map]
  rfl

theorem samples_dt (f : ℝ → ℝ) (t0 dt : ℝ) (n : Nat) (hn : 2 ≤ n) : dtOf (samples f t0 dt n) = .ok dt := by
  obtain ⟨m, rfl⟩ : ∃ m, n = m + 2 := ⟨n - 2, by omega⟩
  unfold samples
  rw [List.range_succ_eq_map, List.range_succ_eq_map]
  simp [dtOf]

theorem zip_range (a b : Nat → ℝ) (n : Nat) : ((List.range n).map a).zip ((List.range n).map b) =
    (List.range n).map fun k => (a k, b k) := by
  rw [List.zip_map']

theorem list_range_map (l : List ℝ) (n : Nat) (w : Nat → ℝ) (hl : l.length = n) (h : ∀ i, i < n → l[i]? = some (w i)) :
    l = (List.range n).map w := by
  apply List.ext_getElem? 
  intro i
  rcases lt_or_ge i n with hi | hi
  · rw [h i hi, List.getElem?_map, List.getElem?_range hi]; rfl
  · rw [List.getElem?_eq_none (by omega), List.getElem?_eq_none (by simpa using hi)]

/-- `num_int` of the samples, in closed form. -/
theorem numInt_samples (f : ℝ → ℝ) (t0 dt : ℝ) (n : Nat) (hn : 2 ≤ n) :
    numInt (samples f t0 dt n) = .ok
      ((List.range n).map fun k : Nat => (t0 + k * dt, ∑ j ∈ Finset.range (k + 1), f (t0 + j * dt) * dt),
       (List.range n).map fun k : Nat =>
        (t0 + k * dt, ∑ i ∈ Finset.range (k + 1), (∑ j ∈ Finset.range (i + 1), f (t0 + j * dt) * dt) * dt)) := by
  have hv : (cumsum ((List.range n).map fun k : Nat => f (t0 + k * dt))).map (· * dt) =
      (List.range n).map fun k : Nat => ∑ j ∈ Finset.range (k + 1), f (t0 + j * dt) * dt := by
    apply list_range_map
    · rw [integral_len]; simp
    · intro i hi
      rw [List.getElem?_map, cumsum_range _ _ _ hi]
      simp [Finset.sum_mul]
  have hu : (cumsum ((List.range n).map fun k : Nat => ∑ j ∈ Finset.range (k + 1), f (t0 + j * dt) * dt)).map (· * dt) =
      (List.range n).map fun k : Nat => ∑ i ∈ Finset.range (k + 1), (∑ j ∈ Finset.range (i + 1), f (t0 + j * dt) * dt) * dt := by
    apply list_range_map
    · rw [integral_len]; simp
    · intro i hi
      rw [List.getElem?_map, cumsum_range _ _ _ hi, Option.map_some, Finset.sum_mul]
  unfold numInt
  simp only [samples_dt f t0 dt n hn, samples_times, samples_vals, bind, Except.bind, pure, Except.pure, hv, hu, zip_range]

theorem primitive_changes (h : Changes L f) (M : ℝ) (hM : ∀ t, |f t| ≤ M) (t0 : ℝ) : Changes M fun s => ∫ x in t0..s, f x := by
  intro s t
  have e : (∫ x in t0..s, f x) - (∫ x in t0..t, f x) = ∫ x in t..s, f x :=
    intervalIntegral.integral_interval_sub_left (changes_int h _ _) (changes_int h _ _)
  rw [e, ← Real.norm_eq_abs]
  exact intervalIntegral.norm_integral_le_of_norm_le_const fun x _ => by rw [Real.norm_eq_abs]; exact hM x

theorem velocity_err (h : Changes L f) (t0 dt : ℝ) (hdt : 0 < dt) (i : Nat) :
    |(∑ j ∈ Finset.range (i + 1), f (t0 + j * dt) * dt) - ∫ x in t0..(t0 + i * dt), f x| ≤
      dt * (|f t0| + L * (i * dt)) := by
  rw [Finset.sum_range_succ']
  have hr := right_rule h t0 dt hdt.le i
  simp only [Nat.cast_zero, zero_mul, add_zero]
  calc |(∑ j ∈ Finset.range i, f (t0 + (j + 1 : ℕ) * dt) * dt) + f t0 * dt - ∫ x in t0..(t0 + i * dt), f x|
      = |((∑ j ∈ Finset.range i, f (t0 + (j + 1 : ℕ) * dt) * dt) - ∫ x in t0..(t0 + i * dt), f x) + f t0 * dt| := by
        congr 1; ring
    _ ≤ _ := abs_add_le _ _
    _ ≤ i * (L * dt ^ 2) + |f t0| * dt := by
      refine add_le_add hr ?_
      rw [abs_mul, abs_of_pos hdt]
    _ = _ := by ring

/-- C185, integration: velocity and displacement from `n` samples of the acceleration `f` differ from its first and second integrals from
the first sample on by at most a multiple of the time step; `T = i dt` is the time since the first sample, `L` the largest rate of
change of `f` and `M` its largest size. -/
theorem C185_integration (h : Changes L f) (M : ℝ) (hM : ∀ t, |f t| ≤ M) (t0 dt : ℝ) (hdt : 0 < dt) (n : Nat) (hn : 2 ≤ n) :
    ∃ v u, numInt (samples f t0 dt n) = .ok (v, u) ∧ v.length = n ∧ u.length = n ∧
      ∀ i, i < n → ∃ vi ui : ℝ, v[i]? = some (t0 + i * dt, vi) ∧ u[i]? = some (t0 + i * dt, ui) ∧
        |vi - ∫ x in t0..(t0 + i * dt), f x| ≤ dt * (|f t0| + L * (i * dt)) ∧
        |ui - ∫ s in t0..(t0 + i * dt), ∫ x in t0..s, f x| ≤
          dt * (|f t0| * dt + i * dt * (|f t0| + L * (i * dt) + M)) := by
  refine ⟨_, _, numInt_samples f t0 dt n hn, by simp, by simp, fun i hi => ⟨_, ∑ k ∈ Finset.range (i + 1), (∑ j ∈ Finset.range (k + 1), f (t0 + j * dt) * dt) * dt,
    ?_, ?_, velocity_err h t0 dt hdt i, ?_⟩⟩
  · rw [List.getElem?_map, List.getElem?_range hi]; rfl
  · rw [List.getElem?_map, List.getElem?_range hi]; rfl
  · have hF := primitive_changes h M hM t0
    have hL := changes_nonneg h
    have hr := right_rule hF t0 dt hdt.le i
    rw [Finset.sum_range_succ']
    simp only [zero_add, Finset.sum_range_one, Nat.cast_zero, zero_mul, add_zero] at hr ⊢
    have hs : |(∑ k ∈ Finset.range i, (∑ j ∈ Finset.range (k + 1 + 1), f (t0 + j * dt) * dt) * dt) -
        ∑ k ∈ Finset.range i, (∫ x in t0..(t0 + (k + 1 : ℕ) * dt), f x) * dt| ≤
        i * (dt * (|f t0| + L * (i * dt)) * dt) := by
      rw [← Finset.sum_sub_distrib]
      refine (Finset.abs_sum_le_sum_abs _ _).trans ?_
      calc _ ≤ ∑ _k ∈ Finset.range i, dt * (|f t0| + L * (i * dt)) * dt := by
            apply Finset.sum_le_sum
            intro k hk
            rw [← sub_mul, abs_mul, abs_of_pos hdt]
            apply mul_le_mul_of_nonneg_right _ hdt.le
            refine (velocity_err h t0 dt hdt (k + 1)).trans ?_
            have : ((k + 1 : ℕ) : ℝ) ≤ i := by exact_mod_cast Finset.mem_range.1 hk
            gcongr
        _ = _ := by simp
    calc _ = |((∑ k ∈ Finset.range i, (∑ j ∈ Finset.range (k + 1 + 1), f (t0 + j * dt) * dt) * dt) -
        ∑ k ∈ Finset.range i, (∫ x in t0..(t0 + (k + 1 : ℕ) * dt), f x) * dt) +
        ((∑ k ∈ Finset.range i, (∫ x in t0..(t0 + (k + 1 : ℕ) * dt), f x) * dt) -
          ∫ s in t0..(t0 + i * dt), ∫ x in t0..s, f x) + f t0 * dt * dt| := by congr 1; ring
      _ ≤ i * (dt * (|f t0| + L * (i * dt)) * dt) + i * (M * dt ^ 2) + |f t0| * dt * dt := by
        refine (abs_add_le _ _).trans (add_le_add ((abs_add_le _ _).trans (add_le_add hs hr)) ?_)
        rw [abs_mul, abs_mul, abs_of_pos hdt]
      _ = _ := by ring

/-- C185, start of the record: velocity and displacement at the first sample are `f t0 dt` and `f t0 dt²`, so the first term of the bounds
in `C185_integration` is needed. -/
theorem C185_start (f : ℝ → ℝ) (t0 dt : ℝ) (n : Nat) (hn : 2 ≤ n) :
    ∃ v u, numInt (samples f t0 dt n) = .ok (v, u) ∧ v[0]? = some (t0, f t0 * dt) ∧ u[0]? = some (t0, f t0 * dt * dt) := by
  refine ⟨_, _, numInt_samples f t0 dt n hn, ?_, ?_⟩ <;>
  · rw [List.getElem?_map, List.getElem?_range (by omega)]
    simp

theorem diff_range (w : Nat → ℝ) (n : Nat) : diff ((List.range (n + 1)).map w) = (List.range n).map fun k => w (k + 1) - w k := by
  have hl : ∀ l : List ℝ, (diff l).length = l.length - 1 := by
    intro l
    induction l with
    | nil => rfl
    | cons a l ih =>
      cases l with
      | nil => rfl
      | cons b l => simp only [diff, List.length_cons, ih]; omega
  apply list_range_map
  · rw [hl]; simp
  · intro i hi
    exact diff_get _ i _ _ (by rw [List.getElem?_map, List.getElem?_range (by omega)]; rfl)
      (by rw [List.getElem?_map, List.getElem?_range (by omega)]; rfl)

/-- `num_diff` of the samples, in closed form. -/
theorem numDiff_samples (f : ℝ → ℝ) (t0 dt : ℝ) (hdt : dt ≠ 0) (n : Nat) :
    numDiff (samples f t0 dt (n + 1)) = .ok ((t0, 0) :: (List.range n).map fun k : Nat =>
      (t0 + (k + 1 : ℕ) * dt, (f (t0 + (k + 1 : ℕ) * dt) - f (t0 + k * dt)) / dt)) := by
  have ht : diff ((samples f t0 dt (n + 1)).map Prod.fst) = (List.range n).map fun _ => dt := by
    rw [samples_times, diff_range]
    apply List.map_congr_left
    intro k _
    push_cast
    ring
  unfold numDiff
  simp only [ht]
  rw [if_neg (by simpa using fun _ h => hdt h.symm), samples_vals, diff_range, samples_times, List.range_succ_eq_map]
  unfold colStack
  rw [if_neg (by simp)]
  congr 1
  simp only [List.map_cons, List.map_map, List.zip_cons_cons, Nat.cast_zero, zero_mul, add_zero, List.cons.injEq, true_and]
  rw [List.zipWith_map_left, List.zipWith_map_right, List.zipWith_self, List.zip_map']
  rfl

/-- C185, differentiation: the accelerations from samples of a velocity with the derivative `f` differ from `f` by at most `L dt`, from the
second sample on.  Missing: the first sample, see `C185_first_acceleration_violated`. -/
theorem C185_differentiation_partial (h : Changes L f) (g : ℝ → ℝ) (hg : ∀ t, HasDerivAt g (f t) t) (t0 dt : ℝ) (hdt : 0 < dt) (n : Nat) :
    ∃ x, numDiff (samples g t0 dt (n + 1)) = .ok x ∧ x.length = n + 1 ∧
      ∀ i, 1 ≤ i → i ≤ n → ∃ y, x[i]? = some (t0 + i * dt, y) ∧ |y - f (t0 + i * dt)| ≤ L * dt := by
  refine ⟨_, numDiff_samples g t0 dt hdt.ne' n, by simp, fun i h1 hi => ?_⟩
  obtain ⟨k, rfl⟩ : ∃ k, i = k + 1 := ⟨i - 1, by omega⟩
  refine ⟨_, by rw [List.getElem?_cons_succ, List.getElem?_map, List.getElem?_range (by omega)]; rfl, ?_⟩
  have hs : t0 + ((k + 1 : ℕ) : ℝ) * dt - (t0 + (k : ℝ) * dt) = dt := by push_cast; ring
  have hr := rect_err h (t0 + (k : ℝ) * dt) (t0 + ((k + 1 : ℕ) : ℝ) * dt) (t0 + ((k + 1 : ℕ) : ℝ) * dt) (by linarith)
    ⟨by linarith, le_rfl⟩
  rw [hs, intervalIntegral.integral_eq_sub_of_hasDerivAt (fun x _ => hg x) (changes_int h _ _)] at hr
  have e : (g (t0 + ((k + 1 : ℕ) : ℝ) * dt) - g (t0 + k * dt)) / dt - f (t0 + ((k + 1 : ℕ) : ℝ) * dt) =
      -((f (t0 + ((k + 1 : ℕ) : ℝ) * dt) * dt - (g (t0 + ((k + 1 : ℕ) : ℝ) * dt) - g (t0 + k * dt))) / dt) := by
    field_simp
    ring
  rw [e, abs_neg, abs_div, abs_of_pos hdt, div_le_iff₀ hdt]
  calc _ ≤ _ := hr
    _ = _ := by ring

/-- The property fails for the first sample: whatever the velocity, the first acceleration is 0 with any time step, so that no multiple of the
time step bounds the error if the derivative there is not 0. -/
theorem C185_first_acceleration_violated (g : ℝ → ℝ) (t0 a : ℝ) (hg : HasDerivAt g a t0) (ha : a ≠ 0) (n : Nat) :
    (∀ dt, 0 < dt → ∃ x, numDiff (samples g t0 dt (n + 1)) = .ok x ∧ x[0]? = some (t0, 0)) ∧
    ∀ C : ℝ, ∃ dt, 0 < dt ∧ ∃ x y, numDiff (samples g t0 dt (n + 1)) = .ok x ∧ x[0]? = some (t0, y) ∧ C * dt < |y - a| := by
  refine ⟨fun dt hdt => ⟨_, numDiff_samples g t0 dt hdt.ne' n, rfl⟩, fun C => ?_⟩
  have ha' : 0 < |a| := abs_pos.2 ha
  have hC : 0 < |C| + 1 := by positivity
  have hdt : 0 < |a| / (|C| + 1) := by positivity
  refine ⟨_, hdt, _, 0, numDiff_samples g t0 _ hdt.ne' n, rfl, ?_⟩
  rw [zero_sub, abs_neg]
  calc C * (|a| / (|C| + 1)) ≤ |C| * (|a| / (|C| + 1)) := mul_le_mul_of_nonneg_right (le_abs_self C) hdt.le
    _ < (|C| + 1) * (|a| / (|C| + 1)) := mul_lt_mul_of_pos_right (by linarith) hdt
    _ = |a| := by field_simp

theorem square_changes (h : Changes L f) (M : ℝ) (hM : ∀ t, |f t| ≤ M) : Changes (2 * M * L) fun t => f t ^ 2 := by
  intro s t
  have hM0 : 0 ≤ M := (abs_nonneg _).trans (hM 0)
  have e : f s ^ 2 - f t ^ 2 = (f s + f t) * (f s - f t) := by ring
  show |f s ^ 2 - f t ^ 2| ≤ _
  rw [e, abs_mul]
  calc |f s + f t| * |f s - f t| ≤ (M + M) * (L * |s - t|) := by
        apply mul_le_mul ((abs_add_le _ _).trans (add_le_add (hM s) (hM t))) (h s t) (abs_nonneg _) (by linarith)
    _ = _ := by ring

/-- C185, Arias intensity: the running intensity of the samples differs from `c ∫ f²` (`c` is π/(2 g)) by at most `2 c M L T dt`, where `T = i dt` is the
time since the first sample. -/
theorem C185_arias (h : Changes L f) (M : ℝ) (hM : ∀ t, |f t| ≤ M) (c t0 dt : ℝ) (hc : 0 < c) (hdt : 0 < dt) (n : Nat) (hn : 2 ≤ n)
    (r : Arias ℝ) (hr : calcArias c (samples f t0 dt n) = .ok r) :
    r.ia.length = n ∧ ∀ i, i < n → ∃ y, r.ia[i]? = some (t0 + i * dt, y) ∧
      |y - c * ∫ x in t0..(t0 + i * dt), f x ^ 2| ≤ 2 * c * M * L * (i * dt) * dt := by
  unfold calcArias at hr
  simp only [samples_dt f t0 dt n hn, samples_times, samples_vals, bind, Except.bind, pure, Except.pure] at hr
  have hia : r.ia = ((List.range n).map fun k : Nat => t0 + k * dt).zip
      (ariasFrom c dt 0 ((List.range n).map fun k : Nat => f (t0 + k * dt))) := by
    split at hr
    · cases hr
    · split at hr
      · cases hr
      · split at hr
        · cases hr
        · cases hr; rfl
  have hval : ariasFrom c dt 0 ((List.range n).map fun k : Nat => f (t0 + k * dt)) =
      (List.range n).map fun k : Nat => c * ∑ j ∈ Finset.range k, f (t0 + j * dt) ^ 2 * dt := by
    apply list_range_map
    · rw [ariasFrom_length]; simp
    · intro i hi
      rw [ariasFrom_getElem? _ _ _ _ _ (by simpa using hi), ← List.map_take, List.take_range, min_eq_left hi.le, List.map_map,
        sum_range_map, zero_add]
      congr 1
      rw [← Finset.sum_mul]
      simp only [Function.comp]
      ring
  rw [hval, zip_range] at hia
  rw [hia]
  refine ⟨by simp, fun i hi => ⟨_, by rw [List.getElem?_map, List.getElem?_range hi]; rfl, ?_⟩⟩
  rw [← mul_sub, abs_mul, abs_of_pos hc]
  have := left_rule (square_changes h M hM) t0 dt hdt.le i
  calc _ ≤ c * (i * (2 * M * L * dt ^ 2)) := mul_le_mul_of_nonneg_left this hc.le
    _ = _ := by ring

/-- The hypotheses hold, for instance, for the sine. -/
example : Changes 1 Real.sin ∧ ∀ t, |Real.sin t| ≤ 1 := by
  refine ⟨fun s t => ?_, Real.abs_sin_le_one⟩
  have := Real.lipschitzWith_sin.dist_le_mul s t
  simpa [Real.dist_eq] using this

end Verif
