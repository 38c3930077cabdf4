import Verif.Props.Oscillator
import Verif.Props.SampledMotion
import Verif.Props.MotionObj
import Verif.Props.Amplify
import Mathlib.Analysis.Calculus.MeanValue
import Mathlib.Analysis.SpecificLimits.Basic

/-!
C186: response spectra of a record that is sampled from a function of time, compared with the response of the oscillators to the
function itself; bounds on spectra.
-/

set_option linter.unusedSectionVars false
set_option linter.unusedVariables false

namespace Verif

namespace Spec

/-- `x` and `y` are the displacement and velocity, relative to the ground, of an oscillator that is at rest at time 0 and is driven by the
ground acceleration `f` up to time `T`. -/
structure Responds (xi wn T : ℝ) (f x y : ℝ → ℝ) : Prop where
  x0 : x 0 = 0
  y0 : y 0 = 0
  vel : ∀ t ∈ Set.Icc 0 T, HasDerivWithinAt x (y t) (Set.Icc 0 T) t
  acc : ∀ t ∈ Set.Icc 0 T, HasDerivWithinAt y (-(2 * xi * wn * y t) - wn ^ 2 * x t - f t) (Set.Icc 0 T) t

end Spec

open Spec (samples Changes Responds Driven Oscillates)

/-- Energy of an oscillator: its square root grows at most at the rate of the driving acceleration. -/
theorem osc_energy {a b xi wn δ : ℝ} (hab : a ≤ b) (hx : 0 ≤ xi) (hw : 0 < wn) (hδ : 0 ≤ δ) (e d φ : ℝ → ℝ)
    (h1 : ∀ t ∈ Set.Icc a b, HasDerivWithinAt e (d t) (Set.Icc a b) t)
    (h2 : ∀ t ∈ Set.Icc a b, HasDerivWithinAt d (-(2 * xi * wn * d t) - wn ^ 2 * e t + φ t) (Set.Icc a b) t)
    (hφ : ∀ t ∈ Set.Icc a b, |φ t| ≤ δ) :
    Real.sqrt (d b ^ 2 + wn ^ 2 * e b ^ 2) ≤ Real.sqrt (d a ^ 2 + wn ^ 2 * e a ^ 2) + δ * (b - a) := by
  apply le_of_forall_pos_le_add
  intro ε hε
  set S : ℝ → ℝ := fun t => d t ^ 2 + wn ^ 2 * e t ^ 2 with hS
  have hS0 : ∀ t, 0 ≤ S t := fun t => by positivity
  have hSd : ∀ t ∈ Set.Icc a b, HasDerivWithinAt S (-(4 * xi * wn * d t ^ 2) + 2 * d t * φ t) (Set.Icc a b) t := by
    intro t ht
    have := ((h2 t ht).pow 2).add (((h1 t ht).pow 2).const_mul (wn ^ 2))
    refine this.congr_deriv ?_
    simp only [Nat.cast_ofNat, Nat.add_one_sub_one, pow_one]
    ring
  set W : ℝ → ℝ := fun t => Real.sqrt (S t + ε ^ 2) with hW
  have hpos : ∀ t, 0 < S t + ε ^ 2 := fun t => by have := hS0 t; positivity
  have hWd : ∀ t ∈ Set.Icc a b, HasDerivWithinAt W ((-(4 * xi * wn * d t ^ 2) + 2 * d t * φ t) / (2 * W t)) (Set.Icc a b) t := by
    intro t ht
    exact ((hSd t ht).add_const (ε ^ 2)).sqrt (hpos t).ne'
  have hbound : ∀ t ∈ Set.Icc a b, (-(4 * xi * wn * d t ^ 2) + 2 * d t * φ t) / (2 * W t) ≤ δ := by
    intro t ht
    have hWp : 0 < W t := Real.sqrt_pos.2 (hpos t)
    have hdW : |d t| ≤ W t := by
      apply Real.abs_le_sqrt
      have : 0 ≤ wn ^ 2 * e t ^ 2 := by positivity
      have : 0 < ε ^ 2 := by positivity
      simp only [hS]
      linarith
    rw [div_le_iff₀ (by positivity)]
    have i1 : 0 ≤ 4 * xi * wn * d t ^ 2 := by positivity
    have i2 : d t * φ t ≤ W t * δ := by
      calc d t * φ t ≤ |d t * φ t| := le_abs_self _
        _ = |d t| * |φ t| := abs_mul _ _
        _ ≤ W t * δ := mul_le_mul hdW (hφ t ht) (abs_nonneg _) hWp.le
    linarith
  have hmv : W b - W a ≤ δ * (b - a) := by
    apply Convex.image_sub_le_mul_sub_of_deriv_le (convex_Icc a b) (f := W) (C := δ)
    · exact fun t ht => (hWd t ht).continuousWithinAt
    · intro t ht
      rw [interior_Icc] at ht
      exact ((hWd t (Set.Ioo_subset_Icc_self ht)).hasDerivAt (Icc_mem_nhds ht.1 ht.2)).differentiableAt.differentiableWithinAt
    · intro t ht
      rw [interior_Icc] at ht
      rw [((hWd t (Set.Ioo_subset_Icc_self ht)).hasDerivAt (Icc_mem_nhds ht.1 ht.2)).deriv]
      exact hbound t (Set.Ioo_subset_Icc_self ht)
    · exact ⟨le_rfl, hab⟩
    · exact ⟨hab, le_rfl⟩
    · exact hab
  have k1 : Real.sqrt (S b) ≤ W b := Real.sqrt_le_sqrt (by have := sq_nonneg ε; linarith)
  have k2 : W a ≤ Real.sqrt (S a) + ε := by
    rw [hW]
    refine Real.sqrt_le_iff.2 ⟨by positivity, ?_⟩
    have := Real.sq_sqrt (hS0 a)
    have := mul_nonneg (Real.sqrt_nonneg (S a)) hε.le
    nlinarith
  show Real.sqrt (S b) ≤ Real.sqrt (S a) + δ * (b - a) + ε
  linarith

theorem abs_le_energy (wn d e w : ℝ) (hw : 0 < wn) (h : Real.sqrt (d ^ 2 + wn ^ 2 * e ^ 2) ≤ w) : |d| ≤ w ∧ wn * |e| ≤ w := by
  constructor
  · refine le_trans (Real.abs_le_sqrt ?_) h
    have : 0 ≤ wn ^ 2 * e ^ 2 := by positivity
    linarith
  · refine le_trans ?_ h
    rw [← abs_of_pos hw, ← abs_mul]
    apply Real.abs_le_sqrt
    rw [mul_pow, abs_of_pos hw]
    have := sq_nonneg d
    linarith

variable {xi wn T M : ℝ} {f x y : ℝ → ℝ}

/-- The response at time `t` is at most `M t`, if the ground acceleration is at most `M`. -/
theorem responds_bound (h : Responds xi wn T f x y) (hx : 0 ≤ xi) (hw : 0 < wn) (hM : ∀ t, |f t| ≤ M) (t : ℝ) (ht : t ∈ Set.Icc 0 T) :
    |y t| ≤ M * t ∧ wn * |x t| ≤ M * t := by
  have hsub : Set.Icc 0 t ⊆ Set.Icc 0 T := Set.Icc_subset_Icc le_rfl ht.2
  have hM0 : 0 ≤ M := (abs_nonneg _).trans (hM 0)
  have := osc_energy (a := 0) (b := t) ht.1 hx hw hM0 x y (fun s => -f s)
    (fun s hs => (h.vel s (hsub hs)).mono hsub)
    (fun s hs => ((h.acc s (hsub hs)).mono hsub).congr_deriv (by ring)) (fun s _ => by rw [abs_neg]; exact hM s)
  rw [h.x0, h.y0] at this
  apply abs_le_energy wn _ _ _ hw
  simpa using this

/-- The interpolated ground acceleration is close to the one that was sampled. -/
theorem lin_close {L : ℝ} (h : Changes L f) (s Δ r : ℝ) (hΔ : 0 < Δ) (hr : r ∈ Set.Icc 0 Δ) :
    |f (s + r) - (f s + (f (s + Δ) - f s) * (r / Δ))| ≤ L * Δ := by
  have hL := changes_nonneg h
  have h0 : 0 ≤ r / Δ := div_nonneg hr.1 hΔ.le
  have h1 : r / Δ ≤ 1 := (div_le_one hΔ).2 hr.2
  have e : f (s + r) - (f s + (f (s + Δ) - f s) * (r / Δ)) =
      (1 - r / Δ) * (f (s + r) - f s) + r / Δ * (f (s + r) - f (s + Δ)) := by ring
  have a1 : |f (s + r) - f s| ≤ L * Δ := by
    refine (h _ _).trans (mul_le_mul_of_nonneg_left ?_ hL)
    rw [add_sub_cancel_left, abs_of_nonneg hr.1]; exact hr.2
  have a2 : |f (s + r) - f (s + Δ)| ≤ L * Δ := by
    refine (h _ _).trans (mul_le_mul_of_nonneg_left ?_ hL)
    rw [abs_le]; constructor <;> linarith [hr.1, hr.2]
  rw [e]
  calc _ ≤ |(1 - r / Δ) * (f (s + r) - f s)| + |r / Δ * (f (s + r) - f (s + Δ))| := abs_add_le _ _
    _ = (1 - r / Δ) * |f (s + r) - f s| + r / Δ * |f (s + r) - f (s + Δ)| := by
      rw [abs_mul, abs_mul, abs_of_nonneg h0, abs_of_nonneg (by linarith : 0 ≤ 1 - r / Δ)]
    _ ≤ (1 - r / Δ) * (L * Δ) + r / Δ * (L * Δ) :=
      add_le_add (mul_le_mul_of_nonneg_left a1 (by linarith)) (mul_le_mul_of_nonneg_left a2 h0)
    _ = L * Δ := by ring

theorem samples_val (f : ℝ → ℝ) (t0 dt : ℝ) (n j : Nat) (a : ℝ) (h : ((samples f t0 dt n).map Prod.snd)[j]? = some a) :
    j < n ∧ a = f (t0 + j * dt) := by
  rw [samples_vals, List.getElem?_map, Option.map_eq_some_iff] at h
  obtain ⟨k, hk, rfl⟩ := h
  rw [List.getElem?_eq_some_iff] at hk
  obtain ⟨hj, rfl⟩ := hk
  simp only [List.length_range] at hj
  simp [hj]

/-- At the samples, the response to the samples is close to the response to the function. -/
theorem sampled_energy {L : ℝ} (hc : Changes L f) (t0 Δ : ℝ) (n : Nat) (hΔ : 0 < Δ) (hx : 0 ≤ xi) (hw : 0 < wn)
    (h : Responds xi wn ((n - 1 : ℕ) * Δ) (fun t => f (t0 + t)) x y) (u v : ℝ → ℝ)
    (hd : Driven xi wn Δ ((samples f t0 Δ n).map Prod.snd) u v) (j : Nat) (hj : j < n) :
    Real.sqrt ((v (j * Δ) - y (j * Δ)) ^ 2 + wn ^ 2 * (u (j * Δ) - x (j * Δ)) ^ 2) ≤ L * Δ * (j * Δ) := by
  have hL := changes_nonneg hc
  induction j with
  | zero => simp [hd.1, hd.2.1, h.x0, h.y0]
  | succ j ih =>
    have ih := ih (by omega)
    have g0 : ((samples f t0 Δ n).map Prod.snd)[j]? = some (f (t0 + j * Δ)) := by
      rw [samples_vals, List.getElem?_map, List.getElem?_range (by omega)]; rfl
    have g1 : ((samples f t0 Δ n).map Prod.snd)[j + 1]? = some (f (t0 + (j + 1 : ℕ) * Δ)) := by
      rw [samples_vals, List.getElem?_map, List.getElem?_range (by omega)]; rfl
    have ho := hd.2.2 j _ _ g0 g1
    have hjT : ((j : ℝ) + 1) * Δ ≤ ((n - 1 : ℕ) : ℝ) * Δ := by
      apply mul_le_mul_of_nonneg_right _ hΔ.le
      have : j + 1 ≤ n - 1 := by omega
      exact_mod_cast this
    have hj0 : 0 ≤ (j : ℝ) * Δ := by positivity
    have hsub : ∀ r ∈ Set.Icc 0 Δ, (j : ℝ) * Δ + r ∈ Set.Icc 0 (((n - 1 : ℕ) : ℝ) * Δ) := by
      intro r hr
      constructor
      · linarith [hr.1]
      · have := hr.2
        linarith
    have hmap : Set.MapsTo (fun r => (j : ℝ) * Δ + r) (Set.Icc 0 Δ) (Set.Icc 0 (((n - 1 : ℕ) : ℝ) * Δ)) := hsub
    have hshift : ∀ r, HasDerivWithinAt (fun r => (j : ℝ) * Δ + r) 1 (Set.Icc 0 Δ) r := fun r =>
      ((hasDerivAt_id r).const_add _).hasDerivWithinAt
    have dx : ∀ r ∈ Set.Icc 0 Δ, HasDerivWithinAt (fun r => x (j * Δ + r)) (y (j * Δ + r)) (Set.Icc 0 Δ) r := by
      intro r hr
      have := (h.vel _ (hsub r hr)).comp r (hshift r) hmap
      simpa [Function.comp_def] using this
    have dy : ∀ r ∈ Set.Icc 0 Δ, HasDerivWithinAt (fun r => y (j * Δ + r))
        (-(2 * xi * wn * y (j * Δ + r)) - wn ^ 2 * x (j * Δ + r) - f (t0 + (j * Δ + r))) (Set.Icc 0 Δ) r := by
      intro r hr
      have := (h.acc _ (hsub r hr)).comp r (hshift r) hmap
      simpa [Function.comp_def] using this
    have key := osc_energy (a := 0) (b := Δ) (xi := xi) (wn := wn) (δ := L * Δ) hΔ.le hx hw (by positivity)
      (fun r => u (j * Δ + r) - x (j * Δ + r)) (fun r => v (j * Δ + r) - y (j * Δ + r))
      (fun r => f (t0 + j * Δ + r) - (f (t0 + j * Δ) + (f (t0 + j * Δ + Δ) - f (t0 + j * Δ)) * (r / Δ)))
      (fun r hr => (ho r hr).1.sub (dx r hr))
      (fun r hr => ((ho r hr).2.sub (dy r hr)).congr_deriv (by
        have e1 : t0 + ((j + 1 : ℕ) : ℝ) * Δ = t0 + j * Δ + Δ := by push_cast; ring
        have e2 : t0 + (j * Δ + r) = t0 + j * Δ + r := by ring
        rw [e1, e2]
        ring))
      (fun r hr => lin_close hc _ _ _ hΔ hr)
    have e3 : ((j + 1 : ℕ) : ℝ) * Δ = j * Δ + Δ := by push_cast; ring
    simp only [add_zero, sub_zero] at key
    rw [e3]
    calc _ ≤ _ := key
      _ ≤ L * Δ * (j * Δ) + L * Δ * Δ := by linarith
      _ = _ := by ring

/-- C186, histories: displacements and velocities computed from samples of `f` are those of the oscillator driven by `f` up to `L Δ t/ω` and `L Δ t` at
time `t`; `Δ` is the time step, `L` the largest rate of change of `f`. -/
theorem C186_history {L : ℝ} (hc : Changes L f) (t0 Δ : ℝ) (n : Nat) (hΔ : 0 < Δ) (hx : 0 ≤ xi) (hx1 : xi < 1) (hw : 0 < wn)
    (h : Responds xi wn ((n - 1 : ℕ) * Δ) (fun t => f (t0 + t)) x y) :
    ∀ j, j < n → ∃ u v : ℝ, (stepFrom (oscCoefs xi wn Δ) (0, 0) ((samples f t0 Δ n).map Prod.snd))[j]? = some (u, v) ∧
      |u - x (j * Δ)| ≤ L * Δ * (j * Δ) / wn ∧ |v - y (j * Δ)| ≤ L * Δ * (j * Δ) := by
  obtain ⟨u, v, hd⟩ := C28_exists xi wn Δ hx hx1 hw hΔ ((samples f t0 Δ n).map Prod.snd)
  intro j hj
  have he := C28_exact xi wn Δ hx hx1 hw hΔ _ u v hd
  have hlen : ((samples f t0 Δ n).map Prod.snd).length = n := by simp [samples]
  refine ⟨u (j * Δ), v (j * Δ), ?_, ?_⟩
  · rw [he, hlen, List.getElem?_map, List.getElem?_range hj]; rfl
  · obtain ⟨k1, k2⟩ := abs_le_energy wn _ _ _ hw (sampled_energy hc t0 Δ n hΔ hx hw h u v hd j hj)
    refine ⟨?_, k1⟩
    rw [le_div_iff₀ hw, mul_comm]
    exact k2

/-- Largest absolute values over samples that are close to those of a function. -/
theorem peak_close (n : Nat) (hn : 0 < n) (Δ : ℝ) (hΔ : 0 < Δ) (w : Nat → ℝ) (q : ℝ → ℝ) (E C : ℝ) (hC : 0 ≤ C)
    (h1 : ∀ j, j < n → |w j - q (j * Δ)| ≤ E)
    (h2 : ∀ s ∈ Set.Icc 0 ((n - 1 : ℕ) * Δ), ∀ t ∈ Set.Icc 0 ((n - 1 : ℕ) * Δ), |q s - q t| ≤ C * |s - t|) :
    (∀ t ∈ Set.Icc 0 ((n - 1 : ℕ) * Δ), |q t| ≤ maxAbs ((List.range n).map w) + E + C * Δ) ∧
    ∃ t ∈ Set.Icc 0 ((n - 1 : ℕ) * Δ), maxAbs ((List.range n).map w) ≤ |q t| + E := by
  have hmem : ∀ j, j < n → (j : ℝ) * Δ ∈ Set.Icc 0 (((n - 1 : ℕ) : ℝ) * Δ) := by
    intro j hj
    refine ⟨by positivity, mul_le_mul_of_nonneg_right ?_ hΔ.le⟩
    have : j ≤ n - 1 := by omega
    exact_mod_cast this
  constructor
  · intro t ht
    set j := ⌊t / Δ⌋₊ with hj
    have htd : 0 ≤ t / Δ := div_nonneg ht.1 hΔ.le
    have f1 : (j : ℝ) * Δ ≤ t := by
      have := Nat.floor_le htd
      rwa [le_div_iff₀ hΔ] at this
    have f2 : t ≤ j * Δ + Δ := by
      have := (Nat.lt_floor_add_one (t / Δ)).le
      rw [div_le_iff₀ hΔ] at this
      linarith
    have hjn : j < n := by
      have : (j : ℝ) ≤ ((n - 1 : ℕ) : ℝ) := by
        have := f1.trans ht.2
        exact le_of_mul_le_mul_right this hΔ
      have : j ≤ n - 1 := by exact_mod_cast this
      omega
    have k1 := h2 t ht _ (hmem j hjn)
    rw [abs_of_nonneg (by linarith : 0 ≤ t - j * Δ)] at k1
    have k2 : C * (t - j * Δ) ≤ C * Δ := mul_le_mul_of_nonneg_left (by linarith) hC
    have k3 := h1 j hjn
    have k4 : |w j| ≤ maxAbs ((List.range n).map w) := le_maxAbs (List.mem_map.2 ⟨j, List.mem_range.2 hjn, rfl⟩)
    have e : q t = (q t - q (j * Δ)) + (q (j * Δ) - w j) + w j := by ring
    rw [e]
    refine (abs_add_le _ _).trans ?_
    have := abs_add_le (q t - q (j * Δ)) (q (j * Δ) - w j)
    rw [abs_sub_comm (q (j * Δ)) (w j)] at this
    linarith
  · obtain ⟨a, ha, hae⟩ := maxAbs_mem (l := (List.range n).map w) (by simp; omega)
    obtain ⟨j, hj, rfl⟩ := List.mem_map.1 ha
    have hjn := List.mem_range.1 hj
    refine ⟨_, hmem j hjn, ?_⟩
    rw [← hae]
    have e : w j = (w j - q (j * Δ)) + q (j * Δ) := by ring
    have := abs_add_le (w j - q (j * Δ)) (q (j * Δ))
    rw [← e] at this
    linarith [h1 j hjn]

theorem responds_lip (h : Responds xi wn T f x y) (hx : 0 ≤ xi) (hw : 0 < wn) (hM : ∀ t, |f t| ≤ M) :
    (∀ s ∈ Set.Icc 0 T, ∀ t ∈ Set.Icc 0 T, |x s - x t| ≤ M * T * |s - t|) ∧
    (∀ s ∈ Set.Icc 0 T, ∀ t ∈ Set.Icc 0 T, |y s - y t| ≤ ((2 * xi + 1) * wn * M * T + M) * |s - t|) := by
  have hM0 : 0 ≤ M := (abs_nonneg _).trans (hM 0)
  have hb : ∀ t ∈ Set.Icc 0 T, |y t| ≤ M * T ∧ wn * |x t| ≤ M * T := fun t ht => by
    obtain ⟨a, b⟩ := responds_bound h hx hw hM t ht
    have : M * t ≤ M * T := mul_le_mul_of_nonneg_left ht.2 hM0
    exact ⟨a.trans this, b.trans this⟩
  constructor
  · intro s hs t ht
    exact (convex_Icc 0 T).norm_image_sub_le_of_norm_hasDerivWithin_le (f := x) (f' := y)
      (fun r hr => h.vel r hr) (fun r hr => by rw [Real.norm_eq_abs]; exact (hb r hr).1) ht hs
  · intro s hs t ht
    refine (convex_Icc 0 T).norm_image_sub_le_of_norm_hasDerivWithin_le (f := y)
      (f' := fun t => -(2 * xi * wn * y t) - wn ^ 2 * x t - f t) (fun r hr => h.acc r hr) (fun r hr => ?_) ht hs
    obtain ⟨a, b⟩ := hb r hr
    rw [Real.norm_eq_abs]
    calc |-(2 * xi * wn * y r) - wn ^ 2 * x r - f r| ≤ |-(2 * xi * wn * y r) - wn ^ 2 * x r| + |f r| := abs_sub _ _
      _ ≤ |-(2 * xi * wn * y r)| + |wn ^ 2 * x r| + |f r| := by linarith [abs_sub (-(2 * xi * wn * y r)) (wn ^ 2 * x r)]
      _ = 2 * xi * wn * |y r| + wn * (wn * |x r|) + |f r| := by
        rw [abs_neg, abs_mul (2 * xi * wn), abs_mul (wn ^ 2), abs_of_nonneg (by positivity : (0 : ℝ) ≤ 2 * xi * wn),
          abs_of_nonneg (by positivity : (0 : ℝ) ≤ wn ^ 2)]
        ring
      _ ≤ 2 * xi * wn * (M * T) + wn * (M * T) + M := by
        have i1 : 2 * xi * wn * |y r| ≤ 2 * xi * wn * (M * T) := mul_le_mul_of_nonneg_left a (by positivity)
        have i2 : wn * (wn * |x r|) ≤ wn * (M * T) := mul_le_mul_of_nonneg_left b hw.le
        linarith [hM r]
      _ = _ := by ring

/-- C186, spectral values: SD, SV and SA of one oscillator, from `n` samples of `f` at the step `Δ`, are the largest relative displacement, relative
velocity and absolute acceleration of the oscillator driven by `f` during the time `T = (n-1) Δ` of the record, up to multiples of `Δ`. -/
theorem C186_oscillator {L : ℝ} (hc : Changes L f) (hM : ∀ t, |f t| ≤ M) (t0 Δ : ℝ) (n : Nat) (hn : 0 < n) (hΔ : 0 < Δ) (hx : 0 ≤ xi)
    (hx1 : xi < 1) (hw : 0 < wn) (hT : T = (n - 1 : ℕ) * Δ) (h : Responds xi wn T (fun t => f (t0 + t)) x y) :
    let row := timeStepping (oscCoefs xi wn Δ) wn xi ((samples f t0 Δ n).map Prod.snd)
    let K := (2 * xi + 1) * wn * M * T + M
    ((∀ t ∈ Set.Icc 0 T, |x t| ≤ row.sd + Δ * (L * T / wn + M * T)) ∧ ∃ t ∈ Set.Icc 0 T, row.sd ≤ |x t| + Δ * (L * T / wn)) ∧
    ((∀ t ∈ Set.Icc 0 T, |y t| ≤ row.sv + Δ * (L * T + K)) ∧ ∃ t ∈ Set.Icc 0 T, row.sv ≤ |y t| + Δ * (L * T)) ∧
    ((∀ t ∈ Set.Icc 0 T, |-(2 * xi * wn * y t) - wn ^ 2 * x t| ≤
        row.sa + Δ * ((2 * xi + 1) * wn * L * T + (2 * xi * wn * K + wn ^ 2 * (M * T)))) ∧
      ∃ t ∈ Set.Icc 0 T, row.sa ≤ |-(2 * xi * wn * y t) - wn ^ 2 * x t| + Δ * ((2 * xi + 1) * wn * L * T)) ∧
    row.psv = wn * row.sd ∧ row.psa = wn ^ 2 * row.sd := by
  intro row K
  subst hT
  set T := ((n - 1 : ℕ) : ℝ) * Δ with hT
  have hL := changes_nonneg hc
  have hM0 : 0 ≤ M := (abs_nonneg _).trans (hM 0)
  have hT0 : 0 ≤ T := by positivity
  obtain ⟨u, v, hd⟩ := C28_exists xi wn Δ hx hx1 hw hΔ ((samples f t0 Δ n).map Prod.snd)
  obtain ⟨r1, r2, r3, r4, r5⟩ := C28_spectra xi Δ hx hx1 hΔ wn hw _ u v hd
  have hlen : ((samples f t0 Δ n).map Prod.snd).length = n := by simp [samples]
  rw [hlen] at r1 r2 r3
  have hjT : ∀ j : Nat, j < n → (j : ℝ) * Δ ≤ T := fun j hj => by
    apply mul_le_mul_of_nonneg_right _ hΔ.le
    have : j ≤ n - 1 := by omega
    exact_mod_cast this
  have hes : ∀ j : Nat, j < n → |u (j * Δ) - x (j * Δ)| ≤ Δ * (L * T / wn) ∧ |v (j * Δ) - y (j * Δ)| ≤ Δ * (L * T) := by
    intro j hj
    obtain ⟨k1, k2⟩ := abs_le_energy wn _ _ _ hw (sampled_energy hc t0 Δ n hΔ hx hw h u v hd j hj)
    have hle : L * Δ * (j * Δ) ≤ Δ * (L * T) := by
      have := mul_le_mul_of_nonneg_left (hjT j hj) (by positivity : 0 ≤ L * Δ)
      linarith
    refine ⟨?_, k1.trans hle⟩
    rw [← mul_div_assoc, le_div_iff₀ hw, mul_comm]
    exact k2.trans hle
  obtain ⟨l1, l2⟩ := responds_lip h hx hw (fun t => hM (t0 + t))
  have hK : 0 ≤ K := by simp only [K]; positivity
  refine ⟨?_, ?_, ?_, r4, r5⟩
  · have := peak_close n hn Δ hΔ (fun j : Nat => u (j * Δ)) x (Δ * (L * T / wn)) (M * T) (by positivity) (fun j hj => (hes j hj).1) l1
    rw [← r1] at this
    refine ⟨fun t ht => (this.1 t ht).trans (le_of_eq ?_), this.2⟩
    simp only [row]; ring
  · have := peak_close n hn Δ hΔ (fun j : Nat => v (j * Δ)) y (Δ * (L * T)) K hK (fun j hj => (hes j hj).2) l2
    rw [← r2] at this
    refine ⟨fun t ht => (this.1 t ht).trans (le_of_eq ?_), this.2⟩
    simp only [row]; ring
  · have := peak_close n hn Δ hΔ (fun j : Nat => -(2 * xi * wn * v (j * Δ)) - wn ^ 2 * u (j * Δ))
      (fun t => -(2 * xi * wn * y t) - wn ^ 2 * x t) (Δ * ((2 * xi + 1) * wn * L * T)) (2 * xi * wn * K + wn ^ 2 * (M * T)) (by positivity)
      (fun j hj => by
        obtain ⟨a, b⟩ := hes j hj
        have e : -(2 * xi * wn * v (j * Δ)) - wn ^ 2 * u (j * Δ) - (-(2 * xi * wn * y (j * Δ)) - wn ^ 2 * x (j * Δ)) =
            -(2 * xi * wn * (v (j * Δ) - y (j * Δ))) - wn ^ 2 * (u (j * Δ) - x (j * Δ)) := by ring
        rw [e]
        refine (abs_sub _ _).trans ?_
        rw [abs_neg, abs_mul (2 * xi * wn), abs_mul (wn ^ 2), abs_of_nonneg (by positivity : (0 : ℝ) ≤ 2 * xi * wn),
          abs_of_nonneg (by positivity : (0 : ℝ) ≤ wn ^ 2)]
        have i1 := mul_le_mul_of_nonneg_left b (by positivity : (0 : ℝ) ≤ 2 * xi * wn)
        have i2 := mul_le_mul_of_nonneg_left a (by positivity : (0 : ℝ) ≤ wn ^ 2)
        have e2 : wn ^ 2 * (Δ * (L * T / wn)) = Δ * (wn * L * T) := by field_simp
        rw [e2] at i2
        calc _ ≤ 2 * xi * wn * (Δ * (L * T)) + Δ * (wn * L * T) := add_le_add i1 i2
          _ = _ := by ring)
      (fun s hs t ht => by
        have e : -(2 * xi * wn * y s) - wn ^ 2 * x s - (-(2 * xi * wn * y t) - wn ^ 2 * x t) =
            -(2 * xi * wn * (y s - y t)) - wn ^ 2 * (x s - x t) := by ring
        show |-(2 * xi * wn * y s) - wn ^ 2 * x s - (-(2 * xi * wn * y t) - wn ^ 2 * x t)| ≤ _
        rw [e]
        refine (abs_sub _ _).trans ?_
        rw [abs_neg, abs_mul (2 * xi * wn), abs_mul (wn ^ 2), abs_of_nonneg (by positivity : (0 : ℝ) ≤ 2 * xi * wn),
          abs_of_nonneg (by positivity : (0 : ℝ) ≤ wn ^ 2)]
        have i1 := mul_le_mul_of_nonneg_left (l2 s hs t ht) (by positivity : (0 : ℝ) ≤ 2 * xi * wn)
        have i2 := mul_le_mul_of_nonneg_left (l1 s hs t ht) (by positivity : (0 : ℝ) ≤ wn ^ 2)
        calc _ ≤ 2 * xi * wn * (((2 * xi + 1) * wn * M * T + M) * |s - t|) + wn ^ 2 * (M * T * |s - t|) := add_le_add i1 i2
          _ = _ := by simp only [K]; ring)
    rw [← r3] at this
    refine ⟨fun t ht => (this.1 t ht).trans (le_of_eq ?_), this.2⟩
    simp only [row]; ring

/-- C186: the oscillator's response to a continuous ground acceleration exists for all times, so `C186_oscillator` speaks about all of them. -/
theorem C186_exists (xi wn T : ℝ) (hx : 0 ≤ xi) (hx1 : xi < 1) (hw : 0 < wn) (hf : Continuous f) : ∃ x y, Responds xi wn T f x y := by
  have hx2 : xi ^ 2 < 1 := by nlinarith
  set w := wdOf xi wn with hwd
  have hw0 : w ≠ 0 := wd_ne hx2 hw
  have hw2 : w ^ 2 = wn ^ 2 * (1 - xi ^ 2) := by
    rw [hwd]; unfold wdOf
    rw [mul_pow, Real.sq_sqrt (by linarith)]
  set b := xi * wn with hb
  let P : ℝ → ℝ := fun t => ∫ s in (0 : ℝ)..t, Real.exp (b * s) * Real.cos (w * s) * f s
  let Q : ℝ → ℝ := fun t => ∫ s in (0 : ℝ)..t, Real.exp (b * s) * Real.sin (w * s) * f s
  have hP : ∀ t, HasDerivAt P (Real.exp (b * t) * Real.cos (w * t) * f t) t := fun t =>
    (Continuous.integral_hasStrictDerivAt (by fun_prop) 0 t).hasDerivAt
  have hQ : ∀ t, HasDerivAt Q (Real.exp (b * t) * Real.sin (w * t) * f t) t := fun t =>
    (Continuous.integral_hasStrictDerivAt (by fun_prop) 0 t).hasDerivAt
  let x : ℝ → ℝ := fun t => -(1 / w) * (Real.exp (-b * t) * (Real.sin (w * t) * P t - Real.cos (w * t) * Q t))
  let y : ℝ → ℝ := fun t => b / w * (Real.exp (-b * t) * (Real.sin (w * t) * P t - Real.cos (w * t) * Q t)) -
    Real.exp (-b * t) * (Real.cos (w * t) * P t + Real.sin (w * t) * Q t)
  have hl : ∀ c t : ℝ, HasDerivAt (fun t : ℝ => c * t) c t := fun c t => by
    simpa using (hasDerivAt_id t).const_mul c
  have hee : ∀ t, Real.exp (-b * t) * Real.exp (b * t) = 1 := fun t => by rw [← Real.exp_add]; simp
  have hcs : ∀ t, Real.sin (w * t) ^ 2 + Real.cos (w * t) ^ 2 = 1 := fun t => Real.sin_sq_add_cos_sq _
  have d1 : ∀ t, HasDerivAt (fun t => Real.exp (-b * t) * (Real.sin (w * t) * P t - Real.cos (w * t) * Q t))
      (-b * (Real.exp (-b * t) * (Real.sin (w * t) * P t - Real.cos (w * t) * Q t)) +
        w * (Real.exp (-b * t) * (Real.cos (w * t) * P t + Real.sin (w * t) * Q t))) t := by
    intro t
    have := (hl (-b) t).exp.mul (((hl w t).sin.mul (hP t)).sub ((hl w t).cos.mul (hQ t)))
    refine this.congr_deriv ?_
    simp only [Pi.mul_apply, Pi.sub_apply]
    ring
  have d2 : ∀ t, HasDerivAt (fun t => Real.exp (-b * t) * (Real.cos (w * t) * P t + Real.sin (w * t) * Q t))
      (-b * (Real.exp (-b * t) * (Real.cos (w * t) * P t + Real.sin (w * t) * Q t)) -
        w * (Real.exp (-b * t) * (Real.sin (w * t) * P t - Real.cos (w * t) * Q t)) + f t) t := by
    intro t
    have := (hl (-b) t).exp.mul (((hl w t).cos.mul (hP t)).add ((hl w t).sin.mul (hQ t)))
    refine this.congr_deriv ?_
    simp only [Pi.mul_apply, Pi.add_apply]
    have e : Real.exp (-b * t) * (Real.cos (w * t) * (Real.exp (b * t) * Real.cos (w * t) * f t) +
        Real.sin (w * t) * (Real.exp (b * t) * Real.sin (w * t) * f t)) = f t := by
      calc _ = Real.exp (-b * t) * Real.exp (b * t) * (Real.sin (w * t) ^ 2 + Real.cos (w * t) ^ 2) * f t := by ring
        _ = f t := by rw [hee, hcs]; ring
    linear_combination e
  refine ⟨x, y, ⟨by simp [x, P, Q], by simp [y, P, Q], fun t _ => ?_, fun t _ => ?_⟩⟩
  · refine (((d1 t).const_mul (-(1 / w))).congr_deriv ?_).hasDerivWithinAt
    simp only [y]
    field_simp
    ring
  · refine ((((d1 t).const_mul (b / w)).sub (d2 t)).congr_deriv ?_).hasDerivWithinAt
    simp only [x, y]
    have e : wn ^ 2 = w ^ 2 + b ^ 2 := by rw [hw2, hb]; ring
    rw [show 2 * xi * wn = 2 * b by rw [hb]; ring, e]
    field_simp
    ring

namespace Spec

/-- `v` is the largest absolute value of `q` during `[0, T]`, exceeded by at most `hi` and too large by at most `lo`. -/
def NearPeak (T : ℝ) (q : ℝ → ℝ) (v lo hi : ℝ) : Prop :=
  (∀ t ∈ Set.Icc 0 T, |q t| ≤ v + hi) ∧ ∃ t ∈ Set.Icc 0 T, v ≤ |q t| + lo

end Spec

open Spec (NearPeak)

theorem subsample_samples (f : ℝ → ℝ) (t0 dt : ℝ) (n k : Nat) (hk : 0 < k) :
    subsample k (samples f t0 dt n) = samples f t0 (k * dt) ((n + (k - 1)) / k) := by
  obtain ⟨h1, h2⟩ := subsample_get k hk (samples f t0 dt n)
  have hl : (samples f t0 dt n).length = n := by simp [samples]
  rw [hl] at h1 h2
  apply List.ext_getElem?
  intro i
  by_cases hi : i < (n + (k - 1)) / k
  · rw [h2 i hi]
    have : i * k < n := by
      have h1 : (i + 1) * k ≤ n + (k - 1) := (Nat.le_div_iff_mul_le hk).mp hi
      have : (i + 1) * k = i * k + k := by ring
      omega
    unfold samples
    rw [List.getElem?_map, List.getElem?_map, List.getElem?_range this, List.getElem?_range hi]
    simp only [Option.map_some, Nat.cast_mul, mul_assoc]
  · rw [List.getElem?_eq_none (by omega), List.getElem?_eq_none (by simp [samples]; omega)]

theorem samples_spacing (f : ℝ → ℝ) (t0 dt : ℝ) (n : Nat) (hn : 2 ≤ n) : spacingOk ((samples f t0 dt n).map Prod.fst) = .ok () := by
  have : diff ((samples f t0 dt n).map Prod.fst) = List.replicate (n - 1) dt := by
    rw [samples_times]
    obtain ⟨m, rfl⟩ : ∃ m, n = m + 1 := ⟨n - 1, by omega⟩
    rw [diff_range, List.eq_replicate_iff]
    refine ⟨by simp, fun x hx => ?_⟩
    obtain ⟨j, _, rfl⟩ := List.mem_map.1 hx
    push_cast
    ring
  obtain ⟨m, rfl⟩ : ∃ m, n = m + 2 := ⟨n - 2, by omega⟩
  unfold spacingOk
  rw [this, show m + 2 - 1 = m + 1 by omega, List.replicate_succ]
  simp only
  rw [if_pos]
  intro x hx
  rw [← List.replicate_succ] at hx
  rw [List.eq_of_mem_replicate hx]
  norm_num

/-- C186: the record that consists of the values of `f` at the times `t0 + i dt` is accepted for every sampling interval `k` that leaves two samples
or more.  The row of the period `Tp` has, as SD, SV and SA, the largest relative displacement, relative velocity and absolute acceleration of the
oscillator of this period with the damping `xi`, at rest at the time `t0` and then shaken by `f` itself during the time `T` that the
samples in use span, up to multiples of the step `k dt` between these samples; PSV and PSA are the ones of SD. -/
theorem C186_spectra {L : ℝ} (hc : Changes L f) (hM : ∀ t, |f t| ≤ M) (t0 dt : ℝ) (n k : Nat) (hk : 0 < k) (hdt : 0 < dt)
    (hm : 2 ≤ (n + (k - 1)) / k) (hx : 0 ≤ xi) (hx1 : xi < 1) (Tn : List ℝ) :
    ∃ rows, responseSpectraR xi Tn k (samples f t0 dt n) = .ok rows ∧ rows.length = Tn.length ∧
    ∀ (i : Nat) Tp, Tn[i]? = some Tp → 0 < Tp → ∃ row, rows[i]? = some row ∧
      let ω := 2 * Real.pi / Tp
      let Δ := k * dt
      let T := ((n + (k - 1)) / k - 1 : ℕ) * Δ
      let K := (2 * xi + 1) * ω * M * T + M
      (∀ x y, Responds xi ω T (fun t => f (t0 + t)) x y →
        NearPeak T x row.sd (Δ * (L * T / ω)) (Δ * (L * T / ω + M * T)) ∧
        NearPeak T y row.sv (Δ * (L * T)) (Δ * (L * T + K)) ∧
        NearPeak T (fun t => -(2 * xi * ω * y t) - ω ^ 2 * x t) row.sa (Δ * ((2 * xi + 1) * ω * L * T))
          (Δ * ((2 * xi + 1) * ω * L * T + (2 * xi * ω * K + ω ^ 2 * (M * T))))) ∧
      row.psv = ω * row.sd ∧ row.psa = ω ^ 2 * row.sd := by
  have hk' : (0 : ℝ) < k := by exact_mod_cast hk
  have hr : responseSpectraR xi Tn k (samples f t0 dt n) = .ok ((Tn.map fun T => 2 * Real.pi / T).map fun wn =>
      timeStepping (oscCoefs xi wn (k * dt)) wn xi ((samples f t0 (k * dt) ((n + (k - 1)) / k)).map Prod.snd)) := by
    unfold responseSpectraR responseSpectra
    rw [if_neg (by omega), subsample_samples f t0 dt n k hk]
    simp only [samples_spacing f t0 _ _ hm, samples_dt f t0 _ _ hm, bind, Except.bind, pure, Except.pure]
  refine ⟨_, hr, by simp, fun i Tp hi hTp => ?_⟩
  refine ⟨_, by rw [List.getElem?_map, List.getElem?_map, hi]; rfl, ?_⟩
  intro ω Δ T K
  have hω : 0 < ω := by positivity
  obtain ⟨x, y, h⟩ := C186_exists xi ω T hx hx1 hω (f := fun t => f (t0 + t)) ((changes_cont hc).comp (by fun_prop))
  have key := fun x y h => C186_oscillator (x := x) (y := y) hc hM t0 Δ ((n + (k - 1)) / k) (by omega) (by positivity) hx hx1 hω rfl h
  refine ⟨fun x y h => ?_, (key x y h).2.2.2⟩
  obtain ⟨a, b, c, _⟩ := key x y h
  exact ⟨a, b, c⟩

theorem nearPeak_close {T v lo hi : ℝ} {q : ℝ → ℝ} (h : NearPeak T q v lo hi) :
    |v - sSup ((fun t => |q t|) '' Set.Icc 0 T)| ≤ max lo hi := by
  obtain ⟨h1, t, ht, h2⟩ := h
  have hb : BddAbove ((fun t => |q t|) '' Set.Icc 0 T) := ⟨v + hi, by rintro _ ⟨t, ht, rfl⟩; exact h1 t ht⟩
  have k1 : |q t| ≤ sSup ((fun t => |q t|) '' Set.Icc 0 T) := le_csSup hb ⟨t, ht, rfl⟩
  have k2 : sSup ((fun t => |q t|) '' Set.Icc 0 T) ≤ v + hi := csSup_le ⟨_, t, ht, rfl⟩ (by rintro _ ⟨t, ht, rfl⟩; exact h1 t ht)
  rw [abs_le]
  constructor
  · linarith [le_max_right lo hi]
  · linarith [le_max_left lo hi]

/-- C186: refining the sampling of a motion of the duration `D`, the spectral values converge to the largest relative displacement, relative velocity
and absolute acceleration of the oscillator that is shaken by the motion itself. -/
theorem C186_converges {L : ℝ} (hc : Changes L f) (hM : ∀ t, |f t| ≤ M) (t0 D Tp : ℝ) (hD : 0 < D) (hTp : 0 < Tp)
    (hx : 0 ≤ xi) (hx1 : xi < 1) (h : Responds xi (2 * Real.pi / Tp) D (fun t => f (t0 + t)) x y) :
    ∃ rows : Nat → SpecRow ℝ, (∀ n, responseSpectraR xi [Tp] 1 (samples f t0 (D / ((n + 1 : ℕ) : ℝ)) (n + 2)) = .ok [rows n]) ∧
    Filter.Tendsto (fun n => (rows n).sd) Filter.atTop (nhds (sSup ((fun t => |x t|) '' Set.Icc 0 D))) ∧
    Filter.Tendsto (fun n => (rows n).sv) Filter.atTop (nhds (sSup ((fun t => |y t|) '' Set.Icc 0 D))) ∧
    Filter.Tendsto (fun n => (rows n).sa) Filter.atTop (nhds (sSup ((fun t =>
      |-(2 * xi * (2 * Real.pi / Tp) * y t) - (2 * Real.pi / Tp) ^ 2 * x t|) '' Set.Icc 0 D))) := by
  have hL := changes_nonneg hc
  have hM0 : 0 ≤ M := (abs_nonneg _).trans (hM 0)
  set ω := 2 * Real.pi / Tp with hω'
  have hω : 0 < ω := by positivity
  have key : ∀ n : Nat, ∃ row, responseSpectraR xi [Tp] 1 (samples f t0 (D / ((n + 1 : ℕ) : ℝ)) (n + 2)) = .ok [row] ∧
      |row.sd - sSup ((fun t => |x t|) '' Set.Icc 0 D)| ≤ D / ((n + 1 : ℕ) : ℝ) * (L * D / ω + M * D) ∧
      |row.sv - sSup ((fun t => |y t|) '' Set.Icc 0 D)| ≤ D / ((n + 1 : ℕ) : ℝ) * (L * D + ((2 * xi + 1) * ω * M * D + M)) ∧
      |row.sa - sSup ((fun t => |-(2 * xi * ω * y t) - ω ^ 2 * x t|) '' Set.Icc 0 D)| ≤
        D / ((n + 1 : ℕ) : ℝ) * ((2 * xi + 1) * ω * L * D + (2 * xi * ω * ((2 * xi + 1) * ω * M * D + M) + ω ^ 2 * (M * D))) := by
    intro n
    have hp : (0 : ℝ) < ((n + 1 : ℕ) : ℝ) := by positivity
    have hd : 0 < D / ((n + 1 : ℕ) : ℝ) := by positivity
    obtain ⟨rows, hr, hl, hrow⟩ := C186_spectra hc hM t0 (D / ((n + 1 : ℕ) : ℝ)) (n + 2) 1 (by omega) hd (by simp) hx hx1 [Tp]
    obtain ⟨row, hi, hall, _⟩ := hrow 0 Tp rfl hTp
    have e : rows = [row] := by
      obtain ⟨a, rfl⟩ := List.length_eq_one_iff.1 hl
      simpa using hi
    have eT : (((n + 2 + (1 - 1)) / 1 - 1 : ℕ) : ℝ) * (((1 : ℕ) : ℝ) * (D / ((n + 1 : ℕ) : ℝ))) = D := by
      rw [show (n + 2 + (1 - 1)) / 1 - 1 = n + 1 by simp]
      field_simp
      simp
    simp only [eT] at hall
    obtain ⟨a, b, c⟩ := hall x y h
    simp only [← hω'] at a b c
    refine ⟨row, e ▸ hr, ?_, ?_, ?_⟩
    · refine (nearPeak_close a).trans (max_le ?_ (le_of_eq (by push_cast; ring)))
      rw [Nat.cast_one, one_mul]
      exact mul_le_mul_of_nonneg_left (by have : 0 ≤ M * D := by positivity
                                          linarith) hd.le
    · refine (nearPeak_close b).trans (max_le ?_ (le_of_eq (by push_cast; ring)))
      rw [Nat.cast_one, one_mul]
      exact mul_le_mul_of_nonneg_left (by have : 0 ≤ (2 * xi + 1) * ω * M * D + M := by positivity
                                          linarith) hd.le
    · refine (nearPeak_close c).trans (max_le ?_ (le_of_eq (by push_cast; ring)))
      rw [Nat.cast_one, one_mul]
      refine mul_le_mul_of_nonneg_left ?_ hd.le
      have : 0 ≤ 2 * xi * ω * ((2 * xi + 1) * ω * M * D + M) + ω ^ 2 * (M * D) := by positivity
      linarith
  choose rows h1 h2 h3 h4 using key
  have hlim : ∀ C : ℝ, Filter.Tendsto (fun n : Nat => D / ((n + 1 : ℕ) : ℝ) * C) Filter.atTop (nhds 0) := by
    intro C
    have := (tendsto_const_div_atTop_nhds_zero_nat D).comp (Filter.tendsto_add_atTop_nat 1)
    simpa [Function.comp_def] using this.mul_const C
  refine ⟨rows, h1, ?_, ?_, ?_⟩
  · rw [tendsto_iff_norm_sub_tendsto_zero]
    exact squeeze_zero (fun _ => norm_nonneg _) h2 (hlim _)
  · rw [tendsto_iff_norm_sub_tendsto_zero]
    exact squeeze_zero (fun _ => norm_nonneg _) h3 (hlim _)
  · rw [tendsto_iff_norm_sub_tendsto_zero]
    exact squeeze_zero (fun _ => norm_nonneg _) h4 (hlim _)

/-- Energy of the difference between the responses to two lists of accelerations. -/
theorem driven_energy {Δ δ : ℝ} (hΔ : 0 < Δ) (hx : 0 ≤ xi) (hw : 0 < wn) (hδ : 0 ≤ δ) (a b : List ℝ) (hl : a.length = b.length)
    (hab : ∀ (i : Nat) p q, a[i]? = some p → b[i]? = some q → |p - q| ≤ δ) (u v u' v' : ℝ → ℝ)
    (h : Driven xi wn Δ a u v) (h' : Driven xi wn Δ b u' v') (j : Nat) (hj : j < a.length) :
    Real.sqrt ((v (j * Δ) - v' (j * Δ)) ^ 2 + wn ^ 2 * (u (j * Δ) - u' (j * Δ)) ^ 2) ≤ δ * (j * Δ) := by
  induction j with
  | zero => simp [h.1, h.2.1, h'.1, h'.2.1]
  | succ j ih =>
    have ih := ih (by omega)
    have ga0 : a[j]? = some a[j] := List.getElem?_eq_getElem (by omega)
    have ga1 : a[j + 1]? = some a[j + 1] := List.getElem?_eq_getElem hj
    have gb0 : b[j]? = some b[j] := List.getElem?_eq_getElem (by omega)
    have gb1 : b[j + 1]? = some b[j + 1] := List.getElem?_eq_getElem (by omega)
    have ho := h.2.2 j _ _ ga0 ga1
    have ho' := h'.2.2 j _ _ gb0 gb1
    have c0 := hab j _ _ ga0 gb0
    have c1 := hab (j + 1) _ _ ga1 gb1
    have key := osc_energy (a := 0) (b := Δ) (xi := xi) (wn := wn) (δ := δ) hΔ.le hx hw hδ
      (fun r => u (j * Δ + r) - u' (j * Δ + r)) (fun r => v (j * Δ + r) - v' (j * Δ + r))
      (fun r => (1 - r / Δ) * (b[j] - a[j]) + r / Δ * (b[j + 1] - a[j + 1]))
      (fun r hr => (ho r hr).1.sub (ho' r hr).1)
      (fun r hr => ((ho r hr).2.sub (ho' r hr).2).congr_deriv (by ring))
      (fun r hr => by
        have h0 : 0 ≤ r / Δ := div_nonneg hr.1 hΔ.le
        have h1 : r / Δ ≤ 1 := (div_le_one hΔ).2 hr.2
        refine (abs_add_le _ _).trans ?_
        rw [abs_mul, abs_mul, abs_of_nonneg h0, abs_of_nonneg (by linarith : 0 ≤ 1 - r / Δ), abs_sub_comm b[j], abs_sub_comm b[j + 1]]
        have i1 := mul_le_mul_of_nonneg_left c0 (by linarith : 0 ≤ 1 - r / Δ)
        have i2 := mul_le_mul_of_nonneg_left c1 h0
        linarith)
    have e3 : ((j + 1 : ℕ) : ℝ) * Δ = j * Δ + Δ := by push_cast; ring
    simp only [add_zero, sub_zero] at key
    rw [e3]
    linarith

theorem maxAbs_close (n : Nat) (w w' : Nat → ℝ) (E : ℝ) (hE : 0 ≤ E) (h : ∀ j, j < n → |w j - w' j| ≤ E) :
    |maxAbs ((List.range n).map w) - maxAbs ((List.range n).map w')| ≤ E := by
  have one : ∀ w w' : Nat → ℝ, (∀ j, j < n → |w j - w' j| ≤ E) →
      maxAbs ((List.range n).map w) ≤ maxAbs ((List.range n).map w') + E := by
    intro w w' h
    rcases Nat.eq_zero_or_pos n with rfl | hn
    · simpa using hE
    obtain ⟨p, hp, hpe⟩ := maxAbs_mem (l := (List.range n).map w) (by simp; omega)
    obtain ⟨j, hj, rfl⟩ := List.mem_map.1 hp
    have k := le_maxAbs (List.mem_map.2 ⟨j, hj, rfl⟩ : w' j ∈ (List.range n).map w')
    rw [← hpe]
    have := abs_add_le (w j - w' j) (w' j)
    rw [sub_add_cancel] at this
    linarith [h j (List.mem_range.1 hj)]
  rw [abs_le]
  constructor
  · linarith [one w' w fun j hj => by rw [abs_sub_comm]; exact h j hj]
  · linarith [one w w' h]

/-- C186: the spectral values of one oscillator depend continuously on the accelerations: those of two records of the duration `T`, whose accelerations differ by
at most `δ`, differ by at most `δ T / ω` (SD), `δ T` (SV and PSV), `(2 ξ + 1) ω δ T` (SA) and `ω δ T` (PSA). -/
theorem stepping_stable {Δ δ : ℝ} (hΔ : 0 < Δ) (hx : 0 ≤ xi) (hx1 : xi < 1) (hw : 0 < wn) (hδ : 0 ≤ δ) (a b : List ℝ) (hl : a.length = b.length)
    (hab : ∀ (i : Nat) p q, a[i]? = some p → b[i]? = some q → |p - q| ≤ δ) :
    let r := timeStepping (oscCoefs xi wn Δ) wn xi a
    let s := timeStepping (oscCoefs xi wn Δ) wn xi b
    let T := (a.length - 1 : ℕ) * Δ
    |r.sd - s.sd| ≤ δ * T / wn ∧ |r.sv - s.sv| ≤ δ * T ∧ |r.sa - s.sa| ≤ (2 * xi + 1) * wn * (δ * T) ∧
    |r.psv - s.psv| ≤ δ * T ∧ |r.psa - s.psa| ≤ wn * (δ * T) := by
  intro r s T
  obtain ⟨u, v, h⟩ := C28_exists xi wn Δ hx hx1 hw hΔ a
  obtain ⟨u', v', h'⟩ := C28_exists xi wn Δ hx hx1 hw hΔ b
  obtain ⟨r1, r2, r3, r4, r5⟩ := C28_spectra xi Δ hx hx1 hΔ wn hw _ u v h
  obtain ⟨s1, s2, s3, s4, s5⟩ := C28_spectra xi Δ hx hx1 hΔ wn hw _ u' v' h'
  have hT : 0 ≤ T := by positivity
  have hes : ∀ j : Nat, j < a.length → |u (j * Δ) - u' (j * Δ)| ≤ δ * T / wn ∧ |v (j * Δ) - v' (j * Δ)| ≤ δ * T := by
    intro j hj
    have hjT : (j : ℝ) * Δ ≤ T := by
      apply mul_le_mul_of_nonneg_right _ hΔ.le
      have : j ≤ a.length - 1 := by omega
      exact_mod_cast this
    obtain ⟨k1, k2⟩ := abs_le_energy wn _ _ _ hw
      ((driven_energy hΔ hx hw hδ a b hl hab u v u' v' h h' j hj).trans (mul_le_mul_of_nonneg_left hjT hδ))
    refine ⟨?_, k1⟩
    rw [le_div_iff₀ hw, mul_comm]
    exact k2
  have b1 : |r.sd - s.sd| ≤ δ * T / wn := by
    simp only [r, s]
    rw [r1, s1, ← hl]
    exact maxAbs_close _ _ _ _ (by positivity) fun j hj => (hes j hj).1
  refine ⟨b1, ?_, ?_, ?_, ?_⟩
  · simp only [r, s]
    rw [r2, s2, ← hl]
    exact maxAbs_close _ _ _ _ (by positivity) fun j hj => (hes j hj).2
  · simp only [r, s]
    rw [r3, s3, ← hl]
    refine maxAbs_close _ _ _ _ (by positivity) fun j hj => ?_
    obtain ⟨p, q⟩ := hes j hj
    have e : -(2 * xi * wn * v (j * Δ)) - wn ^ 2 * u (j * Δ) - (-(2 * xi * wn * v' (j * Δ)) - wn ^ 2 * u' (j * Δ)) =
        -(2 * xi * wn * (v (j * Δ) - v' (j * Δ))) - wn ^ 2 * (u (j * Δ) - u' (j * Δ)) := by ring
    rw [e]
    refine (abs_sub _ _).trans ?_
    rw [abs_neg, abs_mul (2 * xi * wn), abs_mul (wn ^ 2), abs_of_nonneg (by positivity : (0 : ℝ) ≤ 2 * xi * wn),
      abs_of_nonneg (by positivity : (0 : ℝ) ≤ wn ^ 2)]
    have i1 := mul_le_mul_of_nonneg_left q (by positivity : (0 : ℝ) ≤ 2 * xi * wn)
    have i2 := mul_le_mul_of_nonneg_left p (by positivity : (0 : ℝ) ≤ wn ^ 2)
    have e2 : wn ^ 2 * (δ * T / wn) = wn * (δ * T) := by field_simp
    rw [e2] at i2
    linarith
  · simp only [r, s] at b1 ⊢
    rw [r4, s4, ← mul_sub, abs_mul, abs_of_pos hw, mul_comm]
    rwa [le_div_iff₀ hw] at b1
  · simp only [r, s] at b1 ⊢
    rw [r5, s5, ← mul_sub, abs_mul, abs_of_nonneg (by positivity)]
    rw [le_div_iff₀ hw] at b1
    calc _ = wn * (|(timeStepping (oscCoefs xi wn Δ) wn xi a).sd - (timeStepping (oscCoefs xi wn Δ) wn xi b).sd| * wn) := by ring
      _ ≤ _ := mul_le_mul_of_nonneg_left b1 hw.le

theorem response_rows (xi : ℝ) (Tn : List ℝ) (k : Nat) (acc : Rec ℝ) (rows : List (SpecRow ℝ)) (h : responseSpectraR xi Tn k acc = .ok rows)
    (dt : ℝ) (hd : dtOf (subsample k acc) = .ok dt) (i : Nat) (Tp : ℝ) (hi : Tn[i]? = some Tp) :
    k ≠ 0 ∧ rows[i]? = some (timeStepping (oscCoefs xi (2 * Real.pi / Tp) dt) (2 * Real.pi / Tp) xi ((subsample k acc).map Prod.snd)) := by
  unfold responseSpectraR responseSpectra at h
  by_cases c : k = 0
  · rw [if_pos c] at h; cases h
  rw [if_neg c] at h
  cases hs : spacingOk ((subsample k acc).map Prod.fst) with
  | error e => simp only [bind, Except.bind, hs] at h; cases h
  | ok w =>
    simp only [bind, Except.bind, hs, hd, pure, Except.pure, Except.ok.injEq] at h
    rw [← h, List.getElem?_map, List.getElem?_map, hi]
    exact ⟨c, rfl⟩

/-- C186: the spectra depend continuously on the record: if two records have the same times and accelerations that differ by at most `δ`, and the
samples in use span the time `T`, then, at every period `2 π / ω`, SD differs by at most `δ T / ω`, SV and PSV by at most `δ T`, SA by at most `(2 ξ + 1) ω δ T` and
PSA by at most `ω δ T`. -/
theorem C186_stable {dt δ : ℝ} (hdt : 0 < dt) (hx : 0 ≤ xi) (hx1 : xi < 1) (hδ : 0 ≤ δ) (Tn : List ℝ) (k : Nat) (acc acc' : Rec ℝ)
    (rows rows' : List (SpecRow ℝ)) (h : responseSpectraR xi Tn k acc = .ok rows) (h' : responseSpectraR xi Tn k acc' = .ok rows')
    (hd : dtOf (subsample k acc) = .ok dt) (ht : acc.map Prod.fst = acc'.map Prod.fst)
    (hab : ∀ (i : Nat) p q, acc[i]? = some p → acc'[i]? = some q → |p.2 - q.2| ≤ δ) (i : Nat) (Tp : ℝ) (hi : Tn[i]? = some Tp) (hTp : 0 < Tp) :
    ∃ r s, rows[i]? = some r ∧ rows'[i]? = some s ∧
    let ω := 2 * Real.pi / Tp
    let T := ((subsample k acc).length - 1 : ℕ) * dt
    |r.sd - s.sd| ≤ δ * T / ω ∧ |r.sv - s.sv| ≤ δ * T ∧ |r.sa - s.sa| ≤ (2 * xi + 1) * ω * (δ * T) ∧
    |r.psv - s.psv| ≤ δ * T ∧ |r.psa - s.psa| ≤ ω * (δ * T) := by
  have hl : acc.length = acc'.length := by simpa using congrArg List.length ht
  obtain ⟨k0, g⟩ := response_rows xi Tn k acc rows h dt hd i Tp hi
  have hsub : ∀ x : Rec ℝ, (subsample k x).map Prod.fst = subsample k (x.map Prod.fst) := by
    intro x
    unfold subsample
    rw [List.map_filterMap, List.length_map]
    congr 1
    funext j
    rw [List.getElem?_map]
  have hd' : dtOf (subsample k acc') = .ok dt := by
    have e : (subsample k acc).map Prod.fst = (subsample k acc').map Prod.fst := by rw [hsub, hsub, ht]
    have hdt : ∀ x y : Rec ℝ, x.map Prod.fst = y.map Prod.fst → dtOf x = dtOf y := by
      intro x y e
      rcases x with _ | ⟨a, _ | ⟨b, x⟩⟩ <;> rcases y with _ | ⟨c, _ | ⟨d, y⟩⟩ <;> simp_all [dtOf]
    rw [← hdt _ _ e, hd]
  obtain ⟨_, g'⟩ := response_rows xi Tn k acc' rows' h' dt hd' i Tp hi
  refine ⟨_, _, g, g', ?_⟩
  have kp : 0 < k := Nat.pos_of_ne_zero k0
  obtain ⟨l1, l2⟩ := subsample_get k kp acc
  obtain ⟨l1', l2'⟩ := subsample_get k kp acc'
  have := stepping_stable (xi := xi) (wn := 2 * Real.pi / Tp) (Δ := dt) hdt hx hx1 (by positivity) hδ ((subsample k acc).map Prod.snd)
    ((subsample k acc').map Prod.snd) (by simp [l1, l1', hl]) (by
      intro j p q hp hq
      rw [List.getElem?_map, Option.map_eq_some_iff] at hp hq
      obtain ⟨p, hp, rfl⟩ := hp
      obtain ⟨q, hq, rfl⟩ := hq
      have hj : j < (acc.length + (k - 1)) / k := by
        rw [← l1]; exact (List.getElem?_eq_some_iff.1 hp).1
      rw [l2 j hj] at hp
      rw [l2' j (by rw [← hl]; exact hj)] at hq
      exact hab _ _ _ hp hq)
  simpa using this

/-- C186: bounds on the spectra: no relative velocity, and no pseudo-velocity, exceeds the peak acceleration times the duration, at any period and for any damping. -/
theorem C186_bound {dt : ℝ} (hdt : 0 < dt) (hx : 0 ≤ xi) (hx1 : xi < 1) (Tn : List ℝ) (k : Nat) (acc : Rec ℝ)
    (rows : List (SpecRow ℝ)) (h : responseSpectraR xi Tn k acc = .ok rows)
    (hd : dtOf (subsample k acc) = .ok dt) (i : Nat) (Tp : ℝ) (hi : Tn[i]? = some Tp) (hTp : 0 < Tp) :
    ∃ r, rows[i]? = some r ∧
    let ω := 2 * Real.pi / Tp
    let B := maxAbs (acc.map Prod.snd) * (((subsample k acc).length - 1 : ℕ) * dt)
    0 ≤ r.sd ∧ r.sd ≤ B / ω ∧ 0 ≤ r.sv ∧ r.sv ≤ B ∧ 0 ≤ r.psv ∧ r.psv ≤ B ∧ 0 ≤ r.sa ∧ r.sa ≤ (2 * xi + 1) * ω * B ∧
    0 ≤ r.psa ∧ r.psa ≤ ω * B := by
  obtain ⟨k0, g⟩ := response_rows xi Tn k acc rows h dt hd i Tp hi
  refine ⟨_, g, ?_⟩
  intro ω B
  have hω : 0 < ω := by positivity
  set a := (subsample k acc).map Prod.snd with ha
  have hal : a.length = (subsample k acc).length := by simp [ha]
  set z : List ℝ := List.replicate a.length 0 with hz
  have hzero : Driven xi ω dt z (fun _ => 0) (fun _ => 0) := by
    refine ⟨rfl, rfl, fun j p q hp hq => ?_⟩
    have hp0 : p = 0 := List.eq_of_mem_replicate (List.mem_of_getElem? hp)
    have hq0 : q = 0 := List.eq_of_mem_replicate (List.mem_of_getElem? hq)
    subst hp0; subst hq0
    intro t ht
    constructor
    · exact hasDerivWithinAt_const _ _ _
    · simpa using hasDerivWithinAt_const t (Set.Icc 0 dt) (0 : ℝ)
  obtain ⟨s1, s2, s3, s4, s5⟩ := C28_spectra xi dt hx hx1 hdt ω hω _ _ _ hzero
  have m0 : maxAbs ((List.range z.length).map fun j : Nat => (0 : ℝ)) = 0 := by
    by_cases c : (List.range z.length).map (fun j : Nat => (0 : ℝ)) = []
    · rw [c]; rfl
    · obtain ⟨p, hp, he⟩ := maxAbs_mem c
      obtain ⟨_, _, rfl⟩ := List.mem_map.1 hp
      rw [← he, abs_zero]
  have key := stepping_stable (xi := xi) (wn := ω) (Δ := dt) (δ := maxAbs (acc.map Prod.snd)) hdt hx hx1 hω (maxAbs_nonneg _) a z (by simp [hz]) (by
      intro j p q hp hq
      have hq0 : q = 0 := List.eq_of_mem_replicate (List.mem_of_getElem? hq)
      subst hq0
      rw [sub_zero]
      have := List.mem_of_getElem? hp
      obtain ⟨p, hp', rfl⟩ := List.mem_map.1 this
      apply le_maxAbs
      refine List.mem_map.2 ⟨p, ?_, rfl⟩
      unfold subsample at hp'
      obtain ⟨_, _, hm⟩ := List.mem_filterMap.1 hp'
      exact List.mem_of_getElem? hm)
  simp only [mul_zero, neg_zero, sub_zero, m0] at s1 s2 s3
  rw [s1] at s4 s5
  simp only [s1, s2, s3, s4, s5, mul_zero, sub_zero, hal] at key
  obtain ⟨k1, k2, k3, k4, k5⟩ := key
  have n1 : 0 ≤ (timeStepping (oscCoefs xi ω dt) ω xi a).sd := maxAbs_nonneg _
  have n2 : 0 ≤ (timeStepping (oscCoefs xi ω dt) ω xi a).sv := maxAbs_nonneg _
  have n3 : 0 ≤ (timeStepping (oscCoefs xi ω dt) ω xi a).sa := maxAbs_nonneg _
  have n4 : 0 ≤ (timeStepping (oscCoefs xi ω dt) ω xi a).psv := mul_nonneg (maxAbs_nonneg _) hω.le
  have n5 : 0 ≤ (timeStepping (oscCoefs xi ω dt) ω xi a).psa := mul_nonneg (mul_nonneg (maxAbs_nonneg _) hω.le) hω.le
  exact ⟨n1, (le_abs_self _).trans k1, n2, (le_abs_self _).trans k2, n4, (le_abs_self _).trans k4, n3, (le_abs_self _).trans k3, n5,
    (le_abs_self _).trans k5⟩

/-- Non-vacuity: a sine, sampled at 101 times, every second of them in use. -/
example : ∃ rows, responseSpectraR (1 / 20) [1, 2] 2 (samples Real.sin 0 (1 / 100) 101) = .ok rows ∧ rows.length = 2 := by
  obtain ⟨rows, h, hl, _⟩ := C186_spectra (f := Real.sin) (M := 1) (L := 1) (xi := 1 / 20)
    (by
      intro s t
      rw [one_mul]
      have := (convex_univ (𝕜 := ℝ) (E := ℝ)).norm_image_sub_le_of_norm_hasDerivWithin_le (f := Real.sin) (f' := Real.cos) (C := 1)
        (fun x _ => (Real.hasDerivAt_sin x).hasDerivWithinAt) (fun x _ => by rw [Real.norm_eq_abs]; exact Real.abs_cos_le_one x)
        (Set.mem_univ t) (Set.mem_univ s)
      simpa using this)
    Real.abs_sin_le_one 0 (1 / 100) 101 2 (by norm_num) (by norm_num) (by norm_num) (by norm_num) (by norm_num) [1, 2]
  exact ⟨rows, h, hl⟩

end Verif
