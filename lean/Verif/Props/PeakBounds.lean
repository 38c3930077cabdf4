import Verif.Props.TruncMeasures
import Verif.Props.MotionSpectra

/-!
C223: the peak values, the duration and the Arias intensity of a motion limit each other.
-/

set_option linter.unusedSectionVars false
set_option linter.unusedVariables false

namespace Verif

open Spec (times vals Uniform given)

/-- The running integral of a column, as in `numInt`. -/
local notation "∫[" d "]" l => List.map (· * d) (cumsum l)

theorem int_get (d : ℝ) (l : List ℝ) (k : ℕ) (h : k < l.length) : (∫[d] l)[k]? = some ((l.take (k + 1)).sum * d) := by
  rw [List.getElem?_map, cumsum_getK l k h]; rfl

theorem abs_sum_le_len (b : ℝ) (l : List ℝ) (h : ∀ x ∈ l, |x| ≤ b) : |l.sum| ≤ l.length * b := by
  induction l with
  | nil => simp
  | cons a l ih =>
    have h1 := ih fun x hx => h x (List.mem_cons_of_mem _ hx)
    have h2 := h a List.mem_cons_self
    rw [List.sum_cons, List.length_cons]
    push_cast
    have := abs_add_le a l.sum
    linarith

theorem abs_int_le {d : ℝ} (hd : 0 ≤ d) (l : List ℝ) (k : ℕ) (w : ℝ) (h : (∫[d] l)[k]? = some w) :
    |w| ≤ ((k : ℝ) + 1) * d * maxAbs l := by
  have hk : k < l.length := by
    by_contra hn
    rw [List.getElem?_eq_none (by rw [integral_len]; omega)] at h
    cases h
  rw [int_get d l k hk] at h
  cases h
  have h1 := abs_sum_le_len (maxAbs l) (l.take (k + 1)) fun x hx => le_maxAbs (List.mem_of_mem_take hx)
  have h2 : (l.take (k + 1)).length = k + 1 := by rw [List.length_take]; omega
  rw [h2] at h1
  push_cast at h1
  rw [abs_mul, abs_of_nonneg hd]
  nlinarith

theorem peak_int_le {d : ℝ} (hd : 0 ≤ d) (l : List ℝ) : maxAbs (∫[d] l) ≤ l.length * d * maxAbs l := by
  refine maxAbs_le (mul_nonneg (mul_nonneg (Nat.cast_nonneg _) hd) (maxAbs_nonneg l)) fun w hw => ?_
  obtain ⟨k, hk, e⟩ := List.mem_iff_getElem.1 hw
  have h1 := abs_int_le hd l k w (by rw [List.getElem?_eq_getElem hk, e])
  rw [integral_len] at hk
  have h2 : ((k : ℝ) + 1) ≤ l.length := by exact_mod_cast hk
  exact h1.trans (mul_le_mul_of_nonneg_right (mul_le_mul_of_nonneg_right h2 hd) (maxAbs_nonneg l))

theorem peak_le_int {d : ℝ} (hd : 0 ≤ d) (l : List ℝ) : d * maxAbs l ≤ 2 * maxAbs (∫[d] l) := by
  by_cases hne : l = []
  · subst hne; simp [maxAbs, cumsum, cumsumFrom]
  obtain ⟨x, hx, e⟩ := maxAbs_mem hne
  obtain ⟨k, hk, ek⟩ := List.mem_iff_getElem.1 hx
  rw [← e]
  have hb : ∀ (j : ℕ) (w : ℝ), (∫[d] l)[j]? = some w → |w| ≤ maxAbs (∫[d] l) := fun j w h => le_maxAbs (List.mem_of_getElem? h)
  have h1 := hb k _ (int_get d l k hk)
  have h0 : |(l.take k).sum * d| ≤ maxAbs (∫[d] l) := by
    cases k with
    | zero => simpa using maxAbs_nonneg _
    | succ k => exact hb k _ (int_get d l k (by omega))
  have h2 : (l.take (k + 1)).sum = (l.take k).sum + x := by rw [List.take_succ_eq_append_getElem hk, List.sum_append, ek]; simp
  rw [h2] at h1
  have h3 : d * |x| = |((l.take k).sum + x) * d - (l.take k).sum * d| := by
    rw [show ((l.take k).sum + x) * d - (l.take k).sum * d = d * x by ring, abs_mul, abs_of_nonneg hd]
  rw [h3]
  have := abs_sub (((l.take k).sum + x) * d) ((l.take k).sum * d)
  linarith

theorem sum_take_ramp (c : ℝ) (hc : 0 ≤ c) (w : List ℝ) (h : ∀ (k : ℕ) x, w[k]? = some x → |x| ≤ ((k : ℝ) + 1) * c) :
    ∀ j ≤ w.length, |(w.take j).sum| ≤ (j : ℝ) * (j + 1) / 2 * c := by
  intro j
  induction j with
  | zero => intro _; simp
  | succ j ih =>
    intro hj
    have h1 := ih (by omega)
    have h2 := h j w[j] (List.getElem?_eq_getElem (by omega))
    rw [List.take_succ_eq_append_getElem (by omega), List.sum_append]
    simp only [List.sum_cons, List.sum_nil, add_zero]
    push_cast
    have := abs_add_le (w.take j).sum w[j]
    nlinarith

/-- Two integrations of a column of n samples: at most n (n + 1) / 2 times the squared step times the peak. -/
theorem peak_int2_le {d : ℝ} (hd : 0 ≤ d) (l : List ℝ) :
    maxAbs (∫[d] (∫[d] l)) ≤ (l.length : ℝ) * (l.length + 1) / 2 * d ^ 2 * maxAbs l := by
  refine maxAbs_le (by have := maxAbs_nonneg l; positivity) fun w hw => ?_
  obtain ⟨k, hk, e⟩ := List.mem_iff_getElem.1 hw
  have hk' : k < (∫[d] l).length := by rwa [integral_len] at hk
  have e1 := int_get d (∫[d] l) k hk'
  rw [List.getElem?_eq_getElem hk, e] at e1
  cases e1
  have hkl : k < l.length := by rwa [integral_len] at hk'
  have h1 := sum_take_ramp (d * maxAbs l) (mul_nonneg hd (maxAbs_nonneg l)) (∫[d] l)
    (fun j x hx => by have := abs_int_le hd l j x hx; linarith) (k + 1) (by omega)
  have h2 : ((k : ℝ) + 1) ≤ l.length := by exact_mod_cast hkl
  have hm := maxAbs_nonneg l
  have hk0 : (0 : ℝ) ≤ k := Nat.cast_nonneg k
  push_cast at h1
  rw [abs_mul, abs_of_nonneg hd]
  have h3 : ((k : ℝ) + 1) * (k + 1 + 1) ≤ (l.length : ℝ) * (l.length + 1) := by nlinarith
  have h4 : ((k : ℝ) + 1) * (k + 1 + 1) / 2 * (d * maxAbs l) * d ≤ (l.length : ℝ) * (l.length + 1) / 2 * d ^ 2 * maxAbs l := by
    have : 0 ≤ d ^ 2 * maxAbs l := by positivity
    nlinarith
  exact (mul_le_mul_of_nonneg_right h1 hd).trans h4

theorem sum_sq_le_len (l : List ℝ) : l.sum ^ 2 ≤ l.length * (l.map (· ^ 2)).sum := by
  have h := (cauchy_list (l.map fun x => (1, x))).1
  simpa [List.map_map, Function.comp_def, List.sum_replicate] using h

/-- C223, objects from accelerations: peak velocity is at most the duration times peak acceleration, peak displacement at most the duration
times peak velocity and at most about half of the squared duration times peak acceleration; and the other way round peak acceleration and
peak velocity are at most twice the peak of their integral per time step. -/
theorem C223_accelerations (σ τ : CStore ℝ) (a : Nat) (x : Rec ℝ) (ha : σ[a]? = some x) (unit : MUnit) (delta : Option ℝ) (m : Motion ℝ)
    (hm : mkMotion σ (.two a) unit .accel delta = (.ok m, τ)) (hdt : 0 < m.dt) :
    m.pgv ≤ m.npts * m.dt * m.pga ∧ m.pgd ≤ m.npts * m.dt * m.pgv ∧
    m.pgd ≤ (m.npts : ℝ) * (m.npts + 1) / 2 * m.dt ^ 2 * m.pga ∧
    m.pga ≤ 2 * m.pgv / m.dt ∧ m.pgv ≤ 2 * m.pgd / m.dt := by
  obtain ⟨hg, hd, hn, h1, h2, h3⟩ := C20_values σ τ a x ha unit .accel delta m hm
  have hg' : m.accel.read τ = x.map (fun p => (p.1, Spec.toSI unit p.2)) := hg
  have hp := (mkMotion_parts hm).1 rfl
  have hd' : dtOf (m.accel.read τ) = .ok m.dt := by
    rw [hg']
    match x, hd with
    | r :: s :: x, hd => simpa [dtOf] using hd
  have hl : m.npts = (vals (m.accel.read τ)).length := by rw [hn, hg']; simp [vals]
  rw [numInt_ok m.dt _ hd'] at hp
  obtain ⟨hv, hu⟩ := Prod.mk.inj (Except.ok.inj hp)
  have ev : vals (m.veloc.read τ) = ∫[m.dt] (vals (m.accel.read τ)) := by
    rw [← hv, vals, List.map_snd_zip (by rw [integral_len]; simp [times, vals])]
  have eu : vals (m.displ.read τ) = ∫[m.dt] (∫[m.dt] (vals (m.accel.read τ))) := by
    rw [← hu, vals, List.map_snd_zip (by rw [integral_len, integral_len]; simp [times, vals])]
  rw [h1, h2, h3, ev, eu, hl]
  refine ⟨peak_int_le hdt.le _, ?_, peak_int2_le hdt.le _, ?_, ?_⟩
  · have := peak_int_le hdt.le (∫[m.dt] (vals (m.accel.read τ)))
    rwa [integral_len] at this
  · rw [le_div_iff₀ hdt, mul_comm]; exact peak_le_int hdt.le _
  · rw [le_div_iff₀ hdt, mul_comm]; exact peak_le_int hdt.le _

theorem peak_diff_le {d : ℝ} (hd : 0 < d) {x y : Rec ℝ} (hu : Uniform d (times x)) (h : numDiff x = .ok y) :
    maxAbs (vals y) ≤ 2 * maxAbs (vals x) / d := by
  have hM := maxAbs_nonneg (vals x)
  refine maxAbs_le (by positivity) fun w hw => ?_
  have hne : x ≠ [] := by
    rintro rfl
    simp [numDiff, diff, colStack] at h
  have hr := numDiff_rate d hd.ne' x hu y h
  obtain ⟨k, hk, e⟩ := List.mem_iff_getElem.1 hw
  have hlen : (vals y).length = (vals x).length := by
    have := congrArg List.length hr.1
    simpa [times, vals] using this
  cases k with
  | zero =>
    rw [numDiff_uniform d hd.ne' x hu hne] at h
    have hy := (Except.ok.inj h).symm
    match x, hne with
    | p :: x, _ =>
      have : (vals y)[0]? = some 0 := by rw [hy]; simp [vals, times]
      rw [List.getElem?_eq_getElem hk, e] at this
      cases this
      simp only [abs_zero]; positivity
  | succ k =>
    have h1 := hr.2 k w ((vals x)[k]'(by omega)) ((vals x)[k + 1]'(by omega)) (by rw [List.getElem?_eq_getElem hk, e])
      (List.getElem?_eq_getElem _) (List.getElem?_eq_getElem _)
    have h2 := le_maxAbs (List.getElem_mem (l := vals x) (n := k) (by omega))
    have h3 := le_maxAbs (List.getElem_mem (l := vals x) (n := k + 1) (by omega))
    rw [le_div_iff₀ hd]
    have h4 : |w| * d = |d * w| := by rw [abs_mul, abs_of_pos hd, mul_comm]
    rw [h4, ← h1]
    exact (abs_sub _ _).trans (by linarith)

/-- C223, objects from velocities or displacements on evenly spaced times: the derived peaks are limited by the given one. -/
theorem C223_derivatives (σ τ : CStore ℝ) (a : Nat) (x : Rec ℝ) (ha : σ[a]? = some x) (unit : MUnit) (delta : Option ℝ) (m : Motion ℝ)
    (d : ℝ) (hd : 0 < d) (hu : Uniform d (times x)) :
    (mkMotion σ (.two a) unit .veloc delta = (.ok m, τ) → m.pga ≤ 2 * m.pgv / d ∧ m.pgd ≤ m.npts * m.dt * m.pgv) ∧
    (mkMotion σ (.two a) unit .displ delta = (.ok m, τ) → m.pgv ≤ 2 * m.pgd / d ∧ m.pga ≤ 2 * m.pgv / d ∧ m.pga ≤ 4 * m.pgd / d ^ 2) := by
  refine ⟨fun hm => ?_, fun hm => ?_⟩
  · obtain ⟨hg, hdt, hn, h1, h2, h3⟩ := C20_values σ τ a x ha unit .veloc delta m hm
    have hg' : m.veloc.read τ = x.map (fun p => (p.1, Spec.toSI unit p.2)) := hg
    obtain ⟨hp, w, hw⟩ := (mkMotion_parts hm).2.1 rfl
    have ht : times (m.veloc.read τ) = times x := by rw [hg']; simp [times]
    have hd' : dtOf (m.veloc.read τ) = .ok m.dt := by
      rw [hg']
      match x, hdt with
      | r :: s :: x, hd => simpa [dtOf] using hd
    have hdd : m.dt = d := by
      match x, hdt, hu with
      | r :: s :: x, hd, hu => rw [← hu 0 r.1 s.1 rfl rfl]; exact (Except.ok.inj hd).symm
    have hl : m.npts = (vals (m.veloc.read τ)).length := by rw [hn, hg']; simp [vals]
    rw [numInt_ok m.dt _ hd'] at hw
    have eu : vals (m.displ.read τ) = ∫[m.dt] (vals (m.veloc.read τ)) := by
      rw [← (Prod.mk.inj (Except.ok.inj hw)).1, vals, List.map_snd_zip (by rw [integral_len]; simp [times, vals])]
    refine ⟨?_, ?_⟩
    · rw [h1, h2]; exact peak_diff_le hd (by rwa [ht]) hp
    · rw [h3, h2, eu, hl]; exact peak_int_le (hdd ▸ hd.le) _
  · obtain ⟨hg, hdt, hn, h1, h2, h3⟩ := C20_values σ τ a x ha unit .displ delta m hm
    have hg' : m.displ.read τ = x.map (fun p => (p.1, Spec.toSI unit p.2)) := hg
    obtain ⟨hp, hq⟩ := (mkMotion_parts hm).2.2 rfl
    have ht : times (m.displ.read τ) = times x := by rw [hg']; simp [times]
    have ht' : times (m.veloc.read τ) = times x := by rw [← ht]; exact (numDiff_rate d hd.ne' _ (by rwa [ht]) _ hp).1
    have e1 := peak_diff_le hd (by rwa [ht]) hp
    have e2 := peak_diff_le hd (by rwa [ht']) hq
    rw [← h2, ← h3] at e1
    rw [← h1, ← h2] at e2
    refine ⟨e1, e2, e2.trans ?_⟩
    rw [div_le_div_iff₀ hd (by positivity)]
    rw [le_div_iff₀ hd] at e1
    nlinarith

/-- C223, energy: the Arias intensity is at most the one of a motion which has the peak acceleration all the time; and a motion of small
intensity has a small peak velocity: the square of the velocity is at most the duration times the energy. -/
theorem C223_energy {c dt : ℝ} (hc : 0 < c) (hdt : 0 < dt) {x v u : Rec ℝ} {r : Arias ℝ} (hd : dtOf x = .ok dt)
    (h : calcArias c x = .ok r) (hi : numInt x = .ok (v, u)) :
    r.peak ≤ c * (((x.length : ℝ) - 1) * dt) * maxAbs (vals x) ^ 2 ∧
    c * maxAbs (vals v) ^ 2 ≤ (x.length * dt) * (r.peak + c * dt * maxAbs (vals x) ^ 2) := by
  obtain ⟨dt', hd', hp⟩ := arias_peak h
  rw [hd] at hd'
  cases hd'
  have hM := maxAbs_nonneg (vals x)
  have hxl : 2 ≤ x.length := by
    match x, hd with
    | _ :: _ :: _, _ => simp
  have hsq : ∀ l : List ℝ, (∀ z ∈ l, z ∈ vals x) → (l.map (· ^ 2)).sum ≤ l.length * maxAbs (vals x) ^ 2 := by
    intro l hl
    have := abs_sum_le_len (maxAbs (vals x) ^ 2) (l.map (· ^ 2)) (by
      intro z hz
      obtain ⟨w, hw, rfl⟩ := List.mem_map.1 hz
      rw [abs_pow]
      exact pow_le_pow_left₀ (abs_nonneg w) (le_maxAbs (hl w hw)) 2)
    rw [List.length_map] at this
    exact (le_abs_self _).trans this
  have hcd : 0 < c * dt := mul_pos hc hdt
  refine ⟨?_, ?_⟩
  · have h1 := hsq (vals x).dropLast fun z hz => List.dropLast_subset _ hz
    have h2 : (((vals x).dropLast.length : ℕ) : ℝ) = (x.length : ℝ) - 1 := by
      rw [List.length_dropLast]; unfold vals; rw [List.length_map, Nat.cast_sub (by omega)]; norm_num
    rw [h2] at h1
    rw [hp]
    nlinarith
  · rw [numInt_ok dt x hd] at hi
    have ev : vals v = ∫[dt] (vals x) := by
      rw [← (Prod.mk.inj (Except.ok.inj hi)).1, vals, List.map_snd_zip (by rw [integral_len]; simp [times, vals])]
    have hvne : vals v ≠ [] := by
      intro hc
      have := congrArg List.length (ev.symm.trans hc)
      rw [integral_len] at this
      unfold vals at this
      rw [List.length_map, List.length_nil] at this
      omega
    obtain ⟨w, hw, e⟩ := maxAbs_mem hvne
    obtain ⟨k, hk, ek⟩ := List.mem_iff_getElem.1 hw
    have hkx : k < (vals x).length := by rw [ev, integral_len] at hk; exact hk
    have e1 : (vals v)[k]? = some w := by rw [List.getElem?_eq_getElem hk, ek]
    rw [ev, int_get dt _ k hkx] at e1
    cases e1
    have hne : vals x ≠ [] := by intro hc; rw [hc] at hkx; simp at hkx
    have h1 := sum_sq_le_len ((vals x).take (k + 1))
    have h2 := sum_sq_take_le (vals x) (k + 1)
    have h3 : ((vals x).map (· ^ 2)).sum ≤ ((vals x).dropLast.map (· ^ 2)).sum + maxAbs (vals x) ^ 2 := by
      conv_lhs => rw [← List.dropLast_append_getLast hne]
      rw [List.map_append, List.sum_append]
      simp only [List.map_cons, List.map_nil, List.sum_cons, List.sum_nil, add_zero]
      have := pow_le_pow_left₀ (abs_nonneg _) (le_maxAbs (List.getLast_mem hne)) 2
      rw [sq_abs] at this
      linarith
    have h4 : (((vals x).take (k + 1)).length : ℝ) ≤ x.length := by
      exact_mod_cast (by rw [List.length_take]; unfold vals; rw [List.length_map]; omega)
    have h0 : 0 ≤ ((vals x).map (· ^ 2)).sum :=
      List.sum_nonneg (by intro b hb; obtain ⟨c, _, rfl⟩ := List.mem_map.1 hb; exact sq_nonneg c)
    have h0' : 0 ≤ (((vals x).take (k + 1)).map (· ^ 2)).sum :=
      List.sum_nonneg (by intro b hb; obtain ⟨c, _, rfl⟩ := List.mem_map.1 hb; exact sq_nonneg c)
    have h5 : ((vals x).take (k + 1)).sum ^ 2 ≤ x.length * (((vals x).dropLast.map (· ^ 2)).sum + maxAbs (vals x) ^ 2) :=
      h1.trans (mul_le_mul h4 (h2.trans h3) h0' (Nat.cast_nonneg _))
    rw [← e, sq_abs, hp]
    have h6 := mul_le_mul_of_nonneg_left h5 (mul_pos hcd hdt).le
    calc c * (((vals x).take (k + 1)).sum * dt) ^ 2 = c * dt * dt * ((vals x).take (k + 1)).sum ^ 2 := by ring
      _ ≤ _ := h6
      _ = _ := by ring

/-- The limits are attained: a constant acceleration, here 2 m/s/s for four steps of 0.5 s. -/
example : ∃ v u, numInt [((0 : ℝ), 2), (1 / 2, 2), (1, 2), (3 / 2, 2)] = .ok (v, u) ∧
    maxAbs (vals v) = 4 * (1 / 2) * 2 ∧ maxAbs (vals u) = 4 * 5 / 2 * (1 / 2) ^ 2 * 2 := by
  refine ⟨_, _, rfl, ?_, ?_⟩ <;> norm_num [vals, maxAbs, cumsum, cumsumFrom]

end Verif
