import Verif.Model.MotionSpectra
import Verif.Props.FreqSpectrum
import Verif.Props.MotionHist
import Verif.Props.MotionMethods
import Verif.Props.Oscillator
import Verif.Props.Amplify

set_option linter.unusedSectionVars false
set_option linter.unusedVariables false

namespace Verif

open Complex

open Spec (coeff times vals Uniform given Driven)

namespace Spec

/-- `r` is the root mean square of the values. -/
def IsRms (r : ℝ) (l : List ℝ) : Prop := 0 ≤ r ∧ (l.length : ℝ) * r ^ 2 = (l.map fun x => x ^ 2).sum

end Spec

open Spec (IsRms)

/-! ## C137 -/

theorem sumSq_nonneg (l : List ℝ) : 0 ≤ (l.map fun x => x ^ 2).sum :=
  List.sum_nonneg fun y hy => by obtain ⟨x, _, rfl⟩ := List.mem_map.1 hy; positivity

theorem rms_isRms {l : List ℝ} (h : l ≠ []) : IsRms (rms l) l := by
  have hn : (0 : ℝ) < l.length := by exact_mod_cast List.length_pos_iff.2 h
  refine ⟨Real.sqrt_nonneg _, ?_⟩
  unfold rms
  rw [Real.sq_sqrt (div_nonneg (sumSq_nonneg l) hn.le), mul_div_cancel₀ _ hn.ne']

theorem isRms_unique {l : List ℝ} {r s : ℝ} (h : l ≠ []) (hr : IsRms r l) (hs : IsRms s l) : r = s := by
  have hn : (0 : ℝ) < l.length := by exact_mod_cast List.length_pos_iff.2 h
  have : r ^ 2 = s ^ 2 := mul_left_cancel₀ hn.ne' (hr.2.trans hs.2.symm)
  exact (sq_eq_sq₀ hr.1 hs.1).1 this

theorem sumSq_le (M : ℝ) : ∀ l : List ℝ, (∀ x ∈ l, |x| ≤ M) → (l.map fun x => x ^ 2).sum ≤ (l.length : ℝ) * M ^ 2
  | [], _ => by simp
  | x :: l, h => by
    have h1 := sumSq_le M l fun y hy => h y (List.mem_cons_of_mem _ hy)
    have h2 : x ^ 2 ≤ M ^ 2 := by
      rw [← sq_abs x]
      exact pow_le_pow_left₀ (abs_nonneg x) (h x List.mem_cons_self) 2
    simp only [List.map_cons, List.sum_cons, List.length_cons]
    push_cast
    linarith

theorem sumSq_mem {l : List ℝ} {x : ℝ} (h : x ∈ l) : x ^ 2 ≤ (l.map fun x => x ^ 2).sum := by
  apply List.single_le_sum (l := l.map fun x => x ^ 2)
  · intro y hy
    obtain ⟨z, _, rfl⟩ := List.mem_map.1 hy
    positivity
  · exact List.mem_map_of_mem (f := fun x : ℝ => x ^ 2) h

/-- The root mean square is at most the peak, at least the peak divided by the square root of the number of samples, zero
exactly for records of zeros, and it scales with the absolute value of a factor. -/
theorem C137_rms_bounds (l : List ℝ) (r : ℝ) (h : l ≠ []) (hr : IsRms r l) :
    r ≤ maxAbs l ∧ maxAbs l ≤ Real.sqrt l.length * r ∧ (r = 0 ↔ ∀ x ∈ l, x = 0) ∧
    ∀ c, IsRms (|c| * r) (l.map (c * ·)) := by
  have hn : (0 : ℝ) < l.length := by exact_mod_cast List.length_pos_iff.2 h
  refine ⟨?_, ?_, ⟨?_, ?_⟩, ?_⟩
  · have h1 := sumSq_le (maxAbs l) l fun x hx => le_maxAbs hx
    rw [← hr.2] at h1
    exact (sq_le_sq₀ hr.1 (maxAbs_nonneg l)).1 (le_of_mul_le_mul_left h1 hn)
  · obtain ⟨x, hx, e⟩ := maxAbs_mem h
    have h1 := sumSq_mem hx
    rw [← hr.2, ← sq_abs, e] at h1
    refine (sq_le_sq₀ (maxAbs_nonneg l) (mul_nonneg (Real.sqrt_nonneg _) hr.1)).1 ?_
    rw [mul_pow, Real.sq_sqrt hn.le]
    exact h1
  · intro h0 x hx
    have h1 := sumSq_mem hx
    rw [← hr.2, h0] at h1
    have : x ^ 2 = 0 := le_antisymm (by simpa using h1) (sq_nonneg x)
    exact pow_eq_zero_iff (two_ne_zero) |>.1 this
  · intro h0
    have h1 : (l.map fun x => x ^ 2).sum = 0 := by
      apply List.sum_eq_zero
      intro y hy
      obtain ⟨x, hx, rfl⟩ := List.mem_map.1 hy
      rw [h0 x hx]; simp
    have h2 := hr.2
    rw [h1] at h2
    rcases mul_eq_zero.1 h2 with h3 | h3
    · exact absurd h3 hn.ne'
    · exact pow_eq_zero_iff (two_ne_zero) |>.1 h3
  · intro c
    refine ⟨mul_nonneg (abs_nonneg c) hr.1, ?_⟩
    rw [List.length_map, List.map_map, mul_pow, sq_abs, ← mul_assoc, mul_comm _ (c ^ 2), mul_assoc, hr.2, ← List.sum_map_mul_left]
    congr 1
    apply List.map_congr_left
    intro x _
    simp only [Function.comp]
    ring

theorem motionRms_inv {σ : CStore ℝ} {m : Motion ℝ} {r : ℝ × ℝ × ℝ} (h : motionRms σ m = .ok r) :
    ∃ v u, numInt (m.accel.read σ) = .ok (v, u) ∧ r = (rms (vals (m.accel.read σ)), rms (vals v), rms (vals u)) := by
  unfold motionRms at h
  cases hn : numInt (m.accel.read σ) with
  | error e => simp only [hn, bind, Except.bind] at h; cases h
  | ok vu =>
    obtain ⟨v, u⟩ := vu
    simp only [hn, bind, Except.bind, pure, Except.pure] at h
    exact ⟨v, u, rfl, (Except.ok.inj h).symm⟩

/-- What `mkMotion` computes from the given record `y` (after unit conversion). -/
theorem mkMotion_parts {σ τ : CStore ℝ} {a : Nat} {unit : MUnit} {ty : MType} {delta : Option ℝ} {m : Motion ℝ}
    (h : mkMotion σ (.two a) unit ty delta = (.ok m, τ)) :
    (ty = .accel → numInt (m.accel.read τ) = .ok (m.veloc.read τ, m.displ.read τ)) ∧
    (ty = .veloc → numDiff (m.veloc.read τ) = .ok (m.accel.read τ) ∧ ∃ w, numInt (m.veloc.read τ) = .ok (m.displ.read τ, w)) ∧
    (ty = .displ → numDiff (m.displ.read τ) = .ok (m.veloc.read τ) ∧ numDiff (m.veloc.read τ) = .ok (m.accel.read τ)) := by
  unfold mkMotion at h
  cases hr : readTwo σ (.two a) delta with
  | error e => rw [hr] at h; cases h
  | ok r =>
    rw [hr] at h
    obtain ⟨w, dt⟩ := r
    simp only at h
    by_cases c1 : unit = .bad
    · rw [if_pos c1] at h; cases h
    rw [if_neg c1] at h
    by_cases c2 : ty = .bad
    · rw [if_pos c2] at h; cases h
    rw [if_neg c2] at h
    by_cases c3 : (unit = .g ∨ unit = .gal) ∧ ty ≠ .accel
    · rw [if_pos c3] at h; cases h
    rw [if_neg c3] at h
    generalize hs : toSIinPlace σ w unit = s at h
    cases ty with
    | bad => exact absurd rfl c2
    | accel =>
      simp only [bind, Except.bind, pure, Except.pure] at h
      cases hn : numInt (s.1.read s.2) with
      | error e => rw [hn] at h; cases h
      | ok vu =>
        obtain ⟨v, u⟩ := vu
        rw [hn] at h
        cases h
        exact ⟨fun _ => hn, (fun hc => by cases hc), (fun hc => by cases hc)⟩
    | veloc =>
      simp only [bind, Except.bind, pure, Except.pure] at h
      cases hq : numDiff (s.1.read s.2) with
      | error e => rw [hq] at h; cases h
      | ok acc =>
        rw [hq] at h
        simp only at h
        cases hn : numInt (s.1.read s.2) with
        | error e => rw [hn] at h; cases h
        | ok vu =>
          obtain ⟨u, w2⟩ := vu
          rw [hn] at h
          cases h
          exact ⟨(fun hc => by cases hc), fun _ => ⟨hq, w2, hn⟩, (fun hc => by cases hc)⟩
    | displ =>
      simp only [bind, Except.bind, pure, Except.pure] at h
      cases hq : numDiff (s.1.read s.2) with
      | error e => rw [hq] at h; cases h
      | ok v =>
        rw [hq] at h
        simp only at h
        cases hq2 : numDiff v with
        | error e => rw [hq2] at h; cases h
        | ok acc =>
          rw [hq2] at h
          cases h
          exact ⟨(fun hc => by cases hc), (fun hc => by cases hc), fun _ => ⟨hq, hq2⟩⟩

/-- Every motion given as acceleration: the three values are the root mean squares of its acceleration, velocity and
displacement.  Missing: motions given as velocity or displacement, see `C137_rms_veloc_violated` and
`C137_rms_displ_violated`. -/
theorem C137_rms_partial (σ τ : CStore ℝ) (a : Nat) (unit : MUnit) (delta : Option ℝ) (m : Motion ℝ)
    (hm : mkMotion σ (.two a) unit .accel delta = (.ok m, τ)) :
    ∃ ra rv ru, motionRms τ m = .ok (ra, rv, ru) ∧ IsRms ra (vals (m.accel.read τ)) ∧ IsRms rv (vals (m.veloc.read τ)) ∧
      IsRms ru (vals (m.displ.read τ)) ∧ ra ≤ maxAbs (vals (m.accel.read τ)) ∧ rv ≤ maxAbs (vals (m.veloc.read τ)) ∧
      ru ≤ maxAbs (vals (m.displ.read τ)) := by
  have hn := (mkMotion_parts hm).1 rfl
  have hr : motionRms τ m = .ok (rms (vals (m.accel.read τ)), rms (vals (m.veloc.read τ)), rms (vals (m.displ.read τ))) := by
    unfold motionRms
    simp only [hn, bind, Except.bind, pure, Except.pure]
    rfl
  have hd : ∃ d, dtOf (m.accel.read τ) = .ok d := by
    unfold numInt at hn
    cases hd : dtOf (m.accel.read τ) with
    | error e => rw [hd] at hn; cases hn
    | ok d => exact ⟨d, rfl⟩
  obtain ⟨d, hd⟩ := hd
  have hl : m.accel.read τ ≠ [] := by intro h0; rw [h0] at hd; cases hd
  rw [numInt_ok d _ hd] at hn
  obtain ⟨hn1, hn2⟩ := Prod.mk.inj (Except.ok.inj hn)
  have hv : m.veloc.read τ ≠ [] := by
    rw [← hn1]
    intro h0
    have := congrArg List.length h0
    simp [times, vals, cumsum, cumsumFrom_length] at this
    exact hl this
  have hu : m.displ.read τ ≠ [] := by
    rw [← hn2]
    intro h0
    have := congrArg List.length h0
    simp [times, vals, cumsum, cumsumFrom_length] at this
    exact hl this
  have n1 : vals (m.accel.read τ) ≠ [] := by simpa [vals] using hl
  have n2 : vals (m.veloc.read τ) ≠ [] := by simpa [vals] using hv
  have n3 : vals (m.displ.read τ) ≠ [] := by simpa [vals] using hu
  exact ⟨_, _, _, hr, rms_isRms n1, rms_isRms n2, rms_isRms n3, (C137_rms_bounds _ _ n1 (rms_isRms n1)).1,
    (C137_rms_bounds _ _ n2 (rms_isRms n2)).1, (C137_rms_bounds _ _ n3 (rms_isRms n3)).1⟩

/-- For a motion given as velocity (uniform time axis), `rms_veloc` is the root mean square of the velocity minus its first
value; it is not the root mean square of `veloc`, for instance when the velocity is constant and not zero. -/
theorem C137_rms_veloc_violated (σ τ : CStore ℝ) (a : Nat) (unit : MUnit) (delta : Option ℝ) (m : Motion ℝ) (d : ℝ)
    (hd : d ≠ 0) (p : ℝ × ℝ) (rest : Rec ℝ) (hm : mkMotion σ (.two a) unit .veloc delta = (.ok m, τ))
    (hv : m.veloc.read τ = p :: rest) (h1 : 1 ≤ rest.length) (hu : Uniform d (times (p :: rest))) :
    ∃ ra rv ru, motionRms τ m = .ok (ra, rv, ru) ∧ IsRms ra (vals (m.accel.read τ)) ∧
      IsRms rv ((vals (m.veloc.read τ)).map (· - p.2)) ∧
      ((∀ q ∈ rest, q.2 = p.2) → p.2 ≠ 0 → rv = 0 ∧ ¬ IsRms rv (vals (m.veloc.read τ))) := by
  obtain ⟨hq, _⟩ := (mkMotion_parts hm).2.1 rfl
  rw [hv] at hq
  obtain ⟨a', v, u, e1, e2, e3⟩ := C19_int_of_diff d hd p rest h1 hu
  rw [e1] at hq
  cases hq
  have hr : motionRms τ m = .ok (rms (vals (m.accel.read τ)), rms (vals v), rms (vals u)) := by
    unfold motionRms
    simp only [e2, bind, Except.bind, pure, Except.pure]
    rfl
  have ev : vals v = (vals (m.veloc.read τ)).map (· - p.2) := by
    rw [e3, hv]; simp [vals]
  have nv : (vals (m.veloc.read τ)).map (· - p.2) ≠ [] := by rw [hv]; simp [vals]
  have na : vals (m.accel.read τ) ≠ [] := by
    intro h0
    have h0' : m.accel.read τ = [] := by simpa [vals] using h0
    rw [h0'] at e2
    cases e2
  refine ⟨_, _, _, hr, rms_isRms na, ?_, ?_⟩
  · rw [ev]; exact rms_isRms nv
  · intro hc hp
    have hz : rms (vals v) = 0 := by
      rw [ev]
      apply ((C137_rms_bounds _ _ nv (rms_isRms nv)).2.2.1).2
      intro x hx
      obtain ⟨y, hy, rfl⟩ := List.mem_map.1 hx
      rw [hv] at hy
      obtain ⟨q, hq, rfl⟩ := List.mem_map.1 hy
      rcases List.mem_cons.1 hq with rfl | hq
      · simp
      · rw [hc q hq]; simp
    refine ⟨hz, fun hi => hp ?_⟩
    have nn : vals (m.veloc.read τ) ≠ [] := by rw [hv]; simp [vals]
    exact ((C137_rms_bounds _ _ nn hi).2.2.1).1 hz p.2 (by rw [hv]; simp [vals])

/-- For a motion given as displacement (uniform time axis), `rms_veloc` is the root mean square of its velocity, but
`rms_displ` is that of the displacement minus its first value, which differs for instance for a displacement that ends
everywhere where it starts, away from zero. -/
theorem C137_rms_displ_violated (σ τ : CStore ℝ) (a : Nat) (unit : MUnit) (delta : Option ℝ) (m : Motion ℝ) (d : ℝ)
    (hd : d ≠ 0) (p : ℝ × ℝ) (rest : Rec ℝ) (hm : mkMotion σ (.two a) unit .displ delta = (.ok m, τ))
    (hv : m.displ.read τ = p :: rest) (h1 : 1 ≤ rest.length) (hu : Uniform d (times (p :: rest))) :
    ∃ ra rv ru, motionRms τ m = .ok (ra, rv, ru) ∧ IsRms ra (vals (m.accel.read τ)) ∧ IsRms rv (vals (m.veloc.read τ)) ∧
      IsRms ru ((vals (m.displ.read τ)).map (· - p.2)) ∧
      ((∀ q ∈ rest, q.2 = p.2) → p.2 ≠ 0 → ru = 0 ∧ ¬ IsRms ru (vals (m.displ.read τ))) := by
  obtain ⟨hq, hq2⟩ := (mkMotion_parts hm).2.2 rfl
  rw [hv] at hq
  have hvel := hq
  rw [numDiff_uniform d hd _ hu (by simp)] at hvel
  have hvel := (Except.ok.inj hvel).symm
  -- the velocity starts from zero
  obtain ⟨a', v', u', e1, e2, e3⟩ := C19_int_of_diff d hd p rest h1 hu
  rw [e1] at hq
  cases hq
  have hl : (times (p :: rest)).length = (0 :: (diff (vals (p :: rest))).map (· / d)).length := by
    simp [times, vals, diff_length]
  have ht : times (m.veloc.read τ) = times (p :: rest) := by rw [hvel]; exact zip_fst _ _ hl
  obtain ⟨q, vr, hvq, hq0⟩ : ∃ q vr, m.veloc.read τ = q :: vr ∧ q.2 = 0 := by
    rw [hvel]
    simp only [times, List.map_cons, List.zip_cons_cons]
    exact ⟨_, _, rfl, rfl⟩
  have hlr : 1 ≤ vr.length := by
    have := congrArg List.length ht
    rw [hvq] at this
    simp [times] at this
    omega
  obtain ⟨a2, v2, u2, g1, g2, g3⟩ := C19_int_of_diff d hd q vr hlr (by rw [← hvq, ht]; exact hu)
  rw [hvq, g1] at hq2
  cases hq2
  have gv : v2 = m.veloc.read τ := by
    rw [g3, hvq]
    conv_rhs => rw [← List.map_id (q :: vr)]
    apply List.map_congr_left
    intro x _
    simp [hq0]
  -- the integrated displacement is the first integral of the velocity
  have hda : dtOf (m.accel.read τ) = .ok d ∧ dtOf (m.veloc.read τ) = .ok d := by
    have hua : times (m.accel.read τ) = times (m.veloc.read τ) := by
      have := g1
      rw [numDiff_uniform d hd _ (by rw [← hvq, ht]; exact hu) (by simp)] at this
      rw [← Except.ok.inj this, hvq]
      exact zip_fst _ _ (by simp [times, vals, diff_length])
    constructor
    · refine uniform_dtOf (by rw [hua, ht]; exact hu) ?_
      have := congrArg List.length hua
      rw [hvq] at this
      simp [times] at this
      omega
    · exact uniform_dtOf (by rw [ht]; exact hu) (by rw [hvq]; simp; omega)
  have gu : vals u2 = vals v' := by
    rw [numInt_ok d _ hda.1] at g2
    rw [numInt_ok d _ hda.2] at e2
    obtain ⟨g21, g22⟩ := Prod.mk.inj (Except.ok.inj g2)
    obtain ⟨e21, _⟩ := Prod.mk.inj (Except.ok.inj e2)
    have k1 : vals v2 = (cumsum (vals (m.accel.read τ))).map (· * d) := by
      rw [← g21]
      exact zip_snd _ _ (by simp [times, vals, cumsum, cumsumFrom_length])
    have k2 : vals u2 = (cumsum ((cumsum (vals (m.accel.read τ))).map (· * d))).map (· * d) := by
      rw [← g22]
      exact zip_snd _ _ (by simp [times, vals, cumsum, cumsumFrom_length])
    have k3 : vals v' = (cumsum (vals (m.veloc.read τ))).map (· * d) := by
      rw [← e21]
      exact zip_snd _ _ (by simp [times, vals, cumsum, cumsumFrom_length])
    rw [k2, ← k1, gv, k3]
  have hr : motionRms τ m = .ok (rms (vals (m.accel.read τ)), rms (vals v2), rms (vals u2)) := by
    unfold motionRms
    simp only [g2, bind, Except.bind, pure, Except.pure]
    rfl
  have eu : vals u2 = (vals (m.displ.read τ)).map (· - p.2) := by
    rw [gu, e3, hv]; simp [vals]
  have nv : (vals (m.displ.read τ)).map (· - p.2) ≠ [] := by rw [hv]; simp [vals]
  have na : vals (m.accel.read τ) ≠ [] := by
    intro h0
    have h0' : m.accel.read τ = [] := by simpa [vals] using h0
    rw [h0'] at g2
    cases g2
  refine ⟨_, _, _, hr, rms_isRms na, ?_, ?_, ?_⟩
  · rw [gv]; exact rms_isRms (by rw [hvq]; simp [vals])
  · rw [eu]; exact rms_isRms nv
  · intro hc hp
    have hz : rms (vals u2) = 0 := by
      rw [eu]
      apply ((C137_rms_bounds _ _ nv (rms_isRms nv)).2.2.1).2
      intro x hx
      obtain ⟨y, hy, rfl⟩ := List.mem_map.1 hx
      rw [hv] at hy
      obtain ⟨q, hq, rfl⟩ := List.mem_map.1 hy
      rcases List.mem_cons.1 hq with rfl | hq
      · simp
      · rw [hc q hq]; simp
    refine ⟨hz, fun hi => hp ?_⟩
    have nn : vals (m.displ.read τ) ≠ [] := by rw [hv]; simp [vals]
    exact ((C137_rms_bounds _ _ nn hi).2.2.1).1 hz p.2 (by rw [hv]; simp [vals])

/-- The peak Arias intensity of a record that ends with a zero is `pi / (2 g)` times the duration `npts · dt` times the
square of `rms_accel`. -/
theorem C137_arias (c dt ra : ℝ) (hc : 0 < c) (hdt : 0 < dt) (x : Rec ℝ) (q : ℝ × ℝ) (hq : q.2 = 0) (hx : dtOf (x ++ [q]) = .ok dt)
    (he : ∃ p ∈ x, p.2 ≠ 0) (hr : IsRms ra (vals (x ++ [q]))) :
    ∃ r, calcArias c (x ++ [q]) = .ok r ∧ r.peak = c * dt * ((x ++ [q]).length : ℝ) * ra ^ 2 := by
  obtain ⟨p, hp, hp0⟩ := he
  obtain ⟨i, hi, rfl⟩ := List.mem_iff_getElem.1 hp
  obtain ⟨r, h1, h2, _, h4, _, _, _, h8, _⟩ := C22_arias c dt hc hdt (x ++ [q]) hx
    ⟨i, x[i].2, by simp [vals, List.getElem?_append, hi], by simp; omega, hp0⟩
  refine ⟨r, h1, ?_⟩
  have hlast := h4 x.length (by simp)
  have hl : (vals r.ia).length = x.length + 1 := by
    have := congrArg List.length h2
    simpa [times, vals] using this
  rw [List.getLast?_eq_getElem?, hl, Nat.add_sub_cancel, hlast] at h8
  have h8 := Option.some.inj h8
  rw [← h8]
  have e1 : (vals (x ++ [q])).take x.length = vals x := by
    simp [vals]
  have e2 := hr.2
  simp only [vals, List.map_append, List.sum_append, List.map_cons, List.map_nil, List.sum_cons, List.sum_nil, hq] at e2
  rw [e1]
  have e3 : (((x ++ [q]).length : ℝ)) * ra ^ 2 = ((vals x).map fun a => a ^ 2).sum := by
    have : ((List.map Prod.snd x ++ [(0 : ℝ)]).length : ℝ) = ((x ++ [q]).length : ℝ) := by simp
    rw [← this, e2]; simp [vals]
  rw [mul_assoc (c * dt), e3]

/-! ### Fourier spectra -/

theorem sumSq_range : ∀ a : List ℝ, ∑ j ∈ Finset.range a.length, (a.getD j 0) ^ 2 = (a.map fun x => x ^ 2).sum
  | [] => by simp
  | x :: a => by
    rw [List.length_cons, Finset.sum_range_succ', List.map_cons, List.sum_cons, ← sumSq_range a]
    simp only [List.getD_cons_succ, List.getD_cons_zero]
    ring

/-- Parseval's identity of the discrete Fourier transform. -/
theorem parseval (a : List ℝ) : ∑ k ∈ Finset.range a.length, ‖coeff a k‖ ^ 2 = (a.length : ℝ) * (a.map fun x => x ^ 2).sum := by
  by_cases hn : a.length = 0
  · rw [List.length_eq_zero_iff] at hn; subst hn; simp
  have hn0 : 0 < a.length := Nat.pos_of_ne_zero hn
  have hnc : (a.length : ℂ) ≠ 0 := by exact_mod_cast hn
  have hco : ∀ k, k < a.length → (fftL (a.map fun r : ℝ => (r : ℂ))).getD k 0 = coeff a k := by
    intro k hk
    rw [fftL_getD _ _ (by simpa using hk), coeff, List.length_map]
    exact Finset.sum_congr rfl fun j _ => by rw [getD_ofReal]
  have hinv : ∀ m, m < a.length → ∑ k ∈ Finset.range a.length, coeff a k * exp (2 * Real.pi * I * k * m / a.length)
      = (a.length : ℂ) * ((a.getD m 0 : ℝ) : ℂ) := by
    intro m hm
    have h : (ifftL (fftL (a.map fun r : ℝ => (r : ℂ)))).getD m 0 = (a.map fun r : ℝ => (r : ℂ)).getD m 0 := by rw [ifft_fft]
    rw [ifftL_getD _ _ (by rw [fftL_length]; simpa using hm), fftL_length, List.length_map, getD_ofReal,
      div_eq_iff hnc] at h
    rw [mul_comm (a.length : ℂ), ← h]
    exact Finset.sum_congr rfl fun k hk => by rw [hco k (Finset.mem_range.1 hk)]
  have hconj : ∀ k, (starRingEnd ℂ) (coeff a k) =
      ∑ j ∈ Finset.range a.length, ((a.getD j 0 : ℝ) : ℂ) * exp (2 * Real.pi * I * k * j / a.length) := by
    intro k
    rw [coeff, map_sum]
    refine Finset.sum_congr rfl fun j _ => ?_
    rw [map_mul, Complex.conj_ofReal, ← Complex.exp_conj]
    congr 2
    simp only [map_neg, map_div₀, map_mul, map_natCast, Complex.conj_I, Complex.conj_ofReal, map_ofNat]
    ring
  have hsum : (∑ k ∈ Finset.range a.length, (((‖coeff a k‖ ^ 2 : ℝ)) : ℂ)) =
      (((a.length : ℝ) * (a.map fun x => x ^ 2).sum : ℝ) : ℂ) := by
    have h1 : ∀ k ∈ Finset.range a.length, (((‖coeff a k‖ ^ 2 : ℝ)) : ℂ) =
        ∑ j ∈ Finset.range a.length, ((a.getD j 0 : ℝ) : ℂ) * (coeff a k * exp (2 * Real.pi * I * k * j / a.length)) := by
      intro k _
      push_cast
      rw [← Complex.mul_conj' (coeff a k), hconj, Finset.mul_sum]
      exact Finset.sum_congr rfl fun j _ => by ring
    rw [Finset.sum_congr rfl h1, Finset.sum_comm]
    have h2 : ∀ j ∈ Finset.range a.length, ∑ k ∈ Finset.range a.length, ((a.getD j 0 : ℝ) : ℂ) *
        (coeff a k * exp (2 * Real.pi * I * k * j / a.length)) = (((a.length : ℝ) * (a.getD j 0) ^ 2 : ℝ) : ℂ) := by
      intro j hj
      rw [← Finset.mul_sum, hinv j (Finset.mem_range.1 hj)]
      push_cast
      ring
    rw [Finset.sum_congr rfl h2, ← Complex.ofReal_sum, ← Finset.mul_sum]
    rw [sumSq_range]
  rw [← Complex.ofReal_sum] at hsum
  exact_mod_cast hsum

/-- `get_Fourier_spectrum` of every motion with a time step and enough samples: row `k` holds the coefficient of `k` cycles
over the record, and real and complex spectra have the same amplitudes.  Missing: the frequency of the row is that of
`k + 1` cycles, see `C137_fourier_bins_violated`; two samples, see `C137_fourier_short_violated`. -/
theorem C137_fourier_partial (rv ds : Bool) (σ : CStore ℝ) (m : Motion ℝ) (dt : ℝ) (hd : dtOf (m.accel.read σ) = .ok dt)
    (h0 : dt ≠ 0) (hn : ds = true ∨ 3 ≤ (m.accel.read σ).length) :
    ∃ s, motionFourier rv ds σ m = .ok s ∧
      s.freq.length = (if ds then (m.accel.read σ).length else ((m.accel.read σ).length + 1) / 2) ∧
      s.rawDf = 1 / (((m.accel.read σ).length : ℝ) * dt) ∧
      ∀ k < s.freq.length, s.freq[k]? = some (((k : ℝ) + 1) / (((m.accel.read σ).length : ℝ) * dt)) ∧
        s.amplitude[k]? = some ‖coeff (vals (m.accel.read σ)) k‖ ∧
        (rv = false → s.spectrum[k]? = some (coeff (vals (m.accel.read σ)) k)) := by
  obtain ⟨r, hr⟩ := C105_succeeds rv ds (m.accel.read σ) dt hd h0
  obtain ⟨dt', hd', _, hl, hk⟩ := C105_values_partial rv ds _ r hr
  rw [hd] at hd'
  cases hd'
  have hlen : 2 ≤ (m.accel.read σ).length := by
    match m.accel.read σ, hd with
    | _ :: _ :: _, _ => simp
  have hrl : 2 ≤ r.length := by
    rw [hl]
    rcases hn with rfl | hn
    · simpa using hlen
    · split <;> omega
  obtain ⟨s, hs, ef, es, _, _, _, _, edf⟩ := C107_raw r none hrl
  have hval : ∀ k < r.length, (s.spectrum[k]?) = some (if rv then ((‖coeff (vals (m.accel.read σ)) k‖ : ℝ) : ℂ)
      else coeff (vals (m.accel.read σ)) k) := by
    intro k hkl
    rw [es, List.getElem?_map, hk k hkl]; rfl
  refine ⟨s, by unfold motionFourier; simp only [hr, bind, Except.bind, hs], by rw [ef, List.length_map, hl], ?_, ?_⟩
  · rw [edf _ _ (hk 0 (by omega)) (hk 1 (by omega))]
    push_cast
    rw [← sub_div]
    congr 1; ring
  · intro k hkl
    rw [ef, List.length_map] at hkl
    refine ⟨by rw [ef, List.getElem?_map, hk k hkl]; rfl, ?_, fun hrv => by rw [hval k hkl, hrv]; rfl⟩
    obtain ⟨r2, f2, v2, _, hm2, _, ⟨_, _, hv2⟩ | ⟨g, hg, _⟩⟩ := newSpect_inv hs
    · obtain ⟨_, _, _, _, _, e6, e7, _⟩ := mkSpect_inv hm2
      rw [e7, List.getElem?_map, ← e6, hval k hkl]
      cases rv <;> simp
    · cases hg

/-- No row of a Fourier spectrum has frequency zero: the mean of the record (the coefficient of zero cycles) is reported at
the frequency of one cycle over the record. -/
theorem C137_fourier_bins_violated (rv ds : Bool) (σ : CStore ℝ) (m : Motion ℝ) (s : FreqSpec)
    (h : motionFourier rv ds σ m = .ok s) (hd : 0 < s.rawDf) :
    (∀ f ∈ s.freq, 0 < f) ∧ s.freq[0]? = some s.rawDf ∧ s.amplitude[0]? = some |(vals (m.accel.read σ)).sum| := by
  unfold motionFourier at h
  cases hr : fourierTransform rv ds (m.accel.read σ) with
  | error e => simp only [hr, bind, Except.bind] at h; cases h
  | ok r =>
    simp only [hr, bind, Except.bind] at h
    obtain ⟨dt, hdt, h0, hl, hk⟩ := C105_values_partial rv ds _ r hr
    have hrl : 2 ≤ r.length := by
      match r, h with
      | [], h => cases h
      | [_], h => cases h
      | _ :: _ :: _, _ => simp
    have hne : m.accel.read σ ≠ [] := by intro hc; rw [hc] at hdt; cases hdt
    have hpos : (0 : ℝ) < (m.accel.read σ).length := by exact_mod_cast List.length_pos_iff.2 hne
    have hor : ds = true ∨ 3 ≤ (m.accel.read σ).length := by
      cases ds
      · right
        simp only [Bool.false_eq_true, if_false] at hl
        omega
      · exact Or.inl rfl
    obtain ⟨s', hs', _, edf, hrow⟩ := C137_fourier_partial rv ds σ m dt hdt h0 hor
    unfold motionFourier at hs'
    simp only [hr, bind, Except.bind, h] at hs'
    cases hs'
    rw [edf] at hd
    have hdp : 0 < dt := by
      have := (one_div_pos.1 hd)
      exact (pos_iff_pos_of_mul_pos this).1 hpos
    have hlf : 2 ≤ s.freq.length := by
      obtain ⟨s2, hs2, ef, _⟩ := C107_raw r none hrl
      rw [h] at hs2
      cases hs2
      rw [ef, List.length_map]; exact hrl
    refine ⟨?_, ?_, ?_⟩
    · intro f hf
      obtain ⟨k, hkl, rfl⟩ := List.mem_iff_getElem.1 hf
      have := (hrow k hkl).1
      rw [List.getElem?_eq_getElem hkl] at this
      rw [Option.some.inj this]
      positivity
    · rw [(hrow 0 (by omega)).1, edf]; simp
    · rw [(hrow 0 (by omega)).2.1]
      congr 1
      have : coeff (vals (m.accel.read σ)) 0 = (((vals (m.accel.read σ)).sum : ℝ) : ℂ) := by
        unfold coeff
        simp only [Nat.cast_zero, mul_zero, zero_div, neg_zero, Complex.exp_zero, mul_one]
        rw [← Complex.ofReal_sum]
        congr 1
        generalize vals (m.accel.read σ) = l
        induction l with
        | nil => simp
        | cons x l ih =>
          rw [List.length_cons, Finset.sum_range_succ', List.sum_cons, ← ih]
          simp only [List.getD_cons_succ, List.getD_cons_zero]
          ring
      rw [this, Complex.norm_real, Real.norm_eq_abs]

/-- A motion of two samples has a double-sided spectrum, but its single-sided spectrum is rejected with a ValueError that
asks for the frequency interval. -/
theorem C137_fourier_short_violated (rv : Bool) (σ : CStore ℝ) (m : Motion ℝ) (p q : ℝ × ℝ) (ha : m.accel.read σ = [p, q])
    (h0 : p.1 ≠ q.1) : motionFourier rv false σ m = .error .valueError ∧ ∃ s, motionFourier rv true σ m = .ok s := by
  have hd : dtOf (m.accel.read σ) = .ok (q.1 - p.1) := by rw [ha]; rfl
  have hz : q.1 - p.1 ≠ 0 := sub_ne_zero.2 (Ne.symm h0)
  refine ⟨?_, ?_⟩
  · obtain ⟨r, hr⟩ := C105_succeeds rv false (m.accel.read σ) _ hd hz
    obtain ⟨_, _, _, hl, _⟩ := C105_values_partial rv false _ r hr
    rw [ha] at hl
    simp at hl
    unfold motionFourier
    simp only [hr, bind, Except.bind]
    match r, hl with
    | [_], _ => rfl
  · obtain ⟨s, hs, _⟩ := C137_fourier_partial rv true σ m _ hd hz (Or.inl rfl)
    exact ⟨s, hs⟩

/-- Parseval: the squared amplitudes of the double-sided spectrum add up to the squared number of samples times the squared
`rms_accel`. -/
theorem C137_parseval (rv : Bool) (σ : CStore ℝ) (m : Motion ℝ) (s : FreqSpec) (ra ve di : ℝ)
    (h : motionFourier rv true σ m = .ok s) (hr : motionRms σ m = .ok (ra, ve, di)) :
    (s.amplitude.map fun x => x ^ 2).sum = ((m.accel.read σ).length : ℝ) ^ 2 * ra ^ 2 := by
  obtain ⟨v, u, hn, e⟩ := motionRms_inv hr
  cases e
  have hne : m.accel.read σ ≠ [] := by intro hc; rw [hc] at hn; cases hn
  have hne' : vals (m.accel.read σ) ≠ [] := by simpa [vals] using hne
  have hrms := (rms_isRms hne').2
  unfold motionFourier at h
  cases hf : fourierTransform rv true (m.accel.read σ) with
  | error e => simp only [hf, bind, Except.bind] at h; cases h
  | ok r =>
    simp only [hf, bind, Except.bind] at h
    obtain ⟨dt, hdt, h0, _, _⟩ := C105_values_partial rv true _ r hf
    obtain ⟨s', hs', hl, _, hrow⟩ := C137_fourier_partial rv true σ m dt hdt h0 (Or.inl rfl)
    unfold motionFourier at hs'
    simp only [hf, bind, Except.bind, h] at hs'
    cases hs'
    simp only [if_true] at hl
    have hla : s.amplitude.length = (m.accel.read σ).length := by
      obtain ⟨h1, _, h3, _⟩ := C107_polar _ _ _ _ h
      rw [h1, ← h3, hl]
    have hvl : (vals (m.accel.read σ)).length = (m.accel.read σ).length := by simp [vals]
    rw [← sumSq_range, hla]
    have : ∀ k ∈ Finset.range (m.accel.read σ).length, (s.amplitude.getD k 0) ^ 2 = ‖coeff (vals (m.accel.read σ)) k‖ ^ 2 := by
      intro k hk
      rw [List.getD_eq_getElem?_getD, (hrow k (by rw [hl]; exact Finset.mem_range.1 hk)).2.1]
      rfl
    rw [Finset.sum_congr rfl this, ← hvl, parseval, ← hrms]
    ring

/-! ### Response spectra -/

theorem logspace_get {a b : ℝ} (ha : 0 < a) (hb : 0 < b) (n k : Nat) (hk : k < n) :
    (logspace a b n)[k]? = some (a * (b / a) ^ ((k : ℝ) / ((n : ℝ) - 1))) := by
  unfold logspace
  rw [List.getElem?_map, linspace_getElem? _ _ _ _ hk, Option.map_some]
  congr 1
  rw [Real.rpow_add (by norm_num), Real.rpow_logb (by norm_num) (by norm_num) ha, ← Real.logb_div hb.ne' ha.ne',
    show (k : ℝ) * (Real.logb 10 (b / a) / ((n : ℝ) - 1)) = Real.logb 10 (b / a) * ((k : ℝ) / ((n : ℝ) - 1)) by ring,
    Real.rpow_mul (by norm_num), Real.rpow_logb (by norm_num) (by norm_num) (div_pos hb ha)]

theorem motionResponse_inv {tMin tMax damping : ℝ} {nPts interval : Nat} {σ : CStore ℝ} {m : Motion ℝ} {o : RespOut}
    (h : motionResponse tMin tMax nPts damping interval σ m = .ok o) :
    nPts ≠ 0 ∧ ∃ rows, responseSpectraR damping (logspace tMin tMax nPts) interval (m.accel.read σ) = .ok rows ∧
      o = ⟨logspace tMin tMax nPts, rows.map (·.sa), rows.map (·.psa), rows.map (·.sv), rows.map (·.psv), rows.map (·.sd),
        (logspace tMin tMax nPts).map fun T => 1 / T⟩ := by
  unfold motionResponse at h
  cases hr : responseSpectraR damping (logspace tMin tMax nPts) interval (m.accel.read σ) with
  | error e => simp only [hr, bind, Except.bind] at h; cases h
  | ok rows =>
    simp only [hr, bind, Except.bind] at h
    by_cases c : nPts = 0
    · rw [if_pos c] at h; cases h
    · rw [if_neg c] at h
      exact ⟨c, rows, rfl, (Except.ok.inj h).symm⟩

/-- Response spectra of a motion: `n_pts` periods from `T_min` to `T_max` in geometric progression with their frequencies,
and for every period the peaks of the exact response of the oscillator of that period, with the pseudo spectra tied to the
displacement. -/
theorem C137_response (tMin tMax damping : ℝ) (nPts interval : Nat) (σ : CStore ℝ) (m : Motion ℝ) (o : RespOut)
    (h0 : 0 < tMin) (h1 : 0 < tMax) (hx0 : 0 ≤ damping) (hx1 : damping < 1)
    (h : motionResponse tMin tMax nPts damping interval σ m = .ok o) :
    o.tn.length = nPts ∧ o.sa.length = nPts ∧ o.psa.length = nPts ∧ o.sv.length = nPts ∧ o.psv.length = nPts ∧
    o.sd.length = nPts ∧ o.fn.length = nPts ∧ o.tn[0]? = some tMin ∧ (2 ≤ nPts → o.tn[nPts - 1]? = some tMax) ∧
    ∃ dt, dtOf (subsample interval (m.accel.read σ)) = .ok dt ∧
    ∀ k < nPts, ∃ T, o.tn[k]? = some T ∧ T = tMin * (tMax / tMin) ^ ((k : ℝ) / ((nPts : ℝ) - 1)) ∧ o.fn[k]? = some (1 / T) ∧
      (0 < dt → ∀ u v : ℝ → ℝ, Driven damping (2 * Real.pi / T) dt (vals (subsample interval (m.accel.read σ))) u v →
        let peak := fun f : Nat → ℝ => maxAbs ((List.range (subsample interval (m.accel.read σ)).length).map f)
        o.sd[k]? = some (peak fun j => u (j * dt)) ∧ o.sv[k]? = some (peak fun j => v (j * dt)) ∧
        o.sa[k]? = some (peak fun j => -(2 * damping * (2 * Real.pi / T) * v (j * dt)) - (2 * Real.pi / T) ^ 2 * u (j * dt)) ∧
        o.psv[k]? = some (2 * Real.pi / T * peak fun j => u (j * dt)) ∧
        o.psa[k]? = some ((2 * Real.pi / T) ^ 2 * peak fun j => u (j * dt))) := by
  obtain ⟨hn, rows, hr, rfl⟩ := motionResponse_inv h
  obtain ⟨hl, dt, hdt, hrow⟩ := C28_response damping hx0 hx1 _ interval _ rows hr
  rw [logspace_length] at hl
  have hlog := logspace_length tMin tMax nPts
  refine ⟨hlog, by simpa using hl, by simpa using hl, by simpa using hl, by simpa using hl, by simpa using hl,
    by simpa using hlog, ?_, ?_, dt, hdt, ?_⟩
  · simp only
    rw [logspace_get h0 h1 _ _ (by omega)]
    simp
  · intro h2
    simp only
    rw [logspace_get h0 h1 _ _ (by omega)]
    congr 1
    have hc : (((nPts - 1 : ℕ)) : ℝ) = (nPts : ℝ) - 1 := by rw [Nat.cast_sub (by omega)]; simp
    have hne : ((nPts : ℝ) - 1) ≠ 0 := by
      have : (2 : ℝ) ≤ nPts := by exact_mod_cast h2
      have : (0 : ℝ) < (nPts : ℝ) - 1 := by linarith
      exact this.ne'
    rw [hc, div_self hne, Real.rpow_one]
    field_simp
  · intro k hk
    have hT := logspace_get h0 h1 nPts k hk
    have hTp : 0 < tMin * (tMax / tMin) ^ ((k : ℝ) / ((nPts : ℝ) - 1)) :=
      mul_pos h0 (Real.rpow_pos_of_pos (div_pos h1 h0) _)
    refine ⟨_, hT, rfl, by simp only; rw [List.getElem?_map, hT]; rfl, fun hdp u v hD => ?_⟩
    obtain ⟨row, er, e1, e2, e3, e4, e5⟩ := hrow k _ hT hTp hdp u v hD
    simp only [List.getElem?_map, er, Option.map_some]
    refine ⟨by rw [e1], by rw [e2], by rw [e3], by rw [e4, e1], by rw [e5, e1]⟩

/-- Response spectra exist for every evenly sampled motion that keeps at least two samples, every positive number of
periods. -/
theorem C137_response_succeeds (tMin tMax damping d : ℝ) (nPts interval : Nat) (σ : CStore ℝ) (m : Motion ℝ)
    (hn : nPts ≠ 0) (hi : interval ≠ 0) (hu : Uniform d (times (m.accel.read σ))) (hl : interval < (m.accel.read σ).length) :
    ∃ o, motionResponse tMin tMax nPts damping interval σ m = .ok o := by
  have hsl : 2 ≤ (subsample interval (m.accel.read σ)).length := by
    rw [(subsample_get interval (by omega) (m.accel.read σ)).1, Nat.le_div_iff_mul_le (by omega)]
    omega
  have hsg : ∀ (i : Nat) x, (subsample interval (m.accel.read σ))[i]? = some x → (m.accel.read σ)[i * interval]? = some x := by
    intro i x hx
    have hlt : i < (subsample interval (m.accel.read σ)).length := by
      by_contra hc
      rw [List.getElem?_eq_none (by omega)] at hx
      cases hx
    rw [(subsample_get interval (by omega) (m.accel.read σ)).1] at hlt
    rw [← (subsample_get interval (by omega) (m.accel.read σ)).2 i hlt]
    exact hx
  have hus : Uniform ((interval : ℝ) * d) (times (subsample interval (m.accel.read σ))) := by
    have hstep : ∀ (n i : Nat) (a b : ℝ), (times (m.accel.read σ))[i]? = some a → (times (m.accel.read σ))[i + n]? = some b →
        b - a = (n : ℝ) * d := by
      intro n
      induction n with
      | zero => intro i a b ha hb; rw [Nat.add_zero, ha] at hb; cases hb; simp
      | succ n ih =>
        intro i a b ha hb
        have hlt : i + n < (times (m.accel.read σ)).length := by
          by_contra hc
          rw [List.getElem?_eq_none (by omega)] at hb
          cases hb
        have e1 := ih i a _ ha (List.getElem?_eq_getElem hlt)
        have e2 := hu (i + n) _ b (List.getElem?_eq_getElem hlt) (by rw [← hb]; rfl)
        push_cast
        linarith
    intro i a b ha hb
    unfold times at ha hb
    rw [List.getElem?_map, Option.map_eq_some_iff] at ha hb
    obtain ⟨x, hx, rfl⟩ := ha
    obtain ⟨y, hy, rfl⟩ := hb
    refine hstep interval (i * interval) x.1 y.1 ?_ ?_
    · unfold times; rw [List.getElem?_map, hsg i x hx]; rfl
    · rw [show i * interval + interval = (i + 1) * interval by ring]
      unfold times; rw [List.getElem?_map, hsg (i + 1) y hy]; rfl
  have hsp : spacingOk (times (subsample interval (m.accel.read σ))) = .ok () := by
    unfold spacingOk
    rw [diff_uniform _ _ hus]
    obtain ⟨j, hj⟩ : ∃ j, (times (subsample interval (m.accel.read σ))).length - 1 = j + 1 :=
      ⟨(subsample interval (m.accel.read σ)).length - 2, by simp [times]; omega⟩
    rw [hj, List.replicate_succ]
    simp only
    rw [if_pos]
    intro x hx
    have : x = (interval : ℝ) * d := by
      rcases List.mem_cons.1 hx with h | h
      · exact h
      · exact List.eq_of_mem_replicate h
    rw [this]
    norm_num
  have hdt := uniform_dtOf hus hsl
  unfold motionResponse responseSpectraR responseSpectra
  simp only [if_neg hi]
  have e : List.map Prod.fst (subsample interval (m.accel.read σ)) = times (subsample interval (m.accel.read σ)) := rfl
  simp only [e, hsp, hdt, bind, Except.bind, pure, Except.pure]
  rw [if_neg hn]
  exact ⟨_, rfl⟩

/-- All five spectra of a motion of accelerations `c · a` are `|c|` times those of `a`, at the same periods. -/
theorem C137_response_scaling (tMin tMax damping c : ℝ) (nPts interval : Nat) (σ τ : CStore ℝ) (m m' : Motion ℝ) (o : RespOut)
    (hm : m'.accel.read τ = (m.accel.read σ).map fun p => (p.1, c * p.2))
    (h : motionResponse tMin tMax nPts damping interval σ m = .ok o) :
    ∃ o', motionResponse tMin tMax nPts damping interval τ m' = .ok o' ∧ o'.tn = o.tn ∧ o'.fn = o.fn ∧
      o'.sa = o.sa.map (|c| * ·) ∧ o'.psa = o.psa.map (|c| * ·) ∧ o'.sv = o.sv.map (|c| * ·) ∧
      o'.psv = o.psv.map (|c| * ·) ∧ o'.sd = o.sd.map (|c| * ·) := by
  obtain ⟨hn, rows, hr, rfl⟩ := motionResponse_inv h
  have e : responseSpectraR damping (logspace tMin tMax nPts) interval
      ((m.accel.read σ).map fun p => (p.1, c * p.2)) = _ := C26_scaling _ _ _ _ _ c rows hr
  rw [← hm] at e
  unfold motionResponse
  simp only [e, bind, Except.bind]
  rw [if_neg hn]
  refine ⟨_, rfl, rfl, rfl, ?_, ?_, ?_, ?_, ?_⟩ <;>
    · simp only [List.map_map]
      rfl

/-- No periods, or a sub-sampling interval of zero: ValueError. -/
theorem C137_response_rejects (tMin tMax damping : ℝ) (nPts interval : Nat) (σ : CStore ℝ) (m : Motion ℝ) (p q : ℝ × ℝ)
    (rest : Rec ℝ) (ha : m.accel.read σ = p :: q :: rest) :
    (interval = 0 → motionResponse tMin tMax nPts damping interval σ m = .error .valueError) ∧
    ∀ o, motionResponse tMin tMax 0 damping interval σ m ≠ .ok o := by
  refine ⟨?_, ?_⟩
  · rintro rfl
    unfold motionResponse responseSpectraR responseSpectra
    rfl
  · intro o h
    exact (motionResponse_inv h).1 rfl

/-- A motion with all three kinds of results. -/
example : ∃ (σ : CStore ℝ) (m : Motion ℝ) (s : FreqSpec) (o : RespOut) (r : ℝ × ℝ × ℝ),
    motionFourier true true σ m = .ok s ∧ motionResponse (1 / 10) 1 5 (1 / 20) 1 σ m = .ok o ∧ motionRms σ m = .ok r := by
  obtain ⟨m, hm, ha, _⟩ := mkMotion_si ([[(0, 1), (1, -2), (2, 3)]] : CStore ℝ) 0 _ rfl (by simp)
  have hread : m.accel.read [[(0, 1), (1, -2), (2, 3)]] = [(0, 1), (1, -2), (2, 3)] := by rw [ha]; rfl
  have hd : dtOf (m.accel.read [[(0, 1), (1, -2), (2, 3)]]) = .ok 1 := by rw [hread]; simp [dtOf]
  obtain ⟨s, hs, _⟩ := C137_fourier_partial true true _ m 1 hd one_ne_zero (Or.inl rfl)
  obtain ⟨o, ho⟩ := C137_response_succeeds (1 / 10) 1 (1 / 20) 1 5 1 _ m (by norm_num) (by norm_num)
    (by
      rw [hread]
      intro i a b ha hb
      match i, ha, hb with
      | 0, ha, hb => simp [times] at ha hb; rw [← ha, ← hb]; norm_num
      | 1, ha, hb => simp [times] at ha hb; rw [← ha, ← hb]; norm_num
      | i + 2, ha, hb => simp [times] at hb) (by rw [hread]; simp)
  obtain ⟨_, _, _, hr, _⟩ := C137_rms_partial _ _ _ _ _ _ hm
  exact ⟨_, m, s, o, _, hs, ho, hr⟩

end Verif
