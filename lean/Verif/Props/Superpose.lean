import Verif.Props.MotionObj
import Verif.Props.Motion
import Verif.Model.Oscillator

/-!
C200: peaks, response spectra and Arias intensity of the sum of two motions.
-/

set_option linter.unusedSectionVars false
set_option linter.unusedVariables false

namespace Verif

variable {K : Type} [Field K] [LinearOrder K] [IsStrictOrderedRing K]

open Spec (vals times)

/-- Records `x`, `y` and `z` have the same times, and each sample of `z` is the sum of the samples of `x` and `y`. -/
def Spec.SumOf (x y z : List (K × K)) : Prop :=
  ∃ l : List (K × K × K), x = l.map (fun r => (r.1, r.2.1)) ∧ y = l.map (fun r => (r.1, r.2.2)) ∧ z = l.map (fun r => (r.1, r.2.1 + r.2.2))

open Spec (SumOf)

theorem maxAbs_le {l : List K} {b : K} (hb : 0 ≤ b) (h : ∀ x ∈ l, |x| ≤ b) : maxAbs l ≤ b := by
  by_cases hl : l = []
  · subst hl; exact hb
  · obtain ⟨x, hx, e⟩ := maxAbs_mem hl
    rw [← e]; exact h x hx

theorem maxAbs_sum {ι : Type} (l : List ι) (f g : ι → K) : maxAbs (l.map fun i => f i + g i) ≤ maxAbs (l.map f) + maxAbs (l.map g) := by
  refine maxAbs_le (add_nonneg (maxAbs_nonneg _) (maxAbs_nonneg _)) fun x hx => ?_
  obtain ⟨i, hi, rfl⟩ := List.mem_map.1 hx
  exact (abs_add_le _ _).trans (add_le_add (le_maxAbs (List.mem_map_of_mem hi)) (le_maxAbs (List.mem_map_of_mem hi)))

theorem zip_maps {ι : Type} (l : List ι) (f g : ι → K) : (l.map f).zip (l.map g) = l.map fun i => (f i, g i) := by
  induction l with
  | nil => rfl
  | cons a l ih => simp [ih]

/-- Running sums of a sum, listed jointly with those of the parts. -/
theorem cumsum_joint : ∀ (l : List (K × K × K)) (s t : K), ∃ m : List (K × K × K),
    m.map (fun r => r.1) = l.map (fun r => r.1) ∧ cumsumFrom s (l.map fun r => r.2.1) = m.map (fun r => r.2.1) ∧
    cumsumFrom t (l.map fun r => r.2.2) = m.map (fun r => r.2.2) ∧ cumsumFrom (s + t) (l.map fun r => r.2.1 + r.2.2) = m.map fun r => r.2.1 + r.2.2
  | [], s, t => ⟨[], rfl, rfl, rfl, rfl⟩
  | (τ, a, b) :: l, s, t => by
    obtain ⟨m, h1, h2, h3, h4⟩ := cumsum_joint l (s + a) (t + b)
    refine ⟨(τ, s + a, t + b) :: m, by simp [h1], by simp [cumsumFrom, h2], by simp [cumsumFrom, h3], ?_⟩
    have e : s + t + (a + b) = s + a + (t + b) := by ring
    simp only [List.map_cons, cumsumFrom, e, h4]

theorem dtOf_joint (l : List (K × K × K)) (f g : K × K × K → K) : dtOf (l.map fun r => (r.1, f r)) = dtOf (l.map fun r => (r.1, g r)) := by
  match l with
  | [] => rfl
  | [_] => rfl
  | _ :: _ :: _ => rfl

theorem integral_joint (l : List (K × K × K)) (d : K) : ∃ m : List (K × K × K), m.map (fun r => r.1) = l.map (fun r => r.1) ∧
    (cumsum (l.map fun r => r.2.1)).map (· * d) = m.map (fun r => r.2.1) ∧ (cumsum (l.map fun r => r.2.2)).map (· * d) = m.map (fun r => r.2.2) ∧
    (cumsum (l.map fun r => r.2.1 + r.2.2)).map (· * d) = m.map fun r => r.2.1 + r.2.2 := by
  obtain ⟨m, h1, h2, h3, h4⟩ := cumsum_joint l 0 0
  rw [add_zero] at h4
  refine ⟨m.map fun r => (r.1, r.2.1 * d, r.2.2 * d), ?_, ?_, ?_, ?_⟩
  · simpa [Function.comp_def] using h1
  · unfold cumsum; rw [h2]; simp [Function.comp_def]
  · unfold cumsum; rw [h3]; simp [Function.comp_def]
  · unfold cumsum; rw [h4]; simp [Function.comp_def, add_mul]

/-- C200. Integration commutes with addition of records, sample by sample. -/
theorem C200_integrals {x y z : Rec K} (h : SumOf x y z) (h2 : 2 ≤ x.length) :
    ∃ vx ux vy uy vz uz, numInt x = .ok (vx, ux) ∧ numInt y = .ok (vy, uy) ∧ numInt z = .ok (vz, uz) ∧ SumOf vx vy vz ∧ SumOf ux uy uz := by
  obtain ⟨l, rfl, rfl, rfl⟩ := h
  obtain ⟨dt, hd⟩ : ∃ dt, dtOf (l.map fun r => (r.1, r.2.1)) = .ok dt := by
    match l, h2 with
    | a :: b :: l, _ => exact ⟨_, rfl⟩
  have hd2 : dtOf (l.map fun r => (r.1, r.2.2)) = .ok dt := (dtOf_joint l _ _).trans hd
  have hd3 : dtOf (l.map fun r => (r.1, r.2.1 + r.2.2)) = .ok dt := (dtOf_joint l (fun r => r.2.1 + r.2.2) fun r => r.2.1).trans hd
  obtain ⟨m, m1, m2, m3, m4⟩ := integral_joint l dt
  obtain ⟨n, n1, n2, n3, n4⟩ := integral_joint m dt
  have z1 : ∀ f : K × K × K → K, (l.map fun r => r.1).zip (m.map f) = m.map fun r => (r.1, f r) := fun f => by rw [← m1, zip_maps]
  have z2 : ∀ f : K × K × K → K, (l.map fun r => r.1).zip (n.map f) = n.map fun r => (r.1, f r) := fun f => by rw [← m1, ← n1, zip_maps]
  refine ⟨_, _, _, _, _, _, ?_, ?_, ?_, ⟨m, rfl, rfl, rfl⟩, ⟨n, rfl, rfl, rfl⟩⟩
  · simp only [numInt, hd, Bind.bind, Except.bind, Pure.pure, Except.pure, List.map_map, Function.comp_def, m2, n2, z1, z2]
  · simp only [numInt, hd2, Bind.bind, Except.bind, Pure.pure, Except.pure, List.map_map, Function.comp_def, m3, n3, z1, z2]
  · simp only [numInt, hd3, Bind.bind, Except.bind, Pure.pure, Except.pure, List.map_map, Function.comp_def, m4, n4, z1, z2]

/-- C200. The peak of a sum does not exceed the sum of the peaks, nor is it smaller than their difference.  With `C200_integrals` this holds for
peak ground acceleration, velocity and displacement. -/
theorem C200_peaks {x y z : Rec K} (h : SumOf x y z) :
    maxAbs (vals z) ≤ maxAbs (vals x) + maxAbs (vals y) ∧ |maxAbs (vals x) - maxAbs (vals y)| ≤ maxAbs (vals z) := by
  obtain ⟨l, rfl, rfl, rfl⟩ := h
  simp only [vals, List.map_map, Function.comp_def]
  have neg : ∀ f : K × K × K → K, maxAbs (l.map fun r => -f r) = maxAbs (l.map f) := by
    intro f
    have := maxAbs_map_mul (-1 : K) (l.map f)
    simpa [List.map_map, Function.comp_def] using this
  have h1 := maxAbs_sum l (fun r => r.2.1 + r.2.2) fun r => -r.2.2
  have h2 := maxAbs_sum l (fun r => r.2.1 + r.2.2) fun r => -r.2.1
  rw [neg] at h1 h2
  simp only [add_neg_cancel_right] at h1
  have e : (fun r : K × K × K => r.2.1 + r.2.2 + -r.2.1) = fun r => r.2.2 := by funext r; ring
  rw [e] at h2
  refine ⟨maxAbs_sum l (fun r => r.2.1) fun r => r.2.2, ?_⟩
  rw [abs_le]
  constructor <;> linarith

/-! ## Oscillators -/

theorem stepFrom_joint (k : Coefs K) : ∀ (l : List (K × K × K)) (s t : K × K), ∃ m : List ((K × K) × (K × K)), m.length = l.length ∧
    stepFrom k s (l.map fun r => r.2.1) = m.map Prod.fst ∧ stepFrom k t (l.map fun r => r.2.2) = m.map Prod.snd ∧
    stepFrom k (s + t) (l.map fun r => r.2.1 + r.2.2) = m.map fun r => r.1 + r.2
  | [], s, t => ⟨[], rfl, rfl, rfl, rfl⟩
  | [(τ, a, b)], s, t => ⟨[(s, t)], rfl, rfl, rfl, rfl⟩
  | (τ, a, b) :: (τ', a', b') :: l, s, t => by
    obtain ⟨m, h0, h1, h2, h3⟩ := stepFrom_joint k ((τ', a', b') :: l)
      (s.1 * k.A + s.2 * k.B + (-1) * a * k.C + (-1) * a' * k.D, s.1 * k.A' + s.2 * k.B' + (-1) * a * k.C' + (-1) * a' * k.D')
      (t.1 * k.A + t.2 * k.B + (-1) * b * k.C + (-1) * b' * k.D, t.1 * k.A' + t.2 * k.B' + (-1) * b * k.C' + (-1) * b' * k.D')
    refine ⟨(s, t) :: m, by simpa using h0, ?_, ?_, ?_⟩
    · simp only [List.map_cons] at h1 ⊢
      rw [stepFrom, h1]
    · simp only [List.map_cons] at h2 ⊢
      rw [stepFrom, h2]
    · simp only [List.map_cons] at h3 ⊢
      rw [stepFrom, ← h3]
      congr 2
      ext
      · simp; ring
      · simp; ring

theorem total_joint (wn xi : K) : ∀ (s : List (K × K)) (b : List K), s.length = b.length →
    maxAbs (List.zipWith (fun (p : K × K) x => -(2 * wn * xi * p.2 + wn ^ 2 * p.1 + x) + x) s b) = maxAbs (s.map fun p => 2 * wn * xi * p.2 + wn ^ 2 * p.1)
  | [], b, _ => by simp
  | p :: s, [], h => by simp at h
  | p :: s, x :: b, h => by
    have ih := total_joint wn xi s b (by simpa using h)
    unfold maxAbs at ih ⊢
    rw [List.zipWith_cons_cons, List.map_cons, List.foldr_cons, List.foldr_cons, ih]
    congr 1
    rw [show -(2 * wn * xi * p.2 + wn ^ 2 * p.1 + x) + x = -(2 * wn * xi * p.2 + wn ^ 2 * p.1) by ring, abs_neg]

/-- Row `r` does not exceed the sum of rows `p` and `q`, ordinate by ordinate. -/
def Spec.RowLe (r p q : SpecRow K) : Prop := r.sa ≤ p.sa + q.sa ∧ r.sv ≤ p.sv + q.sv ∧ r.sd ≤ p.sd + q.sd ∧ r.psa ≤ p.psa + q.psa ∧ r.psv ≤ p.psv + q.psv

open Spec (RowLe)

theorem timeStepping_joint (k : Coefs K) {wn : K} (hw : 0 ≤ wn) (xi : K) (l : List (K × K × K)) :
    RowLe (timeStepping k wn xi (l.map fun r => r.2.1 + r.2.2)) (timeStepping k wn xi (l.map fun r => r.2.1)) (timeStepping k wn xi (l.map fun r => r.2.2)) := by
  obtain ⟨m, h0, h1, h2, h3⟩ := stepFrom_joint k l (0, 0) (0, 0)
  have e0 : ((0 : K), (0 : K)) + (0, 0) = (0, 0) := by ext <;> simp
  rw [e0] at h3
  simp only [RowLe, timeStepping, h1, h2, h3]
  rw [total_joint _ _ _ _ (by simp [h0]), total_joint _ _ _ _ (by simp [h0]), total_joint _ _ _ _ (by simp [h0])]
  simp only [List.map_map, Function.comp_def, Prod.fst_add, Prod.snd_add]
  have a1 := maxAbs_sum m (fun r => 2 * wn * xi * r.1.2 + wn ^ 2 * r.1.1) fun r => 2 * wn * xi * r.2.2 + wn ^ 2 * r.2.1
  have a2 := maxAbs_sum m (fun r => r.1.2) fun r => r.2.2
  have a3 := maxAbs_sum m (fun r => r.1.1) fun r => r.2.1
  have ea : (fun r : (K × K) × (K × K) => 2 * wn * xi * (r.1.2 + r.2.2) + wn ^ 2 * (r.1.1 + r.2.1)) =
      fun r => 2 * wn * xi * r.1.2 + wn ^ 2 * r.1.1 + (2 * wn * xi * r.2.2 + wn ^ 2 * r.2.1) := by funext r; ring
  rw [ea]
  have a4 := mul_le_mul_of_nonneg_right a3 hw
  have a5 := mul_le_mul_of_nonneg_right a4 hw
  refine ⟨a1, a2, a3, ?_, ?_⟩
  · linarith
  · linarith

theorem subsample_map {α β : Type} (n : Nat) (l : List α) (f : α → β) : subsample n (l.map f) = (subsample n l).map f := by
  unfold subsample
  rw [List.length_map, List.map_filterMap]
  apply List.filterMap_congr
  intro i _
  rw [List.getElem?_map]

/-- C200. The response spectra of a sum do not exceed the sum of the response spectra, at any frequency.  The second motion need not be assumed to have spectra. -/
theorem C200_spectra (coef : K → K → Coefs K) (xi : K) (wns : List K) (hw : ∀ w ∈ wns, 0 ≤ w) (n : Nat) {x y z : Rec K} (h : SumOf x y z)
    {rx : List (SpecRow K)} (hx : responseSpectra coef xi wns n x = .ok rx) :
    ∃ ry rz, responseSpectra coef xi wns n y = .ok ry ∧ responseSpectra coef xi wns n z = .ok rz ∧ ry.length = rx.length ∧ rz.length = rx.length ∧
      ∀ (i : Nat) (p q r : SpecRow K), rx[i]? = some p → ry[i]? = some q → rz[i]? = some r → RowLe r p q := by
  obtain ⟨l, rfl, rfl, rfl⟩ := h
  unfold responseSpectra at hx ⊢
  split_ifs at hx with hn
  rw [if_neg hn, if_neg hn]
  simp only [subsample_map, List.map_map, Function.comp_def] at hx ⊢
  cases hs : spacingOk ((subsample n l).map fun r => r.1) with
  | error e => rw [hs] at hx; simp only [Bind.bind, Except.bind] at hx; cases hx
  | ok u =>
    rw [hs] at hx
    simp only [Bind.bind, Except.bind] at hx ⊢
    rw [dtOf_joint _ (fun r => r.2.2) fun r => r.2.1, dtOf_joint _ (fun r => r.2.1 + r.2.2) fun r => r.2.1]
    cases hd : dtOf ((subsample n l).map fun r => (r.1, r.2.1)) with
    | error e => rw [hd] at hx; simp only at hx; cases hx
    | ok dt =>
      rw [hd] at hx
      simp only [Pure.pure, Except.pure, Except.ok.injEq] at hx ⊢
      subst hx
      refine ⟨_, _, rfl, rfl, by simp, by simp, ?_⟩
      intro i p q r hp hq hr
      rw [List.getElem?_map] at hp hq hr
      cases hwi : wns[i]? with
      | none => rw [hwi] at hp; cases hp
      | some wn =>
        rw [hwi] at hp hq hr
        simp only [Option.map_some, Option.some.injEq] at hp hq hr
        subst hp hq hr
        exact timeStepping_joint _ (hw wn (List.mem_of_getElem? hwi)) xi _

/-! ## Arias intensity -/

theorem ariasFrom_last (c dt : K) : ∀ (l : List K) (s : K), l ≠ [] → (ariasFrom c dt s l).getLast? = some (s + c * dt * ((l.dropLast).map (· ^ 2)).sum)
  | [], s, h => absurd rfl h
  | [a], s, h => by simp [ariasFrom]
  | a :: b :: l, s, h => by
    have ih := ariasFrom_last c dt (b :: l) (s + c * a ^ 2 * dt) (by simp)
    have : ariasFrom c dt s (a :: b :: l) = s :: ariasFrom c dt (s + c * a ^ 2 * dt) (b :: l) := rfl
    rw [this, List.getLast?_cons_of_ne_nil (by simp [ariasFrom]), ih]
    simp only [List.dropLast_cons₂, List.map_cons, List.sum_cons, Option.some.injEq]
    ring

theorem arias_peak {c : K} {x : Rec K} {r : Arias K} (h : calcArias c x = .ok r) :
    ∃ dt, dtOf x = .ok dt ∧ r.peak = c * dt * (((vals x).dropLast).map (· ^ 2)).sum := by
  unfold calcArias at h
  simp only [Bind.bind, Except.bind] at h
  cases hd : dtOf x with
  | error e => rw [hd] at h; cases h
  | ok dt =>
    rw [hd] at h
    have hne : x.map Prod.snd ≠ [] := by
      intro h0
      rw [List.map_eq_nil_iff] at h0
      subst h0
      simp [dtOf] at hd
    refine ⟨dt, rfl, ?_⟩
    simp only [ariasFrom_last c dt _ 0 hne, zero_add] at h
    split_ifs at h with h0
    cases hb : ariasBounds ((x.map Prod.fst).zip ((ariasFrom c dt 0 (x.map Prod.snd)).map (· / (c * dt * (((x.map Prod.snd).dropLast).map (· ^ 2)).sum)))) (5 / 100) (95 / 100) with
    | error e => rw [hb] at h; cases h
    | ok b =>
      rw [hb] at h
      simp only [Pure.pure, Except.pure, Except.ok.injEq] at h
      rw [← h]
      rfl

theorem cauchy_list : ∀ (l : List (K × K)), (l.map fun r => r.1 * r.2).sum ^ 2 ≤ (l.map fun r => r.1 ^ 2).sum * (l.map fun r => r.2 ^ 2).sum ∧
    0 ≤ (l.map fun r => r.1 ^ 2).sum ∧ 0 ≤ (l.map fun r => r.2 ^ 2).sum
  | [] => by simp
  | (a, b) :: l => by
    obtain ⟨h, hA, hB⟩ := cauchy_list l
    simp only [List.map_cons, List.sum_cons]
    set S := (l.map fun r => r.1 * r.2).sum
    set A := (l.map fun r => r.1 ^ 2).sum
    set B := (l.map fun r => r.2 ^ 2).sum
    refine ⟨?_, by positivity, by positivity⟩
    have h1 : (2 * a * b * S) ^ 2 ≤ (a ^ 2 * B + b ^ 2 * A) ^ 2 := by
      have e1 : (2 * a * b * S) ^ 2 = 4 * (a * b) ^ 2 * S ^ 2 := by ring
      have e2 := mul_le_mul_of_nonneg_left h (show 0 ≤ 4 * (a * b) ^ 2 by positivity)
      have e3 : (a ^ 2 * B + b ^ 2 * A) ^ 2 = (a ^ 2 * B - b ^ 2 * A) ^ 2 + 4 * (a * b) ^ 2 * (A * B) := by ring
      have e4 := sq_nonneg (a ^ 2 * B - b ^ 2 * A)
      rw [e1, e3]; linarith
    have h2 := abs_le_of_sq_le_sq' h1 (by positivity)
    have e : (a ^ 2 + A) * (b ^ 2 + B) - (a * b + S) ^ 2 = (a ^ 2 * B + b ^ 2 * A - 2 * a * b * S) + (A * B - S ^ 2) := by ring
    linarith [h2.2]

theorem sq_sum_joint (l : List (K × K)) : (l.map fun r => (r.1 + r.2) ^ 2).sum =
    (l.map fun r => r.1 ^ 2).sum + (l.map fun r => r.2 ^ 2).sum + 2 * (l.map fun r => r.1 * r.2).sum := by
  induction l with
  | nil => simp
  | cons a l ih => simp only [List.map_cons, List.sum_cons, ih]; ring

/-- C200. The Arias intensity of a sum differs from the sum of the intensities by at most twice the geometric mean of the two. -/
theorem C200_arias {c : K} {x y z : Rec K} (h : SumOf x y z) {rx ry rz : Arias K} (hx : calcArias c x = .ok rx) (hy : calcArias c y = .ok ry)
    (hz : calcArias c z = .ok rz) : (rz.peak - rx.peak - ry.peak) ^ 2 ≤ 4 * rx.peak * ry.peak := by
  obtain ⟨l, rfl, rfl, rfl⟩ := h
  obtain ⟨d1, e1, p1⟩ := arias_peak hx
  obtain ⟨d2, e2, p2⟩ := arias_peak hy
  obtain ⟨d3, e3, p3⟩ := arias_peak hz
  have ed2 : d2 = d1 := by
    have := (dtOf_joint l (fun r => r.2.2) fun r => r.2.1).symm.trans e2
    exact Except.ok.inj (this.symm.trans e1)
  have ed3 : d3 = d1 := by
    have := (dtOf_joint l (fun r => r.2.1 + r.2.2) fun r => r.2.1).symm.trans e3
    exact Except.ok.inj (this.symm.trans e1)
  subst ed2 ed3
  simp only [vals, List.map_map, Function.comp_def, ← List.map_dropLast] at p1 p2 p3
  have hc := cauchy_list (l.dropLast.map Prod.snd)
  have hs := sq_sum_joint (l.dropLast.map Prod.snd)
  simp only [List.map_map, Function.comp_def] at hc hs
  rw [p1, p2, p3, hs]
  have := mul_le_mul_of_nonneg_left hc.1 (show 0 ≤ 4 * (c * d3) ^ 2 by positivity)
  calc _ = 4 * (c * d3) ^ 2 * (l.dropLast.map fun r => r.2.1 * r.2.2).sum ^ 2 := by ring
    _ ≤ _ := this
    _ = _ := by ring

/-- C200. The square root of Arias intensity satisfies the triangle inequality. -/
theorem C200_arias_root {c : ℝ} (hc : 0 < c) {x y z : Rec ℝ} (h : SumOf x y z) {rx ry rz : Arias ℝ} {dt : ℝ} (hd : dtOf x = .ok dt) (hdt : 0 < dt)
    (hx : calcArias c x = .ok rx) (hy : calcArias c y = .ok ry) (hz : calcArias c z = .ok rz) :
    Real.sqrt rz.peak ≤ Real.sqrt rx.peak + Real.sqrt ry.peak := by
  have key := C200_arias h hx hy hz
  have sumsq : ∀ l : List ℝ, 0 ≤ (l.map (· ^ 2)).sum := fun l => List.sum_nonneg (by intro a ha; obtain ⟨b, _, rfl⟩ := List.mem_map.1 ha; exact sq_nonneg b)
  have dty : dtOf y = .ok dt := by
    obtain ⟨l, rfl, rfl, rfl⟩ := h
    exact (dtOf_joint l _ _).trans hd
  have px : 0 ≤ rx.peak := by
    obtain ⟨d, e, p⟩ := arias_peak hx
    rw [hd] at e; cases e
    rw [p]; exact mul_nonneg (by positivity) (sumsq _)
  have py : 0 ≤ ry.peak := by
    obtain ⟨d, e, p⟩ := arias_peak hy
    rw [dty] at e; cases e
    rw [p]; exact mul_nonneg (by positivity) (sumsq _)
  apply Real.sqrt_le_iff.2
  refine ⟨by positivity, ?_⟩
  have e1 : (Real.sqrt rx.peak + Real.sqrt ry.peak) ^ 2 = rx.peak + ry.peak + 2 * (Real.sqrt rx.peak * Real.sqrt ry.peak) := by
    rw [add_sq, Real.sq_sqrt px, Real.sq_sqrt py]; ring
  have e2 : 4 * rx.peak * ry.peak = (2 * (Real.sqrt rx.peak * Real.sqrt ry.peak)) ^ 2 := by
    rw [mul_pow, mul_pow, Real.sq_sqrt px, Real.sq_sqrt py]; ring
  rw [e2] at key
  have := (abs_le_of_sq_le_sq' key (by positivity)).2
  rw [e1]; linarith

/-- Two pulses that partly cancel. -/
example : SumOf [((0 : ℚ), 1), (1, -2), (2, 3)] [(0, 1), (1, 2), (2, -1)] [(0, 2), (1, 0), (2, 2)] ∧ maxAbs (vals [((0 : ℚ), 2), (1, 0), (2, 2)]) = 2 ∧
    (calcArias 1 [((0 : ℚ), 1), (1, -2), (2, 3)]).map Arias.peak = .ok 5 ∧ (calcArias 1 [((0 : ℚ), 2), (1, 0), (2, 2)]).map Arias.peak = .ok 4 :=
  ⟨⟨[(0, 1, 1), (1, -2, 2), (2, 3, -1)], by decide +kernel, by decide +kernel, by decide +kernel⟩, by decide +kernel, by decide +kernel, by decide +kernel⟩

end Verif
