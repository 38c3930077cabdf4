import Verif.Props.MotionObj

/-!
C83: the three time histories of a motion belong together.  C84: unit conversion.
-/

set_option linter.unusedSectionVars false
set_option linter.unusedVariables false

namespace Verif

section
variable {K : Type} [Field K] [LinearOrder K] [IsStrictOrderedRing K]

open Spec (Uniform times vals fromSI given)

/-- `v` is the rate of change of `u`: same times, and each increment of `u` is `d` times
the value of `v` at the end of the step. -/
def Spec.RateOf (d : K) (v u : Rec K) : Prop :=
  times v = times u ∧
  ∀ (i : Nat) (v1 u0 u1 : K), (vals v)[i + 1]? = some v1 → (vals u)[i]? = some u0 → (vals u)[i + 1]? = some u1 →
    u1 - u0 = d * v1

open Spec (RateOf)

theorem diff_get (l : List K) (i : Nat) (a b : K) (h0 : l[i]? = some a) (h1 : l[i + 1]? = some b) :
    (diff l)[i]? = some (b - a) := by
  induction l generalizing i with
  | nil => simp at h0
  | cons x l ih =>
    cases l with
    | nil => simp at h1
    | cons y l =>
      cases i with
      | zero => simp at h0 h1; simp [diff, h0, h1]
      | succ i =>
        rw [diff, List.getElem?_cons_succ]
        exact ih i (by simpa using h0) (by simpa using h1)

theorem rate_cumsum (d : K) (t v : List K) (hl : t.length = v.length) :
    RateOf d (t.zip v) (t.zip ((cumsum v).map (· * d))) := by
  have hl2 : t.length = ((cumsum v).map (· * d)).length := by simp [cumsum, cumsumFrom_length, hl]
  refine ⟨?_, ?_⟩
  · rw [times, times, List.map_fst_zip (by omega), List.map_fst_zip (by omega)]
  · intro i v1 u0 u1 hv h0 h1
    rw [vals, List.map_snd_zip (by omega)] at hv h0 h1
    have hd := diff_get _ i _ _ h0 h1
    rw [diff_map_mul] at hd
    cases v with
    | nil => simp at hv
    | cons a v =>
      rw [cumsum, diff_cumsumFrom, List.getElem?_map] at hd
      rw [List.getElem?_cons_succ] at hv
      rw [hv] at hd
      simp at hd
      rw [← hd]; ring

theorem numInt_rate (d : K) (x : Rec K) (hdt : dtOf x = .ok d) (v u : Rec K) (h : numInt x = .ok (v, u)) :
    RateOf d x v ∧ RateOf d v u ∧ times u = times x := by
  rw [numInt_ok d x hdt] at h
  cases h
  have hx : (times x).zip (vals x) = x := by
    unfold times vals
    induction x with
    | nil => rfl
    | cons p x ih =>
      clear ih hdt
      simp only [List.map_cons, List.zip_cons_cons]
      congr 1
      induction x with
      | nil => rfl
      | cons p x ih => simp [ih]
  have h1 := rate_cumsum d (times x) (vals x) (by simp [times, vals])
  rw [hx] at h1
  refine ⟨h1, rate_cumsum d _ _ (by simp [times, vals, cumsum, cumsumFrom_length]), ?_⟩
  rw [times, List.map_fst_zip (by simp [times, vals, cumsum, cumsumFrom_length])]

theorem numDiff_rate (d : K) (hd : d ≠ 0) (x : Rec K) (hu : Uniform d (times x)) (a : Rec K) (h : numDiff x = .ok a) :
    RateOf d a x := by
  by_cases hne : x = []
  · subst hne
    refine ⟨?_, ?_⟩
    · simp [numDiff, diff, colStack] at h
    · intro i v1 u0 u1 _ h0; simp [vals] at h0
  rw [numDiff_uniform d hd x hu hne] at h
  cases h
  have hl : (times x).length = (0 :: (diff (vals x)).map (· / d)).length := by
    have : 0 < x.length := List.length_pos_iff.mpr hne
    simp [times, vals, diff_length]; omega
  refine ⟨by rw [times, List.map_fst_zip (by omega)], ?_⟩
  intro i v1 u0 u1 hv h0 h1
  rw [vals, List.map_snd_zip (by omega), List.getElem?_cons_succ, List.getElem?_map, diff_get _ i _ _ h0 h1] at hv
  simp at hv
  rw [← hv]; field_simp

theorem uniform_congr {d : K} {x y : Rec K} (h : times x = times y) (hu : Uniform d (times x)) : Uniform d (times y) :=
  h ▸ hu

/-- Whatever type of motion is given, the acceleration of the constructed object is the
rate of its velocity, and the velocity is the rate of its displacement (for a uniform
time axis). -/
theorem C83_histories (σ τ : CStore K) (a : Nat) (x : Rec K) (ha : σ[a]? = some x) (d : K) (hd : d ≠ 0)
    (hu : Uniform d (times x)) (h2 : 2 ≤ x.length) (unit : MUnit) (ty : MType) (delta : Option K) (m : Motion K)
    (h : mkMotion σ (.two a) unit ty delta = (.ok m, τ)) :
    RateOf d (m.accel.read τ) (m.veloc.read τ) ∧ RateOf d (m.veloc.read τ) (m.displ.read τ) := by
  obtain ⟨hg, hdt, _⟩ := C20_values σ τ a x ha unit ty delta m h
  set y := (given m ty).read τ with hy
  have hyt : times y = times x := by rw [hg]; simp [times]
  have hyl : 2 ≤ y.length := by rw [hg]; simpa using h2
  have hyu : Uniform d (times y) := by rw [hyt]; exact hu
  have hyd : dtOf y = .ok d := uniform_dtOf hyu hyl
  unfold mkMotion at h
  cases hr : readTwo σ (.two a) delta with
  | error e => rw [hr] at h; cases h
  | ok r =>
    rw [hr] at h
    obtain ⟨w, dt⟩ := r
    simp only at h
    by_cases c1 : unit = .bad
    · rw [if_pos c1] at h; cases h
    rw [if_neg c1] at h
    by_cases c2 : ty = .bad
    · rw [if_pos c2] at h; cases h
    rw [if_neg c2] at h
    by_cases c3 : (unit = .g ∨ unit = .gal) ∧ ty ≠ .accel
    · rw [if_pos c3] at h; cases h
    rw [if_neg c3] at h
    generalize hs : toSIinPlace σ w unit = s at h
    cases ty with
    | bad => exact absurd rfl c2
    | accel =>
      simp only [bind, Except.bind, pure, Except.pure] at h
      cases hn : numInt (s.1.read s.2) with
      | error e => rw [hn] at h; cases h
      | ok vu =>
        obtain ⟨v, u⟩ := vu
        rw [hn] at h
        cases h
        have hyy : y = s.1.read s.2 := hy
        rw [← hyy] at hn ⊢
        obtain ⟨r1, r2, _⟩ := numInt_rate d y hyd v u hn
        exact ⟨r1, r2⟩
    | veloc =>
      simp only [bind, Except.bind, pure, Except.pure] at h
      cases hq : numDiff (s.1.read s.2) with
      | error e => rw [hq] at h; cases h
      | ok acc =>
        rw [hq] at h
        simp only at h
        cases hn : numInt (s.1.read s.2) with
        | error e => rw [hn] at h; cases h
        | ok vu =>
          obtain ⟨u, w2⟩ := vu
          rw [hn] at h
          cases h
          have hyy : y = s.1.read s.2 := hy
          rw [← hyy] at hn hq ⊢
          exact ⟨numDiff_rate d hd y hyu acc hq, (numInt_rate d y hyd u w2 hn).1⟩
    | displ =>
      simp only [bind, Except.bind, pure, Except.pure] at h
      cases hq : numDiff (s.1.read s.2) with
      | error e => rw [hq] at h; cases h
      | ok v =>
        rw [hq] at h
        simp only at h
        cases hq2 : numDiff v with
        | error e => rw [hq2] at h; cases h
        | ok acc =>
          rw [hq2] at h
          cases h
          have hyy : y = s.1.read s.2 := hy
          rw [← hyy] at hq ⊢
          have r1 := numDiff_rate d hd y hyu v hq
          exact ⟨numDiff_rate d hd v (by rw [r1.1]; exact hyu) acc hq2, r1⟩

/-- A velocity record in cm/s: the hypotheses hold, and the displacement is not trivial. -/
example : ∃ (σ τ : CStore ℚ) (m : Motion ℚ), mkMotion σ (.two 0) .cmps .veloc none = (.ok m, τ) ∧
    Uniform (2 : ℚ) (times [((0 : ℚ), (100 : ℚ)), (2, 300), (4, -200)]) ∧ σ = [[(0, 100), (2, 300), (4, -200)]] ∧
    m.displ.read τ = [(0, 2), (2, 8), (4, 4)] := by
  refine ⟨[[(0, 100), (2, 300), (4, -200)]], [[(0, 1), (2, 3), (4, -2)]],
    ⟨.own [(0, 0), (2, 1), (4, -5 / 2)], .view 0, .own [(0, 2), (2, 8), (4, 4)], 2, 3, 5 / 2, 3, 8⟩,
    by decide +kernel, ?_, rfl, rfl⟩
  intro i a b ha hb
  match i, ha, hb with
  | 0, ha, hb => simp [times] at ha hb; rw [← ha, ← hb]; norm_num
  | 1, ha, hb => simp [times] at ha hb; rw [← ha, ← hb]; norm_num
  | i + 2, ha, hb => simp [times] at hb

/-! ## C84 -/

/-- `_unit_convert` gives the acceleration in the requested unit for every acceleration
unit and rejects all others with ValueError; it works on a copy, so object and memory are
not part of its result. -/
theorem C84_unit_convert (σ : CStore K) (m : Motion K) (unit : MUnit) :
    (∀ r, unitConvert σ m unit = .ok r →
      List.Forall₂ (fun p q => q.1 = p.1 ∧ fromSI unit p.2 = some q.2) (m.accel.read σ) r) ∧
    ((∃ r, unitConvert σ m unit = .ok r) ↔ unit = .mpss ∨ unit = .cmpss ∨ unit = .gal ∨ unit = .g) ∧
    (∀ e, unitConvert σ m unit = .error e → e = .valueError) := by
  have hgen : ∀ (f : K) (d : Rec K), (∀ v, fromSI unit v = some (v * f)) →
      List.Forall₂ (fun p q => q.1 = p.1 ∧ fromSI unit p.2 = some q.2) d (scaleCols 1 f d) := by
    intro f d hf
    unfold scaleCols
    rw [List.forall₂_map_right_iff]
    apply List.forall₂_same.2
    intro p _
    exact ⟨by simp, hf _⟩
  unfold unitConvert
  cases unit
  case mpss =>
    refine ⟨?_, by simp, by simp⟩
    intro r hr; cases hr
    exact List.forall₂_same.2 fun p _ => ⟨rfl, rfl⟩
  case cmpss =>
    refine ⟨?_, by simp, by simp⟩
    intro r hr; cases hr
    exact hgen 100 _ fun v => rfl
  case gal =>
    refine ⟨?_, by simp, by simp⟩
    intro r hr; cases hr
    exact hgen 100 _ fun v => rfl
  case g =>
    refine ⟨?_, by simp, by simp⟩
    intro r hr; cases hr
    exact hgen _ _ fun v => by simp [fromSI, div_eq_mul_inv]
  all_goals exact ⟨(fun r hr => by cases hr), by simp, (fun e he => by cases he; rfl)⟩

end

end Verif
