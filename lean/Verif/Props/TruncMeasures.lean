import Verif.Props.Padding
import Verif.Props.TruncFig
import Verif.Props.Superpose
import Verif.Props.MotionTrunc
import Verif.Props.Amplify

/-!
C209: what truncation does to the measures of a motion.
-/

set_option linter.unusedSectionVars false
set_option linter.unusedVariables false

namespace Verif

namespace Spec

/-- Record `y` has the samples of `x` from number `a` on, as many as it has, at the first times of `x`. -/
structure WindowOf {K : Type} (x y : List (K × K)) (a : Nat) : Prop where
  inside : a + y.length ≤ x.length
  vals : ∀ j, j < y.length → (y.map Prod.snd)[j]? = (x.map Prod.snd)[a + j]?
  times : ∀ j, j < y.length → (y.map Prod.fst)[j]? = (x.map Prod.fst)[j]?

end Spec

open Spec (WindowOf vals times)

section
variable {K : Type} [Field K] [LinearOrder K] [IsStrictOrderedRing K]

theorem window_vals {x y : Rec K} {a : Nat} (h : WindowOf x y a) : vals y = ((vals x).drop a).take y.length := by
  refine List.ext_getElem? fun j => ?_
  by_cases hj : j < y.length
  · rw [List.getElem?_take_of_lt hj, List.getElem?_drop]; exact h.vals j hj
  · rw [List.getElem?_eq_none (by simp [vals]; omega), List.getElem?_eq_none (by simp; omega)]

theorem window_times {x y : Rec K} {a : Nat} (h : WindowOf x y a) : times y = (times x).take y.length := by
  refine List.ext_getElem? fun j => ?_
  by_cases hj : j < y.length
  · rw [List.getElem?_take_of_lt hj]; exact h.times j hj
  · rw [List.getElem?_eq_none (by simp [times]; omega), List.getElem?_eq_none (by simp; omega)]

theorem window_dt {x y : Rec K} {a : Nat} (h : WindowOf x y a) (h2 : 2 ≤ y.length) : dtOf y = dtOf x := by
  have hx : 2 ≤ x.length := by have := h.inside; omega
  match x, y, hx, h2, h with
  | p :: q :: x, r :: s :: y, _, _, h =>
    have h0 := h.times 0 (by simp)
    have h1 := h.times 1 (by simp)
    simp only [List.map_cons, List.getElem?_cons_zero, List.getElem?_cons_succ, Option.some.injEq] at h0 h1
    simp only [dtOf, h0, h1]

/-- C209: the peak of a part of a motion is not larger than the peak of the motion. -/
theorem C209_peak {x y : Rec K} {a : Nat} (h : WindowOf x y a) : maxAbs (vals y) ≤ maxAbs (vals x) := by
  refine maxAbs_le (maxAbs_nonneg _) fun v hv => ?_
  rw [window_vals h] at hv
  exact le_maxAbs (List.mem_of_mem_drop (List.mem_of_mem_take hv))

theorem sum_sq_take_le (l : List K) (n : Nat) : ((l.take n).map (· ^ 2)).sum ≤ (l.map (· ^ 2)).sum := by
  conv_rhs => rw [← List.take_append_drop n l]
  rw [List.map_append, List.sum_append]
  have : 0 ≤ ((l.drop n).map (· ^ 2)).sum := List.sum_nonneg (by intro b hb; obtain ⟨c, _, rfl⟩ := List.mem_map.1 hb; exact sq_nonneg c)
  linarith

theorem sum_sq_drop_le (l : List K) (n : Nat) : ((l.drop n).map (· ^ 2)).sum ≤ (l.map (· ^ 2)).sum := by
  conv_rhs => rw [← List.take_append_drop n l]
  rw [List.map_append, List.sum_append]
  have : 0 ≤ ((l.take n).map (· ^ 2)).sum := List.sum_nonneg (by intro b hb; obtain ⟨c, _, rfl⟩ := List.mem_map.1 hb; exact sq_nonneg c)
  linarith

/-- C209: the Arias intensity of a part of a motion is not larger than that of the motion. -/
theorem C209_arias {c dt : K} (hc : 0 < c) {x y : Rec K} {a : Nat} (h : WindowOf x y a) (hd : dtOf x = .ok dt) (hdt : 0 < dt) {rx ry : Arias K}
    (hx : calcArias c x = .ok rx) (hy : calcArias c y = .ok ry) : ry.peak ≤ rx.peak := by
  obtain ⟨d1, e1, p1⟩ := arias_peak hx
  obtain ⟨d2, e2, p2⟩ := arias_peak hy
  have h2 : 2 ≤ y.length := by
    match y, e2 with
    | _ :: _ :: _, _ => simp
  rw [window_dt h h2, hd] at e2
  rw [hd] at e1
  cases e1; cases e2
  rw [p1, p2]
  refine mul_le_mul_of_nonneg_left ?_ (mul_pos hc hdt).le
  have hv := window_vals h
  have e : (vals y).dropLast = (((vals x).dropLast).drop a).take (y.length - 1) := by
    have hl := h.inside
    rw [hv, List.dropLast_eq_take, List.dropLast_eq_take, List.take_take, List.drop_take, List.take_take]
    simp only [vals, List.length_take, List.length_drop, List.length_map]
    congr 1; omega
  rw [e]
  exact (sum_sq_take_le _ _).trans (sum_sq_drop_le _ _)

/-- Running sum of the first samples. -/
theorem cumsumFrom_prefix (s : K) (l : List K) (n : Nat) : cumsumFrom s (l.take n) = (cumsumFrom s l).take n := by
  induction l generalizing s n with
  | nil => simp [cumsumFrom]
  | cons a l ih => cases n with
    | zero => simp [cumsumFrom]
    | succ n => simp [cumsumFrom, ih]

theorem cumsumFrom_shifted (s t : K) (l : List K) : cumsumFrom (s + t) l = (cumsumFrom s l).map (· + t) := by
  induction l generalizing s with
  | nil => rfl
  | cons a l ih => simp only [cumsumFrom, List.map_cons]; rw [add_right_comm, ih]

theorem cumsumFrom_getW (s : K) (l : List K) (k : Nat) (h : k < l.length) : (cumsumFrom s l)[k]? = some (s + (l.take (k + 1)).sum) := by
  induction l generalizing s k with
  | nil => simp at h
  | cons a l ih =>
    cases k with
    | zero => simp [cumsumFrom]
    | succ k =>
      simp only [cumsumFrom, List.getElem?_cons_succ]
      rw [ih _ _ (by simpa using h)]
      simp [add_assoc]

/-- C209: the velocities of a part of a motion are those of the motion less the velocity just before the part; so its peak velocity is at most
twice that of the motion. -/
theorem C209_velocity {x y vx ux vy uy : Rec K} {a : Nat} (h : WindowOf x y a) (hx : numInt x = .ok (vx, ux)) (hy : numInt y = .ok (vy, uy)) :
    (∃ v0 : K, (a = 0 → v0 = 0) ∧ (0 < a → (vals vx)[a - 1]? = some v0) ∧ vals vy = (((vals vx).drop a).take y.length).map (· - v0)) ∧
    maxAbs (vals vy) ≤ 2 * maxAbs (vals vx) := by
  have hl := h.inside
  cases hd : dtOf y with
  | error e => unfold numInt at hy; rw [hd] at hy; simp only [Bind.bind, Except.bind] at hy; cases hy
  | ok dt =>
    have h2 : 2 ≤ y.length := by
      match y, hd with
      | _ :: _ :: _, _ => simp
    have hd' := (window_dt h h2).symm.trans hd
    unfold numInt at hx hy
    rw [hd] at hy
    rw [hd'] at hx
    simp only [Bind.bind, Except.bind, Pure.pure, Except.pure, Except.ok.injEq, Prod.mk.injEq] at hx hy
    have ex : vals vx = (cumsum (vals x)).map (· * dt) := by
      rw [← hx.1]; exact zip_snd _ _ (by simp [cumsum, cumsumFrom_length])
    have ey : vals vy = (cumsum (vals y)).map (· * dt) := by
      rw [← hy.1]; exact zip_snd _ _ (by simp [cumsum, cumsumFrom_length])
    have hvl : (vals x).length = x.length := by simp [vals]
    have hsplit : (cumsum (vals x)).drop a = cumsumFrom ((vals x).take a).sum ((vals x).drop a) := by
      unfold cumsum
      conv_lhs => rw [← List.take_append_drop a (vals x), cumsumFrom_app]
      rw [List.drop_left' (by rw [cumsumFrom_length, List.length_take]; omega), zero_add]
    have main : vals vy = (((vals vx).drop a).take y.length).map (· - ((vals x).take a).sum * dt) := by
      rw [ey, ex, window_vals h, ← List.map_drop, hsplit, ← List.map_take, List.map_map]
      unfold cumsum
      rw [cumsumFrom_prefix]
      have := cumsumFrom_shifted 0 ((vals x).take a).sum ((vals x).drop a)
      rw [zero_add] at this
      rw [this, ← List.map_take, List.map_map]
      refine List.map_congr_left fun v _ => ?_
      simp only [Function.comp]
      ring
    have hprev : 0 < a → (vals vx)[a - 1]? = some (((vals x).take a).sum * dt) := by
      intro ha
      rw [ex, List.getElem?_map]
      unfold cumsum
      have := cumsumFrom_getW 0 (vals x) (a - 1) (by omega)
      rw [this, show a - 1 + 1 = a by omega]
      simp
    refine ⟨⟨_, fun h0 => by subst h0; simp, hprev, main⟩, ?_⟩
    have hv0 : |((vals x).take a).sum * dt| ≤ maxAbs (vals vx) := by
      rcases Nat.eq_zero_or_pos a with h0 | h0
      · subst h0; simp [maxAbs_nonneg]
      · exact le_maxAbs (List.mem_of_getElem? (hprev h0))
    rw [main]
    refine maxAbs_le (by have := maxAbs_nonneg (vals vx); linarith) fun w hw => ?_
    obtain ⟨v, hv, rfl⟩ := List.mem_map.1 hw
    have hv' := le_maxAbs (List.mem_of_mem_drop (List.mem_of_mem_take hv))
    calc |v - ((vals x).take a).sum * dt| ≤ |v| + |((vals x).take a).sum * dt| := abs_sub _ _
      _ ≤ 2 * maxAbs (vals vx) := by linarith

/-- C209: if only the end of a motion is cut off, the velocities and displacements that remain are those of the motion, so that no peak is
larger. -/
theorem C209_end {x y vx ux vy uy : Rec K} (h : WindowOf x y 0) (hx : numInt x = .ok (vx, ux)) (hy : numInt y = .ok (vy, uy)) :
    vals vy = (vals vx).take y.length ∧ vals uy = (vals ux).take y.length ∧ maxAbs (vals vy) ≤ maxAbs (vals vx) ∧
    maxAbs (vals uy) ≤ maxAbs (vals ux) := by
  cases hd : dtOf y with
  | error e => unfold numInt at hy; rw [hd] at hy; simp only [Bind.bind, Except.bind] at hy; cases hy
  | ok dt =>
    have h2 : 2 ≤ y.length := by
      match y, hd with
      | _ :: _ :: _, _ => simp
    have hd' := (window_dt h h2).symm.trans hd
    unfold numInt at hx hy
    rw [hd] at hy
    rw [hd'] at hx
    simp only [Bind.bind, Except.bind, Pure.pure, Except.pure, Except.ok.injEq, Prod.mk.injEq] at hx hy
    have ex : vals vx = (cumsum (vals x)).map (· * dt) := by
      rw [← hx.1]; exact zip_snd _ _ (by simp [cumsum, cumsumFrom_length])
    have ey : vals vy = (cumsum (vals y)).map (· * dt) := by
      rw [← hy.1]; exact zip_snd _ _ (by simp [cumsum, cumsumFrom_length])
    have fx : vals ux = (cumsum (vals vx)).map (· * dt) := by
      rw [ex, ← hx.2]; exact zip_snd _ _ (by simp [cumsum, cumsumFrom_length])
    have fy : vals uy = (cumsum (vals vy)).map (· * dt) := by
      rw [ey, ← hy.2]; exact zip_snd _ _ (by simp [cumsum, cumsumFrom_length])
    have hv : vals vy = (vals vx).take y.length := by
      rw [ey, ex, window_vals h, List.drop_zero]
      unfold cumsum
      rw [cumsumFrom_prefix, List.map_take]
    have hu : vals uy = (vals ux).take y.length := by
      rw [fy, fx, hv]
      unfold cumsum
      rw [cumsumFrom_prefix, List.map_take]
    exact ⟨hv, hu, by rw [hv]; exact maxAbs_prefix (List.take_prefix _ _), by rw [hu]; exact maxAbs_prefix (List.take_prefix _ _)⟩

theorem window0_eq {x y : Rec K} (h : WindowOf x y 0) : y = x.take y.length := by
  have hv := window_vals h
  have ht := window_times h
  rw [List.drop_zero] at hv
  have e : ∀ l : Rec K, l = (times l).zip (vals l) := fun l => by
    unfold times vals; rw [zip_maps]; simp
  rw [e y, hv, ht]
  conv_rhs => rw [e x]
  have : ((times x).take y.length).zip ((vals x).take y.length) = ((times x).zip (vals x)).take y.length := by
    simp [List.zip, List.take_zipWith]
  rw [this]
  congr 1
  simp only [List.length_take, List.length_zip, times, vals, List.length_map]
  have := h.inside
  omega

theorem subsample_prefix {α : Type} (n : Nat) (hn : 0 < n) (l : List α) (k : Nat) : subsample n (l.take k) <+: subsample n l := by
  obtain ⟨l1, g1⟩ := subsample_get n hn (l.take k)
  obtain ⟨l2, g2⟩ := subsample_get n hn l
  have hle : (subsample n (l.take k)).length ≤ (subsample n l).length := by
    rw [l1, l2]; exact Nat.div_le_div_right (by simp)
  rw [List.prefix_iff_eq_take]
  refine List.ext_getElem? fun i => ?_
  by_cases hi : i < (subsample n (l.take k)).length
  · rw [List.getElem?_take_of_lt hi, g1 i (l1 ▸ hi), g2 i (l2 ▸ lt_of_lt_of_le hi hle)]
    have : i * n < (l.take k).length := by
      rw [l1] at hi
      have h1 : (i + 1) * n ≤ (l.take k).length + (n - 1) := (Nat.le_div_iff_mul_le hn).mp hi
      have : (i + 1) * n = i * n + n := by ring
      omega
    rw [List.getElem?_take_of_lt (by rw [List.length_take] at this; omega)]
  · rw [List.getElem?_eq_none (by omega), List.getElem?_eq_none (by simp; omega)]

theorem stepFrom_of_prefix (k : Coefs K) (s : K × K) {a b : List K} (h : a <+: b) : stepFrom k s a <+: stepFrom k s b := by
  obtain ⟨t, rfl⟩ := h
  by_cases h0 : a = []
  · subst h0; simp [stepFrom]
  · exact stepFrom_prefix k s a t h0

theorem timeStepping_prefix (k : Coefs K) {wn : K} (hw : 0 ≤ wn) (xi : K) {a b : List K} (h : a <+: b) :
    (timeStepping k wn xi a).sa ≤ (timeStepping k wn xi b).sa ∧ (timeStepping k wn xi a).sv ≤ (timeStepping k wn xi b).sv ∧
    (timeStepping k wn xi a).sd ≤ (timeStepping k wn xi b).sd ∧ (timeStepping k wn xi a).psa ≤ (timeStepping k wn xi b).psa ∧
    (timeStepping k wn xi a).psv ≤ (timeStepping k wn xi b).psv := by
  have hp := stepFrom_of_prefix k (0, 0) h
  have hd := maxAbs_prefix (hp.map Prod.fst)
  unfold timeStepping
  refine ⟨?_, maxAbs_prefix (hp.map Prod.snd), hd, ?_, ?_⟩
  · refine maxAbs_prefix ?_
    obtain ⟨t, ht⟩ := hp
    obtain ⟨u, rfl⟩ := h
    rw [← ht, List.zipWith_append (by rw [stepFrom_length])]
    exact List.prefix_append _ _
  · exact mul_le_mul_of_nonneg_right (mul_le_mul_of_nonneg_right hd hw) hw
  · exact mul_le_mul_of_nonneg_right hd hw

theorem diff_prefix {a b : List K} (h : a <+: b) : diff a <+: diff b := by
  obtain ⟨t, rfl⟩ := h
  induction a with
  | nil => exact List.nil_prefix
  | cons p a ih =>
    cases a with
    | nil => exact List.nil_prefix
    | cons q a => simpa [diff] using ih

/-- C209: if only the end of a motion is cut off, no ordinate of the response spectra is larger than that of the motion; two samples are enough
for the shorter motion to have spectra. -/
theorem C209_spectra (coef : K → K → Coefs K) (xi : K) (wns : List K) (hw : ∀ w ∈ wns, 0 ≤ w) (n : Nat) {x y : Rec K} (h : WindowOf x y 0)
    (h2 : n < y.length) {rx : List (SpecRow K)} (hx : responseSpectra coef xi wns n x = .ok rx) :
    ∃ ry, responseSpectra coef xi wns n y = .ok ry ∧
      List.Forall₂ (fun p q : SpecRow K => p.sa ≤ q.sa ∧ p.sv ≤ q.sv ∧ p.sd ≤ q.sd ∧ p.psa ≤ q.psa ∧ p.psv ≤ q.psv) ry rx := by
  unfold responseSpectra at hx ⊢
  split_ifs at hx with hn
  rw [if_neg hn]
  have hpre : subsample n y <+: subsample n x := by
    rw [window0_eq h]; exact subsample_prefix n (by omega) x _
  have hl2 : 2 ≤ (subsample n y).length := by
    rw [(subsample_get n (by omega) y).1]
    exact (Nat.le_div_iff_mul_le (by omega)).2 (by omega)
  have hdt : dtOf (subsample n y) = dtOf (subsample n x) := by
    obtain ⟨t, ht⟩ := hpre
    rw [← ht]
    match subsample n y, hl2 with
    | p :: q :: l, _ => rfl
  have hsp : spacingOk ((subsample n x).map Prod.fst) = .ok () → spacingOk ((subsample n y).map Prod.fst) = .ok () := by
    intro hs
    have hdp := diff_prefix (hpre.map Prod.fst)
    have hdl : diff ((subsample n y).map Prod.fst) ≠ [] := by
      match subsample n y, hl2 with
      | p :: q :: l, _ => simp [diff]
    unfold spacingOk at hs ⊢
    obtain ⟨t, ht⟩ := hdp
    rw [← ht] at hs
    cases hq : diff ((subsample n y).map Prod.fst) with
    | nil => exact absurd hq hdl
    | cons d ds =>
      rw [hq] at hs
      simp only [List.cons_append] at hs ⊢
      split_ifs at hs with hc
      rw [if_pos]
      intro z hz
      exact hc z (by simp only [List.mem_cons, List.mem_append] at hz ⊢; tauto)
  cases hs : spacingOk ((subsample n x).map Prod.fst) with
  | error e => simp only [hs, Bind.bind, Except.bind] at hx; cases hx
  | ok u =>
    cases hd : dtOf (subsample n x) with
    | error e => simp only [hs, hd, Bind.bind, Except.bind] at hx; cases hx
    | ok dt =>
      simp only [hs, hd, Bind.bind, Except.bind, Pure.pure, Except.pure, Except.ok.injEq] at hx
      simp only [hsp hs, hdt, hd, Bind.bind, Except.bind, Pure.pure, Except.pure, Except.ok.injEq]
      refine ⟨_, rfl, ?_⟩
      rw [← hx, List.forall₂_map_left_iff, List.forall₂_map_right_iff, List.forall₂_same]
      intro wn hwn
      exact timeStepping_prefix _ (hw wn hwn) xi (hpre.map Prod.snd)

end

section
variable {K : Type} [Field K] [LinearOrder K] [IsStrictOrderedRing K] [FloorRing K]

/-- C209: every truncation that succeeds, by time or by intensity, returns a part of the motion: consecutive samples beginning with the first
index returned, at least two of them, with the time step of the motion; and its peak acceleration is not larger. -/
theorem C209_truncate (σ τ : CStore K) (m m' : Motion K) (norm : Rec K) (lim ext : K × K) (arias : Bool) (r1 r2 : Int)
    (hp : m.pga = maxAbs (vals (m.accel.read σ))) (h : truncateMotion σ m norm lim arias ext = (.ok (m', r1, r2), τ)) :
    0 ≤ r1 ∧ WindowOf (m.accel.read σ) (m'.accel.read τ) r1.toNat ∧ 2 ≤ (m'.accel.read τ).length ∧
    dtOf (m'.accel.read τ) = .ok m'.dt ∧ dtOf (m.accel.read σ) = .ok m'.dt ∧ m'.pga ≤ m.pga := by
  unfold truncateMotion at h
  cases hi : truncIdx (m.accel.read σ) norm m.dt m.npts lim arias ext with
  | error e => rw [hi] at h; cases h
  | ok r =>
    obtain ⟨a1, a2⟩ := r
    rw [hi] at h
    have ha1 : 0 ≤ a1 := by
      have key : ∀ b : K × K, (if pyInt ((b.1 - ext.1) / m.dt) < 0 then 0 else pyInt ((b.1 - ext.1) / m.dt)) = a1 → 0 ≤ a1 := by
        intro b hb
        rw [← hb]
        split_ifs <;> omega
      unfold truncIdx at hi
      cases arias
      · simp only [Bool.false_eq_true, if_false] at hi
        by_cases c1 : ext.1 < 0 ∨ ext.2 < 0
        · rw [if_pos c1] at hi; cases hi
        rw [if_neg c1] at hi
        by_cases c2 : lim.2 ≤ lim.1
        · rw [if_pos c2] at hi; cases hi
        rw [if_neg c2] at hi
        by_cases c3 : m.dt = 0
        · rw [if_pos c3] at hi; cases hi
        rw [if_neg c3] at hi
        simp only [bind, Except.bind, pure, Except.pure, Except.ok.injEq, Prod.mk.injEq] at hi
        exact key _ hi.1
      · simp only [bind, Except.bind, pure, Except.pure, if_true] at hi
        by_cases c1 : ext.1 < 0 ∨ ext.2 < 0
        · rw [if_pos c1] at hi; cases hi
        rw [if_neg c1] at hi
        by_cases c2 : lim.2 ≤ lim.1
        · rw [if_pos c2] at hi; cases hi
        rw [if_neg c2] at hi
        by_cases c3 : m.dt = 0
        · rw [if_pos c3] at hi; cases hi
        rw [if_neg c3] at hi
        cases hb : ariasBounds norm lim.1 lim.2 with
        | error e => rw [hb] at hi; cases hi
        | ok b =>
          rw [hb] at hi
          simp only [Except.ok.injEq, Prod.mk.injEq] at hi
          exact key b hi.1
    simp only at h
    cases hx : truncArr (m.accel.read σ) a1 a2 with
    | error e => rw [hx] at h; cases h
    | ok x =>
      rw [hx] at h
      simp only at h
      cases hf : mkFresh σ x with
      | mk res ρ =>
        rw [hf] at h
        cases res with
        | error e => cases h
        | ok mm =>
          simp only [Prod.mk.injEq, Except.ok.injEq] at h
          obtain ⟨⟨rfl, rfl, rfl⟩, rfl⟩ := h
          have hx2 : 2 ≤ x.length := by
            by_contra hlt
            unfold mkFresh mkMotion at hf
            have : ∃ e, readTwo (σ ++ [x]) (.two σ.length) none = .error e := by
              unfold readTwo
              have ha : (σ ++ [x])[σ.length]? = some x := by simp
              simp only [ha]
              match x, hlt with
              | [], _ => exact ⟨_, rfl⟩
              | [_], _ => exact ⟨_, rfl⟩
              | _ :: _ :: _, hlt => exact absurd (by simp) hlt
            obtain ⟨e, h⟩ := this
            rw [h] at hf; cases hf
          obtain ⟨m2, hm2, hread, hnp, hdt, hpga⟩ := mkFresh_spec σ x hx2
          rw [hf] at hm2
          simp only [Prod.mk.injEq, Except.ok.injEq] at hm2
          obtain ⟨rfl, rfl⟩ := hm2
          have hw : WindowOf (m.accel.read σ) x a1.toNat := by
            unfold truncArr colStack at hx
            split_ifs at hx with hlen
            cases hx
            push Not at hlen
            rw [List.length_map, List.length_map] at hlen
            rw [List.length_zip, List.length_map, List.length_map] at hx2
            have hs : sliceBound (m.accel.read σ).length a1 = min a1.toNat (m.accel.read σ).length := by
              unfold sliceBound; rw [if_neg (by omega)]
            have hs0 : sliceBound (m.accel.read σ).length 0 = 0 := by simp [sliceBound]
            have hlv : (pySlice (m.accel.read σ) a1 a2).length ≤ (m.accel.read σ).length - min a1.toNat (m.accel.read σ).length := by
              unfold pySlice; rw [hs]; simp only [List.length_drop, List.length_take]; omega
            refine ⟨?_, ?_, ?_⟩
            · rw [List.length_zip, List.length_map, List.length_map]; omega
            · intro j hj
              rw [List.length_zip, List.length_map, List.length_map] at hj
              have e : (((pySlice (m.accel.read σ) 0 (a2 - a1)).map Prod.fst).zip ((pySlice (m.accel.read σ) a1 a2).map Prod.snd)).map Prod.snd =
                  (pySlice (m.accel.read σ) a1 a2).map Prod.snd := zip_snd _ _ (by simp [hlen])
              have hj' : j < (pySlice (m.accel.read σ) a1 a2).length := by omega
              rw [e, List.getElem?_map, List.getElem?_map]
              unfold pySlice at hj' ⊢
              rw [hs] at hj' ⊢
              rw [List.length_drop, List.length_take] at hj'
              rw [List.getElem?_drop, List.getElem?_take_of_lt (by omega), show min a1.toNat (m.accel.read σ).length = a1.toNat by omega]
            · intro j hj
              rw [List.length_zip, List.length_map, List.length_map] at hj
              have e : (((pySlice (m.accel.read σ) 0 (a2 - a1)).map Prod.fst).zip ((pySlice (m.accel.read σ) a1 a2).map Prod.snd)).map Prod.fst =
                  (pySlice (m.accel.read σ) 0 (a2 - a1)).map Prod.fst := zip_fst _ _ (by simp [hlen])
              have hj' : j < (pySlice (m.accel.read σ) 0 (a2 - a1)).length := by omega
              rw [e, List.getElem?_map, List.getElem?_map]
              unfold pySlice at hj' ⊢
              rw [hs0] at hj' ⊢
              rw [List.length_drop, List.length_take] at hj'
              rw [List.getElem?_drop, List.getElem?_take_of_lt (by omega), zero_add]
          rw [hread]
          exact ⟨ha1, hw, hx2, hdt, (window_dt hw hx2).symm.trans hdt, by rw [hpga, hp]; exact C209_peak hw⟩

end

/-- The six-sample motion of `MotionTrunc`, truncated. -/
example : WindowOf [((0 : ℚ), (1 : ℚ)), (1, -3), (2, 2), (3, 5)] [(0, -3), (1, 2)] 1 := by
  refine ⟨by simp, ?_, ?_⟩ <;> · intro j hj; simp only [List.length_cons, List.length_nil] at hj; rcases (show j = 0 ∨ j = 1 by omega) with rfl | rfl <;> rfl

end Verif
