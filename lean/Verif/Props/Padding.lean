import Verif.Props.Motion
import Verif.Props.MotionObj
import Verif.Model.Oscillator
import Mathlib.Analysis.Real.Pi.Bounds

/-!
C193: samples of zero before or after a record do not change what is computed from it.
-/

set_option linter.unusedSectionVars false
set_option linter.unusedVariables false

namespace Verif

namespace Spec

variable {K : Type} [_root_.Field K]

/-- `y` is the record `x` with time step `d`, preceded by `k` samples of zero. -/
structure DelayedBy (k : Nat) (d : K) (x y : List (K × K)) : Prop where
  stepX : Uniform d (times x)
  stepY : Uniform d (times y)
  vals : vals y = List.replicate k 0 ++ vals x

/-- `y` is the record `x` with time step `d`, followed by `k` samples of zero. -/
structure FollowedBy (k : Nat) (d : K) (x y : List (K × K)) : Prop where
  stepX : Uniform d (times x)
  stepY : Uniform d (times y)
  times : times x <+: times y
  vals : vals y = vals x ++ List.replicate k 0

end Spec

open Spec

section
variable {K : Type} [_root_.Field K] [LinearOrder K] [IsStrictOrderedRing K]

theorem rec_eta (x : List (K × K)) : (x.map Prod.fst).zip (x.map Prod.snd) = x := by
  induction x with
  | nil => rfl
  | cons r x ih => simp [ih]

theorem maxAbs_append (a b : List K) : maxAbs (a ++ b) = max (maxAbs a) (maxAbs b) := by
  induction a with
  | nil => simp only [List.nil_append]; rw [show maxAbs ([] : List K) = 0 from rfl, max_eq_right (maxAbs_nonneg b)]
  | cons x a ih =>
    show max |x| (maxAbs (a ++ b)) = max (max |x| (maxAbs a)) (maxAbs b)
    rw [ih, max_assoc]

theorem maxAbs_zeros (k : Nat) : maxAbs (List.replicate k (0 : K)) = 0 := by
  induction k with
  | zero => rfl
  | succ k ih => rw [List.replicate_succ]; show max |0| (maxAbs _) = 0; rw [ih]; simp

theorem cumsumFrom_app (s : K) (a b : List K) : cumsumFrom s (a ++ b) = cumsumFrom s a ++ cumsumFrom (s + a.sum) b := by
  induction a generalizing s with
  | nil => simp [cumsumFrom]
  | cons x a ih => simp [cumsumFrom, ih, add_assoc]

theorem cumsumFrom_zeros (s : K) (k : Nat) : cumsumFrom s (List.replicate k 0) = List.replicate k s := by
  induction k generalizing s with
  | zero => rfl
  | succ k ih => rw [List.replicate_succ, cumsumFrom, add_zero, ih, List.replicate_succ]

theorem cumsum_delayed (k : Nat) (a : List K) : cumsum (List.replicate k 0 ++ a) = List.replicate k 0 ++ cumsum a := by
  unfold cumsum
  rw [cumsumFrom_app, cumsumFrom_zeros]
  simp

theorem delayed_len {k : Nat} {d : K} {x y : Rec K} (h : DelayedBy k d x y) : y.length = k + x.length := by
  have := congrArg List.length h.vals
  simpa [vals] using this

/-- C193: silence before a motion does not change its peak acceleration, velocity and displacement. -/
theorem C193_delay_peaks {k : Nat} {d : K} {x y : Rec K} (h : DelayedBy k d x y) (h2 : 2 ≤ x.length) :
    ∃ vx ux vy uy, numInt x = .ok (vx, ux) ∧ numInt y = .ok (vy, uy) ∧ maxAbs (vals y) = maxAbs (vals x) ∧
      maxAbs (vals vy) = maxAbs (vals vx) ∧ maxAbs (vals uy) = maxAbs (vals ux) := by
  have hl := delayed_len h
  refine ⟨_, _, _, _, numInt_ok d x (uniform_dtOf h.stepX h2), numInt_ok d y (uniform_dtOf h.stepY (by omega)), ?_, ?_, ?_⟩
  · rw [h.vals, maxAbs_append, maxAbs_zeros, max_eq_right (maxAbs_nonneg _)]
  · unfold Spec.vals Spec.times
    rw [zip_snd _ _ (by simp [cumsum, cumsumFrom_length]), zip_snd _ _ (by simp [cumsum, cumsumFrom_length])]
    have := h.vals
    unfold Spec.vals at this
    rw [this, cumsum_delayed, List.map_append, List.map_replicate, zero_mul, maxAbs_append, maxAbs_zeros, max_eq_right (maxAbs_nonneg _)]
  · unfold Spec.vals Spec.times
    rw [zip_snd _ _ (by simp [cumsum, cumsumFrom_length]), zip_snd _ _ (by simp [cumsum, cumsumFrom_length])]
    have := h.vals
    unfold Spec.vals at this
    rw [this, cumsum_delayed, List.map_append, List.map_replicate, zero_mul, cumsum_delayed, List.map_append, List.map_replicate, zero_mul,
      maxAbs_append, maxAbs_zeros, max_eq_right (maxAbs_nonneg _)]

theorem uniform_at {d : K} {t : List K} (h : Uniform d t) (i : Nat) (a b : K) (h0 : t[0]? = some a) (hi : t[i]? = some b) : b = a + i * d := by
  induction i generalizing b with
  | zero => rw [h0] at hi; cases hi; simp
  | succ i ih =>
    have hlt : i < t.length := by have := (List.getElem?_eq_some_iff.1 hi).1; omega
    have e := ih t[i] (List.getElem?_eq_getElem hlt)
    have := h i _ _ (List.getElem?_eq_getElem hlt) hi
    push_cast
    linarith

theorem uniform_nondecr {d : K} (hd : 0 < d) {t : List K} (h : Uniform d t) : NonDecr t := by
  intro i j a b hij h1 h2
  have hl : 0 < t.length := by have := (List.getElem?_eq_some_iff.1 h1).1; omega
  have e1 := uniform_at h i t[0] a (List.getElem?_eq_getElem hl) h1
  have e2 := uniform_at h j t[0] b (List.getElem?_eq_getElem hl) h2
  rw [e1, e2]
  have : (i : K) ≤ j := by exact_mod_cast hij
  have := mul_le_mul_of_nonneg_right this hd.le
  linarith

/-- The first samples reaching a level are at indices that differ by the shift of the two series. -/
theorem first_shift {a b : List K} {v : K} {k i i' : Nat} (hab : ∀ (n : Nat) y, a[n]? = some y → b[k + n]? = some y)
    (hlow : ∀ (n : Nat) y, n < k → b[n]? = some y → y < v)
    (hi : i < a.length) (hi' : i' < b.length) (hlen : b.length = k + a.length) (h1 : ∀ (n : Nat) y, a[n]? = some y → (y < v ↔ n < i))
    (h2 : ∀ (n : Nat) y, b[n]? = some y → (y < v ↔ n < i')) : i' = k + i := by
  have e1 : ¬ (k + i < i') := by
    have g := hab i _ (List.getElem?_eq_getElem hi)
    intro hc
    have := (h2 _ _ g).2 hc
    have := (h1 _ _ (List.getElem?_eq_getElem hi)).1 this
    omega
  have e2 : ¬ (i' < k + i) := by
    intro hc
    have g : b[i']? = some b[i'] := List.getElem?_eq_getElem hi'
    have hn : ¬ b[i'] < v := fun hcc => absurd ((h2 _ _ g).1 hcc) (lt_irrefl _)
    rcases Nat.lt_or_ge i' k with hk | hk
    · exact hn (hlow _ _ hk g)
    · have hlt : i' - k < a.length := by omega
      have g' := hab (i' - k) _ (List.getElem?_eq_getElem hlt)
      rw [show k + (i' - k) = i' by omega, g] at g'
      have := Option.some.inj g'
      rw [this] at hn
      exact hn ((h1 _ _ (List.getElem?_eq_getElem hlt)).2 (by omega))
  omega

/-- C193: silence before a motion does not change its Arias intensity and its significant duration. -/
theorem C193_delay_arias (c : K) (hc : 0 < c) {k : Nat} {d : K} (hd : 0 < d) {x y : Rec K} (h : DelayedBy k d x y)
    (he : ∃ i a, (vals x)[i]? = some a ∧ i + 1 < x.length ∧ a ≠ 0) :
    ∃ rx ry, calcArias c x = .ok rx ∧ calcArias c y = .ok ry ∧ ry.peak = rx.peak ∧ ry.t595 = rx.t595 := by
  obtain ⟨i0, a0, hi0, hi1, ha0⟩ := he
  have hl := delayed_len h
  have hx := uniform_dtOf h.stepX (by omega)
  have hy := uniform_dtOf h.stepY (by omega)
  have hey : ∃ i a, (vals y)[i]? = some a ∧ i + 1 < y.length ∧ a ≠ 0 := by
    refine ⟨k + i0, a0, ?_, by omega, ha0⟩
    rw [h.vals, List.getElem?_append_right (by simp)]
    simpa using hi0
  obtain ⟨rx, hrx, -, tnx, iax, -, -, hpx, hlx, nx, -, bx, -, -⟩ := C22_arias c d hc hd x hx ⟨i0, a0, hi0, hi1, ha0⟩
  obtain ⟨ry, hry, -, tny, iay, -, -, hpy, hly, ny, -, by', -, -⟩ := C22_arias c d hc hd y hy hey
  obtain ⟨rx', tlx, thx, ix, jx, hrx', tx, -, fx1, fx2, fx3, fx4⟩ := C23_significant_duration c d hc hd x hx (uniform_nondecr hd h.stepX) ⟨i0, a0, hi0, hi1, ha0⟩
  obtain ⟨ry', tly, thy, iy, jy, hry', ty, -, fy1, fy2, fy3, fy4⟩ := C23_significant_duration c d hc hd y hy (uniform_nondecr hd h.stepY) hey
  obtain rfl : rx = rx' := by rw [hrx] at hrx'; exact Except.ok.inj hrx'
  obtain rfl : ry = ry' := by rw [hry] at hry'; exact Except.ok.inj hry'
  have hia : ∀ (n : Nat), n < x.length → (vals ry.ia)[k + n]? = (vals rx.ia)[n]? := by
    intro n hn
    rw [iax n hn, iay (k + n) (by omega), h.vals, List.take_append, List.take_of_length_le (by simp), List.length_replicate, Nat.add_sub_cancel_left]
    simp
  have hlenx : (vals rx.ia).length = x.length := by
    have e := congrArg List.length nx
    have e2 := congrArg List.length tnx
    simp [vals, times] at e e2 ⊢; omega
  have hleny : (vals ry.ia).length = y.length := by
    have e := congrArg List.length ny
    have e2 := congrArg List.length tny
    simp [vals, times] at e e2 ⊢; omega
  have hpk : ry.peak = rx.peak := by
    rw [List.getLast?_eq_getElem?, hlenx] at hlx
    rw [List.getLast?_eq_getElem?, hleny, show y.length - 1 = k + (x.length - 1) by omega, hia _ (by omega), hlx] at hly
    exact (Option.some.inj hly).symm
  refine ⟨rx, ry, hrx, hry, hpk, ?_⟩
  have hnorm : ∀ (n : Nat) z, (vals rx.norm)[n]? = some z → (vals ry.norm)[k + n]? = some z := by
    intro n z hz
    rw [nx, List.getElem?_map] at hz
    rw [ny, List.getElem?_map, hpk]
    have hn : n < x.length := by
      rw [← hlenx]
      rcases hm : (vals rx.ia)[n]? with _ | q
      · rw [hm] at hz; simp at hz
      · exact (List.getElem?_eq_some_iff.1 hm).1
    rw [hia n hn]
    exact hz
  have hlow : ∀ v : K, 0 < v → ∀ (n : Nat) z, n < k → (vals ry.norm)[n]? = some z → z < v := by
    intro v hv n z hn hz
    rw [ny, List.getElem?_map, iay n (by omega), h.vals, List.take_append_of_le_length (by simp; omega)] at hz
    simp at hz
    rw [← hz]; exact hv
  have hla : (vals rx.norm).length = x.length := by rw [nx]; simpa using hlenx
  have hlb : (vals ry.norm).length = y.length := by rw [ny]; simpa using hleny
  have b1 : ∀ {i : Nat} {t : K}, (times x)[i]? = some t → i < (vals rx.norm).length := fun hh => by
    have := (List.getElem?_eq_some_iff.1 hh).1; simp [times] at this; omega
  have b2 : ∀ {i : Nat} {t : K}, (times y)[i]? = some t → i < (vals ry.norm).length := fun hh => by
    have := (List.getElem?_eq_some_iff.1 hh).1; simp [times] at this; omega
  have s1 : iy = k + ix := first_shift hnorm (hlow _ (by norm_num)) (b1 fx1) (b2 fy1) (by omega) fx3 fy3
  have s2 : jy = k + jx := first_shift hnorm (hlow _ (by norm_num)) (b1 fx2) (b2 fy2) (by omega) fx4 fy4
  rw [tx, ty]
  have hlx0 : 0 < (times x).length := by simp [times]; omega
  have hly0 : 0 < (times y).length := by simp [times]; omega
  rw [uniform_at h.stepX _ _ _ (List.getElem?_eq_getElem hlx0) fx1, uniform_at h.stepX _ _ _ (List.getElem?_eq_getElem hlx0) fx2,
    uniform_at h.stepY _ _ _ (List.getElem?_eq_getElem hly0) fy1, uniform_at h.stepY _ _ _ (List.getElem?_eq_getElem hly0) fy2, s1, s2]
  push_cast; ring

/-! ## Silence after the motion -/

theorem followed_len {k : Nat} {d : K} {x y : Rec K} (h : FollowedBy k d x y) : y.length = x.length + k := by
  have := congrArg List.length h.vals
  simpa [vals] using this

theorem maxAbs_repeat_last (l : List K) (k : Nat) (v : K) (hv : v ∈ l) : maxAbs (l ++ List.replicate k v) = maxAbs l := by
  rw [maxAbs_append]
  refine max_eq_left ?_
  rcases Nat.eq_zero_or_pos k with rfl | hk
  · exact maxAbs_nonneg l
  · obtain ⟨z, hz, e⟩ := maxAbs_mem (l := List.replicate k v) (by simp; omega)
    rw [← e, (List.mem_replicate.1 hz).2]
    exact le_maxAbs hv

/-- C193: silence after a motion does not change its peak acceleration and velocity; the peak displacement is at least as large (it grows when
the velocity at the end of the record is not zero). -/
theorem C193_extend_peaks {k : Nat} {d : K} {x y : Rec K} (h : FollowedBy k d x y) (h2 : 2 ≤ x.length) :
    ∃ vx ux vy uy, numInt x = .ok (vx, ux) ∧ numInt y = .ok (vy, uy) ∧ maxAbs (vals y) = maxAbs (vals x) ∧
      maxAbs (vals vy) = maxAbs (vals vx) ∧ maxAbs (vals ux) ≤ maxAbs (vals uy) ∧
      ((vals x).sum = 0 → maxAbs (vals uy) = maxAbs (vals ux)) := by
  have hl := followed_len h
  have hv := h.vals
  unfold Spec.vals at hv
  have hne : x.map Prod.snd ≠ [] := by intro hc; have := congrArg List.length hc; simp at this; rw [this] at h2; simp at h2
  have lastmem : ∀ (l : List K), l ≠ [] → l.sum ∈ cumsum l := by
    intro l hl
    obtain ⟨a, b, rfl⟩ : ∃ a b, l = a ++ [b] := ⟨l.dropLast, l.getLast hl, (List.dropLast_append_getLast hl).symm⟩
    unfold cumsum
    rw [cumsumFrom_app]
    simp [cumsumFrom]
  have hvel : (cumsum (y.map Prod.snd)).map (· * d) = (cumsum (x.map Prod.snd)).map (· * d) ++ List.replicate k ((x.map Prod.snd).sum * d) := by
    unfold cumsum
    rw [hv, cumsumFrom_app, cumsumFrom_zeros]
    simp
  refine ⟨_, _, _, _, numInt_ok d x (uniform_dtOf h.stepX h2), numInt_ok d y (uniform_dtOf h.stepY (by omega)), ?_, ?_, ?_, ?_⟩
  · rw [h.vals, maxAbs_append, maxAbs_zeros, max_eq_left (maxAbs_nonneg _)]
  · unfold Spec.vals Spec.times
    rw [zip_snd _ _ (by simp [cumsum, cumsumFrom_length]), zip_snd _ _ (by simp [cumsum, cumsumFrom_length]), hvel]
    exact maxAbs_repeat_last _ _ _ (List.mem_map.2 ⟨_, lastmem _ hne, rfl⟩)
  · unfold Spec.vals Spec.times
    rw [zip_snd _ _ (by simp [cumsum, cumsumFrom_length]), zip_snd _ _ (by simp [cumsum, cumsumFrom_length]), hvel]
    generalize (cumsum (x.map Prod.snd)).map (· * d) = V
    unfold cumsum
    rw [cumsumFrom_app, List.map_append, maxAbs_append]
    exact le_max_left _ _
  · intro hsum
    unfold Spec.vals at hsum
    unfold Spec.vals Spec.times
    rw [zip_snd _ _ (by simp [cumsum, cumsumFrom_length]), zip_snd _ _ (by simp [cumsum, cumsumFrom_length]), hvel, hsum, zero_mul]
    have hVne : (cumsum (x.map Prod.snd)).map (· * d) ≠ [] := by
      intro hc; have := congrArg List.length hc; simp [cumsum, cumsumFrom_length] at this; rw [this] at h2; simp at h2
    generalize (cumsum (x.map Prod.snd)).map (· * d) = V at hVne
    have e : cumsum (V ++ List.replicate k 0) = cumsum V ++ List.replicate k V.sum := by
      unfold cumsum
      rw [cumsumFrom_app, cumsumFrom_zeros]; simp
    rw [e, List.map_append, List.map_replicate]
    exact maxAbs_repeat_last _ _ _ (List.mem_map.2 ⟨_, lastmem _ hVne, rfl⟩)

/-- C193: silence after a motion adds the energy of the last sample to the Arias intensity, because the intensity at a time does not
include the sample at that time. -/
theorem C193_extend_peak_exact (c : K) (hc : 0 < c) {k : Nat} (hk : 0 < k) {d : K} (hd : 0 < d) {x y : Rec K} (h : FollowedBy k d x y) (a : K)
    (ha : (vals x).getLast? = some a) (he : ∃ i a, (vals x)[i]? = some a ∧ i + 1 < x.length ∧ a ≠ 0) :
    ∃ rx ry, calcArias c x = .ok rx ∧ calcArias c y = .ok ry ∧ ry.peak = rx.peak + c * d * a ^ 2 := by
  obtain ⟨i0, a0, hi0, hi1, ha0⟩ := he
  have hl := followed_len h
  have hx := uniform_dtOf h.stepX (by omega)
  have hy := uniform_dtOf h.stepY (by omega)
  have hvl : (vals x).length = x.length := by simp [vals]
  have hey : ∃ i a, (vals y)[i]? = some a ∧ i + 1 < y.length ∧ a ≠ 0 := by
    refine ⟨i0, a0, ?_, by omega, ha0⟩
    rw [h.vals, List.getElem?_append_left (by omega)]
    exact hi0
  obtain ⟨rx, hrx, -, tnx, iax, -, -, hpx, hlx, nx, -, bx, -, -⟩ := C22_arias c d hc hd x hx ⟨i0, a0, hi0, hi1, ha0⟩
  obtain ⟨ry, hry, -, tny, iay, -, -, hpy, hly, ny, -, by', -, -⟩ := C22_arias c d hc hd y hy hey
  have hlenx : (vals rx.ia).length = x.length := by
    have e := congrArg List.length nx
    have e2 := congrArg List.length tnx
    simp [vals, times] at e e2 ⊢; omega
  have hleny : (vals ry.ia).length = y.length := by
    have e := congrArg List.length ny
    have e2 := congrArg List.length tny
    simp [vals, times] at e e2 ⊢; omega
  refine ⟨rx, ry, hrx, hry, ?_⟩
  rw [List.getLast?_eq_getElem?, hlenx, iax _ (by omega)] at hlx
  rw [List.getLast?_eq_getElem?, hleny, iay _ (by omega)] at hly
  rw [← Option.some.inj hlx, ← Option.some.inj hly, h.vals, List.take_append, List.take_of_length_le (by omega)]
  have hne : vals x ≠ [] := by intro hc; rw [hc] at ha; simp at ha
  have hsplit : vals x = (vals x).take (x.length - 1) ++ [a] := by
    have e := List.dropLast_append_getLast hne
    rw [List.getLast?_eq_some_getLast hne] at ha
    rw [Option.some.inj ha, List.dropLast_eq_take, hvl] at e
    exact e.symm
  conv_lhs => rw [hsplit]
  rw [List.take_replicate]
  simp
  ring

/-- C193, what holds of the Arias intensity: silence after a motion that has ended (last sample zero) changes neither the intensity nor the
significant duration.  Missing: motions whose last sample is not zero (`C193_extend_violated`). -/
theorem C193_extend_arias_partial (c : K) (hc : 0 < c) {k : Nat} {d : K} (hd : 0 < d) {x y : Rec K} (h : FollowedBy k d x y)
    (ha : (vals x).getLast? = some 0) (he : ∃ i a, (vals x)[i]? = some a ∧ i + 1 < x.length ∧ a ≠ 0) :
    ∃ rx ry, calcArias c x = .ok rx ∧ calcArias c y = .ok ry ∧ ry.peak = rx.peak ∧ ry.t595 = rx.t595 := by
  have hl := followed_len h
  obtain ⟨i0, a0, hi0, hi1, ha0⟩ := he
  have hx := uniform_dtOf h.stepX (by omega)
  have hy := uniform_dtOf h.stepY (by omega)
  have hvl : (vals x).length = x.length := by simp [vals]
  have hey : ∃ i a, (vals y)[i]? = some a ∧ i + 1 < y.length ∧ a ≠ 0 := by
    refine ⟨i0, a0, ?_, by omega, ha0⟩
    rw [h.vals, List.getElem?_append_left (by omega)]
    exact hi0
  have hpeak : ∃ rx ry, calcArias c x = .ok rx ∧ calcArias c y = .ok ry ∧ ry.peak = rx.peak := by
    rcases Nat.eq_zero_or_pos k with rfl | hk
    · obtain ⟨rx, hrx, -⟩ := C22_arias c d hc hd x hx ⟨i0, a0, hi0, hi1, ha0⟩
      have : y = x := by
        have e1 := h.vals
        have e2 := h.times.eq_of_length (by simp [times]; omega)
        rw [List.replicate_zero, List.append_nil] at e1
        unfold Spec.vals at e1; unfold Spec.times at e2
        rw [← rec_eta y, ← e2, e1, rec_eta]
      exact ⟨rx, rx, hrx, by rw [this]; exact hrx, rfl⟩
    · obtain ⟨rx, ry, e1, e2, e3⟩ := C193_extend_peak_exact c hc hk hd h 0 ha ⟨i0, a0, hi0, hi1, ha0⟩
      exact ⟨rx, ry, e1, e2, by rw [e3]; simp⟩
  obtain ⟨rx, ry, hrx, hry, hpk⟩ := hpeak
  refine ⟨rx, ry, hrx, hry, hpk, ?_⟩
  obtain ⟨rx', hrx', -, tnx, iax, -, -, hpx, hlx, nx, -, bx, -, -⟩ := C22_arias c d hc hd x hx ⟨i0, a0, hi0, hi1, ha0⟩
  obtain ⟨ry', hry', -, tny, iay, -, -, hpy, hly, ny, -, by', -, -⟩ := C22_arias c d hc hd y hy hey
  obtain rfl : rx = rx' := by rw [hrx] at hrx'; exact Except.ok.inj hrx'
  obtain rfl : ry = ry' := by rw [hry] at hry'; exact Except.ok.inj hry'
  obtain ⟨rx', tlx, thx, ix, jx, hrx', tx, -, fx1, fx2, fx3, fx4⟩ := C23_significant_duration c d hc hd x hx (uniform_nondecr hd h.stepX) ⟨i0, a0, hi0, hi1, ha0⟩
  obtain ⟨ry', tly, thy, iy, jy, hry', ty, -, fy1, fy2, fy3, fy4⟩ := C23_significant_duration c d hc hd y hy (uniform_nondecr hd h.stepY) hey
  obtain rfl : rx = rx' := by rw [hrx] at hrx'; exact Except.ok.inj hrx'
  obtain rfl : ry = ry' := by rw [hry] at hry'; exact Except.ok.inj hry'
  have hlenx : (vals rx.ia).length = x.length := by
    have e := congrArg List.length nx
    have e2 := congrArg List.length tnx
    simp [vals, times] at e e2 ⊢; omega
  have hnorm : ∀ (n : Nat) z, (vals rx.norm)[n]? = some z → (vals ry.norm)[n]? = some z := by
    intro n z hz
    have hn : n < x.length := by
      have := (List.getElem?_eq_some_iff.1 hz).1
      rw [nx] at this; simp at this; omega
    rw [nx, List.getElem?_map, iax n hn] at hz
    rw [ny, List.getElem?_map, hpk, iay n (by omega), h.vals, List.take_append_of_le_length (by omega)]
    exact hz
  have eqidx : ∀ {v : K} {i i' : Nat} {t t' : K}, (times x)[i]? = some t → (times y)[i']? = some t' →
      (∀ (n : Nat) z, (vals rx.norm)[n]? = some z → (z < v ↔ n < i)) → (∀ (n : Nat) z, (vals ry.norm)[n]? = some z → (z < v ↔ n < i')) → i' = i := by
    intro v i i' t t' g1 g2 f1 f2
    have hla : (vals rx.norm).length = x.length := by rw [nx]; simpa using hlenx
    have q1 : i < (vals rx.norm).length := by have := (List.getElem?_eq_some_iff.1 g1).1; simp [times] at this; omega
    have a1 := List.getElem?_eq_getElem q1
    have a2 := hnorm _ _ a1
    have c1 : ¬ (vals rx.norm)[i] < v := fun hcc => absurd ((f1 _ _ a1).1 hcc) (lt_irrefl _)
    have c2 : ¬ i < i' := fun hcc => c1 ((f2 _ _ a2).2 hcc)
    have c3 : ¬ i' < i := by
      intro hcc
      have q2 : i' < (vals rx.norm).length := by omega
      have b1 := List.getElem?_eq_getElem q2
      exact absurd ((f2 _ _ (hnorm _ _ b1)).1 ((f1 _ _ b1).2 hcc)) (lt_irrefl _)
    omega
  have hpre : ∀ {i : Nat} {t : K}, (times x)[i]? = some t → (times y)[i]? = some t := by
    intro i t g
    obtain ⟨s, hs⟩ := h.times
    rw [← hs, List.getElem?_append_left (List.getElem?_eq_some_iff.1 g).1]
    exact g
  obtain rfl := eqidx fx1 fy1 fx3 fy3
  obtain rfl := eqidx fx2 fy2 fx4 fy4
  rw [tx, ty]
  rw [hpre fx1] at fy1
  rw [hpre fx2] at fy2
  rw [Option.some.inj fy1, Option.some.inj fy2]

/-- C193 is violated: one sample of zero after any motion whose last sample is not zero increases its Arias intensity. -/
theorem C193_extend_violated (c : K) (hc : 0 < c) {k : Nat} (hk : 0 < k) {d : K} (hd : 0 < d) {x y : Rec K} (h : FollowedBy k d x y) (a : K)
    (ha : (vals x).getLast? = some a) (ha0 : a ≠ 0) (he : ∃ i a, (vals x)[i]? = some a ∧ i + 1 < x.length ∧ a ≠ 0) :
    ∃ rx ry, calcArias c x = .ok rx ∧ calcArias c y = .ok ry ∧ rx.peak < ry.peak := by
  obtain ⟨rx, ry, e1, e2, e3⟩ := C193_extend_peak_exact c hc hk hd h a ha he
  refine ⟨rx, ry, e1, e2, ?_⟩
  rw [e3]
  have : 0 < c * d * a ^ 2 := by positivity
  linarith

/-! ## Response spectra -/

theorem subsample_one (l : List (K × K)) : subsample 1 l = l := by
  unfold subsample
  simp only [Nat.sub_self, Nat.add_zero, Nat.div_one, Nat.mul_one]
  induction l with
  | nil => rfl
  | cons a l ih =>
    rw [List.length_cons, List.range_succ_eq_map, List.filterMap_cons]
    simp only [List.getElem?_cons_zero, List.filterMap_map]
    congr 1

theorem diff_uniform_mem {d : K} : ∀ {t : List K}, Uniform d t → ∀ z ∈ diff t, z = d
  | [], _ => by simp [diff]
  | [_], _ => by simp [diff]
  | a :: b :: t, h => by
    intro z hz
    rw [diff, List.mem_cons] at hz
    rcases hz with rfl | hz
    · exact h 0 a b rfl rfl
    · exact diff_uniform_mem (t := b :: t) (fun i p q h1 h2 => h (i + 1) p q (by simpa using h1) (by simpa using h2)) z hz

theorem spacing_uniform {d : K} {x : Rec K} (h : Uniform d (times x)) (h2 : 2 ≤ x.length) : spacingOk (x.map Prod.fst) = .ok () := by
  have hu := diff_uniform_mem h
  match x, h2 with
  | r :: s :: x, _ =>
    unfold spacingOk
    have e : diff (List.map Prod.fst (r :: s :: x)) = (s.1 - r.1) :: diff (List.map Prod.fst (s :: x)) := rfl
    simp only [e]
    rw [if_pos]
    intro z hz
    have e1 := hu z hz
    have e2 := hu (s.1 - r.1) (by simp [times, diff])
    rw [e1, e2, sub_self]; positivity

theorem spectra_uniform (coef : K → K → Coefs K) (xi : K) (wns : List K) {d : K} {x : Rec K} (h : Uniform d (times x)) (h2 : 2 ≤ x.length) :
    responseSpectra coef xi wns 1 x = .ok (wns.map fun wn => timeStepping (coef wn d) wn xi (vals x)) := by
  unfold responseSpectra
  rw [if_neg (by norm_num), subsample_one]
  simp only [spacing_uniform h h2, uniform_dtOf h h2, bind, Except.bind, pure, Except.pure]
  rfl

theorem stepFrom_rest (c : Coefs K) (k : Nat) (a : List K) (h0 : a.head? = some 0) :
    stepFrom c (0, 0) (List.replicate k 0 ++ a) = List.replicate k (0, 0) ++ stepFrom c (0, 0) a := by
  match a, h0 with
  | 0 :: a, rfl =>
    induction k with
    | zero => rfl
    | succ k ih =>
      cases k with
      | zero => simp [stepFrom]
      | succ k =>
        rw [List.replicate_succ, List.replicate_succ, List.cons_append, List.cons_append, stepFrom]
        rw [List.replicate_succ, List.cons_append] at ih
        simp only [mul_zero, zero_mul, add_zero]
        rw [ih, List.replicate_succ (n := k + 1), List.cons_append]

theorem zipWith_zero_rest (c xi wn : K) (k : Nat) (s : List (K × K)) (a : List K) :
    List.zipWith (fun (p : K × K) x => -(2 * wn * xi * p.2 + wn ^ 2 * p.1 + x) + x) (List.replicate k (0, 0) ++ s) (List.replicate k 0 ++ a)
      = List.replicate k 0 ++ List.zipWith (fun (p : K × K) x => -(2 * wn * xi * p.2 + wn ^ 2 * p.1 + x) + x) s a := by
  rw [List.zipWith_append (by simp)]
  congr 1
  rw [List.zipWith_replicate']
  simp

/-- C193, response spectra: silence before a motion that starts from zero does not change its response spectra.  Missing: motions whose first
sample is not zero (`C193_spectra_violated`). -/
theorem C193_delay_spectra_partial (coef : K → K → Coefs K) (xi : K) (wns : List K) {k : Nat} {d : K} {x y : Rec K} (h : DelayedBy k d x y)
    (h2 : 2 ≤ x.length) (h0 : (vals x).head? = some 0) : ∃ rows, responseSpectra coef xi wns 1 x = .ok rows ∧ responseSpectra coef xi wns 1 y = .ok rows := by
  have hl := delayed_len h
  refine ⟨_, spectra_uniform coef xi wns h.stepX h2, ?_⟩
  rw [spectra_uniform coef xi wns h.stepY (by omega)]
  congr 1
  refine List.map_congr_left fun wn _ => ?_
  unfold timeStepping
  rw [h.vals, stepFrom_rest _ _ _ h0]
  have z : ∀ l : List K, maxAbs (List.replicate k 0 ++ l) = maxAbs l := fun l => by
    rw [maxAbs_append, maxAbs_zeros, max_eq_right (maxAbs_nonneg _)]
  simp only [zipWith_zero_rest xi xi wn, List.map_append, List.map_replicate, z]

theorem stepFrom_prefix (c : Coefs K) (s : K × K) (a b : List K) (h : a ≠ []) : stepFrom c s a <+: stepFrom c s (a ++ b) := by
  induction a generalizing s with
  | nil => exact absurd rfl h
  | cons p a ih =>
    cases a with
    | nil =>
      cases b with
      | nil => simp
      | cons q b => simp [stepFrom]
    | cons q a =>
      simp only [List.cons_append, stepFrom, List.prefix_cons_inj]
      exact ih _ (by simp)

theorem maxAbs_prefix {a b : List K} (h : a <+: b) : maxAbs a ≤ maxAbs b := by
  obtain ⟨t, rfl⟩ := h
  rw [maxAbs_append]; exact le_max_left _ _

/-- C193: silence after a motion never lowers a spectral ordinate (the oscillator may swing out after the end of the motion). -/
theorem C193_extend_spectra (coef : K → K → Coefs K) (xi : K) (wns : List K) {k : Nat} {d : K} {x y : Rec K} (h : FollowedBy k d x y)
    (h2 : 2 ≤ x.length) (hw : ∀ wn ∈ wns, 0 ≤ wn) : ∃ rx ry, responseSpectra coef xi wns 1 x = .ok rx ∧ responseSpectra coef xi wns 1 y = .ok ry ∧
      List.Forall₂ (fun p q : SpecRow K => p.sa ≤ q.sa ∧ p.sv ≤ q.sv ∧ p.sd ≤ q.sd ∧ p.psa ≤ q.psa ∧ p.psv ≤ q.psv) rx ry := by
  have hl := followed_len h
  refine ⟨_, _, spectra_uniform coef xi wns h.stepX h2, spectra_uniform coef xi wns h.stepY (by omega), ?_⟩
  rw [List.forall₂_map_left_iff, List.forall₂_map_right_iff, List.forall₂_same]
  intro wn hwn
  have hne : vals x ≠ [] := by intro hc; have := congrArg List.length hc; simp [vals] at this; rw [this] at h2; simp at h2
  have hp := stepFrom_prefix (coef wn d) (0, 0) (vals x) (List.replicate k 0) hne
  rw [← h.vals] at hp
  have hw0 := hw wn hwn
  have hd := maxAbs_prefix (hp.map Prod.fst)
  unfold timeStepping
  refine ⟨?_, maxAbs_prefix (hp.map Prod.snd), hd, ?_, ?_⟩
  · refine maxAbs_prefix ?_
    obtain ⟨t, ht⟩ := hp
    rw [← ht, h.vals, List.zipWith_append (by rw [stepFrom_length])]
    exact List.prefix_append _ _
  · exact mul_le_mul_of_nonneg_right (mul_le_mul_of_nonneg_right hd hw0) hw0
  · exact mul_le_mul_of_nonneg_right hd hw0

end

/-- C193 is violated: for every frequency, the response to a single sample of 1 doubles when a sample of zero is put before it (undamped
oscillator, time step a quarter of its period): the oscillator starts at rest at the first sample, and the rise of the motion to that sample
is missing. -/
theorem C193_spectra_violated (wn : ℝ) (hw : 0 < wn) :
    (timeStepping (oscCoefs 0 wn (Real.pi / 2 / wn)) wn 0 [1, 0]).sd = 2 / Real.pi / wn ^ 2 ∧
    (timeStepping (oscCoefs 0 wn (Real.pi / 2 / wn)) wn 0 [0, 1, 0]).sd = 4 / Real.pi / wn ^ 2 := by
  have hp := Real.pi_pos
  have hp3 := Real.pi_gt_three
  have hth : wn * (Real.pi / 2 / wn) = Real.pi / 2 := by field_simp
  have hC : (oscCoefs 0 wn (Real.pi / 2 / wn)).C = 2 / Real.pi / wn ^ 2 := by
    simp only [oscCoefs, wdOf]
    simp [hth]
    field_simp
  have hD : (oscCoefs 0 wn (Real.pi / 2 / wn)).D = (1 - 2 / Real.pi) / wn ^ 2 := by
    simp only [oscCoefs, wdOf]
    simp [hth]
    field_simp
    ring
  have hA : (oscCoefs 0 wn (Real.pi / 2 / wn)).A = 0 := by
    simp only [oscCoefs, wdOf]
    simp [hth]
  have hB : (oscCoefs 0 wn (Real.pi / 2 / wn)).B = 1 / wn := by
    simp only [oscCoefs, wdOf]
    simp [hth]
  have hD' : (oscCoefs 0 wn (Real.pi / 2 / wn)).D' = 2 / Real.pi / wn := by
    simp only [oscCoefs, wdOf]
    simp [hth]
    field_simp
  have hw2 : 0 < wn ^ 2 := by positivity
  constructor
  · simp only [timeStepping, stepFrom, List.map_cons, List.map_nil, maxAbs, List.foldr, hC]
    norm_num
    positivity
  · have hlist : (stepFrom (oscCoefs 0 wn (Real.pi / 2 / wn)) (0, 0) [0, 1, 0]).map Prod.fst
        = [0, -((1 - 2 / Real.pi) / wn ^ 2), -(4 / Real.pi / wn ^ 2)] := by
      simp only [stepFrom, List.map_cons, List.map_nil, hC, hD, hA, hB, hD', List.cons.injEq, and_true, true_and]
      constructor
      · ring
      · field_simp; norm_num
    have hsd : (timeStepping (oscCoefs 0 wn (Real.pi / 2 / wn)) wn 0 [0, 1, 0]).sd
        = maxAbs ((stepFrom (oscCoefs 0 wn (Real.pi / 2 / wn)) (0, 0) [0, 1, 0]).map Prod.fst) := rfl
    have h1 : 0 ≤ 1 - 2 / Real.pi := by rw [sub_nonneg, div_le_one hp]; linarith
    have h2 : 1 - 2 / Real.pi ≤ 4 / Real.pi := by rw [sub_le_iff_le_add, ← add_div, le_div_iff₀ hp]; linarith [Real.pi_lt_four]
    rw [hsd, hlist]
    simp only [maxAbs, List.foldr, abs_neg, abs_zero]
    rw [abs_of_nonneg (div_nonneg h1 hw2.le), abs_of_nonneg (by positivity : 0 ≤ 4 / Real.pi / wn ^ 2), max_eq_left (by positivity : 0 ≤ 4 / Real.pi / wn ^ 2),
      max_eq_right (div_le_div_of_nonneg_right h2 hw2.le), max_eq_right (by positivity)]

/-- A record of three samples, delayed by two samples of zero. -/
example : DelayedBy 2 (1 / 2 : ℚ) [(0, 0), (1 / 2, 3), (1, -1)] [(0, 0), (1 / 2, 0), (1, 0), (3 / 2, 3), (2, -1)] := by
  refine ⟨?_, ?_, rfl⟩
  · intro i a b h1 h2
    match i with
    | 0 => simp [times] at h1 h2; linarith
    | 1 => simp [times] at h1 h2; linarith
    | i + 2 => simp [times] at h2
  · intro i a b h1 h2
    match i with
    | 0 => simp [times] at h1 h2; linarith
    | 1 => simp [times] at h1 h2; linarith
    | 2 => simp [times] at h1 h2; linarith
    | 3 => simp [times] at h1 h2; linarith
    | i + 4 => simp [times] at h2

end Verif
