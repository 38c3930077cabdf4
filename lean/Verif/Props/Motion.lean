import Verif.Proof.Motion

/-!
Properties C19–C27, C66, C67: ground motions.
-/

set_option linter.unusedSectionVars false
set_option linter.unusedVariables false

namespace Verif

open Spec

variable {K : Type} [Field K] [LinearOrder K] [IsStrictOrderedRing K]

/-! ## C19 -/

/-- Differentiating the integrated velocity gives back the acceleration at every sample but
the first, which is 0. -/
theorem C19_diff_of_int (d : K) (hd : d ≠ 0) (x : Rec K) (h2 : 2 ≤ x.length) (hu : Uniform d (times x)) :
    ∃ v u a, numInt x = .ok (v, u) ∧ numDiff v = .ok a ∧ times v = times x ∧ times u = times x ∧
      times a = times x ∧ (vals a)[0]? = some 0 ∧ ∀ i, 1 ≤ i → (vals a)[i]? = (vals x)[i]? := by
  have hne : x ≠ [] := by rintro rfl; simp at h2
  have hlv : (times x).length = ((cumsum (vals x)).map (· * d)).length := by
    simp [times, vals, cumsum, cumsumFrom_length]
  have htv := zip_fst _ _ hlv
  refine ⟨_, _, _, numInt_ok d x (uniform_dtOf hu h2),
    numDiff_uniform d hd _ (by unfold times at htv ⊢; rw [htv]; exact hu) ?_, htv, ?_, ?_, ?_, ?_⟩
  · intro h
    have := congrArg List.length h
    simp [times, vals, cumsum, cumsumFrom_length] at this
    exact hne this
  · exact zip_fst _ _ (by simp [times, vals, cumsum, cumsumFrom_length])
  all_goals
    have e1 : times ((times x).zip ((cumsum (vals x)).map (· * d))) = times x := htv
    have e2 : vals ((times x).zip ((cumsum (vals x)).map (· * d))) = (cumsum (vals x)).map (· * d) := zip_snd _ _ hlv
    rw [e1, e2, diff_map_mul, List.map_map]
    have e3 : ((fun y => y / d) ∘ fun y => y * d) = id := by
      funext y; simp [hd]
    rw [e3, List.map_id]
    match x, hne with
    | r :: x', _ =>
      have e4 : diff (cumsum (vals (r :: x'))) = vals x' := diff_cumsumFrom 0 r.2 (vals x')
      rw [e4]
      have hl2 : (times (r :: x')).length = (0 :: vals x').length := by simp [times, vals]
      first
        | exact zip_fst _ _ hl2
        | (have e5 : vals ((times (r :: x')).zip (0 :: vals x')) = 0 :: vals x' := zip_snd _ _ hl2
           rw [e5]; rfl)
        | (intro i hi
           have e5 : vals ((times (r :: x')).zip (0 :: vals x')) = 0 :: vals x' := zip_snd _ _ hl2
           rw [e5]
           obtain ⟨j, rfl⟩ : ∃ j, i = j + 1 := ⟨i - 1, by omega⟩
           simp [vals])

/-- Integrating the differentiated record gives back the record minus its first value. -/
theorem C19_int_of_diff (d : K) (hd : d ≠ 0) (x0 : K × K) (x : Rec K) (h2 : 1 ≤ x.length)
    (hu : Uniform d (times (x0 :: x))) :
    ∃ a v u, numDiff (x0 :: x) = .ok a ∧ numInt a = .ok (v, u) ∧
      v = (x0 :: x).map fun p => (p.1, p.2 - x0.2) := by
  have hl : (times (x0 :: x)).length = (0 :: (diff (vals (x0 :: x))).map (· / d)).length := by
    simp [times, vals, diff_length]
  have ht := zip_fst _ _ hl
  refine ⟨_, _, _, numDiff_uniform d hd _ hu (by simp), numInt_ok d _ (uniform_dtOf ?_ ?_), ?_⟩
  · unfold times at ht ⊢; rw [ht]; exact hu
  · simp [times, vals, diff_length]; exact h2
  · have e1 : times ((times (x0 :: x)).zip (0 :: (diff (vals (x0 :: x))).map (· / d))) = times (x0 :: x) := ht
    have e2 : vals ((times (x0 :: x)).zip (0 :: (diff (vals (x0 :: x))).map (· / d))) =
      0 :: (diff (vals (x0 :: x))).map (· / d) := zip_snd _ _ hl
    rw [e1, e2]
    have e3 : (cumsum (0 :: (diff (vals (x0 :: x))).map (· / d))).map (· * d) =
        (vals (x0 :: x)).map (fun y => y - x0.2) := by
      have : (0 :: (diff (vals (x0 :: x))).map (· / d)).map (· * d) = 0 :: diff (vals (x0 :: x)) := by
        rw [List.map_cons, List.map_map, zero_mul]
        congr 1
        conv_rhs => rw [← List.map_id (diff (vals (x0 :: x)))]
        apply List.map_congr_left
        intro y _; simp [hd]
      unfold cumsum
      rw [← cumsumFrom_map_mul, this, cumsumFrom]
      have h3 := cumsumFrom_diff (0 * d + 0) x0.2 (vals x)
      rw [show vals (x0 :: x) = x0.2 :: vals x from rfl, h3, List.map_cons]
      simp
    rw [e3]
    simp only [times, vals, List.map_map]
    rw [List.zip_map']
    rfl

example : Uniform (1/2 : ℚ) (times [(0, 3), (1/2, -1), (1, 4)]) := by
  intro i a b h1 h2
  match i with
  | 0 => simp [times] at h1 h2; linarith
  | 1 => simp [times] at h1 h2; linarith
  | i + 2 => simp [times] at h2

/-! ## C22 -/

/-- The Arias series of a record with energy before its last sample. -/
theorem C22_arias (c dt : K) (hc : 0 < c) (hdt : 0 < dt) (x : Rec K) (hx : dtOf x = .ok dt)
    (he : ∃ i a, (vals x)[i]? = some a ∧ i + 1 < x.length ∧ a ≠ 0) :
    ∃ r, calcArias c x = .ok r ∧ times r.ia = times x ∧ times r.norm = times x ∧
      (∀ i, i < x.length → (vals r.ia)[i]? = some (c * dt * (((vals x).take i).map (fun a => a ^ 2)).sum)) ∧
      (vals r.ia)[0]? = some 0 ∧ NonDecr (vals r.ia) ∧ 0 < r.peak ∧ (vals r.ia).getLast? = some r.peak ∧
      vals r.norm = (vals r.ia).map (· / r.peak) ∧ NonDecr (vals r.norm) ∧ (∀ y ∈ vals r.norm, 0 ≤ y ∧ y ≤ 1) ∧
      (vals r.norm)[0]? = some 0 ∧ (vals r.norm).getLast? = some 1 := by
  obtain ⟨i0, a0, hi0, hi1, ha0⟩ := he
  set n := x.length with hn
  have hpos : 0 < n := by omega
  have hlen : (ariasFrom c dt 0 (vals x)).length = n := by rw [ariasFrom_length]; simp [vals, hn]
  have hget : ∀ i, i < n → (ariasFrom c dt 0 (vals x))[i]? =
      some (c * dt * (((vals x).take i).map (fun a => a ^ 2)).sum) := by
    intro i hi
    rw [ariasFrom_getElem? _ _ _ _ _ (by simpa [vals] using hi), zero_add]
  have hcd : 0 < c * dt := mul_pos hc hdt
  set peak := c * dt * (((vals x).take (n - 1)).map (fun a => a ^ 2)).sum with hpeak
  have hlast : (ariasFrom c dt 0 (vals x)).getLast? = some peak := by
    rw [List.getLast?_eq_getElem?, hlen, hget (n - 1) (by omega)]
  have hppos : 0 < peak := by
    apply mul_pos hcd
    have hmem : a0 ∈ (vals x).take (n - 1) := by
      apply List.mem_of_getElem? (i := i0)
      rw [List.getElem?_take_of_lt (by omega), hi0]
    have h1 : a0 ^ 2 ≤ (((vals x).take (n - 1)).map (fun a => a ^ 2)).sum := by
      apply List.single_le_sum (l := ((vals x).take (n - 1)).map (fun a => a ^ 2))
      · intro y hy
        obtain ⟨z, _, rfl⟩ := List.mem_map.1 hy
        positivity
      · exact List.mem_map_of_mem (f := fun a => a ^ 2) hmem
    exact lt_of_lt_of_le (by positivity) h1
  have hmono : NonDecr (ariasFrom c dt 0 (vals x)) := by
    intro i j a b hij h1 h2
    have hj : j < n := by
      by_contra h
      rw [List.getElem?_eq_none (by omega)] at h2; cases h2
    rw [hget i (by omega)] at h1
    rw [hget j hj] at h2
    cases h1; cases h2
    exact mul_le_mul_of_nonneg_left (sumSq_mono _ hij) hcd.le
  have hbd : ∀ y ∈ ariasFrom c dt 0 (vals x), 0 ≤ y ∧ y ≤ peak := by
    intro y hy
    obtain ⟨i, hi, rfl⟩ := List.mem_iff_getElem.1 hy
    have hi' : i < n := by omega
    have hgi : (ariasFrom c dt 0 (vals x))[i]? = some ((ariasFrom c dt 0 (vals x))[i]) := List.getElem?_eq_getElem hi
    refine ⟨hmono 0 i _ _ (Nat.zero_le _) (by rw [hget 0 hpos]; simp) hgi, ?_⟩
    exact hmono i (n - 1) _ _ (by omega) hgi (hget (n - 1) (by omega))
  have htl : (times x).length = (ariasFrom c dt 0 (vals x)).length := by rw [hlen]; simp [times, hn]
  have htl2 : (times x).length = ((ariasFrom c dt 0 (vals x)).map (· / peak)).length := by rw [List.length_map]; exact htl
  have hnorm : ∃ b, ariasBounds ((times x).zip ((ariasFrom c dt 0 (vals x)).map (· / peak))) (5 / 100) (95 / 100) = .ok b := by
    unfold ariasBounds
    rw [if_neg (by norm_num)]
    have hzl : ((times x).zip ((ariasFrom c dt 0 (vals x)).map (· / peak))).length = n := by
      rw [List.length_zip, ← htl2]; simp [times, hn]
    generalize (times x).zip ((ariasFrom c dt 0 (vals x)).map (· / peak)) = z at hzl
    cases z with
    | nil => simp at hzl; omega
    | cons q z =>
      simp only
      rw [List.getLast?_eq_getLast_of_ne_nil (by simp)]
      exact ⟨_, rfl⟩
  obtain ⟨b, hb⟩ := hnorm
  have hvn : vals ((times x).zip ((ariasFrom c dt 0 (vals x)).map (· / peak))) =
    (ariasFrom c dt 0 (vals x)).map (· / peak) := zip_snd _ _ htl2
  have hvi : vals ((times x).zip (ariasFrom c dt 0 (vals x))) = ariasFrom c dt 0 (vals x) := zip_snd _ _ htl
  refine ⟨⟨(times x).zip (ariasFrom c dt 0 (vals x)), (times x).zip ((ariasFrom c dt 0 (vals x)).map (· / peak)),
    peak, b.2 - b.1⟩, ?_, zip_fst _ _ htl, zip_fst _ _ htl2, ?_, ?_, ?_, hppos, ?_, ?_, ?_, ?_, ?_, ?_⟩
  · unfold calcArias
    simp only [hx, bind, Except.bind]
    have e1 : x.map Prod.snd = vals x := rfl
    have e2 : x.map Prod.fst = times x := rfl
    rw [e1, e2, hlast]
    simp only
    rw [if_neg hppos.ne', hb]
    rfl
  all_goals simp only [hvn, hvi]
  · exact hget
  · rw [hget 0 hpos]; simp
  · exact hmono
  · exact hlast
  · intro i j a b hij h1 h2
    rw [List.getElem?_map, Option.map_eq_some_iff] at h1 h2
    obtain ⟨a', h1, rfl⟩ := h1
    obtain ⟨b', h2, rfl⟩ := h2
    exact div_le_div_of_nonneg_right (hmono i j a' b' hij h1 h2) hppos.le
  · intro y hy
    obtain ⟨z, hz, rfl⟩ := List.mem_map.1 hy
    obtain ⟨h0, h1⟩ := hbd z hz
    exact ⟨div_nonneg h0 hppos.le, (div_le_one hppos).2 h1⟩
  · rw [List.getElem?_map, hget 0 hpos]; simp
  · rw [List.getLast?_map, hlast]; simp [hppos.ne']

/-- Without energy before the last sample the normalised series is not a number. -/
theorem C22_no_energy (c dt : K) (x : Rec K) (hx : dtOf x = .ok dt)
    (he : ∀ i a, (vals x)[i]? = some a → i + 1 < x.length → a = 0) :
    calcArias c x = .error .nonFinite := by
  have hn : 2 ≤ x.length := by
    match x, hx with
    | r :: s :: x, _ => simp
    | [_], hx => simp [dtOf] at hx
    | [], hx => simp [dtOf] at hx
  have hlast : (ariasFrom c dt 0 (vals x)).getLast? = some 0 := by
    rw [List.getLast?_eq_getElem?, ariasFrom_length, ariasFrom_getElem? _ _ _ _ _ (by simp [vals]; omega)]
    have : (((vals x).take ((vals x).length - 1)).map (fun a => a ^ 2)).sum = 0 := by
      apply List.sum_eq_zero
      intro y hy
      obtain ⟨z, hz, rfl⟩ := List.mem_map.1 hy
      obtain ⟨i, hi⟩ := List.mem_iff_getElem?.1 hz
      have hil : i < (vals x).length - 1 := by
        by_contra h
        rw [List.getElem?_eq_none (by rw [List.length_take]; omega)] at hi; cases hi
      rw [List.getElem?_take_of_lt hil] at hi
      rw [he i z hi (by simp [vals] at hil; omega)]; ring
    rw [this]; simp
  unfold calcArias
  simp only [hx, bind, Except.bind]
  have e1 : x.map Prod.snd = vals x := rfl
  rw [e1, hlast]
  simp

/-- Scaling the motion by `k` scales the intensity by `k²` and leaves the normalised series
and the significant duration unchanged. -/
theorem C22_scale (c dt k : K) (hk : k ≠ 0) (x : Rec K) (r : Arias K) (h : calcArias c x = .ok r) :
    calcArias c (x.map fun p => (p.1, k * p.2)) =
      .ok ⟨r.ia.map fun p => (p.1, k ^ 2 * p.2), r.norm, k ^ 2 * r.peak, r.t595⟩ := by
  have hia : ∀ (dt s : K) (l : List K), ariasFrom c dt (k ^ 2 * s) (l.map fun a => k * a) =
      (ariasFrom c dt s l).map fun a => k ^ 2 * a := by
    intro dt s l
    induction l generalizing s with
    | nil => rfl
    | cons a l ih =>
      rw [List.map_cons, ariasFrom, ariasFrom, List.map_cons, ← ih]
      congr 2; ring
  have hdt : dtOf (x.map fun p => (p.1, k * p.2)) = dtOf x := by
    match x with
    | [] => rfl
    | [_] => rfl
    | _ :: _ :: _ => rfl
  unfold calcArias at h ⊢
  rw [hdt]
  cases hd : dtOf x with
  | error e => rw [hd] at h; cases h
  | ok d =>
    rw [hd] at h
    simp only [bind, Except.bind] at h ⊢
    have e1 : (x.map fun p => (p.1, k * p.2)).map Prod.fst = x.map Prod.fst := by simp
    have e2 : (x.map fun p => (p.1, k * p.2)).map Prod.snd = (x.map Prod.snd).map fun a => k * a := by simp
    have e3 := hia d 0 (x.map Prod.snd)
    rw [mul_zero] at e3
    rw [e1, e2, e3, List.getLast?_map]
    cases hl : (ariasFrom c d 0 (x.map Prod.snd)).getLast? with
    | none => rw [hl] at h; cases h
    | some peak =>
      rw [hl] at h
      simp only [Option.map_some] at h ⊢
      have hk2 : k ^ 2 ≠ 0 := pow_ne_zero 2 hk
      by_cases hp : peak = 0
      · rw [if_pos hp] at h; cases h
      · rw [if_neg hp] at h
        rw [if_neg (mul_ne_zero hk2 hp), List.map_map]
        have e4 : ((fun y => y / (k ^ 2 * peak)) ∘ fun a => k ^ 2 * a) = fun y => y / peak := by
          funext y; simp only [Function.comp]; field_simp
        rw [e4]
        cases hb : ariasBounds ((x.map Prod.fst).zip ((ariasFrom c d 0 (x.map Prod.snd)).map (· / peak))) (5 / 100) (95 / 100) with
        | error e => rw [hb] at h; cases h
        | ok b =>
          rw [hb] at h
          simp only [pure, Except.pure, Except.ok.injEq] at h ⊢
          subst h
          simp only [Arias.mk.injEq, and_true, true_and]
          rw [List.zip_map_right]
          rfl

example : ∃ i a, (vals [((0 : ℚ), (3 : ℚ)), (1/2, -1), (1, 4)])[i]? = some a ∧ i + 1 < 3 ∧ a ≠ 0 :=
  ⟨1, -1, by simp [vals], by norm_num, by norm_num⟩

/-! ## C23 -/

/-- For thresholds inside the range of the normalised series, the returned times are those
of the first samples reaching the thresholds; they are ordered and lie in the record.
Missing from the full property: a low threshold ≤ the first value, see
`C23_low_zero_violated`. -/
theorem C23_bounds_partial (tn : Rec K) (low high : K) (hlh : low < high) (ht : NonDecr (times tn))
    (hm : NonDecr (vals tn)) (h0 : ∀ x, (vals tn)[0]? = some x → x < low) (h1 : ∃ x ∈ vals tn, high ≤ x) :
    ∃ (tl th : K) (i j : Nat), ariasBounds tn low high = .ok (tl, th) ∧ (times tn)[i]? = some tl ∧ (times tn)[j]? = some th ∧
      i ≤ j ∧ tl ≤ th ∧
      (∀ (k : Nat) x, (vals tn)[k]? = some x → (x < low ↔ k < i)) ∧ (∀ (k : Nat) x, (vals tn)[k]? = some x → (x < high ↔ k < j)) := by
  have hsplit : ∀ (thr : K), (∃ p ∈ tn, thr ≤ p.2) → ∃ pre t x post, tn = pre ++ (t, x) :: post ∧ thr ≤ x ∧
      (∀ p ∈ pre, p.2 < thr) ∧ (times tn)[pre.length]? = some t ∧
      ∀ (k : Nat) y, (vals tn)[k]? = some y → (y < thr ↔ k < pre.length) := by
    intro thr h
    obtain ⟨pre, t, x, post, he, hx, hpre⟩ := first_reach thr tn h
    have hv : (vals tn)[pre.length]? = some x := by rw [he]; simp [vals]
    refine ⟨pre, t, x, post, he, hx, hpre, by rw [he]; simp [times], ?_⟩
    intro k y hk
    constructor
    · intro hy
      by_contra hn
      exact absurd (hm pre.length k x y (by omega) hv hk) (not_le.2 (lt_of_lt_of_le hy hx))
    · intro hkl
      rw [he] at hk
      simp only [vals, List.map_append] at hk
      rw [List.getElem?_append_left (by simpa using hkl), List.getElem?_map, Option.map_eq_some_iff] at hk
      obtain ⟨p, hp, rfl⟩ := hk
      exact hpre p (List.mem_of_getElem? hp)
  obtain ⟨y, hy, hyh⟩ := h1
  obtain ⟨q, hq, rfl⟩ := List.mem_map.1 hy
  obtain ⟨pl, tl, xl, postl, el, hxl, hpl, gl, fl⟩ := hsplit low ⟨q, hq, hlh.le.trans hyh⟩
  obtain ⟨ph, th, xh, posth, eh, hxh, hph, gh, fh⟩ := hsplit high ⟨q, hq, hyh⟩
  have hij : pl.length ≤ ph.length := by
    by_contra hn
    have hv : (vals tn)[ph.length]? = some xh := by rw [eh]; simp [vals]
    have := (fl ph.length xh hv).2 (by omega)
    exact absurd (this.trans hlh) (not_lt.2 hxh)
  refine ⟨tl, th, pl.length, ph.length, ?_, gl, gh, hij, ht _ _ _ _ hij gl gh, fl, fh⟩
  have hne : tn ≠ [] := List.ne_nil_of_mem hq
  obtain ⟨⟨t0, x0⟩, rest, htn⟩ := List.exists_cons_of_ne_nil hne
  subst htn
  have hx0 : x0 < low := h0 x0 (by simp [vals])
  unfold ariasBounds
  rw [if_neg (not_le.2 hlh)]
  simp only
  rw [List.getLast?_eq_getLast_of_ne_nil (by simp)]
  simp only
  have hm' : NonDecr (x0 :: ((t0, x0) :: rest).map Prod.snd) := by
    intro i j a b hij' h1 h2
    match i, j, hij' with
    | 0, 0, _ => simp at h1 h2; rw [← h1, ← h2]
    | 0, j + 1, _ =>
      simp only [List.getElem?_cons_zero, Option.some.injEq] at h1
      subst h1
      exact hm 0 j x0 b (by omega) (by simp [vals]) (by simpa [vals] using h2)
    | i + 1, j + 1, _ => exact hm i j a b (by omega) (by simpa [vals] using h1) (by simpa [vals] using h2)
  obtain ⟨s1, _, s3, _⟩ := boundsLoop_spec low high x0 (0, (((t0, x0) :: rest).getLast (by simp)).1) _ hm'
  have r1 := s1 pl tl xl postl el hxl hpl hx0
  have r2 := s3 ph th xh posth eh hxh hph (hx0.trans hlh)
  rw [Except.ok.injEq]
  exact Prod.ext r1 r2

/-- Thresholds in the wrong order raise ValueError. -/
theorem C23_rejects (tn : Rec K) (low high : K) (h : high ≤ low) : ariasBounds tn low high = .error .valueError := by
  unfold ariasBounds; rw [if_pos h]

/-- The significant duration of a motion with energy is the time between the first samples
at which the normalised Arias intensity reaches 5% and 95%. -/
theorem C23_significant_duration (c dt : K) (hc : 0 < c) (hdt : 0 < dt) (x : Rec K) (hx : dtOf x = .ok dt)
    (ht : NonDecr (times x)) (he : ∃ i a, (vals x)[i]? = some a ∧ i + 1 < x.length ∧ a ≠ 0) :
    ∃ (r : Arias K) (tl th : K) (i j : Nat), calcArias c x = .ok r ∧ r.t595 = th - tl ∧ 0 ≤ r.t595 ∧
      (times x)[i]? = some tl ∧ (times x)[j]? = some th ∧
      (∀ (k : Nat) y, (vals r.norm)[k]? = some y → (y < 5 / 100 ↔ k < i)) ∧
      (∀ (k : Nat) y, (vals r.norm)[k]? = some y → (y < 95 / 100 ↔ k < j)) := by
  obtain ⟨r, hr, _, h2, _, _, _, hp, _, _, h9, _, h11, h12⟩ := C22_arias c dt hc hdt x hx he
  obtain ⟨tl, th, i, j, hb, hi, hj, hij, hle, f1, f2⟩ := C23_bounds_partial r.norm (5 / 100) (95 / 100) (by norm_num)
    (by rw [h2]; exact ht) h9 (by intro y hy; rw [h11] at hy; cases hy; norm_num)
    ⟨1, List.mem_of_getLast? h12, by norm_num⟩
  refine ⟨r, tl, th, i, j, hr, ?_, ?_, by rw [← h2]; exact hi, by rw [← h2]; exact hj, f1, f2⟩
  all_goals
    have : r.t595 = th - tl := by
      unfold calcArias at hr
      simp only [hx, bind, Except.bind] at hr
      split at hr
      · cases hr
      · rename_i peak hl
        by_cases hp0 : peak = 0
        · rw [if_pos hp0] at hr; cases hr
        · rw [if_neg hp0] at hr
          split at hr
          · cases hr
          · rename_i b hb'
            simp only [pure, Except.pure, Except.ok.injEq] at hr
            subst hr
            simp only at hb ⊢
            rw [hb] at hb'
            cases hb'
            rfl
    first | exact this | (rw [this]; linarith)

/-- C23 fails for a low threshold of 0 when the record does not start at time 0: the lower
bound lies outside of the record. -/
theorem C23_low_zero_violated :
    ∃ tn : Rec ℚ, NonDecr (times tn) ∧ NonDecr (vals tn) ∧ (vals tn)[0]? = some 0 ∧ (vals tn).getLast? = some 1 ∧
      ariasBounds tn 0 1 = .ok (0, 11) ∧ ∀ t ∈ times tn, 0 < t := by
  refine ⟨[(10, 0), (11, 1)], ?_, ?_, rfl, rfl, by decide +kernel, by simp [times]⟩
  all_goals
    intro i j a b hij h1 h2
    match i, j with
    | 0, 0 => simp [times, vals] at h1 h2; linarith
    | 0, 1 => simp [times, vals] at h1 h2; linarith
    | 1, 1 => simp [times, vals] at h1 h2; linarith
    | 1, 0 => omega
    | i + 2, j => simp [times, vals] at h1
    | i, j + 2 => simp [times, vals] at h2

end Verif
