import Verif.Props.Filter

set_option linter.unusedSectionVars false
set_option linter.unusedVariables false

namespace Verif

open Spec (times vals Uniform)

variable {K : Type} [Field K] [LinearOrder K] [FloorRing K]

theorem colStack_eq {t x : List K} (h : t.length = x.length) : colStack t x = .ok (t.zip x) := by
  rw [colStack, if_neg (not_not.2 h)]

theorem removeMean_length {a b : List K} (h : removeMean a = .ok b) : b.length = a.length := by
  match a, h with
  | x0 :: x1 :: x2 :: x3 :: x4 :: r, h =>
    have := Except.ok.inj h
    rw [← this, List.length_map]

theorem removeMean_short {a : List K} (h : a.length < 5) : removeMean a = .error .indexError := by
  match a, h with
  | [], _ => rfl
  | [_], _ => rfl
  | [_, _], _ => rfl
  | [_, _, _], _ => rfl
  | [_, _, _, _], _ => rfl
  | _ :: _ :: _ :: _ :: _ :: _, h => simp only [List.length_cons] at h; omega

theorem removeMean_long {a : List K} (h : 5 ≤ a.length) : ∃ m, removeMean a = .ok (a.map fun x => x - m) := by
  match a, h with
  | x0 :: x1 :: x2 :: x3 :: x4 :: r, h => exact ⟨_, rfl⟩

theorem shiftBack_length (nz cl n : Nat) (y : List K) : (shiftBack nz cl n y).length = n := by
  unfold shiftBack
  dsimp only
  split
  · rename_i h; rw [List.length_take]; omega
  · rename_i h; rw [List.length_append, List.length_replicate]; omega

theorem linspace_len (a b : K) (n : Nat) : (linspace a b n).length = n := by simp [linspace]

/-- The padded record that is filtered. -/
def padRec (dt : K) (nz : Nat) (a : List K) : Rec K :=
  (linspace dt (((padCut nz a).length : K) * dt) (padCut nz a).length).zip (padCut nz a)

theorem vals_padRec (dt : K) (nz : Nat) (a : List K) : vals (padRec dt nz a) = padCut nz a :=
  zip_snd _ _ (linspace_len _ _ _)

/-- The filtered record: what is computed, given that it is computed. -/
theorem baseFiltered_inv {design : Design K} {cutoff : K} {x r : Rec K} (h : baseFiltered design cutoff x = .ok r) :
    ∃ dt a sos, dtOf x = .ok dt ∧ dt ≠ 0 ∧ cutoff ≠ 0 ∧ removeMean (vals x) = .ok a ∧
      filterKernel design 4 .highpass (.num cutoff) (padRec dt (nrZpad cutoff dt (crossLeft a)) a)
        = .ok ((times (padRec dt (nrZpad cutoff dt (crossLeft a)) a)).zip
          (sosfilt sos (padCut (nrZpad cutoff dt (crossLeft a)) a))) ∧
      r = (times x).zip (shiftBack (nrZpad cutoff dt (crossLeft a)) (crossLeft a) x.length
        (sosfilt sos (padCut (nrZpad cutoff dt (crossLeft a)) a))) := by
  unfold baseFiltered at h
  cases hd : dtOf x with
  | error e => rw [hd] at h; cases h
  | ok dt =>
    rw [hd] at h
    simp only [bind, Except.bind] at h
    cases ha : removeMean (x.map Prod.snd) with
    | error e => rw [ha] at h; cases h
    | ok a =>
      rw [ha] at h
      dsimp only at h
      by_cases h0 : cutoff = 0
      · rw [if_pos h0] at h; cases h
      rw [if_neg h0] at h
      by_cases h1 : dt = 0
      · rw [if_pos h1] at h; cases h
      rw [if_neg h1, colStack_eq (linspace_len _ _ _)] at h
      dsimp only at h
      rcases uses_filterKernel design 4 .highpass (.num cutoff)
        (linspace dt (((padCut (nrZpad cutoff dt (crossLeft a)) a).length : K) * dt)
          (padCut (nrZpad cutoff dt (crossLeft a)) a).length) with ⟨e, he⟩ | ⟨sos, hs⟩
      · rw [he _ (zip_fst _ _ (linspace_len _ _ _))] at h; cases h
      · rw [hs _ (zip_fst _ _ (linspace_len _ _ _))] at h
        dsimp only at h
        have e1 : vals ((linspace dt (((padCut (nrZpad cutoff dt (crossLeft a)) a).length : K) * dt)
          (padCut (nrZpad cutoff dt (crossLeft a)) a).length).zip (padCut (nrZpad cutoff dt (crossLeft a)) a)) =
            padCut (nrZpad cutoff dt (crossLeft a)) a := zip_snd _ _ (linspace_len _ _ _)
        have e2 : times ((linspace dt (((padCut (nrZpad cutoff dt (crossLeft a)) a).length : K) * dt)
          (padCut (nrZpad cutoff dt (crossLeft a)) a).length).zip (padCut (nrZpad cutoff dt (crossLeft a)) a)) =
            linspace dt (((padCut (nrZpad cutoff dt (crossLeft a)) a).length : K) * dt)
          (padCut (nrZpad cutoff dt (crossLeft a)) a).length := zip_fst _ _ (linspace_len _ _ _)
        rw [e1, e2, zip_snd _ _ (by rw [linspace_len, sosfilt_length]),
          colStack_eq (by rw [shiftBack_length, List.length_map])] at h
        refine ⟨dt, a, sos, rfl, h1, h0, ha, ?_, (Except.ok.inj h).symm⟩
        rw [hs (padRec _ _ _) (zip_fst _ _ (linspace_len _ _ _)), vals_padRec]

/-! ### the trend -/

theorem removeTrend_ok {u : Rec K} {f : K × K} (h : lineFit u = .ok f) :
    removeTrend u = .ok ((times u).zip (u.map fun p => p.2 - (f.1 * p.1 + f.2))) := by
  unfold removeTrend
  rw [h]
  simp only [bind, Except.bind]
  rw [colStack_eq (by simp)]
  rfl

theorem diff_detrend (d s c : K) (u : Rec K) (h : Uniform d (times u)) :
    diff (u.map fun p => p.2 - (s * p.1 + c)) = (diff (vals u)).map (· - s * d) := by
  induction u with
  | nil => rfl
  | cons p u ih =>
    cases u with
    | nil => rfl
    | cons q u =>
      have h1 : q.1 - p.1 = d := h 0 _ _ rfl rfl
      have h2 : Uniform d (times (q :: u)) := fun i a b ha hb => h (i + 1) a b ha hb
      have := ih h2
      simp only [vals, List.map_cons, diff] at this ⊢
      rw [this]
      refine congrArg₂ List.cons ?_ rfl
      rw [← h1]; ring

/-- Removing a linear trend from the displacement and differentiating twice gives back the samples after the second. -/
theorem detrend_vals (d : K) (hd : d ≠ 0) (t : List K) (w0 w1 : K) (w : List K) (ht : Uniform d t)
    (hl : t.length = w.length + 2) (f : K × K)
    (hf : lineFit (t.zip ((cumsum ((cumsum (w0 :: w1 :: w)).map (· * d))).map (· * d))) = .ok f) :
    ∃ u2 v2, removeTrend (t.zip ((cumsum ((cumsum (w0 :: w1 :: w)).map (· * d))).map (· * d))) = .ok u2 ∧
      numDiff u2 = .ok v2 ∧ numDiff v2 = .ok (t.zip (0 :: (w0 + w1 - f.1 / d) :: w)) := by
  set V := (cumsum (w0 :: w1 :: w)).map (· * d) with hV
  have lV : V.length = w.length + 2 := by rw [hV, List.length_map, cumsum, cumsumFrom_length]; rfl
  have lc : (cumsum V).length = w.length + 2 := by rw [cumsum, cumsumFrom_length, lV]
  set u := t.zip ((cumsum V).map (· * d)) with hu
  have tu : times u = t := zip_fst _ _ (by rw [List.length_map, lc, hl])
  have vu : vals u = (cumsum V).map (· * d) := zip_snd _ _ (by rw [List.length_map, lc, hl])
  have lu : u.length = w.length + 2 := by rw [← times_length, tu, hl]
  have h1 := removeTrend_ok hf
  set u2 := (times u).zip (u.map fun p => p.2 - (f.1 * p.1 + f.2)) with hu2
  have tu2 : times u2 = t := by rw [hu2, times, zip_fst _ _ (by rw [times_length, List.length_map]), tu]
  have vu2 : vals u2 = u.map fun p => p.2 - (f.1 * p.1 + f.2) := zip_snd _ _ (by rw [times_length, List.length_map])
  have lu2 : u2.length = w.length + 2 := by rw [← times_length, tu2, hl]
  have h2 := numDiff_uniform d hd u2 (by rw [tu2]; exact ht) (by intro h; rw [h] at lu2; simp at lu2)
  have hdv : diff (vals u2) = (V.tail.map (· * d)).map (· - f.1 * d) := by
    rw [vu2, diff_detrend d _ _ u (by rw [tu]; exact ht), vu, diff_map_mul]
    congr 2
    have : V = w0 * d :: V.tail := by simp [hV, cumsum, cumsumFrom]
    conv_lhs => rw [this]
    exact diff_cumsumFrom 0 (w0 * d) V.tail
  rw [hdv, tu2] at h2
  have htail : V.tail = (w0 + w1) * d :: (cumsumFrom (w0 + w1) w).map (· * d) := by
    simp [hV, cumsum, cumsumFrom]
  have hfin : ((V.tail.map (· * d)).map (· - f.1 * d)).map (· / d) = V.tail.map (· - f.1) := by
    rw [List.map_map, List.map_map]
    refine List.map_congr_left fun a _ => ?_
    simp only [Function.comp]
    field_simp
  rw [hfin] at h2
  set v2 := t.zip (0 :: V.tail.map (· - f.1)) with hv2
  have lv : (0 :: V.tail.map (· - f.1)).length = w.length + 2 := by
    rw [List.length_cons, List.length_map, List.length_tail, lV]; omega
  have tv2 : times v2 = t := zip_fst _ _ (by rw [lv, hl])
  have vv2 : vals v2 = 0 :: V.tail.map (· - f.1) := zip_snd _ _ (by rw [lv, hl])
  have lv2 : v2.length = w.length + 2 := by rw [← times_length, tv2, hl]
  have h3 := numDiff_uniform d hd v2 (by rw [tv2]; exact ht) (by intro h; rw [h] at lv2; simp at lv2)
  refine ⟨u2, v2, h1, h2, ?_⟩
  rw [h3, tv2, vv2, htail]
  congr 3
  rw [List.map_cons, diff, List.map_cons]
  have hsub : ∀ l : List K, diff (l.map (· - f.1)) = diff l := by
    intro l
    induction l with
    | nil => rfl
    | cons a l ih =>
      cases l with
      | nil => rfl
      | cons b l => simp only [List.map_cons, diff] at ih ⊢; rw [ih]; congr 1; ring
  have e : diff (((w0 + w1) * d - f.1) :: List.map (fun x => x - f.1) (List.map (fun x => x * d) (cumsumFrom (w0 + w1) w)))
      = w.map (· * d) := by
    have h4 := hsub ((w0 + w1) * d :: (cumsumFrom (w0 + w1) w).map (· * d))
    rw [List.map_cons] at h4
    rw [h4]
    have h5 : ((w0 + w1) * d :: (cumsumFrom (w0 + w1) w).map (· * d)) = (cumsumFrom w0 (w1 :: w)).map (· * d) := by
      simp [cumsumFrom]
    rw [h5, diff_map_mul, diff_cumsumFrom]
  rw [e, List.map_map]
  refine congrArg₂ List.cons (by field_simp; ring) ?_
  conv_rhs => rw [← List.map_id w]
  refine List.map_congr_left fun a _ => ?_
  simp only [Function.comp, id]
  field_simp

variable [IsStrictOrderedRing K]

theorem lineFit_uniform (d : K) (hd : d ≠ 0) (u : Rec K) (h : Uniform d (times u)) (h2 : 2 ≤ u.length) :
    ∃ f, lineFit u = .ok f := by
  unfold lineFit
  dsimp only
  rw [if_neg]
  · exact ⟨_, rfl⟩
  · intro h0
    match u, h2 with
    | p :: q :: u, _ =>
      have hpq : q.1 - p.1 = d := h 0 _ _ rfl rfl
      set tm := ((p :: q :: u).map Prod.fst).sum / (((p :: q :: u).length : Nat) : K)
      have hn : 0 ≤ (u.map (fun r => (r.1 - tm) ^ 2)).sum := by
        refine List.sum_nonneg fun x hx => ?_
        obtain ⟨r, _, rfl⟩ := List.mem_map.1 hx
        exact sq_nonneg _
      rw [List.map_cons, List.map_cons, List.sum_cons, List.sum_cons] at h0
      have f1 : p.1 - tm = 0 := pow_eq_zero_iff (two_ne_zero) |>.1
        (le_antisymm (by nlinarith [sq_nonneg (q.1 - tm)]) (sq_nonneg _))
      have f2 : q.1 - tm = 0 := pow_eq_zero_iff (two_ne_zero) |>.1
        (le_antisymm (by nlinarith [sq_nonneg (p.1 - tm)]) (sq_nonneg _))
      exact hd (by rw [← hpq]; linarith)

/-- The whole correction on a uniform time axis. -/
theorem baseline_of_filtered {design : Design K} {cutoff d : K} {x an : Rec K} (hd : d ≠ 0) (ht : Uniform d (times x))
    (h : baseFiltered design cutoff x = .ok an) :
    ∃ w0 w1 w f, vals an = w0 :: w1 :: w ∧
      lineFit ((times x).zip ((cumsum ((cumsum (vals an)).map (· * d))).map (· * d))) = .ok f ∧
      baselineCorrect design cutoff x = .ok ((times x).zip (0 :: (w0 + w1 - f.1 / d) :: w)) := by
  obtain ⟨dt, a, sos, hdt, h1, h0, ha, _, hr⟩ := baseFiltered_inv h
  have h5 : 5 ≤ (vals x).length := by
    by_contra hc
    rw [removeMean_short (not_le.1 hc)] at ha; cases ha
  rw [vals_length] at h5
  have hlen : (times x).length = (shiftBack (nrZpad cutoff dt (crossLeft a)) (crossLeft a) x.length
        (sosfilt sos (padCut (nrZpad cutoff dt (crossLeft a)) a))).length := by
    rw [shiftBack_length, times_length]
  have hva : vals an = shiftBack (nrZpad cutoff dt (crossLeft a)) (crossLeft a) x.length
        (sosfilt sos (padCut (nrZpad cutoff dt (crossLeft a)) a)) := by rw [hr]; exact zip_snd _ _ hlen
  have hta : times an = times x := by rw [hr]; exact zip_fst _ _ hlen
  have lva : (vals an).length = x.length := by rw [hva, shiftBack_length]
  have hdd : dtOf an = .ok d := uniform_dtOf (by rw [hta]; exact ht) (by rw [← times_length, hta, times_length]; omega)
  match hw : vals an, lva with
  | [], l => simp at l; omega
  | [_], l => simp at l; omega
  | w0 :: w1 :: w, l =>
    have lt : (times x).length = w.length + 2 := by rw [times_length]; simpa using l.symm
    have lc : (times x).length = ((cumsum ((cumsum (w0 :: w1 :: w)).map (· * d))).map (· * d)).length := by
      rw [List.length_map, cumsum, cumsumFrom_length, List.length_map, cumsum, cumsumFrom_length, lt]; rfl
    have hlu : times ((times x).zip ((cumsum ((cumsum (w0 :: w1 :: w)).map (· * d))).map (· * d))) = times x :=
      zip_fst _ _ lc
    obtain ⟨f, hf⟩ := lineFit_uniform d hd
      ((times x).zip ((cumsum ((cumsum (w0 :: w1 :: w)).map (· * d))).map (· * d)))
      (by rw [hlu]; exact ht)
      (by rw [← times_length, hlu, times_length]; omega)
    obtain ⟨u2, v2, e1, e2, e3⟩ := detrend_vals d hd (times x) w0 w1 w ht lt f hf
    refine ⟨w0, w1, w, f, rfl, hf, ?_⟩
    unfold baselineCorrect
    rw [h]
    simp only [bind, Except.bind]
    rw [numInt_ok d an hdd]
    dsimp only
    rw [hw, hta, e1]
    dsimp only
    rw [e2]
    exact e3

/-! ## C106 -/

theorem sum_combine (a b c : K) (f g h : K × K → K) (u : Rec K) :
    (u.map fun p => a * f p + b * g p + c * h p).sum = a * (u.map f).sum + b * (u.map g).sum + c * (u.map h).sum := by
  induction u with
  | nil => simp
  | cons p u ih => simp only [List.map_cons, List.sum_cons, ih]; ring

theorem sum_const (a : K) (u : Rec K) : (u.map fun _ => a).sum = (u.length : K) * a := by
  induction u with
  | nil => simp
  | cons p u ih => simp only [List.map_cons, List.sum_cons, ih, List.length_cons, Nat.cast_add, Nat.cast_one]; ring

/-- The residuals of the fitted line have sum zero and are orthogonal to the times. -/
theorem lineFit_normal {u : Rec K} {f : K × K} (h : lineFit u = .ok f) :
    (u.map fun p => p.2 - (f.1 * p.1 + f.2)).sum = 0 ∧ (u.map fun p => p.1 * (p.2 - (f.1 * p.1 + f.2))).sum = 0 := by
  unfold lineFit at h
  simp only at h
  set n : K := (u.length : K) with hn
  set tm := (u.map Prod.fst).sum / n with htm
  set xm := (u.map Prod.snd).sum / n with hxm
  set stt := (u.map fun p => (p.1 - tm) ^ 2).sum with hstt
  set stx := (u.map fun p => (p.1 - tm) * (p.2 - xm)).sum with hstx
  by_cases h0 : stt = 0
  · rw [if_pos h0] at h; cases h
  rw [if_neg h0] at h
  have hf := Except.ok.inj h
  have hn0 : n ≠ 0 := by
    intro hc
    have : u = [] := by
      have : u.length = 0 := by rw [hn] at hc; exact_mod_cast hc
      exact List.length_eq_zero_iff.1 this
    apply h0
    rw [hstt, this]
    rfl
  have e1 : f.1 = stx / stt := by rw [← hf]
  have e2 : f.2 = xm - f.1 * tm := by rw [← hf]
  have s1 : (u.map fun p => p.2 - (f.1 * p.1 + f.2)).sum = 0 := by
    have : (u.map fun p => p.2 - (f.1 * p.1 + f.2)) = u.map fun p => 1 * p.2 + (-f.1) * p.1 + 1 * (-f.2) :=
      List.map_congr_left fun p _ => by ring
    rw [this, sum_combine 1 (-f.1) 1 Prod.snd Prod.fst (fun _ => -f.2) u, sum_const]
    have ht : (u.map Prod.fst).sum = n * tm := by rw [htm]; field_simp
    have hx : (u.map Prod.snd).sum = n * xm := by rw [hxm]; field_simp
    rw [ht, hx, e2, ← hn]
    ring
  refine ⟨s1, ?_⟩
  have : (u.map fun p => p.1 * (p.2 - (f.1 * p.1 + f.2))) =
      u.map fun p => 1 * ((p.1 - tm) * (p.2 - xm)) + (-f.1) * ((p.1 - tm) ^ 2) + tm * (p.2 - (f.1 * p.1 + f.2)) :=
    List.map_congr_left fun p _ => by rw [e2]; ring
  rw [this, sum_combine 1 (-f.1) tm (fun p => (p.1 - tm) * (p.2 - xm)) (fun p => (p.1 - tm) ^ 2)
    (fun p => p.2 - (f.1 * p.1 + f.2)) u, s1, ← hstx, ← hstt, e1]
  field_simp
  ring

/-- The trend that is removed is the line closest to the record: what remains has mean zero, is orthogonal to the times, and
no other line leaves a smaller sum of squares. -/
theorem C106_trend (u w : Rec K) (h : removeTrend u = .ok w) :
    times w = times u ∧ (vals w).sum = 0 ∧ (w.map fun p => p.1 * p.2).sum = 0 ∧
    ∀ s c : K, (w.map fun p => p.2 ^ 2).sum ≤ (u.map fun p => (p.2 - (s * p.1 + c)) ^ 2).sum := by
  cases hf : lineFit u with
  | error e => unfold removeTrend at h; rw [hf] at h; cases h
  | ok f =>
    rw [removeTrend_ok hf] at h
    have hw := Except.ok.inj h
    have hw' : w = u.map fun p => (p.1, p.2 - (f.1 * p.1 + f.2)) := by
      rw [← hw]
      unfold times
      clear h hw hf
      induction u with
      | nil => rfl
      | cons p u ih => rw [List.map_cons, List.map_cons, List.zip_cons_cons, ih, List.map_cons]
    obtain ⟨n1, n2⟩ := lineFit_normal hf
    have hv : vals w = u.map fun p => p.2 - (f.1 * p.1 + f.2) := by
      rw [hw']; unfold vals; rw [List.map_map]; rfl
    refine ⟨by rw [hw']; unfold times; rw [List.map_map]; rfl, by rw [hv]; exact n1, ?_, ?_⟩
    · rw [hw', List.map_map]; exact n2
    · intro s c
      have e : (u.map fun p => (p.2 - (s * p.1 + c)) ^ 2) = u.map fun p =>
          1 * ((p.2 - (f.1 * p.1 + f.2)) ^ 2 + ((f.1 - s) * p.1 + (f.2 - c)) ^ 2) +
          (2 * (f.1 - s)) * (p.1 * (p.2 - (f.1 * p.1 + f.2))) + (2 * (f.2 - c)) * (p.2 - (f.1 * p.1 + f.2)) :=
        List.map_congr_left fun p _ => by ring
      rw [e, sum_combine 1 (2 * (f.1 - s)) (2 * (f.2 - c))
        (fun p => (p.2 - (f.1 * p.1 + f.2)) ^ 2 + ((f.1 - s) * p.1 + (f.2 - c)) ^ 2)
        (fun p => p.1 * (p.2 - (f.1 * p.1 + f.2))) (fun p => p.2 - (f.1 * p.1 + f.2)) u, n1, n2, hw', List.map_map]
      simp only [Function.comp_def, mul_zero, add_zero, one_mul]
      clear hw hw' e n1 n2 h hf hv
      induction u with
      | nil => simp
      | cons p u ih =>
        simp only [List.map_cons, List.sum_cons]
        have := sq_nonneg ((f.1 - s) * p.1 + (f.2 - c))
        linarith

/-- Every answer has the time axis of the record. -/
theorem C106_axis (design : Design K) (cutoff d : K) (x r : Rec K) (hd : d ≠ 0) (ht : Uniform d (times x))
    (h : baselineCorrect design cutoff x = .ok r) : times r = times x ∧ r.length = x.length := by
  cases hb : baseFiltered design cutoff x with
  | error e => rw [baselineCorrect, hb] at h; cases h
  | ok an =>
    obtain ⟨w0, w1, w, f, hw, _, hr⟩ := baseline_of_filtered hd ht hb
    obtain ⟨dt, a, sos, hdt, h1, h0, ha, _, han⟩ := baseFiltered_inv hb
    have hl : (vals an).length = x.length := by
      rw [han, vals, zip_snd _ _ (by rw [times_length, shiftBack_length]), shiftBack_length]
    have e := Except.ok.inj (hr.symm.trans h)
    have lt : (times x).length = (0 :: (w0 + w1 - f.1 / d) :: w).length := by
      rw [times_length, ← hl, hw]; rfl
    refine ⟨by rw [← e]; exact zip_fst _ _ lt, ?_⟩
    rw [← e, List.length_zip, ← lt, min_self, times_length]

/-- Records of fewer than five samples and a cut-off frequency of zero are errors. -/
theorem C106_rejected (design : Design K) (cutoff : K) (x : Rec K) :
    (x.length < 5 → baselineCorrect design cutoff x = .error .indexError) ∧
    (5 ≤ x.length → baselineCorrect design 0 x = .error .zeroDivision) := by
  constructor
  · intro h
    unfold baselineCorrect baseFiltered
    cases hd : dtOf x with
    | error e =>
      match x, hd with
      | [], hd => cases hd; rfl
      | [_], hd => cases hd; rfl
    | ok d =>
      simp only [bind, Except.bind]
      rw [removeMean_short (by rw [List.length_map]; exact h)]
  · intro h
    unfold baselineCorrect baseFiltered
    match x, h with
    | p :: q :: x', h =>
      obtain ⟨m, hm⟩ := removeMean_long (a := (p :: q :: x').map Prod.snd) (by rw [List.length_map]; exact h)
      simp only [bind, Except.bind, dtOf]
      rw [hm]
      dsimp only
      rw [if_pos trivial]

theorem removeMean_shift (c : K) (a : List K) : removeMean (a.map (· + c)) = removeMean a := by
  match a with
  | [] => rfl
  | [_] => rfl
  | [_, _] => rfl
  | [_, _, _] => rfl
  | [_, _, _, _] => rfl
  | x0 :: x1 :: x2 :: x3 :: x4 :: r =>
    simp only [List.map_cons, removeMean]
    have e : ∀ y : K, y + c - (x0 + c + (x1 + c) + (x2 + c) + (x3 + c) + (x4 + c)) / 5
        = y - (x0 + x1 + x2 + x3 + x4) / 5 := by
      intro y
      have h5 : (5 : K) ≠ 0 := by norm_num
      field_simp
      ring
    simp only [e, List.map_map]
    congr 6
    refine List.map_congr_left fun y _ => e y

/-- A constant offset of the record does not matter. -/
theorem C106_offset (design : Design K) (cutoff c : K) (x : Rec K) :
    baselineCorrect design cutoff (x.map fun p => (p.1, p.2 + c)) = baselineCorrect design cutoff x := by
  have e1 : dtOf (x.map fun p => (p.1, p.2 + c)) = dtOf x :=
    dtOf_times (by simp [times, Function.comp_def])
  have e2 : removeMean ((x.map fun p => (p.1, p.2 + c)).map Prod.snd) = removeMean (x.map Prod.snd) := by
    rw [← removeMean_shift c (x.map Prod.snd)]
    simp [Function.comp_def]
  have e3 : (x.map fun p => (p.1, p.2 + c)).map Prod.fst = x.map Prod.fst := by simp [Function.comp_def]
  have : baseFiltered design cutoff (x.map fun p => (p.1, p.2 + c)) = baseFiltered design cutoff x := by
    unfold baseFiltered
    rw [e1, e2, e3, List.length_map]
  unfold baselineCorrect
  rw [this]

/-! ### scaling -/

theorem removeMean_scale (c : K) (a : List K) :
    removeMean (a.map (c * ·)) = (removeMean a).map (fun b => b.map (c * ·)) := by
  match a with
  | [] => rfl
  | [_] => rfl
  | [_, _] => rfl
  | [_, _, _] => rfl
  | [_, _, _, _] => rfl
  | x0 :: x1 :: x2 :: x3 :: x4 :: r =>
    have e : ∀ y : K, c * y - (c * x0 + c * x1 + c * x2 + c * x3 + c * x4) / 5
        = c * (y - (x0 + x1 + x2 + x3 + x4) / 5) := fun y => by ring
    show Except.ok _ = Except.ok _
    congr 1
    show List.map _ _ = List.map _ (List.map _ _)
    rw [List.map_map, List.map_map]
    exact List.map_congr_left fun y _ => e y

theorem flag_scale {c : K} (hc : 0 < c) (a : K) : nonNegFlag (c * a) = nonNegFlag a := by
  unfold nonNegFlag
  rw [decide_eq_decide]
  exact mul_nonneg_iff_of_pos_left hc

theorem findIdx_scale {c : K} (hc : 0 < c) (a0 : K) (l : List K) :
    ((l.map (c * ·)).findIdx? fun x => nonNegFlag x != nonNegFlag (c * a0))
      = l.findIdx? fun x => nonNegFlag x != nonNegFlag a0 := by
  rw [List.findIdx?_map]
  congr 1
  funext x
  simp only [Function.comp, flag_scale hc]

theorem crossLeft_scale {c : K} (hc : 0 < c) (a : List K) : crossLeft (a.map (c * ·)) = crossLeft a := by
  cases a with
  | nil => rfl
  | cons a0 r =>
    rw [List.map_cons, crossLeft, crossLeft, findIdx_scale hc]

theorem crossRight_scale {c : K} (hc : 0 < c) (a : List K) : crossRight (a.map (c * ·)) = crossRight a := by
  unfold crossRight
  rw [← List.map_reverse, List.length_map]
  cases a.reverse with
  | nil => rfl
  | cons a0 r =>
    rw [List.map_cons]
    dsimp only
    rw [findIdx_scale hc]

theorem padCut_scale {c : K} (hc : 0 < c) (nz : Nat) (a : List K) :
    padCut nz (a.map (c * ·)) = (padCut nz a).map (c * ·) := by
  unfold padCut
  rw [crossLeft_scale hc, crossRight_scale hc]
  simp [List.map_drop, List.map_take]

theorem shiftBack_scale (c : K) (nz cl n : Nat) (y : List K) :
    shiftBack nz cl n (y.map (c * ·)) = (shiftBack nz cl n y).map (c * ·) := by
  unfold shiftBack
  dsimp only
  rw [← List.map_drop, List.length_map]
  by_cases h : n ≤ (y.drop (nz - cl - 1)).length
  · rw [if_pos h, if_pos h, List.map_take]
  · rw [if_neg h, if_neg h]; simp

/-- A record with its values multiplied by `c`. -/
def scaleRec (c : K) (x : Rec K) : Rec K := x.map fun p => (p.1, c * p.2)

theorem times_scaleRec (c : K) (x : Rec K) : times (scaleRec c x) = times x := by
  simp [times, scaleRec, Function.comp_def]

theorem vals_scaleRec (c : K) (x : Rec K) : vals (scaleRec c x) = (vals x).map (c * ·) := by
  simp [vals, scaleRec, Function.comp_def]

theorem scaleRec_zip (c : K) (t v : List K) : scaleRec c (t.zip v) = t.zip (v.map (c * ·)) := by
  induction t generalizing v with
  | nil => rfl
  | cons a t ih =>
    cases v with
    | nil => rfl
    | cons b v => simp only [scaleRec, List.zip_cons_cons, List.map_cons] at ih ⊢; rw [ih]

theorem baseFiltered_scale (design : Design K) (cutoff c : K) (hc : 0 < c) (x : Rec K) :
    baseFiltered design cutoff (scaleRec c x) = (baseFiltered design cutoff x).map (scaleRec c) := by
  unfold baseFiltered
  have e1 : dtOf (scaleRec c x) = dtOf x := dtOf_times (times_scaleRec c x)
  have e2 : removeMean ((scaleRec c x).map Prod.snd) = (removeMean (x.map Prod.snd)).map (fun b => b.map (c * ·)) := by
    rw [← removeMean_scale]
    exact congrArg removeMean (vals_scaleRec c x)
  have e3 : (scaleRec c x).map Prod.fst = x.map Prod.fst := times_scaleRec c x
  have e4 : (scaleRec c x).length = x.length := by rw [scaleRec, List.length_map]
  rw [e1, e2, e3, e4]
  cases hd : dtOf x with
  | error e => rfl
  | ok dt =>
    cases ha : removeMean (x.map Prod.snd) with
    | error e => rfl
    | ok a =>
      simp only [bind, Except.bind, Except.map]
      by_cases h0 : cutoff = 0
      · rw [if_pos h0, if_pos h0]
      rw [if_neg h0, if_neg h0]
      by_cases h1 : dt = 0
      · rw [if_pos h1, if_pos h1]
      rw [if_neg h1, if_neg h1, crossLeft_scale hc, padCut_scale hc, List.length_map]
      set ac := padCut (nrZpad cutoff dt (crossLeft a)) a
      rw [colStack_eq (linspace_len _ _ _), colStack_eq (by rw [linspace_len, List.length_map])]
      dsimp only
      set tc := linspace dt ((ac.length : K) * dt) ac.length with htc
      have l1 : tc.length = ac.length := linspace_len _ _ _
      have l2 : tc.length = (ac.map (c * ·)).length := by rw [l1, List.length_map]
      rcases uses_filterKernel design 4 .highpass (.num cutoff) tc with ⟨e, he⟩ | ⟨sos, hs⟩
      · rw [he _ (zip_fst _ _ l1), he _ (zip_fst _ _ l2)]
      · rw [hs _ (zip_fst _ _ l1), hs _ (zip_fst _ _ l2)]
        dsimp only
        have v1 : vals (tc.zip ac) = ac := zip_snd _ _ l1
        have v2 : vals (tc.zip (ac.map (c * ·))) = ac.map (c * ·) := zip_snd _ _ l2
        have t1 : times (tc.zip ac) = tc := zip_fst _ _ l1
        have t2 : times (tc.zip (ac.map (c * ·))) = tc := zip_fst _ _ l2
        rw [v1, v2, t1, t2, zip_snd tc (sosfilt sos ac) (by rw [sosfilt_length, l1]),
          zip_snd tc (sosfilt sos (ac.map (c * ·))) (by rw [sosfilt_length, l2]),
          sosfilt_smul, shiftBack_scale, colStack_eq (by rw [List.length_map, List.length_map, shiftBack_length]),
          colStack_eq (by rw [List.length_map, shiftBack_length])]
        dsimp only
        rw [scaleRec_zip]

theorem sum_map_mul_base (c : K) (l : List K) : (l.map (c * ·)).sum = c * l.sum := by
  induction l with
  | nil => simp
  | cons a l ih => rw [List.map_cons, List.sum_cons, List.sum_cons, ih, mul_add]

theorem lineFit_scale (c : K) (u : Rec K) :
    lineFit (scaleRec c u) = (lineFit u).map (fun f => (c * f.1, c * f.2)) := by
  unfold lineFit
  have e1 : (scaleRec c u).map Prod.fst = u.map Prod.fst := times_scaleRec c u
  have e2 : (scaleRec c u).map Prod.snd = (u.map Prod.snd).map (c * ·) := vals_scaleRec c u
  have e3 : (scaleRec c u).length = u.length := by rw [scaleRec, List.length_map]
  dsimp only
  rw [e1, e2, e3, sum_map_mul_base]
  set tm := (u.map Prod.fst).sum / (u.length : K)
  set xs := (u.map Prod.snd).sum
  have e4 : ((scaleRec c u).map fun p => (p.1 - tm) ^ 2) = u.map fun p => (p.1 - tm) ^ 2 := by
    rw [scaleRec, List.map_map]; rfl
  have e5 : ((scaleRec c u).map fun p => (p.1 - tm) * (p.2 - c * xs / (u.length : K)))
      = (u.map fun p => (p.1 - tm) * (p.2 - xs / (u.length : K))).map (c * ·) := by
    rw [scaleRec, List.map_map, List.map_map]
    refine List.map_congr_left fun p _ => ?_
    simp only [Function.comp]
    ring
  rw [e4, e5, sum_map_mul_base]
  split
  · rfl
  · simp only [Except.map]
    congr 2 <;> ring

theorem cumsum_scale (c : K) (l : List K) : cumsum (l.map (c * ·)) = (cumsum l).map (c * ·) := by
  have h := cumsumFrom_map_mul 0 c l
  rw [zero_mul] at h
  have e : ∀ m : List K, m.map (c * ·) = m.map (· * c) := fun m => List.map_congr_left fun a _ => mul_comm c a
  rw [e, e]
  exact h

/-- Positive multiples of a record have the multiple as answer. -/
theorem C106_scale (design : Design K) (cutoff c d : K) (hc : 0 < c) (x r : Rec K) (hd : d ≠ 0)
    (ht : Uniform d (times x)) (h : baselineCorrect design cutoff x = .ok r) :
    baselineCorrect design cutoff (x.map fun p => (p.1, c * p.2)) = .ok (r.map fun p => (p.1, c * p.2)) := by
  show baselineCorrect design cutoff (scaleRec c x) = .ok (scaleRec c r)
  cases hb : baseFiltered design cutoff x with
  | error e => rw [baselineCorrect, hb] at h; cases h
  | ok an =>
    have hb' := baseFiltered_scale design cutoff c hc x
    rw [hb] at hb'
    obtain ⟨w0, w1, w, f, hw, hf, hr⟩ := baseline_of_filtered hd ht hb
    obtain ⟨w0', w1', w', f', hw', hf', hr'⟩ :=
      baseline_of_filtered (x := scaleRec c x) hd (by rw [times_scaleRec]; exact ht) hb'
    rw [vals_scaleRec, hw] at hw'
    simp only [List.map_cons, List.cons.injEq] at hw'
    obtain ⟨rfl, rfl, rfl⟩ := hw'
    have hr1 := (Except.ok.inj (hr.symm.trans h)).symm
    have hff : f' = (c * f.1, c * f.2) := by
      rw [times_scaleRec, vals_scaleRec, cumsum_scale] at hf'
      have e1 : ∀ m : List K, (m.map (c * ·)).map (· * d) = (m.map (· * d)).map (c * ·) := by
        intro m
        rw [List.map_map, List.map_map]
        exact List.map_congr_left fun a _ => mul_assoc c a d
      rw [e1, cumsum_scale, e1, ← scaleRec_zip, lineFit_scale, hf] at hf'
      exact (Except.ok.inj hf').symm
    rw [hr', hr1, scaleRec_zip, times_scaleRec, hff]
    simp only [List.map_cons, mul_zero]
    congr 4
    ring

/-! ### what the answer is -/

theorem shiftBack_getD (nz cl n : Nat) (y : List K) (i : Nat) (hi : i < n) :
    (shiftBack nz cl n y).getD i 0 = y.getD (nz - cl - 1 + i) 0 := by
  unfold shiftBack
  dsimp only
  split
  · rename_i h
    rw [List.getD_eq_getElem?_getD, List.getD_eq_getElem?_getD, List.getElem?_take, if_pos hi, List.getElem?_drop]
  · rename_i h
    rw [List.getD_eq_getElem?_getD, List.getD_eq_getElem?_getD, List.getElem?_append]
    split
    · rw [List.getElem?_drop]
    · rename_i h2
      rw [List.getElem?_replicate, if_pos (by omega), List.getElem?_eq_none (l := y)]
      · rfl
      · rw [List.length_drop] at h2; omega

/-- Samples from the third on are samples of the high-passed padded record `y`, one step late: the padded record holds
sample `i` of the record at position `nz - cl + i`. -/
theorem C106_samples_partial (design : Design K) (cutoff d : K) (x r : Rec K) (hd : d ≠ 0) (ht : Uniform d (times x))
    (h : baselineCorrect design cutoff x = .ok r) :
    ∃ a y, removeMean (vals x) = .ok a ∧
      filterKernel design 4 .highpass (.num cutoff) (padRec d (nrZpad cutoff d (crossLeft a)) a) = .ok y ∧
      (vals r).getD 0 0 = 0 ∧
      ∀ i, 2 ≤ i → i < x.length →
        (vals r).getD i 0 = (vals y).getD (nrZpad cutoff d (crossLeft a) - crossLeft a - 1 + i) 0 := by
  cases hb : baseFiltered design cutoff x with
  | error e => rw [baselineCorrect, hb] at h; cases h
  | ok an =>
    obtain ⟨w0, w1, w, f, hw, _, hr⟩ := baseline_of_filtered hd ht hb
    obtain ⟨dt, a, sos, hdt, h1, h0, ha, hy, han⟩ := baseFiltered_inv hb
    have h5 : 5 ≤ (vals x).length := by
      by_contra hc
      rw [removeMean_short (not_le.1 hc)] at ha; cases ha
    rw [vals_length] at h5
    have : dt = d := Except.ok.inj (hdt.symm.trans (uniform_dtOf ht (by omega)))
    subst this
    have hva : vals an = shiftBack (nrZpad cutoff dt (crossLeft a)) (crossLeft a) x.length
        (sosfilt sos (padCut (nrZpad cutoff dt (crossLeft a)) a)) := by
      rw [han]; exact zip_snd _ _ (by rw [times_length, shiftBack_length])
    have hl : (vals an).length = x.length := by rw [hva, shiftBack_length]
    have e := Except.ok.inj (hr.symm.trans h)
    have lt : (times x).length = (0 :: (w0 + w1 - f.1 / dt) :: w).length := by
      rw [times_length, ← hl, hw]; rfl
    have hvr : vals r = 0 :: (w0 + w1 - f.1 / dt) :: w := by rw [← e]; exact zip_snd _ _ lt
    refine ⟨a, _, ha, hy, by rw [hvr]; rfl, fun i hi hix => ?_⟩
    have hvy : vals ((times (padRec dt (nrZpad cutoff dt (crossLeft a)) a)).zip
          (sosfilt sos (padCut (nrZpad cutoff dt (crossLeft a)) a)))
          = sosfilt sos (padCut (nrZpad cutoff dt (crossLeft a)) a) :=
      zip_snd _ _ (by rw [sosfilt_length, times_length, padRec, List.length_zip, linspace_len, min_self])
    rw [hvy, ← shiftBack_getD _ _ x.length _ i hix, ← hva, hvr, hw]
    match i, hi with
    | i + 2, _ => rfl

theorem nrZpad_ge (cutoff dt : K) (cl : Nat) : cl + 1 ≤ nrZpad cutoff dt cl := by
  unfold nrZpad
  have : ((cl : Int) + 1) ≤ max (max 1000 (roundHalfEven (3 / cutoff / dt))) ((cl : Int) + 1) := le_max_right _ _
  omega

theorem padCut_getD (nz : Nat) (a : List K) (j : Nat) (h1 : crossLeft a ≤ j) (h2 : j ≤ crossRight a) :
    (padCut nz a).getD (nz + j - crossLeft a) 0 = a.getD j 0 := by
  unfold padCut
  rw [List.getD_eq_getElem?_getD, List.getD_eq_getElem?_getD, List.getElem?_append_right (by simp; omega),
    List.length_replicate, show nz + j - crossLeft a - nz = j - crossLeft a by omega, List.getElem?_append]
  split
  · rename_i h3
    rw [List.getElem?_drop, show crossLeft a + (j - crossLeft a) = j by omega, List.getElem?_take,
      if_pos (by omega)]
  · rename_i h3
    rw [List.length_drop, List.length_take] at h3
    rw [List.getElem?_eq_none (l := a) (by omega), List.getElem?_replicate]
    split <;> rfl

/-- The answer is late by one sample: where no filtering takes place, sample `i` of the answer is sample `i - 1` of the
record (less the pre-event mean). -/
theorem C106_delay_violated (design : Design K) (cutoff d : K) (x r : Rec K) (hd : d ≠ 0) (ht : Uniform d (times x))
    (hc : cutoff < 0) (h : baselineCorrect design cutoff x = .ok r) :
    ∃ a, removeMean (vals x) = .ok a ∧
      ∀ i, 2 ≤ i → i < x.length → crossLeft a < i → i ≤ crossRight a + 1 →
        (vals r).getD i 0 = a.getD (i - 1) 0 := by
  obtain ⟨a, y, ha, hy, _, hs⟩ := C106_samples_partial design cutoff d x r hd ht h
  refine ⟨a, ha, fun i h2 hi h3 h4 => ?_⟩
  rw [hs i h2 hi]
  have hnz := nrZpad_ge cutoff d (crossLeft a)
  set nz := nrZpad cutoff d (crossLeft a)
  have hyy : y = padRec d nz a := by
    rcases hdt : dtOf (padRec d nz a) with e | d'
    · simp only [filterKernel, filterOne, hdt, bind, Except.bind] at hy; cases hy
    · simp only [filterKernel, filterOne, hdt, bind, Except.bind] at hy
      by_cases h0 : d' = 0
      · rw [if_pos h0] at hy; cases hy
      · rw [if_neg h0, if_pos trivial, if_pos hc.le] at hy
        exact (Except.ok.inj hy).symm
  rw [hyy, vals_padRec, ← padCut_getD nz a (i - 1) (by omega) (by omega)]
  congr 1
  omega

/-! ### records that cross zero once -/

theorem findIdx_append {α : Type} (p : α → Bool) (l m : List α) (hl : ∀ x ∈ l, p x = false) :
    (l ++ m).findIdx? p = (m.findIdx? p).map (· + l.length) := by
  induction l with
  | nil => simp
  | cons a l ih =>
    rw [List.cons_append, List.findIdx?_cons, hl a (by simp), ih (fun x hx => hl x (by simp [hx]))]
    simp only [Bool.false_eq_true, if_false, Option.map_map]
    congr 1

theorem cross_once (b : Bool) (p q : List K) (hp : p ≠ []) (hq : q ≠ []) (h1 : ∀ x ∈ p, nonNegFlag x = b)
    (h2 : ∀ x ∈ q, nonNegFlag x = !b) : crossLeft (p ++ q) = p.length ∧ crossRight (p ++ q) = p.length - 1 := by
  have key : ∀ (b : Bool) (p0 : K) (p q : List K), q ≠ [] → (∀ x ∈ p0 :: p, nonNegFlag x = b) →
      (∀ x ∈ q, nonNegFlag x = !b) →
      (p ++ q).findIdx? (fun x => nonNegFlag x != nonNegFlag p0) = some p.length := by
    intro b p0 p q hq h1 h2
    rw [findIdx_append]
    · cases q with
      | nil => exact absurd rfl hq
      | cons q0 q =>
        rw [List.findIdx?_cons, h2 q0 (by simp), h1 p0 (by simp)]
        cases b <;> simp
    · intro x hx
      rw [h1 x (by simp [hx]), h1 p0 (by simp)]
      simp
  constructor
  · cases p with
    | nil => exact absurd rfl hp
    | cons p0 p =>
      rw [List.cons_append, crossLeft, key b p0 p q hq h1 h2]
      rfl
  · unfold crossRight
    rw [List.reverse_append]
    cases hr : q.reverse with
    | nil => exact absurd (by simpa using hr) hq
    | cons q0 q' =>
      rw [List.cons_append]
      dsimp only
      have hmem : ∀ x ∈ q0 :: q', nonNegFlag x = !b := by
        intro x hx
        exact h2 x (List.mem_reverse.1 (hr ▸ hx))
      rw [key (!b) q0 q' p.reverse (by simpa using hp) hmem (by
        intro x hx
        rw [Bool.not_not]
        exact h1 x (List.mem_reverse.1 hx))]
      have hl : q.length = q'.length + 1 := by rw [← List.length_reverse, hr, List.length_cons]
      dsimp only
      rw [List.length_append, hl]
      omega

theorem getD_replicate_zero (n i : Nat) : (List.replicate n (0 : K)).getD i 0 = 0 := by
  rw [List.getD_eq_getElem?_getD, List.getElem?_replicate]
  split <;> rfl

theorem shiftBack_zero (nz cl n m : Nat) : shiftBack nz cl n (List.replicate m (0 : K)) = List.replicate n 0 := by
  unfold shiftBack
  simp only [List.drop_replicate, List.length_replicate, List.take_replicate]
  split
  · rename_i h; rw [min_eq_left h]
  · rename_i h; rw [List.replicate_append_replicate]; congr 1; omega

/-- A record that, after removal of the pre-event mean, changes sign exactly once is erased: the answer is zero
throughout. -/
theorem C106_erased_violated (design : Design K) (cutoff d : K) (x r : Rec K) (hd : d ≠ 0) (ht : Uniform d (times x))
    (h : baselineCorrect design cutoff x = .ok r) (b : Bool) (p q : List K) (hp : p ≠ []) (hq : q ≠ [])
    (ha : removeMean (vals x) = .ok (p ++ q))
    (h1 : ∀ x ∈ p, nonNegFlag x = b) (h2 : ∀ x ∈ q, nonNegFlag x = !b) :
    vals r = List.replicate x.length 0 := by
  cases hb : baseFiltered design cutoff x with
  | error e => rw [baselineCorrect, hb] at h; cases h
  | ok an =>
    obtain ⟨w0, w1, w, f, hw, hf, hr⟩ := baseline_of_filtered hd ht hb
    obtain ⟨dt, a, sos, hdt, _, h0, ha', hy, han⟩ := baseFiltered_inv hb
    have : a = p ++ q := Except.ok.inj (ha'.symm.trans ha)
    subst this
    obtain ⟨hcl, hcr⟩ := cross_once b p q hp hq h1 h2
    have hpad : padCut (nrZpad cutoff dt (crossLeft (p ++ q))) (p ++ q)
        = List.replicate (nrZpad cutoff dt (crossLeft (p ++ q)) + nrZpad cutoff dt (crossLeft (p ++ q))) 0 := by
      have hpl := List.length_pos_iff.2 hp
      rw [padCut]
      rw [List.drop_of_length_le (l := (p ++ q).take (crossRight (p ++ q) + 1)), List.nil_append,
        List.replicate_append_replicate]
      rw [List.length_take, hcl, hcr]
      omega
    have hva : vals an = List.replicate x.length 0 := by
      rw [han, hpad, sosfilt_zero, shiftBack_zero]
      exact zip_snd _ _ (by rw [times_length, List.length_replicate])
    have hl : (vals an).length = x.length := by rw [hva, List.length_replicate]
    have e := Except.ok.inj (hr.symm.trans h)
    have lt : (times x).length = (0 :: (w0 + w1 - f.1 / d) :: w).length := by
      rw [times_length, ← hl, hw]; rfl
    have hvr : vals r = 0 :: (w0 + w1 - f.1 / d) :: w := by rw [← e]; exact zip_snd _ _ lt
    have hall : ∀ y ∈ w0 :: w1 :: w, y = 0 := by
      intro y hy
      rw [← hw, hva] at hy
      exact (List.mem_replicate.1 hy).2
    have hf1 : f.1 = 0 := by
      have z := lineFit_scale 0 ((times x).zip ((cumsum ((cumsum (vals an)).map (· * d))).map (· * d)))
      rw [hf, scaleRec_zip] at z
      have hz : (((cumsum ((cumsum (vals an)).map (· * d))).map (· * d)).map ((0 : K) * ·))
          = (cumsum ((cumsum (vals an)).map (· * d))).map (· * d) := by
        have q0 : ∀ n : Nat, cumsum (List.replicate n (0 : K)) = List.replicate n 0 := by
          intro n
          have := cumsum_scale 0 (List.replicate n (0 : K))
          simp only [List.map_replicate, mul_zero, zero_mul] at this
          rw [this]
          refine List.eq_replicate_iff.2 ⟨by simp [cumsum, cumsumFrom_length], ?_⟩
          intro b hb
          obtain ⟨c, _, rfl⟩ := List.mem_map.1 hb
          rfl
        rw [hva, q0]
        simp [q0]
      rw [hz, hf] at z
      have := congrArg Prod.fst (Except.ok.inj z)
      simpa using this
    rw [hvr, hf1]
    refine List.eq_replicate_iff.2 ⟨by rw [← hl, hw]; rfl, ?_⟩
    intro y hy
    have z0 := hall w0 (by simp)
    have z1 := hall w1 (by simp)
    simp only [List.mem_cons] at hy
    rcases hy with rfl | rfl | hy
    · rfl
    · rw [z0, z1]; simp
    · exact hall y (by simp [hy])

/-- On a uniform time axis the correction succeeds whenever the high-pass filter can be designed. -/
theorem C106_succeeds (design : Design K) (cutoff d : K) (x : Rec K) (hd : d ≠ 0) (ht : Uniform d (times x))
    (h5 : 5 ≤ x.length) (hc : cutoff ≠ 0) (hdes : ∀ w, ∃ sos, design 4 .highpass [w] = .ok sos) :
    ∃ r, baselineCorrect design cutoff x = .ok r := by
  suffices hb : ∃ an, baseFiltered design cutoff x = .ok an by
    obtain ⟨an, hb⟩ := hb
    obtain ⟨w0, w1, w, f, _, _, hr⟩ := baseline_of_filtered hd ht hb
    exact ⟨_, hr⟩
  obtain ⟨m, hm⟩ := removeMean_long (a := x.map Prod.snd) (by rw [List.length_map]; exact h5)
  unfold baseFiltered
  rw [uniform_dtOf ht (by omega), hm]
  simp only [bind, Except.bind]
  rw [if_neg hc, if_neg hd, colStack_eq (linspace_len _ _ _)]
  dsimp only
  set a := (x.map Prod.snd).map fun x => x - m
  have hnz := nrZpad_ge cutoff d (crossLeft a)
  rw [← padRec]
  have h1000 : 1000 ≤ nrZpad cutoff d (crossLeft a) := by
    unfold nrZpad
    have h1 : (1000 : Int) ≤ max (max 1000 (roundHalfEven (3 / cutoff / d))) ((crossLeft a : Int) + 1) :=
      le_max_of_le_left (le_max_left _ _)
    omega
  set nz := nrZpad cutoff d (crossLeft a)
  have hlen : 2000 ≤ (padCut nz a).length := by
    rw [padCut, List.length_append, List.length_append, List.length_replicate]; omega
  have hdt : dtOf (padRec d nz a) = .ok d := by
    rw [dtOf_dtT, show times (padRec d nz a) = _ from zip_fst _ _ (linspace_len _ _ _)]
    obtain ⟨k, hk⟩ : ∃ k, (padCut nz a).length = k + 2 := ⟨(padCut nz a).length - 2, by omega⟩
    rw [hk, linspace, List.range_succ_eq_map, List.range_succ_eq_map]
    simp only [List.map_cons, dtT, dtOf]
    congr 1
    have hk1 : ((k : K) + 1) ≠ 0 := by positivity
    push_cast
    have : (k : K) + 2 - 1 = k + 1 := by ring
    rw [this]
    field_simp
    ring
  by_cases h0 : cutoff ≤ 0
  · rw [C64_highpass_unchanged design 4 cutoff d _ hdt hd h0]
    dsimp only
    rw [colStack_eq (by rw [shiftBack_length, List.length_map])]
    exact ⟨_, rfl⟩
  · obtain ⟨sos, hs⟩ := hdes (cutoff / Spec.nyquist d)
    rw [(C64_one_sided design 4 cutoff d _ hdt hd sos).1 (not_le.1 h0) hs]
    dsimp only
    rw [colStack_eq (by rw [shiftBack_length, List.length_map])]
    exact ⟨_, rfl⟩

/-- A step at the end of the record, once per second. -/
def exStep : Rec ℚ := [(0, 1), (1, 1), (2, 1), (3, 1), (4, 1), (5, -1), (6, -3)]

example : ∃ r, baselineCorrect (fun _ _ _ => .ok [⟨1, 0, 0, 0, 0⟩]) (1/5) exStep = .ok r ∧
    vals r = [0, 0, 0, 0, 0, 0, 0] := by
  have ht : Uniform (1 : ℚ) (times exStep) := by
    intro i a b ha hb
    match i with
    | 0 => cases ha; cases hb; norm_num
    | 1 => cases ha; cases hb; norm_num
    | 2 => cases ha; cases hb; norm_num
    | 3 => cases ha; cases hb; norm_num
    | 4 => cases ha; cases hb; norm_num
    | 5 => cases ha; cases hb; norm_num
    | i + 6 => simp [times, exStep] at hb
  obtain ⟨r, hr⟩ := C106_succeeds (fun _ _ _ => .ok [⟨1, 0, 0, 0, 0⟩]) (1/5) 1 exStep one_ne_zero ht (by decide)
    (by norm_num) (fun _ => ⟨_, rfl⟩)
  exact ⟨r, hr, C106_erased_violated _ _ 1 exStep r one_ne_zero ht hr true [0, 0, 0, 0, 0] [-2, -4] (by simp) (by simp)
    (by decide +kernel) (by decide +kernel) (by decide +kernel)⟩

end Verif
