import Verif.Props.ScoresRec

/-!
Property C100: a simulation which is the measurement times a factor; the part of the records which is scored.
-/

set_option linter.unusedSectionVars false
set_option linter.unusedVariables false

namespace Verif

open Spec (times vals)

namespace Spec

/-- All values times `c`. -/
def scaled (c : ℝ) (x : Rec ℝ) : Rec ℝ := x.map fun r => (r.1, c * r.2)

/-- Signal processing which commutes with scaling. -/
structure Homogeneous (c : ℝ) (sp : SigProc) : Prop where
  baseline : ∀ x y, sp.baseline x = .ok y → sp.baseline (scaled c x) = .ok (scaled c y)
  highpass : ∀ f x y, sp.highpass f x = .ok y → sp.highpass f (scaled c x) = .ok (scaled c y)
  bandpass : ∀ f g x y, sp.bandpass f g x = .ok y → sp.bandpass f g (scaled c x) = .ok (scaled c y)
  wavelet : ∀ x y, sp.wavelet x = .ok y → sp.wavelet (scaled c x) = .ok (scaled c y)
  spectrum : ∀ a b x r, sp.spectrum a b x = .ok r → sp.spectrum a b (scaled c x) = .ok (r.1, r.2.map (c * ·))
  fourier : ∀ x y, sp.fourier x = .ok y → sp.fourier (scaled c x) = .ok (scaled c y)
  smooth : ∀ x l, sp.smooth x = .ok l → sp.smooth (scaled c x) = .ok (l.map (c * ·))

end Spec

open Spec (scaled Homogeneous)

theorem scaled_times (c : ℝ) (x : Rec ℝ) : (scaled c x).map Prod.fst = x.map Prod.fst := by
  simp [scaled]

theorem scaled_vals (c : ℝ) (x : Rec ℝ) : (scaled c x).map Prod.snd = (x.map Prod.snd).map (c * ·) := by
  simp [scaled]

theorem scaled_dt (c : ℝ) (x : Rec ℝ) : dtOf (scaled c x) = dtOf x := by
  match x with
  | [] => rfl
  | [_] => rfl
  | _ :: _ :: _ => rfl

theorem scaled_trim (c : ℝ) (x : Rec ℝ) : trim15 (scaled c x) = scaled c (trim15 x) := by
  unfold trim15 scaled
  rw [List.length_map, List.map_drop, List.map_take]

theorem scaled_zip (c : ℝ) (t v : List ℝ) : scaled c (t.zip v) = t.zip (v.map (c * ·)) := by
  unfold scaled
  rw [List.zip_map_right]
  rfl

theorem scaled_filter {c : ℝ} {sp : SigProc} (hs : Homogeneous c sp) {fmin fmax : Option ℝ} {x y : Rec ℝ}
    (h : gofFilter sp fmin fmax x = .ok y) : gofFilter sp fmin fmax (scaled c x) = .ok (scaled c y) := by
  unfold gofFilter at h ⊢
  cases fmax with
  | none => exact hs.highpass _ _ _ h
  | some f => exact hs.bandpass _ _ _ _ h

theorem scaled_opt {c : ℝ} {f : Rec ℝ → Except PyErr (Rec ℝ)} (hf : ∀ x y, f x = .ok y → f (scaled c x) = .ok (scaled c y))
    {b : Bool} {x y : Rec ℝ} (h : optStep b f x = .ok y) : optStep b f (scaled c x) = .ok (scaled c y) := by
  unfold optStep at h ⊢
  cases b with
  | true => exact hf _ _ h
  | false => cases h; rfl

theorem cumsumFrom_scaled (c s : ℝ) (l : List ℝ) : cumsumFrom (c * s) (l.map (c * ·)) = (cumsumFrom s l).map (c * ·) := by
  induction l generalizing s with
  | nil => rfl
  | cons a l ih => simp only [List.map_cons, cumsumFrom, ← mul_add]; rw [ih]

theorem cumsum_scaled (c : ℝ) (l : List ℝ) : cumsum (l.map (c * ·)) = (cumsum l).map (c * ·) := by
  have := cumsumFrom_scaled c 0 l
  rw [mul_zero] at this
  exact this

theorem scaled_numInt {c : ℝ} {x : Rec ℝ} {p : Rec ℝ × Rec ℝ} (h : numInt x = .ok p) :
    numInt (scaled c x) = .ok (scaled c p.1, scaled c p.2) := by
  cases hd : dtOf x with
  | error e => unfold numInt at h; rw [hd] at h; cases h
  | ok d =>
    rw [numInt_ok d x hd] at h
    cases h
    rw [numInt_ok d _ (by rw [scaled_dt, hd])]
    have e1 : times (scaled c x) = times x := scaled_times c x
    have e2 : vals (scaled c x) = (vals x).map (c * ·) := scaled_vals c x
    have comm : ∀ l : List ℝ, (l.map (c * ·)).map (· * d) = (l.map (· * d)).map (c * ·) := by
      intro l
      rw [List.map_map, List.map_map]
      apply List.map_congr_left
      intro z _; simp; ring
    rw [e1, e2, scaled_zip, scaled_zip, cumsum_scaled, comm, cumsum_scaled, comm]

theorem scaled_arias {c : ℝ} {x : Rec ℝ} {p : Rec ℝ × ℝ} (h : gofArias x = .ok p) :
    gofArias (scaled c x) = .ok (scaled (c ^ 2) p.1, c ^ 2 * p.2) := C94_scale x c p.1 p.2 h

theorem scaled_norm {c : ℝ} (hc : c ≠ 0) {p : Rec ℝ × ℝ} {n : List ℝ} (h : normIa p = .ok n) :
    normIa (scaled c p.1, c * p.2) = .ok n := by
  unfold normIa at h ⊢
  by_cases c0 : p.2 = 0
  · rw [if_pos c0] at h; cases h
  · rw [if_neg c0] at h
    rw [if_neg (mul_ne_zero hc c0)]
    cases h
    congr 1
    unfold scaled
    rw [List.map_map]
    apply List.map_congr_left
    intro r _
    simp only [Function.comp]
    field_simp

theorem scaled_rms {c : ℝ} (hc : 0 ≤ c) {x : Rec ℝ} {v : ℝ} (h : calcRms x = .ok v) : calcRms (scaled c x) = .ok (c * v) := by
  unfold calcRms at h ⊢
  unfold meanArr at h ⊢
  rw [scaled_vals]
  by_cases c0 : (x.map Prod.snd).map (· ^ 2) = []
  · rw [if_pos c0] at h; cases h
  · rw [if_neg c0] at h
    rw [if_neg (by simpa using c0)]
    simp only [bind, Except.bind] at h ⊢
    cases h
    have : ∀ l : List ℝ, (l.map (c * ·)).map (· ^ 2) = (l.map (· ^ 2)).map (c ^ 2 * ·) := by
      intro l
      rw [List.map_map, List.map_map]
      apply List.map_congr_left
      intro z _; simp; ring
    simp only [this, List.length_map, sum_map_mul, mul_div_assoc]
    rw [Real.sqrt_mul (sq_nonneg c), Real.sqrt_sq hc]
    rfl

/-- The score of a value and its multiple. -/
theorem scoreNum_multiple {p c : ℝ} (hp : 1 / 10 ^ 12 ≤ p) (hc : 0 < c) (hcp : 1 / 2 ^ 52 ≤ c * p) :
    scoreNum p (c * p) = erf (c - 1) * 10 := by
  have h12 : (1 : ℝ) / 2 ^ 52 ≤ 1 / 10 ^ 12 := by norm_num
  have hf : feps = 1 / 2 ^ 52 := rfl
  have he : eps2 = 1 / 10 ^ 12 := rfl
  have p0 : 0 < p := lt_of_lt_of_le (by norm_num) hp
  unfold scoreNum
  rw [max_eq_left (by rw [hf]; linarith), max_eq_left (by rw [hf]; exact hcp)]
  unfold relDiff
  rw [if_neg (by rw [he]; exact not_lt.mpr hp)]
  congr 2
  field_simp

/-- C100. Simulation = `c` times the measurement: the shapes of the intensity curves are the same (scores 0), the peaks are
scored by `c²`. -/
theorem C100_d1234 {sp : SigProc} {c : ℝ} (hc : 0 < c) (hs : Homogeneous c sp) {x : Rec ℝ} {fmin fmax : Option ℝ} {base : Bool}
    {r : ℝ × ℝ × ℝ × ℝ} (h : d1234 sp x (scaled c x) fmin fmax base = .ok r) :
    r.1 = 0 ∧ r.2.1 = 0 ∧
    ∃ (a : Rec ℝ) (v : Rec ℝ × Rec ℝ) (ia ie : Rec ℝ × ℝ), (∃ b, optStep base sp.baseline (trim15 x) = .ok b ∧ gofFilter sp fmin fmax b = .ok a) ∧
      numInt a = .ok v ∧ gofArias a = .ok ia ∧ gofArias v.1 = .ok ie ∧
      (1 / 10 ^ 12 ≤ ia.2 → 1 / 2 ^ 52 ≤ c ^ 2 * ia.2 → r.2.2.1 = erf (c ^ 2 - 1) * 10) ∧
      (1 / 10 ^ 12 ≤ ie.2 → 1 / 2 ^ 52 ≤ c ^ 2 * ie.2 → r.2.2.2 = erf (c ^ 2 - 1) * 10) := by
  obtain ⟨bm, bs, am, as, iam, ias, vm, vs, iem, ies, nam, nas, nem, nes, a, e, s1, s2, h1, h2, h3, h4, h5, h6, h7, h8, h9, h10,
    h11, h12, h13, h14, h15, h16, h17, h18, h19, h20, h21, h22⟩ := d1234_inv h
  rw [scaled_trim, scaled_opt hs.baseline h1] at h2; cases h2
  rw [scaled_filter hs h3] at h4; cases h4
  rw [scaled_arias h5] at h6; cases h6
  rw [scaled_numInt h7] at h8; cases h8
  rw [scaled_arias h9] at h10; cases h10
  have hc2 : c ^ 2 ≠ 0 := pow_ne_zero 2 hc.ne'
  rw [scaled_norm hc2 h11] at h12; cases h12
  rw [scaled_norm hc2 h13] at h14; cases h14
  obtain ⟨_, e1⟩ := grid_score h15 h17
  obtain ⟨_, e2⟩ := grid_score h16 h18
  rw [e1, zipWith_score_self] at h19
  rw [e2, zipWith_score_self] at h20
  refine ⟨meanArr_zero _ _ h19, meanArr_zero _ _ h20, am, vm, iam, iem, ⟨bm, h1, h3⟩, h7, h5, h9, ?_, ?_⟩
  · intro g1 g2; rw [h21]; exact scoreNum_multiple g1 (by positivity) g2
  · intro g1 g2; rw [h22]; exact scoreNum_multiple g1 (by positivity) g2

/-- C100. The RMS scores of the multiple are `10 erf (c - 1)`. -/
theorem C100_d567 {sp : SigProc} {c : ℝ} (hc : 0 < c) (hs : Homogeneous c sp) {x : Rec ℝ} {fmin fmax : Option ℝ} {base : Bool}
    {r : ℝ × ℝ × ℝ} (h : d567 sp x (scaled c x) fmin fmax base = .ok r) :
    ∃ (a b u : Rec ℝ) (i : Rec ℝ × Rec ℝ) (ra rv ru : ℝ),
      optStep base (gofFilter sp fmin fmax) (trim15 x) = .ok a ∧ optStep base sp.baseline a = .ok b ∧ numInt b = .ok i ∧
      optStep base sp.wavelet i.2 = .ok u ∧ calcRms a = .ok ra ∧ calcRms i.1 = .ok rv ∧ calcRms u = .ok ru ∧
      (1 / 10 ^ 12 ≤ ra → 1 / 2 ^ 52 ≤ c * ra → r.1 = erf (c - 1) * 10) ∧
      (1 / 10 ^ 12 ≤ rv → 1 / 2 ^ 52 ≤ c * rv → r.2.1 = erf (c - 1) * 10) ∧
      (1 / 10 ^ 12 ≤ ru → 1 / 2 ^ 52 ≤ c * ru → r.2.2 = erf (c - 1) * 10) := by
  obtain ⟨am, as, ram, ras, bm, bs, im, is, rvm, rvs, um, us, rum, rus, h1, h2, h3, h4, h5, h6, h7, h8, h9, h10, h11, h12, h13, h14,
    h15⟩ := d567_inv h
  rw [scaled_trim, scaled_opt (fun x y h => scaled_filter hs h) h1] at h2; cases h2
  rw [scaled_rms hc.le h3] at h4; cases h4
  rw [scaled_opt hs.baseline h5] at h6; cases h6
  rw [scaled_numInt h7] at h8; cases h8
  rw [scaled_rms hc.le h9] at h10; cases h10
  rw [scaled_opt hs.wavelet h11] at h12; cases h12
  rw [scaled_rms hc.le h13] at h14; cases h14
  subst h15
  exact ⟨am, bm, um, im, ram, rvm, rum, h1, h5, h7, h11, h3, h9, h13,
    fun g1 g2 => scoreNum_multiple g1 hc g2, fun g1 g2 => scoreNum_multiple g1 hc g2, fun g1 g2 => scoreNum_multiple g1 hc g2⟩

/-! The scored part of the records. -/

/-- Records of 30 samples or fewer have no intensity scores. -/
theorem C95_short {sp : SigProc} (hk : Spec.KeepsSamples sp) {x y : Rec ℝ} {fmin fmax : Option ℝ} {base : Bool}
    (hx : x.length ≤ 30) (r : ℝ × ℝ × ℝ × ℝ) : d1234 sp x y fmin fmax base ≠ .ok r := by
  intro h
  obtain ⟨bm, bs, am, as, iam, ias, vm, vs, iem, ies, nam, nas, nem, nes, a, e, s1, s2, h1, h2, h3, h4, h5, _⟩ := d1234_inv h
  have l1 : bm.length = (trim15 x).length := by
    unfold optStep at h1
    cases base with
    | true => exact hk.1 _ _ h1
    | false => cases h1; rfl
  have l2 : am.length = bm.length := by
    unfold gofFilter at h3
    cases fmax with
    | none => exact hk.2.1 _ _ _ h3
    | some f => exact hk.2.2 _ _ _ _ h3
  have l3 : (trim15 x).length = x.length - 29 := by unfold trim15; simp; omega
  have l4 : am.length ≤ 1 := by omega
  unfold gofArias at h5
  match am, l4 with
  | [], _ => cases h5
  | [_], _ => cases h5

/-- The first 14 and the last 15 samples do not matter for the intensity and RMS scores. -/
theorem C95_window (sp : SigProc) (x x' y y' : Rec ℝ) (fmin fmax : Option ℝ) (base : Bool)
    (lx : x.length = x'.length) (ly : y.length = y'.length)
    (hx : ∀ i, 14 ≤ i → i + 15 < x.length → x[i]? = x'[i]?) (hy : ∀ i, 14 ≤ i → i + 15 < y.length → y[i]? = y'[i]?) :
    d1234 sp x y fmin fmax base = d1234 sp x' y' fmin fmax base ∧ d567 sp x y fmin fmax base = d567 sp x' y' fmin fmax base := by
  have key : ∀ z z' : Rec ℝ, z.length = z'.length → (∀ i, 14 ≤ i → i + 15 < z.length → z[i]? = z'[i]?) → trim15 z = trim15 z' := by
    intro z z' hl hz
    unfold trim15
    apply List.ext_getElem?
    intro i
    rw [List.getElem?_drop, List.getElem?_drop]
    by_cases c : 14 + i < z.length - 15
    · rw [List.getElem?_take_of_lt c, List.getElem?_take_of_lt (by omega)]
      exact hz (14 + i) (by omega) (by omega)
    · rw [List.getElem?_eq_none (by simp; omega), List.getElem?_eq_none (by simp; omega)]
  have e1 := key x x' lx hx
  have e2 := key y y' ly hy
  constructor
  · unfold d1234; rw [e1, e2]
  · unfold d567; rw [e1, e2]

/-- All samples from the 14th to the 16th last get to the filter. -/
theorem C95_window_full (x : Rec ℝ) (i : Nat) (h1 : 14 ≤ i) (h2 : i + 15 < x.length) : (trim15 x)[i - 14]? = x[i]? := by
  unfold trim15
  rw [List.getElem?_drop, List.getElem?_take_of_lt (by omega)]
  congr 1; omega

theorem firstGe_spec {l : List ℝ} {v : ℝ} {i : Nat} (h : firstGe l v = .ok i) :
    i < l.length ∧ (∀ y, l[i]? = some y → v ≤ y) ∧ ∀ (j : Nat) y, j < i → l[j]? = some y → y < v := by
  unfold firstGe at h
  cases hf : l.findIdx? (fun x => decide (v ≤ x)) with
  | none => rw [hf] at h; cases h
  | some k =>
    rw [hf] at h
    cases h
    obtain ⟨hlt, hp, hall⟩ := List.findIdx?_eq_some_iff_getElem.mp hf
    refine ⟨hlt, ?_, ?_⟩
    · intro y hy
      rw [List.getElem?_eq_getElem hlt] at hy
      cases hy
      simpa using hp
    · intro j y hj hy
      have := hall j hj
      rw [List.getElem?_eq_getElem (by omega)] at hy
      cases hy
      simpa using this

theorem lastLe_spec {l : List ℝ} {v : ℝ} {i : Nat} (h : lastLe l v = .ok i) :
    0 < i ∧ i ≤ l.length ∧ (∀ y, l[i - 1]? = some y → y ≤ v) ∧ ∀ (j : Nat) y, i ≤ j → l[j]? = some y → v < y := by
  unfold lastLe at h
  cases hf : l.reverse.findIdx? (fun x => decide (x ≤ v)) with
  | none => rw [hf] at h; cases h
  | some k =>
    rw [hf] at h
    cases h
    obtain ⟨hlt, hp, hall⟩ := List.findIdx?_eq_some_iff_getElem.mp hf
    rw [List.length_reverse] at hlt
    refine ⟨by omega, by omega, ?_, ?_⟩
    · intro y hy
      rw [List.getElem?_eq_getElem (by omega)] at hy
      cases hy
      have e : l.reverse[k] = l[l.length - k - 1] := by
        rw [List.getElem_reverse]
        congr 1; omega
      rw [e] at hp
      simpa using hp
    · intro j y hj hy
      have hjl : j < l.length := (List.getElem?_eq_some_iff.mp hy).1
      have := hall (l.length - 1 - j) (by omega)
      rw [List.getElem_reverse] at this
      have e : l[l.length - 1 - (l.length - 1 - j)]'(by omega) = y := by
        have h2 := (List.getElem?_eq_some_iff.mp hy).2
        rw [← h2]
        congr 1; omega
      rw [e] at this
      simpa using this

theorem scoreArr_multiple {c : ℝ} (hc : 0 < c) (l : List ℝ) (hl : ∀ p ∈ l, 1 / 10 ^ 12 ≤ p ∧ 1 / 2 ^ 52 ≤ c * p) {s : List ℝ}
    (h : (scoreArr l (l.map (c * ·))).1 = .ok s) : s = l.map fun _ => erf (c - 1) * 10 := by
  rw [scoreArr_inv _ _ _ h, List.zipWith_map_right, List.zipWith_self]
  apply List.map_congr_left
  intro p hp
  exact scoreNum_multiple (hl p hp).1 hc (hl p hp).2

theorem meanArr_const {l : List ℝ} {v r : ℝ} (h : meanArr (l.map fun _ => v) = .ok r) : r = v := by
  unfold meanArr at h
  by_cases c : (l.map fun _ => v) = []
  · rw [if_pos c] at h; cases h
  · rw [if_neg c] at h
    cases h
    have hne : l ≠ [] := by intro e; rw [e] at c; exact c rfl
    have : (l.length : ℝ) ≠ 0 := by
      have := List.length_pos_iff.mpr hne
      exact_mod_cast this.ne'
    simp
    field_simp

theorem firstGe_sorted {l : List ℝ} {v : ℝ} {i : Nat} (h : firstGe l v = .ok i) (hl : l.Pairwise (· ≤ ·)) (k : Nat) (y : ℝ)
    (hy : l[k]? = some y) : i ≤ k ↔ v ≤ y := by
  obtain ⟨h1, h2, h3⟩ := firstGe_spec h
  constructor
  · intro hk
    have hi : l[i]? = some l[i] := List.getElem?_eq_getElem h1
    have := h2 _ hi
    rcases Nat.lt_or_ge i k with c | c
    · obtain ⟨hkl, e⟩ := List.getElem?_eq_some_iff.mp hy
      have := List.pairwise_iff_getElem.mp hl i k h1 hkl c
      rw [e] at this
      linarith
    · have : i = k := by omega
      subst this
      exact h2 y hy
  · intro hv
    by_contra hc
    exact absurd (h3 k y (by omega) hy) (not_lt.mpr hv)

theorem lastLe_sorted {l : List ℝ} {v : ℝ} {i : Nat} (h : lastLe l v = .ok i) (hl : l.Pairwise (· ≤ ·)) (k : Nat) (y : ℝ)
    (hy : l[k]? = some y) : k < i ↔ y ≤ v := by
  obtain ⟨h0, h1, h2, h3⟩ := lastLe_spec h
  constructor
  · intro hk
    have hi : l[i - 1]? = some (l[i - 1]'(by omega)) := List.getElem?_eq_getElem (by omega)
    have h4 := h2 _ hi
    rcases Nat.lt_or_ge k (i - 1) with c | c
    · obtain ⟨hkl, e⟩ := List.getElem?_eq_some_iff.mp hy
      have := List.pairwise_iff_getElem.mp hl k (i - 1) hkl (by omega) c
      rw [e] at this
      linarith
    · have : k = i - 1 := by omega
      subst this
      exact h2 y hy
  · intro hv
    by_contra hc
    exact absurd (h3 k y (by omega) hy) (not_lt.mpr hv)

/-- C100. The spectral scores of the multiple are `10 erf (c - 1)` if the response spectrum of the measurement and the smoothed
Fourier amplitudes between `fmin` and `fmax` are at least 1e-12. -/
theorem C100_d89 {sp : SigProc} {c : ℝ} (hc : 0 < c) (hc2 : 1 / 2 ^ 10 ≤ c) (hs : Homogeneous c sp) {x : Rec ℝ} {fmin fmax : Option ℝ} {base : Bool} {r : ℝ × ℝ}
    (hspec : ∀ a b m m' q, optStep base sp.baseline x = .ok m → optStep base sp.baseline m = .ok m' →
      sp.spectrum a b m' = .ok q → ∀ p ∈ q.2, 1 / 10 ^ 12 ≤ p)
    (hfour : ∀ lo hi m m' fm sm, fmin = some lo → fmax = some hi → optStep base sp.baseline x = .ok m →
      optStep base sp.baseline m = .ok m' → sp.fourier m' = .ok fm → sp.smooth fm = .ok sm →
      (fm.map Prod.fst).Pairwise (· ≤ ·) ∧
      ∀ (k : Nat) f p, (fm.map Prod.fst)[k]? = some f → sm[k]? = some p → lo ≤ f → f ≤ hi → 1 / 10 ^ 12 ≤ p)
    (h : d89 sp x (scaled c x) fmin fmax base = .ok r) : r = (erf (c - 1) * 10, erf (c - 1) * 10) := by
  have hbig : ∀ p : ℝ, 1 / 10 ^ 12 ≤ p → 1 / 10 ^ 12 ≤ p ∧ 1 / 2 ^ 52 ≤ c * p := by
    intro p hp
    refine ⟨hp, ?_⟩
    calc (1 : ℝ) / 2 ^ 52 ≤ 1 / 2 ^ 10 * (1 / 10 ^ 12) := by norm_num
      _ ≤ c * p := mul_le_mul hc2 hp (by norm_num) hc.le
  unfold d89 at h
  simp only [bind, Except.bind] at h
  cases h1 : optStep base sp.baseline x with
  | error e => rw [h1] at h; cases h
  | ok m =>
  rw [h1, scaled_opt hs.baseline h1] at h; simp only at h
  cases h3 : hasDt m with
  | error e => rw [h3] at h; cases h
  | ok d1 =>
  rw [h3] at h; simp only at h
  cases h4 : hasDt (scaled c m) with
  | error e => rw [h4] at h; cases h
  | ok d2 =>
  rw [h4] at h; simp only at h
  cases h5 : gofRange fmin fmax with
  | error e => rw [h5] at h; cases h
  | ok f =>
  rw [h5] at h; simp only at h
  cases h6 : optStep base sp.baseline m with
  | error e => rw [h6] at h; cases h
  | ok m' =>
  rw [h6, scaled_opt hs.baseline h6] at h; simp only at h
  by_cases hz : f.1 = 0 ∨ f.2 = 0
  · rw [if_pos hz] at h; cases h
  rw [if_neg hz] at h
  cases h8 : sp.spectrum (min (1 / f.2) (1 / 100)) (max (1 / f.1) 5) m' with
  | error e => rw [h8] at h; cases h
  | ok rm =>
  rw [h8, hs.spectrum _ _ _ _ h8] at h; simp only at h
  cases h10 : firstGe rm.1 (1 / f.2) with
  | error e => rw [h10] at h; cases h
  | ok i1 =>
  rw [h10] at h; simp only at h
  cases h11 : lastLe rm.1 (1 / f.1) with
  | error e => rw [h11] at h; cases h
  | ok i2 =>
  rw [h11] at h; simp only at h
  cases h12 : sp.fourier m' with
  | error e => rw [h12] at h; cases h
  | ok fm =>
  rw [h12, hs.fourier _ _ h12] at h; simp only at h
  cases h14 : sp.smooth fm with
  | error e => rw [h14] at h; cases h
  | ok sm =>
  rw [h14, hs.smooth _ _ h14] at h; simp only [scaled_times] at h
  cases h16 : firstGe (fm.map Prod.fst) f.1 with
  | error e => rw [h16] at h; cases h
  | ok j1 =>
  rw [h16] at h; simp only at h
  cases h18 : lastLe (fm.map Prod.fst) f.2 with
  | error e => rw [h18] at h; cases h
  | ok j2 =>
  rw [h18] at h; simp only [max_self, min_self] at h
  rw [← List.map_take, ← List.map_drop, ← List.map_take, ← List.map_drop] at h
  cases h20 : (scoreArr ((rm.2.take i2).drop i1) (((rm.2.take i2).drop i1).map (c * ·))).1 with
  | error e => rw [h20] at h; cases h
  | ok s8 =>
  rw [h20] at h; simp only at h
  cases h21 : meanArr s8 with
  | error e => rw [h21] at h; cases h
  | ok d8 =>
  rw [h21] at h; simp only at h
  cases h22 : (scoreArr ((sm.take j2).drop j1) (((sm.take j2).drop j1).map (c * ·))).1 with
  | error e => rw [h22] at h; cases h
  | ok s9 =>
  rw [h22] at h; simp only at h
  cases h23 : meanArr s9 with
  | error e => rw [h23] at h; cases h
  | ok d9 =>
  rw [h23] at h
  cases h
  rw [scoreArr_multiple hc _ (fun p hp => hbig p (hspec _ _ _ _ _ h1 h6 h8 p (List.mem_of_mem_take (List.mem_of_mem_drop hp)))) h20] at h21
  have hF : ∀ p ∈ (sm.take j2).drop j1, 1 / 10 ^ 12 ≤ p := by
    intro p hp
    obtain ⟨k, hk⟩ := List.mem_iff_getElem?.mp hp
    rw [List.getElem?_drop] at hk
    have hlt : j1 + k < j2 := by
      by_contra hge
      rw [List.getElem?_eq_none (by rw [List.length_take]; omega)] at hk; cases hk
    rw [List.getElem?_take_of_lt hlt] at hk
    have hlen := (lastLe_spec h18).2.1
    obtain ⟨lo, hi, rfl, rfl, rfl⟩ : ∃ lo hi, fmin = some lo ∧ fmax = some hi ∧ f = (lo, hi) := by
      unfold gofRange at h5
      cases fmin with
      | none => cases h5
      | some lo =>
        cases fmax with
        | none => cases h5
        | some hi =>
          simp only at h5
          by_cases c0 : hi ≤ lo
          · rw [if_pos c0] at h5; cases h5
          · rw [if_neg c0] at h5; cases h5; exact ⟨lo, hi, rfl, rfl, rfl⟩
    obtain ⟨hs1, hs2⟩ := hfour lo hi m m' fm sm rfl rfl h1 h6 h12 h14
    have hget : (fm.map Prod.fst)[j1 + k]? = some ((fm.map Prod.fst)[j1 + k]'(by omega)) := List.getElem?_eq_getElem (by omega)
    exact hs2 _ _ p hget hk ((firstGe_sorted h16 hs1 _ _ hget).mp (by omega)) ((lastLe_sorted h18 hs1 _ _ hget).mp hlt)
  rw [scoreArr_multiple hc _ (fun p hp => hbig p (hF p hp)) h22] at h23
  rw [meanArr_const h21, meanArr_const h23]

/-- C96. The spectral scores are averages over exactly those spectral ordinates whose period lies between
`1/fmax` and `1/fmin`, and whose frequency lies between `fmin` and `fmax`. -/
theorem C96_spectral {sp : SigProc} {x y : Rec ℝ} {fmin fmax : Option ℝ} {r : ℝ × ℝ}
    (h : d89 sp x y fmin fmax false = .ok r) :
    ∃ lo hi, fmin = some lo ∧ fmax = some hi ∧ lo < hi ∧
      ∃ (T Sx Ty Sy : List ℝ) (fx fy : Rec ℝ) (ax ay : List ℝ) (i1 i2 j1 j2 : Nat),
        sp.spectrum (min (1 / hi) (1 / 100)) (max (1 / lo) 5) x = .ok (T, Sx) ∧
        sp.spectrum (min (1 / hi) (1 / 100)) (max (1 / lo) 5) y = .ok (Ty, Sy) ∧
        sp.fourier x = .ok fx ∧ sp.fourier y = .ok fy ∧ sp.smooth fx = .ok ax ∧ sp.smooth fy = .ok ay ∧
        meanArr (List.zipWith scoreNum ((Sx.take i2).drop i1) ((Sy.take i2).drop i1)) = .ok r.1 ∧
        meanArr (List.zipWith scoreNum ((ax.take j2).drop j1) ((ay.take j2).drop j1)) = .ok r.2 ∧
        (T.Pairwise (· ≤ ·) → ∀ (k : Nat) t, T[k]? = some t → ((i1 ≤ k ∧ k < i2) ↔ (1 / hi ≤ t ∧ t ≤ 1 / lo))) ∧
        ((fx.map Prod.fst).Pairwise (· ≤ ·) → fy.map Prod.fst = fx.map Prod.fst →
          ∀ (k : Nat) f, (fx.map Prod.fst)[k]? = some f → ((j1 ≤ k ∧ k < j2) ↔ (lo ≤ f ∧ f ≤ hi))) := by
  unfold d89 at h
  simp only [bind, Except.bind, optStep, Bool.false_eq_true, if_false] at h
  cases h3 : hasDt x with
  | error e => rw [h3] at h; cases h
  | ok d1 =>
  rw [h3] at h; simp only at h
  cases h4 : hasDt y with
  | error e => rw [h4] at h; cases h
  | ok d2 =>
  rw [h4] at h; simp only at h
  cases h5 : gofRange fmin fmax with
  | error e => rw [h5] at h; cases h
  | ok f =>
  rw [h5] at h; simp only at h
  obtain ⟨lo, hi, rfl, rfl, hlt, hf1, hf2⟩ : ∃ lo hi, fmin = some lo ∧ fmax = some hi ∧ lo < hi ∧ f.1 = lo ∧ f.2 = hi := by
    unfold gofRange at h5
    cases fmin with
    | none => cases h5
    | some lo =>
      cases fmax with
      | none => cases h5
      | some hi =>
        simp only at h5
        by_cases c : hi ≤ lo
        · rw [if_pos c] at h5; cases h5
        · rw [if_neg c] at h5; cases h5; exact ⟨lo, hi, rfl, rfl, not_le.mp c, rfl, rfl⟩
  rw [hf1, hf2] at h
  by_cases hz : lo = 0 ∨ hi = 0
  · rw [if_pos hz] at h; cases h
  rw [if_neg hz] at h
  cases h8 : sp.spectrum (min (1 / hi) (1 / 100)) (max (1 / lo) 5) x with
  | error e => rw [h8] at h; cases h
  | ok rm =>
  rw [h8] at h; simp only at h
  cases h9 : sp.spectrum (min (1 / hi) (1 / 100)) (max (1 / lo) 5) y with
  | error e => rw [h9] at h; cases h
  | ok rs =>
  rw [h9] at h; simp only at h
  cases h10 : firstGe rm.1 (1 / hi) with
  | error e => rw [h10] at h; cases h
  | ok i1 =>
  rw [h10] at h; simp only at h
  cases h11 : lastLe rm.1 (1 / lo) with
  | error e => rw [h11] at h; cases h
  | ok i2 =>
  rw [h11] at h; simp only at h
  cases h12 : sp.fourier x with
  | error e => rw [h12] at h; cases h
  | ok fm =>
  rw [h12] at h; simp only at h
  cases h13 : sp.fourier y with
  | error e => rw [h13] at h; cases h
  | ok fs =>
  rw [h13] at h; simp only at h
  cases h14 : sp.smooth fm with
  | error e => rw [h14] at h; cases h
  | ok sm =>
  rw [h14] at h; simp only at h
  cases h15 : sp.smooth fs with
  | error e => rw [h15] at h; cases h
  | ok ss =>
  rw [h15] at h; simp only at h
  cases h16 : firstGe (fm.map Prod.fst) lo with
  | error e => rw [h16] at h; cases h
  | ok j1 =>
  rw [h16] at h; simp only at h
  cases h17 : firstGe (fs.map Prod.fst) lo with
  | error e => rw [h17] at h; cases h
  | ok j1' =>
  rw [h17] at h; simp only at h
  cases h18 : lastLe (fm.map Prod.fst) hi with
  | error e => rw [h18] at h; cases h
  | ok j2 =>
  rw [h18] at h; simp only at h
  cases h19 : lastLe (fs.map Prod.fst) hi with
  | error e => rw [h19] at h; cases h
  | ok j2' =>
  rw [h19] at h; simp only at h
  cases h20 : (scoreArr ((rm.2.take i2).drop i1) ((rs.2.take i2).drop i1)).1 with
  | error e => rw [h20] at h; cases h
  | ok s8 =>
  rw [h20] at h; simp only at h
  cases h21 : meanArr s8 with
  | error e => rw [h21] at h; cases h
  | ok d8 =>
  rw [h21] at h; simp only at h
  cases h22 : (scoreArr ((sm.take (min j2 j2')).drop (max j1 j1')) ((ss.take (min j2 j2')).drop (max j1 j1'))).1 with
  | error e => rw [h22] at h; cases h
  | ok s9 =>
  rw [h22] at h; simp only at h
  cases h23 : meanArr s9 with
  | error e => rw [h23] at h; cases h
  | ok d9 =>
  rw [h23] at h
  cases h
  refine ⟨lo, hi, rfl, rfl, hlt, rm.1, rm.2, rs.1, rs.2, fm, fs, sm, ss, i1, i2, max j1 j1', min j2 j2', h8, h9, rfl, rfl,
    h14, h15, ?_, ?_, ?_, ?_⟩
  · rw [← scoreArr_inv _ _ _ h20]; exact h21
  · rw [← scoreArr_inv _ _ _ h22]; exact h23
  · intro hs k t ht
    rw [firstGe_sorted h10 hs k t ht, lastLe_sorted h11 hs k t ht]
  · intro hs he k f hk
    have e1 : j1' = j1 := by rw [he, h16] at h17; exact (Except.ok.inj h17).symm
    have e2 : j2' = j2 := by rw [he, h18] at h19; exact (Except.ok.inj h19).symm
    rw [e1, e2, max_self, min_self, firstGe_sorted h16 hs k f hk, lastLe_sorted h18 hs k f hk]

/-- The processing which does nothing is homogeneous. -/
example (c : ℝ) : Homogeneous c idProc where
  baseline x y h := by cases h; rfl
  highpass f x y h := by cases h; rfl
  bandpass f g x y h := by cases h; rfl
  wavelet x y h := by cases h; rfl
  spectrum a b x r h := by
    cases h
    show Except.ok _ = _
    rw [scaled_times, scaled_vals]
  fourier x y h := by cases h; rfl
  smooth x l h := by
    cases h
    show Except.ok _ = _
    rw [scaled_vals]

end Verif
