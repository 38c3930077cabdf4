import Verif.Props.FloatMotion

set_option linter.unusedSectionVars false
set_option linter.unusedVariables false

namespace Verif

open Spec (IsDouble NearestDouble NeverDecr)

variable {K : Type} [Field K] [LinearOrder K] [IsStrictOrderedRing K] [FloorRing K]

/-! ## C148: the depths of the smooth profile of SVM -/

theorem fl_lt {x y : K} (hx : (2 : K) ^ (-1022 : ℤ) ≤ x) (h : x * (1 + 1 / 2 ^ 53) < y * (1 - 1 / 2 ^ 53)) : fl x < fl y := by
  have hx0 : 0 < x := lt_of_lt_of_le (zpow_pos (by norm_num) _) hx
  have hxy : x ≤ y := by
    by_contra hc
    have hc := lt_of_not_ge hc
    have u : (0 : K) < 1 / 2 ^ 53 := by positivity
    have u1 : (1 / 2 ^ 53 : K) < 1 := by rw [div_lt_one (by positivity)]; norm_num
    have : y * (1 - 1 / 2 ^ 53) < x * (1 - 1 / 2 ^ 53) := mul_lt_mul_of_pos_right hc (by linarith)
    nlinarith [mul_pos hx0 u]
  have e1 := abs_le.1 (fl_rel (x := x) (by rwa [abs_of_pos hx0]))
  have e2 := abs_le.1 (fl_rel (x := y) (by rw [abs_of_pos (hx0.trans_le hxy)]; exact hx.trans hxy))
  rw [abs_of_pos hx0] at e1
  rw [abs_of_pos (hx0.trans_le hxy)] at e2
  have a : fl x ≤ x * (1 + 1 / 2 ^ 53) := by linarith [e1.1]
  have b : y * (1 - 1 / 2 ^ 53) ≤ fl y := by linarith [e2.2]
  linarith

/-- C148, partial: the depths of the smooth profile, in doubles, are strictly increasing from 0 and none is below
`z1 - thk_addl_layer` (rounded).  Missing: that all are strictly above it (`C148_violated`). -/
theorem C148_grid_partial (z1 addl thk : K) (ht : (2 : K) ^ (-1022 : ℤ) ≤ thk) (hs : 0 < fsub z1 addl)
    (hq : fsub z1 addl / thk ≤ 2 ^ 50) :
    (∀ d ∈ fDepthGrid z1 addl thk, IsDouble d ∧ 0 ≤ d ∧ d ≤ fsub z1 addl) ∧
    (∀ (i : ℕ) a b, (fDepthGrid z1 addl thk)[i]? = some a → (fDepthGrid z1 addl thk)[i + 1]? = some b → a < b) ∧
    (2 ≤ (fDepthGrid z1 addl thk).length → (fDepthGrid z1 addl thk)[0]? = some 0) := by
  have ht0 : 0 < thk := lt_of_lt_of_le (zpow_pos (by norm_num) _) ht
  generalize hS : fsub z1 addl = S at *
  have hSd : IsDouble S := by rw [← hS]; exact fl_double _
  have hb : fdiv S thk ≤ 2 ^ 50 := by
    refine fl_le_of hq ?_
    have := double_nat (K := K) (n := 2 ^ 50) (by norm_num)
    norm_num at this ⊢; exact this
  have hcl : ⌈fdiv S thk⌉ ≤ 2 ^ 50 := Int.ceil_le.2 (by push_cast; norm_num at hb ⊢; exact hb)
  have hi : ∀ i : ℕ, i < ⌈fdiv S thk⌉.toNat → (i : K) * thk < S ∧ i < 2 ^ 50 := by
    intro i h
    have h' : (i : ℤ) < ⌈fdiv S thk⌉ := by omega
    refine ⟨?_, by omega⟩
    by_contra hc
    have hc := not_lt.1 hc
    have : S / thk ≤ (i : K) := by rw [div_le_iff₀ ht0]; exact hc
    have := fl_le_of this (double_nat (K := K) (n := i) (by omega))
    have := Int.ceil_le.2 (show fdiv S thk ≤ ((i : ℤ) : K) by push_cast; exact this)
    omega
  unfold fDepthGrid
  rw [hS]
  refine ⟨?_, ?_, ?_⟩
  · intro d hd
    obtain ⟨i, hil, rfl⟩ := List.mem_map.1 hd
    obtain ⟨h1, h2⟩ := hi i (List.mem_range.1 hil)
    exact ⟨fl_double _, fl_nonneg (by positivity), fl_le_of h1.le hSd⟩
  · intro i a b ha hb
    rw [List.getElem?_map] at ha hb
    obtain ⟨i', hi', rfl⟩ := Option.map_eq_some_iff.1 ha
    obtain ⟨j', hj', rfl⟩ := Option.map_eq_some_iff.1 hb
    obtain ⟨hl, e⟩ := List.getElem?_eq_some_iff.1 hi'
    rw [List.getElem_range] at e; subst e
    obtain ⟨hl2, e⟩ := List.getElem?_eq_some_iff.1 hj'
    rw [List.getElem_range] at e; subst e
    rw [List.length_range] at hl2
    have hi2 := (hi _ hl2).2
    unfold fmul
    rcases Nat.eq_zero_or_pos i with rfl | hpos
    · simp only [Nat.cast_zero, zero_mul, fl_zero, zero_add, Nat.cast_one, one_mul]
      exact lt_of_lt_of_le (zpow_pos (by norm_num) _) (le_fl_of ht (double_pow (by norm_num)))
    · have hp1 : (1 : K) ≤ i := by exact_mod_cast hpos
      refine fl_lt (ht.trans (by nlinarith)) ?_
      have hiK : (i : K) ≤ 2 ^ 50 := by exact_mod_cast (by omega : i ≤ 2 ^ 50)
      push_cast
      have e : ((i : K) + 1) * thk * (1 - 1 / 2 ^ 53) - i * thk * (1 + 1 / 2 ^ 53) = thk * (1 - (2 * i + 1) / 2 ^ 53) := by ring
      have : (2 * (i : K) + 1) / 2 ^ 53 < 1 := by
        rw [div_lt_one (by positivity)]
        have : (2 : K) * i + 1 ≤ 2 * 2 ^ 50 + 1 := by linarith
        refine lt_of_le_of_lt this (by norm_num)
      have := mul_pos ht0 (sub_pos.2 this)
      linarith
  · intro h2
    rw [List.length_map, List.length_range] at h2
    rw [List.getElem?_map, List.getElem?_range (by omega)]
    simp [fmul, fl_zero]

/-- C148, violated: for `z1` = 3 m the last depth is exactly `z1 - thk_addl_layer`, which `np.arange` is to leave out, and there
are seven depths instead of six. -/
theorem C148_violated : (fDepthGrid (3 : ℚ) (fsub (5 / 2) (fl (1 / 10))) (fl (1 / 10))).getLast? = some (fsub 3 (fsub (5 / 2) (fl (1 / 10)))) ∧
    (fDepthGrid (3 : ℚ) (fsub (5 / 2) (fl (1 / 10))) (fl (1 / 10))).length = 7 := by decide +kernel

example : (fDepthGrid (10 : ℚ) (5 / 2) (1 / 4)).length = 30 ∧ (fDepthGrid (10 : ℚ) (5 / 2) (1 / 4)).getLast? = some (29 / 4) := by decide +kernel

/-! ## C150: interpolation -/

/-- Inside an interval numpy's interpolation never passes the value at its left end. -/
theorem fSeg_left (p q : K × K) (x : K) (hp : IsDouble p.2) (hx : p.1 < q.1) (h1 : p.1 ≤ x) :
    (p.2 ≤ q.2 → p.2 ≤ fSeg p q x) ∧ (q.2 ≤ p.2 → fSeg p q x ≤ p.2) := by
  have hd : 0 ≤ fsub q.1 p.1 := fl_nonneg (sub_nonneg.2 hx.le)
  have hxx : 0 ≤ fsub x p.1 := fl_nonneg (sub_nonneg.2 h1)
  unfold fSeg
  constructor
  · intro h
    have hs : 0 ≤ fdiv (fsub q.2 p.2) (fsub q.1 p.1) := fl_nonneg (div_nonneg (fl_nonneg (sub_nonneg.2 h)) hd)
    exact le_fl_of (by linarith [show 0 ≤ fmul (fdiv (fsub q.2 p.2) (fsub q.1 p.1)) (fsub x p.1) from fl_nonneg (mul_nonneg hs hxx)]) hp
  · intro h
    have hn : fsub q.2 p.2 ≤ 0 := by have := fl_mono (sub_nonpos.2 h); rwa [fl_zero] at this
    have hs : fdiv (fsub q.2 p.2) (fsub q.1 p.1) ≤ 0 := by
      have := fl_mono (div_nonpos_of_nonpos_of_nonneg hn hd); rwa [fl_zero] at this
    have hm : fmul (fdiv (fsub q.2 p.2) (fsub q.1 p.1)) (fsub x p.1) ≤ 0 := by
      have := fl_mono (mul_nonpos_of_nonpos_of_nonneg hs hxx); rwa [fl_zero] at this
    exact fl_le_of (by linarith) hp

/-- Inside an interval numpy's interpolation is monotone. -/
theorem fSeg_mono (p q : K × K) (x y : K) (hx : p.1 < q.1) (h : x ≤ y) :
    (p.2 ≤ q.2 → fSeg p q x ≤ fSeg p q y) ∧ (q.2 ≤ p.2 → fSeg p q y ≤ fSeg p q x) := by
  have hd : 0 ≤ fsub q.1 p.1 := fl_nonneg (sub_nonneg.2 hx.le)
  have hxx : fsub x p.1 ≤ fsub y p.1 := fl_mono (by linarith)
  unfold fSeg
  constructor
  · intro h
    have hs : 0 ≤ fdiv (fsub q.2 p.2) (fsub q.1 p.1) := fl_nonneg (div_nonneg (fl_nonneg (sub_nonneg.2 h)) hd)
    refine fl_mono ?_
    have : fmul (fdiv (fsub q.2 p.2) (fsub q.1 p.1)) (fsub x p.1) ≤ fmul (fdiv (fsub q.2 p.2) (fsub q.1 p.1)) (fsub y p.1) :=
      fl_mono (mul_le_mul_of_nonneg_left hxx hs)
    linarith
  · intro h
    have hn : fsub q.2 p.2 ≤ 0 := by have := fl_mono (sub_nonpos.2 h); rwa [fl_zero] at this
    have hs : fdiv (fsub q.2 p.2) (fsub q.1 p.1) ≤ 0 := by
      have := fl_mono (div_nonpos_of_nonpos_of_nonneg hn hd); rwa [fl_zero] at this
    refine fl_mono ?_
    have : fmul (fdiv (fsub q.2 p.2) (fsub q.1 p.1)) (fsub y p.1) ≤ fmul (fdiv (fsub q.2 p.2) (fsub q.1 p.1)) (fsub x p.1) :=
      fl_mono (mul_le_mul_of_nonpos_left hxx hs)
    linarith

namespace Spec

/-- Points with doubles as coordinates and strictly increasing abscissas. -/
def Knots {K : Type} [_root_.Field K] [LinearOrder K] (pts : List (K × K)) : Prop :=
  (∀ p ∈ pts, IsDouble p.1 ∧ IsDouble p.2) ∧ ∀ (i : ℕ) p q, pts[i]? = some p → pts[i + 1]? = some q → p.1 < q.1

end Spec

open Spec (Knots)

theorem knots_tail {p : K × K} {l : List (K × K)} (h : Knots (p :: l)) : Knots l :=
  ⟨fun q hq => h.1 q (by simp [hq]), fun i a b ha hb => h.2 (i + 1) a b (by simpa using ha) (by simpa using hb)⟩

/-- Where the value of `np.interp` comes from: an end of the table, or a knot, or the formula inside an interval. -/
theorem fInterpFrom_cases (x : K) (p : K × K) (l : List (K × K)) (hk : Knots (p :: l)) (hx : p.1 ≤ x ∨ fInterpFrom x p l = p.2) :
    fInterpFrom x p l = p.2 ∨ (∃ q ∈ p :: l, fInterpFrom x p l = q.2) ∨
      ∃ (i : ℕ) (a b : K × K), (p :: l)[i]? = some a ∧ (p :: l)[i + 1]? = some b ∧ a.1 < x ∧ x < b.1 ∧ fInterpFrom x p l = fSeg a b x := by
  induction l generalizing p with
  | nil => exact Or.inl rfl
  | cons q l ih =>
    have hpq : p.1 < q.1 := hk.2 0 p q rfl rfl
    by_cases c : x < q.1
    · by_cases d : x ≤ p.1
      · left; unfold fInterpFrom; rw [if_pos c, if_pos d]
      · right; right
        refine ⟨0, p, q, rfl, rfl, lt_of_not_ge d, c, ?_⟩
        unfold fInterpFrom; rw [if_pos c, if_neg d]
    · have e : fInterpFrom x p (q :: l) = fInterpFrom x q l := by
        conv_lhs => unfold fInterpFrom
        rw [if_neg c]
      rw [e]
      rcases ih q (knots_tail hk) (Or.inl (not_lt.1 c)) with h | ⟨r, hr, h⟩ | ⟨i, a, b, h1, h2, h3⟩
      · exact Or.inr (Or.inl ⟨q, by simp, h⟩)
      · exact Or.inr (Or.inl ⟨r, List.mem_cons_of_mem _ hr, h⟩)
      · exact Or.inr (Or.inr ⟨i + 1, a, b, by simpa using h1, by simpa using h2, h3⟩)

theorem fInterp_cases (x : K) (pts : List (K × K)) (hk : Knots pts) (r : K) (h : fInterp pts x = .ok r) :
    (∃ q ∈ pts, r = q.2) ∨ ∃ (i : ℕ) (a b : K × K), pts[i]? = some a ∧ pts[i + 1]? = some b ∧ a.1 < x ∧ x < b.1 ∧ r = fSeg a b x := by
  cases pts with
  | nil => cases h
  | cons p l =>
    have h := (Except.ok.inj h).symm
    subst h
    by_cases c : p.1 ≤ x
    · rcases fInterpFrom_cases x p l hk (Or.inl c) with h | h | h
      · exact Or.inl ⟨p, by simp, h⟩
      · exact Or.inl h
      · exact Or.inr h
    · left
      refine ⟨p, by simp, ?_⟩
      cases l with
      | nil => rfl
      | cons q l =>
        have hpq : p.1 < q.1 := hk.2 0 p q rfl rfl
        have c := lt_of_not_ge c
        unfold fInterpFrom; rw [if_pos (c.trans hpq), if_pos c.le]

/-- C150: the points at which a curve is sampled start and end exactly at the given limits, whatever the number of points. -/
theorem C150_ends (a b : K) (n : ℕ) (ha : IsDouble a) (p : K × K) (rest : List (K × K)) :
    ((fInterpolate a b (n + 2) (p :: rest)).map Prod.fst).length = n + 2 ∧
    ((fInterpolate a b (n + 2) (p :: rest)).map Prod.fst)[0]? = some a ∧
    ((fInterpolate a b (n + 2) (p :: rest)).map Prod.fst)[n + 1]? = some b := by
  have e : (fInterpolate a b (n + 2) (p :: rest)).map Prod.fst = fLinspace a b (n + 2) := by
    unfold fInterpolate
    rw [List.map_map]
    exact List.map_id _
  rw [e]
  unfold fLinspace
  refine ⟨by simp, ?_, ?_⟩
  · rw [List.getElem?_map, List.getElem?_range (by omega)]
    simp only [Option.map_some]
    rw [if_neg (by omega)]
    have h0 : fl (0 : K) = 0 := fl_of_double double_zero
    simp only [fadd, fmul, Nat.cast_zero, zero_mul, h0, zero_add, fl_of_double ha]
  · rw [List.getElem?_map, List.getElem?_range (by omega)]
    simp

/-- C150, partial: interpolating a curve whose values never increase (such as G/Gmax) never gives more than the greatest value;
interpolating one whose values never decrease (such as damping) never gives less than the least value.  Missing: the other
bound (`C150_below_zero_violated`). -/
theorem C150_one_side_partial (pts : List (K × K)) (hk : Knots pts) (x r : K) (h : fInterp pts x = .ok r) :
    (∀ hi, (∀ p ∈ pts, p.2 ≤ hi) → (∀ (i : ℕ) p q, pts[i]? = some p → pts[i + 1]? = some q → q.2 ≤ p.2) → r ≤ hi) ∧
    (∀ lo, (∀ p ∈ pts, lo ≤ p.2) → (∀ (i : ℕ) p q, pts[i]? = some p → pts[i + 1]? = some q → p.2 ≤ q.2) → lo ≤ r) := by
  rcases fInterp_cases x pts hk r h with ⟨q, hq, rfl⟩ | ⟨i, a, b, h1, h2, h3, h4, rfl⟩
  · exact ⟨fun hi hb _ => hb q hq, fun lo hb _ => hb q hq⟩
  · have ha := List.mem_of_getElem? h1
    obtain ⟨l1, l2⟩ := fSeg_left a b x (hk.1 a ha).2 (hk.2 i a b h1 h2) h3.le
    exact ⟨fun hi hb hm => (l2 (hm i a b h1 h2)).trans (hb a ha), fun lo hb hm => (hb a ha).trans (l1 (hm i a b h1 h2))⟩

theorem fl_factor_abs {x : K} (h : (2 : K) ^ (-1022 : ℤ) ≤ |x|) : ∃ e : K, |e| ≤ 1 / 2 ^ 53 ∧ fl x = x * (1 + e) := by
  rcases le_total 0 x with hx | hx
  · rw [abs_of_nonneg hx] at h; exact fl_factor h
  · rw [abs_of_nonpos hx] at h
    obtain ⟨e, h1, h2⟩ := fl_factor h
    refine ⟨e, h1, ?_⟩
    rw [fl_neg] at h2; linarith

theorem fsub_factor {a b : K} (ha : IsDouble a) (hb : IsDouble b) : ∃ e : K, |e| ≤ 1 / 2 ^ 53 ∧ fsub a b = (a - b) * (1 + e) := by
  by_cases h : a - b = 0
  · exact ⟨0, by simp, by unfold fsub; rw [h, fl_zero]; simp⟩
  · refine ⟨(fl (a - b) - (a - b)) / (a - b), ?_, by unfold fsub; field_simp; ring⟩
    have := fl_rel_sub ha hb
    rw [abs_div, div_le_iff₀ (abs_pos.2 h), abs_sub_comm]
    linarith

/-- Five factors near one. -/
theorem five_factors {a b c d e u : K} (hu : 0 ≤ u) (hu2 : u ≤ 1 / 1000) (ha : |a| ≤ u) (hb : |b| ≤ u) (hc : |c| ≤ u) (hd : |d| ≤ u) (he : |e| ≤ u) :
    |(1 + b) * (1 + c) * (1 + d) * (1 + e) / (1 + a) - 1| ≤ 7 * u := by
  have h4 := four_factors hu (hu2.trans (by norm_num)) ha hb hc hd
  have e1 : (1 + b) * (1 + c) * (1 + d) * (1 + e) / (1 + a) = (1 + b) * (1 + c) * (1 + d) / (1 + a) * (1 + e) := by ring
  rw [e1]
  generalize (1 + b) * (1 + c) * (1 + d) / (1 + a) = X at *
  have hX : |X| ≤ 2 := by
    have := abs_le.1 h4
    rw [abs_le]; constructor <;> linarith
  rw [show X * (1 + e) - 1 = (X - 1) + X * e by ring]
  calc |X - 1 + X * e| ≤ |X - 1| + |X| * |e| := (abs_add_le _ _).trans (add_le_add (le_refl _) (le_of_eq (abs_mul _ _)))
    _ ≤ 5 * u + 2 * u := add_le_add h4 (mul_le_mul hX he (abs_nonneg _) (by norm_num))
    _ = 7 * u := by ring

/-- C150, partial: as long as nothing underflows, the interpolated value differs from the exact one on the line between the two
points by at most 9/2^53 of `|y0| + |y1 - y0|`; so a curve leaves the range of its values by no more than that.  Missing: that
it stays inside the range (`C150_below_zero_violated`). -/
theorem C150_error_partial (p q : K × K) (x : K) (hp : IsDouble p.1 ∧ IsDouble p.2) (hq : IsDouble q.1 ∧ IsDouble q.2) (hx : IsDouble x)
    (h1 : p.1 < x) (h2 : x < q.1)
    (n1 : (2 : K) ^ (-1022 : ℤ) ≤ |fsub q.2 p.2 / fsub q.1 p.1|)
    (n2 : (2 : K) ^ (-1022 : ℤ) ≤ |fdiv (fsub q.2 p.2) (fsub q.1 p.1) * fsub x p.1|) :
    |fSeg p q x - (p.2 + (q.2 - p.2) / (q.1 - p.1) * (x - p.1))| ≤ (|p.2| + |q.2 - p.2|) * (9 / 2 ^ 53) := by
  have h12 : 0 < q.1 - p.1 := by linarith
  obtain ⟨b, hb, eb⟩ := fsub_factor hq.2 hp.2
  obtain ⟨a, ha, ea⟩ := fsub_factor hq.1 hp.1
  obtain ⟨c, hc, ec⟩ := fsub_factor hx hp.1
  obtain ⟨d, hd, ed⟩ := fl_factor_abs n1
  obtain ⟨e, he, ee⟩ := fl_factor_abs n2
  have key := five_factors (u := (1 / 2 ^ 53 : K)) (by positivity) (by norm_num) ha hb hc hd he
  have ha1 : (1 + a) ≠ 0 := by
    have := abs_le.1 ha
    have u1 : (1 / 2 ^ 53 : K) < 1 := by rw [div_lt_one (by positivity)]; norm_num
    intro hz; linarith [this.1]
  have hM : fmul (fdiv (fsub q.2 p.2) (fsub q.1 p.1)) (fsub x p.1) =
      (q.2 - p.2) / (q.1 - p.1) * (x - p.1) * ((1 + b) * (1 + c) * (1 + d) * (1 + e) / (1 + a)) := by
    unfold fmul; rw [ee]; unfold fdiv; rw [ed, eb, ea, ec]; field_simp
  generalize (1 + b) * (1 + c) * (1 + d) * (1 + e) / (1 + a) = X at *
  have hTa : |(q.2 - p.2) / (q.1 - p.1) * (x - p.1)| ≤ |q.2 - p.2| := by
    rw [div_mul_eq_mul_div, mul_div_assoc, abs_mul]
    refine mul_le_of_le_one_right (abs_nonneg _) ?_
    rw [abs_of_nonneg (div_nonneg (by linarith) h12.le), div_le_one h12]; linarith
  generalize (q.2 - p.2) / (q.1 - p.1) * (x - p.1) = T at *
  unfold fSeg
  rw [hM]
  have hMd : IsDouble (T * X) := by rw [← hM]; exact fl_double _
  have hr := fl_rel_add hMd hp.2
  unfold fadd
  have hX : |T * X - T| ≤ |q.2 - p.2| * (7 * (1 / 2 ^ 53)) := by
    rw [show T * X - T = T * (X - 1) by ring, abs_mul]
    exact mul_le_mul hTa key (abs_nonneg _) (abs_nonneg _)
  generalize hD : |q.2 - p.2| = D at *
  have hD0 : 0 ≤ D := by rw [← hD]; exact abs_nonneg _
  have hu : (1 / 2 ^ 53 : K) ≤ 1 / 7 := by rw [div_le_div_iff₀ (by positivity) (by norm_num)]; norm_num
  have hsum : |T * X + p.2| ≤ 2 * (|p.2| + D) := by
    calc |T * X + p.2| = |(T * X - T) + T + p.2| := by congr 1; ring
      _ ≤ |T * X - T| + |T| + |p.2| := (abs_add_le _ _).trans (add_le_add (abs_add_le _ _) (le_refl _))
      _ ≤ D * (7 * (1 / 2 ^ 53)) + D + |p.2| := add_le_add (add_le_add hX hTa) (le_refl _)
      _ ≤ D * 1 + D + |p.2| := by
        refine add_le_add (add_le_add (mul_le_mul_of_nonneg_left (by linarith) hD0) (le_refl _)) (le_refl _)
      _ ≤ 2 * (|p.2| + D) := by linarith [abs_nonneg p.2]
  calc |fl (T * X + p.2) - (p.2 + T)| = |(fl (T * X + p.2) - (T * X + p.2)) + (T * X - T)| := by congr 1; ring
    _ ≤ |fl (T * X + p.2) - (T * X + p.2)| + |T * X - T| := abs_add_le _ _
    _ ≤ 2 * (|p.2| + D) / 2 ^ 53 + D * (7 * (1 / 2 ^ 53)) := by
      refine add_le_add ?_ hX
      rw [abs_sub_comm]
      exact hr.trans (div_le_div_of_nonneg_right hsum (by positivity))
    _ ≤ (|p.2| + D) * (9 / 2 ^ 53) := by
      have : (0 : K) ≤ |p.2| * (7 * (1 / 2 ^ 53)) := by positivity
      have e : (|p.2| + D) * (9 / 2 ^ 53) = 2 * (|p.2| + D) / 2 ^ 53 + D * (7 * (1 / 2 ^ 53)) + |p.2| * (7 * (1 / 2 ^ 53)) := by ring
      rw [e]; linarith

/-- A G/Gmax curve: 0.37 at 0.1 %, 0 at 0.46 % and at 1 %. -/
def steepCurve : List (ℚ × ℚ) := [(fl (1 / 10), fl (37 / 100)), (fl (46 / 100), 0), (1, 0)]

/-- C150, violated: this curve has values between 0 and 1 and is accepted as it is, but sampled at 11 strains from 0.1 % to 1 %
one of its values is negative, and the constructor of `GGmax_Curve` raises ValueError. -/
theorem C150_below_zero_violated :
    (mkCurve [steepCurve] 0 .ggmax .pct none true).1 = .ok (.view 0) ∧
    (mkCurve [steepCurve] 0 .ggmax .pct (some (fInterpolate (fl (1 / 10)) 1 11)) true).1 = .error .valueError ∧
    ∃ p ∈ fInterpolate (fl (1 / 10)) 1 11 steepCurve, p.2 < 0 := by
  refine ⟨?_, ?_, ?_⟩ <;> decide +kernel

/-- The same curve sampled at ten strains is accepted. -/
example : ∃ d, (mkCurve [steepCurve] 0 .ggmax .pct (some (fInterpolate (fl (1 / 10)) 1 10)) true).1 = .ok (.own d) :=
  ⟨fInterpolate (fl (1 / 10)) 1 10 steepCurve, by decide +kernel⟩

end Verif
