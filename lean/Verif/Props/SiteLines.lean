import Verif.Props.RaisesExt

/-!
C204: site factors between tabulated values.
-/

set_option linter.unusedSectionVars false
set_option linter.unusedVariables false

namespace Verif

namespace Spec

/-- The curve at fraction `t` of the way from curve `a` to curve `b`. -/
noncomputable def between (t : ℝ) (a b : List ℝ) : List ℝ := List.zipWith (fun x y => x + t * (y - x)) a b

end Spec

open Spec (maxZ1 CoveredPair InRange wsum IsWeights LinearGrid Available ShippedData curve shown corners cornerCurves between tabVs30 tabZ1 tabPGA)

/-- Sums of the weights on the upper faces of a cell. -/
theorem weight_sums {v₀ v₁ z₀ z₁ p₀ p₁ : ℕ} (hv : v₀ < v₁) (hz : z₀ < z₁) (hp : p₀ < p₁) {a1 a2 a3 a4 a5 a6 a7 a8 : ℝ} {q : ℝ × ℝ × ℝ}
    (hw : IsWeights [a1, a2, a3, a4, a5, a6, a7, a8] (corners v₀ v₁ z₀ z₁ p₀ p₁) q) (ta tb tc : ℝ)
    (h1 : q.1 = v₀ + ta * (v₁ - v₀)) (h2 : q.2.1 = z₀ + tb * (z₁ - z₀)) (h3 : q.2.2 = (p₀ + tc * (p₁ - p₀)) / 100) :
    (0 ≤ a1 ∧ 0 ≤ a2 ∧ 0 ≤ a3 ∧ 0 ≤ a4 ∧ 0 ≤ a5 ∧ 0 ≤ a6 ∧ 0 ≤ a7 ∧ 0 ≤ a8) ∧ a1 + a2 + a3 + a4 + a5 + a6 + a7 + a8 = 1 ∧
    a5 + a6 + a7 + a8 = ta ∧ a3 + a4 + a7 + a8 = tb ∧ a2 + a4 + a6 + a8 = tc := by
  obtain ⟨w1, w2, w3, w4, w5, w6⟩ := hw
  simp only [List.mem_cons, List.not_mem_nil, or_false, forall_eq_or_imp, forall_eq] at w2
  simp only [corners, wsum, List.map_cons, List.map_nil, List.zipWith_cons_cons, List.zipWith_nil_right, List.sum_cons, List.sum_nil,
    add_zero] at w3 w4 w5 w6
  have hv' : (v₁ : ℝ) - v₀ ≠ 0 := ne_of_gt (sub_pos.2 (by exact_mod_cast hv))
  have hz' : (z₁ : ℝ) - z₀ ≠ 0 := ne_of_gt (sub_pos.2 (by exact_mod_cast hz))
  have hp' : (p₁ : ℝ) - p₀ ≠ 0 := ne_of_gt (sub_pos.2 (by exact_mod_cast hp))
  refine ⟨w2, by linarith, ?_, ?_, ?_⟩
  · apply mul_right_cancel₀ hv'
    linear_combination w4 + h1 - (v₀ : ℝ) * w3
  · apply mul_right_cancel₀ hz'
    linear_combination w5 + h2 - (z₀ : ℝ) * w3
  · apply mul_right_cancel₀ hp'
    linear_combination 100 * w6 + 100 * h3 - (p₀ : ℝ) * w3

theorem edge_pga {a1 a2 a3 a4 a5 a6 a7 a8 t : ℝ} (a b : Bool)
    (n : 0 ≤ a1 ∧ 0 ≤ a2 ∧ 0 ≤ a3 ∧ 0 ≤ a4 ∧ 0 ≤ a5 ∧ 0 ≤ a6 ∧ 0 ≤ a7 ∧ 0 ≤ a8) (s : a1 + a2 + a3 + a4 + a5 + a6 + a7 + a8 = 1)
    (sv : a5 + a6 + a7 + a8 = if a then 1 else 0) (sz : a3 + a4 + a7 + a8 = if b then 1 else 0) (sp : a2 + a4 + a6 + a8 = t)
    (x₁ x₂ x₃ x₄ x₅ x₆ x₇ x₈ : ℝ) :
    wsum [a1, a2, a3, a4, a5, a6, a7, a8] [x₁, x₂, x₃, x₄, x₅, x₆, x₇, x₈] =
      if a then (if b then x₇ + t * (x₈ - x₇) else x₅ + t * (x₆ - x₅)) else (if b then x₃ + t * (x₄ - x₃) else x₁ + t * (x₂ - x₁)) := by
  obtain ⟨n1, n2, n3, n4, n5, n6, n7, n8⟩ := n
  simp only [wsum, List.zipWith_cons_cons, List.zipWith_nil_right, List.sum_cons, List.sum_nil]
  cases a <;> cases b <;> simp only [Bool.false_eq_true, if_false, if_true] at sv sz ⊢
  · obtain rfl : a3 = 0 := by linarith
    obtain rfl : a4 = 0 := by linarith
    obtain rfl : a5 = 0 := by linarith
    obtain rfl : a6 = 0 := by linarith
    obtain rfl : a7 = 0 := by linarith
    obtain rfl : a8 = 0 := by linarith
    linear_combination x₁ * s + (x₂ - x₁) * sp
  · obtain rfl : a1 = 0 := by linarith
    obtain rfl : a2 = 0 := by linarith
    obtain rfl : a5 = 0 := by linarith
    obtain rfl : a6 = 0 := by linarith
    obtain rfl : a7 = 0 := by linarith
    obtain rfl : a8 = 0 := by linarith
    linear_combination x₃ * s + (x₄ - x₃) * sp
  · obtain rfl : a1 = 0 := by linarith
    obtain rfl : a2 = 0 := by linarith
    obtain rfl : a3 = 0 := by linarith
    obtain rfl : a4 = 0 := by linarith
    obtain rfl : a7 = 0 := by linarith
    obtain rfl : a8 = 0 := by linarith
    linear_combination x₅ * s + (x₆ - x₅) * sp
  · obtain rfl : a1 = 0 := by linarith
    obtain rfl : a2 = 0 := by linarith
    obtain rfl : a3 = 0 := by linarith
    obtain rfl : a4 = 0 := by linarith
    obtain rfl : a5 = 0 := by linarith
    obtain rfl : a6 = 0 := by linarith
    linear_combination x₇ * s + (x₈ - x₇) * sp

/-- The eight weights with the coordinates `v`, `z`, `p` renamed. -/
theorem wsum_swap_zp (a1 a2 a3 a4 a5 a6 a7 a8 x₁ x₂ x₃ x₄ x₅ x₆ x₇ x₈ : ℝ) :
    wsum [a1, a2, a3, a4, a5, a6, a7, a8] [x₁, x₂, x₃, x₄, x₅, x₆, x₇, x₈] =
      wsum [a1, a3, a2, a4, a5, a7, a6, a8] [x₁, x₃, x₂, x₄, x₅, x₇, x₆, x₈] := by
  simp only [wsum, List.zipWith_cons_cons, List.zipWith_nil_right, List.sum_cons, List.sum_nil]; ring

theorem wsum_swap_vp (a1 a2 a3 a4 a5 a6 a7 a8 x₁ x₂ x₃ x₄ x₅ x₆ x₇ x₈ : ℝ) :
    wsum [a1, a2, a3, a4, a5, a6, a7, a8] [x₁, x₂, x₃, x₄, x₅, x₆, x₇, x₈] =
      wsum [a1, a5, a3, a7, a2, a6, a4, a8] [x₁, x₅, x₃, x₇, x₂, x₆, x₄, x₈] := by
  simp only [wsum, List.zipWith_cons_cons, List.zipWith_nil_right, List.sum_cons, List.sum_nil]; ring

/-- Two different intervals of a grid have no common inner point. -/
theorem grid_intervals :
    (∀ i < 16, ∀ k < 16, i ≠ k → vs30Grid.getD (i + 1) 0 ≤ vs30Grid.getD k 0 ∨ vs30Grid.getD (k + 1) 0 ≤ vs30Grid.getD i 0) ∧
    (∀ i < 9, ∀ k < 9, i ≠ k → z1Grid.getD (i + 1) 0 ≤ z1Grid.getD k 0 ∨ z1Grid.getD (k + 1) 0 ≤ z1Grid.getD i 0) ∧
    (∀ i < 10, ∀ k < 10, i ≠ k → pgaGrid.getD (i + 1) 0 ≤ pgaGrid.getD k 0 ∨ pgaGrid.getD (k + 1) 0 ≤ pgaGrid.getD i 0) := by
  decide +kernel

theorem grid_steps :
    (∀ i < 16, vs30Grid.getD i 0 < vs30Grid.getD (i + 1) 0) ∧ (∀ i < 9, z1Grid.getD i 0 < z1Grid.getD (i + 1) 0) ∧
    (∀ i < 10, pgaGrid.getD i 0 < pgaGrid.getD (i + 1) 0) := by decide +kernel

theorem getD_of_some {l : List ℕ} {i n : ℕ} (h : l[i]? = some n) : l.getD i 0 = n := by
  rw [List.getD_eq_getElem?_getD, h]; rfl

theorem between_zero {a b : List ℝ} (h : a.length = b.length) : between 0 a b = a := by
  unfold between
  apply List.ext_getElem (by simp [h])
  intro i h1 h2
  rw [List.getElem_zipWith, zero_mul, add_zero]

theorem between_one {a b : List ℝ} (h : a.length = b.length) : between 1 a b = b := by
  unfold between
  apply List.ext_getElem (by simp [h])
  intro i h1 h2
  rw [List.getElem_zipWith]; ring

theorem between_of {a b : List ℝ} {n : ℕ} {f : ℕ → ℝ} {t : ℝ} (ha : a.length = n) (hb : b.length = n)
    (hf : ∀ c, f c = a.getD c 0 + t * (b.getD c 0 - a.getD c 0)) : (List.range n).map f = between t a b := by
  unfold between
  apply List.ext_getElem (by simp [ha, hb])
  intro i h1 h2
  have hi : i < n := by simpa using h1
  rw [List.getElem_map, List.getElem_range, List.getElem_zipWith, hf, List.getD_eq_getElem?_getD, List.getD_eq_getElem?_getD,
    List.getElem?_eq_getElem (by omega), List.getElem?_eq_getElem (by omega)]
  rfl

variable {d : SfData} {g : GridFun} {ax : SfKind → List ℝ} {kind : SfKind} {m : SfMethod}

/-- One end of an interval, or a fraction of it. -/
theorem end_or_other {lo hi : ℕ} {x : ℕ} (h : x = lo ∨ x = hi) (hlt : lo < hi) :
    ∃ b : Bool, x = (if b then hi else lo) ∧ (x : ℝ) = lo + (if b then 1 else 0) * ((hi : ℝ) - lo) := by
  rcases h with rfl | rfl
  · exact ⟨false, rfl, by simp⟩
  · exact ⟨true, rfl, by simp⟩

/-- Lengths of the tabulated curves. -/
theorem curve_length (hd : ShippedData d ax) (hA : Available kind m) {v z k : ℕ} (hs : shippedPair v z = true) (hk : k < 11) :
    (curve d kind m v z k).length = (ax kind).length := by
  obtain ⟨rows, h1, h2, h3, -⟩ := hd.files kind m v z hA hs
  have hk' : k < rows.length := by rw [h2]; exact hk
  unfold curve
  rw [h1, Option.getD_some, List.getD_eq_getElem?_getD, List.getElem?_eq_getElem hk', Option.getD_some]
  exact h3 _ (List.getElem_mem hk')

/-- C204. With Vs30 and z1 tabulated, the factors change linearly with PGA between two neighbouring tabulated values. -/
theorem C204_pga (hd : ShippedData d ax) (hg : LinearGrid g) (hA : Available kind m) {v z k p p' : ℕ} (hv : v ∈ tabVs30) (hz : z ∈ tabZ1)
    (hk : tabPGA[k]? = some p) (hk' : tabPGA[k + 1]? = some p') {t : ℝ} (t0 : 0 < t) (t1 : t < 1) (hc : CoveredPair (v : ℝ) (z : ℝ)) :
    sfResults d g ⟨v, z, (p + t * (p' - p)) / 100⟩ kind m =
      .ok (shown kind (ax kind), shown kind (between t (curve d kind m v z k) (curve d kind m v z (k + 1)))) := by
  have hk10 : k + 1 < 11 := (List.getElem?_eq_some_iff.1 hk').1
  have gk : pgaGrid.getD k 0 = p := getD_of_some hk
  have gk' : pgaGrid.getD (k + 1) 0 = p' := getD_of_some hk'
  have hpp : p < p' := by have := grid_steps.2.2 k (by omega); rwa [gk, gk'] at this
  have hppr : (p : ℝ) < p' := by exact_mod_cast hpp
  have hr : InRange (v : ℝ) (z : ℝ) ((p + t * (p' - p)) / 100) := by
    have b1 : ∀ v ∈ vs30Grid, 175 ≤ v ∧ v ≤ 950 := by decide
    have b2 : ∀ v ∈ z1Grid, 8 ≤ v ∧ v ≤ 900 := by decide
    have b3 : ∀ v ∈ pgaGrid, 1 ≤ v ∧ v ≤ 150 := by decide
    obtain ⟨c1, c2⟩ := b1 v hv
    obtain ⟨c3, c4⟩ := b2 z hz
    have c5 : (1 : ℝ) ≤ p := by exact_mod_cast (b3 p (List.mem_of_getElem? hk)).1
    have c6 : (p' : ℝ) ≤ 150 := by exact_mod_cast (b3 p' (List.mem_of_getElem? hk')).2
    refine ⟨⟨by exact_mod_cast c1, by exact_mod_cast c2⟩, ⟨by exact_mod_cast c3, by exact_mod_cast c4⟩, ?_, ?_⟩ <;> nlinarith
  obtain ⟨i, j, l, v₀, v₁, z₀, z₁, p₀, p₁, w, hcell, hw, hl, he⟩ := C111_convex hd hg hA ⟨v, z, (p + t * (p' - p)) / 100⟩ hr hc
  rw [he]
  have hi : i + 1 < 17 := (List.getElem?_eq_some_iff.1 hcell.vi').1
  have hj : j + 1 < 10 := (List.getElem?_eq_some_iff.1 hcell.zj').1
  have hlk : l + 1 < 11 := (List.getElem?_eq_some_iff.1 hcell.pk').1
  obtain ⟨n1, n2, -⟩ := grid_neighbours
  have cv : (v₀ : ℝ) ≤ v ∧ (v : ℝ) ≤ v₁ := hcell.v_in
  have cz : (z₀ : ℝ) ≤ z ∧ (z : ℝ) ≤ z₁ := hcell.z_in
  have cp : (p₀ : ℝ) / 100 ≤ (p + t * (p' - p)) / 100 ∧ (p + t * (p' - p)) / 100 ≤ (p₁ : ℝ) / 100 := hcell.p_in
  have m1 := n1 i (by omega) v hv
  rw [getD_of_some hcell.vi, getD_of_some hcell.vi'] at m1
  have m2 := n2 j (by omega) z hz
  rw [getD_of_some hcell.zj, getD_of_some hcell.zj'] at m2
  obtain ⟨a, ha, ha'⟩ := end_or_other (m1 (by exact_mod_cast cv.1) (by exact_mod_cast cv.2)) hcell.v_lt
  obtain ⟨b, hb, hb'⟩ := end_or_other (m2 (by exact_mod_cast cz.1) (by exact_mod_cast cz.2)) hcell.z_lt
  have hlk' : l = k := by
    by_contra hne
    have := grid_intervals.2.2 l (by omega) k (by omega) hne
    rw [gk, gk', getD_of_some hcell.pk, getD_of_some hcell.pk'] at this
    rcases this with h | h
    · have h' : (p₁ : ℝ) ≤ p := by exact_mod_cast h
      nlinarith [cp.2]
    · have h' : (p' : ℝ) ≤ p₀ := by exact_mod_cast h
      nlinarith [cp.1]
  subst hlk'
  have e0 : p₀ = p := by rw [← getD_of_some hcell.pk]; exact gk
  have e1 : p₁ = p' := by rw [← getD_of_some hcell.pk']; exact gk'
  subst e0 e1
  obtain ⟨a1, a2, a3, a4, a5, a6, a7, a8, rfl⟩ := eight_weights (hw.1.trans (by simp [corners]))
  obtain ⟨nn, s, sv, sz, sp⟩ := weight_sums hcell.v_lt hcell.z_lt hcell.p_lt hw _ _ _ ha' hb' rfl
  have hship : shippedPair v z = true := by
    apply hcell.files
    · rw [ha]; cases a <;> simp
    · rw [hb]; cases b <;> simp
  rw [between_of (curve_length hd hA hship (k := l) (by omega)) (curve_length hd hA hship (k := l + 1) (by omega))]
  intro c
  simp only [cornerCurves, List.map_cons, List.map_nil]
  rw [edge_pga a b nn s sv sz sp]
  cases a <;> cases b <;> simp only [Bool.false_eq_true, if_false, if_true] at ha hb ⊢ <;> rw [ha, hb]

/-- C204. With Vs30 and PGA tabulated, the factors change linearly with z1 between two neighbouring tabulated values. -/
theorem C204_z1 (hd : ShippedData d ax) (hg : LinearGrid g) (hA : Available kind m) {v j z z' k p : ℕ} (hv : v ∈ tabVs30)
    (hk : tabPGA[k]? = some p) (hj : tabZ1[j]? = some z) (hj' : tabZ1[j + 1]? = some z') {t : ℝ} (t0 : 0 < t) (t1 : t < 1)
    (hc : CoveredPair (v : ℝ) (z + t * (z' - z))) :
    sfResults d g ⟨v, z + t * (z' - z), (p : ℝ) / 100⟩ kind m =
      .ok (shown kind (ax kind), shown kind (between t (curve d kind m v z k) (curve d kind m v z' k))) := by
  have hj10 : j + 1 < 10 := (List.getElem?_eq_some_iff.1 hj').1
  have hk11 : k < 11 := (List.getElem?_eq_some_iff.1 hk).1
  have gj : z1Grid.getD j 0 = z := getD_of_some hj
  have gj' : z1Grid.getD (j + 1) 0 = z' := getD_of_some hj'
  have gk : pgaGrid.getD k 0 = p := getD_of_some hk
  have hzz : z < z' := by have := grid_steps.2.1 j (by omega); rwa [gj, gj'] at this
  have hzzr : (z : ℝ) < z' := by exact_mod_cast hzz
  have hr : InRange (v : ℝ) (z + t * (z' - z)) ((p : ℝ) / 100) := by
    have b1 : ∀ v ∈ vs30Grid, 175 ≤ v ∧ v ≤ 950 := by decide
    have b2 : ∀ v ∈ z1Grid, 8 ≤ v ∧ v ≤ 900 := by decide
    have b3 : ∀ v ∈ pgaGrid, 1 ≤ v ∧ v ≤ 150 := by decide
    obtain ⟨c1, c2⟩ := b1 v hv
    have c3 : (8 : ℝ) ≤ z := by exact_mod_cast (b2 z (List.mem_of_getElem? hj)).1
    have c4 : (z' : ℝ) ≤ 900 := by exact_mod_cast (b2 z' (List.mem_of_getElem? hj')).2
    have c5 : (1 : ℝ) ≤ p := by exact_mod_cast (b3 p (List.mem_of_getElem? hk)).1
    have c6 : (p : ℝ) ≤ 150 := by exact_mod_cast (b3 p (List.mem_of_getElem? hk)).2
    refine ⟨⟨by exact_mod_cast c1, by exact_mod_cast c2⟩, ⟨?_, ?_⟩, ?_, ?_⟩ <;> nlinarith
  obtain ⟨i, jj, l, v₀, v₁, z₀, z₁, p₀, p₁, w, hcell, hw, hl, he⟩ := C111_convex hd hg hA ⟨v, z + t * (z' - z), (p : ℝ) / 100⟩ hr hc
  rw [he]
  have hi : i + 1 < 17 := (List.getElem?_eq_some_iff.1 hcell.vi').1
  have hjj : jj + 1 < 10 := (List.getElem?_eq_some_iff.1 hcell.zj').1
  have hlk : l + 1 < 11 := (List.getElem?_eq_some_iff.1 hcell.pk').1
  obtain ⟨n1, -, n3⟩ := grid_neighbours
  have cv : (v₀ : ℝ) ≤ v ∧ (v : ℝ) ≤ v₁ := hcell.v_in
  have cz : (z₀ : ℝ) ≤ z + t * (z' - z) ∧ (z + t * (z' - z) : ℝ) ≤ z₁ := hcell.z_in
  have cp : (p₀ : ℝ) / 100 ≤ (p : ℝ) / 100 ∧ (p : ℝ) / 100 ≤ (p₁ : ℝ) / 100 := hcell.p_in
  have m1 := n1 i (by omega) v hv
  rw [getD_of_some hcell.vi, getD_of_some hcell.vi'] at m1
  have m3 := n3 l (by omega) k hk11
  rw [getD_of_some hcell.pk, getD_of_some hcell.pk', gk] at m3
  have hp1 : (p₀ : ℝ) ≤ p := by linarith [cp.1]
  have hp2 : (p : ℝ) ≤ p₁ := by linarith [cp.2]
  have m3 := m3 (by exact_mod_cast hp1) (by exact_mod_cast hp2)
  have m3p : p = p₀ ∨ p = p₁ := by
    rcases m3 with h | h
    · left; rw [← gk, h]; exact getD_of_some hcell.pk
    · right; rw [← gk, h]; exact getD_of_some hcell.pk'
  obtain ⟨a, ha, ha'⟩ := end_or_other (m1 (by exact_mod_cast cv.1) (by exact_mod_cast cv.2)) hcell.v_lt
  obtain ⟨b, hb, hb'⟩ := end_or_other m3p hcell.p_lt
  have hkb : k = if b then l + 1 else l := by
    rcases m3 with h | h
    · cases b
      · exact h
      · exfalso
        have := hcell.p_lt
        have e : p = p₀ := by rw [← gk, h]; exact getD_of_some hcell.pk
        simp at hb; omega
    · cases b
      · exfalso
        have := hcell.p_lt
        have e : p = p₁ := by rw [← gk, h]; exact getD_of_some hcell.pk'
        simp at hb; omega
      · exact h
  have hje : jj = j := by
    by_contra hne
    have := grid_intervals.2.1 jj (by omega) j (by omega) hne
    rw [gj, gj', getD_of_some hcell.zj, getD_of_some hcell.zj'] at this
    rcases this with h | h
    · have h' : (z₁ : ℝ) ≤ z := by exact_mod_cast h
      nlinarith [cz.2]
    · have h' : (z' : ℝ) ≤ z₀ := by exact_mod_cast h
      nlinarith [cz.1]
  subst hje
  have e0 : z₀ = z := by rw [← getD_of_some hcell.zj]; exact gj
  have e1 : z₁ = z' := by rw [← getD_of_some hcell.zj']; exact gj'
  subst e0 e1
  obtain ⟨a1, a2, a3, a4, a5, a6, a7, a8, rfl⟩ := eight_weights (hw.1.trans (by simp [corners]))
  obtain ⟨⟨q1, q2, q3, q4, q5, q6, q7, q8⟩, s, sv, sz, sp⟩ := weight_sums hcell.v_lt hcell.z_lt hcell.p_lt hw _ _ _ ha' rfl (by rw [hb'])
  have hs0 : shippedPair v z₀ = true := hcell.files v (by rw [ha]; cases a <;> simp) z₀ (by simp)
  have hs1 : shippedPair v z₁ = true := hcell.files v (by rw [ha]; cases a <;> simp) z₁ (by simp)
  rw [between_of (curve_length hd hA hs0 hk11) (curve_length hd hA hs1 hk11)]
  intro c
  simp only [cornerCurves, List.map_cons, List.map_nil]
  rw [wsum_swap_zp, edge_pga a b ⟨q1, q3, q2, q4, q5, q7, q6, q8⟩ (by linarith) (by linarith) (by linarith) (t := t) (by linarith)]
  cases a <;> cases b <;> simp only [Bool.false_eq_true, if_false, if_true] at ha hkb ⊢ <;> rw [ha, hkb]

/-- C204. With z1 and PGA tabulated, the factors change linearly with Vs30 between two neighbouring tabulated values. -/
theorem C204_vs30 (hd : ShippedData d ax) (hg : LinearGrid g) (hA : Available kind m) {i v v' z k p : ℕ} (hz : z ∈ tabZ1)
    (hk : tabPGA[k]? = some p) (hi : tabVs30[i]? = some v) (hi' : tabVs30[i + 1]? = some v') {t : ℝ} (t0 : 0 < t) (t1 : t < 1)
    (hc : CoveredPair ((v : ℝ) + t * (v' - v)) (z : ℝ)) :
    sfResults d g ⟨v + t * (v' - v), z, (p : ℝ) / 100⟩ kind m =
      .ok (shown kind (ax kind), shown kind (between t (curve d kind m v z k) (curve d kind m v' z k))) := by
  have hi17 : i + 1 < 17 := (List.getElem?_eq_some_iff.1 hi').1
  have hk11 : k < 11 := (List.getElem?_eq_some_iff.1 hk).1
  have gi : vs30Grid.getD i 0 = v := getD_of_some hi
  have gi' : vs30Grid.getD (i + 1) 0 = v' := getD_of_some hi'
  have gk : pgaGrid.getD k 0 = p := getD_of_some hk
  have hvv : v < v' := by have := grid_steps.1 i (by omega); rwa [gi, gi'] at this
  have hvvr : (v : ℝ) < v' := by exact_mod_cast hvv
  have hr : InRange ((v : ℝ) + t * (v' - v)) (z : ℝ) ((p : ℝ) / 100) := by
    have b1 : ∀ v ∈ vs30Grid, 175 ≤ v ∧ v ≤ 950 := by decide
    have b2 : ∀ v ∈ z1Grid, 8 ≤ v ∧ v ≤ 900 := by decide
    have b3 : ∀ v ∈ pgaGrid, 1 ≤ v ∧ v ≤ 150 := by decide
    obtain ⟨c1, c2⟩ := b2 z hz
    have c3 : (175 : ℝ) ≤ v := by exact_mod_cast (b1 v (List.mem_of_getElem? hi)).1
    have c4 : (v' : ℝ) ≤ 950 := by exact_mod_cast (b1 v' (List.mem_of_getElem? hi')).2
    have c5 : (1 : ℝ) ≤ p := by exact_mod_cast (b3 p (List.mem_of_getElem? hk)).1
    have c6 : (p : ℝ) ≤ 150 := by exact_mod_cast (b3 p (List.mem_of_getElem? hk)).2
    refine ⟨⟨?_, ?_⟩, ⟨by exact_mod_cast c1, by exact_mod_cast c2⟩, ?_, ?_⟩ <;> nlinarith
  obtain ⟨ii, j, l, v₀, v₁, z₀, z₁, p₀, p₁, w, hcell, hw, hl, he⟩ := C111_convex hd hg hA ⟨v + t * (v' - v), z, (p : ℝ) / 100⟩ hr hc
  rw [he]
  have hii : ii + 1 < 17 := (List.getElem?_eq_some_iff.1 hcell.vi').1
  have hj : j + 1 < 10 := (List.getElem?_eq_some_iff.1 hcell.zj').1
  have hlk : l + 1 < 11 := (List.getElem?_eq_some_iff.1 hcell.pk').1
  obtain ⟨-, n2, n3⟩ := grid_neighbours
  have cv : (v₀ : ℝ) ≤ v + t * (v' - v) ∧ (v + t * (v' - v) : ℝ) ≤ v₁ := hcell.v_in
  have cz : (z₀ : ℝ) ≤ z ∧ (z : ℝ) ≤ z₁ := hcell.z_in
  have cp : (p₀ : ℝ) / 100 ≤ (p : ℝ) / 100 ∧ (p : ℝ) / 100 ≤ (p₁ : ℝ) / 100 := hcell.p_in
  have m2 := n2 j (by omega) z hz
  rw [getD_of_some hcell.zj, getD_of_some hcell.zj'] at m2
  have m3 := n3 l (by omega) k hk11
  rw [getD_of_some hcell.pk, getD_of_some hcell.pk', gk] at m3
  have hp1 : (p₀ : ℝ) ≤ p := by linarith [cp.1]
  have hp2 : (p : ℝ) ≤ p₁ := by linarith [cp.2]
  have m3 := m3 (by exact_mod_cast hp1) (by exact_mod_cast hp2)
  have m3p : p = p₀ ∨ p = p₁ := by
    rcases m3 with h | h
    · left; rw [← gk, h]; exact getD_of_some hcell.pk
    · right; rw [← gk, h]; exact getD_of_some hcell.pk'
  obtain ⟨a, ha, ha'⟩ := end_or_other m3p hcell.p_lt
  obtain ⟨b, hb, hb'⟩ := end_or_other (m2 (by exact_mod_cast cz.1) (by exact_mod_cast cz.2)) hcell.z_lt
  have hka : k = if a then l + 1 else l := by
    rcases m3 with h | h
    · cases a
      · exact h
      · exfalso
        have := hcell.p_lt
        have e : p = p₀ := by rw [← gk, h]; exact getD_of_some hcell.pk
        simp at ha; omega
    · cases a
      · exfalso
        have := hcell.p_lt
        have e : p = p₁ := by rw [← gk, h]; exact getD_of_some hcell.pk'
        simp at ha; omega
      · exact h
  have hie : ii = i := by
    by_contra hne
    have := grid_intervals.1 ii (by omega) i (by omega) hne
    rw [gi, gi', getD_of_some hcell.vi, getD_of_some hcell.vi'] at this
    rcases this with h | h
    · have h' : (v₁ : ℝ) ≤ v := by exact_mod_cast h
      nlinarith [cv.2]
    · have h' : (v' : ℝ) ≤ v₀ := by exact_mod_cast h
      nlinarith [cv.1]
  subst hie
  have e0 : v₀ = v := by rw [← getD_of_some hcell.vi]; exact gi
  have e1 : v₁ = v' := by rw [← getD_of_some hcell.vi']; exact gi'
  subst e0 e1
  obtain ⟨a1, a2, a3, a4, a5, a6, a7, a8, rfl⟩ := eight_weights (hw.1.trans (by simp [corners]))
  obtain ⟨⟨q1, q2, q3, q4, q5, q6, q7, q8⟩, s, sv, sz, sp⟩ := weight_sums hcell.v_lt hcell.z_lt hcell.p_lt hw _ _ _ rfl hb' (by rw [ha'])
  have hs0 : shippedPair v₀ z = true := hcell.files v₀ (by simp) z (by rw [hb]; cases b <;> simp)
  have hs1 : shippedPair v₁ z = true := hcell.files v₁ (by simp) z (by rw [hb]; cases b <;> simp)
  rw [between_of (curve_length hd hA hs0 hk11) (curve_length hd hA hs1 hk11)]
  intro c
  simp only [cornerCurves, List.map_cons, List.map_nil]
  rw [wsum_swap_vp, edge_pga a b ⟨q1, q5, q3, q7, q2, q6, q4, q8⟩ (by linarith) (by linarith) (by linarith) (t := t) (by linarith)]
  cases a <;> cases b <;> simp only [Bool.false_eq_true, if_false, if_true] at hb hka ⊢ <;> rw [hb, hka]

/-- C204. Along a grid line the factors have no jumps: towards either end of an interval they tend to the tabulated curve there, which is
what is returned there (`C111_tabulated`). -/
theorem C204_ends (hd : ShippedData d ax) (hA : Available kind m) {v z k v' z' k' : ℕ} (h : shippedPair v z = true) (h' : shippedPair v' z' = true)
    (hk : k < 11) (hk' : k' < 11) :
    between 0 (curve d kind m v z k) (curve d kind m v' z' k') = curve d kind m v z k ∧
    between 1 (curve d kind m v z k) (curve d kind m v' z' k') = curve d kind m v' z' k' ∧
    ∀ (t : ℝ) (c : ℕ) x y b, (curve d kind m v z k)[c]? = some x → (curve d kind m v' z' k')[c]? = some y →
      (between t (curve d kind m v z k) (curve d kind m v' z' k'))[c]? = some b → |b - x| = |t| * |y - x| ∧ |b - y| = |1 - t| * |y - x| := by
  have e := (curve_length hd hA h hk).trans (curve_length hd hA h' hk').symm
  refine ⟨between_zero e, between_one e, ?_⟩
  intro t c x y b hx hy hb
  unfold between at hb
  rw [List.getElem?_zipWith, hx, hy] at hb
  simp only [Option.some.injEq] at hb
  subst hb
  constructor
  · rw [← abs_mul]; congr 1; ring
  · rw [← abs_mul, abs_sub_comm]; congr 1; ring

/-- Half way between the tabulated accelerations 0.2 g and 0.3 g. -/
example (hd : ShippedData d ax) (hg : LinearGrid g) :
    sfResults d g ⟨300, 75, 25 / 100⟩ .fs .nlHH =
      .ok (shown .fs (ax .fs), shown .fs (between (1 / 2) (curve d .fs .nlHH 300 75 3) (curve d .fs .nlHH 300 75 4))) := by
  have := C204_pga (kind := .fs) (m := .nlHH) hd hg (Or.inl rfl) (v := 300) (z := 75) (k := 3) (p := 20) (p' := 30) (by decide) (by decide) (by decide) (by decide)
    (t := 1 / 2) (by norm_num) (by norm_num) (Or.inl (by norm_num))
  convert this using 2
  norm_num

end Verif
