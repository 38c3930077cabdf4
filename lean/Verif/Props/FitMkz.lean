import Verif.Model.FitMkz
import Verif.Props.CalibCurves
import Verif.Props.CurveSets
import Verif.Props.Soil

set_option linter.unusedSectionVars false
set_option linter.unusedVariables false

/-!
Property C153: the results of `fit_MKZ`.
-/

namespace Verif

open Spec

namespace Spec

/-- The MKZ curve: G/Gmax at a strain (unit 1). -/
noncomputable def mkzCurve (gammaRef beta s x : ℝ) : ℝ := 1 / (1 + beta * (x / gammaRef) ^ s)

/-- Parameters inside the bounds of the fit. -/
def MkzBounds (gammaRef beta s : ℝ) : Prop := 0 < gammaRef ∧ gammaRef ≤ 0.1 ∧ 0.2 ≤ beta ∧ beta ≤ 1.8 ∧ 0.6 ≤ s ∧ s ≤ 0.999

end Spec

open Spec (mkzCurve MkzBounds)

theorem mkzStrains_props : mkzStrains.length = 109 ∧ mkzStrains.head? = some (1 / 10 ^ 6) ∧ mkzStrains.getLast? = some (1 / 10) ∧
    (∀ x ∈ mkzStrains, 0 < x) ∧ mkzStrains.Pairwise (· < ·) := by
  obtain ⟨h1, h2, h3, h4, h5⟩ := geomspace_props (1 / 10 ^ 6) (1 / 10) 109 (by norm_num) (by norm_num) (by norm_num)
  exact ⟨h1, h2, h3, fun x hx => lt_of_lt_of_le (by norm_num) (h4 x hx).1, h5 (by norm_num)⟩

theorem fittedGG_ok (ref beta s : ℝ) (hb : MkzBounds ref beta s) :
    fittedGG (ref, beta, s) = .ok (mkzStrains.map (mkzCurve ref beta s)) := by
  obtain ⟨h1, _, _, h4, _⟩ := mkzStrains_props
  unfold fittedGG
  simp only [if_neg hb.1.ne']
  revert h1 h4
  generalize mkzStrains = l
  intro h1 h4
  cases l with
  | nil => simp at h1
  | cons x xs =>
    have hx : ∀ y ∈ x :: xs, tauMKZ ref beta s 1 y / y / 1 = mkzCurve ref beta s y := by
      intro y hy
      have h0 := h4 y hy
      unfold tauMKZ mkzCurve
      rw [abs_of_pos h0]
      field_simp
    unfold calcGGmax
    simp only [List.map_cons]
    rw [if_neg (h4 x (by simp)).ne', if_neg (by simp), if_neg]
    · congr 1
      have : ∀ l : List ℝ, (∀ y ∈ l, tauMKZ ref beta s 1 y / y / 1 = mkzCurve ref beta s y) →
          List.zipWith (fun s e => s / e / 1) (l.map fun g => tauMKZ ref beta s 1 g) l = l.map (mkzCurve ref beta s) := by
        intro l hl
        induction l with
        | nil => rfl
        | cons a l ih =>
          simp only [List.map_cons, List.zipWith_cons_cons]
          rw [hl a (by simp), ih (fun y hy => hl y (by simp [hy]))]
      exact this (x :: xs) hx
    · rintro (h | h)
      · exact lt_irrefl _ (h4 0 (by simp [h]))
      · norm_num at h

theorem mkzCurve_anti {ref beta s x y : ℝ} (hb : MkzBounds ref beta s) (hx : 0 < x) (hxy : x < y) :
    mkzCurve ref beta s y < mkzCurve ref beta s x ∧ 0 < mkzCurve ref beta s x ∧ mkzCurve ref beta s x < 1 := by
  obtain ⟨h1, _, h3, _, h5, _⟩ := hb
  have hs : 0 < s := by linarith
  have hbp : 0 < beta := by linarith
  have a : 0 < (x / ref) ^ s := Real.rpow_pos_of_pos (div_pos hx h1) _
  have b : (x / ref) ^ s < (y / ref) ^ s := Real.rpow_lt_rpow (div_pos hx h1).le (div_lt_div_of_pos_right hxy h1) hs
  unfold mkzCurve
  refine ⟨?_, by positivity, ?_⟩
  · refine one_div_lt_one_div_of_lt (by positivity) ?_
    have := mul_lt_mul_of_pos_left b hbp
    linarith
  · rw [div_lt_one (by positivity)]
    have := mul_pos hbp a
    linarith

theorem fourCols {α β : Type} (f g h k : α → β) (l : List α) : ∀ (j t : ℕ), t < 4 →
    (l.flatMap fun a => [f a, g a, h a, k a])[j * 4 + t]? = (l[j]?).bind fun a => [f a, g a, h a, k a][t]? := by
  induction l with
  | nil => intro j t _; simp
  | cons a l ih =>
    intro j t ht
    rw [List.flatMap_cons]
    cases j with
    | zero =>
      rw [List.getElem?_append_left (by simp; omega)]
      simp
    | succ j =>
      rw [List.getElem?_append_right (by simp; omega)]
      simp only [List.length_cons, List.length_nil, List.getElem?_cons_succ]
      rw [show (j + 1) * 4 + t - (0 + 1 + 1 + 1 + 1) = j * 4 + t by omega]
      exact ih j t ht

theorem fitMkzOut_eq (cf : CurveFit) (m : CMat ℝ) (n : ℕ) (hn : m.cols.length / 4 = n) (ps : List (ℝ × ℝ × ℝ)) (hp : fitMKZ cf m = .ok ps)
    (hb : ∀ p ∈ ps, MkzBounds p.1 p.2.1 p.2.2) :
    fitMkzOut cf m = .ok (ps.map (fun p => [p.1, 0, p.2.2, p.2.1]),
        ⟨109, ps.flatMap (fun p => [mkzStrains.map (· * 100), mkzStrains.map (mkzCurve p.1 p.2.1 p.2.2), mkzStrains.map (· * 100),
          List.replicate 109 0]) ++ List.replicate (m.cols.length % 4) (List.replicate 109 0)⟩) := by
  have hg : ps.mapM fittedGG = .ok (ps.map fun p => mkzStrains.map (mkzCurve p.1 p.2.1 p.2.2)) := by
    clear hp
    induction ps with
    | nil => rfl
    | cons p ps ih =>
      rw [List.mapM_cons, fittedGG_ok _ _ _ (hb p (by simp)), ih (fun q hq => hb q (by simp [hq]))]
      rfl
  unfold fitMkzOut
  rw [hp]
  simp only [hg]
  congr 3
  rw [List.flatMap_map]
  simp

theorem mapM_ext_mem {α β : Type} (f g : α → Except PyErr β) (l : List α) (h : ∀ a ∈ l, f a = g a) : l.mapM f = l.mapM g := by
  induction l with
  | nil => rfl
  | cons a l ih => rw [List.mapM_cons, List.mapM_cons, h a (by simp), ih (fun b hb => h b (by simp [hb]))]

/-- The fit stays inside its bounds and succeeds on every material. -/
def Spec.FitsAll (cf : CurveFit) (m : CMat ℝ) : Prop :=
  ∀ j, j < m.cols.length / 4 → ∀ g y, m.cols[j * 4]? = some g → m.cols[j * 4 + 1]? = some y →
    ∃ beta ref s, cf (g.map (· / 100)) y = .ok (beta, ref, s) ∧ MkzBounds ref beta s

theorem fitMKZ_all (cf : CurveFit) (m : CMat ℝ) (h : Spec.FitsAll cf m) :
    ∃ ps, fitMKZ cf m = .ok ps ∧ ps.length = m.cols.length / 4 ∧ (∀ p ∈ ps, MkzBounds p.1 p.2.1 p.2.2) ∧
      ∀ (j : Nat) g y beta ref s, j < m.cols.length / 4 → m.cols[j * 4]? = some g →
        m.cols[j * 4 + 1]? = some y → cf (g.map (· / 100)) y = .ok (beta, ref, s) → ps[j]? = some (ref, beta, s) := by
  obtain ⟨ps, h1, h2, h3⟩ := fitMKZ_ok cf ⟨m.nrow, m.cols.take (m.cols.length / 4 * 4)⟩ (m.cols.length / 4) (by simp; omega) (by
    intro j hj g y hg hy
    rw [List.getElem?_take_of_lt (by omega)] at hg hy
    obtain ⟨b, r, s, e, _⟩ := h j hj g y hg hy
    exact ⟨_, e⟩)
  have e : fitMKZ cf m = fitMKZ cf ⟨m.nrow, m.cols.take (m.cols.length / 4 * 4)⟩ := by
    unfold fitMKZ
    have el : (m.cols.take (m.cols.length / 4 * 4)).length / 4 = m.cols.length / 4 := by simp; omega
    rw [el]
    refine mapM_ext_mem _ _ _ fun k hk => ?_
    have hk := List.mem_range.1 hk
    rw [List.getElem?_take_of_lt (by omega), List.getElem?_take_of_lt (by omega)]
  have h4 : ∀ (j : Nat) g y beta ref s, j < m.cols.length / 4 → m.cols[j * 4]? = some g →
        m.cols[j * 4 + 1]? = some y → cf (g.map (· / 100)) y = .ok (beta, ref, s) → ps[j]? = some (ref, beta, s) := by
    intro j g y b r s hj hg hy hc
    exact h3 j g y b r s hj (by rw [List.getElem?_take_of_lt (by omega)]; exact hg) (by rw [List.getElem?_take_of_lt (by omega)]; exact hy) hc
  refine ⟨ps, e.trans h1, h2, ?_, h4⟩
  intro p hp
  obtain ⟨j, hj⟩ := List.mem_iff_getElem?.1 hp
  have hjl : j < m.cols.length / 4 := by rw [← h2]; exact (List.getElem?_eq_some_iff.1 hj).1
  obtain ⟨b, r, s, e1, e2⟩ := h j hjl _ _ (List.getElem?_eq_getElem (by omega)) (List.getElem?_eq_getElem (by omega))
  rw [h4 j _ _ b r s hjl (List.getElem?_eq_getElem (by omega)) (List.getElem?_eq_getElem (by omega)) e1] at hj
  rw [← Option.some.inj hj]; exact e2

/-- C153: for each four columns, `fit_MKZ` returns the fitted parameters in the order `gamma_ref, 0, s, beta`, and four columns of 109
values: strains from 0.0001 % to 10 %, the MKZ curve of these parameters, strictly decreasing between 1 and 0, the strains again, and zero
damping. -/
theorem C153_curves (cf : CurveFit) (m : CMat ℝ) (h : Spec.FitsAll cf m) :
    ∃ par fc, fitMkzOut cf m = .ok (par, fc) ∧ par.length = m.cols.length / 4 ∧ fc.nrow = 109 ∧ fc.cols.length = m.cols.length ∧
      ∃ strain : List ℝ, strain.length = 109 ∧ strain.head? = some 0.0001 ∧ strain.getLast? = some 10 ∧ strain.Pairwise (· < ·) ∧
      ∀ (j : Nat) g y beta ref s, j < m.cols.length / 4 → m.cols[j * 4]? = some g →
        m.cols[j * 4 + 1]? = some y → cf (g.map (· / 100)) y = .ok (beta, ref, s) →
        par[j]? = some [ref, 0, s, beta] ∧ fc.cols[j * 4]? = some strain ∧ fc.cols[j * 4 + 2]? = some strain ∧
        fc.cols[j * 4 + 3]? = some (List.replicate 109 0) ∧
        ∃ G : List ℝ, fc.cols[j * 4 + 1]? = some G ∧ G = strain.map (fun x => mkzCurve ref beta s (x / 100)) ∧
          (∀ v ∈ G, 0 < v ∧ v < 1) ∧ G.Pairwise (· > ·) := by
  obtain ⟨ps, h1, h2, h3, h4⟩ := fitMKZ_all cf m h
  obtain ⟨l1, l2, l3, l4, l5⟩ := mkzStrains_props
  refine ⟨_, _, fitMkzOut_eq cf m _ rfl ps h1 h3, by simpa using h2, rfl, ?_, mkzStrains.map (· * 100), by simpa using l1, ?_, ?_, ?_, ?_⟩
  · have : ∀ l : List (ℝ × ℝ × ℝ), (l.flatMap (fun p => [mkzStrains.map (· * 100), mkzStrains.map (mkzCurve p.1 p.2.1 p.2.2), mkzStrains.map (· * 100),
          List.replicate 109 (0 : ℝ)])).length = l.length * 4 := by
      intro l
      induction l with
      | nil => rfl
      | cons a l ih => rw [List.flatMap_cons, List.length_append, ih]; simp; ring
    rw [List.length_append, this, List.length_replicate, h2]; omega
  · rw [List.head?_map, l2]; norm_num
  · rw [List.getLast?_map, l3]; norm_num
  · exact List.pairwise_map.2 (l5.imp fun h => by linarith)
  · intro j g y beta ref s hj hg hy hc
    have hpj := h4 j g y beta ref s hj hg hy hc
    have hbd := h3 _ (List.mem_of_getElem? hpj)
    have hlen : ∀ t, t < 4 → j * 4 + t < (ps.flatMap (fun p => [mkzStrains.map (· * 100), mkzStrains.map (mkzCurve p.1 p.2.1 p.2.2), mkzStrains.map (· * 100),
          List.replicate 109 (0 : ℝ)])).length := by
      intro t ht
      have := fourCols (fun p : ℝ × ℝ × ℝ => mkzStrains.map (· * 100)) (fun p => mkzStrains.map (mkzCurve p.1 p.2.1 p.2.2)) (fun p => mkzStrains.map (· * 100))
        (fun p => List.replicate 109 (0 : ℝ)) ps j t ht
      rw [hpj] at this
      by_contra hcon
      rw [List.getElem?_eq_none (by omega)] at this
      revert this ht
      rcases t with _ | _ | _ | _ | t <;> simp
    have hcol : ∀ t, t < 4 → (ps.flatMap (fun p => [mkzStrains.map (· * 100), mkzStrains.map (mkzCurve p.1 p.2.1 p.2.2), mkzStrains.map (· * 100),
          List.replicate 109 (0 : ℝ)]) ++ List.replicate (m.cols.length % 4) (List.replicate 109 0))[j * 4 + t]? =
        [mkzStrains.map (· * 100), mkzStrains.map (mkzCurve ref beta s), mkzStrains.map (· * 100), List.replicate 109 (0 : ℝ)][t]? := by
      intro t ht
      rw [List.getElem?_append_left (hlen t ht), fourCols _ _ _ _ ps j t ht, hpj]; rfl
    refine ⟨by rw [List.getElem?_map, hpj]; rfl, hcol 0 (by norm_num), hcol 2 (by norm_num), hcol 3 (by norm_num),
      _, hcol 1 (by norm_num), ?_, ?_, ?_⟩
    · rw [List.map_map]
      refine List.map_congr_left fun x _ => ?_
      simp
    · intro v hv
      obtain ⟨x, hx, rfl⟩ := List.mem_map.1 hv
      exact (mkzCurve_anti hbd (l4 x hx) (lt_add_one x)).2
    · rw [List.pairwise_map]
      refine List.Pairwise.imp_of_mem ?_ l5
      intro a b ha hb hab
      exact (mkzCurve_anti hbd (l4 a ha) hab).1

/-- C153, violated: the number of columns is not checked: with one to three columns too many, `fit_MKZ` returns a matrix with as many columns,
the last of which are all zero. -/
theorem C153_extra_columns_violated (cf : CurveFit) (m : CMat ℝ) (h : Spec.FitsAll cf m) (hr : m.cols.length % 4 ≠ 0) :
    ∃ par fc, fitMkzOut cf m = .ok (par, fc) ∧ fc.cols.getLast? = some (List.replicate 109 0) := by
  obtain ⟨ps, h1, h2, h3, h4⟩ := fitMKZ_all cf m h
  refine ⟨_, _, fitMkzOut_eq cf m _ rfl ps h1 h3, ?_⟩
  obtain ⟨k, hk⟩ := Nat.exists_eq_succ_of_ne_zero hr
  dsimp only
  rw [hk, Nat.succ_eq_add_one, List.replicate_succ' (n := k), ← List.append_assoc, List.getLast?_concat]

/-- C153, partial: two MKZ curves that agree at two strains agree everywhere: they have the same `s` and the same `beta / gamma_ref^s`.  Missing:
the same `gamma_ref` and `beta` (`C153_identify_violated`). -/
theorem C153_identify_partial (r b s r' b' s' x y : ℝ) (h : MkzBounds r b s) (h' : MkzBounds r' b' s') (hx : 0 < x) (hy : 0 < y) (hne : x ≠ y)
    (e1 : mkzCurve r b s x = mkzCurve r' b' s' x) (e2 : mkzCurve r b s y = mkzCurve r' b' s' y) :
    s = s' ∧ b / r ^ s = b' / r' ^ s' := by
  obtain ⟨p1, _, p3, _⟩ := h
  obtain ⟨q1, _, q3, _⟩ := h'
  have hA : 0 < b / r ^ s := div_pos (by linarith) (Real.rpow_pos_of_pos p1 _)
  have hB : 0 < b' / r' ^ s' := div_pos (by linarith) (Real.rpow_pos_of_pos q1 _)
  have key : ∀ z, 0 < z → mkzCurve r b s z = mkzCurve r' b' s' z → b / r ^ s * z ^ s = b' / r' ^ s' * z ^ s' := by
    intro z hz e
    unfold mkzCurve at e
    rw [Real.div_rpow hz.le p1.le, Real.div_rpow hz.le q1.le] at e
    have hz1 := Real.rpow_pos_of_pos hz s
    have hz2 := Real.rpow_pos_of_pos hz s'
    have e' := inv_injective (by simpa only [one_div] using e : (1 + b * (z ^ s / r ^ s))⁻¹ = (1 + b' * (z ^ s' / r' ^ s'))⁻¹)
    have : b * (z ^ s / r ^ s) = b' * (z ^ s' / r' ^ s') := by linarith
    rw [div_mul_eq_mul_div, div_mul_eq_mul_div, mul_div_assoc, mul_div_assoc]; exact this
  have k1 := congrArg Real.log (key x hx e1)
  have k2 := congrArg Real.log (key y hy e2)
  rw [Real.log_mul hA.ne' (Real.rpow_pos_of_pos hx _).ne', Real.log_mul hB.ne' (Real.rpow_pos_of_pos hx _).ne', Real.log_rpow hx, Real.log_rpow hx] at k1
  rw [Real.log_mul hA.ne' (Real.rpow_pos_of_pos hy _).ne', Real.log_mul hB.ne' (Real.rpow_pos_of_pos hy _).ne', Real.log_rpow hy, Real.log_rpow hy] at k2
  have hl : Real.log x ≠ Real.log y := fun e => hne (Real.log_injOn_pos hx hy e)
  have hs : s = s' := by
    have : (s - s') * (Real.log x - Real.log y) = 0 := by linear_combination k1 - k2
    rcases mul_eq_zero.1 this with h | h
    · linarith
    · exact absurd (sub_eq_zero.1 h) hl
  refine ⟨hs, Real.log_injOn_pos hA hB ?_⟩
  rw [← hs] at k1 ⊢
  linarith

/-- C153, violated: the data do not determine the parameters: `2 gamma_ref` and `2^s beta` give the same curve, also inside the bounds of the fit.
`gamma_ref` is therefore not the reference strain of the soil, and fits of the same data need not agree. -/
theorem C153_identify_violated (r b s : ℝ) (h : MkzBounds r b s) (hr : r ≤ 0.05) (hb : b ≤ 0.9) :
    MkzBounds (2 * r) (2 ^ s * b) s ∧ 2 * r ≠ r ∧ ∀ x, 0 < x → mkzCurve (2 * r) (2 ^ s * b) s x = mkzCurve r b s x := by
  obtain ⟨p1, p2, p3, p4, p5, p6⟩ := h
  have h1 : (1 : ℝ) ≤ 2 ^ s := Real.one_le_rpow (by norm_num) (by linarith)
  have h2 : (2 : ℝ) ^ s ≤ 2 := by
    calc (2 : ℝ) ^ s ≤ 2 ^ (1 : ℝ) := Real.rpow_le_rpow_of_exponent_le (by norm_num) (by linarith)
      _ = 2 := Real.rpow_one 2
  refine ⟨⟨by linarith, by linarith, by nlinarith, by nlinarith, p5, p6⟩, by intro e; linarith, ?_⟩
  intro x hx
  unfold mkzCurve
  congr 2
  rw [Real.div_rpow hx.le (by linarith), Real.div_rpow hx.le p1.le, Real.mul_rpow (by norm_num) p1.le]
  have := Real.rpow_pos_of_pos p1 s
  field_simp

/-- One material with a fit that always answers `beta = 1`, `gamma_ref = 0.001`, `s = 0.9`. -/
example : ∃ par fc, fitMkzOut (fun _ _ => .ok (1, 0.001, 0.9)) ⟨2, [[0.01, 1], [0.9, 0.5], [0.01, 1], [1, 10]]⟩ = .ok (par, fc) ∧
    par = [[0.001, 0, 0.9, 1]] ∧ fc.cols.length = 4 := by
  have hf : Spec.FitsAll (fun _ _ => .ok (1, 0.001, 0.9)) ⟨2, [[0.01, 1], [0.9, 0.5], [0.01, 1], [1, 10]]⟩ := by
    intro j _ g y _ _
    exact ⟨1, 0.001, 0.9, rfl, by unfold MkzBounds; norm_num⟩
  obtain ⟨par, fc, h1, h2, _, h3, _, _, _, _, _, h4⟩ := C153_curves _ _ hf
  refine ⟨par, fc, h1, ?_, h3⟩
  have := (h4 0 _ _ 1 0.001 0.9 (by norm_num) rfl rfl rfl).1
  cases par with
  | nil => simp at h2
  | cons a l =>
    cases l with
    | nil => simpa using this
    | cons b l => simp at h2

end Verif
