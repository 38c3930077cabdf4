import Verif.Props.CalibOut

/-!
C116 (modulus), C117 (one parameter set per layer), C118 (own curve of each layer) and C49 (damping calibration).
-/

set_option linter.unusedSectionVars false
set_option linter.unusedVariables false

namespace Verif

open Spec (Valid Valid5 Admissible HHColumn)

theorem flat4_get {α β : Type} (f : α → List β) : ∀ (l : List α), (∀ k ∈ l, (f k).length = 4) →
    (l.flatMap f).length = l.length * 4 ∧
      ∀ (j t : Nat) k, t < 4 → l[j]? = some k → (l.flatMap f)[j * 4 + t]? = (f k)[t]?
  | [], _ => ⟨rfl, by intro j t k _ h; simp at h⟩
  | a :: l, h => by
    obtain ⟨h1, h2⟩ := flat4_get f l fun k hk => h k (List.mem_cons_of_mem _ hk)
    have ha := h a List.mem_cons_self
    refine ⟨by rw [List.flatMap_cons, List.length_append, h1, ha, List.length_cons]; omega, ?_⟩
    intro j t k ht hk
    rw [List.flatMap_cons]
    cases j with
    | zero =>
      rw [List.getElem?_cons_zero, Option.some.injEq] at hk
      subst hk
      rw [List.getElem?_append_left (by omega)]
      congr 1; omega
    | succ j =>
      rw [List.getElem?_cons_succ] at hk
      rw [List.getElem?_append_right (by omega), ← h2 j t k ht hk, ha]
      congr 1; omega

theorem flat4_short {α β : Type} (f : α → List β) : ∀ (l : List α), (∀ k ∈ l, (f k).length ≤ 4) →
    (l.flatMap f).length ≤ l.length * 4 ∧ ((∃ k ∈ l, (f k).length < 4) → (l.flatMap f).length < l.length * 4)
  | [], _ => ⟨by simp, by simp⟩
  | a :: l, h => by
    obtain ⟨h1, h2⟩ := flat4_short f l fun k hk => h k (List.mem_cons_of_mem _ hk)
    have ha := h a List.mem_cons_self
    simp only [List.flatMap_cons, List.length_append, List.length_cons]
    refine ⟨by omega, ?_⟩
    rintro ⟨k, hk, hl⟩
    rcases List.mem_cons.1 hk with rfl | hk
    · omega
    · have := h2 ⟨k, hk, hl⟩; omega

/-- The material number of a row as an integer. -/
noncomputable def Spec.matNo (r : Row ℝ) : Nat := ⌊r.mat⌋.toNat

open Spec (matNo)

/-- The curves used for the layers: columns `4 j + t` of the expanded matrix are those of the material of layer `j`. -/
theorem expand_get (m : CMat ℝ) (mats : List Nat) (hm : ∀ k ∈ mats, 1 ≤ k ∧ k * 4 ≤ m.cols.length) :
    (expandCurves m mats).cols.length = mats.length * 4 ∧
      ∀ (j t : Nat) k, t < 4 → mats[j]? = some k → (expandCurves m mats).cols[j * 4 + t]? = m.cols[(k - 1) * 4 + t]? := by
  have h4 : ∀ k ∈ mats, ((m.slice (k * 4 - 4) (k * 4)).cols).length = 4 := by
    intro k hk
    obtain ⟨h1, h2⟩ := hm k hk
    simp only [CMat.slice, List.length_drop, List.length_take]
    omega
  obtain ⟨h1, h2⟩ := flat4_get (fun k => (m.slice (k * 4 - 4) (k * 4)).cols) mats h4
  refine ⟨h1, ?_⟩
  intro j t k ht hk
  obtain ⟨hk1, _⟩ := hm k (List.mem_of_getElem? hk)
  have e := h2 j t k ht hk
  unfold expandCurves
  rw [e]
  simp only [CMat.slice, List.getElem?_drop, List.getElem?_take]
  rw [if_pos (by omega)]
  congr 1; omega

theorem fitMKZ_ok (cf : CurveFit) (m : CMat ℝ) (n : Nat) (hn : m.cols.length = n * 4)
    (h : ∀ j, j < n → ∀ g y, m.cols[j * 4]? = some g → m.cols[j * 4 + 1]? = some y → ∃ p, cf (g.map (· / 100)) y = .ok p) :
    ∃ ps, fitMKZ cf m = .ok ps ∧ ps.length = n ∧ ∀ (j : Nat) g y beta ref s, j < n → m.cols[j * 4]? = some g →
      m.cols[j * 4 + 1]? = some y → cf (g.map (· / 100)) y = .ok (beta, ref, s) → ps[j]? = some (ref, beta, s) := by
  have hn4 : m.cols.length / 4 = n := by omega
  unfold fitMKZ
  rw [hn4]
  obtain ⟨ps, h1, h2⟩ := mapM_ok_of (fun k => match m.cols[k * 4 + 0]?, m.cols[k * 4 + 1]? with
    | some g, some y =>
      match cf (g.map (· / 100)) y with
      | .error e => .error e
      | .ok (beta, ref, s) => .ok (ref, beta, s)
    | _, _ => (Except.error PyErr.indexError : Except PyErr (ℝ × ℝ × ℝ)))
    (fun k p => ∀ g y beta ref s, m.cols[k * 4]? = some g →
      m.cols[k * 4 + 1]? = some y → cf (g.map (· / 100)) y = .ok (beta, ref, s) → p = (ref, beta, s)) (List.range n) (by
      intro k hk
      rw [List.mem_range] at hk
      have e1 := List.getElem?_eq_getElem (show k * 4 < m.cols.length by omega)
      have e2 := List.getElem?_eq_getElem (show k * 4 + 1 < m.cols.length by omega)
      obtain ⟨⟨b, r, s⟩, hp⟩ := h k hk _ _ e1 e2
      refine ⟨(r, b, s), ?_, ?_⟩
      · simp only [Nat.add_zero, e1, e2, hp]
      · intro g y b' r' s' g1 g2 g3
        rw [e1, Option.some.injEq] at g1
        rw [e2, Option.some.injEq] at g2
        subst g1; subst g2
        rw [hp] at g3
        have := Except.ok.inj g3
        simp only [Prod.mk.injEq] at this
        rw [this.1, this.2.1, this.2.2])
  have hl : ps.length = n := by rw [← h2.length_eq, List.length_range]
  refine ⟨ps, h1, hl, ?_⟩
  intro j g y b r s hj g1 g2 g3
  have := (List.forall₂_iff_get.1 h2).2 j (by rw [List.length_range]; exact hj) (by omega)
  simp only [List.get_eq_getElem, List.getElem_range] at this
  rw [List.getElem?_eq_getElem (by omega), this g y b r s g1 g2 g3]

theorem valid5_mats (rows : List (Row ℝ)) (hv : Valid5 rows) : ∀ r ∈ rows.dropLast, 1 ≤ matNo r := by
  intro r hr
  obtain ⟨z, hz⟩ := hv.mat_int r (List.mem_of_mem_dropLast hr)
  have hp := hv.mat_pos r hr
  unfold matNo
  rw [hz, Int.floor_intCast]
  rw [hz] at hp
  have : (0 : ℤ) < z := by exact_mod_cast hp
  omega

/-- With curves: layer `j` with material number `k` gets the MKZ parameters fitted to curve `k` and the modulus and strength
of its row; the calibration succeeds whenever the fits used do. -/
theorem C118_material (cf : CurveFit) (rows : List (Row ℝ)) (m : CMat ℝ) (T : Option (List ℝ)) (hv : Valid5 rows)
    (hn : 2 ≤ rows.length) (hm : ∀ r ∈ rows.dropLast, matNo r * 4 ≤ m.cols.length) (hc : ∀ c ∈ m.cols, c ≠ [])
    (hT : ∀ t, T = some t → t.length = rows.length - 1 ∧ ∀ x ∈ t, 0 < x)
    (hcf : ∀ r ∈ rows.dropLast, ∀ g y, m.cols[(matNo r - 1) * 4]? = some g → m.cols[(matNo r - 1) * 4 + 1]? = some y →
      ∃ p, cf (g.map (· / 100)) y = .ok p) :
    ∃ cols, hhFromCurves cf (.five rows) m T = .ok cols ∧ cols.length = rows.length - 1 ∧
      ∀ (j : Nat) r, rows.dropLast[j]? = some r → ∃ g y beta ref s Tm col,
        m.cols[(matNo r - 1) * 4]? = some g ∧ m.cols[(matNo r - 1) * 4 + 1]? = some y ∧
        cf (g.map (· / 100)) y = .ok (beta, ref, s) ∧ cols[j]? = some col ∧ 0 < Tm ∧ (∀ t, T = some t → t[j]? = some Tm) ∧
        HHColumn ref beta s (r.rho * r.vs ^ 2) Tm col := by
  have hck := (checkVsFormat_five_ok rows).2 hv
  have hdl : rows.dropLast.length = rows.length - 1 := List.length_dropLast
  have eh : (Cell.five rows).thk.dropLast = rows.dropLast.map Row.thk := by simp [Cell.thk, List.map_dropLast]
  have ev : (Cell.five rows).vs.dropLast = rows.dropLast.map Row.vs := by simp [Cell.vs, List.map_dropLast]
  obtain ⟨a, h1, h2, h3, h4, h5⟩ := soilArrays_ok (rows.dropLast.map Row.thk) (rows.dropLast.map Row.vs)
    (rows.dropLast.map Row.rho) T (rows.length - 1) (by omega) (by simp) (by simp) (by simp)
    (by intro x hx; obtain ⟨r, hr, rfl⟩ := List.mem_map.1 hx; exact hv.thk_pos r hr)
    (by intro x hx; obtain ⟨r, hr, rfl⟩ := List.mem_map.1 hx; exact (hv.pos r (List.mem_of_mem_dropLast hr)).1)
    (by intro x hx; obtain ⟨r, hr, rfl⟩ := List.mem_map.1 hx; exact (hv.pos r (List.mem_of_mem_dropLast hr)).2.2) hT
  have hmats : (rows.dropLast.map matNo).length = rows.length - 1 := by simp
  obtain ⟨x1, x2⟩ := expand_get m (rows.dropLast.map matNo) (by
    intro k hk
    obtain ⟨r, hr, rfl⟩ := List.mem_map.1 hk
    exact ⟨valid5_mats rows hv r hr, hm r hr⟩)
  rw [hmats] at x1
  set M := expandCurves m (rows.dropLast.map matNo) with hM
  have row : ∀ j, j < rows.length - 1 → ∃ r, rows.dropLast[j]? = some r := fun j hj =>
    ⟨_, List.getElem?_eq_getElem (by rw [hdl]; exact hj)⟩
  have xg : ∀ (j t : Nat) r, t < 4 → rows.dropLast[j]? = some r → M.cols[j * 4 + t]? = m.cols[(matNo r - 1) * 4 + t]? :=
    fun j t r ht hr => x2 j t _ ht (by rw [List.getElem?_map, hr]; rfl)
  obtain ⟨ps, p1, p2, p3⟩ := fitMKZ_ok cf M (rows.length - 1) x1 (by
    intro j hj g y hg hy
    obtain ⟨r, hr⟩ := row j hj
    have e1 := xg j 0 r (by norm_num) hr
    have e2 := xg j 1 r (by norm_num) hr
    rw [Nat.add_zero, Nat.add_zero] at e1
    exact hcf r (List.mem_of_getElem? hr) g y (by rw [← e1]; exact hg) (by rw [← e2]; exact hy))
  have hcM : ∀ c ∈ M.cols, c ≠ [] := by
    intro c hcm
    rw [hM] at hcm
    unfold expandCurves at hcm
    simp only [List.mem_flatMap, CMat.slice] at hcm
    obtain ⟨k, _, hk⟩ := hcm
    exact hc c (List.mem_of_mem_take (List.mem_of_mem_drop hk))
  have hsl : ((List.range (M.cols.length / 4)).filterMap fun k => M.cols[k * 4]?).length = rows.length - 1 := by
    rw [show M.cols.length / 4 = rows.length - 1 by omega]
    rw [show ((List.range (rows.length - 1)).filterMap fun k => M.cols[k * 4]?) =
      (List.range (rows.length - 1)).map fun k => (M.cols[k * 4]?).getD [] from ?_]
    · simp
    · rw [← List.filterMap_eq_map]
      apply List.filterMap_congr
      intro k hk
      rw [List.mem_range] at hk
      simp only [Function.comp, List.getElem?_eq_getElem (show k * 4 < M.cols.length by omega), Option.getD_some]
  obtain ⟨cols, c1, c2, c3⟩ := layers_cols a ps ((List.range (M.cols.length / 4)).filterMap fun k => M.cols[k * 4]?)
    (rows.length - 1) h2 p2 hsl (by
      intro s hs
      obtain ⟨k, _, hk⟩ := List.mem_filterMap.1 hs
      exact hcM s (List.mem_of_getElem? hk))
  refine ⟨cols, ?_, c2, ?_⟩
  · unfold hhFromCurves
    rw [hck]
    simp only
    rw [show matRho (.five rows) = .ok (rows.dropLast.map matNo, rows.dropLast.map Row.rho) from rfl]
    simp only
    have : tmaxOk (Cell.five rows).vs.dropLast.length T = true := by
      cases T with
      | none => rfl
      | some t => rw [ev]; simp [tmaxOk, (hT t rfl).1]
    rw [this, eh, ev, h1]
    simp only [Bool.not_true, Bool.false_eq_true, if_false]
    unfold hhgCurves
    rw [h2.lengths]
    simp only [Bool.not_true, Bool.false_eq_true, if_false]
    rw [← hM, if_neg (by rw [h2.vs, x1]; simp), p1]
    exact c1
  · intro j r hr
    have hj : j < rows.length - 1 := by rw [← hdl]; exact (List.getElem?_eq_some_iff.1 hr).1
    have e0 := xg j 0 r (by norm_num) hr
    have e1 := xg j 1 r (by norm_num) hr
    rw [Nat.add_zero, Nat.add_zero] at e0
    have g0 := List.getElem?_eq_getElem (show j * 4 < M.cols.length by omega)
    have g1 := List.getElem?_eq_getElem (show j * 4 + 1 < M.cols.length by omega)
    have f0 := g0; have f1 := g1
    rw [e0] at f0; rw [e1] at f1
    obtain ⟨⟨b, rf, s⟩, hp⟩ := hcf r (List.mem_of_getElem? hr) _ _ f0 f1
    have hps := p3 j _ _ b rf s hj g0 g1 hp
    have eT := List.getElem?_eq_getElem (show j < a.Tmax.length by rw [h2.Tmax]; exact hj)
    obtain ⟨col, k1, k2⟩ := c3 j (r.rho * r.vs ^ 2) _ rf b s (by
      rw [h4, calcGmax, List.getElem?_zipWith, List.getElem?_map, List.getElem?_map, hr]; rfl) eT hps
    exact ⟨_, _, b, rf, s, _, col, f0, f1, hp, k1, h2.pos.2.1 _ (List.mem_of_getElem? eT),
      fun t ht => by rw [← h5 t ht]; exact eT, k2⟩

/-- A material number without curves is refused. -/
theorem C118_missing (cf : CurveFit) (rows : List (Row ℝ)) (m : CMat ℝ) (hv : Valid5 rows)
    (r : Row ℝ) (hr : r ∈ rows.dropLast) (hm : m.cols.length < matNo r * 4) :
    hhFromCurves cf (.five rows) m none = .error .assertionError := by
  have hck := (checkVsFormat_five_ok rows).2 hv
  have hdl : rows.dropLast.length = rows.length - 1 := List.length_dropLast
  have hn : 0 < rows.length - 1 := by rw [← hdl]; exact List.length_pos_of_mem hr
  have eh : (Cell.five rows).thk.dropLast = rows.dropLast.map Row.thk := by simp [Cell.thk, List.map_dropLast]
  have ev : (Cell.five rows).vs.dropLast = rows.dropLast.map Row.vs := by simp [Cell.vs, List.map_dropLast]
  obtain ⟨a, h1, h2, h3, h4, h5⟩ := soilArrays_ok (rows.dropLast.map Row.thk) (rows.dropLast.map Row.vs)
    (rows.dropLast.map Row.rho) none (rows.length - 1) hn (by simp) (by simp) (by simp)
    (by intro x hx; obtain ⟨r, hr, rfl⟩ := List.mem_map.1 hx; exact hv.thk_pos r hr)
    (by intro x hx; obtain ⟨r, hr, rfl⟩ := List.mem_map.1 hx; exact (hv.pos r (List.mem_of_mem_dropLast hr)).1)
    (by intro x hx; obtain ⟨r, hr, rfl⟩ := List.mem_map.1 hx; exact (hv.pos r (List.mem_of_mem_dropLast hr)).2.2) (by simp)
  have hs := (flat4_short (fun k => (m.slice (k * 4 - 4) (k * 4)).cols) (rows.dropLast.map matNo) (by
    intro k _
    simp only [CMat.slice, List.length_drop, List.length_take]
    omega)).2 ⟨matNo r, List.mem_map_of_mem hr, by
      simp only [CMat.slice, List.length_drop, List.length_take]
      have := valid5_mats rows hv r hr
      omega⟩
  unfold hhFromCurves
  rw [hck]
  simp only
  rw [show matRho (.five rows) = .ok (rows.dropLast.map matNo, rows.dropLast.map Row.rho) from rfl, eh, ev]
  simp only [h1, tmaxOk, Bool.not_true, Bool.false_eq_true, if_false]
  unfold hhgCurves
  rw [h2.lengths]
  simp only [Bool.not_true, Bool.false_eq_true, if_false]
  rw [if_pos]
  rw [h2.vs]
  unfold expandCurves
  simp only
  simp only [List.length_map, hdl] at hs
  omega

/-- Each layer is calibrated to its own curve when the material number of row `j` is `j + 1`.  Missing from the full
property: other material numbers, for which it fails (`C118_violated`). -/
theorem C118_own_curve_partial (cf : CurveFit) (rows : List (Row ℝ)) (m : CMat ℝ) (hv : Valid5 rows)
    (hn : 2 ≤ rows.length) (hmat : ∀ (j : Nat) r, rows.dropLast[j]? = some r → r.mat = j + 1)
    (hm : m.cols.length = (rows.length - 1) * 4) (hc : ∀ c ∈ m.cols, c ≠ []) (hcf : ∀ g y, ∃ p, cf g y = .ok p) :
    ∃ cols, hhFromCurves cf (.five rows) m none = .ok cols ∧ cols.length = rows.length - 1 ∧
      ∀ (j : Nat) g y beta ref s, m.cols[4 * j]? = some g → m.cols[4 * j + 1]? = some y →
        cf (g.map (· / 100)) y = .ok (beta, ref, s) → ∃ G T col, cols[j]? = some col ∧ HHColumn ref beta s G T col := by
  have hdl : rows.dropLast.length = rows.length - 1 := List.length_dropLast
  have hk : ∀ (j : Nat) r, rows.dropLast[j]? = some r → matNo r = j + 1 := by
    intro j r hr
    unfold matNo
    rw [hmat j r hr]
    rw [show ((j : ℝ) + 1) = ((j + 1 : Nat) : ℝ) by push_cast; rfl, Int.floor_natCast]
    rfl
  obtain ⟨cols, h1, h2, h3⟩ := C118_material cf rows m none hv hn (by
    intro r hr
    obtain ⟨j, hj⟩ := List.mem_iff_getElem?.1 hr
    have := (List.getElem?_eq_some_iff.1 hj).1
    rw [hk j r hj]; omega) hc (by simp) (fun _ _ _ _ _ _ => hcf _ _)
  refine ⟨cols, h1, h2, ?_⟩
  intro j g y b rf s hg hy hfit
  have hj : j < rows.dropLast.length := by
    have := (List.getElem?_eq_some_iff.1 hy).1
    omega
  obtain ⟨g', y', b', rf', s', Tm, col, q1, q2, q3, q4, _, _, q7⟩ := h3 j _ (List.getElem?_eq_getElem hj)
  rw [hk j _ (List.getElem?_eq_getElem hj)] at q1 q2
  rw [show (j + 1 - 1) * 4 = 4 * j by omega] at q1 q2
  rw [hg, Option.some.injEq] at q1
  rw [hy, Option.some.injEq] at q2
  subst q1; subst q2
  rw [hfit] at q3
  have := Except.ok.inj q3
  simp only [Prod.mk.injEq] at this
  obtain ⟨e1, e2, e3⟩ := this
  subst e1; subst e2; subst e3
  exact ⟨_, _, col, q4, q7⟩

/-- A two-column profile is calibrated like the five-column profile with the same thicknesses and velocities, the
densities computed from them, and the material numbers 1, 2, ...: layer `j` uses the `j`-th curve. -/
theorem C118_two_columns (cf : CurveFit) (rows : List (Row ℝ)) (rho : List ℝ) (m : CMat ℝ) (T : Option (List ℝ)) (hv : Valid5 rows)
    (hmat : ∀ (j : Nat) r, rows.dropLast[j]? = some r → r.mat = j + 1) (hrho : rows.dropLast.map Row.rho = rho)
    (hc : calcRho (rows.dropLast.map Row.thk) (rows.dropLast.map Row.vs) = .ok rho) :
    hhFromCurves cf (.two (rows.map Row.tv)) m T = hhFromCurves cf (.five rows) m T := by
  have hdl : rows.dropLast.length = rows.length - 1 := List.length_dropLast
  have c5 := (checkVsFormat_five_ok rows).2 hv
  have c2 : checkVsFormat (.two (rows.map Row.tv) : Cell ℝ) = .ok () := (checkVsFormat_two_ok _).2 hv.valid
  have et : (rows.map Row.tv).map Prod.fst = rows.map Row.thk := by simp [Row.tv, Function.comp_def]
  have ev : (rows.map Row.tv).map Prod.snd = rows.map Row.vs := by simp [Row.tv, Function.comp_def]
  have e2 : matRho (.two (rows.map Row.tv)) = .ok (rows.dropLast.map matNo, rows.dropLast.map Row.rho) := by
    unfold matRho
    simp only [et, ev, ← List.map_dropLast, hc, hrho, List.length_map]
    congr 2
    apply List.ext_getElem?
    intro i
    rw [List.getElem?_map, List.getElem?_map]
    by_cases hi : i < rows.length - 1
    · have hr := List.getElem?_eq_getElem (show i < rows.dropLast.length by omega)
      rw [hr, List.getElem?_range hi]
      simp only [Option.map_some, matNo, hmat i _ hr]
      rw [show ((i : ℝ) + 1) = ((i + 1 : Nat) : ℝ) by push_cast; rfl, Int.floor_natCast]
      rfl
    · rw [List.getElem?_eq_none (by simpa using hi), List.getElem?_eq_none (by omega)]
      rfl
  unfold hhFromCurves
  rw [c5, c2, e2, show matRho (.five rows) = .ok (rows.dropLast.map matNo, rows.dropLast.map Row.rho) from rfl]
  simp only [Cell.vs, Cell.thk, et, ev]
  rfl

/-- Two layers of material 1: the object demands two curves, but the second one has no influence whatever it is, and both
layers get the parameters of the first curve. -/
theorem C118_violated (cf : CurveFit) (hcf : ∀ g y, ∃ p, cf g y = .ok p) (g1 y1 g2 y2 d : List ℝ) (hg : g1 ≠ []) (hy : y1 ≠ [])
    (hg2 : g2 ≠ []) (hy2 : y2 ≠ []) (hd : d ≠ []) :
    let rows : List (Row ℝ) := [⟨10, 200, 0.02, 1700, 1⟩, ⟨10, 300, 0.02, 1800, 1⟩, ⟨0, 600, 0.01, 2000, 0⟩]
    let m : CMat ℝ := ⟨d.length, [g1, y1, d, d, g2, y2, d, d]⟩
    hhcFit cf rows (some (1, m)) none = .error .valueError ∧
    (∀ g2' y2', hhcFit cf rows (some (2, m)) none = hhcFit cf rows (some (2, ⟨d.length, [g1, y1, d, d, g2', y2', d, d]⟩)) none) ∧
    ∃ cols beta ref s, hhFromCurves cf (.five rows) m none = .ok cols ∧ cf (g1.map (· / 100)) y1 = .ok (beta, ref, s) ∧
      ∃ G T col, cols[1]? = some col ∧ HHColumn ref beta s G T col := by
  intro rows m
  have hv : Valid5 rows := ⟨by simp [rows], by simp [rows], by simp [rows], by simp [rows]; norm_num,
    by simp only [rows, List.forall_mem_cons]
       exact ⟨⟨1, by simp⟩, ⟨1, by simp⟩, ⟨0, by simp⟩, by simp⟩, by simp [rows], by simp [rows]⟩
  have mk : ∀ r ∈ rows.dropLast, matNo r = 1 := by
    simp only [rows, List.dropLast, List.forall_mem_cons, matNo]
    exact ⟨by simp, by simp, by simp⟩
  have em : rows.dropLast.map matNo = [1, 1] := by
    simp [rows, matNo]
  refine ⟨by simp [hhcFit, hhcInit, layerCount, rows], ?_, ?_⟩
  · intro g2' y2'
    unfold hhcFit
    simp only [Option.map_some]
    cases hhcInit (layerCount rows) (some 2) none with
    | error e => rfl
    | ok u =>
      have : hhFromCurves cf (.five rows) m none =
          hhFromCurves cf (.five rows) ⟨d.length, [g1, y1, d, d, g2', y2', d, d]⟩ none := by
        unfold hhFromCurves
        rw [show matRho (.five rows) = .ok (rows.dropLast.map matNo, rows.dropLast.map Row.rho) from rfl, em]
        rfl
      simp only [this]
  · obtain ⟨cols, h1, h2, h3⟩ := C118_material cf rows m none hv (by simp [rows]) (by
      intro r hr; rw [mk r hr]; simp [m]) (by simp [m, hg, hy, hg2, hy2, hd]) (by simp) (fun _ _ _ _ _ _ => hcf _ _)
    obtain ⟨g', y', b', rf', s', Tm, col, q1, q2, q3, q4, _, _, q7⟩ := h3 1 ⟨10, 300, 0.02, 1800, 1⟩ rfl
    rw [mk _ (by simp [rows])] at q1 q2
    simp only [m] at q1 q2
    have e1 : g1 = g' := by simpa using q1
    have e2 : y1 = y' := by simpa using q2
    subst e1; subst e2
    exact ⟨cols, b', rf', s', h1, q3, _, Tm, col, q4, q7⟩

/-! ## C116 -/

/-- With curves, the modulus is that of the profile.  Missing from the full property: calibration without curves
(`C116_violated`). -/
theorem C116_modulus_partial (cf : CurveFit) (rows : List (Row ℝ)) (m : CMat ℝ) (hv : Valid5 rows) (hn : 2 ≤ rows.length)
    (hm : ∀ r ∈ rows.dropLast, matNo r * 4 ≤ m.cols.length) (hc : ∀ c ∈ m.cols, c ≠ []) (hcf : ∀ g y, ∃ p, cf g y = .ok p) :
    ∃ cols, hhFromCurves cf (.five rows) m none = .ok cols ∧ cols.length = rows.length - 1 ∧
      ∀ (j : Nat) r, rows.dropLast[j]? = some r → ∃ col, cols[j]? = some col ∧ col[5]? = some (r.rho * r.vs ^ 2) := by
  obtain ⟨cols, h1, h2, h3⟩ := C118_material cf rows m none hv hn hm hc (by simp) (fun _ _ _ _ _ _ => hcf _ _)
  refine ⟨cols, h1, h2, ?_⟩
  intro j r hr
  obtain ⟨_, _, _, _, _, _, col, _, _, _, q4, _, _, gt, mu, d, rfl, _⟩ := h3 j r hr
  exact ⟨_, q4, rfl⟩

/-- Without curves the density column is ignored: every layer lighter than 1650 kg/m³ gets a modulus above the one of the
profile. -/
theorem C116_violated (rows : List (Row ℝ)) (rho : List ℝ) (hv : Valid5 rows)
    (hrho : calcRho (rows.dropLast.map Row.thk) (rows.dropLast.map Row.vs) = .ok rho) :
    ∃ cols, hhFromProfile (.five rows) none = .ok cols ∧
      ∀ (j : Nat) r, rows.dropLast[j]? = some r → r.rho < 1650 →
        ∃ col G, cols[j]? = some col ∧ col[5]? = some G ∧ r.rho * r.vs ^ 2 < G := by
  have hck := (checkVsFormat_five_ok rows).2 hv
  have ev : (Cell.five rows).vs.dropLast = rows.dropLast.map Row.vs := by simp [Cell.vs, List.map_dropLast]
  obtain ⟨cols, h1, h2, h3⟩ := C115_profile (.five rows) none rho hck
    (by simpa [Cell.thk, Cell.vs, List.map_dropLast] using hrho) (by simp)
  refine ⟨cols, h1, ?_⟩
  intro j r hr hlt
  obtain ⟨v, ρ, gr, Tm, col, q1, q2, q3, _, _, _, q7, _, gt, mu, d, rfl, _⟩ := h3 j (by
    rw [ev, List.length_map]; exact (List.getElem?_eq_some_iff.1 hr).1)
  have hv0 : v = r.vs := by
    have : (Cell.five rows).vs[j]? = some r.vs := by
      have hj := (List.getElem?_eq_some_iff.1 hr)
      obtain ⟨hj, e⟩ := hj
      simp only [Cell.vs, List.getElem?_map]
      rw [List.getElem_dropLast] at e
      rw [List.getElem?_eq_getElem (by rw [List.length_dropLast] at hj; omega), e]
      rfl
    rw [q1, Option.some.injEq] at this
    exact this
  have hvp := (hv.pos r (List.mem_of_mem_dropLast (List.mem_of_getElem? hr))).1
  refine ⟨_, _, q7, rfl, ?_⟩
  rw [hv0]
  have : 0 < r.vs ^ 2 := by positivity
  nlinarith

/-! ## C117 -/

/-- One parameter set per soil layer, and a strength profile of that many entries is accepted, for profiles with a half
space.  Missing from the full property: profiles without half space (`C117_violated`). -/
theorem C117_layers_partial (cf : CurveFit) (rows : List (Row ℝ)) (rho : List ℝ) (T : Option (List ℝ)) (hv : Valid5 rows)
    (hhs : (rows.map Row.thk).getLast? = some 0)
    (hrho : calcRho (rows.dropLast.map Row.thk) (rows.dropLast.map Row.vs) = .ok rho)
    (hT : ∀ t, T = some t → t.length = layerCount rows ∧ ∀ x ∈ t, 0 < x) :
    ∃ ds, hhcFit cf rows none T = .ok ds ∧ ds.length = layerCount rows := by
  have hck := (checkVsFormat_five_ok rows).2 hv
  have hlc : layerCount rows = rows.length - 1 := by rw [layerCount, if_pos hhs]
  have hlen : (Cell.five rows).vs.dropLast.length = rows.length - 1 := by simp [Cell.vs]
  obtain ⟨cols, h1, h2, h3⟩ := C115_profile (.five rows) T rho hck
    (by simpa [Cell.thk, Cell.vs, List.map_dropLast] using hrho) (by rw [hlen, ← hlc]; exact hT)
  rw [hlen] at h2
  have h9 : ∀ l ∈ cols, l.length = 9 := by
    intro l hl
    obtain ⟨j, hj⟩ := List.mem_iff_getElem?.1 hl
    obtain ⟨v, r, gr, Tm, col, _, _, _, _, _, _, h4, _, h5⟩ := h3 j (by
      rw [hlen, ← h2]; exact (List.getElem?_eq_some_iff.1 hj).1)
    rw [hj, Option.some.injEq] at h4
    rw [h4]; exact hhColumn_length h5
  have hne : cols ≠ [] := by
    rintro rfl
    have h0 : rows.dropLast = [] := by
      apply List.length_eq_zero_iff.1
      rw [List.length_dropLast]
      exact h2.symm
    rw [h0] at hrho
    simp [calcRho, thk2dep] at hrho
  obtain ⟨ds, h4, h5⟩ := columns_dicts cols hne h9
  refine ⟨ds, ?_, by rw [← h5.length_eq, h2, hlc]⟩
  unfold hhcFit hhcInit
  have : tmaxOk (layerCount rows) T = true := by
    cases T with
    | none => rfl
    | some t => simp [tmaxOk, (hT t rfl).1]
  simp only [Option.map_none, this, Bool.not_true, Bool.false_eq_true, if_false]
  rw [h1]
  exact h4

/-- Without half space the deepest soil layer gets no parameters, and a strength profile with one entry per soil layer is
refused. -/
theorem C117_violated (cf : CurveFit) (rows : List (Row ℝ)) (rho : List ℝ) (hv : Valid5 rows)
    (hhs : (rows.map Row.thk).getLast? ≠ some 0)
    (hrho : calcRho (rows.dropLast.map Row.thk) (rows.dropLast.map Row.vs) = .ok rho) :
    layerCount rows = rows.length ∧
    (∃ ds, hhcFit cf rows none none = .ok ds ∧ ds.length + 1 = layerCount rows) ∧
    ∀ t, t.length = layerCount rows → hhcFit cf rows none (some t) = .error .valueError := by
  have hck := (checkVsFormat_five_ok rows).2 hv
  have hlc : layerCount rows = rows.length := by rw [layerCount, if_neg hhs]
  have hpos : 0 < rows.length := List.length_pos_iff.2 hv.nonempty
  have hlen : (Cell.five rows).vs.dropLast.length = rows.length - 1 := by simp [Cell.vs]
  obtain ⟨cols, h1, h2, h3⟩ := C115_profile (.five rows) none rho hck
    (by simpa [Cell.thk, Cell.vs, List.map_dropLast] using hrho) (by simp)
  rw [hlen] at h2
  have h9 : ∀ l ∈ cols, l.length = 9 := by
    intro l hl
    obtain ⟨j, hj⟩ := List.mem_iff_getElem?.1 hl
    obtain ⟨v, r, gr, Tm, col, _, _, _, _, _, _, h4, _, h5⟩ := h3 j (by
      rw [hlen, ← h2]; exact (List.getElem?_eq_some_iff.1 hj).1)
    rw [hj, Option.some.injEq] at h4
    rw [h4]; exact hhColumn_length h5
  have hne : cols ≠ [] := by
    rintro rfl
    have h0 : rows.dropLast = [] := by
      apply List.length_eq_zero_iff.1
      rw [List.length_dropLast]
      exact h2.symm
    rw [h0] at hrho
    simp [calcRho, thk2dep] at hrho
  obtain ⟨ds, h4, h5⟩ := columns_dicts cols hne h9
  refine ⟨hlc, ⟨ds, ?_, by rw [← h5.length_eq, h2, hlc]; omega⟩, ?_⟩
  · unfold hhcFit hhcInit
    simp only [Option.map_none, tmaxOk, Bool.not_true, Bool.false_eq_true, if_false]
    rw [h1]
    exact h4
  · intro t ht
    have := (C115_rejects (.five rows) (some t)).2.1 hck ⟨t, rfl, by rw [hlen, ht, hlc]; omega⟩
    unfold hhcFit hhcInit
    simp only [Option.map_none, tmaxOk, ht, decide_true, Bool.not_true, Bool.false_eq_true, if_false, this]

/-! ## C49 -/

theorem dampCurve_eq (strain xi : List ℝ) :
    dampCurve strain xi =
      if (∃ p ∈ strain.zip xi, p.1 < 0 ∨ p.2 < 0) ∨ (∃ p ∈ strain.zip xi, 100 < p.2 * 100) then .error .valueError
      else .ok ((strain.zip xi).map fun p => (p.1, p.2 * 100)) := by
  unfold dampCurve mkCurve mkBase
  simp only [List.getElem?_cons_zero, true_and]
  by_cases h1 : ∃ p ∈ strain.zip xi, p.1 < 0 ∨ p.2 < 0
  · rw [if_pos h1, if_pos (Or.inl h1)]
  · rw [if_neg h1]
    simp only [finishCurve, rangeCheck, Where.scale, Where.read, true_and, List.getElem?_cons_zero, Option.getD_some,
      List.set_cons_zero, scaleCols, mul_one]
    by_cases h2 : ∃ p ∈ strain.zip xi, 100 < p.2 * 100
    · rw [if_pos (Or.inr h2), if_pos]
      obtain ⟨p, hp, h⟩ := h2
      exact ⟨_, List.mem_map_of_mem hp, Or.inl h⟩
    · rw [if_neg (not_or.2 ⟨h1, h2⟩), if_neg]
      · rfl
      · rintro ⟨p, hp, h⟩
        obtain ⟨q, hq, rfl⟩ := List.mem_map.1 hp
        rcases h with h | h
        · exact h2 ⟨q, hq, h⟩
        · apply h1
          refine ⟨q, hq, Or.inr ?_⟩
          simp only at h
          linarith

namespace Spec

/-- The Darendeli state of a soil layer with vertical stress `sv`. -/
noncomputable def layerState (r : Row ℝ) (sv : ℝ) : DState :=
  ⟨sv, piOne r.vs, ocrOne none r.vs sv, k0One 30 (ocrOne none r.vs sv)⟩

/-- Damping (percent) at strain `g` on a curve through the small-strain damping of the layer: `g0` is the first strain. -/
noncomputable def dampAt (r : Row ℝ) (sv g0 g : ℝ) : ℝ :=
  100 * (r.xi + (darXi (layerState r sv) g - darXi (layerState r sv) g0))

end Spec

open Spec (layerState dampAt)

theorem darendeli_layers (soil : List (Row ℝ)) (sv strain : List ℝ) (hl : sv.length = soil.length) (hs : (0 : ℝ) ∉ strain) :
    ∃ c, darendeli sv (.arr (soil.map fun r => piOne r.vs)) (.arr (calcOCR none (soil.map Row.vs) sv)) none (.num 30)
        (some strain) = .ok c ∧ soil.zip c.xi = (soil.zip sv).map fun q => (q.1, strain.map (darXi (layerState q.1 q.2))) := by
  unfold darendeli darStates
  have l1 : (calcOCR none (soil.map Row.vs) sv).length = sv.length := by simp [calcOCR, hl]
  simp only [NumArg.extend, bind, Except.bind, pure, Except.pure, List.length_map, hl, if_true, l1, if_neg hs]
  refine ⟨_, rfl, ?_⟩
  apply List.ext_getElem
  · simp [calcOCR, hl]
  · intro i h1 h2
    simp [layerState, calcOCR]

/-- Every damping curve starts at the damping of its layer, has the strains asked for, follows the Darendeli increments and
is within 0 and 100%; construction fails exactly when a value would leave that range. -/
theorem C49_start (rows : List (Row ℝ)) (g0 : ℝ) (gs : List ℝ) (hv : Valid5 rows) (hn : 2 ≤ rows.length)
    (hg : ∀ g ∈ g0 :: gs, 0 < g) :
    ∃ sv, vertStress (rows.dropLast.map Row.thk) (rows.dropLast.map Row.rho) = .ok (sv, rows.dropLast.map Row.thk) ∧
      sv.length = rows.length - 1 ∧ (∀ s ∈ sv, 0 < s) ∧
      ((∀ q ∈ rows.dropLast.zip sv, ∀ g ∈ g0 :: gs, 0 ≤ dampAt q.1 q.2 g0 g ∧ dampAt q.1 q.2 g0 g ≤ 100) →
        ∃ cs, getDampingCurves rows (g0 :: gs) false = .ok cs ∧ cs.length = rows.length - 1 ∧
          ∀ (j : Nat) r s, rows.dropLast[j]? = some r → sv[j]? = some s →
            cs[j]? = some ((g0 :: gs).map fun g => (g, dampAt r s g0 g)) ∧
            ∃ rest, cs[j]? = some ((g0, 100 * r.xi) :: rest)) ∧
      ((∃ q ∈ rows.dropLast.zip sv, ∃ g ∈ g0 :: gs, dampAt q.1 q.2 g0 g < 0 ∨ 100 < dampAt q.1 q.2 g0 g) →
        getDampingCurves rows (g0 :: gs) false = .error .valueError) := by
  have hdl : rows.dropLast.length = rows.length - 1 := List.length_dropLast
  obtain ⟨sv, h1, h2, h3, _⟩ := C45_increasing (rows.dropLast.map Row.thk) (rows.dropLast.map Row.rho)
    (by intro e; have := congrArg List.length e; simp at this; omega) (by simp)
    (by intro x hx; obtain ⟨r, hr, rfl⟩ := List.mem_map.1 hx; exact hv.thk_pos r hr)
    (by intro x hx; obtain ⟨r, hr, rfl⟩ := List.mem_map.1 hx; exact (hv.pos r (List.mem_of_mem_dropLast hr)).2.2)
  rw [List.length_map] at h2
  obtain ⟨c, c1, c2⟩ := darendeli_layers rows.dropLast sv (g0 :: gs) h2 (fun h => lt_irrefl _ (hg 0 h))
  have hone : ∀ q ∈ rows.dropLast.zip sv, (match rebase false q.1.xi ((g0 :: gs).map (darXi (layerState q.1 q.2))) with
        | .error e => (.error e : Except PyErr (List (ℝ × ℝ)))
        | .ok xi => dampCurve (g0 :: gs) xi) =
      if ∃ g ∈ g0 :: gs, dampAt q.1 q.2 g0 g < 0 ∨ 100 < dampAt q.1 q.2 g0 g then .error .valueError
      else .ok ((g0 :: gs).map fun g => (g, dampAt q.1 q.2 g0 g)) := by
    intro q _
    have er : rebase false q.1.xi ((g0 :: gs).map (darXi (layerState q.1 q.2))) =
        .ok ((g0 :: gs).map fun g => dampAt q.1 q.2 g0 g / 100) := by
      unfold rebase
      simp only [Bool.false_eq_true, if_false, List.map_cons, List.map_map]
      congr 1
      rw [List.cons.injEq]
      refine ⟨by unfold dampAt; ring, ?_⟩
      apply List.map_congr_left
      intro g _
      simp only [Function.comp, dampAt]
      ring
    rw [er]
    simp only
    rw [dampCurve_eq]
    have ez : (g0 :: gs).zip ((g0 :: gs).map fun g => dampAt q.1 q.2 g0 g / 100) =
        (g0 :: gs).map fun g => (g, dampAt q.1 q.2 g0 g / 100) := by
      apply List.ext_getElem
      · simp
      · intro i h1 h2
        rw [List.getElem_zip, List.getElem_map, List.getElem_map]
    rw [ez]
    have hiff : ((∃ p ∈ (g0 :: gs).map fun g => (g, dampAt q.1 q.2 g0 g / 100), p.1 < 0 ∨ p.2 < 0) ∨
        (∃ p ∈ (g0 :: gs).map fun g => (g, dampAt q.1 q.2 g0 g / 100), 100 < p.2 * 100)) ↔
        ∃ g ∈ g0 :: gs, dampAt q.1 q.2 g0 g < 0 ∨ 100 < dampAt q.1 q.2 g0 g := by
      constructor
      · rintro (⟨p, hp, h⟩ | ⟨p, hp, h⟩)
        · obtain ⟨g, hgm, rfl⟩ := List.mem_map.1 hp
          rcases h with h | h
          · exact absurd h (not_lt.2 (hg g hgm).le)
          · simp only at h
            exact ⟨g, hgm, Or.inl (by linarith)⟩
        · obtain ⟨g, hgm, rfl⟩ := List.mem_map.1 hp
          simp only at h
          exact ⟨g, hgm, Or.inr (by linarith)⟩
      · rintro ⟨g, hgm, h | h⟩
        · exact Or.inl ⟨_, List.mem_map_of_mem hgm, Or.inr (by simp only; linarith)⟩
        · exact Or.inr ⟨_, List.mem_map_of_mem hgm, by simp only; linarith⟩
    by_cases hb : ∃ g ∈ g0 :: gs, dampAt q.1 q.2 g0 g < 0 ∨ 100 < dampAt q.1 q.2 g0 g
    · rw [if_pos hb, if_pos (hiff.2 hb)]
    · rw [if_neg hb, if_neg (fun h => hb (hiff.1 h)), List.map_map]
      congr 1
      apply List.map_congr_left
      intro g _
      simp only [Function.comp]
      rw [div_mul_cancel₀ _ (by norm_num)]
  have hunf : getDampingCurves rows (g0 :: gs) false = (rows.dropLast.zip sv).mapM fun q =>
      (match rebase false q.1.xi ((g0 :: gs).map (darXi (layerState q.1 q.2))) with
        | .error e => (.error e : Except PyErr (List (ℝ × ℝ)))
        | .ok xi => dampCurve (g0 :: gs) xi) := by
    unfold getDampingCurves
    simp only [h1, c1, c2]
    rw [List.mapM_map]
    rfl
  refine ⟨sv, h1, by omega, h3, ?_, ?_⟩
  · intro hok
    obtain ⟨cs, k1, k2⟩ := mapM_ok_of (fun q : Row ℝ × ℝ =>
      (match rebase false q.1.xi ((g0 :: gs).map (darXi (layerState q.1 q.2))) with
        | .error e => (.error e : Except PyErr (List (ℝ × ℝ)))
        | .ok xi => dampCurve (g0 :: gs) xi)) (fun q cv => cv = (g0 :: gs).map fun g => (g, dampAt q.1 q.2 g0 g))
      (rows.dropLast.zip sv) (by
        intro q hq
        refine ⟨_, ?_, rfl⟩
        rw [hone q hq, if_neg]
        rintro ⟨g, hgm, h⟩
        obtain ⟨b1, b2⟩ := hok q hq g hgm
        rcases h with h | h <;> linarith)
    refine ⟨cs, by rw [hunf]; exact k1, by rw [← k2.length_eq, List.length_zip, h2, hdl]; simp, ?_⟩
    intro j r s hr hs
    have hz : (rows.dropLast.zip sv)[j]? = some (r, s) := by rw [List.getElem?_zip_eq_some]; exact ⟨hr, hs⟩
    obtain ⟨hj, e⟩ := List.getElem?_eq_some_iff.1 hz
    have hjc : j < cs.length := by rw [← k2.length_eq]; exact hj
    have := (List.forall₂_iff_get.1 k2).2 j hj hjc
    simp only [List.get_eq_getElem, e] at this
    have h0 : cs[j]? = some ((g0 :: gs).map fun g => (g, dampAt r s g0 g)) := by
      rw [List.getElem?_eq_getElem hjc, this]
    refine ⟨h0, gs.map fun g => (g, dampAt r s g0 g), ?_⟩
    rw [h0, List.map_cons]
    have : dampAt r s g0 g0 = 100 * r.xi := by unfold dampAt; ring
    rw [this]
  · intro hbad
    rw [hunf]
    generalize rows.dropLast.zip sv = L at hone hbad
    induction L with
    | nil => obtain ⟨q, hq, _⟩ := hbad; simp at hq
    | cons q L ih =>
      rw [List.mapM_cons, hone q List.mem_cons_self]
      by_cases hb : ∃ g ∈ g0 :: gs, dampAt q.1 q.2 g0 g < 0 ∨ 100 < dampAt q.1 q.2 g0 g
      · rw [if_pos hb]; rfl
      · rw [if_neg hb]
        obtain ⟨q', hq', hx⟩ := hbad
        rcases List.mem_cons.1 hq' with rfl | hq'
        · exact absurd hx hb
        · simp only [bind, Except.bind]
          have := ih (fun q hq => hone q (List.mem_cons_of_mem _ hq)) ⟨q', hq', hx⟩
          rw [this]

end Verif
