import Verif.Props.EveryLayerFlat

/-!
C214: with a rigid boundary, the motion returned for the base of the soil column is the input motion.
-/

set_option linter.unusedSectionVars false
set_option linter.unusedVariables false

namespace Verif

open Spec (Valid5 DampedLay Hermitian initial before)

/-- A layer given by its shear modulus, as one given by its velocity. -/
theorem glay_of (g : GLay) (h : 0 ≤ g.h ∧ 0 < g.G ∧ 0 < g.D ∧ 0 < g.rho) : ∃ l : Lay, DampedLay l ∧ toG l = g := by
  obtain ⟨h1, h2, h3, h4⟩ := h
  refine ⟨⟨g.h, Real.sqrt (g.G / g.rho), g.D, g.rho⟩, ⟨h1, Real.sqrt_pos.2 (div_pos h2 h4), h4, h3⟩, ?_⟩
  have : g.rho * Real.sqrt (g.G / g.rho) ^ 2 = g.G := by
    rw [Real.sq_sqrt (div_pos h2 h4).le]; field_simp
  unfold toG
  simp only [this]

theorem glays_of (gs : List GLay) (h : ∀ g ∈ gs, 0 ≤ g.h ∧ 0 < g.G ∧ 0 < g.D ∧ 0 < g.rho) :
    ∃ ls : List Lay, ls.map toG = gs ∧ ∀ l ∈ ls, DampedLay l := by
  induction gs with
  | nil => exact ⟨[], rfl, by simp⟩
  | cons g gs ih =>
    obtain ⟨l, d, e⟩ := glay_of g (h g (by simp))
    obtain ⟨ls, e', d'⟩ := ih fun x hx => h x (by simp [hx])
    refine ⟨l :: ls, by rw [List.map_cons, e, e'], fun x hx => ?_⟩
    rcases List.mem_cons.1 hx with rfl | hx
    · exact d
    · exact d' x hx

/-- At a rigid base the two amplitudes are equal. -/
theorem scan_rigid_same {w : ℝ} : ∀ (ls : List Lay) (l m : Lay) (p : ℂ × ℂ),
    ((abScan w p (((l :: m :: ls).map toG).zip (rigidAlphas
      (List.zipWith alphaG ((l :: m :: ls).map toG) ((l :: m :: ls).map toG).tail)))).getLastD (1, 1)).2
      = ((abScan w p (((l :: m :: ls).map toG).zip (rigidAlphas
      (List.zipWith alphaG ((l :: m :: ls).map toG) ((l :: m :: ls).map toG).tail)))).getLastD (1, 1)).1 := by
  intro ls
  induction ls with
  | nil =>
    intro l m p
    simp [rigidAlphas, abScan, abNext]
  | cons n ls ih =>
    intro l m p
    have e : List.zipWith alphaG ((l :: m :: n :: ls).map toG) ((l :: m :: n :: ls).map toG).tail =
        alphaG (toG l) (toG m) :: List.zipWith alphaG ((m :: n :: ls).map toG) ((m :: n :: ls).map toG).tail := rfl
    rw [e, rigid_cons _ _ (by simp), List.map_cons, List.zip_cons_cons, abScan,
      getLastD_cons_ne _ _ (abScan_ne_nil _ _ _)]
    exact ih m n _

theorem abScan_length (w : ℝ) (L : List (GLay × ℂ)) : ∀ p : ℂ × ℂ, (abScan w p L).length = L.length + 1 := by
  induction L with
  | nil => intro p; rfl
  | cons a L ih => intro p; obtain ⟨a, b⟩ := a; rw [abScan, List.length_cons, ih]; rfl

/-- The value of the frequency response at the base is 2, at every frequency: the input is halved. -/
theorem base_row (w : ℝ) (hw : 0 < w) (ls : List Lay) (hd : ∀ l ∈ ls, DampedLay l) (h2 : 2 ≤ ls.length) (row : List ℂ)
    (hr : hRow .rigid w (ls.map toG) = .ok row) : row.getD (ls.length - 1) 0 = 2 := by
  match ls, h2 with
  | l :: m :: ls, _ =>
    rw [hRow, alphasG_rigid] at hr
    have hr := (Except.ok.inj hr).symm
    have hne := abScan_ne_nil w (1, 1) (((l :: m :: ls).map toG).zip (rigidAlphas
      (List.zipWith alphaG ((l :: m :: ls).map toG) ((l :: m :: ls).map toG).tail)))
    have hsame := scan_rigid_same (w := w) ls l m (1, 1)
    have hval := scan_rigid (w := w) ls l m (1, 1) fun x hx => ⟨(hd x hx).2.1, (hd x hx).2.2.1⟩
    have hlen := abScan_length w (((l :: m :: ls).map toG).zip (rigidAlphas
      (List.zipWith alphaG ((l :: m :: ls).map toG) ((l :: m :: ls).map toG).tail))) (1, 1)
    have hn := (den_ne hw (by simp) hd).2
    rw [(eMat_den w (l :: m :: ls)).2] at hn
    generalize abScan w (1, 1) (((l :: m :: ls).map toG).zip (rigidAlphas
      (List.zipWith alphaG ((l :: m :: ls).map toG) ((l :: m :: ls).map toG).tail))) = ab at *
    have hlen' : ab.length = (l :: m :: ls).length := by
      rw [hlen]; simp [rigidAlphas]
    have hlast : ab[(l :: m :: ls).length - 1]? = some (ab.getLastD (1, 1)) := by
      rw [← hlen', ← List.getLast?_eq_getElem?, List.getLastD_eq_getLast?, List.getLast?_eq_some_getLast hne]; rfl
    rw [hr, List.getD_eq_getElem?_getD, List.getElem?_map, hlast]
    simp only [Option.map_some, Option.getD_some]
    rw [hsame, ← two_mul, mul_div_assoc, div_self, mul_one]
    rw [hval]
    exact div_ne_zero hn two_ne_zero

theorem ifft_double (A : List ℂ) : ifftL (A.map (· * 2)) = (ifftL A).map (· * 2) := by
  apply list_ext_getD
  · simp [ifftL_length]
  · intro k hk
    have hk' : k < A.length := by simpa [ifftL_length] using hk
    have e : ∀ (l : List ℂ) (j : Nat), (l.map (· * 2)).getD j 0 = l.getD j 0 * 2 := by
      intro l j
      simp only [List.getD_eq_getElem?_getD, List.getElem?_map]
      cases l[j]? <;> simp
    rw [e, ifftL_getD _ _ (by simpa using hk'), ifftL_getD _ _ hk', List.length_map, div_mul_eq_mul_div, Finset.sum_mul]
    congr 1
    apply Finset.sum_congr rfl
    intro j _
    rw [e]; ring

/-- A frequency response which is 2 at every frequency doubles the motion. -/
theorem accelCol_two (a : List ℝ) : accelCol (fftL (cx a)) (List.replicate a.length 2) = a.map (· * 2) := by
  unfold accelCol
  have : List.zipWith (· * ·) (fftL (cx a)) (List.replicate a.length (2 : ℂ)) = (fftL (cx a)).map (· * 2) := by
    apply List.ext_getElem?
    intro k
    rw [List.getElem?_zipWith, List.getElem?_map]
    by_cases hk : k < a.length
    · rw [List.getElem?_replicate, if_pos hk]
      cases (fftL (cx a))[k]? <;> rfl
    · rw [List.getElem?_eq_none (by rw [fftL_length]; simpa using hk)]; rfl
  rw [this, ifft_double, ifft_fft]
  simp only [cx, List.map_map]
  apply List.map_congr_left
  intro y _
  simp

theorem base_accel {dt : ℝ} {acc : List ℝ} {Rg : ℝ} {h G D rho : List ℝ} {r : Resp × List ℝ} (hN : acc.length % 2 = 1) (h3 : 3 ≤ acc.length)
    (hdt : 0 < dt) (h1 : G.length = h.length) (h2 : D.length = h.length) (h3' : rho.length = h.length) (hl : 2 ≤ h.length)
    (hd : ∀ g ∈ gLays h G D rho, 0 ≤ g.h ∧ 0 < g.G ∧ 0 < g.D ∧ 0 < g.rho)
    (hr : linResp dt .rigid acc Rg h G D rho = .ok r) : r.1.accel.getLast? = some (acc.map (· * 2)) := by
  obtain ⟨a1, a2, -, -, -, -, a7, a8, -⟩ := linResp_ok hN h1 h2 h3' hr
  obtain ⟨ls, hls, hdl⟩ := glays_of _ hd
  have hlen : ls.length = h.length := by
    rw [← gLays_length h1 h2 h3', ← hls]; simp
  rw [← hls] at a1
  have hNpos : (0 : ℝ) < acc.length := by exact_mod_cast (by omega : 0 < acc.length)
  obtain ⟨c, c1, c2, c3, c4, c5⟩ := hMatrix_get hN (by omega) hdt.ne' a1 (ls.length - 1) (by simp; omega)
  have hm : ∀ m, m < (acc.length + 1) / 2 → c[m]? = some 2 := by
    intro m hm
    rcases Nat.eq_zero_or_pos m with rfl | hm0
    · obtain ⟨row, hrow, hc⟩ := c5
      rw [base_row _ (by positivity) ls hdl (by omega) row hrow] at hc
      simpa using hc
    · obtain ⟨row, hrow, hc⟩ := c4 m hm0 hm
      rw [base_row _ (by positivity) ls hdl (by omega) row hrow] at hc
      exact hc
  have hc : c = List.replicate acc.length 2 := by
    apply list_ext_getD (by simp [c2])
    intro k hk
    have e2 : (List.replicate acc.length (2 : ℂ)).getD k 0 = 2 := by
      rw [List.getD_eq_getElem?_getD, List.getElem?_replicate, if_pos (by omega)]; rfl
    rw [e2]
    by_cases hkh : k < (acc.length + 1) / 2
    · rw [List.getD_eq_getElem?_getD, hm k hkh]; rfl
    · have := hermitian_getD c3 (k := c.length - k) (by omega) (by omega)
      rw [show c.length - (c.length - k) = k by omega, List.getD_eq_getElem?_getD (l := c) (i := c.length - k),
        hm _ (by omega)] at this
      rw [this]; exact Complex.conj_ofNat 2
  have hlast : r.1.H.getLast? = some c := by
    rw [List.getLast?_eq_getElem?, a7.1, ← hlen]; exact c1
  rw [a2, List.getLast?_map, hlast, hc]
  exact congrArg some (accelCol_two acc)

theorem unpad_map {α β : Type} (e : Bool) (f : α → β) (l : List α) : unpad e (l.map f) = (unpad e l).map f := by
  unfold unpad
  split
  · rw [List.map_dropLast]
  · rfl

theorem unpad_double {x : Rec ℝ} {pm : PrepMotion} (h : unpad pm.even pm.a = (x.map Prod.snd).map (· / 2)) :
    unpad pm.even (pm.a.map (· * 2)) = x.map Prod.snd := by
  rw [unpad_map, h, List.map_map]
  conv_rhs => rw [← List.map_id (x.map Prod.snd)]
  apply List.map_congr_left
  intro y _
  simp

/-- C214, linear solver: with a rigid boundary the acceleration returned for the base of the column (the last one of the layers) is the
input acceleration, sample by sample, whatever soil lies above it. -/
theorem C214_linear {rows : List (Row ℝ)} {x : Rec ℝ} {dt : ℝ} {last : Row ℝ} {o : SimOut} (hv : Valid5 rows)
    (hl : rows.getLast? = some last) (h0 : last.thk = 0) (h2 : 2 ≤ x.length) (hdt : dtOf x = .ok dt) (hd0 : 0 < dt)
    (hr : 2 ≤ rows.length) (ho : linearSim rows x .rigid = .ok o) : o.a.getLast? = some (x.map Prod.snd) := by
  obtain ⟨_, pm, r, hp, hpd, hNa, hodd, h3, hres, hH, -, -, ta, -⟩ := linearSim_tf hv hl h0 h2 hdt hd0.ne' (fun _ => hr) ho _ rfl
  obtain ⟨sv, sl, _, _, s2⟩ := stratify5_valid hv hl h0
  obtain ⟨pm', hp', _, _, _, _, _, _, _, hu⟩ := prepMotion_ok x h2
  rw [hp] at hp'; cases hp'
  have hd : ∀ g ∈ gLays ((stratify5 rows).map Row.thk) ((stratify5 rows).map fun r => r.rho * r.vs ^ 2)
      ((stratify5 rows).map Row.xi) ((stratify5 rows).map Row.rho), 0 ≤ g.h ∧ 0 < g.G ∧ 0 < g.D ∧ 0 < g.rho := by
    rw [gLays_rows]
    intro g hg
    obtain ⟨l, hl, rfl⟩ := List.mem_map.1 hg
    obtain ⟨q, hq, rfl⟩ := List.mem_map.1 hl
    obtain ⟨p1, p2, p3⟩ := sv.pos q hq
    exact ⟨sv.thk_nonneg q hq, mul_pos p3 (pow_pos p1 2), p2, p3⟩
  have := base_accel (by omega) (by omega) hd0 (by simp) (by simp) (by simp) (by simpa using s2 hr) hd hres
  rw [ta, List.getLast?_map, this]
  exact congrArg some (unpad_double hu)

theorem mem_gLays {h G D rho : List ℝ} {g : GLay} (hg : g ∈ gLays h G D rho) :
    ∃ k : Nat, h[k]? = some g.h ∧ G[k]? = some g.G ∧ D[k]? = some g.D ∧ rho[k]? = some g.rho := by
  obtain ⟨k, hk⟩ := List.mem_iff_getElem?.1 hg
  refine ⟨k, ?_⟩
  unfold gLays at hk
  simp only [List.zip, List.getElem?_zipWith] at hk
  cases e1 : h[k]? with
  | none => rw [e1] at hk; cases hk
  | some a =>
    cases e2 : G[k]? with
    | none => rw [e1, e2] at hk; cases hk
    | some b =>
      cases e3 : D[k]? with
      | none => rw [e1, e2, e3] at hk; cases hk
      | some c =>
        cases e4 : rho[k]? with
        | none => rw [e1, e2, e3, e4] at hk; cases hk
        | some d =>
          rw [e1, e2, e3, e4] at hk
          cases hk
          exact ⟨rfl, rfl, rfl, rfl⟩

/-- C214, equivalent-linear solver: with a rigid boundary and degradation curves (G/Gmax in (0, 1], damping smallest at its start) the
acceleration returned for the base is the input acceleration, whatever the iteration does. -/
theorem C214_equiv {rows : List (Row ℝ)} {x : Rec ℝ} {cols : List (List ℝ)} {tol Rg dt : ℝ}
    {maxIter : Int} {verbose : Bool} {last : Row ℝ} {o : SimOut} (hv : Valid5 rows)
    (hl : rows.getLast? = some last) (h0 : last.thk = 0) (h2 : 2 ≤ x.length)
    (hdt : dtOf x = .ok dt) (hd0 : 0 < dt) (hr : 2 ≤ rows.length)
    (hn : checkLayerCount ((cols.length / 4 : Nat) : Int) (rows.map Row.mat) = .ok ()) (hcols : ∀ c ∈ cols, c ≠ [])
    (hdeg : ∀ (m : Nat) gcol, cols[4 * m + 1]? = some gcol → ∀ x ∈ gcol, 0 < x ∧ x ≤ 1)
    (hdmp : ∀ (m : Nat) dcol d0, cols[4 * m + 3]? = some dcol → dcol.head? = some d0 → ∀ x ∈ dcol, d0 ≤ x)
    (ho : equivLinear rows x cols .rigid tol Rg maxIter verbose = .ok o) : o.a.getLast? = some (x.map Prod.snd) := by
  obtain ⟨pm, hp, hpd, hsp⟩ := simPrepare_ok hv h2 hdt hd0.ne'
  obtain ⟨sv, sl, sall, _, s2⟩ := stratify5_valid hv hl h0
  obtain ⟨pm', hp', _, hodd, h3, _, _, _, _, hu⟩ := prepMotion_ok x h2
  rw [hp] at hp'; cases hp'
  have hn : checkLayerCount ((cols.length / 4 : Nat) : Int) ((stratify5 rows).map Row.mat) = .ok () := by
    rw [C60_accept] at hn ⊢
    refine ⟨by simpa using sv.nonempty, ?_⟩
    intro m hm
    obtain ⟨q, hq, rfl⟩ := List.mem_map.mp hm
    obtain ⟨r, hr, he⟩ := sall q hq
    rw [he]
    exact hn.2 _ (List.mem_map.mpr ⟨r, hr, rfl⟩)
  have hne : stratify5 rows ≠ [] := sv.nonempty
  unfold equivLinear at ho
  rw [hsp] at ho
  simp only [bind, Except.bind] at ho
  cases hit : eqIterate (linResp pm.dt .rigid pm.a Rg) (stratify5 rows) cols tol maxIter verbose with
  | error e => rw [hit] at ho; cases ho
  | ok p =>
    obtain ⟨s, r⟩ := p
    rw [hit] at ho
    simp only at ho
    have hone := linResp_oneStrain pm.dt .rigid pm.a Rg hodd
    obtain ⟨cs, s1, c, eff, hcs, hwf, hcur, ht, hrho, hlr, hlg, hok, ps⟩ := eqIterate_last hne hone hit
    -- acceleration of the results
    have hoa : o.a = r.accel.map (unpad pm.even) := by
      unfold postProcess at ho
      simp only [bind, Except.bind] at ho
      split at ho
      · cases ho
      split at ho
      · cases ho
      split at ho
      · cases ho
      split at ho
      · cases ho
      split at ho
      · cases ho
      cases ho
      rfl
    have hpl : s1.prof.length = (stratify5 rows).length := by simpa using congrArg List.length ht
    have hlenpos : 0 < (stratify5 rows).length := List.length_pos_iff.mpr hne
    have hGl : s1.G.length = (stratify5 rows).length := by rw [hwf.G]; omega
    have h2s := s2 hr
    -- all values of the pass are positive
    have hcurpos : ∀ (k : Nat) (row : Row ℝ), (stratify5 rows).dropLast[k]? = some row → ∃ G D, s1.curr[k]? = some (G, D) ∧ 0 < G ∧ 0 < D := by
      intro k row hk
      have hrp := sv.pos row (List.dropLast_subset _ (List.mem_of_getElem? hk))
      rw [hcur]
      rcases Nat.eq_zero_or_pos (s.hist.length - 1) with hz | hz
      · rw [hz]
        refine ⟨row.rho * row.vs ^ 2, row.xi, ?_, mul_pos hrp.2.2 (pow_pos hrp.1 2), hrp.2.1⟩
        show (initial (stratify5 rows))[k]? = _
        unfold initial
        rw [List.getElem?_map, hk]; rfl
      · obtain ⟨i, hi⟩ : ∃ i, s.hist.length - 1 = i + 1 := ⟨_, (Nat.succ_pred_eq_of_pos hz).symm⟩
        rw [hi]
        have hil : i < s.hist.length := by omega
        have hv' : before (initial (stratify5 rows)) s.hist (i + 1) = s.hist[i] := by
          show s.hist.getD i [] = _
          rw [List.getD_eq_getElem _ _ hil]
        rw [hv']
        obtain ⟨G, D, g1, g2, g3, g4⟩ := C38_degradation sv hone hn hcols hit s.hist[i] (List.getElem_mem hil) k row hk
          (fun m gcol _ hg => hdeg m gcol hg) (fun m dcol d0 _ hd hh => hdmp m dcol d0 hd hh)
        exact ⟨G, D, g1, g2, hrp.2.1.trans_le g4⟩
    have hd : ∀ g ∈ gLays (s1.prof.map Row.thk) s1.G (s1.prof.map Row.xi) (s1.prof.map Row.rho),
        0 ≤ g.h ∧ 0 < g.G ∧ 0 < g.D ∧ 0 < g.rho := by
      intro g hg
      obtain ⟨k, k1, k2, k3, k4⟩ := mem_gLays hg
      rw [ht, List.getElem?_map, Option.map_eq_some_iff] at k1
      obtain ⟨q, hq, hqh⟩ := k1
      rw [hrho, List.getElem?_map, hq] at k4
      have hqr : q.rho = g.rho := by simpa using k4
      have hqm := List.mem_of_getElem? hq
      have hk : k < (stratify5 rows).length := (List.getElem?_eq_some_iff.1 hq).1
      refine ⟨by rw [← hqh]; exact sv.thk_nonneg q hqm, ?_, ?_, by rw [← hqr]; exact (sv.pos q hqm).2.2⟩
      all_goals by_cases hkl : k < (stratify5 rows).length - 1
      · obtain ⟨G, D, g1, g2, g3⟩ := hcurpos k q (by rw [List.getElem?_dropLast, if_pos hkl]; exact hq)
        unfold EqState.curr at g1
        rw [List.zip_eq_zipWith, List.getElem?_zipWith, List.getElem?_dropLast, if_pos (by omega), k2] at g1
        cases hx : (s1.prof.dropLast.map Row.xi)[k]? with
        | none => rw [hx] at g1; cases g1
        | some y => rw [hx] at g1; cases g1; exact g2
      · have : s1.G[k]? = s1.G.getLast? := by rw [List.getLast?_eq_getElem?]; congr 1; omega
        rw [this, hlg] at k2
        have hq2 : (stratify5 rows).getLast? = some q := by rw [List.getLast?_eq_getElem?, ← hq]; congr 1; omega
        rw [hq2] at k2
        have : q.rho * q.vs ^ 2 = g.G := by simpa using k2
        rw [← this]
        exact mul_pos (sv.pos q hqm).2.2 (pow_pos (sv.pos q hqm).1 2)
      · obtain ⟨G, D, g1, g2, g3⟩ := hcurpos k q (by rw [List.getElem?_dropLast, if_pos hkl]; exact hq)
        unfold EqState.curr at g1
        rw [List.zip_eq_zipWith, List.getElem?_zipWith, List.getElem?_dropLast, if_pos (by omega), k2, List.map_dropLast, List.getElem?_dropLast,
          if_pos (by simp; omega), k3] at g1
        cases g1
        exact g3
      · have hq2 : (stratify5 rows).getLast? = some q := by rw [List.getLast?_eq_getElem?, ← hq]; congr 1; omega
        rw [List.getElem?_map, Option.map_eq_some_iff] at k3
        obtain ⟨q', hq', hx⟩ := k3
        have : s1.prof[k]? = s1.prof.getLast? := by rw [List.getLast?_eq_getElem?]; congr 1; omega
        rw [this, hlr, hq2] at hq'
        cases hq'
        rw [← hx]
        exact (sv.pos q hqm).2.1
    have := base_accel (r := (r, eff)) hodd h3 (by rw [hpd]; exact hd0) (by simp [hGl, hpl]) (by simp) (by simp) (by simp; omega) hd hok
    rw [hoa, List.getLast?_map, this]
    exact congrArg some (unpad_double hu)

end Verif
