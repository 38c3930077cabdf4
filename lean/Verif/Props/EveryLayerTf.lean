import Verif.Props.EveryLayerOut

/-!
Properties C88 (frequency of the reported transfer function) and C90 (stress and strain).
-/

set_option linter.unusedSectionVars false
set_option linter.unusedVariables false

open Complex ComplexConjugate

namespace Verif

open Spec (Valid5 OneStrainPerLayer Hermitian Table Fits CloseTo before DampedLay MakesUp)

/-! ## C88 -/

/-- A row of a profile as a layer of the wave-propagation model. -/
def Spec.rowLay (r : Row ℝ) : Lay := ⟨r.thk, r.vs, r.xi, r.rho⟩

open Spec (rowLay)

theorem gLays_rows (prof : List (Row ℝ)) :
    gLays (prof.map Row.thk) (prof.map fun r => r.rho * r.vs ^ 2) (prof.map Row.xi) (prof.map Row.rho)
      = (prof.map rowLay).map toG := by
  induction prof with
  | nil => rfl
  | cons r l ih =>
    unfold gLays at ih ⊢
    simp only [List.map_cons, List.zip_cons_cons, List.zipWith_cons_cons, ih]
    rfl

theorem simFreqs_getD (N : Nat) (dt : ℝ) (i : Nat) (h : i < N) :
    (simFreqs N dt).getD i 0 = ((i : ℝ) + 1) / (N * dt) := by
  unfold simFreqs
  rw [List.getD_eq_getElem?_getD, List.getElem?_map, List.getElem?_range h]
  rfl

/-- The over-sampled grid has the spacing `df / 15` and starts at `df / 15`. -/
theorem overOmega_eq (N : Nat) (dt : ℝ) (hN : 2 ≤ N) (hdt : dt ≠ 0) (i : Nat) (hi : i < N * 15) :
    overOmega N dt i = 2 * Real.pi * (((i : ℝ) + 1) / 15 * (1 / (N * dt))) := by
  unfold overOmega
  simp only
  rw [simFreqs_getD N dt 1 (by omega), simFreqs_getD N dt 0 (by omega), simFreqs_getD N dt (N - 1) (by omega),
    List.getD_eq_getElem?_getD, linspace_getElem? _ _ _ _ hi]
  simp only [Option.getD_some]
  have h1 : (N : ℝ) ≠ 0 := by
    have : (0 : ℝ) < N := by exact_mod_cast (by omega : 0 < N)
    exact this.ne'
  have h2 : (15 * (N : ℝ) - 1) ≠ 0 := by
    have : (2 : ℝ) ≤ N := by exact_mod_cast hN
    intro h; linarith
  have h3 : ((N - 1 : Nat) : ℝ) = (N : ℝ) - 1 := by
    rw [Nat.cast_sub (by omega)]; simp
  rw [h3]
  push_cast
  have h4 : ((N : ℝ) * 15 - 1) ≠ 0 := by rw [mul_comm]; exact h2
  generalize hd : (N : ℝ) * 15 - 1 = d at h4
  field_simp
  have : (N : ℝ) * 15 = d + 1 := by linarith
  linear_combination (i : ℝ) * this

theorem hRow_al (b : Boundary) (w : ℝ) (ls : List GLay) (al : List ℂ) (h : alphasG b ls = .ok al) :
    hRow b w ls = .ok (hRowAl al w ls) := by
  unfold hRow hRowAl
  rw [h]

/-- The frequency response used for the motion at the top of layer `k`: at positive frequencies the value
of the over-sampled grid belonging to `(m + 1/15) df`. -/
theorem hMatrix_get {N : Nat} {dt : ℝ} {b : Boundary} {ls : List GLay} {H : List (List ℂ)} (hN : N % 2 = 1) (h3 : 2 ≤ N)
    (hdt : dt ≠ 0) (h : hMatrix N dt b ls = .ok H) (k : Nat) (hk : k < ls.length) :
    ∃ c, H[k]? = some c ∧ c.length = N ∧ Hermitian c ∧
      (∀ m, 0 < m → m < (N + 1) / 2 → ∃ row, hRow b (2 * Real.pi * (((m : ℝ) + 1 / 15) * (1 / (N * dt)))) ls = .ok row ∧
        c[m]? = some (row.getD k 0)) ∧
      (∃ row, hRow b (2 * Real.pi * (1 / 15 * (1 / (N * dt)))) ls = .ok row ∧ c[0]? = some (((row.getD k 0).re : ℝ) : ℂ)) := by
  unfold hMatrix at h
  cases ha : alphasG b ls with
  | error e => rw [ha] at h; cases h
  | ok al =>
    rw [ha] at h
    cases h
    refine ⟨hColumn N fun i => (hRowAl al (overOmega N dt i) ls).getD k 0, ?_, ?_⟩
    · rw [List.getElem?_map, List.getElem?_range hk]; rfl
    · obtain ⟨g1, g2, g3, _⟩ := C29_every_layer N hN (fun i => (hRowAl al (overOmega N dt i) ls).getD k 0)
        (List.replicate N 0) (by simp)
      refine ⟨g1, g2, ?_, ?_⟩
      · intro m hm0 hm
        refine ⟨_, hRow_al _ _ _ _ ha, ?_⟩
        rw [g3 m hm0 hm, overOmega_eq N dt h3 hdt _ (by omega)]
        have : (((15 * m : Nat) : ℝ) + 1) / 15 = (m : ℝ) + 1 / 15 := by push_cast; ring
        rw [this]
      · refine ⟨_, hRow_al _ _ _ _ ha, ?_⟩
        have : (1 : ℝ) / 15 = (((0 : Nat) : ℝ) + 1) / 15 := by norm_num
        rw [this, ← overOmega_eq N dt h3 hdt 0 (by omega)]
        unfold hColumn
        simp only
        obtain ⟨s1, s2⟩ := subsample_get 15 (by omega) (realFirst ((List.range ((N * 15 + 1) / 2)).map fun i =>
            (hRowAl al (overOmega N dt i) ls).getD k 0) ++ ((realFirst ((List.range ((N * 15 + 1) / 2)).map fun i =>
            (hRowAl al (overOmega N dt i) ls).getD k 0)).drop 1).reverse.map (starRingEnd ℂ))
        rw [s2 0 (by simp [realFirst_length]; omega)]
        obtain ⟨q, hq⟩ : ∃ q, (N * 15 + 1) / 2 = q + 1 := ⟨(N * 15 + 1) / 2 - 1, by omega⟩
        rw [hq, List.range_succ_eq_map]
        simp [realFirst]

/-- Values of the reported frequencies and transfer function for a profile with `prof` as
re-discretised soil. -/
theorem linearSim_tf {rows : List (Row ℝ)} {x : Rec ℝ} {b : Boundary} {dt : ℝ} {last : Row ℝ} {o : SimOut} (hv : Valid5 rows)
    (hl : rows.getLast? = some last) (h0 : last.thk = 0) (h2 : 2 ≤ x.length) (hdt : dtOf x = .ok dt) (hd0 : dt ≠ 0)
    (hb : b = .rigid → 2 ≤ rows.length) (ho : linearSim rows x b = .ok o) (N : Nat)
    (hN : N = if x.length % 2 = 0 then x.length + 1 else x.length) :
    o.profile = stratify5 rows ∧ ∃ (pm : PrepMotion) (r : Resp × List ℝ), prepMotion x = .ok pm ∧ pm.dt = dt ∧ pm.a.length = N ∧
      N % 2 = 1 ∧ 3 ≤ N ∧
      linResp dt b pm.a (65 / 100) ((stratify5 rows).map Row.thk) ((stratify5 rows).map fun r => r.rho * r.vs ^ 2)
        ((stratify5 rows).map Row.xi) ((stratify5 rows).map Row.rho) = .ok r ∧
      hMatrix N dt b (((stratify5 rows).map rowLay).map toG) = .ok r.1.H ∧
      o.freq = (simFreqs N dt).take ((x.length + 1) / 2) ∧ o.tf = ((r.1.H.headD []).take ((x.length + 1) / 2)).map (· / 2) ∧
      o.a = r.1.accel.map (unpad pm.even) ∧ o.v = r.1.veloc.map (unpad pm.even) ∧ o.d = r.1.displ.map (unpad pm.even) ∧
      o.gamma = r.1.strain.map (unpad pm.even) ∧
      o.tau = (calcStress ((stratify5 rows).map fun r => r.rho * r.vs ^ 2) ((stratify5 rows).map Row.xi) r.1.strain).map
        (unpad pm.even) := by
  obtain ⟨pm, hp, hpd, hsp⟩ := simPrepare_ok hv h2 hdt hd0
  obtain ⟨sv, sl, _, _, s2⟩ := stratify5_valid hv hl h0
  set prof := stratify5 rows with hprof
  have hne : prof ≠ [] := sv.nonempty
  have hpos : 0 < prof.length := List.length_pos_iff.mpr hne
  obtain ⟨pm', hp', _, hodd, hp3, _, _, hpl, _⟩ := prepMotion_ok x h2
  rw [hp] at hp'; cases hp'
  obtain ⟨r, hr⟩ := linResp_total pm.dt b pm.a (65 / 100) (prof.map Row.thk) (prof.map fun r => r.rho * r.vs ^ 2)
    (prof.map Row.xi) (prof.map Row.rho) (fun hb' => by
      rw [gLays_length (by simp) (by simp) (by simp)]; simpa using s2 (hb hb'))
  obtain ⟨r1, r2, r3, r4, r5, r6, r7, r8, r9, r10, r11, r12⟩ :=
    linResp_ok hodd (by simp) (by simp) (by simp) hr
  simp only [List.length_map] at r7 r8 r9 r10 r11
  have hst := calcStress_shape pm.a.length hodd (prof.map fun r => r.rho * r.vs ^ 2) (prof.map Row.xi) r.1.strain
    (by simp) (by rw [r11.1]; simp) r11.2
  rw [r11.1] at hst
  have hp1 : prof.length = prof.length - 1 + 1 := by omega
  obtain ⟨o', ho', hf, hop, t1, t2, t3, t4, t5, t6, t7⟩ := postProcess_fits (prof := prof) (n := prof.length - 1) h2 hp hp1
    (by rw [List.getLast?_map, sl, ← h0]; rfl)
    ⟨by omega, r7.2⟩ ⟨by omega, r8.2⟩ ⟨by omega, r9.2⟩ ⟨by omega, r10.2⟩ r11 hst
  have hoo : o' = o := by
    unfold linearSim at ho
    rw [hsp] at ho
    simp only [bind, Except.bind] at ho
    rw [hr] at ho
    simp only at ho
    rw [ho'] at ho
    exact Except.ok.inj ho
  subst hoo
  have hNa : pm.a.length = N := by rw [hpl, hN]
  rw [hNa, hpd] at t1 r1
  rw [gLays_rows] at r1
  exact ⟨hop, pm, r, hp, hpd, hNa, by rw [← hNa]; exact hodd, by rw [← hNa]; exact hp3, by rw [← hpd]; exact hr, r1, t1, t2, t3, t4, t5, t6, t7⟩

/-- What the reported transfer function is: with `df = 1 / (N dt)` (`N` the length of the padded motion)
the value reported for the frequency `(m + 1) df` is the transfer function of the re-discretised profile
(rock outcrop for the elastic boundary, borehole for the rigid one) at the frequency `(m + 1/15) df`, or the
real part of it for `m = 0`.
Missing for the full property: the transfer function at the frequency reported, see
`C88_label_violated`. -/
theorem C88_tf_partial {rows : List (Row ℝ)} {x : Rec ℝ} {b : Boundary} {dt : ℝ} {last : Row ℝ} {o : SimOut} (hv : Valid5 rows)
    (hl : rows.getLast? = some last) (h0 : last.thk = 0) (h2 : 2 ≤ x.length) (hdt : dtOf x = .ok dt) (hd0 : dt ≠ 0)
    (hb : b = .rigid → 2 ≤ rows.length) (ho : linearSim rows x b = .ok o) (N : Nat)
    (hN : N = if x.length % 2 = 0 then x.length + 1 else x.length) (tf : ℝ → List Lay → ℂ)
    (htf : tf = match b with | .elastic => tfRo | .rigid => tfBh) (m : Nat) (hm : m < (x.length + 1) / 2) :
    o.freq[m]? = some (((m : ℝ) + 1) * (1 / (N * dt))) ∧
    (0 < m → o.tf[m]? = some (tf (2 * Real.pi * (((m : ℝ) + 1 / 15) * (1 / (N * dt)))) (o.profile.map rowLay))) ∧
    (m = 0 → o.tf[m]? = some (((tf (2 * Real.pi * (1 / 15 * (1 / (N * dt)))) (o.profile.map rowLay)).re : ℝ) : ℂ)) := by
  obtain ⟨hop, pm, r, _, _, _, hodd, h3, _, hH, t1, t2, _⟩ := linearSim_tf hv hl h0 h2 hdt hd0 hb ho N hN
  obtain ⟨sv, sl, _, _, s2⟩ := stratify5_valid hv hl h0
  have hne : stratify5 rows ≠ [] := sv.nonempty
  have hpos : 0 < (stratify5 rows).length := List.length_pos_iff.mpr hne
  have hlays : ∀ l ∈ (stratify5 rows).map rowLay, 0 < l.vs ∧ 0 < l.rho := by
    intro l hl
    obtain ⟨q, hq, rfl⟩ := List.mem_map.mp hl
    exact ⟨(sv.pos q hq).1, (sv.pos q hq).2.2⟩
  have hrow : ∀ w row, hRow b w (((stratify5 rows).map rowLay).map toG) = .ok row →
      row.getD 0 0 = 2 * tf w ((stratify5 rows).map rowLay) := by
    intro w row hrow
    obtain ⟨a1, a2, _⟩ := C35_agree w _ hlays
    cases b with
    | elastic =>
      obtain ⟨H, e1, e2⟩ := a1 (by simpa using hne)
      rw [hrow] at e1; cases e1
      rw [htf, List.getD_eq_getElem?_getD, ← List.head?_eq_getElem?, e2]; rfl
    | rigid =>
      obtain ⟨H, e1, e2⟩ := a2 (by simpa using s2 (hb rfl))
      rw [hrow] at e1; cases e1
      rw [htf, List.getD_eq_getElem?_getD, ← List.head?_eq_getElem?, e2]; rfl
  obtain ⟨c, hc, hcl, hch, hcm, hc0⟩ := hMatrix_get hodd (by omega) hd0 hH 0 (by simpa using hpos)
  have hhead : r.1.H.headD [] = c := by
    cases hh : r.1.H with
    | nil => rw [hh] at hc; simp at hc
    | cons q qs => rw [hh] at hc; simpa using hc
  have hmN : m < (N + 1) / 2 := by rw [hN]; split_ifs <;> omega
  rw [hop, t1, t2, hhead]
  refine ⟨?_, ?_, ?_⟩
  · rw [List.getElem?_take_of_lt hm]
    unfold simFreqs
    rw [List.getElem?_map, List.getElem?_range (by omega)]
    simp only [Option.map_some]
    congr 1; ring
  · intro hm0
    obtain ⟨row, e1, e2⟩ := hcm m hm0 hmN
    rw [List.getElem?_map, List.getElem?_take_of_lt hm, e2, hrow _ _ e1]
    simp
  · intro hm0
    subst hm0
    obtain ⟨row, e1, e2⟩ := hc0
    rw [List.getElem?_map, List.getElem?_take_of_lt hm, e2, hrow _ _ e1]
    simp

/-- Transfer function of a uniform soil: a damped wave travelling from the base to the surface. -/
theorem tfRo_uniform (w : ℝ) (l b : Lay) (g : List Lay) (hv : 0 < l.vs) (hr : 0 < l.rho)
    (hg : ∀ s ∈ g, s.vs = l.vs ∧ s.xi = l.xi ∧ s.rho = l.rho) (hgn : g ≠ [])
    (hb : b.vs = l.vs ∧ b.xi = l.xi ∧ b.rho = l.rho) :
    tfRo w (g ++ [b]) = exp (-(I * kStar w l * ((g.map Lay.h).sum : ℝ))) := by
  have h1 := (C34_subdivision w b [{ l with h := (g.map Lay.h).sum }] [g] (by simp [hv, hr])
    (List.Forall₂.cons ⟨hgn, hg, rfl⟩ List.Forall₂.nil)).1
  simp only [List.flatten_cons, List.flatten_nil, List.append_nil, List.singleton_append] at h1
  rw [h1]
  unfold tfRo
  rw [eMat_cons, eMat_one, M2.id_dot]
  have hal : alphaStar { l with h := (g.map Lay.h).sum } b = 1 := by
    have hvs : vsStar b = vsStar l := by unfold vsStar; rw [hb.1, hb.2.1]
    unfold alphaStar
    rw [hb.2.2, hvs]
    show (l.rho : ℂ) * vsStar l / ((l.rho : ℂ) * vsStar l) = 1
    exact div_self (mul_ne_zero (by exact_mod_cast hr.ne') (vsStar_ne hv))
  unfold dMat
  simp only [hal]
  have hk : kStar w { l with h := (g.map Lay.h).sum } = kStar w l := rfl
  rw [hk, Complex.exp_neg]
  norm_num
  ring

/-- For every uniform damped soil over a half space of the same material the transfer function reported
for the frequency `(m + 1) df` is not the one at this frequency, for every `m` above 0: the reported
amplification is always greater than the right one. -/
theorem C88_label_violated {r : Row ℝ} {x : Rec ℝ} {dt : ℝ} {o : SimOut} (hv : Valid5 [r, { r with thk := 0 }])
    (h2 : 2 ≤ x.length) (hdt : dtOf x = .ok dt) (hd0 : 0 < dt)
    (ho : linearSim [r, { r with thk := 0 }] x .elastic = .ok o) (m : Nat) (hm0 : 0 < m) (hm : m < (x.length + 1) / 2) :
    ∃ (f : ℝ) (z : ℂ), o.freq[m]? = some f ∧ o.tf[m]? = some z ∧ z ≠ tfRo (2 * Real.pi * f) (o.profile.map rowLay) ∧
      ‖tfRo (2 * Real.pi * f) (o.profile.map rowLay)‖ < ‖z‖ := by
  set rows := [r, { r with thk := 0 }] with hrows
  have hl : rows.getLast? = some { r with thk := 0 } := rfl
  obtain ⟨e1, e2, _⟩ := C88_tf_partial hv hl rfl h2 hdt hd0.ne' (fun h => by cases h) ho _ rfl _ rfl m hm
  have hop := (linearSim_tf hv hl rfl h2 hdt hd0.ne' (fun h => by cases h) ho _ rfl).1
  set N : Nat := if x.length % 2 = 0 then x.length + 1 else x.length with hN
  have hNpos : (0 : ℝ) < N := by
    have : 0 < N := by rw [hN]; split_ifs <;> omega
    exact_mod_cast this
  have hrt : 0 < r.thk := hv.thk_pos r (by simp [hrows])
  have hrp := hv.pos r (by simp [hrows])
  have hstr : stratify5 rows = strat1 r ++ [{ r with thk := 0 }] := by
    have := stratify5_half [r] { r with thk := 0 } rfl
    simpa using this
  obtain ⟨g1, g2⟩ := strat1_spec r hrt hrp.1
  have hsum : 0 < (((strat1 r).map rowLay).map Lay.h).sum := by
    rw [List.map_map]
    apply List.sum_pos
    · intro y hy
      obtain ⟨q, hq, rfl⟩ := List.mem_map.mp hy
      exact (g2 q hq).1
    · simpa using g1
  have huni : ∀ w, tfRo w (o.profile.map rowLay)
      = exp (-(I * kStar w (rowLay r) * ((((strat1 r).map rowLay).map Lay.h).sum : ℝ))) := by
    intro w
    rw [hop, hstr, List.map_append]
    refine tfRo_uniform w (rowLay r) _ _ hrp.1 hrp.2.2 ?_ (by simpa using g1) ⟨rfl, rfl, rfl⟩
    intro s hs
    obtain ⟨q, hq, rfl⟩ := List.mem_map.mp hs
    rw [(g2 q hq).2]
    exact ⟨rfl, rfl, rfl⟩
  set T := (((strat1 r).map rowLay).map Lay.h).sum with hT
  have hdf : 0 < 1 / ((N : ℝ) * dt) := by positivity
  have hnorm : ∀ w, ‖tfRo w (o.profile.map rowLay)‖ = Real.exp ((kStar w (rowLay r)).im * T) := by
    intro w
    rw [huni, Complex.norm_exp]
    congr 1
    simp
  have hkim : ∀ w, (kStar w (rowLay r)).im = w * (kStar 1 (rowLay r)).im := by
    intro w
    have : kStar w (rowLay r) = (w : ℂ) * kStar 1 (rowLay r) := by unfold kStar; push_cast; ring
    rw [this, Complex.im_ofReal_mul]
  have hneg : (kStar 1 (rowLay r)).im < 0 := kStar_im_neg one_pos ⟨hrt.le, hrp.1, hrp.2.2, hrp.2.1⟩
  have hlt : ‖tfRo (2 * Real.pi * (((m : ℝ) + 1) * (1 / (N * dt)))) (o.profile.map rowLay)‖
      < ‖tfRo (2 * Real.pi * (((m : ℝ) + 1 / 15) * (1 / (N * dt)))) (o.profile.map rowLay)‖ := by
    rw [hnorm, hnorm, Real.exp_lt_exp, hkim, hkim (2 * Real.pi * (((m : ℝ) + 1 / 15) * _))]
    have hpi := Real.pi_pos
    have h1 : 2 * Real.pi * (((m : ℝ) + 1 / 15) * (1 / (N * dt))) < 2 * Real.pi * (((m : ℝ) + 1) * (1 / (N * dt))) := by
      apply mul_lt_mul_of_pos_left _ (by positivity)
      apply mul_lt_mul_of_pos_right _ hdf
      linarith
    exact mul_lt_mul_of_pos_right (mul_lt_mul_of_neg_right h1 hneg) hsum
  refine ⟨_, _, e1, e2 hm0, ?_, hlt⟩
  intro he
  rw [← he] at hlt
  exact lt_irrefl _ hlt

/-- A damped soil layer of 10 m. -/
noncomputable def demoRow : Row ℝ := ⟨10, 200, 1 / 20, 1800, 1⟩

theorem demoSim_valid : Valid5 [demoRow, { demoRow with thk := 0 }] where
  nonempty := by simp
  thk_pos := by intro r hr; simp at hr; subst hr; norm_num [demoRow]
  thk_nonneg := by intro r hr; simp at hr; rcases hr with rfl | rfl <;> norm_num [demoRow]
  pos := by intro r hr; simp at hr; rcases hr with rfl | rfl <;> norm_num [demoRow]
  mat_int := by intro r hr; simp at hr; rcases hr with rfl | rfl <;> exact ⟨1, by norm_num [demoRow]⟩
  mat_pos := by intro r hr; simp at hr; subst hr; norm_num [demoRow]
  mat_nonneg := by intro r hr; simp at hr; rcases hr with rfl | rfl <;> norm_num [demoRow]

/-- A motion of five samples. -/
noncomputable def demoMotion : Rec ℝ := [(0, 0), (1 / 100, 1), (2 / 100, -2), (3 / 100, 1), (4 / 100, 0)]

/-- The run on this profile succeeds and reports a wrong value for the second and third frequency. -/
example : ∃ o, linearSim [demoRow, { demoRow with thk := 0 }] demoMotion .elastic = .ok o ∧
    ∀ m, 0 < m → m < 3 → ∃ (f : ℝ) (z : ℂ), o.freq[m]? = some f ∧ o.tf[m]? = some z ∧
      z ≠ tfRo (2 * Real.pi * f) (o.profile.map rowLay) := by
  obtain ⟨o, ho, _⟩ := C71_linear_partial (x := demoMotion) (b := .elastic) (dt := 1 / 100 - 0) demoSim_valid rfl rfl
    (by simp [demoMotion]) rfl (by norm_num) (fun h => by cases h)
  refine ⟨o, ho, ?_⟩
  intro m h0 h3
  obtain ⟨f, z, h1, h2, h4, _⟩ := C88_label_violated (dt := 1 / 100 - 0) demoSim_valid (by simp [demoMotion]) rfl (by norm_num) ho m h0
    (by simpa [demoMotion] using h3)
  exact ⟨f, z, h1, h2, h4⟩

/-- Without the half space it fails. -/
example : linearSim [demoRow] demoMotion .elastic = .error .valueError := by
  refine (C71_noHalf_violated (last := demoRow) (dt := 1 / 100 - 0) ⟨by simp, by simp, ?_, ?_, ?_, by simp, ?_⟩ rfl (by norm_num [demoRow])
    (by simp [demoMotion]) rfl (by norm_num)).2 rfl
  all_goals intro r hr; simp at hr; subst hr
  · norm_num [demoRow]
  · norm_num [demoRow]
  · exact ⟨1, by norm_num [demoRow]⟩
  · norm_num [demoRow]

/-! ## C90 -/

/-- The spectrum of the stress of a layer is the complex modulus times the spectrum of its strain, at every
positive frequency; its mean is the shear modulus (real part) times the mean strain. -/
theorem C90_spectrum (m : ℂ) (s : List ℝ) (hN : s.length % 2 = 1) :
    (stressCol m s).length = s.length ∧
    (∀ j, 0 < j → j < (s.length + 1) / 2 →
      (fftL (cx (stressCol m s))).getD j 0 = m * (fftL (cx s)).getD j 0) ∧
    (stressCol m s).sum = m.re * s.sum := by
  by_cases h1 : s.length = 1
  · match s, h1 with
    | [a], _ =>
      have hval : stressCol m [a] = [m.re * a] := by
        have e1 : fftL [(a : ℂ)] = [(a : ℂ)] := by simp [fftL]
        unfold stressCol
        simp only [List.map_cons, List.map_nil, List.length_singleton, e1]
        norm_num [realFirst, ifftL]
        ring
      rw [hval]
      refine ⟨rfl, ?_, by simp⟩
      intro j h0 hj
      simp at hj; omega
  have h2 : 2 ≤ s.length := by omega
  set S := fftL (cx s) with hS
  have hSl : S.length = s.length := by rw [hS, fftL_length]; simp
  set half := (s.length + 1) / 2 with hhalf
  set ss := (S.take half).map (· * m) with hss
  have hssl : ss.length = half := by simp [hss, hSl]; omega
  have hform : realFirst (ss ++ (ss.drop 1).reverse.map (starRingEnd ℂ)) = tfDouble s.length half (realFirst ss) := by
    unfold tfDouble
    rw [if_pos hN]
    cases hc : ss with
    | nil => rw [hc] at hssl; simp at hssl; omega
    | cons z zs =>
      have : (z :: zs).length = half := by rw [← hc]; exact hssl
      simp only [realFirst, List.cons_append, List.drop_succ_cons, List.drop_zero]
      rw [List.take_of_length_le (by simp at this ⊢; omega)]
      simp
  have hh : half = if s.length % 2 = 1 then (s.length + 1) / 2 else s.length / 2 + 1 := by rw [if_pos hN]
  have hrl : (realFirst ss).length = half := by rw [realFirst_length, hssl]
  obtain ⟨g1, g2, g3⟩ := tfDouble_get s.length half (realFirst ss) h2 hh hrl
  have hherm := tfDouble_hermitian s.length half (realFirst ss) h2 hh hrl (fun z hz => realFirst_zero _ z hz) (fun he => by omega)
  have hcol : stressCol m s = (ifftL (tfDouble s.length half (realFirst ss))).map Complex.re := by
    unfold stressCol
    rw [← hform]
  have hcx : fftL (cx (stressCol m s)) = tfDouble s.length half (realFirst ss) := by
    rw [hcol]
    show fftL (((ifftL _).map Complex.re).map fun x : ℝ => (x : ℂ)) = _
    rw [ifft_hermitian_real hherm, fft_ifft]
  have hlen : (stressCol m s).length = s.length := by rw [hcol]; simp [ifftL_length, g1]
  refine ⟨hlen, ?_, ?_⟩
  · intro j h0 hj
    rw [hcx, List.getD_eq_getElem?_getD, g2 j hj, realFirst_get _ _ h0, hss, List.getElem?_map, List.getElem?_take_of_lt hj,
      List.getD_eq_getElem?_getD]
    rw [List.getElem?_eq_getElem (by rw [hSl]; omega)]
    simp [mul_comm]
  · have h0 := fft_zero (stressCol m s) (by omega)
    rw [hcx, List.getD_eq_getElem?_getD, g2 0 (by omega)] at h0
    have hS0 := fft_zero s (by omega)
    rw [← hS] at hS0
    cases hc : S with
    | nil => rw [hc] at hSl; simp at hSl; omega
    | cons z zs =>
      rw [hc] at hS0
      simp at hS0
      obtain ⟨q, hq⟩ : ∃ q, half = q + 1 := ⟨half - 1, by omega⟩
      rw [hss, hc, hq] at h0
      simp only [List.take_succ_cons, List.map_cons, realFirst, List.getElem?_cons_zero, Option.getD_some] at h0
      rw [hS0] at h0
      have := Complex.ofReal_injective h0
      rw [← this]
      simp [mul_comm]

/-- In an undamped layer the stress is the modulus times the strain, at all times. -/
theorem C90_elastic (G : ℝ) (s : List ℝ) (hN : s.length % 2 = 1) : stressCol (modulusG G 0) s = s.map (G * ·) := by
  have hm : modulusG G 0 = (G : ℂ) := by unfold modulusG; simp
  obtain ⟨h1, h2, h3⟩ := C90_spectrum (modulusG G 0) s hN
  rw [hm] at h1 h2 h3 ⊢
  simp only [Complex.ofReal_re] at h3
  apply fft_inj
  have hlin : ∀ j, (fftL (cx (s.map (G * ·)))).getD j 0 = G * (fftL (cx s)).getD j 0 := by
    intro j
    by_cases hj : j < s.length
    · rw [fftL_getD _ _ (by simpa using hj), fftL_getD _ _ (by simpa using hj), Finset.mul_sum]
      simp only [cx, List.length_map]
      apply Finset.sum_congr rfl
      intro i hi
      have : ((s.map (G * ·)).map fun x : ℝ => (x : ℂ)).getD i 0 = G * (s.map fun x : ℝ => (x : ℂ)).getD i 0 := by
        simp only [List.getD_eq_getElem?_getD, List.getElem?_map]
        cases s[i]? <;> simp
      rw [this]; ring
    · rw [List.getD_eq_default _ _ (by rw [fftL_length]; simpa using hj),
        List.getD_eq_default _ _ (by rw [fftL_length]; simpa using hj), mul_zero]
  apply list_ext_getD (by rw [fftL_length, fftL_length]; simp [h1])
  intro j hj
  have hjl : j < s.length := by rw [fftL_length] at hj; simpa [h1] using hj
  rw [hlin]
  have hA := fft_real_hermitian (stressCol (G : ℂ) s)
  have hB := fft_real_hermitian s
  have hAl : (fftL (cx (stressCol (G : ℂ) s))).length = s.length := by rw [fftL_length]; simp [h1]
  have hBl : (fftL (cx s)).length = s.length := by rw [fftL_length]; simp
  by_cases j0 : j = 0
  · subst j0
    rw [fft_zero _ (by omega), fft_zero _ (by omega), h3]
    push_cast; rfl
  · by_cases hjh : j < (s.length + 1) / 2
    · exact h2 j (by omega) hjh
    · have eA := hermitian_getD hA (k := s.length - j) (by rw [hAl]; omega) (by omega)
      have eB := hermitian_getD hB (k := s.length - j) (by rw [hBl]; omega) (by omega)
      rw [hAl, show s.length - (s.length - j) = j by omega] at eA
      rw [hBl, show s.length - (s.length - j) = j by omega] at eB
      rw [eA, eB, h2 (s.length - j) (by omega) (by omega)]
      simp

end Verif
