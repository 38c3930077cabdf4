import Verif.Props.RigidBase

/-!
C215: the profiles of peak values of linear and equivalent-linear simulations are the peaks of the reported histories, layer by layer,
at the depths of the reported profile.
-/

set_option linter.unusedSectionVars false
set_option linter.unusedVariables false

namespace Verif

open Spec (Valid5 topDepth)

namespace Spec

/-- `p` is the largest absolute value of a history. -/
def PeakOf (c : List ℝ) (p : ℝ) : Prop := (∀ y ∈ c, |y| ≤ p) ∧ (c ≠ [] → ∃ y ∈ c, |y| = p)

/-- The profiles of peak values list, for every interface, its depth and the peaks of the acceleration, velocity and displacement there
and, for every layer, the depth of its middle and the peaks of its strain and stress. -/
structure PeakProfiles (o : SimOut) : Prop where
  avdLen : o.maxAvd.length = o.profile.length ∧ o.a.length = o.profile.length ∧ o.v.length = o.profile.length ∧ o.d.length = o.profile.length
  avd : ∀ (k : Nat) z pa pv pd, o.maxAvd[k]? = some (z, pa, pv, pd) → z = topDepth (o.profile.map Row.thk) k ∧
    (∃ c, o.a[k]? = some c ∧ PeakOf c pa) ∧ (∃ c, o.v[k]? = some c ∧ PeakOf c pv) ∧ (∃ c, o.d[k]? = some c ∧ PeakOf c pd)
  gtLen : o.gamma.length = o.maxGt.length ∧ o.tau.length = o.maxGt.length
  gt : ∀ (k : Nat) z pg pt, o.maxGt[k]? = some (z, pg, pt) →
    z = (topDepth (o.profile.map Row.thk) k + topDepth (o.profile.map Row.thk) (k + 1)) / 2 ∧
    (∃ c, o.gamma[k]? = some c ∧ PeakOf c pg) ∧ (∃ c, o.tau[k]? = some c ∧ PeakOf c pt)

end Spec

open Spec (PeakOf PeakProfiles)

theorem peakOf_maxAbs (c : List ℝ) : PeakOf c (maxAbs c) := ⟨fun _ hy => le_maxAbs hy, fun h => maxAbs_mem h⟩

theorem peakOf_unique {c : List ℝ} (hc : c ≠ []) {p q : ℝ} (hp : PeakOf c p) (hq : PeakOf c q) : p = q := by
  obtain ⟨y, hy, ey⟩ := hp.2 hc
  obtain ⟨z, hz, ez⟩ := hq.2 hc
  exact le_antisymm (ey ▸ hq.1 y hy) (ez ▸ hp.1 z hz)

theorem peak_col {l : List (List ℝ)} {k : Nat} {p : ℝ} (h : (l.map maxAbs)[k]? = some p) : ∃ c, l[k]? = some c ∧ PeakOf c p := by
  rw [List.getElem?_map, Option.map_eq_some_iff] at h
  obtain ⟨c, hc, e⟩ := h
  exact ⟨c, hc, e ▸ peakOf_maxAbs c⟩

theorem zip_get {α β : Type} {l : List α} {m : List β} {k : Nat} {a : α} {b : β} (h : (l.zip m)[k]? = some (a, b)) :
    l[k]? = some a ∧ m[k]? = some b := by
  rw [List.getElem?_zip_eq_some] at h
  exact h

theorem colStack4_inv {p q r s : List ℝ} {o : List (ℝ × ℝ × ℝ × ℝ)} (h : colStack4 p q r s = .ok o) :
    o.length = p.length ∧ q.length = p.length ∧ r.length = p.length ∧ s.length = p.length ∧
    ∀ (k : Nat) a b c d, o[k]? = some (a, b, c, d) → p[k]? = some a ∧ q[k]? = some b ∧ r[k]? = some c ∧ s[k]? = some d := by
  unfold colStack4 at h
  split at h
  · rename_i e
    cases h
    refine ⟨by simp [e.1, e.2.1, e.2.2], e.1, e.2.1, e.2.2, fun k a b c d hk => ?_⟩
    obtain ⟨h1, h2⟩ := zip_get hk
    obtain ⟨h2, h3⟩ := zip_get h2
    obtain ⟨h3, h4⟩ := zip_get h3
    exact ⟨h1, h2, h3, h4⟩
  · cases h

theorem colStack3_inv {p q r : List ℝ} {o : List (ℝ × ℝ × ℝ)} (h : colStack3 p q r = .ok o) :
    o.length = p.length ∧ q.length = p.length ∧ r.length = p.length ∧
    ∀ (k : Nat) a b c, o[k]? = some (a, b, c) → p[k]? = some a ∧ q[k]? = some b ∧ r[k]? = some c := by
  unfold colStack3 at h
  split at h
  · rename_i e
    cases h
    refine ⟨by simp [e.1, e.2], e.1, e.2, fun k a b c hk => ?_⟩
    obtain ⟨h1, h2⟩ := zip_get hk
    obtain ⟨h2, h3⟩ := zip_get h2
    exact ⟨h1, h2, h3⟩
  · cases h

theorem postProcess_peaks {pm : PrepMotion} {prof : List (Row ℝ)} {r : Resp} {st : List (List ℝ)} {o : SimOut}
    (ho : postProcess pm prof r st = .ok o) : PeakProfiles o := by
  unfold postProcess at ho
  simp only [bind, Except.bind] at ho
  split at ho
  · cases ho
  split at ho
  · cases ho
  rename_i zb hzb
  split at ho
  · cases ho
  rename_i zm hzm
  split at ho
  · cases ho
  rename_i av hav
  split at ho
  · cases ho
  rename_i gt hgt
  cases ho
  have hne : prof.map Row.thk ≠ [] := by
    intro e
    rw [e] at hzb
    cases hzb
  obtain ⟨zb', b1, b2, b3⟩ := C01_thk2dep_tops (prof.map Row.thk) hne
  rw [hzb] at b1; cases b1
  obtain ⟨zm', m1, m2, m3⟩ := C01_thk2dep_midpoints (prof.map Row.thk) hne
  rw [hzm] at m1; cases m1
  obtain ⟨p1, p2, p3, p4, p5⟩ := colStack4_inv hav
  obtain ⟨q1, q2, q3, q4⟩ := colStack3_inv hgt
  rw [List.length_map] at p2 p3 p4 q2 q3 b2
  constructor
  · exact ⟨p1.trans b2, p2.trans b2, p3.trans b2, p4.trans b2⟩
  · intro k z pa pv pd hk
    obtain ⟨h1, h2, h3, h4⟩ := p5 k z pa pv pd hk
    have hkl : k < zb.length := (List.getElem?_eq_some_iff.1 h1).1
    have := b3 k (by rw [List.length_map]; omega)
    rw [h1] at this
    exact ⟨Option.some.inj this, peak_col h2, peak_col h3, peak_col h4⟩
  · exact ⟨q2.trans q1.symm, q3.trans q1.symm⟩
  · intro k z pg pt hk
    obtain ⟨h1, h2, h3⟩ := q4 k z pg pt hk
    have hkl : k < zm.length := (List.getElem?_eq_some_iff.1 h1).1
    have := m3 k hkl
    rw [h1] at this
    exact ⟨Option.some.inj this, peak_col h2, peak_col h3⟩

/-- C215, linear solver: in a run that returns, the profiles of peak values are those of the reported histories, one row per interface of
the reported profile at its depth, and one row per layer at the depth of its middle. -/
theorem C215_linear {rows : List (Row ℝ)} {x : Rec ℝ} {b : Boundary} {o : SimOut} (ho : linearSim rows x b = .ok o) : PeakProfiles o := by
  unfold linearSim at ho
  simp only [bind, Except.bind] at ho
  split at ho
  · cases ho
  split at ho
  · cases ho
  exact postProcess_peaks ho

/-- C215, equivalent-linear solver. -/
theorem C215_equiv {rows : List (Row ℝ)} {x : Rec ℝ} {cols : List (List ℝ)} {b : Boundary} {tol Rg : ℝ} {maxIter : Int} {verbose : Bool}
    {o : SimOut} (ho : equivLinear rows x cols b tol Rg maxIter verbose = .ok o) : PeakProfiles o := by
  unfold equivLinear at ho
  simp only [bind, Except.bind] at ho
  split at ho
  · cases ho
  split at ho
  · cases ho
  exact postProcess_peaks ho

/-- C215: the peak acceleration listed first is the peak of the motion returned for the surface. -/
theorem C215_surface {o : SimOut} {pm : PrepMotion} {prof : List (Row ℝ)} {r : Resp} {st : List (List ℝ)}
    (ho : postProcess pm prof r st = .ok o) : ∃ z pa pv pd, o.maxAvd.head? = some (z, pa, pv, pd) ∧ z = 0 ∧ PeakOf (o.surface.map Prod.snd) pa := by
  have hp := postProcess_peaks ho
  have hs : o.surface.map Prod.snd = o.a.headD [] ∧ o.profile ≠ [] := by
    unfold postProcess at ho
    simp only [bind, Except.bind] at ho
    split at ho
    · cases ho
    rename_i s hsf
    split at ho
    · cases ho
    rename_i zb hzb
    split at ho
    · cases ho
    split at ho
    · cases ho
    split at ho
    · cases ho
    cases ho
    refine ⟨(colStack_ok hsf).2, ?_⟩
    rintro e
    have e : prof = [] := e
    rw [e] at hzb
    cases hzb
  have hlen := List.length_pos_iff.2 hs.2
  have h0 : 0 < o.maxAvd.length := by rw [hp.avdLen.1]; exact hlen
  obtain ⟨⟨z, pa, pv, pd⟩, rest, hm⟩ := List.exists_cons_of_length_pos h0
  obtain ⟨e1, ⟨c, hc, hpc⟩, _⟩ := hp.avd 0 z pa pv pd (by rw [hm]; rfl)
  refine ⟨z, pa, pv, pd, by rw [hm]; rfl, by rw [e1]; simp [topDepth], ?_⟩
  rw [hs.1]
  have : o.a.headD [] = c := by
    cases ha : o.a with
    | nil => rw [ha] at hc; cases hc
    | cons y ys => rw [ha] at hc; exact Option.some.inj hc
  rw [this]
  exact hpc

theorem peaks_last {o : SimOut} (hp : PeakProfiles o) {c : List ℝ} (hc : o.a.getLast? = some c) :
    ∃ z pa pv pd, o.maxAvd.getLast? = some (z, pa, pv, pd) ∧ PeakOf c pa := by
  have hne : o.maxAvd ≠ [] := by
    intro e
    have h1 := hp.avdLen.1
    have h2 := hp.avdLen.2.1
    rw [e] at h1
    have : o.a = [] := List.length_eq_zero_iff.1 (h2.trans h1.symm)
    rw [this] at hc
    cases hc
  obtain ⟨⟨z, pa, pv, pd⟩, hm⟩ : ∃ p, o.maxAvd.getLast? = some p := ⟨_, List.getLast?_eq_some_getLast hne⟩
  refine ⟨z, pa, pv, pd, hm, ?_⟩
  rw [List.getLast?_eq_getElem?] at hm hc
  obtain ⟨_, ⟨c', hc', hpc⟩, _⟩ := hp.avd _ z pa pv pd hm
  rw [hp.avdLen.1, ← hp.avdLen.2.1, hc] at hc'
  cases hc'
  exact hpc

/-- C214: with a rigid boundary, the peak acceleration listed for the base by the linear solver is the one of the input. -/
theorem C214_peak {rows : List (Row ℝ)} {x : Rec ℝ} {dt : ℝ} {last : Row ℝ} {o : SimOut} (hv : Valid5 rows)
    (hl : rows.getLast? = some last) (h0 : last.thk = 0) (h2 : 2 ≤ x.length) (hdt : dtOf x = .ok dt) (hd0 : 0 < dt)
    (hr : 2 ≤ rows.length) (ho : linearSim rows x .rigid = .ok o) :
    ∃ z pa pv pd, o.maxAvd.getLast? = some (z, pa, pv, pd) ∧ pa = maxAbs (x.map Prod.snd) := by
  obtain ⟨z, pa, pv, pd, h, hp⟩ := peaks_last (C215_linear ho) (C214_linear hv hl h0 h2 hdt hd0 hr ho)
  refine ⟨z, pa, pv, pd, h, peakOf_unique ?_ hp (peakOf_maxAbs _)⟩
  intro e
  have := congrArg List.length e
  rw [List.length_map, List.length_nil] at this
  omega

/-- A run over a rigid base: the motion of the base is the input, its peak 2 is listed last. -/
example : ∃ o, linearSim [demoRow, { demoRow with thk := 0 }] demoMotion .rigid = .ok o ∧ o.a.getLast? = some [0, 1, -2, 1, 0] ∧
    ∃ z pa pv pd, o.maxAvd.getLast? = some (z, pa, pv, pd) ∧ pa = 2 := by
  obtain ⟨o, ho, _⟩ := C71_linear_partial (x := demoMotion) (b := .rigid) (dt := 1 / 100 - 0) demoSim_valid rfl rfl
    (by simp [demoMotion]) rfl (by norm_num) (fun _ => by simp)
  refine ⟨o, ho, C214_linear (dt := 1 / 100 - 0) demoSim_valid rfl rfl (by simp [demoMotion]) rfl (by norm_num) (by simp) ho, ?_⟩
  obtain ⟨z, pa, pv, pd, h, e⟩ := C214_peak (dt := 1 / 100 - 0) demoSim_valid rfl rfl (by simp [demoMotion]) rfl (by norm_num) (by simp) ho
  refine ⟨z, pa, pv, pd, h, e.trans (peakOf_unique (c := demoMotion.map Prod.snd) (by simp [demoMotion]) (peakOf_maxAbs _) ⟨?_, fun _ => ⟨-2, ?_, ?_⟩⟩)⟩
  · intro y hy
    simp [demoMotion] at hy
    rcases hy with rfl | rfl | rfl | rfl | rfl <;> norm_num
  · simp [demoMotion]
  · norm_num

/-- The equivalent-linear solver, with curves of one point each. -/
example : ∃ o, equivLinear [demoRow, { demoRow with thk := 0, mat := 0 }] demoMotion [[1], [1], [1], [5]] .rigid (75 / 1000) (65 / 100) 10 false = .ok o ∧
    o.a.getLast? = some [0, 1, -2, 1, 0] := by
  have hv : Valid5 [demoRow, { demoRow with thk := 0, mat := 0 }] := {
    nonempty := by simp
    thk_pos := by intro r hr; simp at hr; subst hr; norm_num [demoRow]
    thk_nonneg := by intro r hr; simp at hr; rcases hr with rfl | rfl <;> norm_num [demoRow]
    pos := by intro r hr; simp at hr; rcases hr with rfl | rfl <;> norm_num [demoRow]
    mat_int := by
      intro r hr; simp at hr; rcases hr with rfl | rfl
      · exact ⟨1, by norm_num [demoRow]⟩
      · exact ⟨0, by norm_num⟩
    mat_pos := by intro r hr; simp at hr; subst hr; norm_num [demoRow]
    mat_nonneg := by intro r hr; simp at hr; rcases hr with rfl | rfl <;> norm_num [demoRow] }
  have hc : ∀ c ∈ [[(1 : ℝ)], [1], [1], [5]], c ≠ [] := by simp
  obtain ⟨o, ho, _⟩ := C71_equiv_partial (x := demoMotion) (b := .rigid) (cols := [[1], [1], [1], [5]]) (dt := 1 / 100 - 0)
    (tol := 75 / 1000) (Rg := 65 / 100) (maxIter := 10) (verbose := false) hv rfl rfl (by simp)
    (by simp [demoMotion]) rfl (by norm_num) (by simp [checkLayerCount, demoRow]) hc (by norm_num)
  refine ⟨o, ho, C214_equiv (dt := 1 / 100 - 0) hv rfl rfl (by simp [demoMotion]) rfl (by norm_num) (by simp)
    (by simp [checkLayerCount, demoRow]) hc ?_ ?_ ho⟩
  · intro m gcol hm x hx
    rcases m with _ | m
    · cases hm; simp at hx; subst hx; norm_num
    · exact absurd (List.getElem?_eq_some_iff.1 hm).1 (by simp only [List.length_cons, List.length_nil]; omega)
  · intro m dcol d0 hm hd x hx
    rcases m with _ | m
    · cases hm; cases hd; simp at hx; subst hx; exact le_rfl
    · exact absurd (List.getElem?_eq_some_iff.1 hm).1 (by simp only [List.length_cons, List.length_nil]; omega)

end Verif
