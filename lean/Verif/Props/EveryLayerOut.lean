import Verif.Props.EveryLayer

/-!
Properties C71 (equivalent-linear runs), C87, C88, C89 and C90.
-/

set_option linter.unusedSectionVars false
set_option linter.unusedVariables false

open Complex ComplexConjugate

namespace Verif

open Spec (Valid5 OneStrainPerLayer Hermitian Table Fits CloseTo before DampedLay MakesUp)

/-! ## C71, equivalent-linear -/

theorem equiv_core {rows : List (Row ℝ)} {x : Rec ℝ} {b : Boundary} {cols : List (List ℝ)} {tol Rg : ℝ} {maxIter : Int}
    {verbose : Bool} {pm : PrepMotion} {s : EqState ℝ Resp} {r : Resp} (hp : prepMotion x = .ok pm) (h2 : 2 ≤ x.length)
    (hne : stratify5 rows ≠ [])
    (h : eqIterate (linResp pm.dt b pm.a Rg) (stratify5 rows) cols tol maxIter verbose = .ok (s, r)) :
    s.prof.length = (stratify5 rows).length ∧ s.G.length = (stratify5 rows).length ∧
    s.prof.map Row.thk = (stratify5 rows).map Row.thk ∧
    (r.H.length = (stratify5 rows).length ∧ ∀ c ∈ r.H, c.length = pm.a.length) ∧
    (r.accel.length = (stratify5 rows).length ∧ ∀ c ∈ r.accel, c.length = pm.a.length) ∧
    (r.veloc.length = (stratify5 rows).length ∧ ∀ c ∈ r.veloc, c.length = pm.a.length) ∧
    (r.displ.length = (stratify5 rows).length ∧ ∀ c ∈ r.displ, c.length = pm.a.length) ∧
    (r.strain.length = (stratify5 rows).length - 1 ∧ ∀ c ∈ r.strain, c.length = pm.a.length) := by
  obtain ⟨pm', hp', _, hodd, _⟩ := prepMotion_ok x h2
  rw [hp] at hp'; cases hp'
  have hone := linResp_oneStrain pm.dt b pm.a Rg hodd
  obtain ⟨cs, s1, c, eff, hcs, wf1, _, t1, t2, _, _, hr, ps⟩ := eqIterate_last hne hone h
  obtain ⟨r1, r2, r3, r4, r5, r6, r7, r8, r9, r10, r11, r12⟩ :=
    linResp_ok hodd (by simp [wf1.prof, wf1.G]) (by simp) (by simp) hr
  have hl : (s1.prof.map Row.thk).length = (stratify5 rows).length := by rw [t1]; simp
  rw [hl] at r7 r8 r9 r10 r11
  have hpos : 0 < (stratify5 rows).length := List.length_pos_iff.mpr hne
  refine ⟨?_, ?_, ?_, r7, r8, r9, r10, r11⟩
  · rw [ps.wf.prof]; omega
  · rw [ps.wf.G]; omega
  · rw [ps.keep _ (fun _ _ => rfl), t1]

/-- For every valid profile with a half space, curves for all its materials, at least one iteration
and every motion, of even or odd length, the equivalent-linear solver succeeds and its results fit the
re-discretised profile and the motion. -/
theorem C71_equiv_partial {rows : List (Row ℝ)} {x : Rec ℝ} {b : Boundary} {cols : List (List ℝ)} {tol Rg dt : ℝ}
    {maxIter : Int} {verbose : Bool} {last : Row ℝ} (hv : Valid5 rows)
    (hl : rows.getLast? = some last) (h0 : last.thk = 0) (hr2 : 2 ≤ rows.length) (h2 : 2 ≤ x.length)
    (hdt : dtOf x = .ok dt) (hd0 : dt ≠ 0)
    (hn : checkLayerCount ((cols.length / 4 : Nat) : Int) (rows.map Row.mat) = .ok ()) (hcols : ∀ c ∈ cols, c ≠ [])
    (hm : 1 ≤ maxIter) :
    ∃ o, equivLinear rows x cols b tol Rg maxIter verbose = .ok o ∧ o.profile.map Row.thk = (stratify5 rows).map Row.thk ∧
      Fits ((stratify5 rows).length - 1) x.length (x.map Prod.fst) o ∧
      resultShapes ((stratify5 rows).length - 1) o.surface.length o = .ok () := by
  obtain ⟨pm, hp, hpd, hsp⟩ := simPrepare_ok hv h2 hdt hd0
  obtain ⟨sv, sl, sall, _, s2⟩ := stratify5_valid hv hl h0
  have hs2 := s2 hr2
  have hn' : checkLayerCount ((cols.length / 4 : Nat) : Int) ((stratify5 rows).map Row.mat) = .ok () := by
    rw [C60_accept] at hn ⊢
    refine ⟨by simpa using sv.nonempty, ?_⟩
    intro m hm
    obtain ⟨q, hq, rfl⟩ := List.mem_map.mp hm
    obtain ⟨r, hr, he⟩ := sall q hq
    rw [he]
    exact hn.2 _ (List.mem_map.mpr ⟨r, hr, rfl⟩)
  obtain ⟨cs, hcs, _, _⟩ := C60_no_missing sv hn' hcols
  obtain ⟨pm', hp', _, hodd, _⟩ := prepMotion_ok x h2
  rw [hp] at hp'; cases hp'
  obtain ⟨s, r, hit⟩ := eqIterate_total (tol := tol) (verbose := verbose) hs2 (linResp_oneStrain pm.dt b pm.a Rg hodd) hcs hm
    (fun h G D rho e1 e2 e3 e4 => linResp_total _ _ _ _ _ _ _ _ (fun _ => by
      rw [gLays_length (by rw [e2, e1]) (by rw [e3, e1]) (by rw [e4, e1]), e1]; exact hs2))
  obtain ⟨c1, c2, c3, c4, c5, c6, c7, c8⟩ := equiv_core hp h2 sv.nonempty hit
  have hst := calcStress_shape pm.a.length hodd s.G (s.prof.map Row.xi) r.strain (by simp [c1, c2]) (by rw [c8.1, c2]) c8.2
  rw [c8.1] at hst
  have hp1 : (stratify5 rows).length = (stratify5 rows).length - 1 + 1 := by omega
  obtain ⟨o, ho, hf, hop, _⟩ := postProcess_fits (prof := s.prof) (n := (stratify5 rows).length - 1) h2 hp (by rw [c1]; exact hp1)
    (by rw [c3, List.getLast?_map, sl, ← h0]; rfl)
    ⟨by omega, c4.2⟩ ⟨by omega, c5.2⟩ ⟨by omega, c6.2⟩ ⟨by omega, c7.2⟩ c8 hst
  refine ⟨o, ?_, by rw [hop, c3], hf, ?_⟩
  · unfold equivLinear
    rw [hsp]
    simp only [bind, Except.bind]
    rw [hit]
    exact ho
  · have hk : o.surface.length = x.length := by
      have := congrArg List.length hf.times
      simpa using this
    unfold resultShapes
    rw [hk, if_pos ⟨hf.a, hf.v, hf.d, hf.tau, hf.gamma, hf.avd, hf.gt⟩]

/-- Without a half space the equivalent-linear solver never succeeds. -/
theorem C71_equiv_noHalf_violated {rows : List (Row ℝ)} {x : Rec ℝ} {b : Boundary} {cols : List (List ℝ)} {tol Rg dt : ℝ}
    {maxIter : Int} {verbose : Bool} {last : Row ℝ} (hv : Valid5 rows) (hl : rows.getLast? = some last)
    (h0 : last.thk ≠ 0) (h2 : 2 ≤ x.length) (hdt : dtOf x = .ok dt) (hd0 : dt ≠ 0) (o : SimOut) :
    equivLinear rows x cols b tol Rg maxIter verbose ≠ .ok o := by
  intro ho
  obtain ⟨pm, hp, hpd, hsp⟩ := simPrepare_ok hv h2 hdt hd0
  obtain ⟨q, sl, s0⟩ := stratify5_noHalf hv hl h0
  have hne : stratify5 rows ≠ [] := by intro h; rw [h] at sl; cases sl
  have hpos : 0 < (stratify5 rows).length := List.length_pos_iff.mpr hne
  unfold equivLinear at ho
  rw [hsp] at ho
  simp only [bind, Except.bind] at ho
  cases hit : eqIterate (linResp pm.dt b pm.a Rg) (stratify5 rows) cols tol maxIter verbose with
  | error e => rw [hit] at ho; cases ho
  | ok p =>
    obtain ⟨s, r⟩ := p
    rw [hit] at ho
    simp only at ho
    obtain ⟨c1, c2, c3, c4, c5, c6, c7, c8⟩ := equiv_core hp h2 hne hit
    have hp1 : (stratify5 rows).length = (stratify5 rows).length - 1 + 1 := by omega
    have := postProcess_noHalf (prof := s.prof) (n := (stratify5 rows).length - 1) h2 hp (by rw [c1]; exact hp1)
      (by rw [c3, List.getLast?_map, sl]; intro h; exact absurd (Option.some.inj h) (ne_of_gt s0)) ⟨by omega, c5.2⟩ c8.1 _ ho
    cases this

/-! ## C87 -/

theorem packResults_ok {o : SimOut} {n k : Nat} {t : List ℝ} (hf : Fits n k t o) (hv : Valid5 o.profile)
    (hl : (o.profile.map Row.thk).getLast? = some 0) (hk : 3 ≤ k) (hs : o.surface.length = k) :
    packResults o = .ok ⟨o, o.profile.map fun r => { r with rho := r.rho * 1000 }, n⟩ := by
  have hconv : o.profile.map (convertRow .one .gcc) = o.profile.map fun r => { r with rho := r.rho * 1000 } := by
    apply List.map_congr_left
    intro r _
    simp [convertRow]
  have hthk : (o.profile.map (convertRow .one .gcc)).map Row.thk = o.profile.map Row.thk := by
    rw [List.map_map]; rfl
  have hv' := convert_valid5 o.profile .one .gcc hv
  have hmk : mkProfile [.five o.profile] 0 .one .gcc false 3
      = .ok (⟨1, 0, (o.profile.map Row.thk).sum, n,
          30 / Spec.travelTime ((o.profile.map (convertRow .one .gcc)).map Row.tv) 30⟩,
        [.five (o.profile.map (convertRow .one .gcc)), .five (o.profile.map (convertRow .one .gcc))]) := by
    unfold mkProfile
    simp only [List.getElem?_cons_zero, bind, Except.bind]
    rw [(checkVsFormat_five_ok o.profile).mpr hv]
    simp only
    rw [if_neg (by decide), if_neg (by decide), if_neg (by simp), finishObj_ok hv'.valid, hthk, if_pos hl]
    simp only [List.length_map, hf.profile, Nat.add_sub_cancel]
    rfl
  unfold packResults
  rw [hmk]
  simp only [bind, Except.bind, List.getElem?_cons_succ, List.getElem?_cons_zero]
  rw [if_neg (by rw [hf.freq]; omega), hconv]
  have : resultShapes n o.surface.length o = .ok () := by
    unfold resultShapes
    rw [hs, if_pos ⟨hf.a, hf.v, hf.d, hf.tau, hf.gamma, hf.avd, hf.gt⟩]
  rw [this]
  rfl

/-- Whatever is packaged: the densities of the profile in the results are a thousand times those of the
re-discretised profile. -/
theorem packResults_inv {o : SimOut} {res : SimRes} (h : packResults o = .ok res) :
    res.out = o ∧ res.profile = o.profile.map (fun r => { r with rho := r.rho * 1000 }) ∧ Valid5 o.profile := by
  have hconv : o.profile.map (convertRow .one .gcc) = o.profile.map fun r => { r with rho := r.rho * 1000 } := by
    apply List.map_congr_left
    intro r _
    simp [convertRow]
  unfold packResults at h
  cases hc : checkVsFormat (.five o.profile) with
  | error e =>
    unfold mkProfile at h
    simp only [List.getElem?_cons_zero, bind, Except.bind] at h
    rw [hc] at h
    cases h
  | ok u =>
    have hv : Valid5 o.profile := (checkVsFormat_five_ok o.profile).mp hc
    have hv' := convert_valid5 o.profile .one .gcc hv
    unfold mkProfile at h
    simp only [List.getElem?_cons_zero, bind, Except.bind] at h
    rw [hc] at h
    simp only at h
    rw [if_neg (by decide), if_neg (by decide), if_neg (by simp), finishObj_ok hv'.valid] at h
    simp only [pure, Except.pure, List.set_cons_zero, List.length_singleton, List.cons_append, List.nil_append,
      List.getElem?_cons_succ, List.getElem?_cons_zero] at h
    by_cases c : o.freq.length < 2
    · rw [if_pos c] at h; cases h
    · rw [if_neg c] at h
      split at h
      · cases h
      · cases h
        exact ⟨rfl, hconv, hv⟩

/-- The reported profile has the thicknesses, velocities, damping ratios and materials of the
re-discretised input.  Missing for the full property: the densities, see `C87_density_violated`. -/
theorem C87_profile_partial {rows : List (Row ℝ)} {x : Rec ℝ} {b : Boundary} {res : SimRes} (h : linearRun rows x b = .ok res) :
    (res.profile.map fun r => (r.thk, r.vs, r.xi, r.mat)) = ((stratify5 rows).map fun r => (r.thk, r.vs, r.xi, r.mat)) := by
  unfold linearRun at h
  cases ho : linearSim rows x b with
  | error e => simp only [bind, Except.bind, ho] at h; cases h
  | ok o =>
    simp only [bind, Except.bind, ho] at h
    obtain ⟨h1, h2, _⟩ := packResults_inv h
    have hop : o.profile = stratify5 rows := by
      unfold linearSim at ho
      cases hsp : simPrepare rows x with
      | error e => simp only [bind, Except.bind, hsp] at ho; cases ho
      | ok p =>
        have hp2 : p.2 = stratify5 rows := by
          unfold simPrepare at hsp
          simp only [bind, Except.bind] at hsp
          split at hsp
          · cases hsp
          · split at hsp
            · cases hsp
            · split at hsp
              · cases hsp
              · cases hsp; rfl
        simp only [bind, Except.bind, hsp] at ho
        split at ho
        · cases ho
        · unfold postProcess at ho
          simp only [bind, Except.bind, pure, Except.pure] at ho
          iterate 5 (split at ho; · cases ho)
          rw [← hp2, ← Except.ok.inj ho]
    rw [h2, ← hop, List.map_map]
    rfl

/-- Every run on a valid profile with a half space and a motion of at least three samples succeeds, and
every reported density is wrong by a factor of 1000. -/
theorem C87_density_violated {rows : List (Row ℝ)} {x : Rec ℝ} {b : Boundary} {dt : ℝ} {last : Row ℝ} (hv : Valid5 rows)
    (hl : rows.getLast? = some last) (h0 : last.thk = 0) (h3 : 3 ≤ x.length) (hdt : dtOf x = .ok dt) (hd0 : dt ≠ 0)
    (hb : b = .rigid → 2 ≤ rows.length) :
    ∃ res, linearRun rows x b = .ok res ∧ res.profile.length = (stratify5 rows).length ∧
      ∀ (k : Nat) (r : Row ℝ), (stratify5 rows)[k]? = some r →
        ∃ q, res.profile[k]? = some q ∧ q.rho = 1000 * r.rho ∧ q.rho ≠ r.rho := by
  obtain ⟨o, ho, hop, hf, _⟩ := C71_linear_partial hv hl h0 (by omega) hdt hd0 hb
  obtain ⟨sv, sl, _, _, _⟩ := stratify5_valid hv hl h0
  have hk : o.surface.length = x.length := by
    have := congrArg List.length hf.times
    simpa using this
  have := packResults_ok hf (by rw [hop]; exact sv) (by rw [hop, List.getLast?_map, sl, ← h0]; rfl) h3 hk
  refine ⟨_, by unfold linearRun; simp only [bind, Except.bind, ho]; exact this, by simp [hop], ?_⟩
  intro k r hr
  refine ⟨{ r with rho := r.rho * 1000 }, by simp [hop, hr], by ring, ?_⟩
  have := (sv.pos r (List.mem_of_getElem? hr)).2.2
  show r.rho * 1000 ≠ r.rho
  intro h; linarith

/-- The same factor in the results of the equivalent-linear runs. -/
theorem C87_equiv_violated {rows : List (Row ℝ)} {x : Rec ℝ} {cols : List (List ℝ)} {b : Boundary} {verbose : Bool}
    {res : SimRes} (h : equivRun rows x cols b verbose = .ok res) :
    ∀ (k : Nat) (r : Row ℝ), res.out.profile[k]? = some r →
      ∃ q, res.profile[k]? = some q ∧ q.rho = 1000 * r.rho ∧ q.rho ≠ r.rho := by
  unfold equivRun at h
  simp only [bind, Except.bind] at h
  split at h
  · cases h
  · split at h
    · cases h
    · obtain ⟨h1, h2, hv⟩ := packResults_inv h
      intro k r hr
      rw [h1] at hr
      refine ⟨{ r with rho := r.rho * 1000 }, by rw [h2, List.getElem?_map, hr]; rfl, by ring, ?_⟩
      have := (hv.pos r (List.mem_of_getElem? hr)).2.2
      show r.rho * 1000 ≠ r.rho
      intro h; linarith

end Verif
