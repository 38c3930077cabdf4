import Verif.Proof.EveryLayer
import Verif.Props.EquivLinear

/-!
Properties C71, C87 and C88: shapes of the results of the every-layer solvers, the profile and the
transfer function reported with them.
-/

set_option linter.unusedSectionVars false
set_option linter.unusedVariables false

open Complex ComplexConjugate

namespace Verif

open Spec (Valid5 OneStrainPerLayer Hermitian)

namespace Spec

/-- `c` has `n` columns of `k` entries. -/
def Table (n k : Nat) (c : List (List ℝ)) : Prop := c.length = n ∧ ∀ x ∈ c, x.length = k

/-- The results fit a profile with `n` layers above the half space and a motion of `k` samples at
the times `t`: one column per interface for motions, one per layer for strain and stress; as many
values of the transfer function as frequencies, one half of the samples (rounded up). -/
structure Fits (n k : Nat) (t : List ℝ) (o : SimOut) : Prop where
  a : Table (n + 1) k o.a
  v : Table (n + 1) k o.v
  d : Table (n + 1) k o.d
  gamma : Table n k o.gamma
  tau : Table n k o.tau
  avd : o.maxAvd.length = n + 1
  gt : o.maxGt.length = n
  freq : o.freq.length = (k + 1) / 2
  tf : o.tf.length = (k + 1) / 2
  surface : o.surface.map Prod.snd = o.a.headD []
  times : o.surface.map Prod.fst = t
  profile : o.profile.length = n + 1

end Spec

open Spec (Table Fits)

theorem unpad_length {α : Type} (even : Bool) (l : List α) :
    (unpad even l).length = if even then l.length - 1 else l.length := by
  unfold unpad; cases even <;> simp

theorem table_unpad {n N : Nat} {even : Bool} {c : List (List ℝ)} (h : c.length = n) (h' : ∀ x ∈ c, x.length = N) :
    Table n (if even then N - 1 else N) (c.map (unpad even)) := by
  refine ⟨by simpa using h, ?_⟩
  intro x hx
  obtain ⟨y, hy, rfl⟩ := List.mem_map.mp hx
  rw [unpad_length, h' y hy]

theorem postProcess_fits {x : Rec ℝ} {pm : PrepMotion} {prof : List (Row ℝ)} {n : Nat} {r : Resp} {st : List (List ℝ)}
    (h2 : 2 ≤ x.length) (hp : prepMotion x = .ok pm) (hn : prof.length = n + 1) (hl : (prof.map Row.thk).getLast? = some 0)
    (hH : r.H.length = n + 1 ∧ ∀ c ∈ r.H, c.length = pm.a.length)
    (ha : r.accel.length = n + 1 ∧ ∀ c ∈ r.accel, c.length = pm.a.length)
    (hv : r.veloc.length = n + 1 ∧ ∀ c ∈ r.veloc, c.length = pm.a.length)
    (hd : r.displ.length = n + 1 ∧ ∀ c ∈ r.displ, c.length = pm.a.length)
    (hs : r.strain.length = n ∧ ∀ c ∈ r.strain, c.length = pm.a.length)
    (ht : st.length = n ∧ ∀ c ∈ st, c.length = pm.a.length) :
    ∃ o, postProcess pm prof r st = .ok o ∧ Fits n x.length (x.map Prod.fst) o ∧ o.profile = prof ∧
      o.freq = (simFreqs pm.a.length pm.dt).take ((x.length + 1) / 2) ∧
      o.tf = ((r.H.headD []).take ((x.length + 1) / 2)).map (· / 2) ∧ o.a = r.accel.map (unpad pm.even) ∧
      o.v = r.veloc.map (unpad pm.even) ∧ o.d = r.displ.map (unpad pm.even) ∧
      o.gamma = r.strain.map (unpad pm.even) ∧ o.tau = st.map (unpad pm.even) := by
  obtain ⟨pm', hp', _, hodd, h3, htl, hev, hN, hut, hua⟩ := prepMotion_ok x h2
  rw [hp] at hp'; cases hp'
  have hk : (if pm.even then pm.a.length - 1 else pm.a.length) = x.length := by
    by_cases c : x.length % 2 = 0
    · rw [if_pos (hev.mpr c), hN, if_pos c]; omega
    · rw [if_neg (fun h => c (hev.mp h)), hN, if_neg c]
  have hnf : (if pm.even then (pm.a.length + 1) / 2 - 1 else (pm.a.length + 1) / 2) = (x.length + 1) / 2 := by
    by_cases c : x.length % 2 = 0
    · rw [if_pos (hev.mpr c), hN, if_pos c]; omega
    · rw [if_neg (fun h => c (hev.mp h)), hN, if_neg c]
  have ta := table_unpad (even := pm.even) ha.1 ha.2
  have tv := table_unpad (even := pm.even) hv.1 hv.2
  have td := table_unpad (even := pm.even) hd.1 hd.2
  have tg := table_unpad (even := pm.even) hs.1 hs.2
  have tt := table_unpad (even := pm.even) ht.1 ht.2
  rw [hk] at ta tv td tg tt
  have hhead : ((r.accel.map (unpad pm.even)).headD []).length = x.length := by
    have hne : r.accel.map (unpad pm.even) ≠ [] := by
      intro h0; have := congrArg List.length h0; rw [ta.1] at this; simp at this
    cases hc : r.accel.map (unpad pm.even) with
    | nil => exact absurd hc hne
    | cons c cs => exact ta.2 c (by rw [hc]; simp)
  have hHh : (r.H.headD []).length = pm.a.length := by
    cases hc : r.H with
    | nil => rw [hc] at hH; simp at hH
    | cons c cs => exact hH.2 c (by rw [hc]; simp)
  have hthk : prof.map Row.thk ≠ [] := by
    intro h0; rw [h0] at hl; cases hl
  have hcs : colStack (unpad pm.even pm.t) ((r.accel.map (unpad pm.even)).headD [])
      = .ok ((unpad pm.even pm.t).zip ((r.accel.map (unpad pm.even)).headD [])) := by
    rw [colStack, if_neg (by rw [not_not, hhead, hut]; simp)]
  unfold postProcess
  simp only [bind, Except.bind, pure, Except.pure]
  rw [hcs, thk2dep, if_neg hthk, if_neg Bool.false_ne_true, thk2dep, if_neg hthk, if_pos rfl, hnf]
  simp only
  have e1 : (zTop 0 (prof.map Row.thk)).length = n + 1 := by rw [zTop_length]; simpa using hn
  have e2 : (zMid 0 (prof.map Row.thk)).length = n := by
    rw [zMid_length, if_pos hl]; simp [hn]
  rw [colStack4, if_pos (by simp [e1, ha.1, hv.1, hd.1])]
  simp only
  rw [colStack3, if_pos (by simp [e2, hs.1, ht.1])]
  simp only
  refine ⟨_, rfl, ⟨ta, tv, td, tg, tt, ?_, ?_, ?_, ?_, ?_, ?_, hn⟩, rfl, rfl, rfl, rfl, rfl, rfl, rfl, rfl⟩
  · simp [e1, ha.1, hv.1, hd.1]
  · simp [e2, hs.1, ht.1]
  · simp only [simFreqs, List.length_take, List.length_map, List.length_range]
    rw [← hk]
    cases pm.even <;> simp <;> omega
  · simp only [List.length_map, List.length_take, hHh]
    rw [← hk]
    cases pm.even <;> simp <;> omega
  · exact zip_snd _ _ (by rw [hhead, hut]; simp)
  · show List.map Prod.fst _ = _
    rw [zip_fst _ _ (by rw [hhead, hut]; simp), hut]

/-- A profile without half space has as many midpoints as layers but one strain column less. -/
theorem postProcess_noHalf {x : Rec ℝ} {pm : PrepMotion} {prof : List (Row ℝ)} {n : Nat} {r : Resp} {st : List (List ℝ)}
    (h2 : 2 ≤ x.length) (hp : prepMotion x = .ok pm) (hn : prof.length = n + 1) (hl : (prof.map Row.thk).getLast? ≠ some 0)
    (ha : r.accel.length = n + 1 ∧ ∀ c ∈ r.accel, c.length = pm.a.length)
    (hs : r.strain.length = n) (o : Except PyErr SimOut) (ho : postProcess pm prof r st = o) :
    o = .error .valueError := by
  obtain ⟨pm', hp', _, hodd, h3, htl, hev, hN, hut, hua⟩ := prepMotion_ok x h2
  rw [hp] at hp'; cases hp'
  have hk : (if pm.even then pm.a.length - 1 else pm.a.length) = x.length := by
    by_cases c : x.length % 2 = 0
    · rw [if_pos (hev.mpr c), hN, if_pos c]; omega
    · rw [if_neg (fun h => c (hev.mp h)), hN, if_neg c]
  have ta := table_unpad (even := pm.even) ha.1 ha.2
  rw [hk] at ta
  have hhead : ((r.accel.map (unpad pm.even)).headD []).length = x.length := by
    have hne : r.accel.map (unpad pm.even) ≠ [] := by
      intro h0; have := congrArg List.length h0; rw [ta.1] at this; simp at this
    cases hc : r.accel.map (unpad pm.even) with
    | nil => exact absurd hc hne
    | cons c cs => exact ta.2 c (by rw [hc]; simp)
  have hthk : prof.map Row.thk ≠ [] := by
    intro h0; have := congrArg List.length h0; rw [List.length_map, hn] at this; simp at this
  have hcs : colStack (unpad pm.even pm.t) ((r.accel.map (unpad pm.even)).headD [])
      = .ok ((unpad pm.even pm.t).zip ((r.accel.map (unpad pm.even)).headD [])) := by
    rw [colStack, if_neg (by rw [not_not, hhead, hut]; simp)]
  rw [← ho]
  unfold postProcess
  simp only [bind, Except.bind, pure, Except.pure]
  rw [hcs, thk2dep, if_neg hthk, if_neg Bool.false_ne_true, thk2dep, if_neg hthk, if_pos rfl]
  simp only
  have e2 : (zMid 0 (prof.map Row.thk)).length = n + 1 := by
    rw [zMid_length, if_neg hl]; simp [hn]
  rw [colStack4]
  by_cases c : (List.map maxAbs (List.map (unpad pm.even) r.accel)).length = (zTop 0 (prof.map Row.thk)).length ∧
      (List.map maxAbs (List.map (unpad pm.even) r.veloc)).length = (zTop 0 (prof.map Row.thk)).length ∧
      (List.map maxAbs (List.map (unpad pm.even) r.displ)).length = (zTop 0 (prof.map Row.thk)).length
  · rw [if_pos c]
    simp only
    rw [colStack3, if_neg (by rintro ⟨h, _⟩; simp [e2, hs] at h)]
  · rw [if_neg c]

/-! ## C71 -/

theorem simPrepare_ok {rows : List (Row ℝ)} {x : Rec ℝ} (hv : Valid5 rows) (h2 : 2 ≤ x.length) {dt : ℝ}
    (hdt : dtOf x = .ok dt) (h0 : dt ≠ 0) :
    ∃ pm, prepMotion x = .ok pm ∧ pm.dt = dt ∧ simPrepare rows x = .ok (pm, stratify5 rows) := by
  obtain ⟨pm, hp, hd, _⟩ := prepMotion_ok x h2
  rw [hdt] at hd
  have hd' := Except.ok.inj hd
  refine ⟨pm, hp, hd'.symm, ?_⟩
  unfold simPrepare
  rw [(checkVsFormat_five_ok rows).mpr hv, hp]
  simp only [bind, Except.bind]
  rw [if_neg (by rw [← hd']; exact h0)]

/-- For every valid profile with a half space and every motion, of even or odd length, the linear
every-layer solver succeeds and its results fit the re-discretised profile and the motion; the shape
checks of `Simulation_Results` accept them.  (A rigid boundary needs at least two rows.)
Missing for the full property: profiles without half space, see `C71_noHalf_violated`. -/
theorem C71_linear_partial {rows : List (Row ℝ)} {x : Rec ℝ} {b : Boundary} {dt : ℝ} {last : Row ℝ} (hv : Valid5 rows)
    (hl : rows.getLast? = some last) (h0 : last.thk = 0) (h2 : 2 ≤ x.length) (hdt : dtOf x = .ok dt) (hd0 : dt ≠ 0)
    (hb : b = .rigid → 2 ≤ rows.length) :
    ∃ o, linearSim rows x b = .ok o ∧ o.profile = stratify5 rows ∧
      Fits ((stratify5 rows).length - 1) x.length (x.map Prod.fst) o ∧
      resultShapes ((stratify5 rows).length - 1) o.surface.length o = .ok () := by
  obtain ⟨pm, hp, hpd, hsp⟩ := simPrepare_ok hv h2 hdt hd0
  obtain ⟨sv, sl, _, _, s2⟩ := stratify5_valid hv hl h0
  set prof := stratify5 rows with hprof
  have hne : prof ≠ [] := sv.nonempty
  have hpos : 0 < prof.length := List.length_pos_iff.mpr hne
  obtain ⟨pm', hp', _, hodd, _⟩ := prepMotion_ok x h2
  rw [hp] at hp'; cases hp'
  obtain ⟨r, hr⟩ := linResp_total pm.dt b pm.a (65 / 100) (prof.map Row.thk) (prof.map fun r => r.rho * r.vs ^ 2)
    (prof.map Row.xi) (prof.map Row.rho) (fun hb' => by
      rw [gLays_length (by simp) (by simp) (by simp)]; simpa using s2 (hb hb'))
  obtain ⟨r1, r2, r3, r4, r5, r6, r7, r8, r9, r10, r11, r12⟩ :=
    linResp_ok hodd (by simp) (by simp) (by simp) hr
  simp only [List.length_map] at r7 r8 r9 r10 r11
  have hst := calcStress_shape pm.a.length hodd (prof.map fun r => r.rho * r.vs ^ 2) (prof.map Row.xi) r.1.strain
    (by simp) (by rw [r11.1]; simp) r11.2
  rw [r11.1] at hst
  have hp1 : prof.length = prof.length - 1 + 1 := by omega
  obtain ⟨o, ho, hf, hop, _⟩ := postProcess_fits (prof := prof) (n := prof.length - 1) h2 hp hp1
    (by rw [List.getLast?_map, sl, ← h0]; rfl)
    ⟨by omega, r7.2⟩ ⟨by omega, r8.2⟩ ⟨by omega, r9.2⟩ ⟨by omega, r10.2⟩ r11 hst
  refine ⟨o, ?_, hop, hf, ?_⟩
  · unfold linearSim
    rw [hsp]
    simp only [bind, Except.bind]
    rw [hr]
    exact ho
  · have hk : o.surface.length = x.length := by
      have := congrArg List.length hf.times
      simpa using this
    unfold resultShapes
    rw [hk, if_pos ⟨hf.a, hf.v, hf.d, hf.tau, hf.gamma, hf.avd, hf.gt⟩]

/-- A valid profile whose last layer has a positive thickness always makes the solver fail, with
ValueError unless the boundary is rigid. -/
theorem C71_noHalf_violated {rows : List (Row ℝ)} {x : Rec ℝ} {b : Boundary} {dt : ℝ} {last : Row ℝ} (hv : Valid5 rows)
    (hl : rows.getLast? = some last) (h0 : last.thk ≠ 0) (h2 : 2 ≤ x.length) (hdt : dtOf x = .ok dt) (hd0 : dt ≠ 0) :
    (∀ o, linearSim rows x b ≠ .ok o) ∧ (b = .elastic → linearSim rows x b = .error .valueError) := by
  obtain ⟨pm, hp, hpd, hsp⟩ := simPrepare_ok hv h2 hdt hd0
  obtain ⟨s, sl, s0⟩ := stratify5_noHalf hv hl h0
  set prof := stratify5 rows with hprof
  have hne : prof ≠ [] := by intro h; rw [h] at sl; cases sl
  have hpos : 0 < prof.length := List.length_pos_iff.mpr hne
  obtain ⟨pm', hp', _, hodd, _⟩ := prepMotion_ok x h2
  rw [hp] at hp'; cases hp'
  have key : ∀ r, linResp pm.dt b pm.a (65 / 100) (prof.map Row.thk) (prof.map fun r => r.rho * r.vs ^ 2)
      (prof.map Row.xi) (prof.map Row.rho) = .ok r → linearSim rows x b = .error .valueError := by
    intro r hr
    obtain ⟨r1, r2, r3, r4, r5, r6, r7, r8, r9, r10, r11, r12⟩ :=
      linResp_ok hodd (by simp) (by simp) (by simp) hr
    simp only [List.length_map] at r7 r8 r9 r10 r11
    unfold linearSim
    rw [hsp]
    simp only [bind, Except.bind]
    rw [hr]
    have hp1 : prof.length = prof.length - 1 + 1 := by omega
    exact postProcess_noHalf (prof := prof) (n := prof.length - 1) h2 hp hp1
      (by rw [List.getLast?_map, sl]; intro h; exact absurd (Option.some.inj h) (ne_of_gt s0)) ⟨by omega, r8.2⟩ r11.1 _ rfl
  constructor
  · intro o ho
    cases hr : linResp pm.dt b pm.a (65 / 100) (prof.map Row.thk) (prof.map fun r => r.rho * r.vs ^ 2)
      (prof.map Row.xi) (prof.map Row.rho) with
    | error e =>
      unfold linearSim at ho
      rw [hsp] at ho
      simp only [bind, Except.bind] at ho
      rw [hr] at ho
      cases ho
    | ok r => rw [key r hr] at ho; cases ho
  · intro hb
    obtain ⟨r, hr⟩ := linResp_total pm.dt b pm.a (65 / 100) (prof.map Row.thk) (prof.map fun r => r.rho * r.vs ^ 2)
      (prof.map Row.xi) (prof.map Row.rho) (fun hb' => by rw [hb] at hb'; cases hb')
    exact key r hr

end Verif
