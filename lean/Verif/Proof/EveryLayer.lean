import Verif.Model.EveryLayer
import Verif.Proof.EquivLinear
import Verif.Proof.VsProfile
import Verif.Proof.Stratify
import Verif.Props.Amplify
import Verif.Props.Transfer

/-! Lemmas about the every-layer solvers. -/

set_option linter.unusedSectionVars false
set_option linter.unusedVariables false

open Complex ComplexConjugate

namespace Verif

open Spec (Valid5 OneStrainPerLayer Hermitian)

/-! ## The re-discretised profile -/

/-- One layer of a five-column profile. -/
noncomputable def strat1 (r : Row ℝ) : List (Row ℝ) := (stratifyLayer (toLRow r)).map ofLRow

theorem strat1_spec (r : Row ℝ) (ht : 0 < r.thk) (hv : 0 < r.vs) :
    strat1 r ≠ [] ∧ ∀ s ∈ strat1 r, 0 < s.thk ∧ s = { r with thk := s.thk } := by
  obtain ⟨h1, h2, _, _⟩ := stratifyLayer_spec (toLRow r) ht hv
  refine ⟨by simpa [strat1] using h1, ?_⟩
  intro s hs
  obtain ⟨q, hq, rfl⟩ := List.mem_map.mp hs
  obtain ⟨a, b, c, _⟩ := h2 q hq
  refine ⟨c, ?_⟩
  unfold ofLRow
  rw [a, b]
  rfl

theorem stratify5_half (init : List (Row ℝ)) (last : Row ℝ) (h : last.thk = 0) :
    stratify5 (init ++ [last]) = init.flatMap strat1 ++ [last] := by
  unfold stratify5 stratify
  rw [List.map_append, List.map_cons, List.map_nil, List.getLast?_append]
  simp only [List.getLast?_singleton, Option.some_or]
  rw [if_pos (show (toLRow last).thk = 0 from h), List.dropLast_concat, List.map_append, List.flatMap_map,
    List.map_flatMap]
  rfl

theorem stratify5_full (init : List (Row ℝ)) (last : Row ℝ) (h : last.thk ≠ 0) :
    stratify5 (init ++ [last]) = (init ++ [last]).flatMap strat1 := by
  unfold stratify5 stratify
  rw [List.map_append, List.map_cons, List.map_nil, List.getLast?_append]
  simp only [List.getLast?_singleton, Option.some_or]
  rw [if_neg (show ¬(toLRow last).thk = 0 from h)]
  rw [show List.map toLRow init ++ [toLRow last] = (init ++ [last]).map toLRow by simp, List.flatMap_map, List.map_flatMap]
  rfl

theorem split_last {α : Type} {l : List α} {x : α} (h : l.getLast? = some x) : l = l.dropLast ++ [x] := by
  have hne : l ≠ [] := by intro h0; rw [h0] at h; cases h
  rw [List.getLast?_eq_some_getLast hne] at h
  rw [← Option.some.inj h]
  exact (List.dropLast_append_getLast hne).symm

/-- A valid profile with a half space stays valid, keeps the half space and all materials. -/
theorem stratify5_valid {rows : List (Row ℝ)} {last : Row ℝ} (hv : Valid5 rows) (hl : rows.getLast? = some last)
    (h0 : last.thk = 0) :
    Valid5 (stratify5 rows) ∧ (stratify5 rows).getLast? = some last ∧
    (∀ s ∈ stratify5 rows, ∃ r ∈ rows, s = { r with thk := s.thk }) ∧
    (∀ r ∈ rows, ∃ s ∈ stratify5 rows, s = { r with thk := s.thk }) ∧
    (2 ≤ rows.length → 2 ≤ (stratify5 rows).length) := by
  have hsp := split_last hl
  have hstr : stratify5 rows = rows.dropLast.flatMap strat1 ++ [last] := by
    conv_lhs => rw [hsp]
    exact stratify5_half _ _ h0
  have hin : ∀ s ∈ rows.dropLast.flatMap strat1, ∃ r ∈ rows.dropLast, 0 < s.thk ∧ s = { r with thk := s.thk } := by
    intro s hs
    obtain ⟨r, hr, hs'⟩ := List.mem_flatMap.mp hs
    have := (strat1_spec r (hv.thk_pos r hr) (hv.pos r (List.dropLast_subset _ hr)).1).2 s hs'
    exact ⟨r, hr, this⟩
  have hlast : last ∈ rows := List.mem_of_getLast? hl
  have hall : ∀ s ∈ stratify5 rows, ∃ r ∈ rows, s = { r with thk := s.thk } := by
    intro s hs
    rw [hstr] at hs
    rcases List.mem_append.mp hs with hs | hs
    · obtain ⟨r, hr, _, h2⟩ := hin s hs
      exact ⟨r, List.dropLast_subset _ hr, h2⟩
    · simp at hs; subst hs; exact ⟨s, hlast, rfl⟩
  refine ⟨⟨?_, ?_, ?_, ?_, ?_, ?_, ?_⟩, ?_, hall, ?_, ?_⟩
  · rw [hstr]; simp
  · intro s hs
    rw [hstr, List.dropLast_concat] at hs
    obtain ⟨r, hr, h1, _⟩ := hin s hs; exact h1
  · intro s hs
    rw [hstr] at hs
    rcases List.mem_append.mp hs with hs | hs
    · obtain ⟨r, hr, h1, _⟩ := hin s hs; exact h1.le
    · simp at hs; subst hs; rw [h0]
  · intro s hs
    obtain ⟨r, hr, h2⟩ := hall s hs
    rw [h2]; exact hv.pos r hr
  · intro s hs
    obtain ⟨r, hr, h2⟩ := hall s hs
    rw [h2]; exact hv.mat_int r hr
  · intro s hs
    rw [hstr, List.dropLast_concat] at hs
    obtain ⟨r, hr, _, h2⟩ := hin s hs
    rw [h2]; exact hv.mat_pos r hr
  · intro s hs
    obtain ⟨r, hr, h2⟩ := hall s hs
    rw [h2]; exact hv.mat_nonneg r hr
  · rw [hstr]; simp
  · intro r hr
    rw [hsp] at hr
    rcases List.mem_append.mp hr with hr | hr
    · have hsp1 := strat1_spec r (hv.thk_pos r hr) (hv.pos r (List.dropLast_subset _ hr)).1
      obtain ⟨s, hs⟩ := List.exists_mem_of_ne_nil _ hsp1.1
      exact ⟨s, by rw [hstr]; exact List.mem_append_left _ (List.mem_flatMap.mpr ⟨r, hr, hs⟩), (hsp1.2 s hs).2⟩
    · simp at hr; subst hr; exact ⟨r, by rw [hstr]; simp, rfl⟩
  · intro h2
    rw [hstr]
    have hd : rows.dropLast ≠ [] := by
      intro hd; have := congrArg List.length hd; simp at this; omega
    obtain ⟨r, hr⟩ := List.exists_mem_of_ne_nil _ hd
    have hsp1 := strat1_spec r (hv.thk_pos r hr) (hv.pos r (List.dropLast_subset _ hr)).1
    obtain ⟨s, hs⟩ := List.exists_mem_of_ne_nil _ hsp1.1
    have : 0 < (rows.dropLast.flatMap strat1).length :=
      List.length_pos_of_mem (List.mem_flatMap.mpr ⟨r, hr, hs⟩)
    simp only [List.length_append, List.length_singleton]; omega

/-- Without a half space the last sub-layer has a positive thickness. -/
theorem stratify5_noHalf {rows : List (Row ℝ)} {last : Row ℝ} (hv : Valid5 rows) (hl : rows.getLast? = some last)
    (h0 : last.thk ≠ 0) : ∃ s, (stratify5 rows).getLast? = some s ∧ 0 < s.thk := by
  have hsp := split_last hl
  have hlast : last ∈ rows := List.mem_of_getLast? hl
  have hpos : 0 < last.thk := lt_of_le_of_ne (hv.thk_nonneg _ hlast) (Ne.symm h0)
  obtain ⟨h1, h2⟩ := strat1_spec last hpos (hv.pos _ hlast).1
  refine ⟨(strat1 last).getLast h1, ?_, (h2 _ (List.getLast_mem h1)).1⟩
  conv_lhs => rw [hsp]
  rw [stratify5_full _ _ h0, List.flatMap_append, List.getLast?_append]
  simp [List.getLast?_eq_some_getLast h1]

/-! ## Preparation of the motion -/

theorem prepMotion_ok (x : Rec ℝ) (h2 : 2 ≤ x.length) :
    ∃ pm, prepMotion x = .ok pm ∧ dtOf x = .ok pm.dt ∧ pm.a.length % 2 = 1 ∧ 3 ≤ pm.a.length ∧ pm.t.length = pm.a.length ∧
      (pm.even = true ↔ x.length % 2 = 0) ∧ pm.a.length = (if x.length % 2 = 0 then x.length + 1 else x.length) ∧
      unpad pm.even pm.t = x.map Prod.fst ∧ unpad pm.even pm.a = (x.map Prod.snd).map (· / 2) := by
  match x, h2 with
  | p :: q :: rest, _ =>
    have hd : dtOf (p :: q :: rest) = .ok (q.1 - p.1) := rfl
    unfold prepMotion
    rw [hd]
    simp only [bind, Except.bind]
    have e1 : ((p :: q :: rest).map Prod.fst).getLast? = some (((p :: q :: rest).map Prod.fst).getLast (by simp)) :=
      List.getLast?_eq_some_getLast _
    have e2 : (((p :: q :: rest).map Prod.snd).map (· / 2)).getLast?
        = some ((((p :: q :: rest).map Prod.snd).map (· / 2)).getLast (by simp)) := List.getLast?_eq_some_getLast _
    rw [e1, e2]
    simp only
    have hlen : (((p :: q :: rest).map Prod.snd).map (· / 2)).length = (p :: q :: rest).length := by simp
    by_cases c : (p :: q :: rest).length % 2 = 0
    · rw [if_pos (by rw [hlen]; exact c)]
      refine ⟨_, rfl, rfl, ?_, ?_, ?_, ?_, ?_, ?_, ?_⟩
      · simp only [List.length_append, hlen, List.length_singleton]; omega
      · simp
      · simp
      · exact ⟨fun _ => c, fun _ => rfl⟩
      · rw [if_pos c]; simp
      · unfold unpad; rw [if_pos rfl, List.dropLast_concat]
      · unfold unpad; rw [if_pos rfl, List.dropLast_concat]
    · rw [if_neg (by rw [hlen]; exact c)]
      refine ⟨_, rfl, rfl, ?_, ?_, ?_, ?_, ?_, ?_, ?_⟩
      · simp only [hlen]; omega
      · simp only [hlen]
        simp only [List.length_cons] at c ⊢; omega
      · simp
      · exact ⟨fun h => absurd h (by simp), fun h => absurd h c⟩
      · rw [if_neg c]; simp
      · simp [unpad]
      · simp [unpad]

/-! ## The response calculation -/

theorem gLays_length {h G D rho : List ℝ} (h1 : G.length = h.length) (h2 : D.length = h.length) (h3 : rho.length = h.length) :
    (gLays h G D rho).length = h.length := by simp [gLays, h1, h2, h3]

theorem strainCols_length (h : List ℝ) (d : List (List ℝ)) (hl : h.length = d.length) :
    (strainCols h d).length = d.length - 1 := by
  induction h generalizing d with
  | nil => cases d with
    | nil => rfl
    | cons a d => simp at hl
  | cons t h ih =>
    match d, hl with
    | [a], _ => simp [strainCols]
    | a :: b :: d, hl =>
      have := ih (b :: d) (by simpa using hl)
      simp only [strainCols, List.length_cons, this]; simp

theorem strainCols_mem (N : Nat) (h : List ℝ) (d : List (List ℝ)) (hd : ∀ c ∈ d, c.length = N) :
    ∀ c ∈ strainCols h d, c.length = N := by
  induction h generalizing d with
  | nil => intro c hc; simp [strainCols] at hc
  | cons t h ih =>
    match d with
    | [] => intro c hc; simp [strainCols] at hc
    | [a] => intro c hc; simp [strainCols] at hc
    | a :: b :: d =>
      intro c hc
      rw [strainCols] at hc
      rcases List.mem_cons.mp hc with rfl | hc
      · simp [hd a (by simp), hd b (by simp)]
      · exact ih (b :: d) (fun c hc => hd c (by simp at hc ⊢; right; exact hc)) c hc

theorem integrate_length (dt : ℝ) (a : List ℝ) : (integrate dt a).length = a.length := by
  simp [integrate, cumsum, cumsumFrom_length]

theorem displCol_length (N : Nat) (dt : ℝ) (a : List ℝ) : (displCol N dt a).length = a.length := by
  simp [displCol, unoffset, integrate_length]

theorem hColumn_length (N : Nat) (hN : N % 2 = 1) (f : Nat → ℂ) : (hColumn N f).length = N :=
  (C29_every_layer N hN f (List.replicate N 0) (by simp)).1

/-- Shapes of the response calculation. -/
theorem linResp_ok {dt : ℝ} {b : Boundary} {acc : List ℝ} {Rg : ℝ} {h G D rho : List ℝ} {r : Resp × List ℝ}
    (hN : acc.length % 2 = 1) (h1 : G.length = h.length) (h2 : D.length = h.length)
    (h3 : rho.length = h.length) (hr : linResp dt b acc Rg h G D rho = .ok r) :
    hMatrix acc.length dt b (gLays h G D rho) = .ok r.1.H ∧
    r.1.accel = r.1.H.map (accelCol (fftL (acc.map fun x : ℝ => (x : ℂ)))) ∧ r.1.veloc = r.1.accel.map (integrate dt) ∧
    r.1.displ = r.1.accel.map (displCol acc.length dt) ∧ r.1.strain = strainCols h r.1.displ ∧
    r.2 = r.1.strain.map (fun s => Rg * maxAbs s) ∧
    (r.1.H.length = h.length ∧ ∀ c ∈ r.1.H, c.length = acc.length) ∧
    (r.1.accel.length = h.length ∧ ∀ c ∈ r.1.accel, c.length = acc.length) ∧
    (r.1.veloc.length = h.length ∧ ∀ c ∈ r.1.veloc, c.length = acc.length) ∧
    (r.1.displ.length = h.length ∧ ∀ c ∈ r.1.displ, c.length = acc.length) ∧
    (r.1.strain.length = h.length - 1 ∧ ∀ c ∈ r.1.strain, c.length = acc.length) ∧ r.2.length = h.length - 1 := by
  unfold linResp at hr
  simp only [bind, Except.bind] at hr
  cases hH : hMatrix acc.length dt b (gLays h G D rho) with
  | error e => rw [hH] at hr; cases hr
  | ok H =>
    rw [hH] at hr
    have e := Except.ok.inj hr
    have hHl : H.length = h.length ∧ ∀ c ∈ H, c.length = acc.length := by
      unfold hMatrix at hH
      cases ha : alphasG b (gLays h G D rho) with
      | error e => rw [ha] at hH; cases hH
      | ok al =>
        rw [ha] at hH
        cases hH
        refine ⟨by simp [gLays_length h1 h2 h3], ?_⟩
        intro c hc
        obtain ⟨k, _, rfl⟩ := List.mem_map.mp hc
        exact hColumn_length _ hN _
    subst e
    have ha : ∀ c ∈ H.map (accelCol (fftL (acc.map fun x : ℝ => (x : ℂ)))), c.length = acc.length := by
      intro c hc
      obtain ⟨d, hd, rfl⟩ := List.mem_map.mp hc
      simp [accelCol, ifftL_length, fftL_length, hHl.2 d hd]
    have hd : ∀ c ∈ (H.map (accelCol (fftL (acc.map fun x : ℝ => (x : ℂ))))).map (displCol acc.length dt), c.length = acc.length := by
      intro c hc
      obtain ⟨d, hd, rfl⟩ := List.mem_map.mp hc
      rw [displCol_length]; exact ha d hd
    have hs := strainCols_length h ((H.map (accelCol (fftL (acc.map fun x : ℝ => (x : ℂ))))).map (displCol acc.length dt))
      (by simp [hHl.1])
    refine ⟨rfl, rfl, rfl, rfl, rfl, rfl, hHl, ⟨by simp [hHl.1], ha⟩, ⟨by simp [hHl.1], ?_⟩, ⟨by simp [hHl.1], hd⟩,
      ⟨by rw [hs]; simp [hHl.1], strainCols_mem _ _ _ hd⟩, ?_⟩
    · intro c hc
      obtain ⟨d, hd, rfl⟩ := List.mem_map.mp hc
      rw [integrate_length]; exact ha d hd
    · show List.length (List.map _ _) = _
      rw [List.length_map, hs]; simp [hHl.1]

theorem linResp_total (dt : ℝ) (b : Boundary) (acc : List ℝ) (Rg : ℝ) (h G D rho : List ℝ)
    (hb : b = .rigid → 2 ≤ (gLays h G D rho).length) : ∃ r, linResp dt b acc Rg h G D rho = .ok r := by
  have : ∃ al, alphasG b (gLays h G D rho) = .ok al := by
    unfold alphasG
    cases b with
    | elastic => exact ⟨_, rfl⟩
    | rigid =>
      have h2 := hb rfl
      simp only
      rw [if_neg]
      · exact ⟨_, rfl⟩
      · intro h0
        have := congrArg List.length h0
        simp at this; omega
  obtain ⟨al, hal⟩ := this
  unfold linResp hMatrix
  rw [hal]
  exact ⟨_, rfl⟩

theorem linResp_oneStrain (dt : ℝ) (b : Boundary) (acc : List ℝ) (Rg : ℝ) (hN : acc.length % 2 = 1) :
    OneStrainPerLayer (linResp dt b acc Rg) := by
  intro h G D rho r hne h1 h2 h3 hr
  have := (linResp_ok hN h1 h2 h3 hr).2.2.2.2.2.2.2.2.2.2.2
  have hl := List.length_pos_iff.mpr hne
  omega

theorem stressCol_length (m : ℂ) (s : List ℝ) (hN : s.length % 2 = 1) : (stressCol m s).length = s.length := by
  unfold stressCol
  simp only [List.length_map, ifftL_length, realFirst_length, List.length_append, List.length_reverse, List.length_drop,
    List.length_take, fftL_length]
  omega

theorem calcStress_shape (N : Nat) (hN : N % 2 = 1) (G D : List ℝ) (st : List (List ℝ)) (h1 : G.length = D.length)
    (h2 : st.length = G.length - 1) (h3 : ∀ c ∈ st, c.length = N) :
    (calcStress G D st).length = st.length ∧ ∀ c ∈ calcStress G D st, c.length = N := by
  constructor
  · simp [calcStress, h1, h2]
  · intro c hc
    unfold calcStress at hc
    obtain ⟨m, _, s, hs, rfl⟩ := zipWith_mem _ _ _ _ hc
    rw [stressCol_length _ _ (by rw [h3 s hs]; exact hN), h3 s hs]

end Verif
