import Verif.Props.EveryLayerLin
import Verif.Props.AmplifyExt

/-!
Properties C92 (equivalent-linear analysis with flat curves is linear analysis) and C89 (which moduli
the results of the equivalent-linear solver belong to).
-/

set_option linter.unusedSectionVars false
set_option linter.unusedVariables false

open Complex ComplexConjugate

namespace Verif

open Spec (Valid5 OneStrainPerLayer Hermitian Table Fits CloseTo before DampedLay MakesUp rowLay initial)

/-- The curves of the material of row `r` do not depend on strain: G/Gmax is 1, damping is constant, and
the table of G/Gmax reaches at least the strain `e` (in unit 1; tables are in percent). -/
def Spec.FlatFor (cols : List (List ℝ)) (r : Row ℝ) (e : ℝ) : Prop :=
  ∃ (m : Nat) (sg g sd d : List ℝ) (d0 sl : ℝ), r.mat = (m : ℝ) + 1 ∧ cols[4 * m]? = some sg ∧ cols[4 * m + 1]? = some g ∧
    cols[4 * m + 2]? = some sd ∧ cols[4 * m + 3]? = some d ∧ sg.length = g.length ∧ (∀ v ∈ g, v = 1) ∧
    d.head? = some d0 ∧ (∀ v ∈ d, v = d0) ∧ sg.getLast? = some sl ∧ e ≤ sl / 100 ∧ sl / 100 < 100

open Spec (FlatFor)

/-- `mapM` with prescribed results. -/
theorem mapM_out {α β : Type} (f : α → Except PyErr β) : ∀ (l : List α) (out : List β), l.length = out.length →
    (∀ (k : Nat) (x : α) (y : β), l[k]? = some x → out[k]? = some y → f x = .ok y) → l.mapM f = .ok out
  | [], [], _, _ => rfl
  | x :: l, y :: out, hl, h => by
    rw [List.mapM_cons, h 0 x y rfl rfl]
    simp only [bind, Except.bind]
    rw [mapM_out f l out (by simpa using hl) fun k x y hx hy => h (k + 1) x y (by simpa using hx) (by simpa using hy)]
    rfl
  | [], _ :: _, hl, _ => by simp at hl
  | _ :: _, [], hl, _ => by simp at hl

/-- The curve function of `layCurves`. -/
noncomputable def layF (cols : List (List ℝ)) (r : Row ℝ) : Except PyErr (LayCurve ℝ) := do
  let c ← curveCols cols (⌊r.mat⌋ - 1)
  layCurve c.1 c.2.1 c.2.2.1 c.2.2.2 r.xi

theorem layF_flat {cols : List (List ℝ)} {r : Row ℝ} {e : ℝ} (h : FlatFor cols r e) :
    ∃ c, layF cols r = .ok c ∧ ∀ gm, layUpdate gm c e = .ok (gm, r.xi) := by
  obtain ⟨m, sg, g, sd, d, d0, sl, hm, h0, h1, h2, h3, hlen, hg, hd0, hd, hsl, hle, hlt⟩ := h
  have hfl : ⌊r.mat⌋ - 1 = (m : Int) := by
    rw [hm]
    have : ⌊(m : ℝ) + 1⌋ = (m : Int) + 1 := by
      rw [Int.floor_eq_iff]; push_cast; constructor <;> linarith
    omega
  have gp : ∀ j : Nat, ∀ l : List ℝ, cols[4 * m + j]? = some l → pyGet cols ((m : Int) * 4 + (j : Int)) = .ok l := by
    intro j l hj
    have := (pyGet_nonneg cols (4 * m + j) l).mpr hj
    rw [← this]; congr 1; push_cast; ring
  have q0 := gp 0 sg (by simpa using h0)
  have q1 := gp 1 g h1
  have q2 := gp 2 sd h2
  have q3 := gp 3 d h3
  simp only [Nat.cast_ofNat, Nat.cast_zero, Nat.cast_one] at q0 q1 q2 q3
  have hgne : g ≠ [] := by
    intro h; rw [h] at hlen
    have := List.eq_nil_of_length_eq_zero (by simpa using hlen)
    rw [this] at hsl; cases hsl
  have hdne : d ≠ [] := by intro h; rw [h] at hd0; cases hd0
  have hgl : g.getLast? = some 1 := by
    rw [List.getLast?_eq_some_getLast hgne, hg _ (List.getLast_mem hgne)]
  have hdl : d.getLast? = some d0 := by
    rw [List.getLast?_eq_some_getLast hdne, hd _ (List.getLast_mem hdne)]
  have hdm0 : ∀ u : List ℝ, (∀ v ∈ u, v = d0) → ∀ w ∈ u.map (· / 100), w = d0 / 100 := by
    intro u hu w hw
    obtain ⟨v, hv, rfl⟩ := List.mem_map.mp hw
    rw [hu v hv]
  refine ⟨{ g := (0, 1) :: ((sg.map (· / 100)).zip g ++ [(100, min (1 / 10 ^ 4) 1)])
            d := (0, d0 / 100 - d0 / 100 + r.xi) :: ((sd.map (· / 100)).zip ((d.map (· / 100)).map fun x => x - d0 / 100 + r.xi)
              ++ [(100, d0 / 100 - d0 / 100 + r.xi)]) }, ?_, ?_⟩
  · unfold layF curveCols
    rw [hfl]
    simp only [bind, Except.bind, q0, q1, q2, q3, pure, Except.pure]
    unfold layCurve
    rw [List.head?_map, hd0, hgl, List.getLast?_map, hdl]
    rfl
  · intro gm
    have i1 : interpFrom e (0, 1) ((sg.map (· / 100)).zip g ++ [((100 : ℝ), min (1 / 10 ^ 4) (1 : ℝ))]) = 1 := by
      rw [interp_inside e (100, min (1 / 10 ^ 4) 1) ((sg.map (· / 100)).zip g) (0, 1) (sl / 100, 1)]
      · apply interpFrom_const _ _ _ rfl
        intro q hq
        exact hg _ (List.of_mem_zip hq).2
      · rw [List.getLast?_cons]
        have : ((sg.map (· / 100)).zip g).getLast? = some (sl / 100, 1) := by
          rw [List.getLast?_eq_getElem?]
          rw [List.getLast?_eq_getElem?] at hsl hgl
          have hl : ((sg.map (· / 100)).zip g).length = g.length := by simp [hlen]
          rw [hl, List.zip, List.getElem?_zipWith, List.getElem?_map, hgl, ← hlen, hsl]
          rfl
        rw [this]; rfl
      · exact hle
      · exact hlt
    have i2 : interpFrom e (0, d0 / 100 - d0 / 100 + r.xi) ((sd.map (· / 100)).zip ((d.map (· / 100)).map fun x => x - d0 / 100 + r.xi)
              ++ [((100 : ℝ), d0 / 100 - d0 / 100 + r.xi)]) = r.xi := by
      apply interpFrom_const _ _ _ (by simp)
      intro q hq
      rcases List.mem_append.mp hq with hq | hq
      · obtain ⟨w, hw, e⟩ := List.mem_map.mp (List.of_mem_zip hq).2
        rw [← e, hdm0 d hd w hw]; ring
      · simp at hq; rw [hq]
    unfold layUpdate npInterp
    simp only [bind, Except.bind, i1, i2, mul_one, pure, Except.pure]

theorem zipWith_xi (l : List (Row ℝ)) : List.zipWith (fun (r : Row ℝ) x => { r with xi := x }) l (l.map Row.xi) = l := by
  induction l with
  | nil => rfl
  | cons a l ih => simp [ih]

theorem setDamping_self (prof : List (Row ℝ)) (hne : prof ≠ []) : setDamping prof (prof.dropLast.map Row.xi) = prof := by
  unfold setDamping
  rw [zipWith_xi, List.getLast?_eq_some_getLast hne]
  exact List.dropLast_append_getLast hne

/-- A pass that changes nothing is repeated without change. -/
theorem eqLoop_fixed {R : Type} {resp : RespFn ℝ R} {gmax : List ℝ} {cs : List (LayCurve ℝ)} {tol : ℝ} {verbose : Bool}
    {prof : List (Row ℝ)} {r : R × List ℝ} (h2 : 2 ≤ prof.length) (hg : gmax = prof.map fun r => r.rho * r.vs ^ 2)
    (hr : resp (prof.map Row.thk) gmax (prof.map Row.xi) (prof.map Row.rho) = .ok r)
    (hu : eqUpdate gmax.dropLast cs r.2 = .ok (prof.dropLast.map fun r => (r.rho * r.vs ^ 2, r.xi))) :
    ∀ (n : Nat) (s : EqState ℝ R), s.prof = prof → s.G = gmax → (n = 0 → s.res = some r.1) →
      ∃ s', eqLoop resp gmax cs tol verbose n s = .ok s' ∧ s'.prof = prof ∧ s'.G = gmax ∧ s'.res = some r.1 := by
  have hne : prof ≠ [] := by intro h; rw [h] at h2; simp at h2
  intro n
  induction n with
  | zero => intro s h1 h2 h3; exact ⟨s, rfl, h1, h2, h3 rfl⟩
  | succ n ih =>
    intro s e1 e2 _
    have e3 : (prof.dropLast.map fun r => (r.rho * r.vs ^ 2, r.xi)).map Prod.snd = prof.dropLast.map Row.xi := by
      rw [List.map_map]; rfl
    have e4 : (prof.dropLast.map fun r => (r.rho * r.vs ^ 2, r.xi)).map Prod.fst = gmax.dropLast := by
      rw [List.map_map, hg, ← List.map_dropLast]; rfl
    have hgne : gmax ≠ [] := by rw [hg]; simpa using hne
    have hstep : ∃ s' c, eqStep resp gmax cs tol s = .ok (s', c) ∧ s'.prof = prof ∧ s'.G = gmax ∧ s'.res = some r.1 := by
      have e5 : setModulus gmax gmax.dropLast = gmax := by
        rw [setModulus, List.getLast?_eq_some_getLast hgne]
        exact List.dropLast_append_getLast hgne
      refine ⟨⟨prof, gmax, some r.1, s.hist ++ [prof.dropLast.map fun r => (r.rho * r.vs ^ 2, r.xi)]⟩,
        maxRelDiffLt tol gmax.dropLast gmax.dropLast
          && maxRelDiffLt tol (prof.dropLast.map Row.xi) (prof.dropLast.map Row.xi), ?_, rfl, rfl, rfl⟩
      unfold eqStep
      rw [e1, e2, hr]
      simp only [bind, Except.bind, hu]
      rw [if_neg (by
        intro h
        have := congrArg List.length h
        simp at this; omega), e3, e4, e5, setDamping_self prof hne]
    obtain ⟨s', c, hs, k1, k2, k3⟩ := hstep
    rw [eqLoop, hs]
    simp only
    by_cases cv : (c && verbose) = true
    · rw [if_pos cv]; exact ⟨s', rfl, k1, k2, k3⟩
    · rw [if_neg cv]; exact ih s' k1 k2 fun _ => k3

/-- If the update of modulus and damping at the effective strains of the linear analysis gives the initial values back, the
equivalent-linear solver gives the results of the linear one. -/
theorem equiv_eq_linear {rows : List (Row ℝ)} {x : Rec ℝ} {b : Boundary} {cols : List (List ℝ)} {tol Rg dt : ℝ}
    {maxIter : Int} {verbose : Bool} {last : Row ℝ} (hv : Valid5 rows)
    (hl : rows.getLast? = some last) (h0 : last.thk = 0) (hr2 : 2 ≤ rows.length) (h2 : 2 ≤ x.length)
    (hdt : dtOf x = .ok dt) (hd0 : dt ≠ 0) (hm : 1 ≤ maxIter)
    (hflat : ∀ (pm : PrepMotion) (r : Resp × List ℝ), prepMotion x = .ok pm →
      linResp dt b pm.a Rg ((stratify5 rows).map Row.thk) ((stratify5 rows).map fun r => r.rho * r.vs ^ 2)
        ((stratify5 rows).map Row.xi) ((stratify5 rows).map Row.rho) = .ok r →
      ∀ (k : Nat) (q : Row ℝ) (e : ℝ), (stratify5 rows).dropLast[k]? = some q → r.2[k]? = some e →
        ∃ c, layF cols q = .ok c ∧ ∀ gm, layUpdate gm c e = .ok (gm, q.xi)) :
    equivLinear rows x cols b tol Rg maxIter verbose = linearSim rows x b := by
  obtain ⟨pm, hp, hpd, hsp⟩ := simPrepare_ok hv h2 hdt hd0
  obtain ⟨sv, sl, sall, _, s2⟩ := stratify5_valid hv hl h0
  have hs2 := s2 hr2
  obtain ⟨pm', hp', _, hodd, _⟩ := prepMotion_ok x h2
  rw [hp] at hp'; cases hp'
  set prof := stratify5 rows with hprof
  obtain ⟨r, hr⟩ := linResp_total dt b pm.a Rg (prof.map Row.thk) (prof.map fun r => r.rho * r.vs ^ 2)
    (prof.map Row.xi) (prof.map Row.rho) (fun hb' => by
      rw [gLays_length (by simp) (by simp) (by simp)]; simpa using hs2)
  obtain ⟨_, _, _, _, _, _, _, _, _, _, _, r12⟩ := linResp_ok hodd (by simp) (by simp) (by simp) hr
  simp only [List.length_map] at r12
  have hf := hflat pm r hp hr
  -- the curves
  have hex : ∀ q : Row ℝ, ∃ c : LayCurve ℝ, q ∈ prof.dropLast → layF cols q = .ok c := by
    intro q
    by_cases hq : q ∈ prof.dropLast
    · obtain ⟨k, hk, hke⟩ := List.getElem_of_mem hq
      have hk2 : k < r.2.length := by rw [r12]; simpa using hk
      obtain ⟨c, hc, _⟩ := hf k q r.2[k] (by rw [List.getElem?_eq_getElem hk, hke]) (List.getElem?_eq_getElem hk2)
      exact ⟨c, fun _ => hc⟩
    · exact ⟨⟨[], []⟩, fun h => absurd h hq⟩
  choose gf hgf using hex
  have hcs : layCurves cols prof = .ok (prof.dropLast.map gf) := by
    have : layCurves cols prof = prof.dropLast.mapM (layF cols) := rfl
    rw [this]
    exact mapM_of_forall _ _ _ fun q hq => hgf q hq
  have hu : eqUpdate (prof.map fun r => r.rho * r.vs ^ 2).dropLast (prof.dropLast.map gf) r.2
      = .ok (prof.dropLast.map fun r => (r.rho * r.vs ^ 2, r.xi)) := by
    unfold eqUpdate
    apply mapM_out
    · simp [r12]
    · intro k z y hz hy
      simp only [List.zip, List.getElem?_zipWith, ← List.map_dropLast, List.getElem?_map] at hz hy
      cases hq : prof.dropLast[k]? with
      | none => rw [hq] at hy; cases hy
      | some q =>
        cases he : r.2[k]? with
        | none => rw [hq, he] at hz; cases hz
        | some e =>
          rw [hq, he] at hz
          rw [hq] at hy
          cases hz; cases hy
          obtain ⟨c, hc, hup⟩ := hf k q e hq he
          rw [hgf q (List.mem_of_getElem? hq)] at hc
          cases hc
          exact hup _
  obtain ⟨s, hs, k1, k2, k3⟩ := eqLoop_fixed (tol := tol) (verbose := verbose) hs2 rfl hr hu maxIter.toNat
    ⟨prof, prof.map fun r => r.rho * r.vs ^ 2, none, []⟩ rfl rfl (fun h => by omega)
  have hit : eqIterate (linResp dt b pm.a Rg) prof cols tol maxIter verbose = .ok (s, r.1) := by
    unfold eqIterate
    simp only [bind, Except.bind]
    rw [hcs]
    simp only
    have : checkMaxIter maxIter = .ok () := by
      unfold checkMaxIter; rw [if_neg (by omega), if_neg (by omega)]
    rw [this]
    simp only
    rw [hs]
    simp only [k3]
  -- the linear run
  have hlin : linResp dt b pm.a (65 / 100) (prof.map Row.thk) (prof.map fun r => r.rho * r.vs ^ 2)
    (prof.map Row.xi) (prof.map Row.rho) = .ok (r.1, r.1.strain.map fun s => 65 / 100 * maxAbs s) := by
    unfold linResp at hr ⊢
    simp only [bind, Except.bind] at hr ⊢
    cases hH : hMatrix pm.a.length dt b (gLays (prof.map Row.thk) (prof.map fun r => r.rho * r.vs ^ 2)
        (prof.map Row.xi) (prof.map Row.rho)) with
    | error e => rw [hH] at hr; cases hr
    | ok H =>
      rw [hH] at hr
      simp only [pure, Except.pure] at hr ⊢
      rw [← Except.ok.inj hr]
  unfold equivLinear linearSim
  rw [hsp]
  simp only [bind, Except.bind]
  rw [hpd, hit, hlin]
  simp only
  rw [k1, k2]

/-- C92. If the curves of every layer are flat and reach its effective strain in the linear analysis, the
equivalent-linear solver gives exactly the results of the linear one, whatever tolerance, iteration limit
and verbosity.  The part missing: tables ending below the effective strain, see `C92_beyond_violated`. -/
theorem C92_flat_partial {rows : List (Row ℝ)} {x : Rec ℝ} {b : Boundary} {cols : List (List ℝ)} {tol Rg dt : ℝ}
    {maxIter : Int} {verbose : Bool} {last : Row ℝ} (hv : Valid5 rows)
    (hl : rows.getLast? = some last) (h0 : last.thk = 0) (hr2 : 2 ≤ rows.length) (h2 : 2 ≤ x.length)
    (hdt : dtOf x = .ok dt) (hd0 : dt ≠ 0) (hm : 1 ≤ maxIter)
    (hflat : ∀ (pm : PrepMotion) (r : Resp × List ℝ), prepMotion x = .ok pm →
      linResp dt b pm.a Rg ((stratify5 rows).map Row.thk) ((stratify5 rows).map fun r => r.rho * r.vs ^ 2)
        ((stratify5 rows).map Row.xi) ((stratify5 rows).map Row.rho) = .ok r →
      ∀ (k : Nat) (q : Row ℝ) (e : ℝ), (stratify5 rows).dropLast[k]? = some q → r.2[k]? = some e → FlatFor cols q e) :
    equivLinear rows x cols b tol Rg maxIter verbose = linearSim rows x b :=
  equiv_eq_linear hv hl h0 hr2 h2 hdt hd0 hm fun pm r hp hr k q e hq he => layF_flat (hflat pm r hp hr k q e hq he)

/-- Beyond the last strain of the table the modulus falls although G/Gmax is 1 throughout the table: the
table is continued towards 1e-4 at strain 100. -/
theorem C92_beyond_violated {sg g sd d : List ℝ} {xi e gm sl : ℝ} {c : LayCurve ℝ} (hg : ∀ v ∈ g, v = 1)
    (hlen : sg.length = g.length) (hs : sg.getLast? = some sl) (hinc : ∀ s ∈ sg, s ≤ sl) (h0 : 0 < sl) (he : sl < e) (he' : e ≤ 100)
    (hgm : 0 < gm) (hc : layCurve sg g sd d xi = .ok c) :
    ∃ y, layUpdate gm c e = .ok y ∧ y.1 < gm := by
  unfold layCurve at hc
  have hgne : g ≠ [] := by
    intro h; rw [h] at hlen
    have := List.eq_nil_of_length_eq_zero (by simpa using hlen)
    rw [this] at hs; cases hs
  have hgl : g.getLast? = some 1 := by
    rw [List.getLast?_eq_some_getLast hgne, hg _ (List.getLast_mem hgne)]
  rw [hgl] at hc
  cases hd : d.head? with
  | none => rw [hd] at hc; cases hc
  | some d0 =>
    cases hdl : d.getLast? with
    | none => rw [hd, hdl] at hc; cases hc
    | some dl =>
      rw [hd, hdl] at hc
      cases hc
      have hlast : ((sg.zip g)).getLast? = some (sl, 1) := by
        rw [List.getLast?_eq_getElem?]
        rw [List.getLast?_eq_getElem?] at hs hgl
        have hl : (sg.zip g).length = g.length := by simp [hlen]
        rw [hl, List.zip, List.getElem?_zipWith, hgl, ← hlen, hs]
      have i1 : interpFrom e (0, 1) (sg.zip g ++ [((100 : ℝ), min (1 / 10 ^ 4) (1 : ℝ))])
          = 1 + (min (1 / 10 ^ 4) 1 - 1) / (100 - sl) * (e - sl) := by
        rw [interp_beyond e (100, min (1 / 10 ^ 4) 1) (sl, 1) he' (sg.zip g) (0, 1)]
        · rw [List.getLast?_cons, hlast]; rfl
        · intro s hs'
          rcases List.mem_cons.mp hs' with h | h
          · rw [h]; simp only; linarith
          · have := hinc _ (List.of_mem_zip h).1; linarith
        · simp only; linarith
      unfold layUpdate npInterp
      simp only [bind, Except.bind, i1, pure, Except.pure]
      refine ⟨_, rfl, ?_⟩
      simp only
      have hmin : min (1 / 10 ^ 4 : ℝ) 1 = 1 / 10 ^ 4 := by rw [min_eq_left]; norm_num
      rw [hmin]
      have hneg : ((1 / 10 ^ 4 : ℝ) - 1) / (100 - sl) * (e - sl) < 0 := by
        apply mul_neg_of_neg_of_pos
        · apply div_neg_of_neg_of_pos <;> [norm_num; linarith]
        · linarith
      nlinarith

/-! Flat curves in the sense of C92, and a flat curve that is left by the effective strain. -/

example : FlatFor [[1 / 100, 2], [1, 1], [1 / 100, 2], [3, 3]] ⟨10, 100, 1 / 100, 2000, 1⟩ (15 / 1000) :=
  ⟨0, [1 / 100, 2], [1, 1], [1 / 100, 2], [3, 3], 3, 2, by norm_num, rfl, rfl, rfl, rfl, rfl, by simp, rfl, by simp, rfl, by norm_num,
    by norm_num⟩

example : ∃ c, layCurve [1 / 100, 2] [1, 1] [1 / 100, 2] [(3 : ℝ), 3] (1 / 100) = .ok c ∧
    ∃ y, layUpdate 5000 c 4 = .ok y ∧ y.1 < 5000 := by
  refine ⟨_, rfl, ?_⟩
  exact C92_beyond_violated (sg := [1 / 100, 2]) (g := [1, 1]) (sd := [1 / 100, 2]) (d := [3, 3]) (xi := 1 / 100) (sl := 2) (by simp) rfl
    rfl (by intro s hs; simp at hs; rcases hs with rfl | rfl <;> norm_num) (by norm_num) (by norm_num) (by norm_num) (by norm_num) rfl

/-! ## C89 -/

/-- C89. What the equivalent-linear solver returns: motions and strains are the response for moduli `G` and
dampings `D`; stresses follow from these strains with other moduli `G'` and the dampings of the returned
profile, which are obtained from the curves at the effective strains of the response.  The part missing:
`G = G'` and `D` = damping of the returned profile, see `C89_lag_violated`. -/
theorem C89_lag_partial {rows : List (Row ℝ)} {x : Rec ℝ} {b : Boundary} {cols : List (List ℝ)} {tol Rg dt : ℝ}
    {maxIter : Int} {verbose : Bool} {last : Row ℝ} {o : SimOut} (hv : Valid5 rows)
    (hl : rows.getLast? = some last) (h0 : last.thk = 0) (h2 : 2 ≤ x.length)
    (hdt : dtOf x = .ok dt) (hd0 : dt ≠ 0)
    (ho : equivLinear rows x cols b tol Rg maxIter verbose = .ok o) :
    ∃ (pm : PrepMotion) (r : Resp) (eff G D G' : List ℝ) (cs : List (LayCurve ℝ)), prepMotion x = .ok pm ∧
      layCurves cols (stratify5 rows) = .ok cs ∧
      linResp dt b pm.a Rg ((stratify5 rows).map Row.thk) G D ((stratify5 rows).map Row.rho) = .ok (r, eff) ∧
      o.a = r.accel.map (unpad pm.even) ∧ o.v = r.veloc.map (unpad pm.even) ∧ o.d = r.displ.map (unpad pm.even) ∧
      o.gamma = r.strain.map (unpad pm.even) ∧
      o.tau = (calcStress G' (o.profile.map Row.xi) r.strain).map (unpad pm.even) ∧
      G.length = (stratify5 rows).length ∧ D.length = (stratify5 rows).length ∧ G'.length = (stratify5 rows).length ∧
      o.profile.length = (stratify5 rows).length ∧
      (∀ (k : Nat) (q q' : Row ℝ) (c : LayCurve ℝ), (stratify5 rows)[k]? = some q → cs[k]? = some c →
        o.profile[k]? = some q' →
        ∃ (e : ℝ) (g : ℝ), eff[k]? = some e ∧ layUpdate (q.rho * q.vs ^ 2) c e = .ok (g, q'.xi) ∧ G'[k]? = some g) := by
  obtain ⟨pm, hp, hpd, hsp⟩ := simPrepare_ok hv h2 hdt hd0
  obtain ⟨sv, sl, sall, _, s2⟩ := stratify5_valid hv hl h0
  obtain ⟨pm', hp', _, hodd, _⟩ := prepMotion_ok x h2
  rw [hp] at hp'; cases hp'
  have hne : stratify5 rows ≠ [] := sv.nonempty
  have hpos : 0 < (stratify5 rows).length := List.length_pos_iff.mpr hne
  unfold equivLinear at ho
  rw [hsp] at ho
  simp only [bind, Except.bind] at ho
  cases hit : eqIterate (linResp pm.dt b pm.a Rg) (stratify5 rows) cols tol maxIter verbose with
  | error e => rw [hit] at ho; cases ho
  | ok p =>
    obtain ⟨s, r⟩ := p
    rw [hit] at ho
    simp only at ho
    obtain ⟨c1, c2, c3, c4, c5, c6, c7, c8⟩ := equiv_core hp h2 hne hit
    have hst := calcStress_shape pm.a.length hodd s.G (s.prof.map Row.xi) r.strain (by simp [c1, c2]) (by rw [c8.1, c2]) c8.2
    rw [c8.1] at hst
    have hp1 : (stratify5 rows).length = (stratify5 rows).length - 1 + 1 := by omega
    obtain ⟨o', ho', hf, hop, t1, t2, t3, t4, t5, t6, t7⟩ := postProcess_fits (prof := s.prof) (n := (stratify5 rows).length - 1) h2 hp
      (by rw [c1]; exact hp1) (by rw [c3, List.getLast?_map, sl, ← h0]; rfl)
      ⟨by omega, c4.2⟩ ⟨by omega, c5.2⟩ ⟨by omega, c6.2⟩ ⟨by omega, c7.2⟩ c8 hst
    rw [ho'] at ho
    cases ho
    obtain ⟨cs, s1, c, eff, hcs, wf1, hcur, u1, u2, u3, u4, hr, ps⟩ := eqIterate_last hne (linResp_oneStrain pm.dt b pm.a Rg hodd) hit
    rw [u1, u2, hpd] at hr
    have hm : (stratify5 rows).length - 1 + 1 = (stratify5 rows).length := by omega
    refine ⟨pm, r, eff, s1.G, s1.prof.map Row.xi, s.G, cs, hp, hcs, hr, t3, t4, t5, t6, by rw [t7, hop], ?_, ?_, c2, by rw [hop, c1], ?_⟩
    · rw [wf1.G]; exact hm
    · simp [wf1.prof]; exact hm
    · intro k q q' lc hq hlc hq'
      rw [hop] at hq'
      obtain ⟨r', eff', hr', hres, hall⟩ := ps.res
      rw [u1, u2, hpd, hr] at hr'
      have hee := (Prod.mk.inj (Except.ok.inj hr')).2
      subst hee
      have hcl : cs.length = (stratify5 rows).length - 1 := by
        rcases layCurves_length hcs with h1 | h1
        · omega
        · exact absurd h1 hne
      have hk : k < (stratify5 rows).length - 1 := by
        rw [← hcl]; exact (List.getElem?_eq_some_iff.mp hlc).1
      obtain ⟨e, y, he, hy, hcy⟩ := hall k (q.rho * q.vs ^ 2) lc hk (by rw [List.getElem?_map, hq]; rfl) hlc
      have hcurr : s.curr[k]? = some y := hcy
      unfold EqState.curr at hcurr
      rw [List.zip, List.getElem?_zipWith] at hcurr
      have hg1 : s.G.dropLast[k]? = s.G[k]? := by
        rw [List.getElem?_dropLast, if_pos (by rw [c2]; exact hk)]
      have hx1 : (s.prof.dropLast.map Row.xi)[k]? = some q'.xi := by
        rw [List.getElem?_map, List.getElem?_dropLast, if_pos (by rw [c1]; exact hk), hq']; rfl
      rw [hg1, hx1] at hcurr
      cases hgk : s.G[k]? with
      | none => rw [hgk] at hcurr; cases hcurr
      | some g =>
        rw [hgk] at hcurr
        simp only [Option.some.injEq] at hcurr
        exact ⟨e, g, he, by rw [hy, ← hcurr], rfl⟩

/-- The results are not the response for the moduli in force at the end of the iteration: here the
response returns the moduli it was given. -/
theorem C89_lag_violated :
    Valid5 exProf ∧ OneStrainPerLayer exResp ∧ checkLayerCount 1 (exProf.map Row.mat) = .ok () ∧
    ∃ (s : EqState ℚ (List ℚ)) (r : List ℚ), eqIterate exResp exProf exCols 10 5 true = .ok (s, r) ∧
      ∀ r' eff, exResp (s.prof.map Row.thk) s.G (s.prof.map Row.xi) (s.prof.map Row.rho) = .ok (r', eff) → r' ≠ r := by
  refine ⟨exProf_valid, exResp_one, by decide +kernel, ?_⟩
  have key : (match eqIterate exResp exProf exCols 10 5 true with
    | .ok (s, r) => decide (s.G ≠ r)
    | _ => false) = true := by decide +kernel
  cases h1 : eqIterate exResp exProf exCols 10 5 true with
  | error e => rw [h1] at key; cases key
  | ok p =>
    rw [h1] at key
    refine ⟨p.1, p.2, rfl, ?_⟩
    intro r' eff hr
    cases hr
    exact of_decide_eq_true key

/-- Two lists with the same initial part and the same last element are equal. -/
theorem eq_of_dropLast_getLast {α : Type} {l l' : List α} (hl : l.length = l'.length)
    (hd : l.dropLast = l'.dropLast) (hx : l.getLast? = l'.getLast?) : l = l' := by
  rcases List.eq_nil_or_concat l with h | ⟨a, x, h⟩ <;> rcases List.eq_nil_or_concat l' with h' | ⟨a', x', h'⟩ <;>
    subst h <;> subst h'
  · rfl
  · simp at hl
  · simp at hl
  · simp only [List.concat_eq_append, List.dropLast_concat] at hd
    simp only [List.concat_eq_append, List.getLast?_concat, Option.some.injEq] at hx
    rw [hd, hx]

/-- The response can tell different moduli and different damping ratios of the same deposit apart. -/
def Spec.TellsApart {K R : Type} (resp : RespFn K R) : Prop :=
  ∀ h G D G' D' rho r eff eff', resp h G D rho = .ok (r, eff) → resp h G' D' rho = .ok (r, eff') → G = G' ∧ D = D'

/-- **When the results belong to the values in force at the end.** For every profile, table of curves,
tolerance and number of iterations, and every response which can tell different moduli and damping ratios
apart: the reported results are the response for the final moduli and damping ratios if and only if the last
pass changed no modulus and no damping ratio at all. A change within the tolerance is enough to break it. -/
theorem C89_lag_exact_violated {K : Type} [Field K] [LinearOrder K] [IsStrictOrderedRing K] [FloorRing K]
    {R : Type} {resp : RespFn K R} {prof : List (Row K)} {cols : List (List K)} {tol : K}
    {maxIter : Int} {verbose : Bool} {s : EqState K R} {r : R} (hne : prof ≠ []) (hresp : Spec.OneStrainPerLayer resp)
    (hinj : Spec.TellsApart resp)
    (h : eqIterate resp prof cols tol maxIter verbose = .ok (s, r)) :
    (∃ eff, resp (s.prof.map Row.thk) s.G (s.prof.map Row.xi) (s.prof.map Row.rho) = .ok (r, eff)) ↔
      s.hist.getLast? = some (Spec.before (Spec.initial prof) s.hist (s.hist.length - 1)) := by
  obtain ⟨cs, s1, c, eff, hcs, hwf, hcur, ht, hrho, hlr, hlg, hok, ps⟩ := eqIterate_last hne hresp h
  have hthk : s.prof.map Row.thk = s1.prof.map Row.thk := ps.keep Row.thk (fun _ _ => rfl)
  have hrh : s.prof.map Row.rho = s1.prof.map Row.rho := ps.keep Row.rho (fun _ _ => rfl)
  have hlast : s.hist.getLast? = some s.curr := by rw [ps.hist]; simp
  rw [hlast, ← hcur, hthk, hrh]
  have hzl : ∀ t : EqState K R, EqWF (prof.length - 1) t →
      t.G.dropLast = t.curr.map Prod.fst ∧ (t.prof.map Row.xi).dropLast = t.curr.map Prod.snd := by
    intro t ht
    have e1 := ht.prof
    have e2 := ht.G
    constructor
    · unfold EqState.curr
      rw [List.map_fst_zip]
      simp [e1, e2]
    · unfold EqState.curr
      rw [List.map_snd_zip, List.map_dropLast]
      simp [e1, e2]
  constructor
  · rintro ⟨eff', he⟩
    obtain ⟨hG, hD⟩ := hinj _ _ _ _ _ _ _ _ _ he hok
    congr 1
    unfold EqState.curr
    rw [hG, List.map_dropLast, hD, List.map_dropLast]
  · intro he
    have he : s.curr = s1.curr := Option.some.inj he
    obtain ⟨a1, a2⟩ := hzl s ps.wf
    obtain ⟨b1, b2⟩ := hzl s1 hwf
    have hG : s.G = s1.G := eq_of_dropLast_getLast (by rw [ps.wf.G, hwf.G]) (by rw [a1, b1, he]) ps.lastG
    have hD : s.prof.map Row.xi = s1.prof.map Row.xi :=
      eq_of_dropLast_getLast (by simp [ps.wf.prof, hwf.prof]) (by rw [a2, b2, he])
        (by rw [List.getLast?_map, List.getLast?_map, ps.lastRow])
    exact ⟨eff, by rw [hG, hD]; exact hok⟩

/-- A response returning what it was given tells everything apart. -/
example : Spec.TellsApart (fun (h G D rho : List ℚ) => (.ok ((G, D), h.dropLast) : Except PyErr ((List ℚ × List ℚ) × List ℚ))) := by
  intro h G D G' D' rho r eff eff' h1 h2
  have h1 := Except.ok.inj h1
  have h2 := Except.ok.inj h2
  have h3 : (G, D) = (G', D') := (congrArg Prod.fst h1).trans (congrArg Prod.fst h2).symm
  exact ⟨congrArg Prod.fst h3, congrArg Prod.snd h3⟩

end Verif
