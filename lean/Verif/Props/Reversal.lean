import Verif.Props.PeakProfiles

/-!
C216: reversing the sign of the input motion reverses the response and changes nothing else.
-/

set_option linter.unusedSectionVars false
set_option linter.unusedVariables false

namespace Verif

namespace Spec

/-- The motion in the opposite direction. -/
def opposite (x : Rec ℝ) : Rec ℝ := x.map fun p => (p.1, -p.2)

/-- Histories of all layers in the opposite direction. -/
def oppositeAll (c : List (List ℝ)) : List (List ℝ) := c.map fun h => h.map fun y => -y

/-- The results with all histories in the opposite direction; profile, frequencies, transfer function and peak values are the same. -/
def reversed (o : SimOut) : SimOut :=
  { o with surface := opposite o.surface, a := oppositeAll o.a, v := oppositeAll o.v, d := oppositeAll o.d, gamma := oppositeAll o.gamma,
           tau := oppositeAll o.tau }

end Spec

open Spec (opposite oppositeAll reversed)

/-- All numbers of a list with the other sign. -/
def negL (l : List ℝ) : List ℝ := l.map fun y => -y

theorem oppositeAll_eq (c : List (List ℝ)) : oppositeAll c = c.map negL := rfl

theorem negL_length (l : List ℝ) : (negL l).length = l.length := by simp [negL]

theorem negL_getD (l : List ℝ) (k : Nat) : (negL l).getD k 0 = -l.getD k 0 := by
  simp only [negL, List.getD_eq_getElem?_getD, List.getElem?_map]
  cases l[k]? <;> simp

theorem maxAbs_negL (l : List ℝ) : maxAbs (negL l) = maxAbs l := by
  induction l with
  | nil => rfl
  | cons x l ih =>
    show max |-x| (maxAbs (negL l)) = max |x| (maxAbs l)
    rw [ih, abs_neg]

theorem negC_getD (l : List ℂ) (k : Nat) : (l.map fun z => -z).getD k 0 = -l.getD k 0 := by
  simp only [List.getD_eq_getElem?_getD, List.getElem?_map]
  cases l[k]? <;> simp

theorem fftL_neg (l : List ℂ) : fftL (l.map fun z => -z) = (fftL l).map fun z => -z := by
  unfold fftL
  simp only [List.length_map, List.map_map]
  apply List.map_congr_left
  intro k _
  simp only [Function.comp, negC_getD, neg_mul, Finset.sum_neg_distrib]

theorem ifftL_neg (l : List ℂ) : ifftL (l.map fun z => -z) = (ifftL l).map fun z => -z := by
  unfold ifftL
  simp only [List.length_map, List.map_map]
  apply List.map_congr_left
  intro k _
  simp only [Function.comp, negC_getD, neg_mul, Finset.sum_neg_distrib, neg_div]

theorem fft_negL (a : List ℝ) : fftL ((negL a).map fun x : ℝ => (x : ℂ)) = (fftL (a.map fun x : ℝ => (x : ℂ))).map fun z => -z := by
  rw [← fftL_neg]
  congr 1
  simp only [negL, List.map_map]
  apply List.map_congr_left
  intro y _
  simp

theorem re_neg (l : List ℂ) : (l.map fun z => -z).map Complex.re = negL (l.map Complex.re) := by
  simp only [negL, List.map_map]
  apply List.map_congr_left
  intro y _
  simp

theorem accelCol_neg (A H : List ℂ) : accelCol (A.map fun z => -z) H = negL (accelCol A H) := by
  unfold accelCol
  have : List.zipWith (· * ·) (A.map fun z => -z) H = (List.zipWith (· * ·) A H).map fun z => -z := by
    rw [List.zipWith_map_left, List.map_zipWith]
    congr 1
    funext a b
    ring
  rw [this, ifftL_neg, re_neg]

theorem cumsumFrom_negL (l : List ℝ) : ∀ s : ℝ, cumsumFrom (-s) (negL l) = negL (cumsumFrom s l) := by
  induction l with
  | nil => intro s; rfl
  | cons x l ih =>
    intro s
    have : negL (x :: l) = -x :: negL l := rfl
    rw [this, cumsumFrom, cumsumFrom, ← neg_add, ih]
    rfl

theorem integrate_negL (dt : ℝ) (a : List ℝ) : integrate dt (negL a) = negL (integrate dt a) := by
  unfold integrate cumsum
  have h := cumsumFrom_negL a 0
  rw [neg_zero] at h
  rw [h]
  simp [negL]

theorem getLastD_negL (l : List ℝ) : (negL l).getLastD 0 = -l.getLastD 0 := by
  simp only [negL, List.getLastD_eq_getLast?, List.getLast?_map]
  cases l.getLast? <;> simp

theorem unoffset_negL (N : Nat) (d : List ℝ) : unoffset N (negL d) = negL (unoffset N d) := by
  unfold unoffset
  rw [getLastD_negL]
  simp only [negL, List.zipIdx_map, List.map_map]
  apply List.map_congr_left
  rintro ⟨y, k⟩ _
  simp
  ring

theorem displCol_negL (N : Nat) (dt : ℝ) (a : List ℝ) : displCol N dt (negL a) = negL (displCol N dt a) := by
  unfold displCol
  rw [integrate_negL, integrate_negL, unoffset_negL]

theorem strainCols_negL : ∀ (hs : List ℝ) (ds : List (List ℝ)), strainCols hs (ds.map negL) = (strainCols hs ds).map negL
  | [], _ => by simp [strainCols]
  | _ :: _, [] => by simp [strainCols]
  | _ :: _, [_] => by simp [strainCols]
  | h :: hs, d :: d' :: ds => by
    have ih := strainCols_negL hs (d' :: ds)
    simp only [List.map_cons] at ih
    simp only [List.map_cons, strainCols, ih]
    congr 1
    simp only [negL, List.zipWith_map, List.map_zipWith]
    congr 1
    funext x y
    ring

/-- What a response calculation returns for the opposite motion. -/
def negResp (r : Resp) : Resp := ⟨r.H, r.accel.map negL, r.veloc.map negL, r.displ.map negL, r.strain.map negL⟩

theorem linResp_negL (dt : ℝ) (b : Boundary) (acc : List ℝ) (Rg : ℝ) (h G D rho : List ℝ) :
    linResp dt b (negL acc) Rg h G D rho = (linResp dt b acc Rg h G D rho).map fun r => (negResp r.1, r.2) := by
  unfold linResp
  simp only [bind, Except.bind, negL_length]
  cases hMatrix acc.length dt b (gLays h G D rho) with
  | error e => rfl
  | ok H =>
    have e1 : H.map (accelCol (fftL ((negL acc).map fun x : ℝ => (x : ℂ)))) =
        (H.map (accelCol (fftL (acc.map fun x : ℝ => (x : ℂ))))).map negL := by
      rw [fft_negL, List.map_map]
      apply List.map_congr_left
      intro c _
      exact accelCol_neg _ c
    have e2 : ∀ l : List (List ℝ), (l.map negL).map (displCol acc.length dt) = (l.map (displCol acc.length dt)).map negL := by
      intro l
      simp only [List.map_map]
      exact List.map_congr_left fun c _ => displCol_negL _ _ c
    have e3 : ∀ l : List (List ℝ), (l.map negL).map (integrate dt) = (l.map (integrate dt)).map negL := by
      intro l
      simp only [List.map_map]
      exact List.map_congr_left fun c _ => integrate_negL _ c
    simp only [e1, e2, e3, strainCols_negL]
    simp only [pure, Except.pure, Except.map, negResp, List.map_map]
    congr 2
    apply List.map_congr_left
    intro c _
    simp only [Function.comp, maxAbs_negL]

/-! ## The iteration follows the effective strains only -/

section
variable {K : Type} [Field K] [LinearOrder K] [FloorRing K] {R S : Type}

/-- The state with other results. -/
def EqState.mapRes (φ : R → S) (s : EqState K R) : EqState K S := ⟨s.prof, s.G, s.res.map φ, s.hist⟩

variable {resp : RespFn K R} {resp' : RespFn K S} {φ : R → S}

theorem eqStep_natural (hr : ∀ h G D rho, resp' h G D rho = (resp h G D rho).map fun r => (φ r.1, r.2)) (gmax : List K)
    (cs : List (LayCurve K)) (tol : K) (s : EqState K R) :
    eqStep resp' gmax cs tol (s.mapRes φ) = (eqStep resp gmax cs tol s).map fun p => (p.1.mapRes φ, p.2) := by
  unfold eqStep
  simp only [bind, Except.bind, EqState.mapRes, hr]
  cases resp (s.prof.map Row.thk) s.G (s.prof.map Row.xi) (s.prof.map Row.rho) with
  | error e => rfl
  | ok r =>
    simp only [Except.map]
    cases eqUpdate gmax.dropLast cs r.2 with
    | error e => rfl
    | ok new =>
      simp only
      split <;> rfl

theorem eqLoop_natural (hr : ∀ h G D rho, resp' h G D rho = (resp h G D rho).map fun r => (φ r.1, r.2)) (gmax : List K)
    (cs : List (LayCurve K)) (tol : K) (verbose : Bool) (n : Nat) : ∀ s : EqState K R,
    eqLoop resp' gmax cs tol verbose n (s.mapRes φ) = (eqLoop resp gmax cs tol verbose n s).map (EqState.mapRes φ) := by
  induction n with
  | zero => intro s; rfl
  | succ n ih =>
    intro s
    rw [eqLoop, eqLoop, eqStep_natural hr]
    cases eqStep resp gmax cs tol s with
    | error e => rfl
    | ok p =>
      simp only [Except.map]
      split
      · rfl
      · exact ih p.1

theorem eqIterate_natural (hr : ∀ h G D rho, resp' h G D rho = (resp h G D rho).map fun r => (φ r.1, r.2)) (prof : List (Row K))
    (cols : List (List K)) (tol : K) (maxIter : Int) (verbose : Bool) :
    eqIterate resp' prof cols tol maxIter verbose =
      (eqIterate resp prof cols tol maxIter verbose).map fun p => (p.1.mapRes φ, φ p.2) := by
  unfold eqIterate
  simp only [bind, Except.bind]
  cases layCurves cols prof with
  | error e => rfl
  | ok cs =>
    simp only
    cases checkMaxIter maxIter with
    | error e => rfl
    | ok u =>
      simp only
      have := eqLoop_natural hr (prof.map fun r => r.rho * r.vs ^ 2) cs tol verbose maxIter.toNat ⟨prof, prof.map fun r => r.rho * r.vs ^ 2, none, []⟩
      simp only [EqState.mapRes, Option.map_none] at this
      rw [this]
      cases eqLoop resp (prof.map fun r => r.rho * r.vs ^ 2) cs tol verbose maxIter.toNat ⟨prof, prof.map fun r => r.rho * r.vs ^ 2, none, []⟩ with
      | error e => rfl
      | ok s =>
        simp only [Except.map]
        cases hs : s.res with
        | none => simp [hs, EqState.mapRes]
        | some r => simp [hs, EqState.mapRes]

end

/-! ## Preparation and results -/

/-- What is prepared from the opposite motion. -/
def negPrep (pm : PrepMotion) : PrepMotion := ⟨pm.even, pm.t, pm.dt, negL pm.a⟩

theorem dtOf_opposite (x : Rec ℝ) : dtOf (opposite x) = dtOf x := by
  match x with
  | [] => rfl
  | [_] => rfl
  | _ :: _ :: _ => rfl

theorem prepMotion_opposite (x : Rec ℝ) : prepMotion (opposite x) = (prepMotion x).map negPrep := by
  unfold prepMotion
  rw [dtOf_opposite]
  have e1 : (opposite x).map Prod.fst = x.map Prod.fst := by simp [opposite]
  have e2 : ((opposite x).map Prod.snd).map (· / 2) = negL ((x.map Prod.snd).map (· / 2)) := by
    simp only [opposite, negL, List.map_map]
    apply List.map_congr_left
    intro p _
    simp [neg_div]
  simp only [bind, Except.bind, e1, e2]
  cases dtOf x with
  | error e => rfl
  | ok dt =>
    simp only
    have e3 : (negL ((x.map Prod.snd).map (· / 2))).getLast? = ((x.map Prod.snd).map (· / 2)).getLast?.map fun y => -y := by
      simp only [negL, List.getLast?_map]
    rw [e3]
    cases (x.map Prod.fst).getLast? with
    | none => rfl
    | some tl =>
      cases ((x.map Prod.snd).map (· / 2)).getLast? with
      | none => rfl
      | some al =>
        simp only [Option.map_some, negL_length]
        split
        · simp [Except.map, negPrep, negL]
        · rfl

theorem stressCol_negL (m : ℂ) (s : List ℝ) : stressCol m (negL s) = negL (stressCol m s) := by
  unfold stressCol
  simp only [negL_length, fft_negL]
  set half := (s.length + 1) / 2
  set F := fftL (s.map fun x : ℝ => (x : ℂ))
  have e1 : ((F.map fun z => -z).take half).map (· * m) = ((F.take half).map (· * m)).map fun z => -z := by
    rw [← List.map_take, List.map_map, List.map_map]
    apply List.map_congr_left
    intro y _
    simp
  have e2 : ∀ l : List ℂ, ((l.map fun z => -z).drop 1).reverse.map (starRingEnd ℂ) = ((l.drop 1).reverse.map (starRingEnd ℂ)).map fun z => -z := by
    intro l
    rw [← List.map_drop, ← List.map_reverse, List.map_map, List.map_map]
    apply List.map_congr_left
    intro y _
    simp
  have e3 : ∀ l : List ℂ, realFirst (l.map fun z => -z) = (realFirst l).map fun z => -z := by
    intro l
    cases l with
    | nil => rfl
    | cons z l => simp [realFirst]
  rw [e1, e2, ← List.map_append, e3, ifftL_neg, re_neg]

theorem calcStress_negL (G D : List ℝ) (s : List (List ℝ)) : calcStress G D (s.map negL) = (calcStress G D s).map negL := by
  unfold calcStress
  rw [List.zipWith_map_right, List.map_zipWith]
  congr 1
  funext m c
  exact stressCol_negL m c

theorem unpad_negL (e : Bool) (c : List (List ℝ)) : (c.map negL).map (unpad e) = (c.map (unpad e)).map negL := by
  simp only [List.map_map]
  exact List.map_congr_left fun l _ => unpad_map e _ l

theorem colStack_negL (t a : List ℝ) : colStack t (negL a) = (colStack t a).map opposite := by
  unfold colStack
  rw [negL_length]
  split
  · rfl
  · simp only [Except.map, negL, opposite, List.zip_map_right]
    rfl

theorem headD_negL (c : List (List ℝ)) : (c.map negL).headD [] = negL (c.headD []) := by
  cases c <;> rfl

theorem postProcess_negL (pm : PrepMotion) (prof : List (Row ℝ)) (r : Resp) (st : List (List ℝ)) :
    postProcess (negPrep pm) prof (negResp r) (st.map negL) = (postProcess pm prof r st).map reversed := by
  unfold postProcess
  have hm : ∀ l : List (List ℝ), (l.map negL).map maxAbs = l.map maxAbs := by
    intro l
    rw [List.map_map]
    exact List.map_congr_left fun c _ => maxAbs_negL c
  simp only [bind, Except.bind, negPrep, negResp, negL_length, unpad_negL, headD_negL, colStack_negL, hm]
  cases colStack (unpad pm.even pm.t) ((r.accel.map (unpad pm.even)).headD []) with
  | error e => rfl
  | ok sf =>
    simp only [Except.map]
    cases thk2dep (prof.map Row.thk) false with
    | error e => rfl
    | ok zb =>
      simp only
      cases thk2dep (prof.map Row.thk) true with
      | error e => rfl
      | ok zm =>
        simp only
        cases colStack4 zb ((r.accel.map (unpad pm.even)).map maxAbs) ((r.veloc.map (unpad pm.even)).map maxAbs)
            ((r.displ.map (unpad pm.even)).map maxAbs) with
        | error e => rfl
        | ok q =>
          simp only
          cases colStack3 zm ((r.strain.map (unpad pm.even)).map maxAbs) ((st.map (unpad pm.even)).map maxAbs) with
          | error e => rfl
          | ok w => rfl

theorem simPrepare_opposite (rows : List (Row ℝ)) (x : Rec ℝ) :
    simPrepare rows (opposite x) = (simPrepare rows x).map fun p => (negPrep p.1, p.2) := by
  unfold simPrepare
  simp only [bind, Except.bind, prepMotion_opposite]
  cases checkVsFormat (.five rows) with
  | error e => rfl
  | ok u =>
    simp only
    cases prepMotion x with
    | error e => rfl
    | ok pm =>
      simp only [Except.map, negPrep]
      split <;> rfl

/-- C216, linear solver: for the motion in the opposite direction the run returns the same results with all histories in the opposite
direction (and raises the same error if it raises one). -/
theorem C216_linear (rows : List (Row ℝ)) (x : Rec ℝ) (b : Boundary) :
    linearSim rows (opposite x) b = (linearSim rows x b).map reversed := by
  unfold linearSim
  simp only [bind, Except.bind, simPrepare_opposite]
  cases simPrepare rows x with
  | error e => rfl
  | ok p =>
    obtain ⟨pm, prof⟩ := p
    simp only [Except.map]
    simp only [negPrep, linResp_negL]
    cases linResp pm.dt b pm.a (65 / 100) (prof.map Row.thk) (prof.map fun r => r.rho * r.vs ^ 2) (prof.map Row.xi) (prof.map Row.rho) with
    | error e => rfl
    | ok r =>
      simp only [Except.map]
      have := postProcess_negL pm prof r.1 (calcStress (prof.map fun r => r.rho * r.vs ^ 2) (prof.map Row.xi) r.1.strain)
      rw [← calcStress_negL] at this
      exact this

/-- C216, equivalent-linear solver: the same, although the solver is not linear: the iteration sees the sizes of the strains only, so it
takes the same passes and ends with the same soil. -/
theorem C216_equiv (rows : List (Row ℝ)) (x : Rec ℝ) (cols : List (List ℝ)) (b : Boundary) (tol Rg : ℝ) (maxIter : Int) (verbose : Bool) :
    equivLinear rows (opposite x) cols b tol Rg maxIter verbose = (equivLinear rows x cols b tol Rg maxIter verbose).map reversed := by
  unfold equivLinear
  simp only [bind, Except.bind, simPrepare_opposite]
  cases simPrepare rows x with
  | error e => rfl
  | ok p =>
    obtain ⟨pm, prof⟩ := p
    simp only [Except.map]
    simp only [negPrep]
    rw [eqIterate_natural (resp := linResp pm.dt b pm.a Rg) (φ := negResp) (linResp_negL pm.dt b pm.a Rg)]
    cases eqIterate (linResp pm.dt b pm.a Rg) prof cols tol maxIter verbose with
    | error e => rfl
    | ok q =>
      obtain ⟨s, r⟩ := q
      simp only [Except.map, EqState.mapRes]
      have := postProcess_negL pm s.prof r (calcStress s.G (s.prof.map Row.xi) r.strain)
      rw [← calcStress_negL] at this
      exact this

theorem opposite_scale (x : Rec ℝ) : opposite x = x.map fun p => (p.1, -1 * p.2) := by simp [opposite]

/-- C216, response spectra: they are the same for the motion in the opposite direction. -/
theorem C216_spectra (coef : ℝ → ℝ → Coefs ℝ) (xi : ℝ) (wns : List ℝ) (n : Nat) (x : Rec ℝ) (rows : List (SpecRow ℝ))
    (h : responseSpectra coef xi wns n x = .ok rows) : responseSpectra coef xi wns n (opposite x) = .ok rows := by
  rw [opposite_scale, C26_scaling coef xi wns n x (-1) rows h]
  simp

/-- C216, Arias intensity: intensity, normalised intensity, peak and strong-motion times are the same. -/
theorem C216_arias (c dt : ℝ) (x : Rec ℝ) (r : Arias ℝ) (h : calcArias c x = .ok r) : calcArias c (opposite x) = .ok r := by
  rw [opposite_scale, C22_scale c dt (-1) (by norm_num) x r h]
  simp

/-- The example of a rigid base with the motion reversed: the base moves as the reversed input, the peak is the same. -/
example : ∃ o, linearSim [demoRow, { demoRow with thk := 0 }] (opposite demoMotion) .rigid = .ok o ∧ o.a.getLast? = some [0, -1, 2, -1, 0] ∧
    ∃ z pa pv pd, o.maxAvd.getLast? = some (z, pa, pv, pd) ∧ pa = maxAbs (demoMotion.map Prod.snd) := by
  obtain ⟨o, ho, _⟩ := C71_linear_partial (x := demoMotion) (b := .rigid) (dt := 1 / 100 - 0) demoSim_valid rfl rfl
    (by simp [demoMotion]) rfl (by norm_num) (fun _ => by simp)
  refine ⟨reversed o, by rw [C216_linear, ho]; rfl, ?_, ?_⟩
  · have := C214_linear (dt := 1 / 100 - 0) demoSim_valid rfl rfl (by simp [demoMotion]) rfl (by norm_num) (by simp) ho
    show (oppositeAll o.a).getLast? = _
    rw [oppositeAll, List.getLast?_map, this]
    simp [demoMotion]
  · have h := C214_peak (dt := 1 / 100 - 0) demoSim_valid rfl rfl (by simp [demoMotion]) rfl (by norm_num) (by simp) ho
    exact h

end Verif
