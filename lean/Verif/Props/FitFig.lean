import Verif.Model.FitFig
import Verif.Props.Fit
import Verif.Props.MotionSpectra
import Verif.Props.ParamCurves

/-!
C161: figures of damping-curve fits.
-/

set_option linter.unusedSectionVars false
set_option linter.unusedVariables false

namespace Verif

open Spec (ProperCurve lowered Schedule)

/-! ## Arguments -/

/-- Every setting given to `fit_all_damping_curves` reaches the fit of each layer under its own name; single layers are fitted
without a figure and without further processes. -/
theorem C161_arguments {V : Type} (no : V) (s : FitSet V) :
    ∃ k, loopKw no (otherParams no s) = .ok k ∧
      k.look "use_scipy" = .ok s.useScipy ∧ k.look "pop_size" = .ok s.popSize ∧ k.look "n_gen" = .ok s.nGen ∧
      k.look "lower_bound_power" = .ok s.lower ∧ k.look "upper_bound_power" = .ok s.upper ∧ k.look "eta" = .ok s.eta ∧
      k.look "seed" = .ok s.seed ∧ k.look "verbose" = .ok s.verbose ∧ k.look "show_fig" = .ok no ∧ k.look "parallel" = .ok no ∧
      (k.map Prod.fst).Nodup ∧ k.length = 10 :=
  ⟨_, rfl, rfl, rfl, rfl, rfl, rfl, rfl, rfl, rfl, rfl, rfl, by simp, rfl⟩

/-- Too many or too few settings are not accepted (ValueError). -/
theorem C161_count {V : Type} (no : V) (l : List V) : loopKw no l = .error .valueError ↔ l.length ≠ 9 := by
  unfold loopKw
  split
  · simp
  · rename_i h
    refine ⟨fun _ hl => ?_, fun _ => rfl⟩
    match l, hl with
    | [a, b, c, d, e, f, g, i, j], _ => exact h _ _ _ _ _ _ _ _ _ rfl

/-! ## Panels -/

/-- A panel shows the curve `d` and, from 0.0001 % to 10 % strain, the damping of the model with parameters `p` raised by the
small-strain damping of `d`. -/
structure Spec.ShowsFit (m : SoilModel) (d : List (ℝ × ℝ)) (p : Dict ℝ) (P : FitPanel) : Prop where
  data : P.data = d
  strains : P.fit.map Prod.fst = fitStrain.map (· * 100)
  fit : ∃ y x0, paramDamping m p (P.fit.map Prod.fst) = .ok y ∧ d.head?.map Prod.snd = some x0 ∧
    P.fit.map Prod.snd = y.map (· + x0)

open Spec (ShowsFit MKZSet)

theorem dampLoop_length (pi : ℝ) : ∀ (l : List (ℝ × ℝ)) (a : ℝ) (q : ℝ × ℝ), (dampLoop pi a q l).length = l.length
  | [], _, _ => rfl
  | (e, g) :: l, a, q => by
    rw [dampLoop, List.length_cons, List.length_cons, dampLoop_length pi l]

theorem calcDamping_length {strain tau : List ℝ} {G : ℝ} {y : List ℝ} (h : calcDamping Real.pi strain tau G = .ok y) :
    y.length = strain.length := by
  unfold calcDamping at h
  cases hg : calcGGmax strain tau (some G) with
  | error e => rw [hg] at h; cases h
  | ok gg =>
    have hl : gg.length = strain.length := (C41_product strain tau gg _ hg).1
    rw [hg] at h
    dsimp only at h
    split_ifs at h
    split at h
    · cases h
    · rename_i e0 g0 rest hz
      rw [Except.ok.injEq] at h
      have : (strain.zip gg).length = rest.length + 1 := by rw [hz]; rfl
      simp only [List.length_zip, hl, min_self] at this
      rw [← h]
      simp [dampLoop_length, this]

theorem fitPanel_shows (m : SoilModel) (d : List (ℝ × ℝ)) (p : Dict ℝ) (P : FitPanel) (h : fitPanel m d p = .ok P) :
    ShowsFit m d p P := by
  cases d with
  | nil => cases h
  | cons q rest =>
    obtain ⟨e0, x0⟩ := q
    unfold fitPanel at h
    simp only [bind, Except.bind] at h
    cases hx : dampingFromParam m p fitStrain with
    | error e => rw [hx] at h; cases h
    | ok x =>
      simp only [hx, pure, Except.pure, Except.ok.injEq] at h
      subst h
      have hlen : x.length = fitStrain.length := by
        unfold dampingFromParam at hx
        simp only [bind, Except.bind] at hx
        split at hx
        · cases hx
        · split at hx
          · cases hx
          · exact calcDamping_length hx
      have h1 : ((fitStrain.map (· * 100)).zip (x.map fun y => y * 100 + x0)).map Prod.fst = fitStrain.map (· * 100) :=
        List.map_fst_zip (by simp [hlen])
      have h2 : ((fitStrain.map (· * 100)).zip (x.map fun y => y * 100 + x0)).map Prod.snd = x.map fun y => y * 100 + x0 :=
        List.map_snd_zip (by simp [hlen])
      refine ⟨rfl, h1, x.map (· * 100), x0, ?_, rfl, ?_⟩
      · dsimp only
        rw [h1]
        unfold paramDamping
        have : (fitStrain.map (· * 100)).map (· / 100) = fitStrain := by
          rw [List.map_map]
          conv_rhs => rw [← List.map_id fitStrain]
          apply List.map_congr_left
          intro a _
          simp
        rw [this, hx]
        rfl
      · dsimp only
        rw [h2, List.map_map]
        rfl

/-- The strains of the fitted curve: 50, increasing, from 0.0001 % to 10 %. -/
theorem C161_strains : (fitStrain.map (· * 100)).length = 50 ∧ (fitStrain.map (· * 100)).head? = some (1 / 10000) ∧
    (fitStrain.map (· * 100)).getLast? = some 10 := by
  have hl : fitStrain.length = 50 := logspace_length _ _ _
  have h0 := logspace_get (a := 1 / 10000 / 100) (b := 10 / 100) (by norm_num) (by norm_num) 50 0 (by norm_num)
  have h1 := logspace_get (a := 1 / 10000 / 100) (b := 10 / 100) (by norm_num) (by norm_num) 50 49 (by norm_num)
  refine ⟨by simp [hl], ?_, ?_⟩
  · rw [List.head?_eq_getElem?, List.getElem?_map]
    unfold fitStrain
    rw [h0, Option.map_some]
    norm_num
  · rw [List.getLast?_eq_getElem?, List.getElem?_map, List.length_map, hl]
    unfold fitStrain
    rw [show 50 - 1 = 49 from rfl, h1, Option.map_some]
    norm_num

/-- A panel can be drawn for every curve with at least one point and every set of positive MKZ parameters. -/
theorem C161_drawn (data : List (ℝ × ℝ)) (hd : data ≠ []) (p : Dict ℝ) (gr s beta G : ℝ) (h : MKZSet p gr s beta G) (h1 : 0 < gr)
    (h2 : 0 < beta) (h5 : 0 < G) : ∃ P, fitPanel .mkz data p = .ok P := by
  have hpos : ∀ e ∈ fitStrain.map (· * 100), 0 < e := by
    intro e he
    obtain ⟨x, hx, rfl⟩ := List.mem_map.1 he
    unfold fitStrain logspace at hx
    obtain ⟨y, _, rfl⟩ := List.mem_map.1 hx
    have : (0 : ℝ) < 10 ^ y := Real.rpow_pos_of_pos (by norm_num) y
    positivity
  have hne : fitStrain.map (· * 100) ≠ [] := by
    have := C161_strains.1
    intro hc
    rw [hc] at this
    cases this
  obtain ⟨-, a2⟩ := param_values .mkz p _ G (fitStrain.map (· * 100)) h5 hne hpos (tauMKZ_pos gr beta s G h1 h2 h5) h.G
    (stressOf_mkz p gr s beta G h)
  have hmap : (fitStrain.map (· * 100)).map (· / 100) = fitStrain := by
    rw [List.map_map]
    conv_rhs => rw [← List.map_id fitStrain]
    apply List.map_congr_left
    intro a _
    simp
  unfold paramDamping at a2
  rw [hmap] at a2
  match data, hd with
  | (e0, x0) :: rest, _ =>
    unfold fitPanel
    cases hx : dampingFromParam .mkz p fitStrain with
    | error e => rw [hx] at a2; cases a2
    | ok x => exact ⟨_, rfl⟩

/-- The panels of a figure lie in its grid of four columns, no two in the same place, in reading order. -/
theorem C161_grid (n j : Nat) (h : j < n) :
    (panelPlace j).1 < panelRows n ∧ (panelPlace j).2 < 4 ∧ j + 1 = 4 * (panelPlace j).1 + (panelPlace j).2 + 1 ∧
      4 * (panelRows n - 1) < n := by
  unfold panelPlace panelRows
  dsimp only
  omega

theorem fitAllFig_panels (m : SoilModel) (opt : Optimiser) (σ : CStore ℝ) (addrs : List Nat) (par : Option (List (List Nat)))
    (ds : List (Dict ℝ)) (Ps : List FitPanel) (h : fitAllFig m opt σ addrs par = .ok (ds, Ps)) :
    (fitAll (m.fit opt) σ addrs par).1 = .ok ds ∧ List.Forall₂ (fun (q : Nat × Dict ℝ) P =>
      ShowsFit m ((fitAll (m.fit opt) σ addrs par).2[q.1]?.getD []) q.2 P) (addrs.zip ds) Ps := by
  unfold fitAllFig at h
  cases hf : fitAll (m.fit opt) σ addrs par with
  | mk r σ' =>
    rw [hf] at h
    cases r with
    | error e => cases h
    | ok rs =>
      simp only [bind, Except.bind] at h
      cases hm : (addrs.zip rs).mapM fun q => fitPanel m (σ'[q.1]?.getD []) q.2 with
      | error e => rw [hm] at h; cases h
      | ok ps =>
        simp only [hm, pure, Except.pure, Except.ok.injEq, Prod.mk.injEq] at h
        obtain ⟨rfl, rfl⟩ := h
        refine ⟨rfl, ?_⟩
        exact mapM_all_ok (fun q : Nat × Dict ℝ => fitPanel m (σ'[q.1]?.getD []) q.2) _ (fun q P hP => fitPanel_shows m _ _ _ hP) _ _ hm

theorem panels_get {m : SoilModel} {σ' : CStore ℝ} {addrs : List Nat} {ds : List (Dict ℝ)} {Ps : List FitPanel}
    (hF : List.Forall₂ (fun (q : Nat × Dict ℝ) P => ShowsFit m (σ'[q.1]?.getD []) q.2 P) (addrs.zip ds) Ps)
    (hl : ds.length = addrs.length) {i : Nat} {a : Nat} (ha : addrs[i]? = some a) :
    ∃ p P, ds[i]? = some p ∧ Ps[i]? = some P ∧ ShowsFit m (σ'[a]?.getD []) p P := by
  obtain ⟨hi, e⟩ := List.getElem?_eq_some_iff.1 ha
  have hz : i < (addrs.zip ds).length := by simp [hl]; exact hi
  have hP : i < Ps.length := by rw [← hF.length_eq]; exact hz
  have := (List.forall₂_iff_get.1 hF).2 i hz hP
  simp only [List.get_eq_getElem, List.getElem_zip, e] at this
  exact ⟨ds[i]'(by omega), Ps[i], List.getElem?_eq_getElem _, List.getElem?_eq_getElem _, this⟩

/-- Parallel fits: panel `i` shows curve `i` as it was given, and the damping of the parameters returned for layer `i` above the
small-strain damping of this curve.  Missing: serial fits (`C161_serial_violated`) and curves with a dip. -/
theorem C161_parallel_partial (m : SoilModel) (opt : Optimiser) (σ : CStore ℝ) (addrs : List Nat) (sched : List (List Nat))
    (hs : Schedule addrs.length sched) (h : ∀ a ∈ addrs, ∃ d, σ[a]? = some d ∧ ProperCurve d) (ds : List (Dict ℝ)) (Ps : List FitPanel)
    (hf : fitAllFig m opt σ addrs (some sched) = .ok (ds, Ps)) :
    Ps.length = addrs.length ∧ ∀ (i : Nat) a d, addrs[i]? = some a → σ[a]? = some d →
      ∃ p P, ds[i]? = some p ∧ Ps[i]? = some P ∧ m.fit opt (lowered d) = .ok p ∧ ShowsFit m d p P := by
  obtain ⟨h1, h2⟩ := fitAllFig_panels m opt σ addrs _ ds Ps hf
  obtain ⟨g1, g2, g3⟩ := C68_same_partial (m.fit opt) σ addrs sched hs h
  obtain ⟨hl, hr⟩ := g2 ds ((g1 ds).2 h1)
  rw [g3] at h2
  refine ⟨by rw [← h2.length_eq]; simp [hl], ?_⟩
  intro i a d ha hd
  obtain ⟨p, P, e1, e2, e3⟩ := panels_get h2 hl ha
  obtain ⟨p', e4, e5⟩ := hr i a d ha hd
  rw [e1] at e4
  cases e4
  rw [hd] at e3
  exact ⟨p, P, e1, e2, e5, e3⟩

/-- Serial fits: panel `i` shows curve `i` without its small-strain damping, and the damping of the parameters of layer `i` as it
is; so data and fit are both lower by the small-strain damping than in the figure of parallel fits. -/
theorem C161_serial (m : SoilModel) (opt : Optimiser) (σ : CStore ℝ) (addrs : List Nat)
    (h : ∀ a ∈ addrs, ∃ d, σ[a]? = some d ∧ ProperCurve d) (ds : List (Dict ℝ)) (Ps : List FitPanel)
    (hf : fitAllFig m opt σ addrs none = .ok (ds, Ps)) :
    Ps.length = addrs.length ∧ ∀ (i : Nat) a d, addrs[i]? = some a → σ[a]? = some d →
      ∃ p P, ds[i]? = some p ∧ Ps[i]? = some P ∧ m.fit opt (lowered d) = .ok p ∧ ShowsFit m (lowered d) p P ∧
        ∃ y, paramDamping m p (P.fit.map Prod.fst) = .ok y ∧ P.fit.map Prod.snd = y := by
  obtain ⟨h1, h2⟩ := fitAllFig_panels m opt σ addrs _ ds Ps hf
  obtain ⟨g1, -, -⟩ := C68_after (m.fit opt) σ addrs ds h h1
  have hl : ds.length = addrs.length ∧ ∀ (i : Nat) a d, addrs[i]? = some a → σ[a]? = some d →
      ∃ r, ds[i]? = some r ∧ m.fit opt (lowered d) = .ok r :=
    (C68_same_partial (m.fit opt) σ addrs [List.range addrs.length] (by simp [Schedule]) h).2.1 ds h1
  refine ⟨by rw [← h2.length_eq]; simp [hl.1], ?_⟩
  intro i a d ha hd
  obtain ⟨p, P, e1, e2, e3⟩ := panels_get h2 hl.1 ha
  obtain ⟨p', e4, e5⟩ := hl.2 i a d ha hd
  rw [e1] at e4
  cases e4
  rw [g1 a (List.mem_of_getElem? ha) d hd] at e3
  refine ⟨p, P, e1, e2, e5, e3, ?_⟩
  obtain ⟨y, x0, k1, k2, k3⟩ := e3.fit
  refine ⟨y, k1, ?_⟩
  have : x0 = 0 := by
    cases d with
    | nil => simp [lowered] at k2
    | cons q rest => simp [lowered] at k2; exact k2.symm
  rw [k3, this]
  simp

/-- The figure of serial fits does not show the curves that were given: wherever a curve has small-strain damping, the panel
shows another curve. -/
theorem C161_serial_violated (m : SoilModel) (opt : Optimiser) (σ : CStore ℝ) (addrs : List Nat)
    (h : ∀ a ∈ addrs, ∃ d, σ[a]? = some d ∧ ProperCurve d) (ds : List (Dict ℝ)) (Ps : List FitPanel)
    (hf : fitAllFig m opt σ addrs none = .ok (ds, Ps)) (i a : Nat) (d : List (ℝ × ℝ)) (ha : addrs[i]? = some a) (hd : σ[a]? = some d)
    (x0 : ℝ × ℝ) (hx : d.head? = some x0) (h0 : x0.2 ≠ 0) : ∃ P, Ps[i]? = some P ∧ P.data ≠ d := by
  obtain ⟨-, h2⟩ := C161_serial m opt σ addrs h ds Ps hf
  obtain ⟨p, P, e1, e2, e3, e4, -⟩ := h2 i a d ha hd
  refine ⟨P, e2, ?_⟩
  rw [e4.data]
  cases d with
  | nil => cases hx
  | cons q rest =>
    simp only [List.head?_cons, Option.some.injEq] at hx
    subst hx
    intro hc
    have := congrArg (fun l => l.head?.map Prod.snd) hc
    simp [lowered] at this
    exact h0 this.symm

/-- The figure of the fit of one curve shows it without its small-strain damping. -/
theorem C161_single (m : SoilModel) (opt : Optimiser) (σ : CStore ℝ) (a : Nat) (d : List (ℝ × ℝ)) (hd : σ[a]? = some d)
    (hp : ProperCurve d) (p : Dict ℝ) (P : FitPanel) (hf : fitOneFig m opt σ a = .ok (p, P)) :
    m.fit opt (lowered d) = .ok p ∧ ShowsFit m (lowered d) p P := by
  unfold fitOneFig at hf
  rw [fitOne_proper _ σ a d hd hp] at hf
  cases hr : m.fit opt (lowered d) with
  | error e => rw [hr] at hf; cases hf
  | ok q =>
    rw [hr] at hf
    simp only [bind, Except.bind] at hf
    have hal : a < σ.length := (List.getElem?_eq_some_iff.1 hd).1
    rw [List.getElem?_set_self hal, Option.getD_some] at hf
    cases hx : fitPanel m (lowered d) q with
    | error e => rw [hx] at hf; cases hf
    | ok P' =>
      simp only [hx, pure, Except.pure, Except.ok.injEq, Prod.mk.injEq] at hf
      obtain ⟨rfl, rfl⟩ := hf
      exact ⟨rfl, fitPanel_shows m _ _ _ hx⟩

end Verif
