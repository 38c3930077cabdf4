import Verif.Proof.RespCont
import Verif.Proof.Motion
import Verif.Props.EveryLayerLin
import Verif.Props.EveryLayerFlat
import Verif.Props.EveryLayerOut

/-!
C197: for weak motions the equivalent-linear solver gives the results of the linear one, in the limit, or exactly if the tables of G/Gmax
start with 1.
-/

set_option linter.unusedSectionVars false
set_option linter.unusedVariables false

open Filter Topology

namespace Verif

open Spec (Valid5 OneStrainPerLayer Hermitian Table Fits CloseTo before DampedLay MakesUp rowLay initial lin linT)

/-- The motion with all accelerations multiplied by `ε`. -/
def Spec.weaker (ε : ℝ) (x : Rec ℝ) : Rec ℝ := x.map fun p => (p.1, ε * p.2)

/-- A table of columns with all values multiplied by `c`. -/
def Spec.timesT (c : ℝ) (A : List (List ℝ)) : List (List ℝ) := A.map fun a => a.map (c * ·)

/-- The strains of all tables begin above zero (columns come in fours: strain, G/Gmax, strain, damping). -/
def Spec.StrainsBeginAboveZero (cols : List (List ℝ)) : Prop :=
  ∀ (m : ℕ) (c : List ℝ), (cols[4 * m]? = some c ∨ cols[4 * m + 2]? = some c) → ∀ s, c.head? = some s → 0 < s

/-- The tables of G/Gmax begin with 1. -/
def Spec.ModulusBeginsAtOne (cols : List (List ℝ)) : Prop :=
  ∀ (m : ℕ) (c : List ℝ), cols[4 * m + 1]? = some c → ∀ g, c.head? = some g → g = 1

open Spec (weaker timesT StrainsBeginAboveZero ModulusBeginsAtOne)

/-! ## Scaling -/

theorem lin_self (ε : ℝ) (a : List ℝ) : lin (ε - 1) a a = a.map (ε * ·) := by
  unfold lin
  rw [List.zipWith_self]
  exact List.map_congr_left fun x _ => by ring

theorem linT_self (ε : ℝ) (A : List (List ℝ)) : linT (ε - 1) A A = timesT ε A := by
  unfold linT timesT
  rw [List.zipWith_self]
  exact List.map_congr_left fun a _ => lin_self ε a

/-- All results of a response calculation multiplied by `ε`, except for the frequency responses. -/
def scaleResp (ε : ℝ) (r : Resp) : Resp := ⟨r.H, timesT ε r.accel, timesT ε r.veloc, timesT ε r.displ, timesT ε r.strain⟩

theorem linResp_scale {dt : ℝ} {b : Boundary} {acc : List ℝ} {Rg : ℝ} {h G D rho : List ℝ} {r : Resp × List ℝ}
    (hN : acc.length % 2 = 1) (h1 : G.length = h.length) (h2 : D.length = h.length) (h3 : rho.length = h.length)
    (hr : linResp dt b acc Rg h G D rho = .ok r) (ε : ℝ) :
    linResp dt b (acc.map (ε * ·)) Rg h G D rho = .ok (scaleResp ε r.1, r.2.map (|ε| * ·)) := by
  obtain ⟨a1, a2, a3, a4, a5, a6, a7, a8, a9, a10, a11, a12⟩ := linResp_ok hN h1 h2 h3 hr
  have eA : (r.1.H.map (accelCol (fftL ((acc.map (ε * ·)).map fun x : ℝ => (x : ℂ))))) = timesT ε r.1.accel := by
    rw [a2, ← linT_self]
    unfold linT
    rw [List.zipWith_map, List.zipWith_self]
    apply List.map_congr_left
    intro H hH
    have hl := a7.2 H hH
    rw [← lin_self, show ((lin (ε - 1) acc acc).map fun x : ℝ => (x : ℂ)) = cx (lin (ε - 1) acc acc) from rfl, fft_lin _ _ _ rfl]
    exact accelCol_lin _ _ _ H (by rw [fftL_length]; simp [hl]) (by rw [fftL_length]; simp [hl])
  have eV : (timesT ε r.1.accel).map (integrate dt) = timesT ε r.1.veloc := by
    rw [← linT_self, linT_map (ε - 1) acc.length _ _ _ a8.2 a8.2 fun a b _ _ => integrate_lin _ _ _ _, ← a3, linT_self]
  have eU : (timesT ε r.1.accel).map (displCol acc.length dt) = timesT ε r.1.displ := by
    rw [← linT_self, linT_map (ε - 1) acc.length _ _ _ a8.2 a8.2 fun a b h h' => displCol_lin _ _ _ _ _ (by omega), ← a4, linT_self]
  have eS : strainCols h (timesT ε r.1.displ) = timesT ε r.1.strain := by
    rw [← linT_self, strainCols_lin, ← a5, linT_self]
  have eE : (timesT ε r.1.strain).map (fun s => Rg * maxAbs s) = r.2.map (|ε| * ·) := by
    rw [a6]
    unfold timesT
    rw [List.map_map, List.map_map]
    apply List.map_congr_left
    intro s _
    simp only [Function.comp_apply]
    rw [maxAbs_map_mul]
    ring
  unfold linResp
  simp only [Bind.bind, Except.bind, List.length_map]
  rw [a1]
  simp only [Pure.pure, Except.pure]
  rw [eA, eV, eU, eS, eE]
  rfl

theorem weaker_comb (ε : ℝ) (x : Rec ℝ) : weaker ε x = Spec.comb (ε - 1) x x := by
  unfold weaker Spec.comb
  rw [List.zipWith_self]
  exact List.map_congr_left fun p _ => by rw [Prod.mk.injEq]; exact ⟨rfl, by ring⟩

theorem dtOf_weaker (ε : ℝ) (x : Rec ℝ) : dtOf (weaker ε x) = dtOf x := by
  match x with
  | [] => rfl
  | [_] => rfl
  | p :: q :: r => rfl

theorem prepMotion_weaker (ε : ℝ) {x : Rec ℝ} (h2 : 2 ≤ x.length) {pm : PrepMotion} (hp : prepMotion x = .ok pm) :
    ∃ pm', prepMotion (weaker ε x) = .ok pm' ∧ pm'.a = pm.a.map (ε * ·) ∧ pm'.even = pm.even := by
  obtain ⟨p, e, -⟩ := prepMotion_ok (weaker ε x) (by simpa [weaker] using h2)
  have e' := e
  rw [weaker_comb] at e'
  obtain ⟨k1, -, k3, -⟩ := prepMotion_lin (ε - 1) x x h2 rfl hp hp e'
  exact ⟨p, e, by rw [k1, lin_self], k3⟩

/-! ## Curves at small strains -/

/-- A curve that begins with the values 1 and `xi` at zero strain and continues at positive strain. -/
def CurveZero (c : LayCurve ℝ) (xi : ℝ) : Prop :=
  ∃ pg pd, c.g = (0, 1) :: pg ∧ c.d = (0, xi) :: pd ∧ (∀ q, pg.head? = some q → 0 < q.1) ∧ ∀ q, pd.head? = some q → 0 < q.1

theorem head_zip_append {sg g : List ℝ} {v : ℝ} (h : ∀ s, sg.head? = some s → 0 < s) : ∀ q, (sg.zip g ++ [((100 : ℝ), v)]).head? = some q → 0 < q.1 := by
  intro q hq
  match sg, g with
  | [], _ => simp at hq; rw [← hq]; norm_num
  | _ :: _, [] => simp at hq; rw [← hq]; norm_num
  | s :: _, _ :: _ => simp at hq; rw [← hq]; exact h s rfl

theorem head_map_div {l : List ℝ} (h : ∀ s, l.head? = some s → 0 < s) : ∀ s, (l.map (· / 100)).head? = some s → 0 < s := by
  intro s hs
  rw [List.head?_map, Option.map_eq_some_iff] at hs
  obtain ⟨a, ha, rfl⟩ := hs
  have := h a ha
  positivity

theorem layCurve_zero {sg g sd d : List ℝ} {xi : ℝ} {c : LayCurve ℝ} (h : layCurve sg g sd d xi = .ok c) (hs : ∀ s, sg.head? = some s → 0 < s)
    (hs' : ∀ s, sd.head? = some s → 0 < s) : CurveZero c xi := by
  unfold layCurve at h
  split at h
  · cases h
    refine ⟨_, _, rfl, by rw [sub_self, zero_add], head_zip_append hs, head_zip_append hs'⟩
  · cases h

theorem interp_zero (y0 : ℝ) (rest : List (ℝ × ℝ)) (h : ∀ q, rest.head? = some q → 0 < q.1) :
    Tendsto (fun e => interpFrom e (0, y0) rest) (𝓝 0) (𝓝 y0) := by
  cases rest with
  | nil => exact tendsto_const_nhds
  | cons q rest =>
    have hq := h q rfl
    have c : Continuous fun e : ℝ => y0 + (q.2 - y0) / (q.1 - 0) * max e 0 := by fun_prop
    have := c.tendsto 0
    simp only [max_self, mul_zero, add_zero] at this
    refine this.congr' ?_
    filter_upwards [gt_mem_nhds hq] with e he
    rw [interpFrom, if_pos he]
    by_cases h0 : e ≤ 0
    · rw [if_pos h0, max_eq_right h0]; simp
    · rw [if_neg h0, max_eq_left (not_le.1 h0).le]; simp

/-- Modulus and damping at an effective strain. -/
noncomputable def updAt (gm : ℝ) (c : LayCurve ℝ) (e : ℝ) : ℝ × ℝ :=
  match c.g, c.d with
  | p :: pg, q :: pd => (gm * interpFrom e p pg, interpFrom e q pd)
  | _, _ => (0, 0)

theorem layUpdate_updAt {gm : ℝ} {c : LayCurve ℝ} {e : ℝ} {y : ℝ × ℝ} (h : layUpdate gm c e = .ok y) : y = updAt gm c e := by
  unfold layUpdate npInterp at h
  unfold updAt
  match hg : c.g, hd : c.d with
  | [], _ => rw [hg] at h; cases h
  | _ :: _, [] => rw [hg, hd] at h; cases h
  | p :: pg, q :: pd => rw [hg, hd] at h; exact (Except.ok.inj h).symm

theorem updAt_zero {gm xi : ℝ} {c : LayCurve ℝ} (h : CurveZero c xi) : Tendsto (updAt gm c) (𝓝 0) (𝓝 (gm, xi)) := by
  obtain ⟨pg, pd, e1, e2, h1, h2⟩ := h
  unfold updAt
  rw [e1, e2]
  simp only
  refine Tendsto.prodMk_nhds ?_ (interp_zero xi pd h2)
  have := (tendsto_const_nhds (x := gm)).mul (interp_zero 1 pg h1)
  rwa [mul_one] at this

/-! ## The iteration for a family of motions -/

section Family
variable {prof : List (Row ℝ)} {cs : List (LayCurve ℝ)} {dt Rg tol : ℝ} {b : Boundary} {acc : List ℝ} {verbose : Bool} {F : Filter ℝ}

/-- States whose moduli and dampings approach the initial ones. -/
structure Fam (prof : List (Row ℝ)) (F : Filter ℝ) (s : ℝ → EqState ℝ Resp) : Prop where
  wf : ∀ ε, EqWF (prof.length - 1) (s ε)
  thk : ∀ ε, (s ε).prof.map Row.thk = prof.map Row.thk
  rho : ∀ ε, (s ε).prof.map Row.rho = prof.map Row.rho
  lastRow : ∀ ε, (s ε).prof.getLast? = prof.getLast?
  lastG : ∀ ε, (s ε).G.getLast? = prof.getLast?.map fun r => r.rho * r.vs ^ 2
  curr : ∀ (k : ℕ) (q : Row ℝ), prof.dropLast[k]? = some q → Tendsto (fun ε => (s ε).curr.getD k (0, 0)) F (𝓝 (q.rho * q.vs ^ 2, q.xi))

theorem curr_getD {s : EqState ℝ Resp} {m k : ℕ} (h : EqWF m s) (hk : k < m) : s.curr.getD k (0, 0) = (s.G.getD k 0, (s.prof.map Row.xi).getD k 0) := by
  unfold EqState.curr
  have l1 : k < s.G.dropLast.length := by simp [h.G]; exact hk
  have l2 : k < (s.prof.dropLast.map Row.xi).length := by simp [h.prof]; exact hk
  rw [List.getD_eq_getElem _ _ (by simp [h.G, h.prof]; exact hk), List.getD_eq_getElem _ _ (by rw [h.G]; omega),
    List.getD_eq_getElem _ _ (by simp [h.prof]; omega)]
  simp

theorem fam_lists (hne : prof ≠ []) {s : ℝ → EqState ℝ Resp} (h : Fam prof F s) :
    Tendsto (fun ε => (s ε).G) F (𝓝 (prof.map fun r => r.rho * r.vs ^ 2)) ∧
    Tendsto (fun ε => (s ε).prof.map Row.xi) F (𝓝 (prof.map Row.xi)) := by
  have hpos : 0 < prof.length := List.length_pos_iff.mpr hne
  have lastEq : ∀ {l : List ℝ} {v : ℝ}, l.length = prof.length → l.getLast? = some v → l.getD (prof.length - 1) 0 = v := by
    intro l v hl hv
    rw [List.getLast?_eq_getElem?, hl] at hv
    rw [List.getD_eq_getElem?_getD, hv]; rfl
  have hlast := List.getLast?_eq_some_getLast hne
  have cases_k : ∀ k < prof.length, (∃ q, prof.dropLast[k]? = some q ∧ prof[k]? = some q ∧ k < prof.length - 1) ∨ k = prof.length - 1 := by
    intro k hk
    by_cases hk' : k < prof.length - 1
    · left
      exact ⟨prof[k], by rw [List.getElem?_dropLast, if_pos hk', List.getElem?_eq_getElem hk], List.getElem?_eq_getElem hk, hk'⟩
    · right; omega
  constructor
  · refine (tendsto_list 0 _ _).2 ⟨Eventually.of_forall fun ε => by rw [(h.wf ε).G]; simp; omega, fun k hk => ?_⟩
    rcases cases_k k (by simpa using hk) with ⟨q, q1, q2, q3⟩ | rfl
    · have := (continuous_fst.tendsto _).comp (h.curr k q q1)
      rw [List.getD_eq_getElem?_getD, List.getElem?_map, q2]
      refine this.congr fun ε => ?_
      simp only [Function.comp_apply]
      rw [curr_getD (h.wf ε) q3]
    · rw [lastEq (by simp) (by rw [List.getLast?_map, hlast]; rfl)]
      refine tendsto_const_nhds.congr fun ε => ?_
      rw [lastEq (by rw [(h.wf ε).G]; omega) (by rw [h.lastG ε, hlast]; rfl)]
  · refine (tendsto_list 0 _ _).2 ⟨Eventually.of_forall fun ε => by rw [List.length_map, (h.wf ε).prof]; simp; omega, fun k hk => ?_⟩
    rcases cases_k k (by simpa using hk) with ⟨q, q1, q2, q3⟩ | rfl
    · have := (continuous_snd.tendsto _).comp (h.curr k q q1)
      rw [List.getD_eq_getElem?_getD, List.getElem?_map, q2]
      refine this.congr fun ε => ?_
      simp only [Function.comp_apply]
      rw [curr_getD (h.wf ε) q3]
    · rw [lastEq (by simp) (by rw [List.getLast?_map, hlast]; rfl)]
      refine tendsto_const_nhds.congr fun ε => ?_
      rw [lastEq (by rw [List.length_map, (h.wf ε).prof]; omega) (by rw [List.getLast?_map, h.lastRow ε, hlast]; rfl)]

/-- Responses approaching `r0`. -/
structure RespNear (F : Filter ℝ) (N : ℕ) (r : ℝ → Resp) (r0 : Resp) : Prop where
  H : Tendsto (fun ε => (r ε).H) F (𝓝 r0.H)
  accel : Tendsto (fun ε => (r ε).accel) F (𝓝 r0.accel)
  veloc : Tendsto (fun ε => (r ε).veloc) F (𝓝 r0.veloc)
  displ : Tendsto (fun ε => (r ε).displ) F (𝓝 r0.displ)
  strain : Tendsto (fun ε => (r ε).strain) F (𝓝 r0.strain)
  len : ∀ ε, ∀ c ∈ (r ε).strain, c.length = N

theorem RespNear.ite {N : ℕ} {r r' : ℝ → Resp} {r0 : Resp} (h : RespNear F N r r0) (h' : RespNear F N r' r0) (p : ℝ → Bool) :
    RespNear F N (fun ε => if p ε then r ε else r' ε) r0 := by
  have key : ∀ {E : Type} [TopologicalSpace E] (g : Resp → E) (y : E), Tendsto (fun ε => g (r ε)) F (𝓝 y) → Tendsto (fun ε => g (r' ε)) F (𝓝 y) →
      Tendsto (fun ε => g (if p ε then r ε else r' ε)) F (𝓝 y) := by
    intro E _ g y h1 h2
    refine (Tendsto.if' (p := fun ε => p ε = true) h1 h2).congr fun ε => ?_
    by_cases hp : p ε = true <;> simp [hp]
  refine ⟨key Resp.H _ h.H h'.H, key Resp.accel _ h.accel h'.accel, key Resp.veloc _ h.veloc h'.veloc, key Resp.displ _ h.displ h'.displ,
    key Resp.strain _ h.strain h'.strain, fun ε c hc => ?_⟩
  by_cases hp : p ε = true
  · simp only [hp, if_true] at hc; exact h.len ε c hc
  · simp only [hp] at hc; exact h'.len ε c hc

theorem Fam.ite {s s' : ℝ → EqState ℝ Resp} (h : Fam prof F s) (h' : Fam prof F s') (p : ℝ → Bool) : Fam prof F (fun ε => if p ε then s ε else s' ε) := by
  refine ⟨fun ε => ?_, fun ε => ?_, fun ε => ?_, fun ε => ?_, fun ε => ?_, fun k q hq => ?_⟩
  · by_cases hp : p ε = true
    · simpa only [hp, if_true] using h.wf ε
    · simpa only [hp, if_false, Bool.false_eq_true] using h'.wf ε
  · by_cases hp : p ε = true
    · simpa only [hp, if_true] using h.thk ε
    · simpa only [hp, if_false, Bool.false_eq_true] using h'.thk ε
  · by_cases hp : p ε = true
    · simpa only [hp, if_true] using h.rho ε
    · simpa only [hp, if_false, Bool.false_eq_true] using h'.rho ε
  · by_cases hp : p ε = true
    · simpa only [hp, if_true] using h.lastRow ε
    · simpa only [hp, if_false, Bool.false_eq_true] using h'.lastRow ε
  · by_cases hp : p ε = true
    · simpa only [hp, if_true] using h.lastG ε
    · simpa only [hp, if_false, Bool.false_eq_true] using h'.lastG ε
  · refine (Tendsto.if' (p := fun ε => p ε = true) (h.curr k q hq) (h'.curr k q hq)).congr fun ε => ?_
    by_cases hp : p ε = true <;> simp [hp]

variable {r0 : Resp × List ℝ}

/-- What is assumed about profile, curves and motion. -/
structure WeakSetup (prof : List (Row ℝ)) (cs : List (LayCurve ℝ)) (dt Rg : ℝ) (b : Boundary) (acc : List ℝ) (r0 : Resp × List ℝ) : Prop where
  dtp : 0 < dt
  N : 2 ≤ acc.length
  odd : acc.length % 2 = 1
  valid : Valid5 prof
  two : 2 ≤ prof.length
  cslen : cs.length = prof.length - 1
  curves : ∀ (k : ℕ) q c, prof.dropLast[k]? = some q → cs[k]? = some c → CurveZero c q.xi
  lin : linResp dt b acc Rg (prof.map Row.thk) (prof.map fun r => r.rho * r.vs ^ 2) (prof.map Row.xi) (prof.map Row.rho) = .ok r0

theorem weak_step (w : WeakSetup prof cs dt Rg b acc r0) (hF : F ≤ 𝓝 0) {s s1 : ℝ → EqState ℝ Resp} {conv : ℝ → Bool} (h : Fam prof F s)
    (hs : ∀ ε, eqStep (linResp dt b (acc.map (ε * ·)) Rg) (prof.map fun r => r.rho * r.vs ^ 2) cs tol (s ε) = .ok (s1 ε, conv ε)) :
    Fam prof F s1 ∧ ∃ r, RespNear F acc.length r r0.1 ∧ ∀ ε, (s1 ε).res = some (scaleResp ε (r ε)) := by
  have hne := w.valid.nonempty
  have hpos : 0 < prof.length := List.length_pos_iff.mpr hne
  have hl1 : prof.length - 1 + 1 = prof.length := by omega
  have ps := fun ε => eqStep_spec (m := prof.length - 1) (linResp_oneStrain dt b (acc.map (ε * ·)) Rg (by simpa using w.odd)) (by simp; omega) w.cslen
    (h.wf ε) (hs ε)
  obtain ⟨tG, tD⟩ := fam_lists hne h
  have lG : ∀ ε, (s ε).G.length = prof.length := fun ε => by rw [(h.wf ε).G, hl1]
  have lD : ∀ ε, ((s ε).prof.map Row.xi).length = prof.length := fun ε => by rw [List.length_map, (h.wf ε).prof, hl1]
  have tot : ∀ ε, ∃ r, linResp dt b acc Rg (prof.map Row.thk) (s ε).G ((s ε).prof.map Row.xi) (prof.map Row.rho) = .ok r := fun ε =>
    linResp_total _ _ _ _ _ _ _ _ fun _ => by
      rw [gLays_length (by rw [lG]; simp) (by rw [lD]; simp) (by simp)]; simpa using w.two
  choose ρ hρ using tot
  obtain ⟨t1, t2, t3, t4, t5, t6⟩ := linResp_tendsto w.dtp w.N w.odd w.valid (fun _ => w.two) lG lD tG tD hρ w.lin
  have sc := fun ε => linResp_scale w.odd (by rw [lG]; simp) (by rw [lD]; simp) (by simp) (hρ ε) ε
  have out : ∀ ε, (s1 ε).res = some (scaleResp ε (ρ ε).1) ∧
      ∀ (k : ℕ) q c, prof.dropLast[k]? = some q → cs[k]? = some c → (s1 ε).curr.getD k (0, 0) = updAt (q.rho * q.vs ^ 2) c (|ε| * (ρ ε).2.getD k 0) := by
    intro ε
    obtain ⟨r, eff, hr, hres, hk⟩ := (ps ε).res
    rw [h.thk ε, h.rho ε, sc ε] at hr
    have e := Prod.mk.inj (Except.ok.inj hr)
    refine ⟨by rw [hres, ← e.1], fun k q c hq hc => ?_⟩
    have hkl : k < prof.length - 1 := by
      have := (List.getElem?_eq_some_iff.1 hq).1
      simpa using this
    have hq' : prof[k]? = some q := by
      rw [List.getElem?_dropLast, if_pos hkl] at hq; exact hq
    obtain ⟨e', y, he', hy, hc'⟩ := hk k (q.rho * q.vs ^ 2) c hkl (by rw [List.getElem?_map, hq']; rfl) hc
    rw [← e.2, List.getElem?_map, Option.map_eq_some_iff] at he'
    obtain ⟨e0, h0, rfl⟩ := he'
    rw [List.getD_eq_getElem?_getD, hc', List.getD_eq_getElem?_getD, h0]
    exact layUpdate_updAt hy
  refine ⟨⟨fun ε => (ps ε).wf, fun ε => ?_, fun ε => ?_, fun ε => ?_, fun ε => ?_, fun k q hq => ?_⟩, fun ε => (ρ ε).1,
    ⟨t1, t2, t3, t4, t5, fun ε c hc => ?_⟩, fun ε => (out ε).1⟩
  · rw [(ps ε).keep _ fun _ _ => rfl, h.thk ε]
  · rw [(ps ε).keep _ fun _ _ => rfl, h.rho ε]
  · rw [(ps ε).lastRow, h.lastRow ε]
  · rw [(ps ε).lastG, h.lastG ε]
  · have hkl : k < cs.length := by
      have := (List.getElem?_eq_some_iff.1 hq).1
      rw [w.cslen]; simpa using this
    have hc := List.getElem?_eq_getElem hkl
    have t0 : Tendsto (fun ε => |ε| * (ρ ε).2.getD k 0) F (𝓝 0) := by
      have a1 : Tendsto (fun ε : ℝ => |ε|) F (𝓝 0) := by
        have := (continuous_abs.tendsto (0 : ℝ)).mono_left hF
        rwa [abs_zero] at this
      have := a1.mul (((cont_getD 0 k).tendsto _).comp t6)
      rwa [zero_mul] at this
    refine ((updAt_zero (w.curves k q _ hq hc)).comp t0).congr fun ε => ?_
    exact ((out ε).2 k q _ hq hc).symm
  · exact (linResp_ok w.odd (by rw [lG]; simp) (by rw [lD]; simp) (by simp) (hρ ε)).2.2.2.2.2.2.2.2.2.2.1.2 c hc

theorem weak_loop (w : WeakSetup prof cs dt Rg b acc r0) (hF : F ≤ 𝓝 0) : ∀ (n : ℕ) (s s' : ℝ → EqState ℝ Resp), Fam prof F s →
    (∀ ε, eqLoop (linResp dt b (acc.map (ε * ·)) Rg) (prof.map fun r => r.rho * r.vs ^ 2) cs tol verbose (n + 1) (s ε) = .ok (s' ε)) →
    Fam prof F s' ∧ ∃ r, RespNear F acc.length r r0.1 ∧ ∀ ε, (s' ε).res = some (scaleResp ε (r ε)) := by
  intro n
  induction n with
  | zero =>
    intro s s' h hs
    have : ∀ ε, ∃ c, eqStep (linResp dt b (acc.map (ε * ·)) Rg) (prof.map fun r => r.rho * r.vs ^ 2) cs tol (s ε) = .ok (s' ε, c) := by
      intro ε
      have := hs ε
      rw [eqLoop] at this
      split at this
      · cases this
      · rename_i s'' c e
        split_ifs at this with hc
        · cases this; exact ⟨c, e⟩
        · rw [eqLoop] at this; cases this; exact ⟨c, e⟩
    choose conv hconv using this
    exact weak_step w hF h hconv
  | succ n ih =>
    intro s s' h hs
    have tot : ∀ ε, ∃ p, eqStep (linResp dt b (acc.map (ε * ·)) Rg) (prof.map fun r => r.rho * r.vs ^ 2) cs tol (s ε) = .ok p := by
      intro ε
      have := hs ε
      rw [eqLoop] at this
      split at this
      · cases this
      · rename_i s'' c e
        exact ⟨_, e⟩
    choose p hp using tot
    obtain ⟨f1, r1, n1, e1⟩ := weak_step (s1 := fun ε => (p ε).1) (conv := fun ε => (p ε).2) w hF h hp
    have tot2 : ∀ ε, ∃ s2, eqLoop (linResp dt b (acc.map (ε * ·)) Rg) (prof.map fun r => r.rho * r.vs ^ 2) cs tol verbose (n + 1) (p ε).1 = .ok s2 := by
      intro ε
      have two := w.two
      obtain ⟨s2, e, -⟩ := eqLoop_total (resp := linResp dt b (acc.map (ε * ·)) Rg) (gmax := prof.map fun r => r.rho * r.vs ^ 2) (cs := cs) (tol := tol)
        (verbose := verbose) (m := prof.length - 1)
        (linResp_oneStrain dt b (acc.map (ε * ·)) Rg (by simpa using w.odd)) (by omega) (by simp; omega) w.cslen
        (fun c hc => by
          obtain ⟨k, hk⟩ := List.getElem?_of_mem hc
          have hkl := (List.getElem?_eq_some_iff.1 hk).1
          rw [w.cslen] at hkl
          have hkl' : k < prof.dropLast.length := by simpa using hkl
          obtain ⟨pg, pd, q1, q2, -⟩ := w.curves k _ c (List.getElem?_eq_getElem hkl') hk
          rw [q1, q2]; simp)
        (fun h G D rho e1 e2 e3 e4 => linResp_total _ _ _ _ _ _ _ _ (fun _ => by
          rw [gLays_length (by rw [e2, e1]) (by rw [e3, e1]) (by rw [e4, e1]), e1]; omega)) (n + 1) (p ε).1 (f1.wf ε)
      exact ⟨s2, e⟩
    choose s2 hs2 using tot2
    obtain ⟨f2, r2, n2, e2⟩ := ih _ s2 f1 hs2
    have es : s' = fun ε => if ((p ε).2 && verbose) then (p ε).1 else s2 ε := by
      funext ε
      have := hs ε
      rw [eqLoop, hp ε] at this
      simp only at this
      by_cases hc : ((p ε).2 && verbose) = true
      · rw [if_pos hc] at this ⊢; exact (Except.ok.inj this).symm
      · rw [if_neg hc, hs2 ε] at this; rw [if_neg hc]; exact (Except.ok.inj this).symm
    rw [es]
    refine ⟨f1.ite f2 _, _, n1.ite n2 (fun ε => ((p ε).2 && verbose)), fun ε => ?_⟩
    by_cases hc : ((p ε).2 && verbose) = true
    · simp only [hc, if_true]; exact e1 ε
    · simp only [hc, if_false, Bool.false_eq_true]; exact e2 ε

end Family

/-- The responses do not depend on the factor of the effective strain. -/
theorem linResp_anyRg {dt : ℝ} {b : Boundary} {acc : List ℝ} {Rg : ℝ} {h G D rho : List ℝ} {r : Resp × List ℝ}
    (hr : linResp dt b acc Rg h G D rho = .ok r) (Rg' : ℝ) : linResp dt b acc Rg' h G D rho = .ok (r.1, r.1.strain.map fun s => Rg' * maxAbs s) := by
  unfold linResp at hr ⊢
  simp only [Bind.bind, Except.bind] at hr ⊢
  cases hH : hMatrix acc.length dt b (gLays h G D rho) with
  | error e => rw [hH] at hr; cases hr
  | ok H =>
    rw [hH] at hr
    simp only [Pure.pure, Except.pure] at hr ⊢
    rw [← Except.ok.inj hr]

theorem timesT_inv {ε : ℝ} (h : ε ≠ 0) (A : List (List ℝ)) : timesT ε⁻¹ (timesT ε A) = A := by
  unfold timesT
  rw [List.map_map]
  conv_rhs => rw [← List.map_id A]
  apply List.map_congr_left
  intro a _
  simp only [Function.comp_apply, List.map_map, id]
  conv_rhs => rw [← List.map_id a]
  apply List.map_congr_left
  intro v _
  simp [inv_mul_cancel_left₀ h]

theorem unpad_map {A B : Type} (e : Bool) (f : A → B) (l : List A) : unpad e (l.map f) = (unpad e l).map f := by
  unfold unpad
  cases e <;> simp

theorem timesT_unpad (ε : ℝ) (e : Bool) (A : List (List ℝ)) : (timesT ε A).map (unpad e) = timesT ε (A.map (unpad e)) := by
  unfold timesT
  rw [List.map_map, List.map_map]
  exact List.map_congr_left fun a _ => unpad_map e _ a

theorem cont_unpad (e : Bool) : Continuous fun A : List (List ℝ) => A.map (unpad e) := by
  apply cont_map
  unfold unpad
  cases e with
  | false => exact continuous_id
  | true => simpa using cont_dropLast

/-- C197. For weaker and weaker versions of a motion, the motions, strains and stresses of the equivalent-linear solver, relative to the motion, the
transfer function and the dampings it reports tend to those of the linear solver: for every valid profile with a half space, tables for all its
materials that begin above zero strain, either boundary, any tolerance, strain factor, limit on the iterations and verbosity, and every motion. -/
theorem C197_weak {rows : List (Row ℝ)} {x : Rec ℝ} {b : Boundary} {cols : List (List ℝ)} {tol Rg dt : ℝ}
    {maxIter : Int} {verbose : Bool} {last : Row ℝ} {oLin : SimOut} (hv : Valid5 rows)
    (hl : rows.getLast? = some last) (h0 : last.thk = 0) (hr2 : 2 ≤ rows.length) (h2 : 2 ≤ x.length)
    (hdt : dtOf x = .ok dt) (hd0 : 0 < dt)
    (hn : checkLayerCount ((cols.length / 4 : Nat) : Int) (rows.map Row.mat) = .ok ()) (hcols : ∀ c ∈ cols, c ≠ [])
    (hs : StrainsBeginAboveZero cols) (hm : 1 ≤ maxIter) (hlin : linearSim rows x b = .ok oLin) :
    ∃ o : ℝ → SimOut, (∀ ε, equivLinear rows (weaker ε x) cols b tol Rg maxIter verbose = .ok (o ε)) ∧
      Tendsto (fun ε => timesT ε⁻¹ (o ε).a) (𝓝[≠] 0) (𝓝 oLin.a) ∧
      Tendsto (fun ε => timesT ε⁻¹ (o ε).v) (𝓝[≠] 0) (𝓝 oLin.v) ∧
      Tendsto (fun ε => timesT ε⁻¹ (o ε).d) (𝓝[≠] 0) (𝓝 oLin.d) ∧
      Tendsto (fun ε => timesT ε⁻¹ (o ε).gamma) (𝓝[≠] 0) (𝓝 oLin.gamma) ∧
      Tendsto (fun ε => timesT ε⁻¹ (o ε).tau) (𝓝[≠] 0) (𝓝 oLin.tau) ∧
      Tendsto (fun ε => (o ε).tf) (𝓝[≠] 0) (𝓝 oLin.tf) ∧
      (∀ ε, (o ε).freq = oLin.freq) ∧
      Tendsto (fun ε => (o ε).profile.map Row.xi) (𝓝[≠] 0) (𝓝 (oLin.profile.map Row.xi)) := by
  obtain ⟨lp, pm, r, hp, hpd, hpN, hodd, hN3, hr, -, lfreq, ltf, la, lv, ld, lgam, ltau⟩ :=
    linearSim_tf hv hl h0 h2 hdt hd0.ne' (fun _ => hr2) hlin _ rfl
  obtain ⟨sv, sl, sall, _, s2⟩ := stratify5_valid hv hl h0
  have hs2 := s2 hr2
  have hn' : checkLayerCount ((cols.length / 4 : Nat) : Int) ((stratify5 rows).map Row.mat) = .ok () := by
    rw [C60_accept] at hn ⊢
    refine ⟨by simpa using sv.nonempty, ?_⟩
    intro m hm
    obtain ⟨q, hq, rfl⟩ := List.mem_map.mp hm
    obtain ⟨r, hr, he⟩ := sall q hq
    rw [he]
    exact hn.2 _ (List.mem_map.mpr ⟨r, hr, rfl⟩)
  obtain ⟨cs, hcs, hcl, hcur⟩ := C60_no_missing sv hn' hcols
  rw [← hpN] at hodd hN3
  set prof := stratify5 rows with hprof
  have w : WeakSetup prof cs dt Rg b pm.a (r.1, r.1.strain.map fun s => Rg * maxAbs s) :=
    ⟨hd0, by omega, hodd, sv, hs2, hcl, fun k q c hq hc => by
      obtain ⟨m, sg, g, sd, d, c', hm', e0, e1, e2, e3, e4, e5⟩ := hcur k q hq
      rw [hc] at e4; cases e4
      exact layCurve_zero e5 (head_map_div (hs m sg (Or.inl e0))) (head_map_div (hs m sd (Or.inr e2))), linResp_anyRg hr Rg⟩
  -- the weaker motions
  have hx2 : ∀ ε, 2 ≤ (weaker ε x).length := fun ε => by simpa [weaker] using h2
  have prep : ∀ ε, ∃ pm', prepMotion (weaker ε x) = .ok pm' ∧ pm'.a = pm.a.map (ε * ·) ∧ pm'.even = pm.even ∧ pm'.dt = dt ∧
      simPrepare rows (weaker ε x) = .ok (pm', prof) := by
    intro ε
    obtain ⟨pm1, q1, q2, q3⟩ := simPrepare_ok hv (hx2 ε) (by rw [dtOf_weaker]; exact hdt) hd0.ne'
    obtain ⟨pm', e1, e2, e3⟩ := prepMotion_weaker ε h2 hp
    rw [q1] at e1; cases e1
    exact ⟨pm1, q1, e2, e3, q2, q3⟩
  choose pw p1 p2 p3 p4 p5 using prep
  have its : ∀ ε, ∃ sr : EqState ℝ Resp × Resp, eqIterate (linResp dt b (pm.a.map (ε * ·)) Rg) prof cols tol maxIter verbose = .ok sr := by
    intro ε
    obtain ⟨s, r, hit⟩ := eqIterate_total (tol := tol) (verbose := verbose) hs2 (linResp_oneStrain dt b (pm.a.map (ε * ·)) Rg (by simpa using hodd)) hcs hm
      (fun h G D rho e1 e2 e3 e4 => linResp_total _ _ _ _ _ _ _ _ (fun _ => by
        rw [gLays_length (by rw [e2, e1]) (by rw [e3, e1]) (by rw [e4, e1]), e1]; exact hs2))
    exact ⟨(s, r), hit⟩
  choose sr hit using its
  have loop : ∀ ε, eqLoop (linResp dt b (pm.a.map (ε * ·)) Rg) (prof.map fun r => r.rho * r.vs ^ 2) cs tol verbose maxIter.toNat
      ⟨prof, prof.map fun r => r.rho * r.vs ^ 2, none, []⟩ = .ok (sr ε).1 ∧ (sr ε).1.res = some (sr ε).2 := by
    intro ε
    have h := hit ε
    unfold eqIterate at h
    simp only [Bind.bind, Except.bind] at h
    rw [hcs] at h
    simp only at h
    have : checkMaxIter maxIter = .ok () := by
      unfold checkMaxIter; rw [if_neg (by omega), if_neg (by omega)]
    rw [this] at h
    simp only at h
    generalize eqLoop (linResp dt b (pm.a.map (ε * ·)) Rg) (prof.map fun r => r.rho * r.vs ^ 2) cs tol verbose maxIter.toNat
      ⟨prof, prof.map fun r => r.rho * r.vs ^ 2, none, []⟩ = L at h ⊢
    cases L with
    | error e => cases h
    | ok s1 =>
      simp only at h
      cases er : s1.res with
      | none => rw [er] at h; cases h
      | some r1 =>
        rw [er] at h
        rw [← Except.ok.inj h]
        exact ⟨rfl, er⟩
  obtain ⟨n, hnI⟩ : ∃ n : ℕ, maxIter.toNat = n + 1 := ⟨maxIter.toNat - 1, by omega⟩
  have fam0 : Fam prof (𝓝[≠] (0 : ℝ)) fun _ => ⟨prof, prof.map fun r => r.rho * r.vs ^ 2, none, []⟩ := by
    refine ⟨fun ε => ⟨by show prof.length = _; omega, by simp; omega⟩, fun _ => rfl, fun _ => rfl, fun _ => rfl, fun _ => by rw [List.getLast?_map],
      fun k q hq => tendsto_const_nhds.congr fun ε => ?_⟩
    have hk := (List.getElem?_eq_some_iff.1 hq).1
    rw [List.length_dropLast] at hk
    rw [List.getElem?_dropLast, if_pos hk] at hq
    rw [curr_getD ⟨by show prof.length = _; omega, by simp; omega⟩ hk]
    simp only [List.getD_eq_getElem?_getD, List.getElem?_map, hq]
    rfl
  obtain ⟨fam, ρ, near, hres⟩ := weak_loop w (nhdsWithin_le_nhds (s := {(0 : ℝ)}ᶜ)) n _ (fun ε => (sr ε).1) fam0 (fun ε => by rw [← hnI]; exact (loop ε).1)
  have hρ : ∀ ε, (sr ε).2 = scaleResp ε (ρ ε) := fun ε => by
    have := hres ε
    rw [(loop ε).2] at this
    exact Option.some.inj this
  obtain ⟨tG, tD⟩ := fam_lists sv.nonempty fam
  -- the results
  have fin : ∀ ε, ∃ o, equivLinear rows (weaker ε x) cols b tol Rg maxIter verbose = .ok o ∧ o.profile = (sr ε).1.prof ∧
      o.freq = (simFreqs pm.a.length dt).take ((x.length + 1) / 2) ∧
      o.tf = (((ρ ε).H.headD []).take ((x.length + 1) / 2)).map (· / 2) ∧ o.a = timesT ε ((ρ ε).accel.map (unpad pm.even)) ∧
      o.v = timesT ε ((ρ ε).veloc.map (unpad pm.even)) ∧ o.d = timesT ε ((ρ ε).displ.map (unpad pm.even)) ∧
      o.gamma = timesT ε ((ρ ε).strain.map (unpad pm.even)) ∧
      o.tau = timesT ε ((calcStress (sr ε).1.G ((sr ε).1.prof.map Row.xi) (ρ ε).strain).map (unpad pm.even)) := by
    intro ε
    have hit' : eqIterate (linResp (pw ε).dt b (pw ε).a Rg) (stratify5 rows) cols tol maxIter verbose = .ok ((sr ε).1, (sr ε).2) := by
      rw [p4, p2]; exact hit ε
    obtain ⟨c1, c2, c3, c4, c5, c6, c7, c8⟩ := equiv_core (p1 ε) (hx2 ε) sv.nonempty hit'
    have hodd' : (pw ε).a.length % 2 = 1 := by rw [p2]; simpa using hodd
    have hst := calcStress_shape (pw ε).a.length hodd' (sr ε).1.G ((sr ε).1.prof.map Row.xi) (sr ε).2.strain (by simp [c1, c2]) (by rw [c8.1, c2]) c8.2
    rw [c8.1] at hst
    have hp1 : (stratify5 rows).length = (stratify5 rows).length - 1 + 1 := by rw [← hprof]; omega
    obtain ⟨o, ho, hf, q1, q2, q3, q4, q5, q6, q7, q8⟩ := postProcess_fits (prof := (sr ε).1.prof) (n := (stratify5 rows).length - 1) (hx2 ε) (p1 ε) (by rw [c1]; exact hp1)
      (by rw [c3, List.getLast?_map, ← hprof, sl, ← h0]; rfl)
      ⟨by omega, c4.2⟩ ⟨by omega, c5.2⟩ ⟨by omega, c6.2⟩ ⟨by omega, c7.2⟩ c8 hst
    have hxl : (weaker ε x).length = x.length := by simp [weaker]
    refine ⟨o, ?_, q1, ?_, ?_, ?_, ?_, ?_, ?_, ?_⟩
    · unfold equivLinear
      rw [p5]
      simp only [Bind.bind, Except.bind]
      rw [hit']
      exact ho
    · rw [q2, hxl, p4, p2, List.length_map]
    · rw [q3, hxl, hρ]; rfl
    · rw [q4, p3, hρ]; exact timesT_unpad _ _ _
    · rw [q5, p3, hρ]; exact timesT_unpad _ _ _
    · rw [q6, p3, hρ]; exact timesT_unpad _ _ _
    · rw [q7, p3, hρ]; exact timesT_unpad _ _ _
    · rw [q8, p3, hρ]
      show (calcStress _ _ (timesT ε (ρ ε).strain)).map _ = _
      rw [← linT_self, calcStress_lin _ pm.a.length _ _ _ _ (near.len ε) (near.len ε), linT_self]
      exact timesT_unpad _ _ _
  choose o ho f1 f2 f3 f4 f5 f6 f7 f8 using fin
  have nz : ∀ᶠ ε in 𝓝[≠] (0 : ℝ), ε ≠ 0 := eventually_mem_nhdsWithin
  have lim : ∀ {A : ℝ → List (List ℝ)} {L : List (List ℝ)}, Tendsto A (𝓝[≠] (0 : ℝ)) (𝓝 L) → ∀ B : ℝ → List (List ℝ),
      (∀ ε, B ε = timesT ε ((A ε).map (unpad pm.even))) → Tendsto (fun ε => timesT ε⁻¹ (B ε)) (𝓝[≠] 0) (𝓝 (L.map (unpad pm.even))) := by
    intro A L hA B hB
    refine (((cont_unpad pm.even).tendsto L).comp hA).congr' ?_
    filter_upwards [nz] with ε hε
    rw [hB ε, timesT_inv hε]; rfl
  refine ⟨o, ho, ?_, ?_, ?_, ?_, ?_, ?_, ?_, ?_⟩
  · rw [la]; exact lim near.accel _ f4
  · rw [lv]; exact lim near.veloc _ f5
  · rw [ld]; exact lim near.displ _ f6
  · rw [lgam]; exact lim near.strain _ f7
  · rw [ltau]
    refine lim (A := fun ε => calcStress (sr ε).1.G ((sr ε).1.prof.map Row.xi) (ρ ε).strain) ?_ _ f8
    exact (cont_calcStress.tendsto (_, _, _)).comp (tG.prodMk_nhds (tD.prodMk_nhds near.strain))
  · rw [ltf]
    have c : Continuous fun H : List (List ℂ) => ((H.getD 0 []).take ((x.length + 1) / 2)).map (· / 2) :=
      (cont_map (continuous_id.div_const 2)).comp ((cont_take _).comp (cont_getD [] 0))
    have hd : ∀ H : List (List ℂ), H.headD [] = H.getD 0 [] := fun H => by cases H <;> rfl
    simp only [f3, hd]
    exact (c.tendsto _).comp near.H
  · intro ε; rw [f2, lfreq, hpN]
  · rw [lp]
    simp only [f1]
    exact tD

/-! ## Exact equality below the tables -/

/-- The strain `e` (in unit 1; tables are in percent) lies below the tables of the material of row `r`, and that of G/Gmax begins with 1. -/
def Spec.BelowTables (cols : List (List ℝ)) (r : Row ℝ) (e : ℝ) : Prop :=
  ∃ (m : ℕ) (sg g sd d : List ℝ) (s0 s1 : ℝ), r.mat = (m : ℝ) + 1 ∧ cols[4 * m]? = some sg ∧ cols[4 * m + 1]? = some g ∧
    cols[4 * m + 2]? = some sd ∧ cols[4 * m + 3]? = some d ∧ sg.head? = some s0 ∧ g.head? = some 1 ∧ sd.head? = some s1 ∧ d ≠ [] ∧
    e < s0 / 100 ∧ e < s1 / 100

open Spec (BelowTables)

theorem layF_below {cols : List (List ℝ)} {r : Row ℝ} {e : ℝ} (h : BelowTables cols r e) :
    ∃ c, layF cols r = .ok c ∧ ∀ gm, layUpdate gm c e = .ok (gm, r.xi) := by
  obtain ⟨m, sg, g, sd, d, s0, s1, hm, h0, h1, h2, h3, e0, e1, e2, e3, l0, l1⟩ := h
  have hfl : ⌊r.mat⌋ - 1 = (m : Int) := by
    rw [hm]
    have : ⌊(m : ℝ) + 1⌋ = (m : Int) + 1 := by
      rw [Int.floor_eq_iff]; push_cast; constructor <;> linarith
    omega
  have gp : ∀ j : Nat, ∀ l : List ℝ, cols[4 * m + j]? = some l → pyGet cols ((m : Int) * 4 + (j : Int)) = .ok l := by
    intro j l hj
    have := (pyGet_nonneg cols (4 * m + j) l).mpr hj
    rw [← this]; congr 1; push_cast; ring
  have q0 := gp 0 sg (by simpa using h0)
  have q1 := gp 1 g h1
  have q2 := gp 2 sd h2
  have q3 := gp 3 d h3
  simp only [Nat.cast_ofNat, Nat.cast_zero, Nat.cast_one] at q0 q1 q2 q3
  obtain ⟨sg', rfl⟩ : ∃ t, sg = s0 :: t := by cases sg with | nil => cases e0 | cons a t => cases e0; exact ⟨t, rfl⟩
  obtain ⟨g', rfl⟩ : ∃ t, g = 1 :: t := by cases g with | nil => cases e1 | cons a t => cases e1; exact ⟨t, rfl⟩
  obtain ⟨sd', rfl⟩ : ∃ t, sd = s1 :: t := by cases sd with | nil => cases e2 | cons a t => cases e2; exact ⟨t, rfl⟩
  obtain ⟨d0, d', rfl⟩ : ∃ d0 t, d = d0 :: t := by cases d with | nil => exact absurd rfl e3 | cons a t => exact ⟨a, t, rfl⟩
  have flat : ∀ (y s : ℝ) (rest : List (ℝ × ℝ)), e < s → interpFrom e (0, y) ((s, y) :: rest) = y := by
    intro y s rest hlt
    rw [interpFrom, if_pos hlt]
    split_ifs <;> simp
  have hc : ∃ c, layF cols r = .ok c ∧ (∃ t, c.g = (0, 1) :: (s0 / 100, 1) :: t) ∧ ∃ t, c.d = (0, r.xi) :: (s1 / 100, r.xi) :: t := by
    unfold layF curveCols
    rw [hfl]
    simp only [Bind.bind, Except.bind, q0, q1, q2, q3, Pure.pure, Except.pure]
    unfold layCurve
    rw [List.getLast?_eq_some_getLast (l := (1 : ℝ) :: g') (by simp), List.getLast?_eq_some_getLast (l := (d0 :: d').map (· / 100)) (by simp)]
    refine ⟨_, rfl, ⟨_, rfl⟩, ⟨List.zip (sd'.map (· / 100)) ((d'.map (· / 100)).map fun x => x - d0 / 100 + r.xi) ++
        [(100, ((d0 :: d').map (· / 100)).getLast (by simp) - d0 / 100 + r.xi)], ?_⟩⟩
    simp
  obtain ⟨c, hc, ⟨t, ht⟩, t', ht'⟩ := hc
  refine ⟨c, hc, fun gm => ?_⟩
  unfold layUpdate npInterp
  rw [ht, ht']
  simp only [Bind.bind, Except.bind, flat _ _ _ l0, flat _ _ _ l1, mul_one, Pure.pure, Except.pure]

/-- C197. If the tables of G/Gmax begin with 1 and the effective strain of every layer, found by the linear analysis, lies below the tables, the
equivalent-linear solver gives exactly the results of the linear one. -/
theorem C197_below {rows : List (Row ℝ)} {x : Rec ℝ} {b : Boundary} {cols : List (List ℝ)} {tol Rg dt : ℝ}
    {maxIter : Int} {verbose : Bool} {last : Row ℝ} (hv : Valid5 rows)
    (hl : rows.getLast? = some last) (h0 : last.thk = 0) (hr2 : 2 ≤ rows.length) (h2 : 2 ≤ x.length)
    (hdt : dtOf x = .ok dt) (hd0 : dt ≠ 0) (hm : 1 ≤ maxIter) {o : SimOut} (ho : linearSim rows x b = .ok o)
    (hb : ∀ (pm : PrepMotion) (r : Resp × List ℝ), prepMotion x = .ok pm →
      linResp dt b pm.a Rg ((stratify5 rows).map Row.thk) ((stratify5 rows).map fun r => r.rho * r.vs ^ 2)
        ((stratify5 rows).map Row.xi) ((stratify5 rows).map Row.rho) = .ok r →
      ∀ (k : Nat) (q : Row ℝ) (e : ℝ), (stratify5 rows).dropLast[k]? = some q → r.2[k]? = some e → BelowTables cols q e) :
    equivLinear rows x cols b tol Rg maxIter verbose = .ok o := by
  rw [← ho]
  exact equiv_eq_linear hv hl h0 hr2 h2 hdt hd0 hm fun pm r hp hr k q e hq he => layF_below (hb pm r hp hr k q e hq he)

/-- C197. If the tables of G/Gmax begin with 1, the two solvers give exactly the same results for all sufficiently weak versions of a motion. -/
theorem C197_exact {rows : List (Row ℝ)} {x : Rec ℝ} {b : Boundary} {cols : List (List ℝ)} {tol Rg dt : ℝ}
    {maxIter : Int} {verbose : Bool} {last : Row ℝ} (hv : Valid5 rows)
    (hl : rows.getLast? = some last) (h0 : last.thk = 0) (hr2 : 2 ≤ rows.length) (h2 : 2 ≤ x.length)
    (hdt : dtOf x = .ok dt) (hd0 : dt ≠ 0)
    (hn : checkLayerCount ((cols.length / 4 : Nat) : Int) (rows.map Row.mat) = .ok ()) (hcols : ∀ c ∈ cols, c ≠ [])
    (hs : StrainsBeginAboveZero cols) (hg1 : ModulusBeginsAtOne cols) (hm : 1 ≤ maxIter) :
    ∃ ε₀ > 0, ∀ ε, |ε| < ε₀ → equivLinear rows (weaker ε x) cols b tol Rg maxIter verbose = linearSim rows (weaker ε x) b := by
  obtain ⟨pm, hp, hpd, -⟩ := simPrepare_ok hv h2 hdt hd0
  obtain ⟨pm', hp', _, hodd, _⟩ := prepMotion_ok x h2
  rw [hp] at hp'; cases hp'
  obtain ⟨sv, sl, sall, _, s2⟩ := stratify5_valid hv hl h0
  have hs2 := s2 hr2
  have hn' : checkLayerCount ((cols.length / 4 : Nat) : Int) ((stratify5 rows).map Row.mat) = .ok () := by
    rw [C60_accept] at hn ⊢
    refine ⟨by simpa using sv.nonempty, ?_⟩
    intro m hm
    obtain ⟨q, hq, rfl⟩ := List.mem_map.mp hm
    obtain ⟨r, hr, he⟩ := sall q hq
    rw [he]
    exact hn.2 _ (List.mem_map.mpr ⟨r, hr, rfl⟩)
  obtain ⟨cs, hcs, hcl, hcur⟩ := C60_no_missing sv hn' hcols
  set prof := stratify5 rows with hprof
  obtain ⟨r, hr⟩ := linResp_total dt b pm.a Rg (prof.map Row.thk) (prof.map fun r => r.rho * r.vs ^ 2)
    (prof.map Row.xi) (prof.map Row.rho) (fun hb' => by
      rw [gLays_length (by simp) (by simp) (by simp)]; simpa using hs2)
  -- the bounds
  have each : ∀ (k : ℕ) (q : Row ℝ), prof.dropLast[k]? = some q → ∃ s > 0, ∀ e < s, BelowTables cols q e := by
    intro k q hq
    obtain ⟨m, sg, g, sd, d, c, hm', e0, e1, e2, e3, e4, e5⟩ := hcur k q hq
    have ne : ∀ {j : ℕ} {l : List ℝ}, cols[j]? = some l → l ≠ [] := fun h => hcols _ (List.mem_of_getElem? h)
    have hd : ∀ {l : List ℝ}, l ≠ [] → ∃ a, l.head? = some a := fun {l} h => by cases l with | nil => exact absurd rfl h | cons a t => exact ⟨a, rfl⟩
    obtain ⟨s0, hs0⟩ := hd (ne e0)
    obtain ⟨g0, hg0⟩ := hd (ne e1)
    obtain ⟨s1, hs1⟩ := hd (ne e2)
    have i0 := hs m sg (Or.inl e0) s0 hs0
    have i1 := hs m sd (Or.inr e2) s1 hs1
    refine ⟨min (s0 / 100) (s1 / 100), lt_min (by positivity) (by positivity), fun e he => ?_⟩
    exact ⟨m, sg, g, sd, d, s0, s1, hm', e0, e1, e2, e3, hs0, by rw [hg0, hg1 m g e1 g0 hg0], hs1, ne e3, he.trans_le (min_le_left _ _),
      he.trans_le (min_le_right _ _)⟩
  have ev : ∀ᶠ ε : ℝ in 𝓝 0, ∀ k ∈ Finset.range prof.dropLast.length, ∀ q e, prof.dropLast[k]? = some q → r.2[k]? = some e → BelowTables cols q (|ε| * e) := by
    rw [Filter.eventually_all_finset]
    intro k hk
    have hk' := Finset.mem_range.1 hk
    obtain ⟨s, hs0, hs⟩ := each k _ (List.getElem?_eq_getElem hk')
    have c : Continuous fun ε : ℝ => |ε| * r.2.getD k 0 := by fun_prop
    have t := c.tendsto 0
    simp only [abs_zero, zero_mul] at t
    filter_upwards [t.eventually_lt_const hs0] with ε hε q e hq he
    rw [List.getElem?_eq_getElem hk'] at hq
    cases hq
    rw [List.getD_eq_getElem?_getD, he] at hε
    exact hs _ hε
  obtain ⟨ε₀, hε₀, hall⟩ := Metric.eventually_nhds_iff.1 ev
  refine ⟨ε₀, hε₀, fun ε hε => ?_⟩
  refine equiv_eq_linear hv hl h0 hr2 (by simpa [weaker] using h2) (by rw [dtOf_weaker]; exact hdt) hd0 hm fun pw rw' hpw hrw k q e hq he => ?_
  obtain ⟨pw', e1, e2, e3⟩ := prepMotion_weaker ε h2 hp
  rw [hpw] at e1; cases e1
  rw [e2, linResp_scale hodd (by simp) (by simp) (by simp) hr ε] at hrw
  rw [← Except.ok.inj hrw, List.getElem?_map, Option.map_eq_some_iff] at he
  obtain ⟨e0, he0, rfl⟩ := he
  refine layF_below (hall (by simpa [Real.dist_eq] using hε) k ?_ q e0 hq he0)
  exact Finset.mem_range.2 (List.getElem?_eq_some_iff.1 hq).1

/-! A layer over a half space, and tables that begin at a strain of 0.001 percent. -/

noncomputable def weakCols : List (List ℝ) := [[1 / 1000, 1 / 10, 1], [1, 8 / 10, 3 / 10], [1 / 1000, 1 / 10, 1], [1, 4, 12]]

theorem weakCols_above : StrainsBeginAboveZero weakCols := by
  intro m c hc s hs
  have key : c ∈ weakCols → c.head? = some s → 0 < s := by
    intro h h'
    simp only [weakCols, List.mem_cons, List.not_mem_nil, or_false] at h
    rcases h with rfl | rfl | rfl | rfl <;> · simp only [List.head?_cons, Option.some.injEq] at h'; rw [← h']; norm_num
  rcases hc with hc | hc <;> exact key (List.mem_of_getElem? hc) hs

theorem weakCols_one : ModulusBeginsAtOne weakCols := by
  intro m c hc g hg
  match m with
  | 0 => simp only [weakCols] at hc; cases hc; cases hg; rfl
  | m + 1 =>
    rw [List.getElem?_eq_none (by simp [weakCols]; omega)] at hc
    cases hc

/-- The hypotheses of C197 hold for a layer over a half space and a motion of three samples. -/
example (b : Boundary) : ∃ ε₀ > 0, ∀ ε, |ε| < ε₀ →
    equivLinear [demoRow, { demoRow with thk := 0 }] (weaker ε [(0, 1), (1 / 100, -2), (2 / 100, 3)]) weakCols b (75 / 1000) (65 / 100) 10 true =
      linearSim [demoRow, { demoRow with thk := 0 }] (weaker ε [(0, 1), (1 / 100, -2), (2 / 100, 3)]) b :=
  C197_exact (dt := 1 / 100 - 0) demoSim_valid rfl rfl (by simp) (by simp) rfl (by norm_num)
    ((C60_accept _ _).mpr ⟨by simp, by intro m hm; simp [demoRow] at hm; simp [weakCols, hm]⟩) (by simp [weakCols]) weakCols_above weakCols_one (by norm_num)

end Verif
