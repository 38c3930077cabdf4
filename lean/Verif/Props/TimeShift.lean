import Verif.Props.Reversal
import Verif.Props.Superpose

/-!
C217: results do not depend on the time at which a record begins.
-/

set_option linter.unusedSectionVars false
set_option linter.unusedVariables false

namespace Verif

namespace Spec

/-- The same record, `s` later. -/
def later (s : ℝ) (x : Rec ℝ) : Rec ℝ := x.map fun p => (p.1 + s, p.2)

end Spec

open Spec (later)

theorem dtOf_later (s : ℝ) (x : Rec ℝ) : dtOf (later s x) = dtOf x := by
  match x with
  | [] => rfl
  | [_] => rfl
  | p :: q :: _ =>
    show Except.ok (q.1 + s - (p.1 + s)) = Except.ok (q.1 - p.1)
    rw [add_sub_add_right_eq_sub]

theorem later_fst (s : ℝ) (x : Rec ℝ) : (later s x).map Prod.fst = (x.map Prod.fst).map (· + s) := by simp [later]

theorem later_snd (s : ℝ) (x : Rec ℝ) : (later s x).map Prod.snd = x.map Prod.snd := by simp [later]

theorem zip_later (s : ℝ) (t v : List ℝ) : (t.map (· + s)).zip v = later s (t.zip v) := by
  rw [later, List.zip_map_left]
  rfl

/-- C217, integration: velocity and displacement of the later record are those of the record, later. -/
theorem C217_integration (s : ℝ) (x : Rec ℝ) : numInt (later s x) = (numInt x).map fun r => (later s r.1, later s r.2) := by
  unfold numInt
  simp only [bind, Except.bind, dtOf_later, later_fst, later_snd]
  cases dtOf x with
  | error e => rfl
  | ok dt =>
    simp only [pure, Except.pure, Except.map, zip_later]

theorem diff_later (s : ℝ) : ∀ t : List ℝ, diff (t.map (· + s)) = diff t
  | [] => rfl
  | [_] => rfl
  | a :: b :: t => by
    have ih := diff_later s (b :: t)
    simp only [List.map_cons] at ih
    simp only [List.map_cons, diff, ih, add_sub_add_right_eq_sub]

/-- C217, response spectra: they are the same for the later record. -/
theorem C217_spectra (coef : ℝ → ℝ → Coefs ℝ) (xi : ℝ) (wns : List ℝ) (n : Nat) (s : ℝ) (x : Rec ℝ) :
    responseSpectra coef xi wns n (later s x) = responseSpectra coef xi wns n x := by
  unfold responseSpectra
  have hs : subsample n (later s x) = later s (subsample n x) := subsample_map n x _
  simp only [hs, later_fst, later_snd, dtOf_later]
  unfold spacingOk
  simp only [diff_later]

theorem boundsLoop_later (low high s : ℝ) : ∀ (l : Rec ℝ) (prev : ℝ) (a : ℝ × ℝ),
    boundsLoop low high prev (a.1 + s, a.2 + s) (later s l) =
      ((boundsLoop low high prev a l).1 + s, (boundsLoop low high prev a l).2 + s)
  | [], prev, a => rfl
  | (t, x) :: l, prev, a => by
    have ih := boundsLoop_later low high s l
    have e : later s ((t, x) :: l) = (t + s, x) :: later s l := rfl
    rw [e, boundsLoop, boundsLoop]
    simp only
    rw [← ih]
    congr 1
    split <;> split <;> rfl

theorem boundsLoop_low (low high : ℝ) : ∀ (l : Rec ℝ) (prev u v w : ℝ), prev < low → (∃ p ∈ l, low ≤ p.2) →
    boundsLoop low high prev (u, w) l = boundsLoop low high prev (v, w) l
  | [], prev, u, v, w, _, h => by obtain ⟨p, hp, _⟩ := h; cases hp
  | (t, x) :: l, prev, u, v, w, hp, h => by
    rw [boundsLoop, boundsLoop]
    simp only
    by_cases hx : low ≤ x
    · have hc : low ≤ x ∧ prev < low := ⟨hx, hp⟩
      simp only [hc, and_self, if_true]
    · have hc : ¬(low ≤ x ∧ prev < low) := fun c => hx c.1
      simp only [hc, if_false]
      have h' : ∃ p ∈ l, low ≤ p.2 := by
        obtain ⟨p, hm, hl⟩ := h
        rcases List.mem_cons.1 hm with rfl | hm
        · exact absurd hl hx
        · exact ⟨p, hm, hl⟩
      have ih := fun w => boundsLoop_low low high l x u v w (not_le.1 hx) h'
      split
      · exact ih t
      · exact ih w

theorem ariasFrom_head (c dt s : ℝ) (a : List ℝ) (ha : a ≠ []) : ∃ l, ariasFrom c dt s a = s :: l := by
  cases a with
  | nil => exact absurd rfl ha
  | cons y l => exact ⟨_, rfl⟩

theorem ariasFrom_len (c dt : ℝ) (a : List ℝ) : ∀ s, (ariasFrom c dt s a).length = a.length := by
  induction a with
  | nil => intro s; rfl
  | cons y l ih => intro s; rw [ariasFrom, List.length_cons, ih, List.length_cons]

/-- C217, Arias intensity: the later record has the same intensities, later, the same peak and the same significant duration; if there is
an error for the one there is the same error for the other. -/
theorem C217_arias (c s : ℝ) (x : Rec ℝ) :
    calcArias c (later s x) = (calcArias c x).map fun r => ⟨later s r.ia, later s r.norm, r.peak, r.t595⟩ := by
  unfold calcArias
  simp only [bind, Except.bind, dtOf_later, later_fst, later_snd]
  cases hd : dtOf x with
  | error e => rfl
  | ok dt =>
    simp only
    cases hl : (ariasFrom c dt 0 (x.map Prod.snd)).getLast? with
    | none => rfl
    | some peak =>
      simp only
      by_cases hp : peak = 0
      · rw [if_pos hp, if_pos hp]; rfl
      · rw [if_neg hp, if_neg hp, zip_later, zip_later]
        set t := x.map Prod.fst with ht
        set ia := ariasFrom c dt 0 (x.map Prod.snd) with hia
        have hxne : x ≠ [] := by rintro rfl; cases hd
        have hlen : t.length = ia.length := by rw [hia, ariasFrom_len, ht]; simp
        obtain ⟨rest, hr⟩ := ariasFrom_head c dt 0 (x.map Prod.snd) (by simpa using hxne)
        set tn := t.zip (ia.map (· / peak)) with htn
        -- first and last value of the normalised intensity
        obtain ⟨t0, tl0, ht0⟩ : ∃ t0 tl, t = t0 :: tl := by
          cases x with
          | nil => exact absurd rfl hxne
          | cons p x => exact ⟨p.1, x.map Prod.fst, rfl⟩
        have hcons : tn = (t0, 0) :: tl0.zip (rest.map (· / peak)) := by
          rw [htn, ht0, hia, hr]
          simp
        obtain ⟨q, hq⟩ : ∃ q, tn.getLast? = some q := by
          rw [hcons]
          exact ⟨_, List.getLast?_eq_some_getLast (by simp)⟩
        have hone : q.2 = 1 := by
          have h1 : tn.map Prod.snd = ia.map (· / peak) := List.map_snd_zip (by simp [hlen])
          have h2 := congrArg List.getLast? h1
          rw [List.getLast?_map, List.getLast?_map, hq, hl] at h2
          have h3 : q.2 = peak / peak := by simpa using h2
          rw [h3, div_self hp]
        have hreach : ∃ p ∈ tn, (5 / 100 : ℝ) ≤ p.2 := ⟨q, List.mem_of_getLast? hq, by rw [hone]; norm_num⟩
        have hb : ariasBounds tn (5 / 100) (95 / 100) = .ok (boundsLoop (5 / 100) (95 / 100) 0 (0, q.1) tn) := by
          unfold ariasBounds
          rw [if_neg (by norm_num), hq, hcons]
        have hb' : ariasBounds (later s tn) (5 / 100) (95 / 100) = .ok (boundsLoop (5 / 100) (95 / 100) 0 (0, q.1 + s) (later s tn)) := by
          have hq' : (later s tn).getLast? = some (q.1 + s, q.2) := by rw [later, List.getLast?_map, hq]; rfl
          unfold ariasBounds
          rw [if_neg (by norm_num), hq', hcons]
          rfl
        have hreach' : ∃ p ∈ later s tn, (5 / 100 : ℝ) ≤ p.2 := by
          obtain ⟨p, hm, h5⟩ := hreach
          exact ⟨(p.1 + s, p.2), List.mem_map.2 ⟨p, hm, rfl⟩, h5⟩
        rw [hb, hb', boundsLoop_low (5 / 100) (95 / 100) (later s tn) 0 0 (0 + s) (q.1 + s) (by norm_num) hreach']
        rw [boundsLoop_later (5 / 100) (95 / 100) s tn 0 (0, q.1)]
        simp only [pure, Except.pure, Except.map, add_sub_add_right_eq_sub]

/-! ## Simulations -/

/-- What is prepared from the later motion. -/
def latePrep (s : ℝ) (pm : PrepMotion) : PrepMotion := ⟨pm.even, pm.t.map (· + s), pm.dt, pm.a⟩

theorem prepMotion_later (s : ℝ) (x : Rec ℝ) : prepMotion (later s x) = (prepMotion x).map (latePrep s) := by
  unfold prepMotion
  simp only [bind, Except.bind, dtOf_later, later_fst, later_snd]
  cases dtOf x with
  | error e => rfl
  | ok dt =>
    simp only [List.getLast?_map]
    cases x.getLast? with
    | none => rfl
    | some p =>
      simp only [Option.map_some, List.length_map]
      split
      · simp only [Except.map, latePrep, List.map_append, List.map_cons, List.map_nil]
        rw [add_right_comm]
      · rfl

theorem simPrepare_later (s : ℝ) (rows : List (Row ℝ)) (x : Rec ℝ) :
    simPrepare rows (later s x) = (simPrepare rows x).map fun p => (latePrep s p.1, p.2) := by
  unfold simPrepare
  simp only [bind, Except.bind, prepMotion_later]
  cases checkVsFormat (.five rows) with
  | error e => rfl
  | ok u =>
    simp only
    cases prepMotion x with
    | error e => rfl
    | ok pm =>
      simp only [Except.map, latePrep]
      split <;> rfl

theorem colStack_later (s : ℝ) (t a : List ℝ) : colStack (t.map (· + s)) a = (colStack t a).map (later s) := by
  unfold colStack
  rw [List.length_map]
  split
  · rfl
  · simp only [Except.map, zip_later]

theorem postProcess_later (s : ℝ) (pm : PrepMotion) (prof : List (Row ℝ)) (r : Resp) (st : List (List ℝ)) :
    postProcess (latePrep s pm) prof r st = (postProcess pm prof r st).map fun o => { o with surface := later s o.surface } := by
  unfold postProcess
  simp only [bind, Except.bind, latePrep, unpad_map, colStack_later]
  cases colStack (unpad pm.even pm.t) ((r.accel.map (unpad pm.even)).headD []) with
  | error e => rfl
  | ok sf =>
    simp only [Except.map]
    cases thk2dep (prof.map Row.thk) false with
    | error e => rfl
    | ok zb =>
      simp only
      cases thk2dep (prof.map Row.thk) true with
      | error e => rfl
      | ok zm =>
        simp only
        cases colStack4 zb ((r.accel.map (unpad pm.even)).map maxAbs) ((r.veloc.map (unpad pm.even)).map maxAbs)
            ((r.displ.map (unpad pm.even)).map maxAbs) with
        | error e => rfl
        | ok q =>
          simp only
          cases colStack3 zm ((r.strain.map (unpad pm.even)).map maxAbs) ((st.map (unpad pm.even)).map maxAbs) with
          | error e => rfl
          | ok w => rfl

/-- C217, linear solver: the later motion has the same results, except that the surface motion is later by the same time. -/
theorem C217_linear (s : ℝ) (rows : List (Row ℝ)) (x : Rec ℝ) (b : Boundary) :
    linearSim rows (later s x) b = (linearSim rows x b).map fun o => { o with surface := later s o.surface } := by
  unfold linearSim
  simp only [bind, Except.bind, simPrepare_later]
  cases simPrepare rows x with
  | error e => rfl
  | ok p =>
    obtain ⟨pm, prof⟩ := p
    simp only [Except.map]
    have e1 : (latePrep s pm).dt = pm.dt := rfl
    have e2 : (latePrep s pm).a = pm.a := rfl
    rw [e1, e2]
    cases linResp pm.dt b pm.a (65 / 100) (prof.map Row.thk) (prof.map fun r => r.rho * r.vs ^ 2) (prof.map Row.xi) (prof.map Row.rho) with
    | error e => rfl
    | ok r => exact postProcess_later s pm prof r.1 _

/-- C217, equivalent-linear solver. -/
theorem C217_equiv (s : ℝ) (rows : List (Row ℝ)) (x : Rec ℝ) (cols : List (List ℝ)) (b : Boundary) (tol Rg : ℝ) (maxIter : Int)
    (verbose : Bool) : equivLinear rows (later s x) cols b tol Rg maxIter verbose =
      (equivLinear rows x cols b tol Rg maxIter verbose).map fun o => { o with surface := later s o.surface } := by
  unfold equivLinear
  simp only [bind, Except.bind, simPrepare_later]
  cases simPrepare rows x with
  | error e => rfl
  | ok p =>
    obtain ⟨pm, prof⟩ := p
    simp only [Except.map]
    have e1 : (latePrep s pm).dt = pm.dt := rfl
    have e2 : (latePrep s pm).a = pm.a := rfl
    rw [e1, e2]
    cases eqIterate (linResp pm.dt b pm.a Rg) prof cols tol maxIter verbose with
    | error e => rfl
    | ok q => exact postProcess_later s pm q.1.prof q.2 _

/-- A record that begins at 10: the Arias intensity is 2 and reaches 5% at 11 and 95% at 12. -/
example : (calcArias (1 : ℝ) (later 10 [(0, 1), (1, 1), (2, 0)])).map (fun r => (r.ia, r.peak, r.t595)) = .ok ([(10, 0), (11, 1), (12, 2)], 2, 1) := by
  have h : calcArias (1 : ℝ) [(0, 1), (1, 1), (2, 0)] = .ok ⟨[(0, 0), (1, 1), (2, 2)], [(0, 0), (1, 1 / 2), (2, 1)], 2, 1⟩ := by
    norm_num [calcArias, ariasFrom, ariasBounds, boundsLoop, dtOf, bind, Except.bind, pure, Except.pure]
  rw [C217_arias, h]
  norm_num [Except.map, later]

end Verif
