import Verif.Proof.EquivLinear
import Verif.Proof.VsProfile

/-!
Properties C36-C39 and C60: the equivalent-linear iteration, for every response calculation
which returns one effective strain per layer above the last one.
-/

set_option linter.unusedSectionVars false
set_option linter.unusedVariables false

namespace Verif

open Spec (CloseTo before Valid5)

/-- Initial modulus `rho Vs²` and damping of the layers above the last one. -/
def Spec.initial {K : Type} [Field K] (prof : List (Row K)) : List (K × K) :=
  prof.dropLast.map fun r => (r.rho * r.vs ^ 2, r.xi)

open Spec (OneStrainPerLayer initial)

section
variable {K : Type} [Field K] [LinearOrder K] [IsStrictOrderedRing K] [FloorRing K]

theorem initial_curr {R : Type} (prof : List (Row K)) (res : Option R) :
    (EqState.mk prof (prof.map fun r => r.rho * r.vs ^ 2) res []).curr = initial prof := by
  unfold EqState.curr initial
  rw [← List.map_dropLast, List.zip_map']

theorem eqIterate_inv {R : Type} {resp : RespFn K R} {prof : List (Row K)} {cols : List (List K)} {tol : K}
    {maxIter : Int} {verbose : Bool} {s : EqState K R} {r : R} (hne : prof ≠ []) (hresp : OneStrainPerLayer resp)
    (h : eqIterate resp prof cols tol maxIter verbose = .ok (s, r)) :
    ∃ cs, layCurves cols prof = .ok cs ∧ 0 ≤ maxIter ∧ s.res = some r ∧ 0 < s.hist.length ∧
      LoopSpec (prof.map fun r => r.rho * r.vs ^ 2) cs tol verbose (prof.length - 1) maxIter.toNat
        ⟨prof, prof.map fun r => r.rho * r.vs ^ 2, none, []⟩ s s.hist := by
  unfold eqIterate at h
  simp only [bind, Except.bind] at h
  cases hc : layCurves cols prof with
  | error e => rw [hc] at h; cases h
  | ok cs =>
    rw [hc] at h
    simp only at h
    cases hm : checkMaxIter maxIter with
    | error e => rw [hm] at h; cases h
    | ok u =>
      rw [hm] at h
      simp only at h
      have h0 : 0 ≤ maxIter := by
        unfold checkMaxIter at hm
        by_contra hc
        by_cases c1 : maxIter + 1 < 0
        · rw [if_pos c1] at hm; cases hm
        · rw [if_neg c1, if_pos (by omega)] at hm; cases hm
      cases hl : eqLoop resp (prof.map fun r => r.rho * r.vs ^ 2) cs tol verbose maxIter.toNat
          ⟨prof, prof.map fun r => r.rho * r.vs ^ 2, none, []⟩ with
      | error e => rw [hl] at h; cases h
      | ok s1 =>
        rw [hl] at h
        simp only at h
        have hpl : 0 < prof.length := List.length_pos_iff.mpr hne
        have hcl : cs.length = prof.length - 1 := by
          rcases layCurves_length hc with h1 | h1
          · omega
          · exact absurd h1 hne
        obtain ⟨hh, ls⟩ := eqLoop_spec (m := prof.length - 1) hresp (by simp; omega) hcl _ _ _
          ⟨by show prof.length = _; omega, by simp; omega⟩ hl
        cases hr : s1.res with
        | none => rw [hr] at h; cases h
        | some r1 =>
          rw [hr] at h
          simp only at h
          have e := Prod.mk.inj (Except.ok.inj h)
          obtain ⟨e1, e2⟩ := e
          subst e1; subst e2
          have hhist : s1.hist = hh := by rw [ls.hist]; rfl
          rw [hhist]
          refine ⟨cs, rfl, h0, hr, ?_, ls⟩
          rcases ls.res with _ | ⟨h1, h2⟩
          · by_contra hc0
            have : hh = [] := List.length_eq_zero_iff.mp (by omega)
            have hz : maxIter.toNat = 0 := by
              cases verbose with
              | false => have := ls.notVerbose rfl; simp_all
              | true =>
                by_contra hpos
                have := (ls.stop rfl (by rw [this]; simp; omega)).1
                omega
            rw [hz] at hl
            cases hl
            cases hr
          · rw [h2] at hr; cases hr

/-- The reported results belong to the response for the values before the last pass. -/
theorem eqIterate_last {R : Type} {resp : RespFn K R} {prof : List (Row K)} {cols : List (List K)} {tol : K}
    {maxIter : Int} {verbose : Bool} {s : EqState K R} {r : R} (hne : prof ≠ []) (hresp : OneStrainPerLayer resp)
    (h : eqIterate resp prof cols tol maxIter verbose = .ok (s, r)) :
    ∃ (cs : List (LayCurve K)) (s1 : EqState K R) (c : Bool) (eff : List K), layCurves cols prof = .ok cs ∧ EqWF (prof.length - 1) s1 ∧
      s1.curr = before (initial prof) s.hist (s.hist.length - 1) ∧
      s1.prof.map Row.thk = prof.map Row.thk ∧ s1.prof.map Row.rho = prof.map Row.rho ∧
      s1.prof.getLast? = prof.getLast? ∧ s1.G.getLast? = (prof.getLast?.map fun r => r.rho * r.vs ^ 2) ∧
      resp (s1.prof.map Row.thk) s1.G (s1.prof.map Row.xi) (s1.prof.map Row.rho) = .ok (r, eff) ∧
      PassSpec resp (prof.map fun r => r.rho * r.vs ^ 2) cs tol (prof.length - 1) s1 s c := by
  obtain ⟨cs, hc, h0, hr, hpos, ls⟩ := eqIterate_inv hne hresp h
  have hpl : 0 < prof.length := List.length_pos_iff.mpr hne
  have hcl : cs.length = prof.length - 1 := by
    rcases layCurves_length hc with h1 | h1
    · omega
    · exact absurd h1 hne
  have hloop : eqLoop resp (prof.map fun r => r.rho * r.vs ^ 2) cs tol verbose maxIter.toNat
      ⟨prof, prof.map fun r => r.rho * r.vs ^ 2, none, []⟩ = .ok s := by
    unfold eqIterate at h
    simp only [bind, Except.bind] at h
    rw [hc] at h
    simp only at h
    cases hm : checkMaxIter maxIter with
    | error e => rw [hm] at h; cases h
    | ok u =>
      rw [hm] at h
      simp only at h
      cases hl : eqLoop resp (prof.map fun r => r.rho * r.vs ^ 2) cs tol verbose maxIter.toNat
          ⟨prof, prof.map fun r => r.rho * r.vs ^ 2, none, []⟩ with
      | error e => rw [hl] at h; cases h
      | ok s1 =>
        rw [hl] at h
        simp only at h
        cases hr : s1.res with
        | none => rw [hr] at h; cases h
        | some r1 => rw [hr] at h; rw [(Prod.mk.inj (Except.ok.inj h)).1]
  obtain ⟨s1, c, a1, a2, a3, a4, a5, a6⟩ := eqLoop_last hresp (m := prof.length - 1) (by simp; omega) hcl _ _ _ s.hist
    ⟨by show prof.length = _; omega, by simp; omega⟩ ls.hist (List.length_pos_iff.mp hpos) hloop
  obtain ⟨r', eff, b1, b2, _⟩ := a6.res
  have : r' = r := by rw [hr] at b2; exact (Option.some.inj b2).symm
  subst this
  refine ⟨cs, s1, c, eff, hc, a1, ?_, a3 _ (fun _ _ => rfl), a3 _ (fun _ _ => rfl), a4, ?_, b1, a6⟩
  · rw [a2, initial_curr]
  · rw [a5, List.getLast?_map]

/-- The iteration succeeds if the response calculation does and every layer has curves. -/
theorem eqIterate_total {R : Type} {resp : RespFn K R} {prof : List (Row K)} {cols : List (List K)} {tol : K}
    {maxIter : Int} {verbose : Bool} {cs : List (LayCurve K)} (h2 : 2 ≤ prof.length) (hresp : OneStrainPerLayer resp)
    (hcs : layCurves cols prof = .ok cs) (hm : 1 ≤ maxIter)
    (htot : ∀ h G D rho : List K, h.length = prof.length → G.length = prof.length → D.length = prof.length →
      rho.length = prof.length → ∃ r, resp h G D rho = .ok r) :
    ∃ s r, eqIterate resp prof cols tol maxIter verbose = .ok (s, r) := by
  have hcl : cs.length = prof.length - 1 := by
    rcases layCurves_length hcs with h1 | h1
    · omega
    · rw [h1] at h2; simp at h2
  have hne : ∀ c ∈ cs, c.g ≠ [] ∧ c.d ≠ [] := by
    intro c hc
    obtain ⟨k, hk⟩ := List.getElem?_of_mem hc
    obtain ⟨e1, e2⟩ := mapM_ok _ _ _ hcs
    have hkl : k < prof.dropLast.length := by
      rw [← e1]; exact (List.getElem?_eq_some_iff.mp hk).1
    obtain ⟨y, hy1, hy2⟩ := e2 k _ (List.getElem?_eq_getElem hkl)
    rw [hk] at hy2
    cases hy2
    cases hcc : curveCols cols (⌊(prof.dropLast[k]).mat⌋ - 1) with
    | error e => simp only [bind, Except.bind, hcc] at hy1; cases hy1
    | ok q =>
      simp only [bind, Except.bind, hcc] at hy1
      unfold layCurve at hy1
      split at hy1
      · cases hy1; simp
      · cases hy1
  have hmm : checkMaxIter maxIter = .ok () := by
    unfold checkMaxIter; rw [if_neg (by omega), if_neg (by omega)]
  obtain ⟨s', h1, hres⟩ := eqLoop_total (gmax := prof.map fun r => r.rho * r.vs ^ 2) (tol := tol) (verbose := verbose)
    (m := prof.length - 1) hresp (by omega) (by simp; omega) hcl hne
    (fun h G D rho a b c d => htot h G D rho (by omega) (by omega) (by omega) (by omega)) maxIter.toNat
    ⟨prof, prof.map fun r => r.rho * r.vs ^ 2, none, []⟩ ⟨by show prof.length = _; omega, by simp; omega⟩
  have hs : s'.res.isSome = true := by
    rcases hres with h | h
    · exact h
    · omega
  obtain ⟨r, hr⟩ := Option.isSome_iff_exists.mp hs
  refine ⟨s', r, ?_⟩
  unfold eqIterate
  simp only [bind, Except.bind, hcs, hmm, h1, hr]

/-! ## C37 -/

/-- With `verbose=True` the loop makes at least one and at most `max_iter` passes; no pass but the
last one changed all moduli and damping ratios by less than `tol`; and if fewer than `max_iter`
passes were made, the last one did.
Missing for the full property: the same with `verbose=False`, see `C37_stops_violated`. -/
theorem C37_stops_partial {R : Type} {resp : RespFn K R} {prof : List (Row K)} {cols : List (List K)} {tol : K}
    {maxIter : Int} {s : EqState K R} {r : R} (hne : prof ≠ []) (hresp : OneStrainPerLayer resp)
    (h : eqIterate resp prof cols tol maxIter true = .ok (s, r)) :
    0 < s.hist.length ∧ (s.hist.length : Int) ≤ maxIter ∧
    (∀ i, i + 1 < s.hist.length →
      ¬CloseTo tol (before (initial prof) s.hist i) (before (initial prof) s.hist (i + 1))) ∧
    ((s.hist.length : Int) < maxIter → CloseTo tol (before (initial prof) s.hist (s.hist.length - 1))
      (before (initial prof) s.hist s.hist.length)) := by
  obtain ⟨cs, _, h0, _, h1, ls⟩ := eqIterate_inv hne hresp h
  have := ls.le
  refine ⟨h1, by omega, ?_, ?_⟩
  · intro i hi; have := ls.early rfl i hi; rwa [initial_curr] at this
  · intro hlt; have := (ls.stop rfl (by omega)).2; rwa [initial_curr] at this

/-- With `verbose=False` the loop always makes exactly `max_iter` passes. -/
theorem C37_quiet_partial {R : Type} {resp : RespFn K R} {prof : List (Row K)} {cols : List (List K)} {tol : K}
    {maxIter : Int} {s : EqState K R} {r : R} (hne : prof ≠ []) (hresp : OneStrainPerLayer resp)
    (h : eqIterate resp prof cols tol maxIter false = .ok (s, r)) : (s.hist.length : Int) = maxIter := by
  obtain ⟨cs, _, h0, _, h1, ls⟩ := eqIterate_inv hne hresp h
  have := ls.notVerbose rfl
  omega

/-! ## C36 -/

/-- If the run with `verbose=True` does not stop early, `verbose=False` gives the same outcome;
and if it fails, so does the other, with the same exception.
Missing for the full property: the same for runs which converge early, see
`C36_verbose_violated`. -/
theorem C36_verbose_partial {R : Type} {resp : RespFn K R} {prof : List (Row K)} {cols : List (List K)} {tol : K}
    {maxIter : Int} (hne : prof ≠ []) (hresp : OneStrainPerLayer resp) :
    (∀ (s : EqState K R) (r : R), eqIterate resp prof cols tol maxIter true = .ok (s, r) →
      (s.hist.length : Int) = maxIter → eqIterate resp prof cols tol maxIter false = .ok (s, r)) ∧
    (∀ e, eqIterate resp prof cols tol maxIter true = .error e → eqIterate resp prof cols tol maxIter false = .error e) := by
  have key : ∀ (cs : List (LayCurve K)) (gmax : List K) (n : Nat) (s0 : EqState K R),
      (∀ s', eqLoop resp gmax cs tol true n s0 = .ok s' → s'.hist.length = s0.hist.length + n →
        eqLoop resp gmax cs tol false n s0 = .ok s') ∧
      (∀ e, eqLoop resp gmax cs tol true n s0 = .error e → eqLoop resp gmax cs tol false n s0 = .error e) ∧
      (∀ s', eqLoop resp gmax cs tol true n s0 = .ok s' → s'.res = none → eqLoop resp gmax cs tol false n s0 = .ok s') := by
    have hlen : ∀ (cs : List (LayCurve K)) (gmax : List K) (s s' : EqState K R) c,
        eqStep resp gmax cs tol s = .ok (s', c) → s'.hist.length = s.hist.length + 1 ∧ s'.res.isSome = true := by
      intro cs gmax s s' c hst
      unfold eqStep at hst
      cases hr : resp (s.prof.map Row.thk) s.G (s.prof.map Row.xi) (s.prof.map Row.rho) with
      | error e => rw [hr] at hst; cases hst
      | ok r =>
        rw [hr] at hst
        cases hn : eqUpdate gmax.dropLast cs r.2 with
        | error e => simp only [bind, Except.bind, hn] at hst; cases hst
        | ok new =>
          simp only [bind, Except.bind, hn] at hst
          by_cases hnil : new = []
          · rw [if_pos hnil] at hst; cases hst
          · rw [if_neg hnil] at hst
            obtain ⟨e1, _⟩ := Prod.mk.inj (Except.ok.inj hst)
            rw [← e1]; simp
    have hsome : ∀ (cs : List (LayCurve K)) (gmax : List K) (v : Bool) (n : Nat) (s s' : EqState K R),
        eqLoop resp gmax cs tol v n s = .ok s' → s.res.isSome = true → s'.res.isSome = true := by
      intro cs gmax v n
      induction n with
      | zero => intro s s' h hs; cases h; exact hs
      | succ n ih =>
        intro s s' h hs
        rw [eqLoop] at h
        cases hst : eqStep resp gmax cs tol s with
        | error e => rw [hst] at h; cases h
        | ok p =>
          obtain ⟨s1, c⟩ := p
          rw [hst] at h
          simp only at h
          have h2 := (hlen _ _ _ _ _ hst).2
          by_cases cv : (c && v) = true
          · rw [if_pos cv] at h; cases h; exact h2
          · rw [if_neg cv] at h; exact ih s1 s' h h2
    have hle : ∀ (cs : List (LayCurve K)) (gmax : List K) (v : Bool) (n : Nat) (s s' : EqState K R),
        eqLoop resp gmax cs tol v n s = .ok s' → s'.hist.length ≤ s.hist.length + n := by
      intro cs gmax v n
      induction n with
      | zero => intro s s' h; cases h; omega
      | succ n ih =>
        intro s s' h
        rw [eqLoop] at h
        cases hst : eqStep resp gmax cs tol s with
        | error e => rw [hst] at h; cases h
        | ok p =>
          obtain ⟨s1, c⟩ := p
          rw [hst] at h
          simp only at h
          have h2 := (hlen _ _ _ _ _ hst).1
          by_cases cv : (c && v) = true
          · rw [if_pos cv] at h; cases h; omega
          · rw [if_neg cv] at h; have := ih s1 s' h; omega
    intro cs gmax n
    induction n with
    | zero => intro s0; exact ⟨fun s' h _ => h, fun e h => h, fun s' h _ => h⟩
    | succ n ih =>
      intro s0
      simp only [eqLoop]
      cases hst : eqStep resp gmax cs tol s0 with
      | error e => exact ⟨fun s' h _ => h, fun e h => h, fun s' h _ => h⟩
      | ok p =>
        obtain ⟨s1, c⟩ := p
        obtain ⟨hl1, hl2⟩ := hlen _ _ _ _ _ hst
        obtain ⟨i1, i2, i3⟩ := ih s1
        simp only [Bool.and_false, Bool.false_eq_true, if_false, Bool.and_true]
        refine ⟨?_, ?_, ?_⟩
        · intro s' h hh
          by_cases cv : c = true
          · rw [if_pos cv] at h
            cases h
            have hn : n = 0 := by omega
            subst hn
            rfl
          · rw [if_neg cv] at h; exact i1 s' h (by omega)
        · intro e h
          by_cases cv : c = true
          · rw [if_pos cv] at h; cases h
          · rw [if_neg cv] at h; exact i2 e h
        · intro s' h hn
          exfalso
          by_cases cv : c = true
          · rw [if_pos cv] at h; cases h; rw [hn] at hl2; cases hl2
          · rw [if_neg cv] at h
            have := hsome _ _ _ _ _ _ h hl2
            rw [hn] at this; cases this
  constructor
  · intro s r h hlen
    unfold eqIterate at h ⊢
    simp only [bind, Except.bind] at h ⊢
    cases hc : layCurves cols prof with
    | error e => rw [hc] at h; cases h
    | ok cs =>
      rw [hc] at h
      simp only at h ⊢
      cases hm : checkMaxIter maxIter with
      | error e => rw [hm] at h; cases h
      | ok u =>
        rw [hm] at h
        simp only at h ⊢
        cases hl : eqLoop resp (prof.map fun r => r.rho * r.vs ^ 2) cs tol true maxIter.toNat
            ⟨prof, prof.map fun r => r.rho * r.vs ^ 2, none, []⟩ with
        | error e => rw [hl] at h; cases h
        | ok s1 =>
          rw [hl] at h
          simp only at h
          have hs : s1 = s := by
            cases hr : s1.res with
            | none => rw [hr] at h; cases h
            | some r1 => rw [hr] at h; exact (Prod.mk.inj (Except.ok.inj h)).1
          subst hs
          rw [(key cs _ _ _).1 s1 hl (by simp; omega)]
          exact h
  · intro e h
    unfold eqIterate at h ⊢
    simp only [bind, Except.bind] at h ⊢
    cases hc : layCurves cols prof with
    | error e => rw [hc] at h; exact h
    | ok cs =>
      rw [hc] at h
      simp only at h ⊢
      cases hm : checkMaxIter maxIter with
      | error e => rw [hm] at h; exact h
      | ok u =>
        rw [hm] at h
        simp only at h ⊢
        cases hl : eqLoop resp (prof.map fun r => r.rho * r.vs ^ 2) cs tol true maxIter.toNat
            ⟨prof, prof.map fun r => r.rho * r.vs ^ 2, none, []⟩ with
        | error e' => rw [hl] at h; rw [(key cs _ _ _).2.1 e' hl]; exact h
        | ok s1 =>
          rw [hl] at h
          simp only at h
          cases hr : s1.res with
          | some r1 => rw [hr] at h; cases h
          | none =>
            rw [hr] at h
            rw [(key cs _ _ _).2.2 s1 hl hr]
            simp only [hr]; exact h

/-! ## C60 -/

/-- The layer-count check accepts exactly the profiles all of whose material numbers have a set of
curves (or parameters). -/
theorem C60_accept (n : Int) (mats : List K) :
    checkLayerCount n mats = .ok () ↔ mats ≠ [] ∧ ∀ m ∈ mats, m ≤ (n : K) := by
  cases mats with
  | nil => simp [checkLayerCount]
  | cons m ms =>
    have hmax : ∀ (l : List K) (a : K), l.foldl max a ≤ (n : K) ↔ a ≤ (n : K) ∧ ∀ x ∈ l, x ≤ (n : K) := by
      intro l
      induction l with
      | nil => intro a; simp
      | cons b l ih => intro a; simp only [List.foldl_cons, ih, max_le_iff, List.mem_cons, forall_eq_or_imp]; tauto
    unfold checkLayerCount
    by_cases c : (n : K) < ms.foldl max m
    · simp only [if_pos c]
      constructor
      · intro h; cases h
      · rintro ⟨_, h⟩
        exact absurd ((hmax ms m).mpr ⟨h m (by simp), fun x hx => h x (by simp [hx])⟩) (not_le.mpr c)
    · simp only [if_neg c]
      refine ⟨fun _ => ⟨by simp, ?_⟩, fun _ => trivial⟩
      obtain ⟨h1, h2⟩ := (hmax ms m).mp (not_lt.mp c)
      intro x hx
      rcases List.mem_cons.mp hx with rfl | hx
      · exact h1
      · exact h2 x hx

/-- A validated profile accepted by the layer-count check never refers to a missing material: with
four non-empty columns per curve set every layer above the last one gets its curves, from the four
columns of its own material. -/
theorem C60_no_missing {prof : List (Row K)} {cols : List (List K)} (hv : Valid5 prof)
    (hn : checkLayerCount ((cols.length / 4 : Nat) : Int) (prof.map Row.mat) = .ok ()) (hcols : ∀ c ∈ cols, c ≠ []) :
    ∃ cs, layCurves cols prof = .ok cs ∧ cs.length = prof.length - 1 ∧
      ∀ (k : Nat) (r : Row K), prof.dropLast[k]? = some r → ∃ (m : Nat) (sg g sd d : List K) (c : LayCurve K),
        r.mat = (m : K) + 1 ∧ cols[4 * m]? = some sg ∧ cols[4 * m + 1]? = some g ∧ cols[4 * m + 2]? = some sd ∧
        cols[4 * m + 3]? = some d ∧ cs[k]? = some c ∧
        layCurve (sg.map (· / 100)) g (sd.map (· / 100)) (d.map (· / 100)) r.xi = .ok c := by
  have hall := ((C60_accept _ _).mp hn).2
  have each : ∀ r ∈ prof.dropLast, ∃ (m : Nat) (sg g sd d : List K) (c : LayCurve K), r.mat = (m : K) + 1 ∧ cols[4 * m]? = some sg ∧
      cols[4 * m + 1]? = some g ∧ cols[4 * m + 2]? = some sd ∧ cols[4 * m + 3]? = some d ∧
      layCurve (sg.map (· / 100)) g (sd.map (· / 100)) (d.map (· / 100)) r.xi = .ok c ∧
      (do let x ← curveCols cols (⌊r.mat⌋ - 1)
          layCurve x.1 x.2.1 x.2.2.1 x.2.2.2 r.xi) = .ok c := by
    intro r hr
    have hr' := List.dropLast_subset prof hr
    obtain ⟨z, hz⟩ := hv.mat_int r hr'
    have hpos := hv.mat_pos r hr
    have hle := hall r.mat (List.mem_map.mpr ⟨r, hr', rfl⟩)
    rw [hz] at hpos hle
    have hz1 : 0 < z := by exact_mod_cast hpos
    have hz2 : z ≤ ((cols.length / 4 : Nat) : Int) := by exact_mod_cast hle
    obtain ⟨m, rfl⟩ : ∃ m : Nat, z = (m : Int) + 1 := ⟨(z - 1).toNat, by omega⟩
    have hlt : 4 * m + 3 < cols.length := by omega
    have hfl : ⌊r.mat⌋ - 1 = (m : Int) := by rw [hz, Int.floor_intCast]; omega
    have hg : ∀ j, j ≤ 3 → cols[4 * m + j]? = some (cols.getD (4 * m + j) []) := by
      intro j hj
      rw [List.getD_eq_getElem?_getD, List.getElem?_eq_getElem (by omega)]; rfl
    have hne : ∀ j, j ≤ 3 → cols.getD (4 * m + j) [] ≠ [] := fun j hj => hcols _ (List.mem_of_getElem? (hg j hj))
    have hcc : curveCols cols (⌊r.mat⌋ - 1) = .ok ((cols.getD (4 * m + 0) []).map (· / 100), cols.getD (4 * m + 1) [],
        (cols.getD (4 * m + 2) []).map (· / 100), (cols.getD (4 * m + 3) []).map (· / 100)) := by
      unfold curveCols
      rw [hfl]
      have e : ∀ j : Nat, j ≤ 3 → pyGet cols ((m : Int) * 4 + (j : Int)) = .ok (cols.getD (4 * m + j) []) := by
        intro j hj
        have : (m : Int) * 4 + (j : Int) = ((4 * m + j : Nat) : Int) := by push_cast; ring
        rw [this]
        exact (pyGet_nonneg cols (4 * m + j) _).mpr (hg j hj)
      have e0 := e 0 (by omega)
      have e1 := e 1 (by omega)
      have e2 := e 2 (by omega)
      have e3 := e 3 (by omega)
      simp only [Nat.cast_zero, Nat.cast_one, Nat.cast_ofNat] at e0 e1 e2 e3
      rw [e0, e1, e2, e3]
      rfl
    have hlc : ∃ c, layCurve ((cols.getD (4 * m + 0) []).map (· / 100)) (cols.getD (4 * m + 1) [])
        ((cols.getD (4 * m + 2) []).map (· / 100)) ((cols.getD (4 * m + 3) []).map (· / 100)) r.xi = .ok c := by
      have n1 := hne 1 (by omega)
      have n3 := hne 3 (by omega)
      unfold layCurve
      cases hd : cols.getD (4 * m + 3) [] with
      | nil => exact absurd hd n3
      | cons d0 dr =>
        rw [List.getLast?_eq_some_getLast n1,
          List.getLast?_eq_some_getLast (l := List.map (fun x => x / 100) (d0 :: dr)) (by simp)]
        simp
    obtain ⟨c, hc⟩ := hlc
    refine ⟨m, _, _, _, _, c, by rw [hz]; push_cast; ring, hg 0 (by omega), hg 1 (by omega), hg 2 (by omega), hg 3 (by omega), hc, ?_⟩
    rw [hcc]; exact hc
  have hok : ∃ cs, layCurves cols prof = .ok cs := by
    classical
    unfold layCurves
    refine ⟨_, mapM_of_forall _ (fun r => if hr : r ∈ prof.dropLast then (each r hr).choose_spec.choose_spec.choose_spec.choose_spec.choose_spec.choose else ⟨[], []⟩) _ ?_⟩
    intro r hr
    simp only [dif_pos hr]
    exact (each r hr).choose_spec.choose_spec.choose_spec.choose_spec.choose_spec.choose_spec.2.2.2.2.2.2
  obtain ⟨cs, hcs⟩ := hok
  obtain ⟨h1, h2⟩ := mapM_ok _ _ _ hcs
  refine ⟨cs, hcs, by rw [h1]; simp, ?_⟩
  intro k r hk
  obtain ⟨y, hy1, hy2⟩ := h2 k r hk
  obtain ⟨m, sg, g, sd, d, c, a1, a2, a3, a4, a5, a6, a7⟩ := each r (List.mem_of_getElem? hk)
  rw [a7] at hy1
  cases hy1
  exact ⟨m, sg, g, sd, d, _, a1, a2, a3, a4, a5, hy2, a6⟩

/-! ## C38 -/

/-- In every pass, whatever the strains: the modulus of a layer lies between `Gmax` times the smallest
value of its G/Gmax curve (or 0.0001, the value assumed at 10000 % strain, if this is smaller) and
`Gmax` times the largest one (or 1, the value at zero strain); the damping lies in the range of its
damping curve (in percent), shifted to start at the damping of the profile.  Each layer uses the
curves of its material number. -/
theorem C38_bounds {R : Type} {resp : RespFn K R} {prof : List (Row K)} {cols : List (List K)} {tol : K}
    {maxIter : Int} {verbose : Bool} {s : EqState K R} {r : R} (hv : Valid5 prof) (hresp : OneStrainPerLayer resp)
    (hn : checkLayerCount ((cols.length / 4 : Nat) : Int) (prof.map Row.mat) = .ok ()) (hcols : ∀ c ∈ cols, c ≠ [])
    (h : eqIterate resp prof cols tol maxIter verbose = .ok (s, r)) (v : List (K × K)) (hvh : v ∈ s.hist) (k : Nat)
    (row : Row K) (hrow : prof.dropLast[k]? = some row) :
    ∃ (m : Nat) (gcol dcol : List K) (d0 G D : K), row.mat = (m : K) + 1 ∧ cols[4 * m + 1]? = some gcol ∧
      cols[4 * m + 3]? = some dcol ∧ dcol.head? = some d0 ∧ v[k]? = some (G, D) ∧
      (∀ lo hi, (∀ x ∈ gcol, lo ≤ x ∧ x ≤ hi) →
        row.rho * row.vs ^ 2 * min lo (1 / 10 ^ 4) ≤ G ∧ G ≤ row.rho * row.vs ^ 2 * max hi 1) ∧
      (∀ lo hi, (∀ x ∈ dcol, lo ≤ x ∧ x ≤ hi) →
        row.xi + (lo - d0) / 100 ≤ D ∧ D ≤ row.xi + (hi - d0) / 100) := by
  obtain ⟨cs, hc, h0, _, _, ls⟩ := eqIterate_inv hv.nonempty hresp h
  obtain ⟨cs', hc', hlen, hper⟩ := C60_no_missing hv hn hcols
  rw [hc] at hc'; cases hc'
  obtain ⟨m, sg, g, sd, d, c, a1, a2, a3, a4, a5, a6, a7⟩ := hper k row hrow
  have hk : k < prof.length - 1 := by
    by_contra hcn
    rw [List.getElem?_eq_none (by simp; omega)] at hrow; cases hrow
  have hgm : (prof.map fun r => r.rho * r.vs ^ 2)[k]? = some (row.rho * row.vs ^ 2) := by
    rw [List.getElem?_dropLast, if_pos hk] at hrow
    rw [List.getElem?_map, hrow]; rfl
  obtain ⟨_, hval⟩ := ls.vals v hvh
  obtain ⟨e, y, hy1, hy2⟩ := hval k _ _ hk hgm a6
  have hd0 := hcols d (List.mem_of_getElem? a5)
  have hg0 := hcols g (List.mem_of_getElem? a3)
  cases d with
  | nil => exact absurd rfl hd0
  | cons d0 dr =>
  have hrp := hv.pos row (List.dropLast_subset _ (List.mem_of_getElem? hrow))
  have hgp : 0 < row.rho * row.vs ^ 2 := mul_pos hrp.2.2 (pow_pos hrp.1 2)
  unfold layCurve at a7
  have e1 : (List.map (fun x => x / 100) (d0 :: dr)).head? = some (d0 / 100) := rfl
  have e2 := List.getLast?_eq_some_getLast hg0
  have e3 := List.getLast?_eq_some_getLast (l := List.map (fun x => x / 100) (d0 :: dr)) (by simp)
  rw [e1, e2, e3] at a7
  simp only at a7
  have hcc := Except.ok.inj a7
  unfold layUpdate at hy1
  cases hi1 : npInterp c.g e with
  | error err => rw [hi1] at hy1; cases hy1
  | ok gy =>
  rw [hi1] at hy1
  cases hi2 : npInterp c.d e with
  | error err => simp only [bind, Except.bind, hi2] at hy1; cases hy1
  | ok dy =>
  simp only [bind, Except.bind, hi2, pure, Except.pure] at hy1
  have hyy := Except.ok.inj hy1
  refine ⟨m, g, d0 :: dr, d0, row.rho * row.vs ^ 2 * gy, dy, a1, a3, a5, rfl, by rw [hy2, ← hyy], ?_, ?_⟩
  · intro lo hi hb
    have hglast := hb _ (List.getLast_mem hg0)
    obtain ⟨b1, b2⟩ := npInterp_bounds (lo := min lo (1 / 10 ^ 4)) (hi := max hi 1) hi1 (by
      intro q hq
      rw [← hcc] at hq
      simp only [List.mem_cons, List.mem_append, List.not_mem_nil, or_false] at hq
      rcases hq with rfl | hq | rfl
      · exact ⟨le_trans (min_le_right _ _) (by norm_num), le_max_right _ _⟩
      · have := hb q.2 (List.of_mem_zip hq).2
        exact ⟨le_trans (min_le_left _ _) this.1, le_trans this.2 (le_max_left _ _)⟩
      · refine ⟨le_min (min_le_right _ _) (le_trans (min_le_left _ _) hglast.1), ?_⟩
        exact le_trans (min_le_left _ _) (le_trans (by norm_num) (le_max_right _ _)))
    exact ⟨mul_le_mul_of_nonneg_left b1 hgp.le, mul_le_mul_of_nonneg_left b2 hgp.le⟩
  · intro lo hi hb
    have h100 : (0 : K) < 100 := by norm_num
    have hsh : ∀ x, lo ≤ x ∧ x ≤ hi → row.xi + (lo - d0) / 100 ≤ x / 100 - d0 / 100 + row.xi ∧
        x / 100 - d0 / 100 + row.xi ≤ row.xi + (hi - d0) / 100 := by
      intro x hx
      have e1 : lo / 100 ≤ x / 100 := by gcongr; exact hx.1
      have e2 : x / 100 ≤ hi / 100 := by gcongr; exact hx.2
      rw [sub_div, sub_div]
      constructor <;> linarith
    apply npInterp_bounds hi2
    intro q hq
    rw [← hcc] at hq
    simp only [List.mem_cons, List.mem_append, List.not_mem_nil, or_false] at hq
    rcases hq with rfl | hq | rfl
    · exact hsh d0 (hb d0 (by simp))
    · have := (List.of_mem_zip hq).2
      rw [List.mem_map] at this
      obtain ⟨x, hx, hxe⟩ := this
      rw [List.mem_map] at hx
      obtain ⟨x', hx', rfl⟩ := hx
      rw [← hxe]
      exact hsh x' (hb x' hx')
    · have hm := List.getLast_mem (l := List.map (fun x => x / 100) (d0 :: dr)) (by simp)
      obtain ⟨x', hx', he⟩ := List.mem_map.mp hm
      show _ ≤ List.getLast _ _ - d0 / 100 + row.xi ∧ List.getLast _ _ - d0 / 100 + row.xi ≤ _
      rw [← he]
      exact hsh x' (hb x' hx')

/-- With degradation curves (values in (0, 1]) the modulus of every pass is positive and at most
`Gmax`; with a damping curve which starts at its smallest value the damping never falls below that of
the profile. -/
theorem C38_degradation {R : Type} {resp : RespFn K R} {prof : List (Row K)} {cols : List (List K)} {tol : K}
    {maxIter : Int} {verbose : Bool} {s : EqState K R} {r : R} (hv : Valid5 prof) (hresp : OneStrainPerLayer resp)
    (hn : checkLayerCount ((cols.length / 4 : Nat) : Int) (prof.map Row.mat) = .ok ()) (hcols : ∀ c ∈ cols, c ≠ [])
    (h : eqIterate resp prof cols tol maxIter verbose = .ok (s, r)) (v : List (K × K)) (hvh : v ∈ s.hist) (k : Nat)
    (row : Row K) (hrow : prof.dropLast[k]? = some row)
    (hdeg : ∀ (m : Nat) gcol, row.mat = (m : K) + 1 → cols[4 * m + 1]? = some gcol → ∀ x ∈ gcol, 0 < x ∧ x ≤ 1)
    (hdmp : ∀ (m : Nat) dcol d0, row.mat = (m : K) + 1 → cols[4 * m + 3]? = some dcol → dcol.head? = some d0 → ∀ x ∈ dcol, d0 ≤ x) :
    ∃ G D, v[k]? = some (G, D) ∧ 0 < G ∧ G ≤ row.rho * row.vs ^ 2 ∧ row.xi ≤ D := by
  obtain ⟨m, gcol, dcol, d0, G, D, h1, h2, h3, h4, h5, h6, h7⟩ := C38_bounds hv hresp hn hcols h v hvh k row hrow
  have hg := hdeg m gcol h1 h2
  have hd := hdmp m dcol d0 h1 h3 h4
  have hrp := hv.pos row (List.dropLast_subset _ (List.mem_of_getElem? hrow))
  have hgp : 0 < row.rho * row.vs ^ 2 := mul_pos hrp.2.2 (pow_pos hrp.1 2)
  have hgne := hcols gcol (List.mem_of_getElem? h2)
  -- a positive lower bound of the finitely many values
  have hlow : ∀ l : List K, (∀ x ∈ l, 0 < x ∧ x ≤ 1) → ∃ lo, 0 < lo ∧ ∀ x ∈ l, lo ≤ x := by
    intro l
    induction l with
    | nil => intro _; exact ⟨1, one_pos, by simp⟩
    | cons a l ih =>
      intro hh
      obtain ⟨lo, p1, p2⟩ := ih (fun x hx => hh x (by simp [hx]))
      refine ⟨min a lo, lt_min (hh a (by simp)).1 p1, ?_⟩
      intro x hx
      rcases List.mem_cons.mp hx with rfl | hx
      · exact min_le_left _ _
      · exact le_trans (min_le_right _ _) (p2 x hx)
  obtain ⟨lo, p1, p2⟩ := hlow gcol hg
  obtain ⟨b1, b2⟩ := h6 lo 1 (fun x hx => ⟨p2 x hx, (hg x hx).2⟩)
  refine ⟨G, D, h5, ?_, ?_, ?_⟩
  · exact lt_of_lt_of_le (mul_pos hgp (lt_min p1 (by norm_num))) b1
  · simpa using b2
  · have hup : ∀ l : List K, ∃ hi, ∀ x ∈ l, x ≤ hi := by
      intro l
      induction l with
      | nil => exact ⟨0, by simp⟩
      | cons a l ih =>
        obtain ⟨hi, p⟩ := ih
        refine ⟨max a hi, ?_⟩
        intro x hx
        rcases List.mem_cons.mp hx with rfl | hx
        · exact le_max_left _ _
        · exact le_trans (p x hx) (le_max_right _ _)
    obtain ⟨hi, p⟩ := hup dcol
    have := (h7 d0 hi (fun x hx => ⟨hd x hx, p x hx⟩)).1
    simpa using this

/-! ## C39 -/

/-- Thickness, velocity, density and material of all layers, and the last row altogether, are those
of the (re-discretised) input profile; the damping of the other layers is the one of the last pass.
Missing for the full property: unchanged damping, see `C39_profile_violated`. -/
theorem C39_profile_partial {R : Type} {resp : RespFn K R} {prof : List (Row K)} {cols : List (List K)} {tol : K}
    {maxIter : Int} {verbose : Bool} {s : EqState K R} {r : R} (hne : prof ≠ []) (hresp : OneStrainPerLayer resp)
    (h : eqIterate resp prof cols tol maxIter verbose = .ok (s, r)) :
    (s.prof.map fun x => (x.thk, x.vs, x.rho, x.mat)) = (prof.map fun x => (x.thk, x.vs, x.rho, x.mat)) ∧
    s.prof.getLast? = prof.getLast? ∧
    (s.prof.dropLast.map Row.xi) = ((s.hist.getLast?.getD []).map Prod.snd) ∧
    s.G.dropLast = ((s.hist.getLast?.getD []).map Prod.fst) := by
  obtain ⟨cs, hc, h0, _, h1, ls⟩ := eqIterate_inv hne hresp h
  have hlast := ls.last
  obtain ⟨n, hn⟩ : ∃ n, s.hist.length = n + 1 := ⟨s.hist.length - 1, by omega⟩
  rw [hn] at hlast
  have hgl : s.hist.getLast?.getD [] = s.curr := by
    rw [hlast, List.getLast?_eq_getElem?, hn]
    simp [before, List.getD_eq_getElem?_getD]
  have hl1 : s.G.dropLast.length = prof.length - 1 := by simp [ls.wf.G]
  have hl2 : (s.prof.dropLast.map Row.xi).length = prof.length - 1 := by simp [ls.wf.prof]
  refine ⟨ls.keep (fun x => (x.thk, x.vs, x.rho, x.mat)) (fun _ _ => rfl), ls.lastRow, ?_, ?_⟩
  · rw [hgl]; unfold EqState.curr; rw [zip_snd _ _ (by rw [hl1, hl2])]
  · rw [hgl]; unfold EqState.curr; rw [zip_fst _ _ (by rw [hl1, hl2])]

end

/-! ## Counterexamples

One soil layer over a half space; the response reports the moduli it was given and the effective
strain 1 %.  With the tolerance 10 the first pass has converged. -/

/-- A response with constant strain. -/
def exResp : RespFn ℚ (List ℚ) := fun h G _ _ => .ok (G, List.replicate (h.length - 1) (1 / 100))

/-- One soil layer over a half space. -/
def exProf : List (Row ℚ) := [⟨10, 100, 1 / 100, 2000, 1⟩, ⟨0, 500, 1 / 100, 2000, 0⟩]

/-- G/Gmax falls from 1 to 1/2 and damping grows from 1 % to 11 % between the strains 0.01 % and 2 %. -/
def exCols : List (List ℚ) := [[1 / 100, 2], [1, 1 / 2], [1 / 100, 2], [1, 11]]

theorem exResp_one : OneStrainPerLayer exResp := by
  intro h G D rho r hne h1 h2 h3 hr
  cases hr
  have := List.length_pos_iff.mpr hne
  simp only [List.length_replicate]; omega

theorem exProf_valid : Valid5 exProf := (checkVsFormat_five_ok exProf).mp (by decide +kernel)

/-- Number of passes, reported moduli and profile of the example. -/
def exRun (tol : ℚ) (maxIter : Int) (verbose : Bool) : Except PyErr (Nat × List ℚ × List (Row ℚ)) :=
  (eqIterate exResp exProf exCols tol maxIter verbose).map fun x => (x.1.hist.length, x.2, x.1.prof)

/-- `verbose` changes the result: the results of the run which prints stem from the initial moduli,
those of the silent run from the reduced ones. -/
theorem C36_verbose_violated :
    Valid5 exProf ∧ OneStrainPerLayer exResp ∧ checkLayerCount 1 (exProf.map Row.mat) = .ok () ∧
    ∃ (s s' : EqState ℚ (List ℚ)) (r r' : List ℚ), eqIterate exResp exProf exCols 10 5 true = .ok (s, r) ∧
      eqIterate exResp exProf exCols 10 5 false = .ok (s', r') ∧ r ≠ r' := by
  have key : (match eqIterate exResp exProf exCols 10 5 true, eqIterate exResp exProf exCols 10 5 false with
    | .ok (_, r), .ok (_, r') => decide (r ≠ r')
    | _, _ => false) = true := by decide +kernel
  refine ⟨exProf_valid, exResp_one, by decide +kernel, ?_⟩
  cases h1 : eqIterate exResp exProf exCols 10 5 true with
  | error e => rw [h1] at key; cases key
  | ok p =>
    cases h2 : eqIterate exResp exProf exCols 10 5 false with
    | error e => rw [h1, h2] at key; cases key
    | ok q =>
      rw [h1, h2] at key
      exact ⟨p.1, q.1, p.2, q.2, rfl, rfl, of_decide_eq_true key⟩

/-- With `verbose=False` the loop goes on although a pass changed nothing by more than the
tolerance. -/
theorem C37_stops_violated :
    ∃ (s : EqState ℚ (List ℚ)) (r : List ℚ), eqIterate exResp exProf exCols 10 5 false = .ok (s, r) ∧
      s.hist.length = 5 ∧ CloseTo 10 (before (initial exProf) s.hist 0) (before (initial exProf) s.hist 1) := by
  have key : (match eqIterate exResp exProf exCols 10 5 false with
    | .ok (s, _) => decide (s.hist.length = 5) && (match initial exProf, s.hist with
      | [o], [n] :: _ => decide ((n.1 ≠ 0 ∧ |o.1 - n.1| / n.1 < 10) ∧ (n.2 ≠ 0 ∧ |o.2 - n.2| / n.2 < 10))
      | _, _ => false)
    | _ => false) = true := by decide +kernel
  cases h2 : eqIterate exResp exProf exCols 10 5 false with
  | error e => rw [h2] at key; cases key
  | ok q =>
    rw [h2] at key
    obtain ⟨s, r⟩ := q
    simp only [Bool.and_eq_true, decide_eq_true_eq] at key
    refine ⟨s, r, rfl, key.1, ?_⟩
    have k2 := key.2
    match hi : initial exProf, hh : s.hist, k2 with
    | [o], [n] :: t, k2 =>
      simp only [decide_eq_true_eq] at k2
      intro k o' n' ho hn
      match k with
      | 0 =>
        simp [before] at ho hn
        subst ho; subst hn
        exact k2
      | k + 1 => simp [before] at ho
    | [], _, k2 => simp at k2
    | _ :: _ :: _, _, k2 => simp at k2
    | [_], [], k2 => simp at k2
    | [_], [] :: _, k2 => simp at k2
    | [_], (_ :: _ :: _) :: _, k2 => simp at k2

/-- The reported profile does not carry the damping of the input. -/
theorem C39_profile_violated :
    ∃ (s : EqState ℚ (List ℚ)) (r : List ℚ), eqIterate exResp exProf exCols (75 / 1000) 10 true = .ok (s, r) ∧
      s.prof.map Row.xi ≠ exProf.map Row.xi := by
  have key : (match eqIterate exResp exProf exCols (75 / 1000) 10 true with
    | .ok (s, _) => decide (s.prof.map Row.xi ≠ exProf.map Row.xi)
    | _ => false) = true := by decide +kernel
  cases h2 : eqIterate exResp exProf exCols (75 / 1000) 10 true with
  | error e => rw [h2] at key; cases key
  | ok q => rw [h2] at key; exact ⟨q.1, q.2, rfl, of_decide_eq_true key⟩

/-! Concrete cases of C37 (two passes suffice here), C38 and C60. -/

example : (exRun (75 / 1000) 10 true).map Prod.fst = .ok 2 := by decide +kernel

example : (exRun (75 / 1000) 10 false).map Prod.fst = .ok 10 := by decide +kernel

example : (eqIterate exResp exProf exCols (75 / 1000) 10 true).map (fun x => x.1.G.map fun g => decide (g < 2000 * 100 ^ 2))
    = .ok [true, false] := by decide +kernel

example : checkLayerCount 1 ([1, 2, 0] : List ℚ) = .error .valueError := by decide +kernel

example : ∃ cs, layCurves exCols exProf = .ok cs ∧ cs.length = exProf.length - 1 := by
  obtain ⟨cs, h1, h2, _⟩ := C60_no_missing (cols := exCols) exProf_valid (by decide +kernel) (by decide +kernel)
  exact ⟨cs, h1, h2⟩

end Verif
