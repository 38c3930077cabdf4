import Verif.Props.EquivLinear

/-!
C36, exactly: when a silent run of the iteration agrees with one that prints.
-/

set_option linter.unusedSectionVars false
set_option linter.unusedVariables false

namespace Verif

open Spec (OneStrainPerLayer)

section
variable {K : Type} [Field K] [LinearOrder K] [IsStrictOrderedRing K] [FloorRing K]

theorem eqStep_hist {R : Type} {resp : RespFn K R} {gmax : List K} {cs : List (LayCurve K)} {tol : K} {s s' : EqState K R}
    {c : Bool} (hst : eqStep resp gmax cs tol s = .ok (s', c)) : ∃ x, s'.hist = s.hist ++ [x] := by
  unfold eqStep at hst
  cases hr : resp (s.prof.map Row.thk) s.G (s.prof.map Row.xi) (s.prof.map Row.rho) with
  | error e => rw [hr] at hst; cases hst
  | ok r =>
    rw [hr] at hst
    cases hn : eqUpdate gmax.dropLast cs r.2 with
    | error e => simp only [bind, Except.bind, hn] at hst; cases hst
    | ok new =>
      simp only [bind, Except.bind, hn] at hst
      by_cases hnil : new = []
      · rw [if_pos hnil] at hst; cases hst
      · rw [if_neg hnil] at hst
        obtain ⟨e1, _⟩ := Prod.mk.inj (Except.ok.inj hst)
        rw [← e1]; exact ⟨new, rfl⟩

theorem eqLoop_hist {R : Type} {resp : RespFn K R} {gmax : List K} {cs : List (LayCurve K)} {tol : K} {v : Bool} {n : Nat}
    {s s' : EqState K R} (h : eqLoop resp gmax cs tol v n s = .ok s') : s.hist <+: s'.hist := by
  induction n generalizing s with
  | zero => cases h; exact List.prefix_rfl
  | succ n ih =>
    rw [eqLoop] at h
    cases hst : eqStep resp gmax cs tol s with
    | error e => rw [hst] at h; cases h
    | ok p =>
      obtain ⟨s1, c⟩ := p
      rw [hst] at h
      simp only at h
      obtain ⟨x, hx⟩ := eqStep_hist hst
      have h0 : s.hist <+: s1.hist := by rw [hx]; exact List.prefix_append _ _
      by_cases cv : (c && v) = true
      · rw [if_pos cv] at h; cases h; exact h0
      · rw [if_neg cv] at h; exact h0.trans (ih h)

theorem eqLoop_prefix {R : Type} {resp : RespFn K R} {gmax : List K} {cs : List (LayCurve K)} {tol : K} {n : Nat}
    {s s1 s2 : EqState K R} (h1 : eqLoop resp gmax cs tol true n s = .ok s1)
    (h2 : eqLoop resp gmax cs tol false n s = .ok s2) : s1.hist <+: s2.hist := by
  induction n generalizing s with
  | zero => cases h1; cases h2; exact List.prefix_rfl
  | succ n ih =>
    rw [eqLoop] at h1 h2
    cases hst : eqStep resp gmax cs tol s with
    | error e => rw [hst] at h1; cases h1
    | ok p =>
      obtain ⟨s', c⟩ := p
      rw [hst] at h1 h2
      simp only at h1 h2
      rw [if_neg (by simp)] at h2
      by_cases cv : (c && true) = true
      · rw [if_pos cv] at h1; cases h1; exact eqLoop_hist h2
      · rw [if_neg cv] at h1; exact ih h1 h2

theorem eqIterate_loop {R : Type} {resp : RespFn K R} {prof : List (Row K)} {cols : List (List K)} {tol : K}
    {maxIter : Int} {v : Bool} {s : EqState K R} {r : R} (h : eqIterate resp prof cols tol maxIter v = .ok (s, r)) :
    ∃ cs, layCurves cols prof = .ok cs ∧
      eqLoop resp (prof.map fun r => r.rho * r.vs ^ 2) cs tol v maxIter.toNat
        ⟨prof, prof.map fun r => r.rho * r.vs ^ 2, none, []⟩ = .ok s := by
  unfold eqIterate at h
  cases hc : layCurves cols prof with
  | error e => simp only [bind, Except.bind, hc] at h; cases h
  | ok cs =>
    refine ⟨cs, rfl, ?_⟩
    cases hm : checkMaxIter maxIter with
    | error e => simp only [bind, Except.bind, hc, hm] at h; cases h
    | ok u =>
      cases hl : eqLoop resp (prof.map fun r => r.rho * r.vs ^ 2) cs tol v maxIter.toNat
          ⟨prof, prof.map fun r => r.rho * r.vs ^ 2, none, []⟩ with
      | error e => simp only [bind, Except.bind, hc, hm, hl] at h; cases h
      | ok s' =>
        simp only [bind, Except.bind, hc, hm, hl] at h
        cases hres : s'.res with
        | none => simp only [hres] at h; cases h
        | some r' =>
          simp only [hres] at h
          obtain ⟨e1, _⟩ := Prod.mk.inj (Except.ok.inj h)
          rw [e1]

/-- C36 fails for every run that converges early: with `verbose=False` the same passes are made first,
and then further ones up to `max_iter`, each with its own moduli and damping. -/
theorem C36_early_violated {R : Type} {resp : RespFn K R} {prof : List (Row K)} {cols : List (List K)} {tol : K}
    {maxIter : Int} (hne : prof ≠ []) (hresp : OneStrainPerLayer resp) {s s' : EqState K R} {r r' : R}
    (h : eqIterate resp prof cols tol maxIter true = .ok (s, r))
    (h' : eqIterate resp prof cols tol maxIter false = .ok (s', r')) (hlt : (s.hist.length : Int) < maxIter) :
    s.hist <+: s'.hist ∧ s.hist.length < s'.hist.length ∧ (s'.hist.length : Int) = maxIter := by
  have hq := C37_quiet_partial hne hresp h'
  obtain ⟨cs, hc, hl⟩ := eqIterate_loop h
  obtain ⟨cs', hc', hl'⟩ := eqIterate_loop h'
  rw [hc] at hc'
  cases hc'
  exact ⟨eqLoop_prefix hl hl', by omega, hq⟩

/-- C36, exactly: a run that prints and one that does not have the same outcome (history of moduli and
damping included) if and only if the run that prints makes all `max_iter` passes. -/
theorem C36_exact {R : Type} {resp : RespFn K R} {prof : List (Row K)} {cols : List (List K)} {tol : K}
    {maxIter : Int} (hne : prof ≠ []) (hresp : OneStrainPerLayer resp) {s : EqState K R} {r : R}
    (h : eqIterate resp prof cols tol maxIter true = .ok (s, r)) :
    eqIterate resp prof cols tol maxIter false = .ok (s, r) ↔ (s.hist.length : Int) = maxIter :=
  ⟨fun h' => C37_quiet_partial hne hresp h', (C36_verbose_partial hne hresp).1 s r h⟩

/-- C37, exactly: a silent run makes the passes the documentation asks for (it stops with the first pass
that changes everything by less than `tol`) if and only if the run that prints does not stop early. -/
theorem C37_exact {R : Type} {resp : RespFn K R} {prof : List (Row K)} {cols : List (List K)} {tol : K}
    {maxIter : Int} (hne : prof ≠ []) (hresp : OneStrainPerLayer resp) {s s' : EqState K R} {r r' : R}
    (h : eqIterate resp prof cols tol maxIter true = .ok (s, r))
    (h' : eqIterate resp prof cols tol maxIter false = .ok (s', r')) :
    s'.hist.length = s.hist.length ↔ (s.hist.length : Int) = maxIter := by
  have := C37_quiet_partial hne hresp h'
  omega

end

end Verif
