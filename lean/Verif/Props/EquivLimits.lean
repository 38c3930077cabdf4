import Verif.Props.EquivExact

/-!
C201: how the limit on the iterations and the tolerance influence the equivalent-linear iteration.
-/

set_option linter.unusedSectionVars false
set_option linter.unusedVariables false

namespace Verif

section
variable {K : Type} [Field K] [LinearOrder K] [IsStrictOrderedRing K] [FloorRing K]

theorem eqStep_inv {R : Type} {resp : RespFn K R} {gmax : List K} {cs : List (LayCurve K)} {tol : K} {s s' : EqState K R} {c : Bool}
    (h : eqStep resp gmax cs tol s = .ok (s', c)) :
    ∃ r new, resp (s.prof.map Row.thk) s.G (s.prof.map Row.xi) (s.prof.map Row.rho) = .ok r ∧ eqUpdate gmax.dropLast cs r.2 = .ok new ∧ new ≠ [] ∧
      s' = ⟨setDamping s.prof (new.map Prod.snd), setModulus s.G (new.map Prod.fst), some r.1, s.hist ++ [new]⟩ ∧
      c = (maxRelDiffLt tol s.G.dropLast (new.map Prod.fst) && maxRelDiffLt tol (s.prof.dropLast.map Row.xi) (new.map Prod.snd)) := by
  unfold eqStep at h
  cases hr : resp (s.prof.map Row.thk) s.G (s.prof.map Row.xi) (s.prof.map Row.rho) with
  | error e => rw [hr] at h; cases h
  | ok r =>
    rw [hr] at h
    cases hn : eqUpdate gmax.dropLast cs r.2 with
    | error e => simp only [bind, Except.bind, hn] at h; cases h
    | ok new =>
      simp only [bind, Except.bind, hn] at h
      by_cases hnil : new = []
      · rw [if_pos hnil] at h; cases h
      · rw [if_neg hnil] at h
        obtain ⟨e1, e2⟩ := Prod.mk.inj (Except.ok.inj h)
        exact ⟨r, new, rfl, hn, hnil, e1.symm, e2.symm⟩

theorem eqStep_of {R : Type} {resp : RespFn K R} {gmax : List K} {cs : List (LayCurve K)} (tol : K) {s : EqState K R} {r : R × List K} {new : List (K × K)}
    (hr : resp (s.prof.map Row.thk) s.G (s.prof.map Row.xi) (s.prof.map Row.rho) = .ok r) (hn : eqUpdate gmax.dropLast cs r.2 = .ok new) (h0 : new ≠ []) :
    eqStep resp gmax cs tol s = .ok (⟨setDamping s.prof (new.map Prod.snd), setModulus s.G (new.map Prod.fst), some r.1, s.hist ++ [new]⟩,
      maxRelDiffLt tol s.G.dropLast (new.map Prod.fst) && maxRelDiffLt tol (s.prof.dropLast.map Row.xi) (new.map Prod.snd)) := by
  unfold eqStep
  simp only [bind, Except.bind, hr, hn]
  rw [if_neg h0]

theorem setDamping_twice (p : List (Row K)) (d : List K) : setDamping (setDamping p d) d = setDamping p d := by
  unfold setDamping
  cases hp : p.getLast? with
  | none =>
    rw [List.getLast?_eq_none_iff] at hp
    subst hp; simp
  | some q =>
    simp only [Option.toList_some, List.dropLast_concat, List.getLast?_concat]
    congr 1
    generalize p.dropLast = l
    induction l generalizing d with
    | nil => simp
    | cons a l ih =>
      cases d with
      | nil => simp
      | cons x d => simp [ih]

theorem setModulus_twice (G g : List K) (hG : G ≠ []) : setModulus (setModulus G g) g = setModulus G g := by
  unfold setModulus
  rw [List.getLast?_eq_some_getLast hG]
  simp

theorem setModulus_ne (G g : List K) (hG : G ≠ []) : setModulus G g ≠ [] := by
  unfold setModulus
  rw [List.getLast?_eq_some_getLast hG]
  simp

theorem eqLoop_split {R : Type} {resp : RespFn K R} {gmax : List K} {cs : List (LayCurve K)} {tol : K} : ∀ (a b : Nat) (s : EqState K R),
    eqLoop resp gmax cs tol false (a + b) s = (eqLoop resp gmax cs tol false a s).bind (eqLoop resp gmax cs tol false b)
  | 0, b, s => by simp [eqLoop, Except.bind]
  | a + 1, b, s => by
    rw [show a + 1 + b = (a + b) + 1 by omega, eqLoop, eqLoop]
    cases hst : eqStep resp gmax cs tol s with
    | error e => rfl
    | ok p =>
      simp only [Bool.and_false]
      exact eqLoop_split a b p.1

theorem eqLoop_quiet {R : Type} {resp : RespFn K R} {gmax : List K} {cs : List (LayCurve K)} {tol : K} : ∀ (n : Nat) (s s' : EqState K R),
    eqLoop resp gmax cs tol false n s = .ok s' → s'.hist.length = s.hist.length + n ∧ s.hist <+: s'.hist ∧ (s.G ≠ [] → s'.G ≠ []) ∧ (0 < n → s'.res.isSome)
  | 0, s, s', h => by cases h; exact ⟨rfl, List.prefix_rfl, id, fun h => absurd h (by simp)⟩
  | n + 1, s, s', h => by
    rw [eqLoop] at h
    cases hst : eqStep resp gmax cs tol s with
    | error e => rw [hst] at h; cases h
    | ok p =>
      obtain ⟨s1, c⟩ := p
      rw [hst] at h
      simp only [Bool.and_false, Bool.false_eq_true, if_false] at h
      obtain ⟨r, new, -, -, -, e, -⟩ := eqStep_inv hst
      obtain ⟨h1, h2, h3, h4⟩ := eqLoop_quiet n s1 s' h
      have e1 : s1.hist = s.hist ++ [new] := by rw [e]
      have e2 : s1.G = setModulus s.G (new.map Prod.fst) := by rw [e]
      refine ⟨by rw [h1, e1]; simp; omega, ?_, fun hG => h3 (by rw [e2]; exact setModulus_ne _ _ hG), fun _ => ?_⟩
      · exact List.IsPrefix.trans (by rw [e1]; exact List.prefix_append _ _) h2
      · rcases Nat.eq_zero_or_pos n with rfl | hn
        · cases h; rw [e]; rfl
        · exact h4 hn

theorem eqIterate_of {R : Type} {resp : RespFn K R} {prof : List (Row K)} {cols : List (List K)} {tol : K} {m : Int} {v : Bool} {cs : List (LayCurve K)}
    {s : EqState K R} {r : R} (hm : 0 < m) (hc : layCurves cols prof = .ok cs)
    (hl : eqLoop resp (prof.map fun r => r.rho * r.vs ^ 2) cs tol v m.toNat ⟨prof, prof.map fun r => r.rho * r.vs ^ 2, none, []⟩ = .ok s)
    (hr : s.res = some r) : eqIterate resp prof cols tol m v = .ok (s, r) := by
  unfold eqIterate
  have : checkMaxIter m = .ok () := by
    unfold checkMaxIter
    rw [if_neg (by omega), if_neg (by omega)]
  simp only [bind, Except.bind, hc, this, hl, hr]

theorem eqIterate_parts {R : Type} {resp : RespFn K R} {prof : List (Row K)} {cols : List (List K)} {tol : K} {m : Int} {v : Bool} {s : EqState K R} {r : R}
    (h : eqIterate resp prof cols tol m v = .ok (s, r)) : s.res = some r := by
  unfold eqIterate at h
  simp only [bind, Except.bind] at h
  split at h
  · cases h
  · split at h
    · cases h
    · split at h
      · cases h
      · split at h
        · cases h
        · rename_i h1
          obtain ⟨e1, e2⟩ := Prod.mk.inj (Except.ok.inj h)
          rw [← e1, ← e2]; exact h1

/-- C201. Without messages: a run with a smaller limit succeeds if one with a larger limit does, and its moduli and damping ratios are the
first ones of the longer run. -/
theorem C201_shorter {R : Type} {resp : RespFn K R} {prof : List (Row K)} {cols : List (List K)} {tol : K} {n m : Int} {s : EqState K R} {r : R}
    (h : eqIterate resp prof cols tol n false = .ok (s, r)) (hm : 0 < m) (hmn : m ≤ n) :
    ∃ s' r', eqIterate resp prof cols tol m false = .ok (s', r') ∧ s'.hist = s.hist.take m.toNat ∧ (s'.hist.length : Int) = m := by
  obtain ⟨cs, hc, hl⟩ := eqIterate_loop h
  have hsum : n.toNat = m.toNat + (n.toNat - m.toNat) := by omega
  rw [hsum, eqLoop_split] at hl
  cases hl1 : eqLoop resp (prof.map fun r => r.rho * r.vs ^ 2) cs tol false m.toNat ⟨prof, prof.map fun r => r.rho * r.vs ^ 2, none, []⟩ with
  | error e => rw [hl1] at hl; cases hl
  | ok s1 =>
    rw [hl1] at hl
    obtain ⟨l1, -, -, l4⟩ := eqLoop_quiet _ _ _ hl1
    obtain ⟨-, p2, -, -⟩ := eqLoop_quiet _ _ _ hl
    obtain ⟨r', hr'⟩ := Option.isSome_iff_exists.1 (l4 (by omega))
    simp only [List.length_nil, zero_add] at l1
    refine ⟨s1, r', eqIterate_of hm hc hl1 hr', ?_, by omega⟩
    rw [List.prefix_iff_eq_take.1 p2, l1]

theorem eqLoop_fixed_lim {R : Type} {resp : RespFn K R} {gmax : List K} {cs : List (LayCurve K)} {tol : K} {r : R × List K} {new : List (K × K)}
    {p : List (Row K)} {G : List K} (hr : resp (p.map Row.thk) G (p.map Row.xi) (p.map Row.rho) = .ok r) (hn : eqUpdate gmax.dropLast cs r.2 = .ok new)
    (h0 : new ≠ []) (hp : setDamping p (new.map Prod.snd) = p) (hG : setModulus G (new.map Prod.fst) = G) :
    ∀ (k : Nat) (res : Option R) (H : List (List (K × K))), 0 < k →
      eqLoop resp gmax cs tol false k ⟨p, G, res, H⟩ = .ok ⟨p, G, some r.1, H ++ List.replicate k new⟩
  | 0, res, H, hk => absurd hk (by simp)
  | k + 1, res, H, _ => by
    rw [eqLoop, eqStep_of tol (s := ⟨p, G, res, H⟩) hr hn h0]
    simp only [Bool.and_false, Bool.false_eq_true, if_false, hp, hG]
    rcases Nat.eq_zero_or_pos k with rfl | hk
    · simp [eqLoop]
    · rw [eqLoop_fixed_lim hr hn h0 hp hG k _ _ hk, List.append_assoc]
      congr 2

/-- C201. Without messages: once a pass returns the same moduli and damping ratios as the pass before, all later passes do, and every run with a
limit reaching that pass has the same response and the same profile. -/
theorem C201_settled {R : Type} {resp : RespFn K R} {prof : List (Row K)} {cols : List (List K)} {tol : K} {n m : Int} {s : EqState K R} {r : R}
    (hne : prof ≠ []) (h : eqIterate resp prof cols tol n false = .ok (s, r)) {i : Nat} {a : List (K × K)} (h1 : s.hist[i]? = some a)
    (h2 : s.hist[i + 1]? = some a) (hm : (i : Int) + 2 ≤ m) :
    ∃ s', eqIterate resp prof cols tol m false = .ok (s', r) ∧ s'.prof = s.prof ∧ s'.G = s.G ∧
      s'.hist = s.hist.take (i + 2) ++ List.replicate (m.toNat - (i + 2)) a := by
  obtain ⟨cs, hc, hl⟩ := eqIterate_loop h
  have hres := eqIterate_parts h
  have hlen := (eqLoop_quiet _ _ _ hl).1
  simp only [List.length_nil, zero_add] at hlen
  have hi : i + 1 < s.hist.length := (List.getElem?_eq_some_iff.1 h2).1
  obtain ⟨q, hq⟩ : ∃ q, n.toNat = i + (1 + (q + 1)) := ⟨n.toNat - (i + 2), by omega⟩
  have hl' := hl
  rw [hq, eqLoop_split] at hl'
  set gmax := prof.map fun r => r.rho * r.vs ^ 2 with hgm
  cases hl1 : eqLoop resp gmax cs tol false i ⟨prof, gmax, none, []⟩ with
  | error e => rw [hl1] at hl'; cases hl'
  | ok s1 =>
    rw [hl1] at hl'
    simp only [Except.bind] at hl'
    rw [eqLoop_split] at hl'
    obtain ⟨b1, b2, b3, -⟩ := eqLoop_quiet _ _ _ hl1
    simp only [List.length_nil, zero_add] at b1
    have hG1 : s1.G ≠ [] := b3 (by simp [hgm, hne])
    cases hst : eqStep resp gmax cs tol s1 with
    | error e => rw [eqLoop, hst] at hl'; cases hl'
    | ok p2 =>
      obtain ⟨s2, c2⟩ := p2
      have hone : eqLoop resp gmax cs tol false 1 s1 = .ok s2 := by
        rw [eqLoop, hst]; simp [eqLoop]
      rw [hone] at hl'
      simp only [Except.bind] at hl'
      obtain ⟨r1, new1, -, -, -, e2, -⟩ := eqStep_inv hst
      have hs2 := hl'
      rw [eqLoop] at hl'
      cases hst2 : eqStep resp gmax cs tol s2 with
      | error e => rw [hst2] at hl'; cases hl'
      | ok p3 =>
        obtain ⟨s3, c3⟩ := p3
        rw [hst2] at hl'
        simp only [Bool.and_false, Bool.false_eq_true, if_false] at hl'
        obtain ⟨r2, new2, hr2, hn2, hz2, e3, -⟩ := eqStep_inv hst2
        have pre := (eqLoop_quiet _ _ _ hl').2.1
        have hh2 : s2.hist = s1.hist ++ [new1] := by rw [e2]
        have hh3 : s3.hist = s1.hist ++ [new1, new2] := by rw [e3]; simp [hh2]
        rw [hh3] at pre
        obtain ⟨tail, htail⟩ := pre
        have x1 : s.hist[i]? = some new1 := by
          rw [← htail, List.append_assoc, List.getElem?_append_right (by omega)]; simp [b1]
        have x2 : s.hist[i + 1]? = some new2 := by
          rw [← htail, List.append_assoc, List.getElem?_append_right (by omega)]; simp [b1]
        have n1 : new1 = a := by rw [x1] at h1; exact Option.some.inj h1
        have n2 : new2 = a := by rw [x2] at h2; exact Option.some.inj h2
        subst n1
        subst n2
        have hp2 : setDamping s2.prof (new2.map Prod.snd) = s2.prof := by rw [e2]; exact setDamping_twice _ _
        have hG2 : setModulus s2.G (new2.map Prod.fst) = s2.G := by rw [e2]; exact setModulus_twice _ _ hG1
        have fixed := eqLoop_fixed_lim (tol := tol) hr2 hn2 hz2 hp2 hG2
        have hs2e : s2 = ⟨s2.prof, s2.G, s2.res, s2.hist⟩ := rfl
        have final : s = ⟨s2.prof, s2.G, some r2.1, s2.hist ++ List.replicate (q + 1) new2⟩ := by
          have := fixed (q + 1) s2.res s2.hist (by omega)
          exact Except.ok.inj (hs2.symm.trans this)
        have hr : r = r2.1 := by
          rw [final] at hres; exact (Option.some.inj hres).symm
        obtain ⟨k, hk⟩ : ∃ k, m.toNat = i + (1 + (k + 1)) := ⟨m.toNat - (i + 2), by omega⟩
        refine ⟨⟨s2.prof, s2.G, some r2.1, s2.hist ++ List.replicate (k + 1) new2⟩, ?_, by rw [final], by rw [final], ?_⟩
        · refine eqIterate_of (by omega) hc ?_ (by rw [hr])
          rw [hk, eqLoop_split, ← hgm, hl1]
          simp only [Except.bind]
          rw [eqLoop_split, hone]
          simp only [Except.bind]
          exact fixed (k + 1) s2.res s2.hist (by omega)
        · have e4 : m.toNat - (i + 2) = k := by omega
          rw [e4, final, hh2]
          simp only [List.append_assoc, List.replicate_succ]
          rw [List.take_append, List.take_of_length_le (by omega)]
          have : i + 2 - s1.hist.length = 2 := by omega
          rw [this]
          simp

/-- C201. With messages: if a run stops before its limit, the outcome is the same for every limit not below the number of passes it made. -/
theorem C201_limit {R : Type} {resp : RespFn K R} {prof : List (Row K)} {cols : List (List K)} {tol : K} {n m : Int} {s : EqState K R} {r : R}
    (h : eqIterate resp prof cols tol n true = .ok (s, r)) (hlt : (s.hist.length : Int) < n) (hm : (s.hist.length : Int) ≤ m) :
    eqIterate resp prof cols tol m true = .ok (s, r) := by
  obtain ⟨cs, hc, hl⟩ := eqIterate_loop h
  have hres := eqIterate_parts h
  have key : ∀ (n m : Nat) (s0 s' : EqState K R), eqLoop resp (prof.map fun r => r.rho * r.vs ^ 2) cs tol true n s0 = .ok s' →
      s'.hist.length < s0.hist.length + n → s'.hist.length ≤ s0.hist.length + m →
      s0.hist.length < s'.hist.length ∧ eqLoop resp (prof.map fun r => r.rho * r.vs ^ 2) cs tol true m s0 = .ok s' := by
    intro n
    induction n with
    | zero =>
      intro m s0 s' h0 h1 h2
      cases h0
      simp at h1
    | succ n ih =>
      intro m s0 s' h0 h1 h2
      rw [eqLoop] at h0
      cases hst : eqStep resp (prof.map fun r => r.rho * r.vs ^ 2) cs tol s0 with
      | error e => rw [hst] at h0; cases h0
      | ok p =>
        obtain ⟨s1, c⟩ := p
        rw [hst] at h0
        simp only at h0
        obtain ⟨x, hx⟩ := eqStep_hist hst
        have l1 : s1.hist.length = s0.hist.length + 1 := by rw [hx]; simp
        by_cases cv : (c && true) = true
        · rw [if_pos cv] at h0
          cases h0
          refine ⟨by omega, ?_⟩
          obtain ⟨m', rfl⟩ : ∃ m', m = m' + 1 := ⟨m - 1, by omega⟩
          rw [eqLoop, hst]
          simp only
          rw [if_pos cv]
        · rw [if_neg cv] at h0
          have hle := (eqLoop_hist h0).length_le
          obtain ⟨m', rfl⟩ : ∃ m', m = m' + 1 := ⟨m - 1, by omega⟩
          obtain ⟨_, e⟩ := ih m' s1 s' h0 (by omega) (by omega)
          refine ⟨by omega, ?_⟩
          rw [eqLoop, hst]
          simp only
          rw [if_neg cv]; exact e
  obtain ⟨hpos, e⟩ := key n.toNat m.toNat _ s hl (by simp; omega) (by simp; omega)
  simp only [List.length_nil] at hpos
  exact eqIterate_of (by omega) hc e hres

theorem maxRelDiffLt_mono {tol tol' : K} (h : tol ≤ tol') {a b : List K} (h1 : maxRelDiffLt tol a b = true) : maxRelDiffLt tol' a b = true := by
  unfold maxRelDiffLt at h1 ⊢
  rw [List.all_eq_true] at h1 ⊢
  intro x hx
  have := h1 x hx
  rw [decide_eq_true_iff] at this ⊢
  exact ⟨this.1, this.2.trans_le h⟩

/-- C201. A larger tolerance never makes a run fail nor make more passes; the passes made are the first ones of the run with the smaller tolerance. -/
theorem C201_tolerance {R : Type} {resp : RespFn K R} {prof : List (Row K)} {cols : List (List K)} {tol tol' : K} (ht : tol ≤ tol') {n : Int} {v : Bool}
    {s : EqState K R} {r : R} (h : eqIterate resp prof cols tol n v = .ok (s, r)) :
    ∃ s' r', eqIterate resp prof cols tol' n v = .ok (s', r') ∧ s'.hist <+: s.hist := by
  obtain ⟨cs, hc, hl⟩ := eqIterate_loop h
  have hres := eqIterate_parts h
  have key : ∀ (n : Nat) (s0 s1 : EqState K R), eqLoop resp (prof.map fun r => r.rho * r.vs ^ 2) cs tol v n s0 = .ok s1 →
      ∃ s', eqLoop resp (prof.map fun r => r.rho * r.vs ^ 2) cs tol' v n s0 = .ok s' ∧ s'.hist <+: s1.hist ∧ (0 < n → s'.res.isSome) := by
    intro n
    induction n with
    | zero => intro s0 s1 h0; cases h0; exact ⟨s0, rfl, List.prefix_rfl, fun h => absurd h (by simp)⟩
    | succ n ih =>
      intro s0 s1 h0
      rw [eqLoop] at h0
      cases hst : eqStep resp (prof.map fun r => r.rho * r.vs ^ 2) cs tol s0 with
      | error e => rw [hst] at h0; cases h0
      | ok p =>
        obtain ⟨s2, c⟩ := p
        rw [hst] at h0
        simp only at h0
        obtain ⟨r1, new, hr1, hn1, hz, e, ec⟩ := eqStep_inv hst
        have hst' := eqStep_of tol' hr1 hn1 hz
        rw [← e] at hst'
        set c' := (maxRelDiffLt tol' s0.G.dropLast (new.map Prod.fst) && maxRelDiffLt tol' (s0.prof.dropLast.map Row.xi) (new.map Prod.snd)) with hc'
        have hcc : c = true → c' = true := by
          intro hcT
          rw [ec, Bool.and_eq_true] at hcT
          rw [hc', Bool.and_eq_true]
          exact ⟨maxRelDiffLt_mono ht hcT.1, maxRelDiffLt_mono ht hcT.2⟩
        have hs2 : s2.res.isSome := by rw [e]; rfl
        rw [eqLoop, hst']
        simp only
        by_cases cv : (c && v) = true
        · rw [if_pos cv] at h0
          cases h0
          rw [Bool.and_eq_true] at cv
          have cv' : (c' && v) = true := by rw [Bool.and_eq_true]; exact ⟨hcc cv.1, cv.2⟩
          exact ⟨_, if_pos cv', List.prefix_rfl, fun _ => hs2⟩
        · rw [if_neg cv] at h0
          by_cases cv' : (c' && v) = true
          · exact ⟨s2, if_pos cv', eqLoop_hist h0, fun _ => hs2⟩
          · obtain ⟨s', a1, a2, a3⟩ := ih s2 s1 h0
            rw [if_neg cv']
            refine ⟨s', a1, a2, fun _ => ?_⟩
            rcases Nat.eq_zero_or_pos n with rfl | hn
            · have := Except.ok.inj a1; rw [← this]; exact hs2
            · exact a3 hn
  obtain ⟨s', a1, a2, a3⟩ := key n.toNat _ s hl
  have hn : 0 < n := by
    by_contra h0
    have : n.toNat = 0 := by omega
    rw [this] at hl
    cases hl
    cases hres
  obtain ⟨r', hr'⟩ := Option.isSome_iff_exists.1 (a3 (by omega))
  exact ⟨s', r', eqIterate_of hn hc a1 hr', a2⟩

/-- A silent run of the example: the second pass repeats the first, and longer runs end with the same response. -/
example : ((eqIterate exResp exProf exCols 10 4 false).map fun x => (decide (x.1.hist[0]? = x.1.hist[1]?), x.1.hist.length)) = .ok (true, 4) ∧
    ((exRun 10 2 false).map fun x => x.2) = (exRun 10 7 false).map fun x => x.2 := by
  constructor <;> decide +kernel

/-- A run that prints stops after its first pass if the tolerance is large and after the second if it is small. -/
example : ((exRun 10 5 true).map fun x => x.1) = .ok 1 ∧ ((exRun (1 / 1000) 5 true).map fun x => x.1) = .ok 2 ∧ exRun (1 / 1000) 5 true = exRun (1 / 1000) 9 true := by
  refine ⟨?_, ?_, ?_⟩ <;> decide +kernel

end

end Verif
