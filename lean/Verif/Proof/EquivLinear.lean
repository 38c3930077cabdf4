import Verif.Model.EquivLinear
import Verif.Spec.EquivLinear
import Verif.Spec.VsProfile
import Verif.Proof.Amplify

/-! Lemmas about the equivalent-linear iteration. -/

set_option linter.unusedSectionVars false
set_option linter.unusedVariables false

namespace Verif

open Spec (CloseTo before Valid5)

variable {K : Type} [Field K] [LinearOrder K] [IsStrictOrderedRing K]

/-! ## Interpolation stays within the data -/

theorem interpFrom_bounds (x lo hi : K) : ∀ (p : K × K) (rest : List (K × K)),
    (∀ q ∈ p :: rest, lo ≤ q.2 ∧ q.2 ≤ hi) → lo ≤ interpFrom x p rest ∧ interpFrom x p rest ≤ hi := by
  intro p rest
  induction rest generalizing p with
  | nil => intro h; exact h p (by simp)
  | cons q rest ih =>
    intro h
    rw [interpFrom]
    by_cases c : x < q.1
    · rw [if_pos c]
      by_cases c2 : x ≤ p.1
      · rw [if_pos c2]; exact h p (by simp)
      · rw [if_neg c2]
        have hp := h p (by simp)
        have hq := h q (by simp)
        push Not at c2
        have hd : 0 < q.1 - p.1 := by linarith
        have h0 : 0 ≤ (x - p.1) / (q.1 - p.1) := div_nonneg (by linarith) hd.le
        have h1 : (x - p.1) / (q.1 - p.1) ≤ 1 := by rw [div_le_one hd]; linarith
        have e : p.2 + (q.2 - p.2) / (q.1 - p.1) * (x - p.1)
            = p.2 * (1 - (x - p.1) / (q.1 - p.1)) + q.2 * ((x - p.1) / (q.1 - p.1)) := by
          field_simp; ring
        rw [e]
        generalize (x - p.1) / (q.1 - p.1) = w at *
        constructor <;> nlinarith
    · rw [if_neg c]; exact ih q (fun r hr => h r (by simp at hr ⊢; right; exact hr))

theorem npInterp_bounds {pts : List (K × K)} {x y lo hi : K} (h : npInterp pts x = .ok y)
    (hb : ∀ q ∈ pts, lo ≤ q.2 ∧ q.2 ≤ hi) : lo ≤ y ∧ y ≤ hi := by
  cases pts with
  | nil => cases h
  | cons p rest => cases h; exact interpFrom_bounds x lo hi p rest hb

/-! ## One pass -/

/-- The response calculation returns one effective strain per layer above the last one. -/
def Spec.OneStrainPerLayer {K R : Type} (resp : RespFn K R) : Prop :=
  ∀ h G D rho r, h ≠ [] → G.length = h.length → D.length = h.length → rho.length = h.length →
    resp h G D rho = .ok r → r.2.length + 1 = h.length

open Spec (OneStrainPerLayer)

/-- The values (modulus, damping) of all layers but the last one. -/
def EqState.curr {R : Type} (s : EqState K R) : List (K × K) := s.G.dropLast.zip (s.prof.dropLast.map Row.xi)

/-- `m` layers above the last one. -/
structure EqWF {R : Type} (m : Nat) (s : EqState K R) : Prop where
  prof : s.prof.length = m + 1
  G : s.G.length = m + 1

theorem maxRelDiffLt_iff (tol : K) (old new : List K) :
    maxRelDiffLt tol old new = true ↔
      ∀ (k : Nat) o n, old[k]? = some o → new[k]? = some n → n ≠ 0 ∧ |o - n| / n < tol := by
  unfold maxRelDiffLt
  rw [List.all_eq_true]
  constructor
  · intro h k o n ho hn
    have := h (o, n) (List.mem_of_getElem? (i := k) (by rw [List.getElem?_zip_eq_some]; exact ⟨ho, hn⟩))
    simpa using this
  · rintro h ⟨o, n⟩ hx
    obtain ⟨k, hk⟩ := List.getElem?_of_mem hx
    rw [List.getElem?_zip_eq_some] at hk
    simpa using h k o n hk.1 hk.2

theorem setDamping_length (prof : List (Row K)) (d : List K) (m : Nat) (h : prof.length = m + 1) (hd : d.length = m) :
    (setDamping prof d).length = m + 1 := by
  have hne : prof ≠ [] := by intro h0; rw [h0] at h; simp at h
  simp [setDamping, List.getLast?_eq_some_getLast hne, h, hd]

theorem setDamping_dropLast (prof : List (Row K)) (d : List K) (m : Nat) (h : prof.length = m + 1) :
    (setDamping prof d).dropLast = List.zipWith (fun r x => { r with xi := x }) prof.dropLast d := by
  have hne : prof ≠ [] := by intro h0; rw [h0] at h; simp at h
  simp [setDamping, List.getLast?_eq_some_getLast hne]

theorem setDamping_last (prof : List (Row K)) (d : List K) (m : Nat) (h : prof.length = m + 1) :
    (setDamping prof d).getLast? = prof.getLast? := by
  have hne : prof ≠ [] := by intro h0; rw [h0] at h; simp at h
  simp [setDamping, List.getLast?_eq_some_getLast hne]

theorem setDamping_map {β : Type} (f : Row K → β) (hf : ∀ (r : Row K) x, f { r with xi := x } = f r) (prof : List (Row K))
    (d : List K) (m : Nat) (h : prof.length = m + 1) (hd : d.length = m) : (setDamping prof d).map f = prof.map f := by
  have hne : prof ≠ [] := by intro h0; rw [h0] at h; simp at h
  have hz : ∀ (l : List (Row K)) (d : List K), l.length = d.length →
      (List.zipWith (fun r x => { r with xi := x }) l d).map f = l.map f := by
    intro l
    induction l with
    | nil => intro d _; simp
    | cons r l ih =>
      intro d hd
      cases d with
      | nil => simp at hd
      | cons x d => simp only [List.zipWith_cons_cons, List.map_cons, hf]; rw [ih d (by simpa using hd)]
  rw [setDamping, List.map_append, hz _ _ (by simp [h, hd]), List.getLast?_eq_some_getLast hne, ← List.map_append]
  congr 1
  exact List.dropLast_append_getLast hne

theorem setModulus_spec (G g : List K) (m : Nat) (h : G.length = m + 1) (hg : g.length = m) :
    (setModulus G g).length = m + 1 ∧ (setModulus G g).dropLast = g ∧ (setModulus G g).getLast? = G.getLast? := by
  have hne : G ≠ [] := by intro h0; rw [h0] at h; simp at h
  simp [setModulus, List.getLast?_eq_some_getLast hne, hg]

theorem zip_map_fst_snd (l : List (K × K)) : (l.map Prod.fst).zip (l.map Prod.snd) = l := zip_fst_snd l

/-- What one pass does. -/
structure PassSpec {R : Type} (resp : RespFn K R) (gmax : List K) (cs : List (LayCurve K)) (tol : K) (m : Nat)
    (s s' : EqState K R) (conv : Bool) : Prop where
  wf : EqWF m s'
  hist : s'.hist = s.hist ++ [s'.curr]
  len : s'.curr.length = m
  conv_iff : conv = true ↔ CloseTo tol s.curr s'.curr
  res : ∃ r eff, resp (s.prof.map Row.thk) s.G (s.prof.map Row.xi) (s.prof.map Row.rho) = .ok (r, eff) ∧ s'.res = some r ∧
    ∀ (k : Nat) g c, k < m → gmax[k]? = some g → cs[k]? = some c →
      ∃ e y, eff[k]? = some e ∧ layUpdate g c e = .ok y ∧ s'.curr[k]? = some y
  keep : ∀ {β : Type} (f : Row K → β), (∀ (r : Row K) x, f { r with xi := x } = f r) → s'.prof.map f = s.prof.map f
  lastRow : s'.prof.getLast? = s.prof.getLast?
  lastG : s'.G.getLast? = s.G.getLast?

theorem eqStep_spec {R : Type} {resp : RespFn K R} {gmax : List K} {cs : List (LayCurve K)} {tol : K} {m : Nat}
    {s s' : EqState K R} {conv : Bool} (hresp : OneStrainPerLayer resp)
    (hg : gmax.length = m + 1) (hc : cs.length = m) (hs : EqWF m s)
    (h : eqStep resp gmax cs tol s = .ok (s', conv)) : PassSpec resp gmax cs tol m s s' conv := by
  unfold eqStep at h
  cases hr : resp (s.prof.map Row.thk) s.G (s.prof.map Row.xi) (s.prof.map Row.rho) with
  | error e => rw [hr] at h; cases h
  | ok r =>
    rw [hr] at h
    have heff : r.2.length = m := by
      have hne : s.prof.map Row.thk ≠ [] := by
        intro h0
        have := congrArg List.length h0
        simp [hs.prof] at this
      have := hresp _ _ _ _ _ hne (by simp [hs.prof, hs.G]) (by simp) (by simp) hr
      simp [hs.prof] at this; exact this
    cases hn : eqUpdate gmax.dropLast cs r.2 with
    | error e => simp only [bind, Except.bind, hn] at h; cases h
    | ok new =>
      simp only [bind, Except.bind, hn] at h
      by_cases hnil : new = []
      · rw [if_pos hnil] at h; cases h
      · rw [if_neg hnil] at h
        have e := Prod.mk.inj (Except.ok.inj h)
        obtain ⟨hmap1, hmap2⟩ := mapM_ok _ _ _ hn
        have hlen : new.length = m := by rw [hmap1]; simp [hg, hc, heff]
        obtain ⟨e1, e2⟩ := e
        have hG := setModulus_spec s.G (new.map Prod.fst) m hs.G (by simp [hlen])
        have hD : (setDamping s.prof (new.map Prod.snd)).dropLast.map Row.xi = new.map Prod.snd := by
          rw [setDamping_dropLast _ _ m hs.prof]
          rw [List.map_zipWith]
          have : ∀ (l : List (Row K)) (d : List K), l.length = d.length → List.zipWith (fun r x => x) l d = d := by
            intro l
            induction l with
            | nil => intro d hd; cases d with
              | nil => rfl
              | cons x d => simp at hd
            | cons r l ih => intro d hd; cases d with
              | nil => simp at hd
              | cons x d => simp only [List.zipWith_cons_cons]; rw [ih d (by simpa using hd)]
          exact this _ _ (by simp [hs.prof, hlen])
        have hcurr : s'.curr = new := by
          rw [← e1]
          show (setModulus s.G (new.map Prod.fst)).dropLast.zip _ = new
          rw [hG.2.1]
          show (new.map Prod.fst).zip ((setDamping s.prof (new.map Prod.snd)).dropLast.map Row.xi) = new
          rw [hD]; exact zip_fst_snd new
        refine ⟨⟨?_, ?_⟩, ?_, ?_, ?_, ?_, ?_, ?_, ?_⟩
        · rw [← e1]; exact setDamping_length _ _ m hs.prof (by simp [hlen])
        · rw [← e1]; exact hG.1
        · rw [hcurr, ← e1]
        · rw [hcurr]; exact hlen
        · rw [← e2, Bool.and_eq_true, maxRelDiffLt_iff, maxRelDiffLt_iff, hcurr]
          constructor
          · rintro ⟨h1, h2⟩ k o n ho hn'
            unfold EqState.curr at ho
            rw [List.getElem?_zip_eq_some] at ho
            exact ⟨h1 k o.1 n.1 ho.1 (by simp [hn']), h2 k o.2 n.2 ho.2 (by simp [hn'])⟩
          · intro hcl
            constructor
            · intro k o n ho hn'
              rw [List.getElem?_map] at hn'
              obtain ⟨y, hy, rfl⟩ := Option.map_eq_some_iff.mp hn'
              have hk : k < m := by
                by_contra hc'
                rw [List.getElem?_eq_none (by rw [hlen]; omega)] at hy; cases hy
              have hx : ((s.prof.dropLast.map Row.xi)[k]?) = some ((s.prof.dropLast.map Row.xi)[k]'(by simp [hs.prof]; exact hk)) := List.getElem?_eq_getElem _
              exact (hcl k (o, _) y (by unfold EqState.curr; rw [List.getElem?_zip_eq_some]; exact ⟨ho, hx⟩) hy).1
            · intro k o n ho hn'
              rw [List.getElem?_map] at hn'
              obtain ⟨y, hy, rfl⟩ := Option.map_eq_some_iff.mp hn'
              have hk : k < m := by
                by_contra hc'
                rw [List.getElem?_eq_none (by rw [hlen]; omega)] at hy; cases hy
              have hx : s.G.dropLast[k]? = some (s.G.dropLast[k]'(by simp [hs.G]; exact hk)) := List.getElem?_eq_getElem _
              exact (hcl k (_, o) y (by unfold EqState.curr; rw [List.getElem?_zip_eq_some]; exact ⟨hx, ho⟩) hy).2
        · refine ⟨r.1, r.2, hr, by rw [← e1], ?_⟩
          intro k g c hk hgk hck
          have he : r.2[k]? = some (r.2[k]'(by rw [heff]; exact hk)) := by simp
          have hgd : gmax.dropLast[k]? = some g := by
            rw [List.getElem?_dropLast, if_pos (by rw [hg]; omega), hgk]
          obtain ⟨y, hy1, hy2⟩ := hmap2 k ((g, c), _) (by
            rw [List.getElem?_zip_eq_some, List.getElem?_zip_eq_some]; exact ⟨⟨hgd, hck⟩, he⟩)
          exact ⟨_, y, he, hy1, by rw [hcurr]; exact hy2⟩
        · intro β f hf
          rw [← e1]; exact setDamping_map f hf _ _ m hs.prof (by simp [hlen])
        · rw [← e1]; exact setDamping_last _ _ m hs.prof
        · rw [← e1]; exact hG.2.2

/-! ## The loop -/

/-- What the loop does, in terms of the history: `k` further passes. -/
structure LoopSpec {R : Type} (gmax : List K) (cs : List (LayCurve K)) (tol : K) (verbose : Bool) (m n : Nat)
    (s s' : EqState K R) (h : List (List (K × K))) : Prop where
  wf : EqWF m s'
  hist : s'.hist = s.hist ++ h
  le : h.length ≤ n
  notVerbose : verbose = false → h.length = n
  early : verbose = true → ∀ i, i + 1 < h.length → ¬CloseTo tol (before s.curr h i) (before s.curr h (i + 1))
  stop : verbose = true → h.length < n → 0 < h.length ∧ CloseTo tol (before s.curr h (h.length - 1)) (before s.curr h h.length)
  last : s'.curr = before s.curr h h.length
  vals : ∀ v ∈ h, v.length = m ∧ ∀ (k : Nat) g c, k < m → gmax[k]? = some g → cs[k]? = some c →
      ∃ e y, layUpdate g c e = .ok y ∧ v[k]? = some y
  res : s'.res.isSome = true ∨ (h = [] ∧ s'.res = s.res)
  keep : ∀ {β : Type} (f : Row K → β), (∀ (r : Row K) x, f { r with xi := x } = f r) → s'.prof.map f = s.prof.map f
  lastRow : s'.prof.getLast? = s.prof.getLast?
  lastG : s'.G.getLast? = s.G.getLast?

theorem before_cons (init v : List (K × K)) (h : List (List (K × K))) (i : Nat) :
    before init (v :: h) (i + 1) = before v h i := by
  cases i with
  | zero => simp [before]
  | succ i => simp [before]

theorem eqLoop_spec {R : Type} {resp : RespFn K R} {gmax : List K} {cs : List (LayCurve K)} {tol : K} {verbose : Bool}
    {m : Nat} (hresp : OneStrainPerLayer resp)
    (hg : gmax.length = m + 1) (hc : cs.length = m) : ∀ (n : Nat) (s s' : EqState K R), EqWF m s →
    eqLoop resp gmax cs tol verbose n s = .ok s' → ∃ h, LoopSpec gmax cs tol verbose m n s s' h := by
  intro n
  induction n with
  | zero =>
    intro s s' hs h
    cases h
    exact ⟨[], hs, by simp, by simp, by simp, by simp, by simp, by simp [before], by simp, by simp, fun f hf => rfl, rfl, rfl⟩
  | succ n ih =>
    intro s s' hs h
    rw [eqLoop] at h
    cases hst : eqStep resp gmax cs tol s with
    | error e => rw [hst] at h; cases h
    | ok p =>
      obtain ⟨s1, conv⟩ := p
      rw [hst] at h
      simp only at h
      have ps := eqStep_spec hresp hg hc hs hst
      have hv1 : s1.curr.length = m ∧ ∀ (k : Nat) g c, k < m → gmax[k]? = some g → cs[k]? = some c →
          ∃ e y, layUpdate g c e = .ok y ∧ s1.curr[k]? = some y := by
        refine ⟨ps.len, ?_⟩
        intro k g c hk h1 h2
        obtain ⟨r, eff, _, _, h3⟩ := ps.res
        obtain ⟨e, y, _, h5, h6⟩ := h3 k g c hk h1 h2
        exact ⟨e, y, h5, h6⟩
      by_cases cv : (conv && verbose) = true
      · rw [if_pos cv] at h
        cases h
        rw [Bool.and_eq_true] at cv
        refine ⟨[s'.curr], ps.wf, ps.hist, by simp, by simp [cv.2], by simp, ?_, by simp [before], ?_, ?_, fun f hf => ps.keep f hf, ps.lastRow, ps.lastG⟩
        · intro _ _; exact ⟨by simp, by simpa [before] using ps.conv_iff.mp cv.1⟩
        · intro v hv; simp at hv; subst hv; exact hv1
        · obtain ⟨r, eff, _, h2, _⟩ := ps.res; left; rw [h2]; rfl
      · rw [if_neg cv] at h
        obtain ⟨hh, ls⟩ := ih s1 s' ps.wf h
        refine ⟨s1.curr :: hh, ls.wf, ?_, ?_, ?_, ?_, ?_, ?_, ?_, ?_, ?_, ?_, ?_⟩
        · rw [ls.hist, ps.hist]; simp
        · have := ls.le; simp; exact this
        · intro hv; have := ls.notVerbose hv; simp [this]
        · intro hv i hi
          simp only [List.length_cons] at hi
          rw [before_cons]
          cases i with
          | zero =>
            intro hcl
            apply cv
            rw [Bool.and_eq_true]
            exact ⟨ps.conv_iff.mpr (by simpa [before] using hcl), hv⟩
          | succ i => rw [before_cons]; exact ls.early hv i (by omega)
        · intro hv hlt
          simp only [List.length_cons] at hlt ⊢
          obtain ⟨h1, h2⟩ := ls.stop hv (by omega)
          refine ⟨by omega, ?_⟩
          rw [before_cons]
          have : hh.length + 1 - 1 = (hh.length - 1) + 1 := by omega
          rw [this, before_cons]; exact h2
        · rw [ls.last, List.length_cons, before_cons]
        · intro v hv
          rcases List.mem_cons.mp hv with rfl | hv
          · exact hv1
          · exact ls.vals v hv
        · rcases ls.res with h1 | ⟨h1, h2⟩
          · exact .inl h1
          · obtain ⟨r, eff, _, h3, _⟩ := ps.res; left; rw [h2, h3]; rfl
        · intro β f hf; rw [ls.keep f hf, ps.keep f hf]
        · rw [ls.lastRow, ps.lastRow]
        · rw [ls.lastG, ps.lastG]

/-! ## Curves -/

theorem layCurves_length [FloorRing K] {cols : List (List K)} {prof : List (Row K)} {cs : List (LayCurve K)}
    (h : layCurves cols prof = .ok cs) : cs.length + 1 = prof.length ∨ prof = [] := by
  have := (mapM_ok _ _ _ h).1
  rw [List.length_dropLast] at this
  cases prof with
  | nil => right; rfl
  | cons a l => left; simp at this; simp [this]

theorem pyGet_nonneg {α : Type} (l : List α) (i : Nat) (a : α) : pyGet l (i : Int) = .ok a ↔ l[i]? = some a := by
  unfold pyGet
  rw [if_pos (by omega)]
  simp only [Int.toNat_natCast]
  cases h : l[i]? <;> simp

/-- Negative indices count from the end; those before the first element are errors. -/
theorem pyGet_neg {α : Type} (l : List α) (i : Nat) (a : α) :
    (pyGet l (-((i : Int) + 1)) = .ok a ↔ l.reverse[i]? = some a) ∧
    (l.length ≤ i → pyGet l (-((i : Int) + 1)) = .error .indexError) := by
  have key : (if 0 ≤ -((i : Int) + 1) then l[(-((i : Int) + 1)).toNat]?
      else if 0 ≤ -((i : Int) + 1) + l.length then l[(-((i : Int) + 1) + l.length).toNat]? else none) = l.reverse[i]? := by
    rw [if_neg (by omega)]
    by_cases c : i < l.length
    · rw [if_pos (by omega), List.getElem?_reverse c]
      congr 1; omega
    · rw [if_neg (by omega), List.getElem?_eq_none (by simpa using c)]
  unfold pyGet
  rw [key]
  constructor
  · cases h : l.reverse[i]? <;> simp
  · intro h
    rw [List.getElem?_eq_none (by simpa using h)]

/-- The results of a loop stem from the response to the values before its last pass. -/
theorem eqLoop_last {R : Type} {resp : RespFn K R} {gmax : List K} {cs : List (LayCurve K)} {tol : K} {verbose : Bool}
    {m : Nat} (hresp : OneStrainPerLayer resp) (hg : gmax.length = m + 1) (hc : cs.length = m) :
    ∀ (n : Nat) (s s' : EqState K R) (h : List (List (K × K))), EqWF m s → s'.hist = s.hist ++ h → h ≠ [] →
    eqLoop resp gmax cs tol verbose n s = .ok s' →
    ∃ s1 c, EqWF m s1 ∧ s1.curr = before s.curr h (h.length - 1) ∧
      (∀ {β : Type} (f : Row K → β), (∀ (r : Row K) x, f { r with xi := x } = f r) → s1.prof.map f = s.prof.map f) ∧
      s1.prof.getLast? = s.prof.getLast? ∧ s1.G.getLast? = s.G.getLast? ∧
      PassSpec resp gmax cs tol m s1 s' c := by
  intro n
  induction n with
  | zero =>
    intro s s' h hs hh hne hl
    cases hl
    exact absurd (List.self_eq_append_right.mp hh) hne
  | succ n ih =>
    intro s s' h hs hh hne hl
    rw [eqLoop] at hl
    cases hst : eqStep resp gmax cs tol s with
    | error e => rw [hst] at hl; cases hl
    | ok p =>
      obtain ⟨s1, conv⟩ := p
      rw [hst] at hl
      simp only at hl
      have ps := eqStep_spec hresp hg hc hs hst
      have stop : s' = s1 → ∃ s1 c, EqWF m s1 ∧ s1.curr = before s.curr h (h.length - 1) ∧
          (∀ {β : Type} (f : Row K → β), (∀ (r : Row K) x, f { r with xi := x } = f r) → s1.prof.map f = s.prof.map f) ∧
          s1.prof.getLast? = s.prof.getLast? ∧ s1.G.getLast? = s.G.getLast? ∧
          PassSpec resp gmax cs tol m s1 s' c := by
        intro e
        subst e
        have h1 : h = [s'.curr] := by
          have := ps.hist; rw [hh] at this; exact List.append_cancel_left this
        refine ⟨s, conv, hs, ?_, fun f hf => rfl, rfl, rfl, ps⟩
        rw [h1]; rfl
      by_cases cv : (conv && verbose) = true
      · rw [if_pos cv] at hl
        exact stop (Except.ok.inj hl).symm
      · rw [if_neg cv] at hl
        obtain ⟨h', ls⟩ := eqLoop_spec hresp hg hc n s1 s' ps.wf hl
        have hh' : h = s1.curr :: h' := by
          have := ls.hist
          rw [hh, ps.hist, List.append_assoc] at this
          exact List.append_cancel_left this
        by_cases h0 : h' = []
        · subst h0
          cases n with
          | zero => exact stop (by cases hl; rfl)
          | succ n =>
            exfalso
            cases hv : verbose with
            | false => have := ls.notVerbose hv; simp at this
            | true => have := (ls.stop hv (by simp)).1; simp at this
        · obtain ⟨s2, c, a1, a2, a3, a4, a5, a6⟩ := ih s1 s' h' ps.wf ls.hist h0 hl
          refine ⟨s2, c, a1, ?_, ?_, a4.trans ps.lastRow, a5.trans ps.lastG, a6⟩
          · rw [a2, hh']
            have hp : 0 < h'.length := List.length_pos_iff.mpr h0
            rw [List.length_cons, show h'.length + 1 - 1 = h'.length - 1 + 1 by omega, before_cons]
          · intro β f hf
            rw [a3 f hf, ps.keep f hf]

/-- The loop succeeds if the response calculation does and the curves are not empty. -/
theorem eqLoop_total {R : Type} {resp : RespFn K R} {gmax : List K} {cs : List (LayCurve K)} {tol : K} {verbose : Bool}
    {m : Nat} (hresp : OneStrainPerLayer resp) (hm : 0 < m) (hg : gmax.length = m + 1) (hc : cs.length = m)
    (hcs : ∀ c ∈ cs, c.g ≠ [] ∧ c.d ≠ [])
    (htot : ∀ h G D rho : List K, h.length = m + 1 → G.length = m + 1 → D.length = m + 1 → rho.length = m + 1 →
      ∃ r, resp h G D rho = .ok r) :
    ∀ (n : Nat) (s : EqState K R), EqWF m s → ∃ s', eqLoop resp gmax cs tol verbose n s = .ok s' ∧
      (s'.res.isSome = true ∨ n = 0) := by
  have hstep : ∀ s : EqState K R, EqWF m s → ∃ p, eqStep resp gmax cs tol s = .ok p := by
    intro s hs
    obtain ⟨r, hr⟩ := htot (s.prof.map Row.thk) s.G (s.prof.map Row.xi) (s.prof.map Row.rho) (by simp [hs.prof]) hs.G
      (by simp [hs.prof]) (by simp [hs.prof])
    have hne : s.prof.map Row.thk ≠ [] := by
      intro h0; have := congrArg List.length h0; simp [hs.prof] at this
    have heff := hresp _ _ _ _ _ hne (by simp [hs.prof, hs.G]) (by simp) (by simp) hr
    simp only [List.length_map, hs.prof] at heff
    have hnp : ∀ (l : List (K × K)) (x : K), l ≠ [] → ∃ y, npInterp l x = .ok y := by
      intro l x hl
      cases l with
      | nil => exact absurd rfl hl
      | cons a l => exact ⟨_, rfl⟩
    have hup : ∃ new, eqUpdate gmax.dropLast cs r.2 = .ok new := by
      classical
      have each : ∀ x ∈ (gmax.dropLast.zip cs).zip r.2, ∃ y, layUpdate x.1.1 x.1.2 x.2 = .ok y := by
        intro x hx
        have h1 := (List.of_mem_zip hx).1
        have h2 := (List.of_mem_zip h1).2
        obtain ⟨a, ha⟩ := hnp x.1.2.g x.2 (hcs _ h2).1
        obtain ⟨b, hb⟩ := hnp x.1.2.d x.2 (hcs _ h2).2
        exact ⟨(x.1.1 * a, b), by simp only [layUpdate, bind, Except.bind, ha, hb]; rfl⟩
      unfold eqUpdate
      refine ⟨_, mapM_of_forall _ (fun x => if hx : x ∈ (gmax.dropLast.zip cs).zip r.2 then (each x hx).choose else (0, 0)) _ ?_⟩
      intro x hx
      simp only [dif_pos hx]
      exact (each x hx).choose_spec
    obtain ⟨new, hnew⟩ := hup
    have hlen := (mapM_ok _ _ _ hnew).1
    have hnil : new ≠ [] := by
      intro h0
      rw [h0] at hlen
      simp [hg, hc] at hlen
      omega
    unfold eqStep
    rw [hr]
    simp only [bind, Except.bind, hnew]
    rw [if_neg hnil]
    exact ⟨_, rfl⟩
  intro n
  induction n with
  | zero => intro s hs; exact ⟨s, rfl, Or.inr rfl⟩
  | succ n ih =>
    intro s hs
    obtain ⟨p, hp⟩ := hstep s hs
    have ps := eqStep_spec hresp hg hc hs (s' := p.1) (conv := p.2) hp
    have hres : p.1.res.isSome = true := by
      obtain ⟨r, eff, _, h, _⟩ := ps.res
      rw [h]; rfl
    rw [eqLoop, hp]
    simp only
    by_cases cv : (p.2 && verbose) = true
    · rw [if_pos cv]; exact ⟨p.1, rfl, Or.inl hres⟩
    · rw [if_neg cv]
      obtain ⟨s', h1, h2⟩ := ih p.1 ps.wf
      refine ⟨s', h1, Or.inl ?_⟩
      rcases h2 with h2 | h2
      · exact h2
      · subst h2; cases h1; exact hres

end Verif
