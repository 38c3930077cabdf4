import Verif.Props.Fit
import Verif.Props.Soil

/-!
C120 (the modulus scale does not matter), C122 (curves of parameter sets) and C123 (the fitted objective).
-/

set_option linter.unusedSectionVars false
set_option linter.unusedVariables false

namespace Verif

namespace Spec

/-- `d` is an MKZ parameter set with these values. -/
structure MKZSet (d : Dict ℝ) (gr s beta G : ℝ) : Prop where
  keys : sameKeys d mkzKeys = true
  gr : d.look "gamma_ref" = .ok gr
  s : d.look "s" = .ok s
  beta : d.look "beta" = .ok beta
  G : d.look "Gmax" = .ok G

/-- `d` is an HH parameter set with these values. -/
structure HHSet (d : Dict ℝ) (p : HHParam) : Prop where
  keys : sameKeys d hhKeys = true
  gt : d.look "gamma_t" = .ok p.gammaT
  a : d.look "a" = .ok p.a
  gr : d.look "gamma_ref" = .ok p.gammaRef
  beta : d.look "beta" = .ok p.beta
  s : d.look "s" = .ok p.s
  G : d.look "Gmax" = .ok p.Gmax
  mu : d.look "mu" = .ok p.mu
  T : d.look "Tmax" = .ok p.Tmax
  d : d.look "d" = .ok p.d

/-- All HH parameters the stress depends on are positive. -/
structure HHPos (p : HHParam) : Prop where
  gt : 0 < p.gammaT
  gr : 0 < p.gammaRef
  beta : 0 < p.beta
  G : 0 < p.Gmax
  mu : 0 < p.mu
  T : 0 < p.Tmax

end Spec

open Spec (MKZSet HHSet HHPos interleave)

theorem stressOf_mkz (d : Dict ℝ) (gr s beta G : ℝ) (h : MKZSet d gr s beta G) (strain : List ℝ) :
    stressOf .mkz d strain = .ok (strain.map (tauMKZ gr beta s G)) := by
  unfold stressOf
  have e : mkzOrder.mapM d.look = .ok [gr, s, beta, G] := by
    simp [mkzOrder, h.gr, h.s, h.beta, h.G, bind, Except.bind, pure, Except.pure]
  rw [show SoilModel.mkz.keys = mkzKeys from rfl, h.keys]
  simp only [Bool.not_true, Bool.false_eq_true, if_false, e]

theorem stressOf_hh (d : Dict ℝ) (p : HHParam) (h : HHSet d p) (hp : 0 < p.gammaT) (strain : List ℝ) :
    stressOf .hh d strain = .ok (strain.map (hhOne p)) := by
  unfold stressOf
  have e : hhOrder.mapM d.look = .ok [p.gammaT, p.a, p.gammaRef, p.beta, p.s, p.Gmax, p.mu, p.Tmax, p.d] := by
    simp [hhOrder, h.gt, h.a, h.gr, h.beta, h.s, h.G, h.mu, h.T, h.d, bind, Except.bind, pure, Except.pure]
  rw [show SoilModel.hh.keys = hhKeys from rfl, h.keys]
  simp only [Bool.not_true, Bool.false_eq_true, if_false, e]
  unfold tauHH transition
  simp [hp]

theorem zip_map_self {α β : Type} (f : α → β) : ∀ (l : List α), l.zip (l.map f) = l.map fun x => (x, f x)
  | [] => rfl
  | x :: l => by rw [List.map_cons, List.zip_cons_cons, zip_map_self f l]; rfl

/-- Both curves of a soil model with stress `f`, positive at the strains used. -/
theorem param_values (m : SoilModel) (d : Dict ℝ) (f : ℝ → ℝ) (G : ℝ) (pct : List ℝ) (hG : 0 < G) (hne : pct ≠ [])
    (hpos : ∀ e ∈ pct, 0 < e) (hf : ∀ e, 0 < e → 0 < f e) (hk : d.look "Gmax" = .ok G)
    (hs : ∀ strain, stressOf m d strain = .ok (strain.map f)) :
    paramGGmax m d pct = .ok (pct.map fun e => f (e / 100) / (e / 100) / G) ∧
    paramDamping m d pct =
      .ok ((Spec.hysteretic Real.pi (pct.map fun e => (e / 100, f (e / 100)))).map (· * 100)) := by
  constructor
  · unfold paramGGmax paramStress
    simp only [hs, hk, bind, Except.bind]
    obtain ⟨gg, h1⟩ := C41_accepts (pct.map (· / 100)) ((pct.map (· / 100)).map f) G (by simpa using hne) (by simp)
      (by intro e he; obtain ⟨x, hx, rfl⟩ := List.mem_map.1 he; have := hpos x hx; positivity) hG
    rw [h1]
    obtain ⟨h2, h3⟩ := C41_product _ _ _ _ h1
    congr 1
    unfold calcGGmax at h1
    cases pct with
    | nil => exact absurd rfl hne
    | cons e0 es =>
      simp only [List.map_cons] at h1
      split_ifs at h1
      have := Except.ok.inj h1
      rw [← this]
      simp only [List.zipWith_cons_cons, List.map_cons, List.map_map, List.zipWith_map_left, List.zipWith_map_right]
      rw [List.zipWith_self]
      rfl
  · unfold paramDamping dampingFromParam
    simp only [hs, hk, bind, Except.bind]
    have := C40_value Real.pi G (pct.map fun e => (e / 100, f (e / 100))) (by simpa using hne) hG.ne' (by
      intro p hp
      obtain ⟨x, hx, rfl⟩ := List.mem_map.1 hp
      have : 0 < x / 100 := by have := hpos x hx; positivity
      exact ⟨this.ne', (hf _ this).ne'⟩)
    rw [List.map_map, List.map_map] at this
    rw [List.map_map]
    have e1 : (Prod.fst ∘ fun e : ℝ => (e / 100, f (e / 100))) = (· / 100) := rfl
    have e2 : (Prod.snd ∘ fun e : ℝ => (e / 100, f (e / 100))) = f ∘ (· / 100) := rfl
    rw [e1, e2] at this
    rw [this]
    rfl

theorem tauMKZ_pos (gr beta s G : ℝ) (h1 : 0 < gr) (h2 : 0 < beta) (h3 : 0 < G) (e : ℝ) (he : 0 < e) :
    0 < tauMKZ gr beta s G e := by
  unfold tauMKZ
  have := mkz_den_pos (s := s) h1 h2 e
  apply div_pos (mul_pos h3 he); linarith

/-! ## C120 -/

/-- MKZ curves do not depend on `Gmax`. -/
theorem C120_mkz (d d' : Dict ℝ) (gr s beta G G' : ℝ) (pct : List ℝ) (h : MKZSet d gr s beta G) (h' : MKZSet d' gr s beta G')
    (h1 : 0 < gr) (h2 : 0 < beta) (h3 : 0 < G) (h4 : 0 < G') (hne : pct ≠ []) (hpos : ∀ e ∈ pct, 0 < e) :
    paramGGmax .mkz d pct = paramGGmax .mkz d' pct ∧ paramDamping .mkz d pct = paramDamping .mkz d' pct ∧
    ∃ g, paramGGmax .mkz d pct = .ok g := by
  obtain ⟨a1, a2⟩ := param_values .mkz d _ G pct h3 hne hpos (tauMKZ_pos gr beta s G h1 h2 h3) h.G (stressOf_mkz d gr s beta G h)
  obtain ⟨b1, b2⟩ := param_values .mkz d' _ G' pct h4 hne hpos (tauMKZ_pos gr beta s G' h1 h2 h4) h'.G
    (stressOf_mkz d' gr s beta G' h')
  have hd : ∀ e ∈ pct, 0 < e / 100 := fun e he => by have := hpos e he; positivity
  have hsc : ∀ e, tauMKZ gr beta s G' e = G' / G * tauMKZ gr beta s G e := by
    intro e; unfold tauMKZ; field_simp
  refine ⟨?_, ?_, ⟨_, a1⟩⟩
  · rw [a1, b1]
    congr 1
    apply List.map_congr_left
    intro e he
    rw [hsc]
    have := hd e he
    field_simp
  · have key := C40_scale Real.pi G G' (G' / G) (pct.map fun e => (e / 100, tauMKZ gr beta s G (e / 100))) (by simpa using hne)
      h3.ne' h4.ne' (by positivity) (by
        intro p hp
        obtain ⟨x, hx, rfl⟩ := List.mem_map.1 hp
        exact ⟨(hd x hx).ne', (tauMKZ_pos gr beta s G h1 h2 h3 _ (hd x hx)).ne'⟩)
    simp only [List.map_map] at key
    unfold paramDamping dampingFromParam
    simp only [stressOf_mkz d gr s beta G h, stressOf_mkz d' gr s beta G' h', h.G, h'.G, bind, Except.bind, List.map_map]
    have e1 : (Prod.fst ∘ fun e : ℝ => (e / 100, tauMKZ gr beta s G (e / 100))) = (· / 100) := rfl
    have e2 : (Prod.snd ∘ fun e : ℝ => (e / 100, tauMKZ gr beta s G (e / 100))) = tauMKZ gr beta s G ∘ (· / 100) := rfl
    have e3 : ((fun p : ℝ × ℝ => G' / G * p.2) ∘ fun e : ℝ => (e / 100, tauMKZ gr beta s G (e / 100))) =
        tauMKZ gr beta s G' ∘ (· / 100) := by
      funext e; simp only [Function.comp]; rw [hsc]
    rw [e1, e2, e3] at key
    rw [key]

/-- HH curves are the same when modulus and strength are scaled together. -/
theorem C120_hh (d d' : Dict ℝ) (p p' : HHParam) (k : ℝ) (pct : List ℝ) (h : HHSet d p) (h' : HHSet d' p') (hp : HHPos p)
    (hk : 0 < k) (he : p' = { p with Gmax := k * p.Gmax, Tmax := k * p.Tmax }) (hne : pct ≠ []) (hpos : ∀ e ∈ pct, 0 < e) :
    paramGGmax .hh d pct = paramGGmax .hh d' pct ∧ paramDamping .hh d pct = paramDamping .hh d' pct ∧
    ∃ g, paramGGmax .hh d pct = .ok g := by
  have hp' : HHPos p' := by
    subst he
    exact ⟨hp.gt, hp.gr, hp.beta, mul_pos hk hp.G, hp.mu, mul_pos hk hp.T⟩
  have hf : ∀ q : HHParam, HHPos q → ∀ e, 0 < e → 0 < hhOne q e := fun q hq e he =>
    C44_positive q e he hq.gr hq.beta hq.G hq.mu hq.T
  obtain ⟨a1, a2⟩ := param_values .hh d _ p.Gmax pct hp.G hne hpos (hf p hp) h.G (stressOf_hh d p h hp.gt)
  obtain ⟨b1, b2⟩ := param_values .hh d' _ p'.Gmax pct hp'.G hne hpos (hf p' hp') h'.G (stressOf_hh d' p' h' hp'.gt)
  have hd : ∀ e ∈ pct, 0 < e / 100 := fun e he => by have := hpos e he; positivity
  have hG := hp.G.ne'
  have hT := hp.T.ne'
  have hk' := hk.ne'
  have eG : p'.Gmax = k * p.Gmax := by rw [he]
  have hsc : ∀ e, hhOne p' e = k * hhOne p e := by
    intro e
    rw [he]
    unfold hhOne tauMKZ tauFKZ
    simp only
    rw [mul_div_mul_left _ _ hk']
    ring
  refine ⟨?_, ?_, ⟨_, a1⟩⟩
  · rw [a1, b1]
    congr 1
    apply List.map_congr_left
    intro e he
    rw [hsc, eG]
    have := hd e he
    field_simp
  · have key := C40_scale Real.pi p.Gmax p'.Gmax k (pct.map fun e => (e / 100, hhOne p (e / 100))) (by simpa using hne)
      hp.G.ne' hp'.G.ne' hk' (by
        intro q hq
        obtain ⟨x, hx, rfl⟩ := List.mem_map.1 hq
        exact ⟨(hd x hx).ne', (hf p hp _ (hd x hx)).ne'⟩)
    simp only [List.map_map] at key
    unfold paramDamping dampingFromParam
    simp only [stressOf_hh d p h hp.gt, stressOf_hh d' p' h' hp'.gt, h.G, h'.G, bind, Except.bind, List.map_map]
    have e1 : (Prod.fst ∘ fun e : ℝ => (e / 100, hhOne p (e / 100))) = (· / 100) := rfl
    have e2 : (Prod.snd ∘ fun e : ℝ => (e / 100, hhOne p (e / 100))) = hhOne p ∘ (· / 100) := rfl
    have e3 : ((fun q : ℝ × ℝ => k * q.2) ∘ fun e : ℝ => (e / 100, hhOne p (e / 100))) = hhOne p' ∘ (· / 100) := by
      funext e; simp only [Function.comp]; rw [hsc]
    rw [e1, e2, e3] at key
    rw [key]

/-! ## C122 -/

theorem curveOf_gg (n : Nat) (e v : List ℝ) (hp : ∀ x ∈ e, 0 ≤ x) (hv : ∀ y ∈ v, 0 ≤ y) (hl : v.length = e.length) :
    curveOf .ggmax ⟨n, [e, v]⟩ = (if ∃ y ∈ v, 1 < y then .error .valueError else .ok (e.zip v)) ∧
    curveOf (.damping .pct) ⟨n, [e, v]⟩ = (if ∃ y ∈ v, 100 < y then .error .valueError else .ok (e.zip v)) := by
  have hno : ¬ ∃ p ∈ e.zip v, p.1 < 0 ∨ p.2 < 0 := by
    rintro ⟨p, hpm, h | h⟩
    · exact absurd (hp p.1 (List.of_mem_zip (show (p.1, p.2) ∈ e.zip v from hpm)).1) (not_le.2 h)
    · exact absurd (hv p.2 (List.of_mem_zip (show (p.1, p.2) ∈ e.zip v from hpm)).2) (not_le.2 h)
  have hiff : ∀ c : ℝ, (∃ p ∈ e.zip v, c < p.2 ∨ p.2 < 0) ↔ ∃ y ∈ v, c < y := by
    intro c
    constructor
    · rintro ⟨p, hpm, h | h⟩
      · exact ⟨p.2, (List.of_mem_zip (show (p.1, p.2) ∈ e.zip v from hpm)).2, h⟩
      · exact absurd ⟨p, hpm, Or.inr h⟩ hno
    · rintro ⟨y, hy, h⟩
      have hs : (e.zip v).map Prod.snd = v := List.map_snd_zip (by omega)
      rw [← hs] at hy
      obtain ⟨p, hpm, rfl⟩ := List.mem_map.1 hy
      exact ⟨p, hpm, Or.inl h⟩
  have hb : mkBase [e.zip v] 0 .pct none true = (.ok (.view 0), [e.zip v]) := by
    unfold mkBase
    simp only [List.getElem?_cons_zero]
    rw [if_neg (by rintro ⟨_, h⟩; exact hno h)]
  have hr : ∀ c : ℝ, rangeCheck [e.zip v] (.view 0) c true =
      if ∃ y ∈ v, c < y then (.error .valueError, [e.zip v]) else (.ok (.view 0), [e.zip v]) := by
    intro c
    unfold rangeCheck
    simp only [Where.read, List.getElem?_cons_zero, Option.getD_some, true_and, hiff c]
  constructor
  · unfold curveOf mkCurve
    simp only [hb, finishCurve, hr]
    by_cases hc : ∃ y ∈ v, 1 < y
    · rw [if_pos hc, if_pos hc]
    · rw [if_neg hc, if_neg hc]; rfl
  · unfold curveOf mkCurve
    simp only [hb, finishCurve, hr]
    by_cases hc : ∃ y ∈ v, 100 < y
    · rw [if_pos hc, if_pos hc]
    · rw [if_neg hc, if_neg hc]; rfl

theorem interleave_inj (n : Nat) (pct : List ℝ) : ∀ (gs ds : List (CMat ℝ)) (vals : List (List ℝ × List ℝ)),
    gs.length = vals.length → ds.length = vals.length → (∀ g ∈ gs, g.cols.length = 2 ∧ g.nrow = n) →
    (∀ d ∈ ds, d.cols.length = 2 ∧ d.nrow = n) →
    interleave gs ds = (vals.map fun v => [pct, v.1, pct, v.2]).flatten →
    gs = (vals.map fun v => (⟨n, [pct, v.1]⟩ : CMat ℝ)) ∧ ds = vals.map fun v => ⟨n, [pct, v.2]⟩
  | [], [], [], _, _, _, _, _ => ⟨rfl, rfl⟩
  | g :: gs, d :: ds, v :: vals, hl1, hl2, hg, hd, h => by
    obtain ⟨g1, g2⟩ := hg g List.mem_cons_self
    obtain ⟨d1, d2⟩ := hd d List.mem_cons_self
    obtain ⟨gn, gc⟩ := g
    obtain ⟨dn, dc⟩ := d
    simp only at g1 g2 d1 d2
    subst g2 d2
    match gc, dc, g1, d1 with
    | [a, b], [c, e], _, _ =>
      simp only [interleave, List.map_cons, List.flatten_cons, List.cons_append, List.nil_append, List.cons.injEq] at h
      obtain ⟨rfl, rfl, rfl, rfl, h⟩ := h
      obtain ⟨i1, i2⟩ := interleave_inj _ _ gs ds vals (by simpa using hl1) (by simpa using hl2)
        (fun x hx => hg x (List.mem_cons_of_mem _ hx)) (fun x hx => hd x (List.mem_cons_of_mem _ hx)) h
      exact ⟨by rw [List.map_cons, ← i1], by rw [List.map_cons, ← i2]⟩
  | [], _, _ :: _, hl, _, _, _, _ => by simp at hl
  | _ :: _, _, [], hl, _, _, _, _ => by simp at hl
  | _, [], _ :: _, _, hl, _, _, _ => by simp at hl
  | _, _ :: _, [], _, hl, _, _, _ => by simp at hl

theorem mapM_pure_map {α β : Type} (f : α → Except PyErr β) (g : α → β) : ∀ (l : List α), (∀ a ∈ l, f a = .ok (g a)) →
    l.mapM f = .ok (l.map g)
  | [], _ => rfl
  | a :: l, h => by
    rw [List.mapM_cons, h a List.mem_cons_self, mapM_pure_map f g l fun x hx => h x (List.mem_cons_of_mem _ hx)]; rfl

theorem mapM_some_error {α β : Type} (f : α → Except PyErr β) (e : PyErr) : ∀ (l : List α),
    (∀ a ∈ l, (∃ b, f a = .ok b) ∨ f a = .error e) → (∃ a ∈ l, f a = .error e) → l.mapM f = .error e
  | [], _, h => by obtain ⟨a, ha, _⟩ := h; cases ha
  | a :: l, h1, h2 => by
    rw [List.mapM_cons]
    rcases h1 a List.mem_cons_self with ⟨b, hb⟩ | hb
    · obtain ⟨x, hx, he⟩ := h2
      have hxl : x ∈ l := by
        rcases List.mem_cons.1 hx with rfl | hx
        · rw [hb] at he; cases he
        · exact hx
      rw [hb, mapM_some_error f e l (fun y hy => h1 y (List.mem_cons_of_mem _ hy)) ⟨x, hxl, he⟩]; rfl
    · rw [hb]; rfl

/-- What `construct_curves` gives, from the curves of the layers. -/
theorem construct_spec (m : SoilModel) (ps : List (Dict ℝ)) (pct : List ℝ) (g x : Dict ℝ → List ℝ) (hne : ps ≠ [])
    (hpos : ∀ e ∈ pct, 0 < e) (hg : ∀ d ∈ ps, paramGGmax m d pct = .ok (g d)) (hx : ∀ d ∈ ps, paramDamping m d pct = .ok (x d))
    (hg0 : ∀ d ∈ ps, (g d).length = pct.length ∧ ∀ y ∈ g d, 0 ≤ y) (hx0 : ∀ d ∈ ps, (x d).length = pct.length ∧ ∀ y ∈ x d, 0 ≤ y) :
    ((∀ d ∈ ps, ∀ y ∈ g d, y ≤ 1) → constructCurves m ps pct (some "ggmax") = .ok (some (ps.map fun d => pct.zip (g d)), none)) ∧
    ((∀ d ∈ ps, ∀ y ∈ x d, y ≤ 100) → constructCurves m ps pct (some "xi") = .ok (none, some (ps.map fun d => pct.zip (x d)))) ∧
    ((∃ d ∈ ps, ∃ y ∈ g d, 1 < y) → constructCurves m ps pct (some "ggmax") = .error .valueError) ∧
    ((∃ d ∈ ps, ∃ y ∈ x d, 100 < y) → constructCurves m ps pct (some "xi") = .error .valueError) ∧
    ((∀ d ∈ ps, (∀ y ∈ g d, y ≤ 1) ∧ ∀ y ∈ x d, y ≤ 100) →
      constructCurves m ps pct none = .ok (some (ps.map fun d => pct.zip (g d)), some (ps.map fun d => pct.zip (x d)))) ∧
    ((∃ d ∈ ps, (∃ y ∈ g d, 1 < y) ∨ ∃ y ∈ x d, 100 < y) → constructCurves m ps pct none = .error .valueError) := by
  have hblocks : ps.mapM (paramBlock m pct) = .ok (ps.map fun d => [pct, g d, pct, x d]) := by
    apply mapM_pure_map
    intro d hd
    unfold paramBlock
    simp only [hg d hd, hx d hd, bind, Except.bind, pure, Except.pure]
  have hlen : (ps.map fun d => [pct, g d, pct, x d]).flatten.length = ps.length * 4 := by
    rw [List.length_flatten, List.map_map]
    have : (List.length ∘ fun d => [pct, g d, pct, x d]) = fun _ => 4 := rfl
    rw [this]; simp
  have hext : extractCurves ⟨pct.length, (ps.map fun d => [pct, g d, pct, x d]).flatten⟩ false =
      .ok (ps.map (fun d => (⟨pct.length, [pct, g d]⟩ : CMat ℝ)), ps.map fun d => ⟨pct.length, [pct, x d]⟩) := by
    obtain ⟨gs, ds, e1, e2, e3, e4, e5, e6⟩ := C17_split
      (⟨pct.length, (ps.map fun d => [pct, g d, pct, x d]).flatten⟩ : CMat ℝ) false (by simp only; omega) (by intro h; cases h)
    simp only at e2 e3 e4 e5 e6
    obtain ⟨i1, i2⟩ := interleave_inj pct.length pct gs ds (ps.map fun d => (g d, x d)) (by rw [e2, List.length_map]; omega)
      (by rw [e3, List.length_map]; omega) e5 e6 (by rw [e4, List.map_map]; rfl)
    rw [e1, i1, i2, List.map_map, List.map_map]; rfl
  have hcg : ∀ d ∈ ps, curveOf .ggmax ⟨pct.length, [pct, g d]⟩ =
      if ∃ y ∈ g d, 1 < y then .error .valueError else .ok (pct.zip (g d)) := fun d hd =>
    (curveOf_gg pct.length pct (g d) (fun e he => (hpos e he).le) (hg0 d hd).2 (hg0 d hd).1).1
  have hcx : ∀ d ∈ ps, curveOf (.damping .pct) ⟨pct.length, [pct, x d]⟩ =
      if ∃ y ∈ x d, 100 < y then .error .valueError else .ok (pct.zip (x d)) := fun d hd =>
    (curveOf_gg pct.length pct (x d) (fun e he => (hpos e he).le) (hx0 d hd).2 (hx0 d hd).1).2
  have okg : (∀ d ∈ ps, ∀ y ∈ g d, y ≤ 1) →
      (ps.map fun d => (⟨pct.length, [pct, g d]⟩ : CMat ℝ)).mapM (curveOf .ggmax) = .ok (ps.map fun d => pct.zip (g d)) := by
    intro h
    rw [List.mapM_map]
    apply mapM_pure_map
    intro d hd
    simp only [Function.comp]
    rw [hcg d hd, if_neg]
    rintro ⟨y, hy, hl⟩
    exact absurd (h d hd y hy) (not_le.2 hl)
  have okx : (∀ d ∈ ps, ∀ y ∈ x d, y ≤ 100) →
      (ps.map fun d => (⟨pct.length, [pct, x d]⟩ : CMat ℝ)).mapM (curveOf (.damping .pct)) =
        .ok (ps.map fun d => pct.zip (x d)) := by
    intro h
    rw [List.mapM_map]
    apply mapM_pure_map
    intro d hd
    simp only [Function.comp]
    rw [hcx d hd, if_neg]
    rintro ⟨y, hy, hl⟩
    exact absurd (h d hd y hy) (not_le.2 hl)
  have erg : (∃ d ∈ ps, ∃ y ∈ g d, 1 < y) →
      (ps.map fun d => (⟨pct.length, [pct, g d]⟩ : CMat ℝ)).mapM (curveOf .ggmax) = .error .valueError := by
    rintro ⟨d, hd, hy⟩
    rw [List.mapM_map]
    apply mapM_some_error
    · intro d hd
      simp only [Function.comp]
      rw [hcg d hd]
      by_cases hc : ∃ y ∈ g d, 1 < y
      · right; rw [if_pos hc]
      · left; rw [if_neg hc]; exact ⟨_, rfl⟩
    · exact ⟨d, hd, by simp only [Function.comp]; rw [hcg d hd, if_pos hy]⟩
  have erx : (∃ d ∈ ps, ∃ y ∈ x d, 100 < y) →
      (ps.map fun d => (⟨pct.length, [pct, x d]⟩ : CMat ℝ)).mapM (curveOf (.damping .pct)) = .error .valueError := by
    rintro ⟨d, hd, hy⟩
    rw [List.mapM_map]
    apply mapM_some_error
    · intro d hd
      simp only [Function.comp]
      rw [hcx d hd]
      by_cases hc : ∃ y ∈ x d, 100 < y
      · right; rw [if_pos hc]
      · left; rw [if_neg hc]; exact ⟨_, rfl⟩
    · exact ⟨d, hd, by simp only [Function.comp]; rw [hcx d hd, if_pos hy]⟩
  have n1 : ¬ ("xi" = "ggmax") := by decide
  refine ⟨?_, ?_, ?_, ?_, ?_, ?_⟩
  · intro h
    unfold constructCurves
    simp only [hblocks, bind, Except.bind, if_neg hne, hext, okg h, if_true]; rfl
  · intro h
    unfold constructCurves
    simp only [hblocks, bind, Except.bind, if_neg hne, hext, okx h, Option.some.injEq, if_neg n1, if_true]; rfl
  · intro h
    unfold constructCurves
    simp only [hblocks, bind, Except.bind, if_neg hne, hext, erg h, if_true]
  · intro h
    unfold constructCurves
    simp only [hblocks, bind, Except.bind, if_neg hne, hext, erx h, Option.some.injEq, if_neg n1, if_true]
  · intro h
    unfold constructCurves
    simp only [hblocks, bind, Except.bind, if_neg hne, hext, okg (fun d hd => (h d hd).1), okx (fun d hd => (h d hd).2)]; rfl
  · rintro ⟨d, hd, hy⟩
    unfold constructCurves
    by_cases hc : ∃ d ∈ ps, ∃ y ∈ g d, 1 < y
    · simp only [hblocks, bind, Except.bind, if_neg hne, hext, erg hc]; rfl
    · have hx' : ∃ d ∈ ps, ∃ y ∈ x d, 100 < y := by
        rcases hy with hy | hy
        · exact absurd ⟨d, hd, hy⟩ hc
        · exact ⟨d, hd, hy⟩
      have hg' : ∀ d ∈ ps, ∀ y ∈ g d, y ≤ 1 := by
        intro d hd y hy
        by_contra hh
        exact hc ⟨d, hd, y, hy, not_le.1 hh⟩
      simp only [hblocks, bind, Except.bind, if_neg hne, hext, okg hg', erx hx']; rfl

theorem twiceArea_length {K : Type} [Field K] : ∀ (pts : List (K × K)) (a : K) (q : K × K), (Spec.twiceArea a q pts).length = pts.length
  | [], _, _ => rfl
  | p :: pts, a, q => by simp only [Spec.twiceArea, List.length_cons, twiceArea_length pts]

theorem hysteretic_length {K : Type} [Field K] [LinearOrder K] (pi : K) (pts : List (K × K)) :
    (Spec.hysteretic pi pts).length = pts.length := by
  unfold Spec.hysteretic
  rw [List.length_zipWith, twiceArea_length, min_self]

theorem hysteretic_nonneg {K : Type} [Field K] [LinearOrder K] (pi : K) (pts : List (K × K)) :
    ∀ y ∈ Spec.hysteretic pi pts, 0 ≤ y := by
  intro y hy
  unfold Spec.hysteretic at hy
  obtain ⟨i, hi, rfl⟩ := List.getElem_of_mem hy
  rw [List.getElem_zipWith]
  exact le_max_right _ _

/-- Points of an MKZ backbone with `s ≤ 1`. -/
theorem mkz_backbone (gr beta s G : ℝ) (h1 : 0 < gr) (h2 : 0 < beta) (h3 : 0 < s) (h4 : s ≤ 1) (h5 : 0 < G) :
    ∀ (pct : List ℝ) (e : ℝ), (∀ x ∈ pct, e < x) → pct.Pairwise (· < ·) →
      Spec.Backbone (e / 100) (tauMKZ gr beta s G (e / 100)) (pct.map fun e => (e / 100, tauMKZ gr beta s G (e / 100)))
  | [], _, _, _ => trivial
  | x :: pct, e, h, hp => by
    have hx := h x List.mem_cons_self
    obtain ⟨p1, p2⟩ := List.pairwise_cons.1 hp
    refine ⟨by simp only; linarith, C42_monotone h1 h2 h3 h4 h5 _ _ (by linarith), ?_⟩
    exact mkz_backbone gr beta s G h1 h2 h3 h4 h5 pct x p1 p2

namespace Spec

/-- The MKZ modulus reduction at a strain in percent. -/
noncomputable def mkzGG (gr s beta e : ℝ) : ℝ := 1 / (1 + beta * (e / 100 / gr) ^ s)

end Spec

/-- G/Gmax of MKZ parameters lies in (0, 1] and decreases with strain. -/
theorem C122_modulus (gr s beta : ℝ) (h1 : 0 < gr) (h2 : 0 < beta) (h3 : 0 < s) (e e' : ℝ) (he : 0 < e) (hee : e ≤ e') :
    0 < Spec.mkzGG gr s beta e ∧ Spec.mkzGG gr s beta e ≤ 1 ∧ Spec.mkzGG gr s beta e' ≤ Spec.mkzGG gr s beta e := by
  unfold Spec.mkzGG
  have hx : 0 ≤ (e / 100 / gr) ^ s := Real.rpow_nonneg (by positivity) _
  have hxy : (e / 100 / gr) ^ s ≤ (e' / 100 / gr) ^ s := by
    apply Real.rpow_le_rpow (by positivity) _ h3.le
    gcongr
  have hb := mul_nonneg h2.le hx
  have hb2 := mul_le_mul_of_nonneg_left hxy h2.le
  refine ⟨by positivity, ?_, ?_⟩
  · rw [div_le_one (by linarith)]; linarith
  · exact one_div_le_one_div_of_le (by linarith) (by linarith)

/-- Curves of MKZ layers: one G/Gmax and one damping curve per layer, in order, at the strains asked for; G/Gmax is the MKZ
formula, damping starts at 0 and stays in [0, 200/π] percent; `curve_type` selects. -/
theorem C122_mkz (ps : List (Dict ℝ)) (pct : List ℝ) (hps : ps ≠ []) (hne : pct ≠ []) (hpos : ∀ e ∈ pct, 0 < e)
    (hinc : pct.Pairwise (· < ·))
    (hset : ∀ d ∈ ps, ∃ gr s beta G, MKZSet d gr s beta G ∧ 0 < gr ∧ 0 < s ∧ s ≤ 1 ∧ 0 < beta ∧ 0 < G) :
    ∃ g x, constructCurves .mkz ps pct none = .ok (some g, some x) ∧
      constructCurves .mkz ps pct (some "ggmax") = .ok (some g, none) ∧
      constructCurves .mkz ps pct (some "xi") = .ok (none, some x) ∧ g.length = ps.length ∧ x.length = ps.length ∧
      ∀ (j : Nat) d gr s beta G, ps[j]? = some d → MKZSet d gr s beta G →
        g[j]? = some (pct.map fun e => (e, Spec.mkzGG gr s beta e)) ∧
        ∃ xi, x[j]? = some (pct.zip xi) ∧ xi.length = pct.length ∧ xi[0]? = some 0 ∧
          ∀ y ∈ xi, 0 ≤ y ∧ y ≤ 200 / Real.pi := by
  classical
  -- values of a layer
  have hval : ∀ d gr s beta G, MKZSet d gr s beta G → 0 < gr → 0 < s → s ≤ 1 → 0 < beta → 0 < G →
      ∃ xi, paramGGmax .mkz d pct = .ok (pct.map (Spec.mkzGG gr s beta)) ∧ paramDamping .mkz d pct = .ok xi ∧
        xi.length = pct.length ∧ xi[0]? = some 0 ∧ ∀ y ∈ xi, 0 ≤ y ∧ y ≤ 200 / Real.pi := by
    intro d gr s beta G h h1 h3 h4 h2 h5
    obtain ⟨a1, a2⟩ := param_values .mkz d _ G pct h5 hne hpos (tauMKZ_pos gr beta s G h1 h2 h5) h.G
      (stressOf_mkz d gr s beta G h)
    have hcd := C40_value Real.pi G (pct.map fun e => (e / 100, tauMKZ gr beta s G (e / 100))) (by simpa using hne) h5.ne' (by
      intro p hp
      obtain ⟨x, hx, rfl⟩ := List.mem_map.1 hp
      have : 0 < x / 100 := by have := hpos x hx; positivity
      exact ⟨this.ne', (tauMKZ_pos gr beta s G h1 h2 h5 _ this).ne'⟩)
    refine ⟨_, ?_, a2, ?_, ?_, ?_⟩
    · rw [a1]
      congr 1
      apply List.map_congr_left
      intro e he
      have he' : 0 < e / 100 := by have := hpos e he; positivity
      unfold Spec.mkzGG tauMKZ
      have := mkz_den_pos (s := s) h1 h2 (e / 100)
      rw [abs_of_pos he'] at this ⊢
      have h0 : (1 + beta * (e / 100 / gr) ^ s) ≠ 0 := by linarith
      have := hpos e he
      field_simp
    · rw [List.length_map, hysteretic_length, List.length_map]
    · have := C40_first Real.pi G _ _ (by simpa using hne) h5.ne' (by
        intro p hp
        obtain ⟨x, hx, rfl⟩ := List.mem_map.1 hp
        have : 0 < x / 100 := by have := hpos x hx; positivity
        exact ⟨this.ne', (tauMKZ_pos gr beta s G h1 h2 h5 _ this).ne'⟩) hcd
      rw [List.getElem?_map, this]; simp
    · intro y hy
      obtain ⟨z, hz, rfl⟩ := List.mem_map.1 hy
      refine ⟨mul_nonneg (hysteretic_nonneg _ _ z hz) (by norm_num), ?_⟩
      have hb : z ≤ 2 / Real.pi := by
        cases pct with
        | nil => exact absurd rfl hne
        | cons e0 es =>
          obtain ⟨p1, p2⟩ := List.pairwise_cons.1 hinc
          have he0 : 0 < e0 / 100 := by have := hpos e0 List.mem_cons_self; positivity
          exact C40_bound Real.pi G Real.pi_pos (e0 / 100, tauMKZ gr beta s G (e0 / 100)) _ _ h5.ne' he0
            (tauMKZ_pos gr beta s G h1 h2 h5 _ he0) (mkz_backbone gr beta s G h1 h2 h3 h4 h5 es e0 p1 p2) hcd z hz
      have : 200 / Real.pi = 2 / Real.pi * 100 := by ring
      rw [this]
      exact mul_le_mul_of_nonneg_right hb (by norm_num)
  have hpi : 200 / Real.pi ≤ 100 := by
    rw [div_le_iff₀ Real.pi_pos]
    have := Real.pi_gt_three
    linarith
  set g : Dict ℝ → List ℝ := fun d => match paramGGmax .mkz d pct with | .ok v => v | .error _ => [] with hgd
  set x : Dict ℝ → List ℝ := fun d => match paramDamping .mkz d pct with | .ok v => v | .error _ => [] with hxd
  have hfor : ∀ d gr s beta G, d ∈ ps → MKZSet d gr s beta G → g d = pct.map (Spec.mkzGG gr s beta) ∧
      paramGGmax .mkz d pct = .ok (g d) ∧ paramDamping .mkz d pct = .ok (x d) ∧
      (x d).length = pct.length ∧ (x d)[0]? = some 0 ∧ (∀ y ∈ x d, 0 ≤ y ∧ y ≤ 200 / Real.pi) ∧ 0 < gr ∧ 0 < s ∧ 0 < beta := by
    intro d gr s beta G hd h
    obtain ⟨gr', s', beta', G', h', q1, q2, q3, q4, q5⟩ := hset d hd
    have i1 : gr' = gr := Except.ok.inj (h'.gr.symm.trans h.gr)
    have i2 : s' = s := Except.ok.inj (h'.s.symm.trans h.s)
    have i3 : beta' = beta := Except.ok.inj (h'.beta.symm.trans h.beta)
    have i4 : G' = G := Except.ok.inj (h'.G.symm.trans h.G)
    subst i1 i2 i3 i4
    obtain ⟨xi, v1, v2, v3, v4, v5⟩ := hval d gr' s' beta' G' h q1 q2 q3 q4 q5
    have eg : g d = pct.map (Spec.mkzGG gr' s' beta') := by simp only [hgd, v1]
    have ex : x d = xi := by simp only [hxd, v2]
    rw [eg, ex]
    exact ⟨rfl, v1, v2, v3, v4, v5, q1, q2, q4⟩
  have hall : ∀ d ∈ ps, paramGGmax .mkz d pct = .ok (g d) ∧ paramDamping .mkz d pct = .ok (x d) ∧
      ((g d).length = pct.length ∧ ∀ y ∈ g d, 0 ≤ y) ∧ ((x d).length = pct.length ∧ ∀ y ∈ x d, 0 ≤ y) ∧
      (∀ y ∈ g d, y ≤ 1) ∧ ∀ y ∈ x d, y ≤ 100 := by
    intro d hd
    obtain ⟨gr, s, beta, G, h, _⟩ := hset d hd
    obtain ⟨w1, w2, w3, w4, w5, w6, w7, w8, w9⟩ := hfor d gr s beta G hd h
    have hgy : ∀ y ∈ g d, 0 ≤ y ∧ y ≤ 1 := by
      intro y hy
      rw [w1] at hy
      obtain ⟨e, he, rfl⟩ := List.mem_map.1 hy
      obtain ⟨m1, m2, _⟩ := C122_modulus gr s beta w7 w9 w8 e e (hpos e he) le_rfl
      exact ⟨m1.le, m2⟩
    refine ⟨w2, w3, ⟨by rw [w1, List.length_map], fun y hy => (hgy y hy).1⟩, ⟨w4, fun y hy => (w6 y hy).1⟩,
      fun y hy => (hgy y hy).2, fun y hy => (w6 y hy).2.trans hpi⟩
  obtain ⟨c1, c2, _, _, c5, _⟩ := construct_spec .mkz ps pct g x hps hpos (fun d hd => (hall d hd).1) (fun d hd => (hall d hd).2.1)
    (fun d hd => (hall d hd).2.2.1) (fun d hd => (hall d hd).2.2.2.1)
  refine ⟨ps.map fun d => pct.zip (g d), ps.map fun d => pct.zip (x d), c5 (fun d hd => (hall d hd).2.2.2.2),
    c1 (fun d hd => (hall d hd).2.2.2.2.1), c2 (fun d hd => (hall d hd).2.2.2.2.2), by simp, by simp, ?_⟩
  intro j d gr s beta G hj h
  obtain ⟨w1, w2, w3, w4, w5, w6, _⟩ := hfor d gr s beta G (List.mem_of_getElem? hj) h
  refine ⟨?_, x d, ?_, w4, w5, w6⟩
  · rw [List.getElem?_map, hj, Option.map_some, w1, zip_map_self]
  · rw [List.getElem?_map, hj, Option.map_some]

/-- Curves of HH layers: the stress ratio and the hysteretic damping of the HH stress; accepted exactly if no G/Gmax exceeds
1 and no damping exceeds 100 percent, ValueError otherwise. -/
theorem C122_hh (ps : List (Dict ℝ)) (pct : List ℝ) (hps : ps ≠ []) (hne : pct ≠ []) (hpos : ∀ e ∈ pct, 0 < e)
    (par : Dict ℝ → HHParam) (hset : ∀ d ∈ ps, HHSet d (par d) ∧ HHPos (par d)) :
    let g := fun d => pct.map fun e => hhOne (par d) (e / 100) / (e / 100) / (par d).Gmax
    let x := fun d => (Spec.hysteretic Real.pi (pct.map fun e => (e / 100, hhOne (par d) (e / 100)))).map (· * 100)
    ((∀ d ∈ ps, (∀ y ∈ g d, y ≤ 1) ∧ ∀ y ∈ x d, y ≤ 100) →
      constructCurves .hh ps pct none = .ok (some (ps.map fun d => pct.zip (g d)), some (ps.map fun d => pct.zip (x d)))) ∧
    ((∃ d ∈ ps, (∃ y ∈ g d, 1 < y) ∨ ∃ y ∈ x d, 100 < y) → constructCurves .hh ps pct none = .error .valueError) := by
  intro g x
  have hval : ∀ d ∈ ps, paramGGmax .hh d pct = .ok (g d) ∧ paramDamping .hh d pct = .ok (x d) := by
    intro d hd
    obtain ⟨h1, h2⟩ := hset d hd
    exact param_values .hh d _ (par d).Gmax pct h2.G hne hpos
      (fun e he => C44_positive (par d) e he h2.gr h2.beta h2.G h2.mu h2.T) h1.G (stressOf_hh d (par d) h1 h2.gt)
  obtain ⟨_, _, _, _, c5, c6⟩ := construct_spec .hh ps pct g x hps hpos (fun d hd => (hval d hd).1) (fun d hd => (hval d hd).2)
    (by
      intro d hd
      refine ⟨by simp [g], ?_⟩
      intro y hy
      obtain ⟨e, he, rfl⟩ := List.mem_map.1 hy
      obtain ⟨h1, h2⟩ := hset d hd
      have he' : 0 < e / 100 := by have := hpos e he; positivity
      have := C44_positive (par d) (e / 100) he' h2.gr h2.beta h2.G h2.mu h2.T
      have := h2.G
      positivity)
    (by
      intro d hd
      refine ⟨by simp [x, hysteretic_length], ?_⟩
      intro y hy
      obtain ⟨z, hz, rfl⟩ := List.mem_map.1 hy
      exact mul_nonneg (hysteretic_nonneg _ _ z hz) (by norm_num))
  exact ⟨c5, c6⟩

/-- Wrong names are a TypeError of the stress function; no layers, or no strains, are errors. -/
theorem C122_rejects (m : SoilModel) (d : Dict ℝ) (ps : List (Dict ℝ)) (pct : List ℝ) (t : Option String) :
    (sameKeys d m.keys = false → constructCurves m (d :: ps) pct t = .error .typeError) ∧
    (t = some "ggmax" ∨ t = some "xi" → constructCurves m [] pct t = .error .typeError) ∧
    (¬ (t = some "ggmax" ∨ t = some "xi") → constructCurves m [] pct t = .error .valueError) := by
  refine ⟨?_, ?_, ?_⟩
  · intro h
    unfold constructCurves
    have : paramBlock m pct d = .error .typeError := by
      unfold paramBlock paramGGmax paramStress stressOf
      simp [h, bind, Except.bind]
    rw [List.mapM_cons, this]; rfl
  · intro h
    unfold constructCurves
    simp only [List.mapM_nil, bind, Except.bind, pure, Except.pure, if_true, if_pos h]
  · intro h
    unfold constructCurves
    simp only [List.mapM_nil, bind, Except.bind, pure, Except.pure, if_true, if_neg h]

example : MKZSet [("gamma_ref", 1), ("s", 0.9), ("beta", 2), ("Gmax", 5)] 1 0.9 2 5 :=
  ⟨by simp [sameKeys, mkzKeys], by simp [Dict.look], by simp [Dict.look], by simp [Dict.look], by simp [Dict.look]⟩

/-! ## C123 -/

/-- The mean absolute error is non-negative, zero only for equal data, and symmetric. -/
theorem C123_error (y p : List ℝ) (e : ℝ) (h : meanAbsErr y p = .ok e) :
    0 ≤ e ∧ (e = 0 ↔ y = p) ∧ meanAbsErr p y = .ok e := by
  unfold meanAbsErr at h
  split_ifs at h with h1 h2
  have h1 : y.length = p.length := not_not.1 h1
  have := Except.ok.inj h
  have hz : ∀ (y p : List ℝ), y.length = p.length → 0 ≤ (List.zipWith (fun a b => |a - b|) y p).sum ∧
      ((List.zipWith (fun a b => |a - b|) y p).sum = 0 ↔ y = p) ∧
      List.zipWith (fun a b => |a - b|) p y = List.zipWith (fun a b => |a - b|) y p := by
    intro y
    induction y with
    | nil => intro p hp; match p, hp with | [], _ => simp
    | cons a y ih =>
      intro p hp
      match p, hp with
      | b :: p, hp =>
        obtain ⟨i1, i2, i3⟩ := ih p (by simpa using hp)
        simp only [List.zipWith_cons_cons, List.sum_cons, List.cons.injEq]
        have ha := abs_nonneg (a - b)
        refine ⟨by linarith, ?_, ?_, i3⟩
        · constructor
          · intro h0
            refine ⟨sub_eq_zero.1 (abs_eq_zero.1 (by linarith)), i2.1 (by linarith)⟩
          · rintro ⟨rfl, rfl⟩
            have := i2.2 rfl
            simp [this]
        · exact abs_sub_comm b a
  obtain ⟨z1, z2, z3⟩ := hz y p h1
  have hn : 0 < (y.length : ℝ) := by
    have := List.length_pos_of_ne_nil h2
    exact_mod_cast this
  subst this
  refine ⟨by positivity, ?_, ?_⟩
  · rw [div_eq_zero_iff, or_iff_left hn.ne']; exact z2
  · unfold meanAbsErr
    rw [if_neg (by simpa using h1.symm), if_neg (by intro hc; rw [hc] at h1; exact h2 (List.length_eq_zero_iff.1 h1)), z3, h1]

/-- The number the optimiser minimises for MKZ is the error of the damping of the parameter set that is returned. -/
theorem C123_mkz (x : List ℝ) (data : List (ℝ × ℝ)) (d : Dict ℝ) (hl : x.length = 3) (hd : mkzOfPowers x = .ok d) :
    misfitMKZ x data = (dampingFromParam .mkz d (data.map Prod.fst)) >>= fun p => meanAbsErr (data.map Prod.snd) p := by
  match x, hl with
  | [gr, s, beta], _ =>
    have := Except.ok.inj hd
    have hset : MKZSet d (10 ^ gr) (10 ^ s) (10 ^ beta) 1 := by
      subst this
      exact ⟨by simp [sameKeys, mkzKeys], by simp [Dict.look], by simp [Dict.look], by simp [Dict.look], by simp [Dict.look]⟩
    unfold misfitMKZ dampingFromParam
    simp only [stressOf_mkz d _ _ _ _ hset, hset.G, bind, Except.bind]
    cases calcDamping Real.pi (data.map Prod.fst) ((data.map Prod.fst).map (tauMKZ (10 ^ gr) (10 ^ beta) (10 ^ s) 1)) 1 <;> rfl

/-- The same for HH. -/
theorem C123_hh (x : List ℝ) (data : List (ℝ × ℝ)) (d : Dict ℝ) (hl : x.length = 9) (hd : hhOfPowers x = .ok d) :
    misfitHH x data = (dampingFromParam .hh d (data.map Prod.fst)) >>= fun p => meanAbsErr (data.map Prod.snd) p := by
  match x, hl with
  | [gt, a, gr, beta, s, G, mu, T, dd], _ =>
    have := Except.ok.inj hd
    have hset : HHSet d ⟨10 ^ gt, 10 ^ a, 10 ^ gr, 10 ^ beta, 10 ^ s, 10 ^ G, 10 ^ mu, 10 ^ T, 10 ^ dd⟩ := by
      subst this
      constructor <;> simp [sameKeys, hhKeys, Dict.look]
    have hgt : (0 : ℝ) < 10 ^ gt := Real.rpow_pos_of_pos (by norm_num) _
    unfold misfitHH dampingFromParam
    simp only [stressOf_hh d _ hset hgt, hset.G, bind, Except.bind]
    unfold tauHH transition
    simp only [hgt, not_true_eq_false, if_false]
    generalize calcDamping Real.pi (data.map Prod.fst) _ _ = r
    cases r <;> rfl

end Verif
