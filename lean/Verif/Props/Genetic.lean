import Verif.Model.Genetic
import Verif.Props.Fit

set_option linter.unusedSectionVars false
set_option linter.unusedVariables false

/-!
Property C134: the genetic search stays within the bounds and returns the best individual it has met.
-/

namespace Verif

namespace Spec

/-- Draws of `random.random()`. -/
def UnitDraws (o : GaOracle) : Prop := ∀ j i, 0 ≤ o.draw j i ∧ o.draw j i ≤ 1

/-- Individuals with `n` genes, all within the bounds. -/
def InBox (lo hi : ℝ) (n : Nat) (pop : List (List ℝ)) : Prop := ∀ p ∈ pop, p.length = n ∧ ∀ x ∈ p, lo ≤ x ∧ x ≤ hi

/-- The populations of a search. -/
noncomputable def gaPop (o : GaOracle) (lo hi : ℝ) (n pop : Nat) : Nat → List (List ℝ)
  | 0 => gaInit o lo hi n pop
  | g + 1 => gaOffspring o lo hi (g + 1) (gaPop o lo hi n pop g)

/-- `b` with loss `v` is the best of the individuals in `S`. -/
def Best (loss : List ℝ → Except PyErr ℝ) (S : List ℝ → Prop) (b : List ℝ) (v : ℝ) : Prop :=
  S b ∧ loss b = .ok v ∧ ∀ p, S p → ∃ w, loss p = .ok w ∧ v ≤ w

end Spec

open Spec (UnitDraws InBox gaPop Best)

theorem gaInit_box (o : GaOracle) (lo hi : ℝ) (n pop : Nat) (h : lo ≤ hi) (hu : UnitDraws o) :
    InBox lo hi n (gaInit o lo hi n pop) := by
  intro p hp
  obtain ⟨j, _, rfl⟩ := List.mem_map.1 hp
  refine ⟨by simp, ?_⟩
  intro x hx
  obtain ⟨i, _, rfl⟩ := List.mem_map.1 hx
  obtain ⟨h0, h1⟩ := hu j i
  constructor <;> nlinarith

theorem gaOffspring_length (o : GaOracle) (lo hi : ℝ) (g : Nat) (pop : List (List ℝ)) :
    (gaOffspring o lo hi g pop).length = pop.length := by simp [gaOffspring]

theorem gaOffspring_box (o : GaOracle) (lo hi : ℝ) (n g : Nat) (pop : List (List ℝ)) (h : lo ≤ hi) (hp : InBox lo hi n pop) :
    InBox lo hi n (gaOffspring o lo hi g pop) := by
  intro p hpm
  obtain ⟨j, hj, rfl⟩ := List.mem_map.1 hpm
  have hpos : 0 < pop.length := lt_of_le_of_lt (Nat.zero_le _) (List.mem_range.1 hj)
  have hlt : o.parent g j % pop.length < pop.length := Nat.mod_lt _ hpos
  obtain ⟨q1, q2⟩ := hp (pop.getD (o.parent g j % pop.length) []) (by
    rw [List.getD_eq_getElem?_getD, List.getElem?_eq_getElem hlt]; exact List.getElem_mem hlt)
  refine ⟨by rw [List.length_mapIdx, q1], ?_⟩
  intro x hx
  obtain ⟨i, hi', rfl⟩ := List.mem_mapIdx.1 hx
  cases o.gene g j i with
  | none => exact q2 _ (List.getElem_mem hi')
  | some y => exact ⟨le_min (le_max_right _ _) h, min_le_right _ _⟩

theorem gaPop_box (o : GaOracle) (lo hi : ℝ) (n pop : Nat) (h : lo ≤ hi) (hu : UnitDraws o) :
    ∀ g, InBox lo hi n (gaPop o lo hi n pop g)
  | 0 => gaInit_box o lo hi n pop h hu
  | g + 1 => gaOffspring_box o lo hi n (g + 1) _ h (gaPop_box o lo hi n pop h hu g)

theorem gaEval_ok {loss : List ℝ → Except PyErr ℝ} : ∀ {pop : List (List ℝ)} {l : List (List ℝ × ℝ)}, gaEval loss pop = .ok l →
    l.map Prod.fst = pop ∧ ∀ q ∈ l, loss q.1 = .ok q.2
  | [], l, h => by cases h; exact ⟨rfl, by simp⟩
  | p :: pop, l, h => by
    have hcons : gaEval loss (p :: pop) = (do let v ← (loss p).map fun v => (p, v); let r ← gaEval loss pop; pure (v :: r)) := by
      unfold gaEval; rw [List.mapM_cons]
    rw [hcons] at h
    cases hp : loss p with
    | error e => rw [hp] at h; cases h
    | ok v =>
      cases hr : gaEval loss pop with
      | error e => rw [hp, hr] at h; cases h
      | ok r =>
        obtain ⟨h1, h2⟩ := gaEval_ok hr
        rw [hp, hr] at h
        cases h
        refine ⟨by rw [List.map_cons, h1], ?_⟩
        intro q hq
        rcases List.mem_cons.1 hq with rfl | hq
        · exact hp
        · exact h2 q hq

/-- The hall of fame holds the best of everything it has been shown. -/
theorem gaFame_some (l : List (List ℝ × ℝ)) : ∀ (w : List ℝ × ℝ), ∃ b, gaFame (some w) l = some b ∧ (b = w ∨ b ∈ l) ∧ b.2 ≤ w.2 ∧
    ∀ q ∈ l, b.2 ≤ q.2 := by
  induction l with
  | nil => intro w; exact ⟨w, rfl, .inl rfl, le_refl _, by simp⟩
  | cons a l ih =>
    intro w
    by_cases h : a.2 < w.2
    · obtain ⟨b, h1, h2, h3, h4⟩ := ih a
      refine ⟨b, ?_, ?_, h3.trans h.le, ?_⟩
      · unfold gaFame at h1 ⊢
        rw [List.foldl_cons]
        simp only [if_pos h]
        exact h1
      · rcases h2 with rfl | h2
        · exact .inr List.mem_cons_self
        · exact .inr (List.mem_cons_of_mem _ h2)
      · intro q hq
        rcases List.mem_cons.1 hq with rfl | hq
        · exact h3
        · exact h4 q hq
    · obtain ⟨b, h1, h2, h3, h4⟩ := ih w
      refine ⟨b, ?_, ?_, h3, ?_⟩
      · unfold gaFame at h1 ⊢
        rw [List.foldl_cons]
        simp only [if_neg h]
        exact h1
      · rcases h2 with rfl | h2
        · exact .inl rfl
        · exact .inr (List.mem_cons_of_mem _ h2)
      · intro q hq
        rcases List.mem_cons.1 hq with rfl | hq
        · exact h3.trans (not_lt.1 h)
        · exact h4 q hq

theorem gaFame_none (a : List ℝ × ℝ) (l : List (List ℝ × ℝ)) : gaFame none (a :: l) = gaFame (some a) l := rfl

/-- The loop, from generation `g`. -/
theorem gaLoop_best (o : GaOracle) (loss : List ℝ → Except PyErr ℝ) (lo hi : ℝ) (n pop : Nat) :
    ∀ (k g : Nat) (b : List ℝ × ℝ) (r : Option (List ℝ × ℝ)),
      Best loss (fun p => ∃ j ≤ g, p ∈ gaPop o lo hi n pop j) b.1 b.2 →
      gaLoop o loss lo hi k (g + 1) (gaPop o lo hi n pop g) (some b) = .ok r →
      ∃ b', r = some b' ∧ Best loss (fun p => ∃ j ≤ g + k, p ∈ gaPop o lo hi n pop j) b'.1 b'.2
  | 0, g, b, r, hb, h => by
    have : some b = r := Except.ok.inj h
    exact ⟨b, this.symm, hb⟩
  | k + 1, g, b, r, hb, h => by
    unfold gaLoop at h
    cases he : gaEval loss (gaOffspring o lo hi (g + 1) (gaPop o lo hi n pop g)) with
    | error e => rw [he] at h; cases h
    | ok l =>
      rw [he] at h
      simp only at h
      obtain ⟨e1, e2⟩ := gaEval_ok he
      obtain ⟨c, f1, f2, f3, f4⟩ := gaFame_some l b
      rw [f1] at h
      obtain ⟨hs, hl, hbest⟩ := hb
      have hnew : Best loss (fun p => ∃ j ≤ g + 1, p ∈ gaPop o lo hi n pop j) c.1 c.2 := by
        refine ⟨?_, ?_, ?_⟩
        · rcases f2 with rfl | f2
          · obtain ⟨j, hj, hm⟩ := hs
            exact ⟨j, by omega, hm⟩
          · refine ⟨g + 1, le_refl _, ?_⟩
            show c.1 ∈ gaOffspring o lo hi (g + 1) (gaPop o lo hi n pop g)
            rw [← e1]
            exact List.mem_map.2 ⟨c, f2, rfl⟩
        · rcases f2 with rfl | f2
          · exact hl
          · exact e2 c f2
        · rintro p ⟨j, hj, hm⟩
          by_cases hjg : j ≤ g
          · obtain ⟨w, w1, w2⟩ := hbest p ⟨j, hjg, hm⟩
            exact ⟨w, w1, f3.trans w2⟩
          · obtain rfl : j = g + 1 := by omega
            have hm' : p ∈ gaOffspring o lo hi (g + 1) (gaPop o lo hi n pop g) := hm
            rw [← e1] at hm'
            obtain ⟨q, hq, rfl⟩ := List.mem_map.1 hm'
            exact ⟨q.2, e2 q hq, f4 q hq⟩
      obtain ⟨b', r1, r2⟩ := gaLoop_best o loss lo hi n pop k (g + 1) c r hnew h
      refine ⟨b', r1, ?_⟩
      rw [show g + (k + 1) = g + 1 + k by omega]
      exact r2

/-! ## C134 -/

/-- A search that returns gives the best of all individuals of the first population and of every generation, for any random
choices and any loss function. -/
theorem C134_best (o : GaOracle) (loss : List ℝ → Except PyErr ℝ) (n pop gens : Nat) (lo hi : ℝ) (r : List ℝ)
    (h : gaDeap o loss n lo hi pop gens = .ok r) :
    ∃ v, Best loss (fun p => ∃ g ≤ gens, p ∈ gaPop o lo hi n pop g) r v := by
  unfold gaDeap at h
  by_cases hn : n = 0
  · rw [if_pos hn] at h; cases h
  rw [if_neg hn] at h
  by_cases hp : pop = 0
  · rw [if_pos hp] at h; cases h
  rw [if_neg hp] at h
  cases he : gaEval loss (gaInit o lo hi n pop) with
  | error e => rw [he] at h; cases h
  | ok l =>
    rw [he] at h
    simp only at h
    obtain ⟨e1, e2⟩ := gaEval_ok he
    have hlen : l.length = pop := by
      have := congrArg List.length e1
      simpa [gaInit] using this
    match l, hlen with
    | [], hl => exact absurd hl.symm hp
    | a :: l, _ =>
      rw [gaFame_none] at h
      obtain ⟨c, f1, f2, f3, f4⟩ := gaFame_some l a
      rw [f1] at h
      have hc : c ∈ a :: l := by
        rcases f2 with rfl | f2
        · exact List.mem_cons_self
        · exact List.mem_cons_of_mem _ f2
      have hb : Best loss (fun p => ∃ j ≤ 0, p ∈ gaPop o lo hi n pop j) c.1 c.2 := by
        refine ⟨⟨0, le_refl _, ?_⟩, e2 c hc, ?_⟩
        · show c.1 ∈ gaInit o lo hi n pop
          rw [← e1]
          exact List.mem_map.2 ⟨c, hc, rfl⟩
        · rintro p ⟨j, hj, hm⟩
          obtain rfl : j = 0 := by omega
          have hm' : p ∈ gaInit o lo hi n pop := hm
          rw [← e1] at hm'
          obtain ⟨q, hq, rfl⟩ := List.mem_map.1 hm'
          refine ⟨q.2, e2 q hq, ?_⟩
          rcases List.mem_cons.1 hq with rfl | hq
          · exact f3
          · exact f4 q hq
      cases hloop : gaLoop o loss lo hi gens 1 (gaInit o lo hi n pop) (some c) with
      | error e => rw [hloop] at h; cases h
      | ok res =>
        rw [hloop] at h
        obtain ⟨b', r1, r2⟩ := gaLoop_best o loss lo hi n pop gens 0 c res hb hloop
        subst r1
        have hr := Except.ok.inj h
        subst hr
        refine ⟨b'.2, ?_⟩
        simpa using r2

/-- The result has one number for every parameter, all within the bounds. -/
theorem C134_bounds (o : GaOracle) (loss : List ℝ → Except PyErr ℝ) (n pop gens : Nat) (lo hi : ℝ) (r : List ℝ) (hlh : lo ≤ hi)
    (hu : UnitDraws o) (h : gaDeap o loss n lo hi pop gens = .ok r) : r.length = n ∧ ∀ x ∈ r, lo ≤ x ∧ x ≤ hi := by
  obtain ⟨v, ⟨g, _, hm⟩, _⟩ := C134_best o loss n pop gens lo hi r h
  exact gaPop_box o lo hi n pop hlh hu g r hm

/-- With the same random choices, more generations never give a greater loss. -/
theorem C134_more_generations (o : GaOracle) (loss : List ℝ → Except PyErr ℝ) (n pop g g' : Nat) (lo hi : ℝ) (r r' : List ℝ)
    (hg : g ≤ g') (h : gaDeap o loss n lo hi pop g = .ok r) (h' : gaDeap o loss n lo hi pop g' = .ok r') :
    ∃ v v', loss r = .ok v ∧ loss r' = .ok v' ∧ v' ≤ v := by
  obtain ⟨v, ⟨j, hj, hm⟩, hv, _⟩ := C134_best o loss n pop g lo hi r h
  obtain ⟨v', _, hv', hb⟩ := C134_best o loss n pop g' lo hi r' h'
  obtain ⟨w, hw, hle⟩ := hb r ⟨j, by omega, hm⟩
  rw [hv] at hw
  cases hw
  exact ⟨v, v', hv, hv', hle⟩

theorem gaEval_total {loss : List ℝ → Except PyErr ℝ} : ∀ (pop : List (List ℝ)), (∀ p ∈ pop, ∃ v, loss p = .ok v) →
    ∃ l, gaEval loss pop = .ok l
  | [], _ => ⟨[], rfl⟩
  | p :: pop, h => by
    obtain ⟨v, hv⟩ := h p List.mem_cons_self
    obtain ⟨l, hl⟩ := gaEval_total pop fun q hq => h q (List.mem_cons_of_mem _ hq)
    refine ⟨(p, v) :: l, ?_⟩
    unfold gaEval at hl ⊢
    rw [List.mapM_cons, hv, hl]
    rfl

/-- The search succeeds if the loss can be computed for every individual within the bounds. -/
theorem C134_succeeds (o : GaOracle) (loss : List ℝ → Except PyErr ℝ) (n pop gens : Nat) (lo hi : ℝ) (hlh : lo ≤ hi)
    (hu : UnitDraws o) (hn : n ≠ 0) (hp : pop ≠ 0)
    (hl : ∀ p : List ℝ, p.length = n → (∀ x ∈ p, lo ≤ x ∧ x ≤ hi) → ∃ v, loss p = .ok v) :
    ∃ r, gaDeap o loss n lo hi pop gens = .ok r := by
  have hev : ∀ g, ∃ l, gaEval loss (gaPop o lo hi n pop g) = .ok l := fun g =>
    gaEval_total _ fun p hpm => hl p (gaPop_box o lo hi n pop hlh hu g p hpm).1 (gaPop_box o lo hi n pop hlh hu g p hpm).2
  have hloop : ∀ k g w, ∃ b, gaLoop o loss lo hi k (g + 1) (gaPop o lo hi n pop g) (some w) = .ok (some b) := by
    intro k
    induction k with
    | zero => intro g w; exact ⟨w, rfl⟩
    | succ k ih =>
      intro g w
      obtain ⟨l, hl'⟩ := hev (g + 1)
      have hl2 : gaEval loss (gaOffspring o lo hi (g + 1) (gaPop o lo hi n pop g)) = .ok l := hl'
      obtain ⟨b, hb, _⟩ := gaFame_some l w
      obtain ⟨c, hc⟩ := ih (g + 1) b
      refine ⟨c, ?_⟩
      unfold gaLoop
      rw [hl2]
      simp only
      rw [hb]
      exact hc
  obtain ⟨l, h0⟩ := hev 0
  have h0' : gaEval loss (gaInit o lo hi n pop) = .ok l := h0
  have hlen : l.length = pop := by
    have := congrArg List.length (gaEval_ok h0').1
    simpa [gaInit] using this
  match l, hlen, h0' with
  | [], hlen, _ => exact absurd hlen.symm hp
  | a :: l, _, h0' =>
    obtain ⟨b, hb, _⟩ := gaFame_some l a
    obtain ⟨c, hc⟩ := hloop gens 0 b
    refine ⟨c.1, ?_⟩
    unfold gaDeap
    rw [if_neg hn, if_neg hp, h0']
    simp only [gaFame_none, hb]
    have hc' : gaLoop o loss lo hi gens 1 (gaInit o lo hi n pop) (some b) = .ok (some c) := hc
    rw [hc']

/-- No parameters and no individuals are rejected. -/
theorem C134_rejects (o : GaOracle) (loss : List ℝ → Except PyErr ℝ) (n pop gens : Nat) (lo hi : ℝ) :
    gaDeap o loss 0 lo hi pop gens = .error .zeroDivision ∧ (n ≠ 0 → gaDeap o loss n lo hi 0 gens = .error .valueError) := by
  constructor
  · unfold gaDeap; rw [if_pos rfl]
  · intro hn; unfold gaDeap; rw [if_neg hn, if_pos rfl]

/-- The search as the optimiser of the damping fits: it keeps the promise on which the bounds of the fitted parameters
(`C119_hh`, `C119_h4`) rest. -/
theorem C134_optimiser (o : GaOracle) (loss : List (ℝ × ℝ) → List ℝ → Except PyErr ℝ) (pop gens : Nat) (lo hi : ℝ) (hlh : lo ≤ hi)
    (hu : UnitDraws o) : Spec.RespectsBounds (fun n data => gaDeap o (loss data) n lo hi pop gens) lo hi :=
  fun n data r h => C134_bounds o (loss data) n pop gens lo hi r hlh hu h

/-- HH parameters fitted with the genetic search are positive and between the powers of ten given as bounds. -/
theorem C134_hh (o : GaOracle) (loss : List (ℝ × ℝ) → List ℝ → Except PyErr ℝ) (pop gens : Nat) (lo hi : ℝ) (hlh : lo ≤ hi)
    (hu : UnitDraws o) (d : List (ℝ × ℝ)) (p : Dict ℝ)
    (h : fitHH (fun n data => gaDeap o (loss data) n lo hi pop gens) d = .ok p) :
    p.map Prod.fst = hhKeys ∧ ∀ q ∈ p, (10 : ℝ) ^ lo ≤ q.2 ∧ q.2 ≤ (10 : ℝ) ^ hi ∧ 0 < q.2 :=
  ⟨(C119_hh _ lo hi d p (C134_optimiser o loss pop gens lo hi hlh hu) h).1,
    (C119_hh _ lo hi d p (C134_optimiser o loss pop gens lo hi hlh hu) h).2.1⟩

example : UnitDraws ⟨fun _ _ => 1 / 2, fun _ _ => 0, fun _ _ _ => some 7⟩ := by intro j i; norm_num

/-- One generation of two individuals: the child cut to the bound 3 is better for this loss. -/
example : ∃ r, gaDeap ⟨fun _ _ => 1 / 2, fun _ _ => 0, fun _ _ _ => some 7⟩ (fun p => .ok (-(p.sum))) 1 (-5) 3 2 1 = .ok r ∧
    r.length = 1 := by
  obtain ⟨r, hr⟩ := C134_succeeds ⟨fun _ _ => 1 / 2, fun _ _ => 0, fun _ _ _ => some 7⟩ (fun p => .ok (-(p.sum))) 1 2 1 (-5) 3
    (by norm_num) (by intro j i; norm_num) (by decide) (by decide) (fun p _ _ => ⟨_, rfl⟩)
  exact ⟨r, hr, (C134_bounds _ _ 1 2 1 (-5) 3 r (by norm_num) (by intro j i; norm_num) hr).1⟩

end Verif
