import Verif.Model.SvmSeed
import Verif.Props.SvmRand
import Mathlib.Data.Set.Card

/-!
C210: seeds of randomised profiles.
-/

set_option linter.unusedSectionVars false
set_option linter.unusedVariables false

namespace Verif

namespace Spec

/-- The streams of random numbers are long enough for the profile. -/
def Enough (rng : RandomNumbers) (s : Svm) : Prop :=
  ∀ b n m, s.z1 ≤ 2 * ((rng.layer b n).length : ℝ) ∧ (rng.layer b n).length ≤ (rng.veloc m).length

end Spec

open Spec

theorem pyInt_nonneg {x : ℝ} (h : 0 ≤ x) : pyInt x = ⌊x⌋ := by unfold pyInt; rw [if_pos h]

theorem npSeed_ok {k : Int} (h0 : 0 ≤ k) (h1 : k < 2 ^ 32) : npSeed k = .ok k.toNat := by
  unfold npSeed; rw [if_neg (by omega)]

theorem npSeed_bad {k : Int} (h : k < 0 ∨ 2 ^ 32 ≤ k) : npSeed k = .error .valueError := by
  unfold npSeed; rw [if_pos h]

theorem randomized_congr (s : Svm) {g g' : Nat → Except PyErr (List (ℝ × ℝ))} (c : Bool) (fuel : Nat) :
    ∀ k, (∀ j, k ≤ j → j < k + fuel → g j = g' j) → randomized s g c fuel k = randomized s g' c fuel k := by
  induction fuel with
  | zero => intro k _; rfl
  | succ fuel ih =>
    intro k h
    rw [randomized, randomized, h k le_rfl (by omega), ih (k + 1) fun j h1 h2 => h j (by omega) (by omega)]

theorem randomized_shift (s : Svm) (g : Nat → Except PyErr (List (ℝ × ℝ))) (c : Bool) (i fuel : Nat) :
    ∀ k, randomized s (fun j => g (j + i)) c fuel k = randomized s g c fuel (k + i) := by
  induction fuel with
  | zero => intro k; rfl
  | succ fuel ih =>
    intro k
    rw [randomized, randomized, ih, show k + 1 + i = k + i + 1 by omega]

/-- C210: equal integer parts of the seeds give equal results, at whatever time the method is called, with or without the search for a
compliant profile. -/
theorem C210_reproducible (rng : RandomNumbers) (s : Svm) (toroLay toroStd : Bool) (x y : ℝ) (hx : 0 ≤ x) (hy : 0 ≤ y) (h : ⌊x⌋ = ⌊y⌋)
    (c c' : Nat → Nat) (compliance : Bool) (fuel : Nat) :
    getRandomized rng s toroLay toroStd (.num x) c compliance fuel = getRandomized rng s toroLay toroStd (.num y) c' compliance fuel := by
  unfold getRandomized
  refine randomized_congr s compliance fuel 0 fun j _ _ => ?_
  have e : seedInt (some (x + j)) (c j) = seedInt (some (y + j)) (c' j) := by
    unfold seedInt
    simp only
    rw [pyInt_nonneg (by positivity), pyInt_nonneg (by positivity), Int.floor_add_natCast, Int.floor_add_natCast, h]
  unfold helperRand
  rw [e]

theorem helperRand_ok (rng : RandomNumbers) (s : Svm) (toroLay toroStd : Bool) (seed : Option ℝ) (sec : Nat) (h0 : 0 ≤ seedInt seed sec)
    (h1 : seedInt seed sec < 2 ^ 31) : helperRand rng s toroLay toroStd seed sec =
      randProfile s toroStd (rng.layer toroLay (seedInt seed sec).toNat) (rng.veloc (2 * seedInt seed sec).toNat) := by
  unfold helperRand
  rw [npSeed_ok h0 (by omega), npSeed_ok (by omega) (by omega)]
  rfl

/-- C210, what holds: every seed from 0 up to 2³¹ gives a profile of depth `z1`.  Missing: other numbers (`C210_range_violated`), and a new profile for each
call without seed (`C210_clock_violated`). -/
theorem C210_seeds_partial (rng : RandomNumbers) (s : Svm) (hp : Valid s.rows) (hz : 0 < s.z1) (hr : Enough rng s) (toroLay toroStd : Bool)
    (x : ℝ) (h0 : 0 ≤ x) (h1 : x < 2 ^ 31) (c : Nat → Nat) :
    ∃ o σ r5, getRandomized rng s toroLay toroStd (.num x) c false 1 = .ok (some (o, σ)) ∧ Consistent σ o r5 ∧ Constructed r5 o ∧ o.zMax = s.z1 ∧
      randProfile s toroStd (rng.layer toroLay ⌊x⌋.toNat) (rng.veloc (2 * ⌊x⌋).toNat) = .ok (r5.map Row.tv) := by
  have hf : ⌊x⌋ < 2 ^ 31 := by rw [Int.floor_lt]; push_cast; linarith
  have hf0 : 0 ≤ ⌊x⌋ := Int.floor_nonneg.2 h0
  obtain ⟨o, σ, r5, e1, e2, e3, e4, e5⟩ := C52_object s hp hz toroStd (fun _ => rng.layer toroLay ⌊x⌋.toNat) (fun _ => rng.veloc (2 * ⌊x⌋).toNat)
    (fun _ => (hr toroLay _ 0).1) (fun _ => (hr toroLay _ _).2) 0
  refine ⟨o, σ, r5, ?_, e2, e3, e4, e5⟩
  rw [← e1]
  unfold getRandomized
  refine randomized_congr s false 1 0 fun j _ hj => ?_
  have : j = 0 := by omega
  subst this
  have e : seedInt (some (x + (0 : ℕ))) (c 0) = ⌊x⌋ := by
    unfold seedInt; simp only [Nat.cast_zero, add_zero]; exact pyInt_nonneg h0
  rw [helperRand_ok _ _ _ _ _ _ (by rw [e]; exact hf0) (by rw [e]; exact hf), e]

/-- C210 is violated: a seed of 2³¹ or more, or of -1 or less, raises ValueError, which is not documented, although the seed is only
required to be a number. -/
theorem C210_range_violated (rng : RandomNumbers) (s : Svm) (toroLay toroStd : Bool) (x : ℝ) (h : x ≤ -1 ∨ 2 ^ 31 ≤ x) (c : Nat → Nat)
    (compliance : Bool) (fuel : Nat) : getRandomized rng s toroLay toroStd (.num x) c compliance (fuel + 1) = .error .valueError := by
  unfold getRandomized
  simp only
  rw [randomized]
  have e : helperRand rng s toroLay toroStd (some (x + (0 : ℕ))) (c 0) = .error .valueError := by
    unfold helperRand seedInt
    simp only [Nat.cast_zero, add_zero]
    rcases h with h | h
    · have : pyInt x < 0 := by
        unfold pyInt
        rw [if_neg (by linarith)]
        have : ⌈x⌉ ≤ -1 := by rw [Int.ceil_le]; push_cast; exact h
        omega
      rw [npSeed_bad (Or.inl this)]
      rfl
    · have h' : 2 ^ 31 ≤ pyInt x := by
        rw [pyInt_nonneg (le_trans (by positivity) h), Int.le_floor]; push_cast; linarith
      by_cases h2 : 2 ^ 32 ≤ pyInt x
      · rw [npSeed_bad (Or.inr h2)]; rfl
      · rw [npSeed_ok (by omega) (by omega), npSeed_bad (k := 2 * pyInt x) (Or.inr (by omega))]; rfl
  rw [e]
  rfl

/-- Anything that is not a number and not `None` is refused with the documented TypeError. -/
theorem C210_type (rng : RandomNumbers) (s : Svm) (toroLay toroStd : Bool) (c : Nat → Nat) (compliance : Bool) (fuel : Nat) :
    getRandomized rng s toroLay toroStd .other c compliance fuel = .error .typeError := rfl

theorem randomized_step (s : Svm) (g : Nat → Except PyErr (List (ℝ × ℝ))) (c : Bool) (r : VsObj ℝ × Store ℝ) (fuel k : Nat)
    (h : randomized s g c (fuel + 1) k = .ok (some r)) :
    (∀ f, randomized s g c (f + 1) k = .ok (some r)) ∨
      ((∀ f, randomized s g c (f + 1) k = randomized s g c f (k + 1)) ∧ randomized s g c fuel (k + 1) = .ok (some r)) := by
  have h' := h
  rw [randomized] at h
  cases hg : g k with
  | error e => rw [hg] at h; cases h
  | ok p =>
    have hstep : ∀ f, randomized s g c (f + 1) k =
        (if c then compliant s p else .ok true).bind fun ok => if ok then (mkProfile [.two p] 0 .one .si false 3).bind fun r => .ok (some r)
          else randomized s g c f (k + 1) := by
      intro f; rw [randomized, hg]; cases c <;> rfl
    cases hc : (if c then compliant s p else (Except.ok true : Except PyErr Bool)) with
    | error e => rw [hstep, hc] at h'; cases h'
    | ok b =>
      rw [hstep, hc] at h'
      cases b with
      | true =>
        refine Or.inl fun f => ?_
        rw [hstep, hc]; exact h'
      | false =>
        refine Or.inr ⟨fun f => ?_, h'⟩
        rw [hstep, hc]; rfl

theorem randomized_more (s : Svm) (g : Nat → Except PyErr (List (ℝ × ℝ))) (c : Bool) (r : VsObj ℝ × Store ℝ) (fuel : Nat) :
    ∀ k, randomized s g c fuel k = .ok (some r) → randomized s g c (fuel + 1) k = .ok (some r) := by
  induction fuel with
  | zero => intro k h; rw [randomized] at h; cases h
  | succ fuel ih =>
    intro k h
    rcases randomized_step s g c r fuel k h with h1 | ⟨h1, h2⟩
    · exact h1 _
    · rw [h1]; exact ih _ h2

theorem randomized_from (s : Svm) (g : Nat → Except PyErr (List (ℝ × ℝ))) (c : Bool) (r : VsObj ℝ × Store ℝ) (fuel : Nat) :
    ∀ k, randomized s g c fuel k = .ok (some r) → ∃ j, k ≤ j ∧ j < k + fuel ∧ (∀ i, k ≤ i → i ≤ j → randomized s g c fuel i = .ok (some r)) ∧
      randomized s g c 1 j = .ok (some r) := by
  induction fuel with
  | zero => intro k h; rw [randomized] at h; cases h
  | succ fuel ih =>
    intro k h
    rcases randomized_step s g c r fuel k h with h1 | ⟨h1, h2⟩
    · refine ⟨k, le_rfl, by omega, ?_, h1 0⟩
      intro i i1 i2
      have : i = k := by omega
      subst this; exact h
    · obtain ⟨j, j1, j2, j3, j4⟩ := ih _ h2
      refine ⟨j, by omega, by omega, ?_, j4⟩
      intro i i1 i2
      rcases Nat.eq_or_lt_of_le i1 with rfl | i1
      · exact h
      · exact randomized_more s g c r fuel i (j3 i (by omega) i2)

/-- C210: the search for a compliant profile beginning with seed `x` ends at some seed `x + j`, and a search beginning at any seed in between, at
whatever time, returns the same profile; at `x + j` it is found at the first attempt. -/
theorem C210_search (rng : RandomNumbers) (s : Svm) (toroLay toroStd : Bool) (x : ℝ) (c : Nat → Nat) (fuel : Nat) (r : VsObj ℝ × Store ℝ)
    (h : getRandomized rng s toroLay toroStd (.num x) c true fuel = .ok (some r)) :
    ∃ j : Nat, j < fuel ∧ (∀ (i : Nat) (c' : Nat → Nat), i ≤ j → getRandomized rng s toroLay toroStd (.num (x + i)) c' true fuel = .ok (some r)) ∧
      ∀ c' : Nat → Nat, getRandomized rng s toroLay toroStd (.num (x + j)) c' true 1 = .ok (some r) := by
  unfold getRandomized at h
  simp only at h
  obtain ⟨j, -, j2, j3, j4⟩ := randomized_from s _ true r fuel 0 h
  have key : ∀ (i : Nat) (c' : Nat → Nat) (f : Nat), getRandomized rng s toroLay toroStd (.num (x + i)) c' true f =
      randomized s (fun j => helperRand rng s toroLay toroStd (some (x + j)) (c j)) true f i := by
    intro i c' f
    have := randomized_shift s (fun j => helperRand rng s toroLay toroStd (some (x + j)) (c j)) true i f 0
    rw [zero_add] at this
    rw [← this]
    unfold getRandomized
    refine randomized_congr s true f 0 fun k _ _ => ?_
    unfold helperRand seedInt
    simp only
    rw [show x + (i : ℝ) + (k : ℝ) = x + ((k + i : ℕ) : ℝ) by push_cast; ring]
  exact ⟨j, by omega, fun i c' hi => by rw [key]; exact j3 i (by omega) hi, fun c' => by rw [key]; exact j4⟩

theorem few_outcomes {β : Type} (G : (Nat → Nat) → β) (n : Nat) (h : ∀ c c' : Nat → Nat, c 0 = c' 0 → G c = G c') :
    {r | ∃ c : Nat → Nat, (∀ j, c j < n) ∧ G c = r}.ncard ≤ n := by
  have hsub : {r | ∃ c : Nat → Nat, (∀ j, c j < n) ∧ G c = r} ⊆ (fun k : Nat => G (fun _ => k)) '' (Finset.range n : Set Nat) := by
    rintro r ⟨c, hc, rfl⟩
    refine ⟨c 0, ?_, h _ _ rfl⟩
    have := hc 0
    simpa using this
  calc _ ≤ ((fun k : Nat => G (fun _ => k)) '' (Finset.range n : Set Nat)).ncard := Set.ncard_le_ncard hsub ((Finset.finite_toSet _).image _)
    _ ≤ ((Finset.range n : Set Nat)).ncard := Set.ncard_image_le (Finset.finite_toSet _)
    _ = n := by rw [Set.ncard_coe_finset, Finset.card_range]

theorem none_clock (rng : RandomNumbers) (s : Svm) (toroLay toroStd : Bool) (c c' : Nat → Nat) (h : c 0 = c' 0) :
    getRandomized rng s toroLay toroStd .none c false 1 = getRandomized rng s toroLay toroStd .none c' false 1 := by
  unfold getRandomized
  refine randomized_congr s false 1 0 fun j _ hj => ?_
  have : j = 0 := by omega
  subst this
  show helperRand rng s toroLay toroStd none (c 0) = helperRand rng s toroLay toroStd none (c' 0)
  rw [h]

/-- C210: a call without a seed at second `sec` of a minute is a call with the seed `sec * 1e7`. -/
theorem C210_clock_seed (rng : RandomNumbers) (s : Svm) (toroLay toroStd : Bool) (c c' : Nat → Nat) :
    getRandomized rng s toroLay toroStd .none c false 1 = getRandomized rng s toroLay toroStd (.num ((c 0 : ℝ) * 10 ^ 7)) c' false 1 := by
  unfold getRandomized
  refine randomized_congr s false 1 0 fun j _ hj => ?_
  have : j = 0 := by omega
  subst this
  have e : seedInt (some ((c 0 : ℝ) * 10 ^ 7 + (0 : ℕ))) (c' 0) = seedInt none (c 0) := by
    unfold seedInt
    simp only [Nat.cast_zero, add_zero]
    rw [pyInt_nonneg (by positivity), Int.floor_eq_iff]
    push_cast
    exact ⟨by linarith, by linarith⟩
  show helperRand rng s toroLay toroStd none (c 0) = helperRand rng s toroLay toroStd (some ((c 0 : ℝ) * 10 ^ 7 + (0 : ℕ))) (c' 0)
  unfold helperRand
  rw [e]

/-- C210 is violated: without a seed, calls in the same second of any minute return the same profile, so that there are not more than 62
different ones, whatever the random number generator. -/
theorem C210_clock_violated (rng : RandomNumbers) (s : Svm) (toroLay toroStd : Bool) :
    (∀ c c' : Nat → Nat, c 0 = c' 0 → getRandomized rng s toroLay toroStd .none c false 1 = getRandomized rng s toroLay toroStd .none c' false 1) ∧
    {r | ∃ c : Nat → Nat, (∀ j, c j < 62) ∧ getRandomized rng s toroLay toroStd .none c false 1 = r}.ncard ≤ 62 :=
  ⟨none_clock rng s toroLay toroStd, few_outcomes _ 62 (none_clock rng s toroLay toroStd)⟩

theorem randomized_never (s : Svm) (g : Nat → Except PyErr (List (ℝ × ℝ))) (fuel : Nat) :
    ∀ k, (∀ j, k ≤ j → j < k + fuel → ∃ p, g j = .ok p ∧ compliant s p = .ok false) → randomized s g true fuel k = .ok none := by
  induction fuel with
  | zero => intro k _; rfl
  | succ fuel ih =>
    intro k h
    obtain ⟨p, h1, h2⟩ := h k le_rfl (by omega)
    rw [randomized, h1]
    show (compliant s p).bind (fun ok => if ok = true then (mkProfile [.two p] 0 .one .si false 3).bind fun r => .ok (some r)
          else randomized s g true fuel (k + 1)) = _
    rw [h2]
    exact ih (k + 1) fun j j1 j2 => h j (by omega) (by omega)

/-- C210 is violated: the search for a compliant profile without a seed makes the same attempt again and again until the second changes, and if
none of the 62 profiles complies it never ends. -/
theorem C210_search_violated (rng : RandomNumbers) (s : Svm) (toroLay toroStd : Bool)
    (h : ∀ sec, sec < 62 → ∃ p, helperRand rng s toroLay toroStd none sec = .ok p ∧ compliant s p = .ok false) (fuel : Nat) (c : Nat → Nat)
    (hc : ∀ j, c j < 62) : getRandomized rng s toroLay toroStd .none c true fuel = .ok none := by
  unfold getRandomized
  exact randomized_never s _ fuel 0 fun j _ _ => h (c j) (hc j)

/-- There are streams which are long enough, for any depth. -/
theorem enough_exists (s : Svm) (hz : 0 < s.z1) : ∃ rng, Enough rng s :=
  ⟨⟨fun _ n => List.replicate ⌈s.z1⌉₊ (3 + n), fun m => List.replicate ⌈s.z1⌉₊ (m / 7)⟩, fun b n m => by
    simp only [List.length_replicate, le_refl, and_true]
    have := Nat.le_ceil s.z1
    linarith⟩

/-- Seeds 7 and 7.9 are the same seed, 8 is another. -/
example : seedInt (some 7) 0 = seedInt (some 7.9) 33 ∧ seedInt (some 7) 0 ≠ seedInt (some 8) 0 := by
  have h7 : seedInt (some 7) 0 = 7 := by
    unfold seedInt; simp only; rw [pyInt_nonneg (by norm_num)]; norm_num
  have h8 : seedInt (some 8) 0 = 8 := by
    unfold seedInt; simp only; rw [pyInt_nonneg (by norm_num)]; norm_num
  have h79 : seedInt (some 7.9) 33 = 7 := by
    unfold seedInt; simp only; rw [pyInt_nonneg (by norm_num), Int.floor_eq_iff]; norm_num
  rw [h7, h8, h79]; norm_num

end Verif
