import Verif.Proof.Profile

set_option linter.unusedSectionVars false
set_option linter.unusedVariables false

namespace Verif

open Spec

variable {K : Type*} [Field K] [LinearOrder K] [IsStrictOrderedRing K] {V : Type*}

theorem hasAt_singleton (t : K) (v x : V) (z : K) :
    HasAt [(t, v)] z x ↔ 0 ≤ z ∧ x = v := by
  constructor
  · rintro ⟨i, ⟨h1, h2, _⟩, h4⟩
    simp only [List.map_cons, List.map_nil, List.length_cons, List.length_nil] at h1
    have hi : i = 0 := by omega
    subst hi
    simp [topDepth] at h2 h4
    exact ⟨h2, h4.symm⟩
  · rintro ⟨h, rfl⟩
    exact ⟨0, ⟨by simp, by simpa [topDepth] using h, by simp⟩, by simp⟩

theorem hasAt_cons (t : K) (v x : V) (r : K × V) (rest : List (K × V)) (z : K) (ht : 0 ≤ t)
    (hr : ∀ s ∈ r :: rest, 0 ≤ s.1) :
    HasAt ((t, v) :: r :: rest) z x ↔
      (0 ≤ z ∧ z < t ∧ x = v) ∨ (t ≤ z ∧ HasAt (r :: rest) (z - t) x) := by
  constructor
  · rintro ⟨i, ⟨h1, h2, h3⟩, h4⟩
    cases i with
    | zero =>
      left
      simp only [List.map_cons, topDepth_zero] at h2
      have := h3 (by simp)
      simp [topDepth] at this h4
      exact ⟨h2, this, h4.symm⟩
    | succ i =>
      right
      simp only [List.map_cons, topDepth_cons_succ t] at h2 h3 h4
      have hn : 0 ≤ topDepth (List.map Prod.fst (r :: rest)) i :=
        topDepth_nonneg (by
          intro y hy; obtain ⟨s, hs, rfl⟩ := List.mem_map.1 hy; exact hr s hs) i
      simp only [List.map_cons] at hn
      refine ⟨by linarith, i, ⟨by simpa using h1, ?_, ?_⟩, by simpa using h4⟩
      · simp only [List.map_cons]; linarith
      · intro hl
        have := h3 (by simpa using hl)
        simp only [List.map_cons]; linarith
  · rintro (⟨h1, h2, rfl⟩ | ⟨h1, i, ⟨h2, h3, h4⟩, h5⟩)
    · exact ⟨0, ⟨by simp, by simpa using h1, fun _ => by simpa [topDepth] using h2⟩, by simp⟩
    · refine ⟨i + 1, ⟨by simpa using h2, ?_, ?_⟩, by simpa using h5⟩
      · simp only [List.map_cons, topDepth_cons_succ t] at h3 ⊢; linarith
      · intro hl
        have := h4 (by simpa using hl)
        simp only [List.map_cons, topDepth_cons_succ t] at this ⊢; linarith

theorem hasAt_nonneg {p : List (K × V)} (hp : ∀ s ∈ p, 0 ≤ s.1) {z : K} {x : V} (h : HasAt p z x) :
    0 ≤ z := by
  obtain ⟨i, ⟨_, h2, _⟩, _⟩ := h
  have hn : 0 ≤ topDepth (p.map Prod.fst) i :=
    topDepth_nonneg (by
      intro y hy; obtain ⟨s, hs, rfl⟩ := List.mem_map.1 hy; exact hp s hs) i
  linarith

/-- A group of layers with the same property behaves like one layer of their
total thickness (something follows below). -/
theorem hasAt_group (g : List (K × V)) (v x : V) (r : K × V) (rest : List (K × V)) (z : K)
    (hg : ∀ s ∈ g, 0 ≤ s.1 ∧ s.2 = v) (hr : ∀ s ∈ r :: rest, 0 ≤ s.1) :
    HasAt (g ++ r :: rest) z x ↔
      (0 ≤ z ∧ z < (g.map Prod.fst).sum ∧ x = v) ∨
        ((g.map Prod.fst).sum ≤ z ∧ HasAt (r :: rest) (z - (g.map Prod.fst).sum) x) := by
  induction g generalizing z with
  | nil =>
    simp only [List.nil_append, List.map_nil, List.sum_nil, sub_zero]
    constructor
    · intro h; exact Or.inr ⟨hasAt_nonneg hr h, h⟩
    · rintro (⟨h1, h2, _⟩ | ⟨_, h⟩)
      · exact absurd h2 (not_lt.2 h1)
      · exact h
  | cons s g ih =>
    obtain ⟨t, w⟩ := s
    obtain ⟨ht, hw⟩ := hg (t, w) (by simp)
    simp only at ht hw
    subst hw
    have hg' : ∀ s ∈ g, 0 ≤ s.1 ∧ s.2 = w := fun s hs => hg s (by simp [hs])
    have hall : ∀ s ∈ g ++ r :: rest, 0 ≤ s.1 := by
      intro s hs
      rcases List.mem_append.1 hs with h | h
      · exact (hg' s h).1
      · exact hr s h
    have hS : 0 ≤ (g.map Prod.fst).sum := List.sum_nonneg (by
      intro y hy; obtain ⟨s, hs, rfl⟩ := List.mem_map.1 hy; exact (hg' s hs).1)
    have key : HasAt ((t, w) :: (g ++ r :: rest)) z x ↔
        (0 ≤ z ∧ z < t ∧ x = w) ∨ (t ≤ z ∧ HasAt (g ++ r :: rest) (z - t) x) := by
      cases hgr : g ++ r :: rest with
      | nil => simp at hgr
      | cons a b => exact hasAt_cons t w x a b z ht (by rw [← hgr]; exact hall)
    rw [List.cons_append, key, ih (z - t) hg']
    simp only [List.map_cons, List.sum_cons]
    rw [show z - t - (g.map Prod.fst).sum = z - (t + (g.map Prod.fst).sum) by ring]
    constructor
    · rintro (⟨h1, h2, h3⟩ | ⟨h1, ⟨h2, h3, h4⟩ | ⟨h2, h3⟩⟩)
      · exact Or.inl ⟨h1, by linarith, h3⟩
      · exact Or.inl ⟨by linarith, by linarith, h4⟩
      · exact Or.inr ⟨by linarith, h3⟩
    · rintro (⟨h1, h2, h3⟩ | ⟨h2, h3⟩)
      · rcases lt_or_ge z t with h | h
        · exact Or.inl ⟨h1, h, h3⟩
        · exact Or.inr ⟨h, Or.inl ⟨by linarith, by linarith, h3⟩⟩
      · exact Or.inr ⟨by linarith, Or.inr ⟨by linarith, h3⟩⟩

/-- A final group of layers with the same property behaves like one layer. -/
theorem hasAt_group_end (g : List (K × V)) (v x : V) (z : K) (hne : g ≠ [])
    (hg : ∀ s ∈ g, 0 ≤ s.1 ∧ s.2 = v) : HasAt g z x ↔ 0 ≤ z ∧ x = v := by
  induction g generalizing z with
  | nil => exact absurd rfl hne
  | cons s g ih =>
    obtain ⟨t, w⟩ := s
    obtain ⟨ht, hw⟩ := hg (t, w) (by simp)
    simp only at ht hw
    subst hw
    cases g with
    | nil => exact hasAt_singleton t w x z
    | cons s' g' =>
      have hg' : ∀ s ∈ s' :: g', 0 ≤ s.1 ∧ s.2 = w := fun s hs => hg s (by simp [hs])
      rw [hasAt_cons t w x s' g' z ht (fun s hs => (hg' s hs).1), ih (z - t) (by simp) hg']
      constructor
      · rintro (⟨h1, _, h3⟩ | ⟨h1, h2, h3⟩)
        · exact ⟨h1, h3⟩
        · exact ⟨by linarith, h3⟩
      · rintro ⟨h1, h3⟩
        rcases lt_or_ge z t with h | h
        · exact Or.inl ⟨h1, h, h3⟩
        · exact Or.inr ⟨h, by linarith, h3⟩

end Verif
