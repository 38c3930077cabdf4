import Verif.Proof.HasAt

set_option linter.unusedSectionVars false

namespace Verif

open Spec

variable {K : Type*} [Field K] [LinearOrder K] [IsStrictOrderedRing K] [FloorRing K] {P : Type*}

theorem toNat_cast {z : ℤ} (h : 0 ≤ z) : ((z.toNat : ℕ) : K) = (z : K) := by
  have := congrArg (Int.cast : ℤ → K) (Int.toNat_of_nonneg h)
  rwa [Int.cast_natCast] at this

theorem roundHalfEven_cases (x : K) : roundHalfEven x = ⌊x⌋ ∨ roundHalfEven x = ⌊x⌋ + 1 := by
  unfold roundHalfEven; simp only; split_ifs <;> simp

/-- What one layer becomes. -/
theorem stratifyLayer_spec (r : LRow K P) (ht : 0 < r.thk) (hv : 0 < r.vs) :
    stratifyLayer r ≠ [] ∧
    (∀ s ∈ stratifyLayer r, s.vs = r.vs ∧ s.rest = r.rest ∧ 0 < s.thk ∧ s.thk ≤ r.vs / 225) ∧
    r.thk ≤ ((stratifyLayer r).map LRow.thk).sum ∧
    ((stratifyLayer r).map LRow.thk).sum ≤ r.thk + r.vs / 225 := by
  have hh : 0 < r.vs / 225 := by positivity
  unfold stratifyLayer
  simp only
  split_ifs with h1 h2
  · simp [ht, h1, hh.le]
  all_goals
    have hq : 0 < r.thk / (r.vs / 225) := div_pos ht hh
    have hc : 0 < ⌈r.thk / (r.vs / 225)⌉ := Int.ceil_pos.2 hq
    have hn : (⌈r.thk / (r.vs / 225)⌉.toNat : K) = (⌈r.thk / (r.vs / 225)⌉ : K) := toNat_cast hc.le
    have hle := Int.le_ceil (r.thk / (r.vs / 225))
    have hlt := Int.ceil_lt_add_one (r.thk / (r.vs / 225))
    have hcK : (0 : K) < (⌈r.thk / (r.vs / 225)⌉ : K) := by exact_mod_cast hc
    have hne : ⌈r.thk / (r.vs / 225)⌉.toNat ≠ 0 := by omega
  · refine ⟨by simpa using hc, ?_, ?_, ?_⟩
    · intro s hs
      rw [List.mem_replicate] at hs
      rw [hs.2]; exact ⟨rfl, rfl, hh, le_refl _⟩
    · simp only [List.map_replicate, List.sum_replicate, nsmul_eq_mul, hn]
      exact (div_le_iff₀ hh).1 hle
    · simp only [List.map_replicate, List.sum_replicate, nsmul_eq_mul, hn]
      have := mul_le_mul_of_nonneg_right hlt.le hh.le
      rw [add_mul, div_mul_cancel₀ _ hh.ne', one_mul] at this
      exact this
  · refine ⟨by simpa using hc, ?_, ?_, ?_⟩
    · intro s hs
      rw [List.mem_replicate] at hs
      rw [hs.2]
      refine ⟨rfl, rfl, ?_, ?_⟩
      · simp only [hn]; exact div_pos ht hcK
      · simp only [hn]
        rw [div_le_iff₀ hcK, mul_comm]
        exact (div_le_iff₀ hh).1 hle
    all_goals
      simp only [List.map_replicate, List.sum_replicate, nsmul_eq_mul, hn]
      rw [mul_div_cancel₀ _ hcK.ne']
      try linarith

/-- The thickness of one layer is kept when the ratio is an exact integer or is not
within the tolerance of any integer. -/
theorem stratifyLayer_exact (r : LRow K P) (ht : 0 < r.thk) (hv : 0 < r.vs)
    (hx : ∀ m : ℤ, (m : K) * (r.vs / 225) = r.thk ∨
      1 / 10 ^ 8 + 1 / 10 ^ 5 * (r.thk / (r.vs / 225)) < |(m : K) - r.thk / (r.vs / 225)|) :
    ((stratifyLayer r).map LRow.thk).sum = r.thk := by
  have hh : 0 < r.vs / 225 := by positivity
  have hq : 0 < r.thk / (r.vs / 225) := div_pos ht hh
  have hc : 0 < ⌈r.thk / (r.vs / 225)⌉ := Int.ceil_pos.2 hq
  have hn : (⌈r.thk / (r.vs / 225)⌉.toNat : K) = (⌈r.thk / (r.vs / 225)⌉ : K) := toNat_cast hc.le
  have hcK : (0 : K) < (⌈r.thk / (r.vs / 225)⌉ : K) := by exact_mod_cast hc
  unfold stratifyLayer
  simp only
  split_ifs with h1 h2
  · simp
  · simp only [List.map_replicate, List.sum_replicate, nsmul_eq_mul, hn]
    rcases hx (roundHalfEven (r.thk / (r.vs / 225))) with h | h
    · have he : r.thk / (r.vs / 225) = (roundHalfEven (r.thk / (r.vs / 225)) : K) := by
        rw [div_eq_iff hh.ne']; exact h.symm
      rw [he, Int.ceil_intCast, ← he, div_mul_cancel₀ _ hh.ne']
    · exfalso
      simp only [allclose, decide_eq_true_eq, abs_of_pos hq] at h2
      exact absurd h2 (not_le.2 h)
  · simp only [List.map_replicate, List.sum_replicate, nsmul_eq_mul, hn]
    rw [mul_div_cancel₀ _ hcK.ne']

/-- The layer list seen as (thickness, everything else). -/
def LRow.toPair (r : LRow K P) : K × (K × P) := (r.thk, (r.vs, r.rest))

theorem flatMap_stratify_hasAt (rows : List (LRow K P)) (tail : List (LRow K P)) (z : K) (x : K × P)
    (hrows : ∀ r ∈ rows, 0 < r.thk ∧ 0 < r.vs ∧ ((stratifyLayer r).map LRow.thk).sum = r.thk)
    (htail : ∀ r ∈ tail, 0 ≤ r.thk) (hne : rows ++ tail ≠ []) :
    HasAt ((rows.flatMap stratifyLayer ++ tail).map LRow.toPair) z x ↔
      HasAt ((rows ++ tail).map LRow.toPair) z x := by
  induction rows generalizing z with
  | nil => simp
  | cons r rows ih =>
    obtain ⟨ht, hv, hs⟩ := hrows r (by simp)
    have hrows' : ∀ r ∈ rows, 0 < r.thk ∧ 0 < r.vs ∧ ((stratifyLayer r).map LRow.thk).sum = r.thk :=
      fun r' hr' => hrows r' (by simp [hr'])
    obtain ⟨hne1, hall, _, _⟩ := stratifyLayer_spec r ht hv
    have hgrp : ∀ s ∈ (stratifyLayer r).map LRow.toPair, 0 ≤ s.1 ∧ s.2 = (r.vs, r.rest) := by
      intro s hs
      obtain ⟨q, hq, rfl⟩ := List.mem_map.1 hs
      obtain ⟨h1, h2, h3, _⟩ := hall q hq
      exact ⟨h3.le, by simp [LRow.toPair, h1, h2]⟩
    have hsum : (((stratifyLayer r).map LRow.toPair).map Prod.fst).sum = r.thk := by
      rw [List.map_map]; exact hs
    have hall1 : ∀ s ∈ (rows.flatMap stratifyLayer ++ tail).map LRow.toPair, 0 ≤ s.1 := by
      intro s hs
      obtain ⟨q, hq, rfl⟩ := List.mem_map.1 hs
      rcases List.mem_append.1 hq with h | h
      · obtain ⟨r', hr', hq'⟩ := List.mem_flatMap.1 h
        exact ((stratifyLayer_spec r' (hrows' r' hr').1 (hrows' r' hr').2.1).2.1 q hq').2.2.1.le
      · exact htail q h
    have hall2 : ∀ s ∈ (rows ++ tail).map LRow.toPair, 0 ≤ s.1 := by
      intro s hs
      obtain ⟨q, hq, rfl⟩ := List.mem_map.1 hs
      rcases List.mem_append.1 hq with h | h
      · exact (hrows' q h).1.le
      · exact htail q h
    by_cases hnil : rows ++ tail = []
    · obtain ⟨rfl, rfl⟩ := List.append_eq_nil_iff.1 hnil
      simp only [List.flatMap_cons, List.flatMap_nil, List.append_nil, List.map_cons, List.map_nil]
      rw [hasAt_group_end _ (r.vs, r.rest) x z (by simpa using hne1) hgrp]
      exact (hasAt_singleton r.thk _ x z).symm
    · have ih' := ih (z - r.thk) hrows' hnil
      have hne2 : (rows.flatMap stratifyLayer ++ tail).map LRow.toPair ≠ [] := by
        intro h0
        have h0' := List.map_eq_nil_iff.1 h0
        obtain ⟨ha, hb⟩ := List.append_eq_nil_iff.1 h0'
        cases rows with
        | nil => exact hnil (by simpa using hb)
        | cons a as =>
          rw [List.flatMap_cons] at ha
          exact (stratifyLayer_spec a (hrows' a (by simp)).1 (hrows' a (by simp)).2.1).1
            (List.append_eq_nil_iff.1 ha).1
      rw [List.flatMap_cons, List.append_assoc, List.map_append, List.cons_append, List.map_cons]
      have hne3 : (rows ++ tail).map LRow.toPair ≠ [] := by simpa using hnil
      obtain ⟨a, as, hA⟩ := List.exists_cons_of_ne_nil hne2
      obtain ⟨b, bs, hB⟩ := List.exists_cons_of_ne_nil hne3
      rw [hA] at hall1 ih' ⊢
      rw [hB] at hall2 ih' ⊢
      rw [hasAt_group _ (r.vs, r.rest) x a as z hgrp hall1, hsum, ih']
      exact (hasAt_cons r.thk (r.vs, r.rest) x b bs z ht.le hall2).symm

end Verif
