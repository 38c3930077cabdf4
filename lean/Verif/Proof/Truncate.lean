import Verif.Proof.VsProfile

set_option linter.unusedSectionVars false
set_option linter.unusedVariables false

namespace Verif

open Spec

variable {K : Type} [Field K] [LinearOrder K] [IsStrictOrderedRing K] [FloorRing K]

/-- Properties of a row that do not involve thickness or material number. -/
def Row.props (r : Row K) : K × K × K := (r.vs, r.xi, r.rho)

/-- What the truncation loop produces, when `self._thk` agrees with the profile. -/
theorem truncLoop_spec (depth total : K) (rows : List (Row K)) (hne : rows ≠ [])
    (hpos : ∀ r ∈ rows.dropLast, 0 < r.thk) (hnn : ∀ r ∈ rows, 0 ≤ r.thk) (hlt : total < depth) :
    ∃ (pre : List (Row K)) (r : Row K) (post : List (Row K)) (t : K),
      rows = pre ++ r :: post ∧
      truncLoop depth total (rows.map Row.thk) rows = (pre ++ [{ r with thk := t }], post) ∧
      0 < t ∧ (pre.map Row.thk).sum + t = depth - total ∧
      (post ≠ [] → t ≤ r.thk) := by
  induction rows generalizing total with
  | nil => exact absurd rfl hne
  | cons r rows ih =>
    cases rows with
    | nil =>
      by_cases h : depth ≤ total + r.thk
      · exact ⟨[], r, [], depth - total, rfl, by simp [truncLoop, h], by linarith, by simp, by simp⟩
      · refine ⟨[], r, [], depth + r.thk - (total + r.thk), rfl, by simp [truncLoop, h], ?_, ?_, by simp⟩
        · linarith
        · simp
    | cons r' rows' =>
      by_cases h : depth ≤ total + r.thk
      · refine ⟨[], r, r' :: rows', depth - total, rfl, by simp [truncLoop, h], by linarith, by simp, ?_⟩
        intro _; linarith
      · obtain ⟨pre, q, post, t, h1, h2, h3, h4, h5⟩ := ih (total + r.thk) (by simp)
          (fun x hx => hpos x (by simp [List.dropLast_cons_cons, hx]))
          (fun x hx => hnn x (by simp [hx])) (not_le.1 h)
        refine ⟨r :: pre, q, post, t, by simp [h1], ?_, h3, ?_, h5⟩
        · simp only [List.map_cons] at h2
          simp only [List.map_cons, truncLoop, h, if_false, h2]
          simp
        · simp only [List.map_cons, List.sum_cons]; linarith

/-- The truncated column followed by bedrock has the original properties above the
truncation depth and the bedrock's below. -/
theorem hasAt_truncated {V : Type*} (f : Row K → V) (b x : V) (pre : List (Row K)) (r : Row K) (post : List (Row K))
    (t : K) (hpre : ∀ s ∈ pre, 0 ≤ s.thk) (hr : 0 ≤ r.thk) (hpost : ∀ s ∈ post, 0 ≤ s.thk) (ht : 0 < t)
    (hle : post ≠ [] → t ≤ r.thk) (z : K) :
    HasAt (pre.map (fun s => (s.thk, f s)) ++ [(t, f r), (0, b)]) z x ↔
      (z < (pre.map Row.thk).sum + t ∧ HasAt ((pre ++ r :: post).map (fun s => (s.thk, f s))) z x) ∨
      ((pre.map Row.thk).sum + t ≤ z ∧ x = b) := by
  induction pre generalizing z with
  | nil =>
    simp only [List.map_nil, List.nil_append, List.sum_nil, zero_add]
    rw [hasAt_cons t (f r) x (0, b) [] z ht.le (by simp), hasAt_singleton]
    cases post with
    | nil =>
      simp only [List.map_cons, List.map_nil]
      rw [hasAt_singleton]
      constructor
      · rintro (⟨h1, h2, h3⟩ | ⟨h1, _, h3⟩)
        · exact Or.inl ⟨h2, h1, h3⟩
        · exact Or.inr ⟨h1, h3⟩
      · rintro (⟨h1, h2, h3⟩ | ⟨h1, h3⟩)
        · exact Or.inl ⟨h2, h1, h3⟩
        · exact Or.inr ⟨h1, by linarith, h3⟩
    | cons p post =>
      simp only [List.map_cons]
      rw [hasAt_cons r.thk (f r) x (p.thk, f p) _ z hr (by
        intro s hs
        have : s ∈ (p :: post).map (fun s => (s.thk, f s)) := by simpa using hs
        obtain ⟨q, hq, rfl⟩ := List.mem_map.1 this
        exact hpost q hq)]
      have hle' := hle (by simp)
      constructor
      · rintro (⟨h1, h2, h3⟩ | ⟨h1, _, h3⟩)
        · exact Or.inl ⟨h2, Or.inl ⟨h1, by linarith, h3⟩⟩
        · exact Or.inr ⟨h1, h3⟩
      · rintro (⟨h1, ⟨h2, _, h3⟩ | ⟨h2, _⟩⟩ | ⟨h1, h3⟩)
        · exact Or.inl ⟨h2, h1, h3⟩
        · exact absurd h2 (not_le.2 (by linarith))
        · exact Or.inr ⟨h1, by linarith, h3⟩
  | cons s pre ih =>
    have hs : 0 ≤ s.thk := hpre s (by simp)
    have hpre' : ∀ q ∈ pre, 0 ≤ q.thk := fun q hq => hpre q (by simp [hq])
    have hS : 0 ≤ (pre.map Row.thk).sum := List.sum_nonneg (by
      intro y hy; obtain ⟨q, hq, rfl⟩ := List.mem_map.1 hy; exact hpre' q hq)
    have ih' := ih hpre' (z - s.thk)
    have e1 : (s :: pre).map (fun s => (s.thk, f s)) ++ [(t, f r), (0, b)] =
        (s.thk, f s) :: (pre.map (fun s => (s.thk, f s)) ++ [(t, f r), (0, b)]) := by simp
    have e2 : ((s :: pre) ++ r :: post).map (fun s => (s.thk, f s)) =
        (s.thk, f s) :: ((pre ++ r :: post).map (fun s => (s.thk, f s))) := by simp
    rw [e1, e2]
    have n1 : pre.map (fun s => (s.thk, f s)) ++ [(t, f r), (0, b)] ≠ [] := by simp
    have n2 : (pre ++ r :: post).map (fun s => (s.thk, f s)) ≠ [] := by simp
    have a1 : ∀ q ∈ pre.map (fun s => (s.thk, f s)) ++ [(t, f r), (0, b)], 0 ≤ q.1 := by
      intro q hq
      rcases List.mem_append.1 hq with h | h
      · obtain ⟨w, hw, rfl⟩ := List.mem_map.1 h; exact hpre' w hw
      · simp only [List.mem_cons, List.not_mem_nil, or_false] at h
        rcases h with rfl | rfl
        · exact ht.le
        · exact le_refl _
    have a2 : ∀ q ∈ (pre ++ r :: post).map (fun s => (s.thk, f s)), 0 ≤ q.1 := by
      intro q hq
      obtain ⟨w, hw, rfl⟩ := List.mem_map.1 hq
      rcases List.mem_append.1 hw with h | h
      · exact hpre' w h
      · rcases List.mem_cons.1 h with rfl | h
        · exact hr
        · exact hpost w h
    obtain ⟨c1, l1, hA⟩ := List.exists_cons_of_ne_nil n1
    obtain ⟨c2, l2, hB⟩ := List.exists_cons_of_ne_nil n2
    rw [hA] at a1 ih' ⊢
    rw [hB] at a2 ih' ⊢
    rw [hasAt_cons s.thk (f s) x c1 l1 z hs a1, hasAt_cons s.thk (f s) x c2 l2 z hs a2, ih']
    simp only [List.map_cons, List.sum_cons]
    constructor
    · rintro (⟨h1, h2, h3⟩ | ⟨h1, ⟨h2, h3⟩ | ⟨h2, h3⟩⟩)
      · exact Or.inl ⟨by linarith, Or.inl ⟨h1, h2, h3⟩⟩
      · exact Or.inl ⟨by linarith, Or.inr ⟨h1, h3⟩⟩
      · exact Or.inr ⟨by linarith, h3⟩
    · rintro (⟨h1, ⟨h2, h3, h4⟩ | ⟨h2, h3⟩⟩ | ⟨h1, h3⟩)
      · exact Or.inl ⟨h2, h3, h4⟩
      · exact Or.inr ⟨h2, Or.inl ⟨by linarith, h3⟩⟩
      · exact Or.inr ⟨by linarith, Or.inr ⟨by linarith, h3⟩⟩

theorem foldr_max_int (l : List K) (h : ∀ x ∈ l, ∃ n : ℤ, x = n) : ∃ n : ℤ, l.foldr max 0 = (n : K) := by
  induction l with
  | nil => exact ⟨0, by simp⟩
  | cons a l ih =>
    obtain ⟨m, hm⟩ := ih fun x hx => h x (by simp [hx])
    obtain ⟨n, hn⟩ := h a (by simp)
    simp only [List.foldr_cons, hm]
    rcases le_total a m with hle | hle
    · exact ⟨m, max_eq_right hle⟩
    · exact ⟨n, by rw [max_eq_left hle, hn]⟩

theorem le_foldr_max (l : List K) (x : K) (h : x ∈ l) : x ≤ l.foldr max 0 := by
  induction l with
  | nil => simp at h
  | cons a l ih =>
    rcases List.mem_cons.1 h with rfl | h
    · exact le_max_left _ _
    · exact (ih h).trans (le_max_right _ _)

theorem foldr_max_nonneg (l : List K) : 0 ≤ l.foldr max (0 : K) := by
  induction l with
  | nil => simp
  | cons a l ih => exact ih.trans (le_max_right _ _)

/-- `fixMaterial` changes at most the material number of the last row, and the
result is positive and integer there. -/
theorem fixMaterial_append (pre : List (Row K)) (r : Row K) (hint : ∀ s ∈ pre ++ [r], ∃ n : ℤ, s.mat = n)
    (hr : 0 ≤ r.mat) :
    ∃ m : K, fixMaterial (pre ++ [r]) = pre ++ [{ r with mat := m }] ∧ 0 < m ∧ (∃ n : ℤ, m = n) ∧
      (r.mat ≠ 0 → m = r.mat) ∧ (r.mat = 0 → ∀ s ∈ pre, s.mat < m) := by
  unfold fixMaterial
  simp only [List.getLast?_append, List.getLast?_singleton, List.dropLast_concat, Option.some_or]
  by_cases h : r.mat = 0
  · rw [if_pos h]
    refine ⟨_, rfl, ?_, ?_, fun h' => absurd h h', ?_⟩
    · have := foldr_max_nonneg ((pre ++ [r]).map Row.mat); linarith
    · obtain ⟨n, hn⟩ := foldr_max_int ((pre ++ [r]).map Row.mat) (by
        intro x hx; obtain ⟨s, hs, rfl⟩ := List.mem_map.1 hx; exact hint s hs)
      exact ⟨n + 1, by rw [hn]; push_cast; ring⟩
    · intro _ s hs
      have := le_foldr_max ((pre ++ [r]).map Row.mat) s.mat (List.mem_map_of_mem (by simp [hs]))
      linarith
  · rw [if_neg h]
    exact ⟨r.mat, by simp, lt_of_le_of_ne hr (Ne.symm h), hint r (by simp), fun _ => rfl, fun h' => absurd h' h⟩

end Verif
