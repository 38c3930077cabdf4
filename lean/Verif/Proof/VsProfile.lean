import Verif.Spec.VsProfile
import Verif.Props.ProfileGeometry

set_option linter.unusedSectionVars false
set_option linter.unusedVariables false

namespace Verif

open Spec

variable {K : Type} [Field K] [LinearOrder K] [IsStrictOrderedRing K] [FloorRing K]

theorem isInt_iff (x : K) : isInt x = true ↔ ∃ n : ℤ, x = n := by
  unfold isInt
  rw [decide_eq_true_eq]
  constructor
  · intro h; exact ⟨⌊x⌋, h.symm⟩
  · rintro ⟨n, rfl⟩; simp

theorem nonneg_of_dropLast_last {α : Type*} (f : α → K) (l : List α) (h1 : ∀ r ∈ l.dropLast, 0 < f r)
    (h2 : ∀ r, l.getLast? = some r → 0 ≤ f r) : ∀ r ∈ l, 0 ≤ f r := by
  intro r hr
  have hne : l ≠ [] := List.ne_nil_of_mem hr
  rw [← List.dropLast_append_getLast hne] at hr
  rcases List.mem_append.1 hr with h | h
  · exact (h1 r h).le
  · simp only [List.mem_singleton] at h
    exact h2 r (by rw [List.getLast?_eq_getLast_of_ne_nil hne, h])

/-- `checkThkVs` decides the documented conditions. -/
theorem checkThkVs_ok (thk vs : List K) :
    checkThkVs thk vs = .ok () ↔
      thk ≠ [] ∧ (∀ t ∈ thk.dropLast, 0 < t) ∧ (∀ t ∈ thk, 0 ≤ t) ∧ (∀ v ∈ vs, 0 < v) := by
  unfold checkThkVs
  split
  · rename_i h
    simp only [List.any_eq_true, decide_eq_true_eq] at h
    obtain ⟨t, ht, hle⟩ := h
    constructor
    · intro h; cases h
    · rintro ⟨_, h, _⟩; exact absurd (h t ht) (not_lt.2 hle)
  · rename_i h
    have hpos : ∀ t ∈ thk.dropLast, 0 < t := by simpa using h
    split
    · rename_i hl
      rw [List.getLast?_eq_none_iff] at hl
      simp [hl]
    · rename_i t hl
      have hne : thk ≠ [] := by rintro rfl; simp at hl
      have hmem : t ∈ thk := List.mem_of_getLast? hl
      split_ifs with h1 h2
      · constructor
        · intro h; cases h
        · rintro ⟨_, _, h, _⟩; exact absurd (h t hmem) (not_le.2 h1)
      · simp only [List.any_eq_true, decide_eq_true_eq] at h2
        obtain ⟨v, hv, hle⟩ := h2
        constructor
        · intro h; cases h
        · rintro ⟨_, _, _, h⟩; exact absurd (h v hv) (not_lt.2 hle)
      · refine ⟨fun _ => ⟨hne, hpos, ?_, by simpa using h2⟩, fun _ => rfl⟩
        apply nonneg_of_dropLast_last (fun x => x) thk hpos
        intro r hr
        rw [hl] at hr; cases hr; exact not_lt.1 h1

theorem checkVsFormat_two_ok (rows : List (K × K)) :
    checkVsFormat (.two rows) = .ok () ↔ Valid rows := by
  rw [checkVsFormat, checkThkVs_ok]
  constructor
  · rintro ⟨h1, h2, h3, h4⟩
    refine ⟨by simpa using h1, ?_, ?_, ?_⟩
    · intro r hr; exact h2 r.1 (by rw [← List.map_dropLast]; exact List.mem_map_of_mem hr)
    · intro r hr; exact h3 r.1 (List.mem_map_of_mem hr)
    · intro r hr; exact h4 r.2 (List.mem_map_of_mem hr)
  · intro h
    exact ⟨h.thkOK.ne, h.thkOK.pos, h.thkOK.nonneg, by
      intro v hv; obtain ⟨r, hr, rfl⟩ := List.mem_map.1 hv; exact h.vs_pos r hr⟩

theorem Spec.Valid5.thkVs {rows : List (Row K)} (h : Valid5 rows) :
    checkThkVs (rows.map Row.thk) (rows.map Row.vs) = .ok () := by
  rw [checkThkVs_ok]
  refine ⟨by simpa using h.nonempty, ?_, ?_, ?_⟩
  · intro t ht
    rw [← List.map_dropLast] at ht
    obtain ⟨r, hr, rfl⟩ := List.mem_map.1 ht; exact h.thk_pos r hr
  · intro t ht; obtain ⟨r, hr, rfl⟩ := List.mem_map.1 ht; exact h.thk_nonneg r hr
  · intro t ht; obtain ⟨r, hr, rfl⟩ := List.mem_map.1 ht; exact (h.pos r hr).1

theorem checkVsFormat_five_ok (rows : List (Row K)) :
    checkVsFormat (.five rows) = .ok () ↔ Valid5 rows := by
  rw [checkVsFormat]
  constructor
  · intro h
    cases hc : checkThkVs (rows.map Row.thk) (rows.map Row.vs) with
    | error e => rw [hc] at h; simp [bind, Except.bind] at h
    | ok u =>
      rw [hc] at h
      simp only [bind, Except.bind] at h
      obtain ⟨h1, h2, h3, h4⟩ := (checkThkVs_ok _ _).1 hc
      have hne : rows ≠ [] := by simpa using h1
      split_ifs at h with a b c
      split at h
      · cases h
      · rename_i r hl
        split_ifs at h with d
        simp only [Bool.or_eq_true, not_or, Bool.not_eq_true, List.any_eq_false,
          decide_eq_true_eq, not_le] at a
        simp only [Bool.not_eq_true', Bool.not_eq_false, List.all_eq_true] at b
        simp only [Bool.not_eq_true, List.any_eq_false, decide_eq_true_eq, not_le] at c
        refine ⟨hne, ?_, ?_, ?_, ?_, c, ?_⟩
        · intro r hr; exact h2 r.thk (by rw [← List.map_dropLast]; exact List.mem_map_of_mem hr)
        · intro r hr; exact h3 r.thk (List.mem_map_of_mem hr)
        · intro r hr; exact ⟨h4 r.vs (List.mem_map_of_mem hr), a.1 r hr, a.2 r hr⟩
        · intro r hr; exact (isInt_iff _).1 (b r hr)
        · apply nonneg_of_dropLast_last Row.mat rows c
          intro r' hr'
          rw [hl] at hr'; cases hr'; exact not_lt.1 d
  · intro h
    rw [h.thkVs]
    simp only [bind, Except.bind]
    have a : (rows.any (fun r => decide (r.xi ≤ 0)) || rows.any (fun r => decide (r.rho ≤ 0))) = false := by
      rw [Bool.or_eq_false_iff]
      constructor <;> rw [List.any_eq_false] <;> intro r hr <;> simp [h.pos r hr]
    have b : rows.all (fun r => isInt r.mat) = true := by
      rw [List.all_eq_true]; intro r hr; exact (isInt_iff _).2 (h.mat_int r hr)
    have c : rows.dropLast.any (fun r => decide (r.mat ≤ 0)) = false := by
      rw [List.any_eq_false]; intro r hr; simpa using h.mat_pos r hr
    rw [a, b, c]
    rw [List.getLast?_eq_getLast_of_ne_nil h.nonempty]
    simp [h.mat_nonneg _ (List.getLast_mem h.nonempty)]

theorem Spec.Valid5.valid {rows : List (Row K)} (h : Valid5 rows) : Valid (rows.map Row.tv) where
  nonempty := by simpa using h.nonempty
  thk_pos := by
    intro r hr
    rw [← List.map_dropLast] at hr
    obtain ⟨q, hq, rfl⟩ := List.mem_map.1 hr; exact h.thk_pos q hq
  thk_nonneg := by
    intro r hr
    obtain ⟨q, hq, rfl⟩ := List.mem_map.1 hr; exact h.thk_nonneg q hq
  vs_pos := by
    intro r hr
    obtain ⟨q, hq, rfl⟩ := List.mem_map.1 hr; exact (h.pos q hq).1

theorem finishObj_ok {full : List (Row K)} (h : Valid (full.map Row.tv)) (p t : Nat) (thk : List K) :
    finishObj full p t thk = .ok
      { prof := p, thkAddr := t, zMax := thk.sum
        nLayer := if thk.getLast? = some 0 then thk.length - 1 else thk.length
        vs30 := 30 / travelTime (full.map Row.tv) 30 } := by
  simp [finishObj, C03_Vs30 _ h, bind, Except.bind, pure, Except.pure]

/-! ### damping and density correlations -/

theorem rhoOf_pos (v : K) : 0 < rhoOf v := by
  unfold rhoOf; split_ifs <;> norm_num

theorem qs2_pos (w : K) : 0 < 105 / 10 - 16 * w + 153 * w ^ 2 - 103 * w ^ 3 + 347 / 10 * w ^ 4
      - 529 / 100 * w ^ 5 + 31 / 100 * w ^ 6 := by
  have : 105 / 10 - 16 * w + 153 * w ^ 2 - 103 * w ^ 3 + 347 / 10 * w ^ 4
      - 529 / 100 * w ^ 5 + 31 / 100 * w ^ 6 = 1 / 1000 +
    ((10499/1000) * (1 + (-8000/10499) * w + (6700/10499) * w^2 + (-800/10499) * w^3)^2
      + (7008302/52495) * (w + (-251947/737716) * w^2 + (564009/20023720) * w^3)^2
      + (225471723/36885800) * (w^2 + (-62721043/450943446) * w^3)^2
      + (53267024861/2141981368500) * (w^3)^2) := by ring
  rw [this]
  positivity

theorem xiOf_pos (f : Int) (hf : f = 1 ∨ f = 2 ∨ f = 3) (v : K) (hv : 0 < v) : 0 < xiOf f v := by
  unfold xiOf
  rcases hf with rfl | rfl | rfl
  · simp only [if_true]; split_ifs <;> norm_num
  · simp only [show (2 : Int) ≠ 1 by decide, if_false, if_true]
    have := qs2_pos (v / 1000)
    split_ifs with h
    · norm_num
    · positivity
  · simp only [show (3 : Int) ≠ 1 by decide, show (3 : Int) ≠ 2 by decide, if_false, if_true]
    split_ifs <;> positivity

/-! ### two-column expansion -/

theorem autoMaterial_length (thk : List K) (h : thk ≠ []) : (autoMaterial thk).length = thk.length := by
  have := List.length_pos_iff.2 h
  unfold autoMaterial; split_ifs
  · simp; omega
  · simp

theorem expandTwo_getElem? (rows : List (K × K)) (f : Int) (i : Nat) (hne : rows ≠ []) (hi : i < rows.length) :
    ∃ m, (autoMaterial (rows.map Prod.fst))[i]? = some m ∧
      (expandTwo rows f)[i]? = some ⟨rows[i].1, rows[i].2, xiOf f rows[i].2, rhoOf rows[i].2, m⟩ := by
  have hl : i < (autoMaterial (rows.map Prod.fst)).length := by
    rw [autoMaterial_length _ (by simpa using hne)]; simpa using hi
  refine ⟨_, List.getElem?_eq_getElem hl, ?_⟩
  rw [expandTwo, List.getElem?_zipWith, List.getElem?_eq_getElem hi, List.getElem?_eq_getElem hl]

theorem expandTwo_map_tv (rows : List (K × K)) (f : Int) (hne : rows ≠ []) :
    (expandTwo rows f).map Row.tv = rows := by
  have hl := autoMaterial_length (rows.map Prod.fst) (by simpa using hne)
  simp only [List.length_map] at hl
  unfold expandTwo
  rw [List.map_zipWith]
  generalize autoMaterial (rows.map Prod.fst) = m at hl
  clear hne
  induction rows generalizing m with
  | nil => simp
  | cons r rows ih =>
    cases m with
    | nil => simp at hl
    | cons a m => simp [Row.tv]; exact ih m (by simpa using hl)

theorem autoMaterial_mem (thk : List K) (m : K) (h : m ∈ autoMaterial thk) :
    (∃ n : ℤ, m = n) ∧ 0 ≤ m := by
  unfold autoMaterial at h
  split_ifs at h
  · rcases List.mem_append.1 h with h | h
    · obtain ⟨i, _, rfl⟩ := List.mem_map.1 h
      exact ⟨⟨i + 1, by push_cast; ring⟩, by positivity⟩
    · simp only [List.mem_singleton] at h
      exact ⟨⟨0, by simp [h]⟩, by simp [h]⟩
  · obtain ⟨i, _, rfl⟩ := List.mem_map.1 h
    exact ⟨⟨i + 1, by push_cast; ring⟩, by positivity⟩

theorem autoMaterial_dropLast_pos (thk : List K) (m : K) (h : m ∈ (autoMaterial thk).dropLast) : 0 < m := by
  unfold autoMaterial at h
  split_ifs at h
  · simp only [List.dropLast_concat] at h
    obtain ⟨i, _, rfl⟩ := List.mem_map.1 h
    positivity
  · obtain ⟨i, _, rfl⟩ := List.mem_map.1 (List.mem_of_mem_dropLast h)
    positivity

theorem zipWith_mem {α β γ : Type*} (f : α → β → γ) (l : List α) (m : List β) (c : γ)
    (h : c ∈ List.zipWith f l m) : ∃ a ∈ l, ∃ b ∈ m, c = f a b := by
  induction l generalizing m with
  | nil => simp at h
  | cons a l ih =>
    cases m with
    | nil => simp at h
    | cons b m =>
      simp only [List.zipWith_cons_cons, List.mem_cons] at h
      rcases h with rfl | h
      · exact ⟨a, by simp, b, by simp, rfl⟩
      · obtain ⟨a', ha, b', hb, rfl⟩ := ih m h
        exact ⟨a', by simp [ha], b', by simp [hb], rfl⟩

theorem zipWith_dropLast {α β γ : Type*} (f : α → β → γ) (l : List α) (m : List β) (h : l.length = m.length) :
    (List.zipWith f l m).dropLast = List.zipWith f l.dropLast m.dropLast := by
  induction l generalizing m with
  | nil => simp
  | cons a l ih =>
    cases m with
    | nil => simp at h
    | cons b m =>
      have hl : l.length = m.length := by simpa using h
      cases l with
      | nil =>
        have : m = [] := List.length_eq_zero_iff.1 hl.symm
        subst this; simp
      | cons a' l' =>
        cases m with
        | nil => simp at hl
        | cons b' m' =>
          simp only [List.zipWith_cons_cons, List.dropLast_cons_cons] at ih ⊢
          rw [← ih (b' :: m') hl]; simp

theorem expandTwo_valid5 (rows : List (K × K)) (f : Int) (hf : f = 1 ∨ f = 2 ∨ f = 3) (h : Valid rows) :
    Valid5 (expandTwo rows f) := by
  have hl := autoMaterial_length (rows.map Prod.fst) (by simpa using h.nonempty)
  simp only [List.length_map] at hl
  have hmem : ∀ r ∈ expandTwo rows f, ∃ a ∈ rows, ∃ m ∈ autoMaterial (rows.map Prod.fst),
      r = ⟨a.1, a.2, xiOf f a.2, rhoOf a.2, m⟩ := fun r hr => zipWith_mem _ _ _ _ hr
  have hdl : ∀ r ∈ (expandTwo rows f).dropLast, ∃ a ∈ rows.dropLast,
      ∃ m ∈ (autoMaterial (rows.map Prod.fst)).dropLast, r = ⟨a.1, a.2, xiOf f a.2, rhoOf a.2, m⟩ := by
    intro r hr
    rw [expandTwo, zipWith_dropLast _ _ _ hl.symm] at hr
    exact zipWith_mem _ _ _ _ hr
  refine ⟨?_, ?_, ?_, ?_, ?_, ?_, ?_⟩
  · intro h0
    have := expandTwo_map_tv rows f h.nonempty
    rw [h0] at this
    exact h.nonempty (by simpa using this.symm)
  · intro r hr; obtain ⟨a, ha, m, _, rfl⟩ := hdl r hr; exact h.thk_pos a ha
  · intro r hr; obtain ⟨a, ha, m, _, rfl⟩ := hmem r hr; exact h.thk_nonneg a ha
  · intro r hr; obtain ⟨a, ha, m, _, rfl⟩ := hmem r hr
    exact ⟨h.vs_pos a ha, xiOf_pos f hf _ (h.vs_pos a ha), rhoOf_pos _⟩
  · intro r hr; obtain ⟨a, ha, m, hm, rfl⟩ := hmem r hr; exact (autoMaterial_mem _ m hm).1
  · intro r hr; obtain ⟨a, ha, m, hm, rfl⟩ := hdl r hr; exact autoMaterial_dropLast_pos _ m hm
  · intro r hr; obtain ⟨a, ha, m, hm, rfl⟩ := hmem r hr; exact (autoMaterial_mem _ m hm).2

theorem convert_valid5 (rows : List (Row K)) (du : DampUnit) (de : DensUnit) (h : Valid5 rows) :
    Valid5 (rows.map (convertRow du de)) := by
  refine ⟨by simpa using h.nonempty, ?_, ?_, ?_, ?_, ?_, ?_⟩
  · intro r hr; rw [← List.map_dropLast] at hr
    obtain ⟨q, hq, rfl⟩ := List.mem_map.1 hr; exact h.thk_pos q hq
  · intro r hr; obtain ⟨q, hq, rfl⟩ := List.mem_map.1 hr; exact h.thk_nonneg q hq
  · intro r hr; obtain ⟨q, hq, rfl⟩ := List.mem_map.1 hr
    obtain ⟨h1, h2, h3⟩ := h.pos q hq
    refine ⟨h1, ?_, ?_⟩ <;> simp only [convertRow] <;> split_ifs <;> positivity
  · intro r hr; obtain ⟨q, hq, rfl⟩ := List.mem_map.1 hr; exact h.mat_int q hq
  · intro r hr; rw [← List.map_dropLast] at hr
    obtain ⟨q, hq, rfl⟩ := List.mem_map.1 hr; exact h.mat_pos q hq
  · intro r hr; obtain ⟨q, hq, rfl⟩ := List.mem_map.1 hr; exact h.mat_nonneg q hq

/-- Appending a half space to a valid profile whose last layer has positive
thickness and a positive material number. -/
theorem addHalf_valid5 (rows : List (Row K)) (h : Valid5 rows)
    (ht : (rows.getLast h.nonempty).thk ≠ 0) (hm : 0 < (rows.getLast h.nonempty).mat) :
    Valid5 (rows ++ [halfspaceOf (rows.getLast h.nonempty)]) := by
  have hlm := List.getLast_mem h.nonempty
  have hall : ∀ r ∈ rows, 0 < r.thk ∧ 0 < r.mat := by
    intro r hr
    rw [← List.dropLast_append_getLast h.nonempty] at hr
    rcases List.mem_append.1 hr with h1 | h1
    · exact ⟨h.thk_pos r h1, h.mat_pos r h1⟩
    · simp only [List.mem_singleton] at h1; subst h1
      exact ⟨lt_of_le_of_ne (h.thk_nonneg _ hlm) (Ne.symm ht), hm⟩
  refine ⟨by simp, ?_, ?_, ?_, ?_, ?_, ?_⟩
  · intro r hr; rw [List.dropLast_concat] at hr; exact (hall r hr).1
  · intro r hr
    rcases List.mem_append.1 hr with h1 | h1
    · exact h.thk_nonneg r h1
    · simp only [List.mem_singleton] at h1; subst h1; simp [halfspaceOf]
  · intro r hr
    rcases List.mem_append.1 hr with h1 | h1
    · exact h.pos r h1
    · simp only [List.mem_singleton] at h1; subst h1; exact h.pos (rows.getLast h.nonempty) hlm
  · intro r hr
    rcases List.mem_append.1 hr with h1 | h1
    · exact h.mat_int r h1
    · simp only [List.mem_singleton] at h1; subst h1; exact ⟨0, by simp [halfspaceOf]⟩
  · intro r hr; rw [List.dropLast_concat] at hr; exact (hall r hr).2
  · intro r hr
    rcases List.mem_append.1 hr with h1 | h1
    · exact h.mat_nonneg r h1
    · simp only [List.mem_singleton] at h1; subst h1; simp [halfspaceOf]

end Verif
