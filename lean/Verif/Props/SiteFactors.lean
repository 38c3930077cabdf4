import Verif.Model.SiteFactors
import Verif.Props.FreqSpectrum
import Verif.Props.Amplify

set_option linter.unusedSectionVars false
set_option linter.unusedVariables false

/-!
Properties C53 (accepted inputs), C54 (reference data), C111 (interpolated factors), C112 (adjusted motions).
-/

namespace Verif

namespace Spec
variable {K : Type} [_root_.Field K] [LinearOrder K]

/-- The greatest basin depth covered for a given Vs30. -/
def maxZ1 (v : K) : K :=
  if v ≤ 400 then 900 else if v ≤ 450 then 750 else if v ≤ 550 then 600 else if v ≤ 600 then 450 else if v ≤ 650 then 300
  else if v ≤ 750 then 150 else if v ≤ 800 then 75 else if v ≤ 850 then 36 else 16

/-- A covered pair; basins deeper than 900 m are a matter of the range check. -/
def CoveredPair (v z : K) : Prop := v ≤ 400 ∨ z ≤ maxZ1 v

/-- The ranges of the three parameters. -/
def InRange (v z p : K) : Prop := (175 ≤ v ∧ v ≤ 950) ∧ (8 ≤ z ∧ z ≤ 900) ∧ (1 / 100 ≤ p ∧ p ≤ 3 / 2)

/-- The closest number in `[lo, hi]`. -/
def clampTo (lo hi x : K) : K := max lo (min hi x)

end Spec

open Spec (maxZ1 CoveredPair InRange clampTo)

section
variable {K : Type} [Field K] [LinearOrder K] [IsStrictOrderedRing K]

/-- The pairs of limits. -/
def sfLimits : List (ℕ × ℕ) := [(400, 750), (450, 600), (550, 450), (600, 300), (650, 150), (750, 75), (800, 36), (850, 16)]

theorem combo_iff (v z p : K) : (sfRange v z p).combo = false ↔ CoveredPair v z := by
  have h : (sfRange v z p).combo = false ↔ ((400 < v → z ≤ 750) ∧ (450 < v → z ≤ 600) ∧ (550 < v → z ≤ 450) ∧
      (600 < v → z ≤ 300) ∧ (650 < v → z ≤ 150) ∧ (750 < v → z ≤ 75) ∧ (800 < v → z ≤ 36) ∧ (850 < v → z ≤ 16)) := by
    unfold sfRange
    dsimp only
    split_ifs with h1 h2 h3 h4 h5 h6 h7 h8
    · simp only [Bool.true_eq_false, false_iff]; intro h; exact absurd (h.1 h1.1) (not_le.2 h1.2)
    · simp only [Bool.true_eq_false, false_iff]; intro h; exact absurd (h.2.1 h2.1) (not_le.2 h2.2)
    · simp only [Bool.true_eq_false, false_iff]; intro h; exact absurd (h.2.2.1 h3.1) (not_le.2 h3.2)
    · simp only [Bool.true_eq_false, false_iff]; intro h; exact absurd (h.2.2.2.1 h4.1) (not_le.2 h4.2)
    · simp only [Bool.true_eq_false, false_iff]; intro h; exact absurd (h.2.2.2.2.1 h5.1) (not_le.2 h5.2)
    · simp only [Bool.true_eq_false, false_iff]; intro h; exact absurd (h.2.2.2.2.2.1 h6.1) (not_le.2 h6.2)
    · simp only [Bool.true_eq_false, false_iff]; intro h; exact absurd (h.2.2.2.2.2.2.1 h7.1) (not_le.2 h7.2)
    · simp only [Bool.true_eq_false, false_iff]; intro h; exact absurd (h.2.2.2.2.2.2.2 h8.1) (not_le.2 h8.2)
    · simp only [not_and, not_lt] at h1 h2 h3 h4 h5 h6 h7 h8
      exact iff_of_true rfl ⟨h1, h2, h3, h4, h5, h6, h7, h8⟩
  rw [h]
  unfold CoveredPair maxZ1
  constructor
  · rintro ⟨h1, h2, h3, h4, h5, h6, h7, h8⟩
    by_cases hv : v ≤ 400
    · exact .inl hv
    · right
      rw [if_neg hv]
      split_ifs with a b c d e f g
      · exact h1 (not_le.1 hv)
      · exact h2 (not_le.1 a)
      · exact h3 (not_le.1 b)
      · exact h4 (not_le.1 c)
      · exact h5 (not_le.1 d)
      · exact h6 (not_le.1 e)
      · exact h7 (not_le.1 f)
      · exact h8 (not_le.1 g)
  · intro h
    by_cases hv : v ≤ 400
    · refine ⟨?_, ?_, ?_, ?_, ?_, ?_, ?_, ?_⟩ <;> intro h' <;> exfalso <;> linarith
    · have h := h.resolve_left hv
      rw [if_neg hv] at h
      have hv' := not_le.1 hv
      clear hv
      split_ifs at h with a b c d e f g
      all_goals
        refine ⟨?_, ?_, ?_, ?_, ?_, ?_, ?_, ?_⟩ <;> intro h' <;> first | linarith | (exfalso; linarith)

/-- Without `lenient`: exactly the triples in range with a covered pair are accepted, unchanged; all others are a ValueError. -/
theorem C53_strict (v z p : K) :
    (InRange v z p ∧ CoveredPair v z → mkSiteFac v z p false = .ok ⟨v, z, p⟩) ∧
    (¬ (InRange v z p ∧ CoveredPair v z) → mkSiteFac v z p false = .error .valueError) := by
  have hc := combo_iff v z p
  have e1 : (sfRange v z p).vs30 = decide (v < 175 ∨ 950 < v) := rfl
  have e2 : (sfRange v z p).z1 = decide (z < 8 ∨ 900 < z) := rfl
  have e3 : (sfRange v z p).pga = decide (p < 1 / 100 ∨ 15 / 10 < p) := rfl
  have h15 : (15 / 10 : K) = 3 / 2 := by norm_num
  constructor
  · rintro ⟨⟨⟨a1, a2⟩, ⟨b1, b2⟩, c1, c2⟩, hp⟩
    unfold mkSiteFac
    dsimp only
    rw [e1, e2, e3, hc.2 hp, decide_eq_false (by rintro (h | h) <;> linarith), decide_eq_false (by rintro (h | h) <;> linarith),
      decide_eq_false (by rw [h15]; rintro (h | h) <;> linarith)]
    rfl
  · intro hn
    unfold mkSiteFac
    dsimp only
    rw [e1, e2, e3]
    by_cases hv : v < 175 ∨ 950 < v
    · rw [decide_eq_true hv]; rfl
    rw [decide_eq_false hv]
    by_cases hz : z < 8 ∨ 900 < z
    · rw [decide_eq_true hz]; rfl
    rw [decide_eq_false hz]
    by_cases hp : p < 1 / 100 ∨ 15 / 10 < p
    · rw [decide_eq_true hp]; rfl
    rw [decide_eq_false hp]
    have : (sfRange v z p).combo = true := by
      by_contra hb
      apply hn
      rw [h15] at hp
      simp only [not_or, not_lt] at hv hz hp
      exact ⟨⟨hv, hz, hp⟩, hc.1 (by simpa using hb)⟩
    rw [this]
    rfl

theorem clamp_if (lo hi x : K) (h : lo ≤ hi) : (if x < lo ∨ hi < x then (if x < lo then lo else hi) else x) = clampTo lo hi x := by
  unfold clampTo
  split_ifs with h1 h2
  · rw [max_eq_left]; exact (min_le_right _ _).trans h2.le
  · have : hi < x := by rcases h1 with h1 | h1; exact absurd h1 h2; exact h1
    rw [min_eq_left this.le, max_eq_right h]
  · simp only [not_or, not_lt] at h1
    rw [min_eq_right h1.2, max_eq_right h1.1]

/-- Clamping does not change which pairs are covered. -/
theorem covered_clamp (v z : K) : CoveredPair (clampTo 175 950 v) (clampTo 8 900 z) ↔ CoveredPair v z := by
  have hv : ∀ t : K, 175 ≤ t → t < 950 → (clampTo 175 950 v ≤ t ↔ v ≤ t) := by
    intro t h1 h2
    unfold clampTo
    rw [max_le_iff, min_le_iff]
    constructor
    · rintro ⟨_, h | h⟩
      · linarith
      · exact h
    · intro h; exact ⟨h1, .inr h⟩
  have hz : ∀ t : K, 8 ≤ t → t < 900 → (clampTo 8 900 z ≤ t ↔ z ≤ t) := by
    intro t h1 h2
    unfold clampTo
    rw [max_le_iff, min_le_iff]
    constructor
    · rintro ⟨_, h | h⟩
      · linarith
      · exact h
    · intro h; exact ⟨h1, .inr h⟩
  unfold CoveredPair maxZ1
  simp only [hv 400 (by norm_num) (by norm_num), hv 450 (by norm_num) (by norm_num), hv 550 (by norm_num) (by norm_num),
    hv 600 (by norm_num) (by norm_num), hv 650 (by norm_num) (by norm_num), hv 750 (by norm_num) (by norm_num),
    hv 800 (by norm_num) (by norm_num), hv 850 (by norm_num) (by norm_num)]
  by_cases h4 : v ≤ 400
  · simp [h4]
  · simp only [h4, false_or, if_false]
    split_ifs
    all_goals exact hz _ (by norm_num) (by norm_num)

/-- With `lenient=True` every value is replaced by the closest value of its range, the result is in range; only pairs that are
not covered are rejected. -/
theorem C53_lenient (v z p : K) :
    (CoveredPair v z → mkSiteFac v z p true = .ok ⟨clampTo 175 950 v, clampTo 8 900 z, clampTo (1 / 100) (3 / 2) p⟩ ∧
      InRange (clampTo 175 950 v) (clampTo 8 900 z) (clampTo (1 / 100) (3 / 2) p) ∧
      CoveredPair (clampTo 175 950 v) (clampTo 8 900 z)) ∧
    (¬ CoveredPair v z → mkSiteFac v z p true = .error .valueError) := by
  have hc := combo_iff v z p
  have h15 : (15 / 10 : K) = 3 / 2 := by norm_num
  have mem : ∀ lo hi x : K, lo ≤ hi → lo ≤ clampTo lo hi x ∧ clampTo lo hi x ≤ hi := by
    intro lo hi x h
    exact ⟨le_max_left _ _, max_le h (min_le_left _ _)⟩
  have hb : ∀ (lo hi x : K), lo ≤ hi → sfBound (decide (x < lo ∨ hi < x)) true lo hi x = .ok (clampTo lo hi x) := by
    intro lo hi x h
    rw [← clamp_if lo hi x h]
    unfold sfBound
    by_cases hx : x < lo ∨ hi < x
    · simp [hx]
    · simp [hx]
  have hrun : mkSiteFac v z p true = if (sfRange v z p).combo = true then .error .valueError
      else .ok ⟨clampTo 175 950 v, clampTo 8 900 z, clampTo (1 / 100) (3 / 2) p⟩ := by
    have h1 := hb 175 950 v (by norm_num)
    have h2 := hb 8 900 z (by norm_num)
    have h3 := hb (1 / 100) (15 / 10) p (by norm_num)
    unfold mkSiteFac
    dsimp only
    have e1 : (sfRange v z p).vs30 = decide (v < 175 ∨ 950 < v) := rfl
    have e2 : (sfRange v z p).z1 = decide (z < 8 ∨ 900 < z) := rfl
    have e3 : (sfRange v z p).pga = decide (p < 1 / 100 ∨ 15 / 10 < p) := rfl
    rw [e1, e2, e3, h1, h2, h3]
    simp only [bind, Except.bind, h15]
    rfl
  constructor
  · intro h
    refine ⟨?_, ⟨mem _ _ _ (by norm_num), mem _ _ _ (by norm_num), mem _ _ _ (by norm_num)⟩, (covered_clamp v z).2 h⟩
    rw [hrun, hc.2 h]
    rfl
  · intro h
    have : (sfRange v z p).combo = true := by
      by_contra hb'
      exact h (hc.1 (by simpa using hb'))
    rw [hrun, if_pos this]

example : mkSiteFac (170 : ℚ) 1000 2 true = .ok ⟨175, 900, 3 / 2⟩ ∧ mkSiteFac (500 : ℚ) 601 1 true = .error .valueError ∧
    mkSiteFac (500 : ℚ) 600 1 false = .ok ⟨500, 600, 1⟩ ∧ mkSiteFac (170 : ℚ) 600 1 false = .error .valueError := by
  decide +kernel

/-! ### C54 -/

theorem filter_lt_sorted (l : List K) (h : l.Pairwise (· < ·)) (x : K) (i : ℕ) (a : K) (hi : l[i]? = some a) :
    (i < (l.filter fun y => decide (y < x)).length ↔ a < x) := by
  induction l generalizing i with
  | nil => simp at hi
  | cons b l ih =>
    rw [List.pairwise_cons] at h
    cases i with
    | zero =>
      simp only [List.getElem?_cons_zero, Option.some.injEq] at hi
      subst hi
      by_cases hb : b < x
      · simp [hb]
      · simp only [hb, iff_false, not_lt]
        rw [List.filter_cons_of_neg (by simpa using hb)]
        have : l.filter (fun y => decide (y < x)) = [] := by
          rw [List.filter_eq_nil_iff]
          intro y hy
          simp only [decide_eq_true_eq, not_lt]
          exact (not_lt.1 hb).trans (h.1 y hy).le
        rw [this]; simp
    | succ i =>
      simp only [List.getElem?_cons_succ] at hi
      have ih' := ih h.2 i hi
      by_cases hb : b < x
      · rw [List.filter_cons_of_pos (by simpa using hb)]
        simp only [List.length_cons, Nat.add_lt_add_iff_right]
        exact ih'
      · rw [List.filter_cons_of_neg (by simpa using hb)]
        have hab : b < a := h.1 a (List.mem_of_getElem? hi)
        have hax : ¬ a < x := by
          intro hc; exact hb (hab.trans hc)
        simp only [hax, iff_false, not_lt] at ih' ⊢
        omega

/-- The two neighbours of a value on a sorted grid. -/
theorem searchPair_spec (l : List K) (h : l.Pairwise (· < ·)) (a b x : K) (h2 : 2 ≤ l.length) (ha : l.head? = some a)
    (hb : l.getLast? = some b) (hx : a ≤ x) (hx' : x ≤ b) :
    ∃ i lo hi, searchPair x l = .ok (i, i + 1) ∧ i + 1 < l.length ∧ l[i]? = some lo ∧ l[i + 1]? = some hi ∧ lo ≤ x ∧ x ≤ hi ∧
      lo < hi ∧ (i = 0 ∨ lo < x) := by
  have hmono : ∀ (i j : ℕ) (u w : K), i < j → l[i]? = some u → l[j]? = some w → u < w := by
    intro i j u w hij hu hw
    have hj : j < l.length := by
      by_contra hn; rw [List.getElem?_eq_none (by omega)] at hw; cases hw
    rw [List.getElem?_eq_getElem (by omega)] at hu hw
    have := List.pairwise_iff_getElem.1 h i j (by omega) hj hij
    rw [Option.some.inj hu, Option.some.inj hw] at this
    exact this
  rw [List.head?_eq_getElem?] at ha
  rw [List.getLast?_eq_getElem?] at hb
  have get : ∀ i, i < l.length → ∃ u, l[i]? = some u := fun i hi => ⟨l[i], List.getElem?_eq_getElem hi⟩
  unfold searchPair
  rw [List.head?_eq_getElem?, List.getLast?_eq_getElem?, ha, hb]
  dsimp only
  rw [if_neg (by simp [hx, hx'])]
  by_cases e1 : x = a
  · rw [if_pos e1]
    obtain ⟨w, hw⟩ := get 1 (by omega)
    have := hmono 0 1 a w (by omega) ha hw
    exact ⟨0, a, w, rfl, by omega, ha, hw, hx, by rw [e1]; exact this.le, this, .inl rfl⟩
  rw [if_neg e1]
  by_cases e2 : x = b
  · rw [if_pos e2]
    obtain ⟨u, hu⟩ := get (l.length - 2) (by omega)
    have := hmono (l.length - 2) (l.length - 1) u b (by omega) hu hb
    have e3 : l.length - 2 + 1 = l.length - 1 := by omega
    exact ⟨l.length - 2, u, b, by rw [e3], by omega, hu, by rw [e3]; exact hb, by rw [e2]; exact this.le, hx', this, .inr (by rw [e2]; exact this)⟩
  rw [if_neg e2]
  set n := (l.filter fun y => decide (y < x)).length with hn
  have h0 : 0 < n := (filter_lt_sorted l h x 0 a ha).2 (lt_of_le_of_ne hx (Ne.symm e1))
  have h1 : n ≤ l.length - 1 := by
    by_contra hc
    have := (filter_lt_sorted l h x (l.length - 1) b hb).1 (by omega)
    exact absurd hx' (not_le.2 this)
  obtain ⟨u, hu⟩ := get (n - 1) (by omega)
  obtain ⟨w, hw⟩ := get n (by omega)
  have hux := (filter_lt_sorted l h x (n - 1) u hu).1 (by omega)
  have hxw : x ≤ w := by
    by_contra hc
    have := (filter_lt_sorted l h x n w hw).2 (not_le.1 hc)
    omega
  have e3 : n - 1 + 1 = n := by omega
  exact ⟨n - 1, u, w, by rw [e3], by omega, hu, by rw [e3]; exact hw, hux.le, hxw, by linarith, .inr hux⟩

theorem vs30Num_sorted : (vs30Num : List K).Pairwise (· < ·) := by
  unfold vs30Num
  rw [List.pairwise_map]
  exact (by decide : vs30Grid.Pairwise (· < ·)).imp (fun h => by exact_mod_cast h)

theorem z1Num_sorted : (z1Num : List K).Pairwise (· < ·) := by
  unfold z1Num
  rw [List.pairwise_map]
  exact (by decide : z1Grid.Pairwise (· < ·)).imp (fun h => by exact_mod_cast h)

theorem pgaNum_sorted : (pgaNum : List K).Pairwise (· < ·) := by
  unfold pgaNum
  rw [List.pairwise_map]
  refine (by decide : pgaGrid.Pairwise (· < ·)).imp (fun h => ?_)
  apply div_lt_div_of_pos_right _ (by norm_num)
  exact_mod_cast h

theorem covered_limits {v z : K} (h : CoveredPair v z) : ∀ t ∈ sfLimits, (t.1 : K) < v → z ≤ (t.2 : K) := by
  have hc := (combo_iff v z 0).2 h
  unfold sfRange at hc
  dsimp only at hc
  split_ifs at hc with h1 h2 h3 h4 h5 h6 h7 h8
  intro t ht hv
  by_contra hz
  have hz' := not_le.1 hz
  simp only [sfLimits, List.mem_cons, List.not_mem_nil, or_false] at ht
  rcases ht with rfl | rfl | rfl | rfl | rfl | rfl | rfl | rfl
  · exact h1 ⟨by exact_mod_cast hv, by exact_mod_cast hz'⟩
  · exact h2 ⟨by exact_mod_cast hv, by exact_mod_cast hz'⟩
  · exact h3 ⟨by exact_mod_cast hv, by exact_mod_cast hz'⟩
  · exact h4 ⟨by exact_mod_cast hv, by exact_mod_cast hz'⟩
  · exact h5 ⟨by exact_mod_cast hv, by exact_mod_cast hz'⟩
  · exact h6 ⟨by exact_mod_cast hv, by exact_mod_cast hz'⟩
  · exact h7 ⟨by exact_mod_cast hv, by exact_mod_cast hz'⟩
  · exact h8 ⟨by exact_mod_cast hv, by exact_mod_cast hz'⟩

/-- The complete table: a cell of the grid either has files at its four corners or lies beyond a limit. -/
theorem cell_table : ∀ i < 16, ∀ j < 9,
    (shippedPair (vs30Grid.getD i 0) (z1Grid.getD j 0) = true ∧ shippedPair (vs30Grid.getD i 0) (z1Grid.getD (j + 1) 0) = true ∧
      shippedPair (vs30Grid.getD (i + 1) 0) (z1Grid.getD j 0) = true ∧
      shippedPair (vs30Grid.getD (i + 1) 0) (z1Grid.getD (j + 1) 0) = true) ∨
    (i ≠ 0 ∧ j ≠ 0 ∧ ∃ t ∈ sfLimits, t.1 ≤ vs30Grid.getD i 0 ∧ t.2 ≤ z1Grid.getD j 0) := by
  decide +kernel

/-- The eight reference points of an accepted query: neighbouring grid values `v₀ < v₁`, `z₀ < z₁`, `p₀ < p₁` (hundredths of
g), that bracket the query, all with shipped files. -/
structure RefCell (s : SiteFac K) (i j k v₀ v₁ z₀ z₁ p₀ p₁ : ℕ) : Prop where
  vi : vs30Grid[i]? = some v₀
  vi' : vs30Grid[i + 1]? = some v₁
  zj : z1Grid[j]? = some z₀
  zj' : z1Grid[j + 1]? = some z₁
  pk : pgaGrid[k]? = some p₀
  pk' : pgaGrid[k + 1]? = some p₁
  v_lt : v₀ < v₁
  z_lt : z₀ < z₁
  p_lt : p₀ < p₁
  v_in : (v₀ : K) ≤ s.vs30 ∧ s.vs30 ≤ v₁
  z_in : (z₀ : K) ≤ s.z1 ∧ s.z1 ≤ z₁
  p_in : (p₀ : K) / 100 ≤ s.pga ∧ s.pga ≤ (p₁ : K) / 100
  files : ∀ v ∈ [v₀, v₁], ∀ z ∈ [z₀, z₁], shippedPair v z = true

theorem getElem?_cast {l : List ℕ} {f : ℕ → K} {i : ℕ} {a : K} (h : (l.map f)[i]? = some a) : ∃ n, l[i]? = some n ∧ f n = a := by
  rw [List.getElem?_map] at h
  cases hn : l[i]? with
  | none => rw [hn] at h; cases h
  | some n => rw [hn] at h; exact ⟨n, rfl, by simpa using h⟩

/-- Every accepted query has its eight reference data sets among the shipped files. -/
theorem C54_reference_cell (s : SiteFac K) (hr : InRange s.vs30 s.z1 s.pga) (hc : CoveredPair s.vs30 s.z1) :
    ∃ i j k v₀ v₁ z₀ z₁ p₀ p₁, RefCell s i j k v₀ v₁ z₀ z₁ p₀ p₁ ∧
      locateGrids s = .ok [(i, j, k), (i, j, k + 1), (i, j + 1, k), (i, j + 1, k + 1), (i + 1, j, k), (i + 1, j, k + 1),
        (i + 1, j + 1, k), (i + 1, j + 1, k + 1)] := by
  obtain ⟨⟨a1, a2⟩, ⟨b1, b2⟩, c1, c2⟩ := hr
  obtain ⟨i, lo, hi, e1, hi1, hlo, hhi, hlx, hxh, hlt, hstr⟩ := searchPair_spec (vs30Num : List K) vs30Num_sorted 175 950 s.vs30
    (by simp [vs30Num, vs30Grid]) (by simp [vs30Num, vs30Grid]) (by simp [vs30Num, vs30Grid]) a1 a2
  obtain ⟨j, zlo, zhi, e2, hj1, hzlo, hzhi, hzlx, hzxh, hzlt, hzstr⟩ := searchPair_spec (z1Num : List K) z1Num_sorted 8 900 s.z1
    (by simp [z1Num, z1Grid]) (by simp [z1Num, z1Grid]) (by simp [z1Num, z1Grid]) b1 b2
  obtain ⟨k, plo, phi, e3, hk1, hplo, hphi, hplx, hpxh, hplt, hpstr⟩ := searchPair_spec (pgaNum : List K) pgaNum_sorted (1 / 100) (3 / 2)
    s.pga (by simp [pgaNum, pgaGrid]) (by simp [pgaNum, pgaGrid]) (by simp [pgaNum, pgaGrid]; norm_num) c1 c2
  obtain ⟨v₀, hv0, rfl⟩ := getElem?_cast hlo
  obtain ⟨v₁, hv1, rfl⟩ := getElem?_cast hhi
  obtain ⟨z₀, hz0, rfl⟩ := getElem?_cast hzlo
  obtain ⟨z₁, hz1, rfl⟩ := getElem?_cast hzhi
  obtain ⟨p₀, hp0, rfl⟩ := getElem?_cast hplo
  obtain ⟨p₁, hp1, rfl⟩ := getElem?_cast hphi
  have hgd : ∀ {l : List ℕ} {i n : ℕ}, l[i]? = some n → l.getD i 0 = n := by
    intro l i n h; rw [List.getD_eq_getElem?_getD, h]; rfl
  have hi16 : i < 16 := by simp [vs30Num, vs30Grid] at hi1; omega
  have hj9 : j < 9 := by simp [z1Num, z1Grid] at hj1; omega
  have hpl : (p₀ : K) < p₁ := by
    rwa [div_lt_div_iff_of_pos_right (by norm_num)] at hplt
  refine ⟨i, j, k, v₀, v₁, z₀, z₁, p₀, p₁, ⟨hv0, hv1, hz0, hz1, hp0, hp1, by exact_mod_cast hlt, by exact_mod_cast hzlt,
    by exact_mod_cast hpl, ⟨hlx, hxh⟩, ⟨hzlx, hzxh⟩, ⟨hplx, hpxh⟩, ?_⟩, ?_⟩
  · rcases cell_table i hi16 j hj9 with ⟨t1, t2, t3, t4⟩ | ⟨hi0, hj0, t, ht, ht1, ht2⟩
    · rw [hgd hv0, hgd hz0] at t1
      rw [hgd hv0, hgd hz1] at t2
      rw [hgd hv1, hgd hz0] at t3
      rw [hgd hv1, hgd hz1] at t4
      intro v hv z hz
      simp only [List.mem_cons, List.not_mem_nil, or_false] at hv hz
      rcases hv with rfl | rfl <;> rcases hz with rfl | rfl <;> assumption
    · exfalso
      rw [hgd hv0] at ht1
      rw [hgd hz0] at ht2
      have h1 : (t.1 : K) ≤ v₀ := by exact_mod_cast ht1
      have h2 : (t.2 : K) ≤ z₀ := by exact_mod_cast ht2
      have h3 := hstr.resolve_left hi0
      have h4 := hzstr.resolve_left hj0
      have := covered_limits hc t ht (by linarith)
      linarith
  · unfold locateGrids
    rw [e1, e2, e3]
    rfl

/-- In particular for every object that the constructor returns. -/
theorem C54_constructed (v z p : K) (lenient : Bool) (s : SiteFac K) (h : mkSiteFac v z p lenient = .ok s) :
    InRange s.vs30 s.z1 s.pga ∧ CoveredPair s.vs30 s.z1 := by
  cases lenient with
  | false =>
    obtain ⟨h1, h2⟩ := C53_strict v z p
    by_cases hc : InRange v z p ∧ CoveredPair v z
    · rw [h1 hc] at h
      cases h
      exact hc
    · rw [h2 hc] at h; cases h
  | true =>
    obtain ⟨h1, h2⟩ := C53_lenient v z p
    by_cases hc : CoveredPair v z
    · obtain ⟨e, r, c⟩ := h1 hc
      rw [e] at h
      cases h
      exact ⟨r, c⟩
    · rw [h2 hc] at h; cases h

example : locateGrids (⟨760, 75, 3 / 10⟩ : SiteFac ℚ) = .ok [(12, 3, 3), (12, 3, 4), (12, 4, 3), (12, 4, 4), (13, 3, 3), (13, 3, 4),
    (13, 4, 3), (13, 4, 4)] ∧ shippedPair 800 75 = true ∧ shippedPair 800 150 = false := by decide +kernel

end

end Verif
