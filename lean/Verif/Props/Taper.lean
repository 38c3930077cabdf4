import Verif.Model.Taper
import Verif.Props.Amplify

set_option linter.unusedSectionVars false
set_option linter.unusedVariables false

/-!
Property C136: tapering.
-/

namespace Verif

theorem tukey1_get (width : ℝ) (a : List ℝ) (i : Nat) : (tukey1 width a)[i]? = a[i]?.map fun x => x * tukeyAt a.length (width / 2) i := by
  unfold tukey1
  rw [List.getElem?_mapIdx]

theorem tukey_range (M : Nat) (alpha : ℝ) (i : Nat) : 0 ≤ tukeyAt M alpha i ∧ tukeyAt M alpha i ≤ 1 := by
  unfold tukeyAt
  have key : ∀ q : ℝ, 0 ≤ 0.5 * (1 + Real.cos q) ∧ 0.5 * (1 + Real.cos q) ≤ 1 := by
    intro q
    have h1 := Real.neg_one_le_cos q
    have h2 := Real.cos_le_one q
    constructor <;> linarith
  split
  · norm_num
  split
  · norm_num
  split
  · have h1 := Real.neg_one_le_cos (2 * Real.pi * i / ((M : ℝ) - 1))
    have h2 := Real.cos_le_one (2 * Real.pi * i / ((M : ℝ) - 1))
    constructor <;> linarith
  split
  · exact key _
  split
  · norm_num
  · exact key _

theorem cast_sub_one (M : Nat) (h : 2 ≤ M) : ((M - 1 : ℕ) : ℝ) = (M : ℝ) - 1 ∧ 0 < (M : ℝ) - 1 := by
  have : (2 : ℝ) ≤ M := by exact_mod_cast h
  exact ⟨by rw [Nat.cast_sub (by omega)]; simp, by linarith⟩

/-- The two tapers do not overlap. -/
theorem tukey_room (M : Nat) (alpha : ℝ) (hM : 2 ≤ M) (h0 : 0 < alpha) (h1 : alpha < 1) :
    ((⌊alpha * ((M : ℝ) - 1) / 2⌋₊ : ℕ) : ℝ) ≤ alpha * ((M : ℝ) - 1) / 2 ∧ 2 * ⌊alpha * ((M : ℝ) - 1) / 2⌋₊ + 1 < M := by
  obtain ⟨hc, hp⟩ := cast_sub_one M hM
  have hnn : 0 ≤ alpha * ((M : ℝ) - 1) / 2 := by positivity
  have hf := Nat.floor_le hnn
  refine ⟨hf, ?_⟩
  have : (2 * (⌊alpha * ((M : ℝ) - 1) / 2⌋₊ : ℝ)) + 1 < M := by nlinarith
  exact_mod_cast this

/-- The window is symmetric. -/
theorem tukey_symm (M : Nat) (alpha : ℝ) (i : Nat) (hi : i < M) : tukeyAt M alpha (M - 1 - i) = tukeyAt M alpha i := by
  unfold tukeyAt
  by_cases h1 : M = 1
  · rw [if_pos h1, if_pos h1]
  rw [if_neg h1, if_neg h1]
  by_cases h2 : alpha ≤ 0
  · rw [if_pos h2, if_pos h2]
  rw [if_neg h2, if_neg h2]
  have hM : 2 ≤ M := by omega
  obtain ⟨hc, hp⟩ := cast_sub_one M hM
  have hci : ((M - 1 - i : ℕ) : ℝ) = (M : ℝ) - 1 - i := by rw [Nat.cast_sub (by omega), hc]
  have h0 : 0 < alpha := not_le.1 h2
  by_cases h3 : 1 ≤ alpha
  · rw [if_pos h3, if_pos h3, hci]
    congr 2
    rw [show 2 * Real.pi * ((M : ℝ) - 1 - i) / ((M : ℝ) - 1) = 2 * Real.pi - 2 * Real.pi * i / ((M : ℝ) - 1) by
      field_simp, Real.cos_two_pi_sub]
  rw [if_neg h3, if_neg h3]
  obtain ⟨r1, r2⟩ := tukey_room M alpha hM h0 (not_le.1 h3)
  set w := ⌊alpha * ((M : ℝ) - 1) / 2⌋₊ with hw
  by_cases c1 : i < w + 1
  · rw [if_pos c1, if_neg (by omega), if_neg (by omega), hci]
    congr 2
    rw [← Real.cos_neg]
    congr 1
    field_simp
    ring
  · by_cases c2 : i < M - w - 1
    · rw [if_neg (by omega), if_pos (by omega), if_neg c1, if_pos c2]
    · rw [if_pos (by omega), if_neg c1, if_neg c2, hci]
      congr 2
      rw [← Real.cos_neg]
      congr 1
      field_simp
      ring

/-! ## C136 -/

/-- A one-dimensional signal is always tapered; every sample keeps its sign and does not grow. -/
theorem C136_shrinks (width : ℝ) (a : List ℝ) :
    ∃ r, taperTukey width (.one a) = .ok r ∧ r.length = a.length ∧
      ∀ (i : Nat) x, a[i]? = some x → ∃ y, r[i]? = some y ∧ |y| ≤ |x| ∧ 0 ≤ x * y := by
  refine ⟨_, rfl, by simp [tukey1], ?_⟩
  intro i x hx
  obtain ⟨h0, h1⟩ := tukey_range a.length (width / 2) i
  refine ⟨_, by rw [tukey1_get, hx]; rfl, ?_, ?_⟩
  · rw [abs_mul, abs_of_nonneg h0]
    exact mul_le_of_le_one_right (abs_nonneg x) h1
  · have := mul_nonneg (mul_self_nonneg x) h0
    linarith [this, mul_assoc x x (tukeyAt a.length (width / 2) i)]

/-- Both ends of a tapered signal are zero. -/
theorem C136_ends (width : ℝ) (a : List ℝ) (hw : 0 < width) (h2 : 2 ≤ a.length) :
    (tukey1 width a)[0]? = some 0 ∧ (tukey1 width a)[a.length - 1]? = some 0 := by
  obtain ⟨hc, hp⟩ := cast_sub_one a.length h2
  have z : tukeyAt a.length (width / 2) 0 = 0 := by
    unfold tukeyAt
    rw [if_neg (by omega), if_neg (by linarith)]
    split
    · simp
    · rw [if_pos (by omega)]
      simp
  have z' : tukeyAt a.length (width / 2) (a.length - 1) = 0 := by
    have := tukey_symm a.length (width / 2) 0 (by omega)
    rwa [Nat.sub_zero, z] at this
  rw [tukey1_get, tukey1_get, z, z', List.getElem?_eq_getElem (by omega), List.getElem?_eq_getElem (by omega)]
  simp

/-- Between the tapers, which take a fraction `width / 4` of the signal at each end, the signal is unchanged; for a width that is
not positive all of it is. -/
theorem C136_middle (width : ℝ) (a : List ℝ) (i : Nat) (hi : i < a.length)
    (h : width ≤ 0 ∨ (width < 2 ∧ width / 4 * ((a.length : ℝ) - 1) ≤ i ∧ (i : ℝ) ≤ (1 - width / 4) * ((a.length : ℝ) - 1))) :
    (tukey1 width a)[i]? = a[i]? := by
  suffices tukeyAt a.length (width / 2) i = 1 by
    rw [tukey1_get, this, List.getElem?_eq_getElem hi]
    simp
  rcases h with h | ⟨h1, h2, h3⟩
  · unfold tukeyAt
    split
    · rfl
    · rw [if_pos (by linarith)]
  · by_cases hM : a.length = 1
    · unfold tukeyAt; rw [if_pos hM]
    by_cases hw : width ≤ 0
    · unfold tukeyAt
      rw [if_neg hM, if_pos (by linarith)]
    have h2' : 2 ≤ a.length := by omega
    obtain ⟨hc, hp⟩ := cast_sub_one a.length h2'
    have hw' := not_le.1 hw
    obtain ⟨r1, r2⟩ := tukey_room a.length (width / 2) h2' (by linarith) (by linarith)
    -- the first half, then symmetry
    have first : ∀ j : Nat, width / 4 * ((a.length : ℝ) - 1) ≤ j → j < a.length - ⌊width / 2 * ((a.length : ℝ) - 1) / 2⌋₊ - 1 →
        tukeyAt a.length (width / 2) j = 1 := by
      intro j hj hj2
      unfold tukeyAt
      rw [if_neg hM, if_neg (by linarith), if_neg (by linarith)]
      by_cases c : j < ⌊width / 2 * ((a.length : ℝ) - 1) / 2⌋₊ + 1
      · rw [if_pos c]
        have hle : (j : ℝ) ≤ ⌊width / 2 * ((a.length : ℝ) - 1) / 2⌋₊ := by exact_mod_cast Nat.lt_succ_iff.1 c
        have heq : (j : ℝ) = width / 4 * ((a.length : ℝ) - 1) := le_antisymm (by linarith) hj
        rw [heq, show Real.pi * (-1 + 2 * (width / 4 * ((a.length : ℝ) - 1)) / (width / 2) / ((a.length : ℝ) - 1)) = 0 by
          field_simp; ring, Real.cos_zero]
        norm_num
      · rw [if_neg c, if_pos hj2]
    by_cases c : i < a.length - ⌊width / 2 * ((a.length : ℝ) - 1) / 2⌋₊ - 1
    · exact first i h2 c
    · rw [← tukey_symm a.length (width / 2) i hi]
      apply first
      · rw [Nat.cast_sub (by omega), hc]
        nlinarith
      · omega

/-- A record played backwards is tapered to the tapered record played backwards. -/
theorem C136_symmetric (width : ℝ) (a : List ℝ) : tukey1 width a.reverse = (tukey1 width a).reverse := by
  apply List.ext_getElem?
  intro i
  have hl : (tukey1 width a).length = a.length := by simp [tukey1]
  by_cases hi : i < a.length
  · rw [tukey1_get, List.length_reverse, List.getElem?_reverse hi, List.getElem?_reverse (by omega), tukey1_get, hl,
      tukey_symm a.length _ i hi]
  · rw [List.getElem?_eq_none (by simp [tukey1]; omega), List.getElem?_eq_none (by simp [hl]; omega)]

/-- Tapering is linear and keeps the number of samples, as assumed of the taper in the laws of `amplify_motion` (C29, C81). -/
theorem C136_linear (width : ℝ) : Spec.LinearTaper (some (tukey1 width)) := by
  refine ⟨?_, ?_⟩
  · intro g hg a
    cases hg
    simp [tukey1]
  · intro g hg c a b hab
    cases hg
    have : (List.zipWith (fun x y => c * x + y) a b).length = a.length := by rw [List.length_zipWith, hab, min_self]
    apply List.ext_getElem?
    intro i
    rw [tukey1_get, this]
    by_cases hi : i < a.length
    · have hb : i < b.length := by omega
      rw [List.getElem?_zipWith, List.getElem?_zipWith, tukey1_get, tukey1_get, List.getElem?_eq_getElem hi, List.getElem?_eq_getElem hb, hab]
      simp only [Option.map_some]
      congr 1
      ring
    · rw [List.getElem?_eq_none (by omega), List.getElem?_eq_none (by simp [tukey1]; omega)]
      rfl

/-- Amplification with tapering (the default width 0.05) is linear in the motion. -/
theorem C136_amplify {x₁ x₂ y₁ y₂ : Rec ℝ} {f : List ℝ} {tf : TfArg} {extrap deconv : Bool}
    (hx : x₁.map Prod.fst = x₂.map Prod.fst) (h₁ : amplifyMotion x₁ f tf (some (tukey1 0.05)) extrap deconv = .ok y₁)
    (h₂ : amplifyMotion x₂ f tf (some (tukey1 0.05)) extrap deconv = .ok y₂) (c : ℝ) :
    amplifyMotion (Spec.comb c x₁ x₂) f tf (some (tukey1 0.05)) extrap deconv = .ok (Spec.comb c y₁ y₂) :=
  C81_linear (C136_linear 0.05) hx h₁ h₂ c

/-- Two-column records cannot be tapered, although the documentation allows them: TypeError for every record. -/
theorem C136_two_columns_violated (width : ℝ) (rows : List (ℝ × ℝ)) : taperTukey width (.two rows) = .error .typeError := rfl

/-- Anything that is not a one- or two-dimensional array is rejected. -/
theorem C136_rejects (width : ℝ) : taperTukey width .cube = .error .typeError ∧ taperTukey width .notArray = .error .typeError :=
  ⟨rfl, rfl⟩

/-- Five samples with the ends tapered fully. -/
example : tukey1 1 [1, 2, 3, 4, 5] = [0, 2, 3, 4, 0] := by
  have e := C136_ends 1 [1, 2, 3, 4, 5] (by norm_num) (by simp)
  have m : ∀ i : Nat, 1 ≤ i → i ≤ 3 → (tukey1 1 [1, 2, 3, 4, 5])[i]? = [(1 : ℝ), 2, 3, 4, 5][i]? := by
    intro i h1 h3
    apply C136_middle
    · simp; omega
    · right
      have h1' : (1 : ℝ) ≤ i := by exact_mod_cast h1
      have h3' : (i : ℝ) ≤ 3 := by exact_mod_cast h3
      refine ⟨by norm_num, ?_, ?_⟩ <;> norm_num <;> linarith
  apply List.ext_getElem?
  intro i
  match i with
  | 0 => exact e.1
  | 1 => exact m 1 (by norm_num) (by norm_num)
  | 2 => exact m 2 (by norm_num) (by norm_num)
  | 3 => exact m 3 (by norm_num) (by norm_num)
  | 4 => exact e.2
  | i + 5 => rw [List.getElem?_eq_none (by simp [tukey1]), List.getElem?_eq_none (by simp)]

end Verif
