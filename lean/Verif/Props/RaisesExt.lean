import Verif.Props.Raises
import Verif.Props.NonFinite
import Verif.Props.FreqSpectrum
import Verif.Props.SiteInterp

/-!
C158, continued: spectra, and arguments that are not arrays.  C111: the grid.
-/

set_option linter.unusedSectionVars false
set_option linter.unusedVariables false

namespace Verif

open Spec (Only)

section
variable {K : Type} [Field K] [LinearOrder K] [IsStrictOrderedRing K]

/-- Whatever is not an array is refused with TypeError, by every check of arrays and by every constructor that takes one. -/
theorem C158_not_an_array [FloorRing K] (x : XArg K) (hx : ∀ a, x ≠ .arr a) (b c : Bool) (n : Option Int) (delta : Option (Ext K))
    (hi : Option K) (y : XArg K) :
    assert1D x = .error .typeError ∧ assert2D x = .error .typeError ∧ assertLength n x = .error .typeError ∧
    checkTwoColumn b c x = .error .typeError ∧ checkVsExt x = .error .typeError ∧ readTwoExt delta x = .error .typeError ∧
    curveGate x hi b = .error .typeError ∧ scoresInit x y = .error .typeError ∧ matrixInit x = .error .typeError := by
  cases x with
  | arr a => exact absurd rfl (hx a)
  | scalar v => exact ⟨rfl, rfl, rfl, rfl, rfl, rfl, rfl, rfl, rfl⟩
  | other => exact ⟨rfl, rfl, rfl, rfl, rfl, rfl, rfl, rfl, rfl⟩

/-- A matrix of curves is refused with TypeError exactly if it is not a two-dimensional array, with ValueError exactly if the
number of its columns is not a multiple of four, and kept as it is otherwise. -/
theorem C158_curve_matrix (x : XArg K) :
    matrixInit x = match x with
      | .arr ⟨_, .mat c _⟩ => if 4 ∣ c then .ok x else .error .valueError
      | _ => .error .typeError := by
  cases x with
  | arr a =>
    obtain ⟨num, body⟩ := a
    cases body with
    | vec l => rfl
    | nd l => rfl
    | mat c rows =>
      simp only [matrixInit, assert2D, bind, Except.bind]
      by_cases h : c % 4 = 0
      · rw [if_neg (by simpa using h), if_pos (Nat.dvd_of_mod_eq_zero h)]
      · rw [if_pos h, if_neg fun hd => h (Nat.mod_eq_zero_of_dvd hd)]
  | scalar v => rfl
  | other => rfl

/-- A profile that is not two-dimensional, has another number of columns than two or five, or holds something that is not a
finite number, is refused with ValueError. -/
theorem C158_profile_shape [FloorRing K] (a : XArr K)
    (h : a.numeric = false ∨ (∃ e ∈ a.body.elems, Ext.isFin e = false) ∨ ∀ c rows, a.body = .mat c rows → c ≠ 2 ∧ c ≠ 5) :
    checkVsExt (.arr a) = .error .valueError := by
  unfold checkVsExt
  dsimp only
  by_cases h1 : a.numeric = false
  · rw [if_pos (by simp [checkNumbersValid, h1])]
  by_cases h2 : a.body.elems.all Ext.isFin = false
  · have hs : checkNumbersValid a = -2 := by
      unfold checkNumbersValid
      rw [if_neg (by simpa using h1), if_pos (by simp only [h2, Bool.not_false])]
    rw [if_neg (by rw [hs]; decide), if_pos hs]
  have h3 : ∀ c rows, a.body = .mat c rows → c ≠ 2 ∧ c ≠ 5 := by
    rcases h with h | ⟨e, he, hf⟩ | h
    · exact absurd h h1
    · exfalso
      apply h2
      rw [Bool.eq_false_iff]
      intro hall
      have := List.all_eq_true.1 hall e he
      rw [hf] at this
      cases this
    · exact h
  split_ifs
  · rfl
  · rfl
  · cases hb : a.body with
    | vec l => rfl
    | nd l => rfl
    | mat c rows =>
      dsimp only
      rw [if_pos (h3 c rows hb)]

end

/-- Spectra: IndexError for fewer than two rows or values, ValueError for one column without a frequency interval or for an
interpolation at no frequencies (`C158_spectrum_no_points`). -/
theorem C158_spectrum (rows : Spect) (col : List ℂ) (df : Option ℝ) :
    Only [.indexError, .valueError] (newSpect (.two rows) df none) ∧
    newSpect (.two []) df none = .error .indexError ∧
    (∀ r, newSpect (.two [r]) df none = .error (if df = none then .valueError else .indexError)) ∧
    newSpect (.one col) none none = .error .valueError ∧
    (∀ d, col.length < 2 → newSpect (.one col) (some d) none = .error .indexError) := by
  refine ⟨?_, rfl, ?_, rfl, ?_⟩
  · match rows with
    | [] => exact only_err (by simp)
    | [r] =>
      show Only _ (newSpect (.two [r]) df none)
      unfold newSpect readSpect
      dsimp only
      split_ifs <;> exact only_err (by simp)
    | r :: s :: rest => exact only_ok _ _
  · intro r
    unfold newSpect readSpect
    dsimp only
    split_ifs <;> rfl
  · intro d hl
    match col, hl with
    | [], _ => rfl
    | [c], _ => rfl

/-- No frequencies: ValueError. -/
theorem C158_spectrum_no_points (rows : Spect) (r s : ℝ × ℂ) (df : Option ℝ) (g : InterpArgs) (hn : g.nPts = 0)
    (hg : g.logScale = true → 0 < g.fmin ∧ 0 < g.fmax) :
    newSpect (.two (r :: s :: rows)) df (some g) = .error .valueError := by
  have hq : queryGrid g = [] := by
    unfold queryGrid
    split_ifs
    · simp [logspace, linspace, hn]
    · simp [linspace, hn]
  unfold newSpect
  simp only [readSpect, bind, Except.bind]
  rw [if_neg (by rintro ⟨a, b⟩; exact b (hg a)), hq]
  rfl

/-! ## The grid of site factors -/

namespace Spec

/-- The values of Vs30 (m/s), z1 (m) and PGA (hundredths of g) for which factors are tabulated. -/
def tabVs30 : List ℕ := [175, 200, 250, 300, 350, 400, 450, 500, 550, 600, 650, 700, 750, 800, 850, 900, 950]
def tabZ1 : List ℕ := [8, 16, 24, 36, 75, 150, 300, 450, 600, 900]
def tabPGA : List ℕ := [1, 5, 10, 20, 30, 40, 50, 75, 100, 125, 150]

end Spec

open Spec in
/-- At the tabulated values (`Vs30_array`, `z1_array`, `PGA_array`), written out here, the tabulated curve is returned: the
`k`-th of the file for `v` and `z`. -/
theorem C111_tabulated {d : SfData} {ax : SfKind → List ℝ} {g : GridFun} {kind : SfKind} {m : SfMethod}
    (hd : ShippedData d ax) (hg : LinearGrid g) (hA : Available kind m) (v z k p : ℕ)
    (hv : v ∈ tabVs30) (hz : z ∈ tabZ1) (hk : tabPGA[k]? = some p) (hr : InRange (v : ℝ) (z : ℝ) ((p : ℝ) / 100))
    (hc : CoveredPair (v : ℝ) (z : ℝ)) :
    sfResults d g ⟨v, z, (p : ℝ) / 100⟩ kind m = .ok (shown kind (ax kind), shown kind (curve d kind m v z k)) := by
  have hk' : pgaGrid.getD k 0 = p := by
    have : pgaGrid[k]? = some p := hk
    rw [List.getD_eq_getElem?_getD, this, Option.getD_some]
  have h11 : k < 11 := (List.getElem?_eq_some_iff.1 hk).1
  have := C111_grid_point hd hg hA v z k hv hz h11 (by rw [hk']; exact hr) hc
  rwa [hk'] at this

end Verif
