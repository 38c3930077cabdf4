import Verif.Props.Raises
import Verif.Props.ProfileGeometry
import Verif.Model.Query
import Verif.Model.SiteFactors
import Verif.Model.Svm
import Verif.Model.SurfaceRun
import Verif.Model.Smooth
import Verif.Model.Soil
import Verif.Model.Scores
import Verif.Model.Calib
import Verif.Model.Nonlinear
import Verif.Model.Compare

/-!
C158, continued.
-/

set_option linter.unusedSectionVars false
set_option linter.unusedVariables false

namespace Verif

open Spec (Only Valid Valid5)

section
variable {K : Type} [Field K] [LinearOrder K] [IsStrictOrderedRing K]

/-! ## Site factors -/

/-- Site factors: ValueError only, as documented. -/
theorem C158_site_factors (v z p : K) (lenient : Bool) : Only [.valueError] (mkSiteFac v z p lenient) := by
  have hb : ∀ (bad : Bool) (lo hi x : K), Only [.valueError] (sfBound bad lenient lo hi x) := by
    intro bad lo hi x
    unfold sfBound
    split_ifs <;> first | exact only_err (by simp) | exact only_ok _ _
  unfold mkSiteFac
  refine only_bind (hb _ _ _ _) fun _ _ => only_bind (hb _ _ _ _) fun _ _ => only_bind (hb _ _ _ _) fun _ _ => ?_
  split_ifs <;> first | exact only_err (by simp) | exact only_ok _ _

/-- Looking up the grid: ValueError exactly for a value outside of the grid. -/
theorem C158_grid (value a : K) (array : List K) :
    (searchPair value (a :: array) = .error .valueError ↔ value < a ∨ (a :: array).getLast (by simp) < value) ∧
    Only [.valueError] (searchPair value (a :: array)) ∧ searchPair value [] = .error .indexError := by
  unfold searchPair
  simp only [List.head?_cons, List.getLast?_eq_getLast_of_ne_nil (List.cons_ne_nil a array)]
  refine ⟨?_, ?_, rfl⟩
  · split_ifs with h1 h2 h3 <;> simp_all
  · split_ifs <;> first | exact only_err (by simp) | exact only_ok _ _

/-- Unknown methods raise ValueError, as documented. -/
theorem C158_methods (d : SfData) (g : GridFun) (s : SiteFac ℝ) (m : SfMethod) (fourier : Bool) :
    (m ≠ .nlHH → m ≠ .eqHH → getAmplif d g s m fourier = .error .valueError) ∧
    (m ≠ .eqHH → getPhaseShift d g s m = .error .valueError) := by
  constructor
  · intro h1 h2; unfold getAmplif; rw [if_pos ⟨h1, h2⟩]
  · intro h; unfold getPhaseShift; rw [if_pos h]

/-! ## Sediment velocity model -/

/-- Discretisation: ValueError unless exactly one of thickness and increment is given. -/
theorem C158_discretize [FloorRing K] (σ : Store K) (o : VsObj K) (rows : List (K × K)) (z1 : K) (bed : Option K) (mid : Bool)
    (t i : K) :
    discretize σ o rows z1 bed none none mid = .error .valueError ∧
    discretize σ o rows z1 bed (some t) (some i) mid = .error .valueError ∧
    ((∀ r ∈ rows, r.2 ≤ i) → discretize σ o rows z1 bed none (some i) mid = .error .valueError) := by
  refine ⟨rfl, rfl, fun h => ?_⟩
  have : incThk rows i = .error .valueError := by
    unfold incThk
    cases rows with
    | nil => rfl
    | cons r rest =>
      obtain ⟨t, v⟩ := r
      dsimp only
      rw [if_pos]
      have hf : ∀ (l : List (K × K)) (m : K), m ≤ i → (∀ r ∈ l, r.2 ≤ i) → l.foldl (fun m r => max m r.2) m ≤ i := by
        intro l
        induction l with
        | nil => intro m hm _; exact hm
        | cons r l ih => intro m hm hl; exact ih _ (max_le hm (hl r (by simp))) fun q hq => hl q (by simp [hq])
      exact hf rest v (h (t, v) (by simp)) fun q hq => h q (by simp [hq])
  simp only [discretize, this, bind, Except.bind]

/-! ## Profiles: queries -/

/-- Depths and thicknesses: IndexError exactly for empty arrays, ValueError exactly for a first depth other than 0. -/
theorem C158_depths (l : List K) (b : Bool) :
    (thk2dep l b = .error .indexError ↔ l = []) ∧ Only [.indexError] (thk2dep l b) ∧
    (dep2thk l b = .error .indexError ↔ l = []) ∧ (dep2thk l b = .error .valueError ↔ ∃ d ds, l = d :: ds ∧ d ≠ 0) ∧
    Only [.indexError, .valueError] (dep2thk l b) := by
  cases l with
  | nil =>
    have h1 : thk2dep ([] : List K) b = .error .indexError := by simp [thk2dep]
    have h2 : dep2thk ([] : List K) b = .error .indexError := rfl
    rw [h1, h2]
    exact ⟨by simp, only_err (by simp), by simp, by simp, only_err (by simp)⟩
  | cons d ds =>
    have h1 : ∃ r, thk2dep (d :: ds) b = .ok r := by
      unfold thk2dep
      rw [if_neg (by simp)]
      split_ifs <;> exact ⟨_, rfl⟩
    obtain ⟨r, h1⟩ := h1
    rw [h1]
    refine ⟨by simp, only_ok _ _, ?_⟩
    unfold dep2thk
    dsimp only
    by_cases h0 : d = 0
    · rw [if_neg (by simpa using h0)]
      cases b <;> exact ⟨by simp, by simp [h0], only_ok _ _⟩
    · rw [if_pos h0]
      exact ⟨by simp, by simp [h0], only_err (by simp)⟩

/-- The velocity at given depths: TypeError exactly for an argument that is neither a number nor an array, ValueError exactly for
negative depths; nothing else for a valid profile. -/
theorem C158_query [FloorRing K] (prof : List (K × K)) (hp : Valid prof) (d : DepthArg K) :
    (queryDepth prof d = .error .typeError ↔ d = .other) ∧
    (queryDepth prof d = .error .valueError ↔ ∃ z ∈ d.arr, z < 0) ∧ Only [.typeError, .valueError] (queryDepth prof d) := by
  have key : ∀ l : List K, (∃ z ∈ l, z < 0) ∧ queryVsAtDepth prof l = .error .valueError ∨
      (¬ ∃ z ∈ l, z < 0) ∧ ∃ r, queryVsAtDepth prof l = .ok r := by
    intro l
    by_cases h : ∃ z ∈ l, z < 0
    · left
      refine ⟨h, ?_⟩
      obtain ⟨z, hz, h0⟩ := h
      unfold queryVsAtDepth
      exact if_pos (List.any_eq_true.2 ⟨z, hz, decide_eq_true h0⟩)
    · right
      refine ⟨h, ?_⟩
      push Not at h
      obtain ⟨r, hr, _⟩ := C02_query_depth prof hp l h
      exact ⟨r, hr⟩
  cases d with
  | other => exact ⟨by simp [queryDepth], by simp [queryDepth, DepthArg.arr], only_err (by simp)⟩
  | scalar z =>
    change (queryVsAtDepth prof [z] = _ ↔ _) ∧ (queryVsAtDepth prof [z] = _ ↔ ∃ y ∈ [z], y < 0) ∧ Only _ (queryVsAtDepth prof [z])
    rcases key [z] with ⟨h, e⟩ | ⟨h, r, e⟩
    · rw [e]; exact ⟨by simp, by simpa using h, only_err (by simp)⟩
    · rw [e]; exact ⟨by simp, by simpa using h, only_ok _ _⟩
  | array l =>
    change (queryVsAtDepth prof l = _ ↔ _) ∧ (queryVsAtDepth prof l = _ ↔ ∃ y ∈ l, y < 0) ∧ Only _ (queryVsAtDepth prof l)
    rcases key l with ⟨h, e⟩ | ⟨h, r, e⟩
    · rw [e]; exact ⟨by simp, by simpa using h, only_err (by simp)⟩
    · rw [e]; exact ⟨by simp, by simpa using h, only_ok _ _⟩

/-- Thicknesses: TypeError exactly for a number without a number of layers, ValueError exactly for a number of layers which is
not positive. -/
theorem C158_thickness (a : ThkArg K) :
    (thkArray a = .error .typeError ↔ ∃ t, a = .scalar t none) ∧
    (thkArray a = .error .valueError ↔ ∃ t n, a = .scalar t (some n) ∧ n ≤ 0) ∧ Only [.typeError, .valueError] (thkArray a) := by
  cases a with
  | array l => exact ⟨by simp [thkArray], by simp [thkArray], only_ok _ _⟩
  | scalar t n =>
    cases n with
    | none => exact ⟨by simp [thkArray], by simp [thkArray], only_err (by simp)⟩
    | some n =>
      by_cases h : n ≤ 0
      · have : thkArray (.scalar t (some n)) = .error .valueError := if_pos h
        rw [this]
        exact ⟨by simp, by simp [h], only_err (by simp)⟩
      · have : thkArray (.scalar t (some n)) = .ok (List.replicate n.toNat t) := if_neg h
        rw [this]
        exact ⟨by simp, by simp [h], only_ok _ _⟩

/-! ## Stress-strain curves and scores -/

/-- G/Gmax from stress and strain: ValueError exactly for a zero initial strain or arrays of different lengths, IndexError exactly
for no data. -/
theorem C158_ggmax (strain stress : List K) (gmax : Option K) :
    (calcGGmax strain stress gmax = .error .indexError ↔
      strain = [] ∨ (∃ e es, strain = e :: es ∧ e ≠ 0) ∧ stress = [] ∧ gmax = none) ∧
    (calcGGmax strain stress gmax = .error .valueError ↔
      (∃ es, strain = 0 :: es) ∨ (∃ e es, strain = e :: es ∧ e ≠ 0) ∧ strain.length ≠ stress.length ∧
        (stress ≠ [] ∨ gmax ≠ none)) ∧
    Only [.indexError, .valueError, .nonFinite] (calcGGmax strain stress gmax) := by
  cases strain with
  | nil =>
    have : calcGGmax [] stress gmax = .error .indexError := by simp [calcGGmax]
    rw [this]
    exact ⟨by simp, by simp, only_err (by simp)⟩
  | cons e es =>
    by_cases h0 : e = 0
    · have : calcGGmax (e :: es) stress gmax = .error .valueError := by simp [calcGGmax, h0]
      rw [this]
      exact ⟨by simp [h0], by simp [h0], only_err (by simp)⟩
    · unfold calcGGmax
      dsimp only
      rw [if_neg h0]
      cases gmax with
      | some g =>
        dsimp only
        split_ifs with h1 h2
        · refine ⟨by simp, ⟨fun _ => .inr ⟨⟨e, es, rfl, h0⟩, h1, .inr (by simp)⟩, fun _ => rfl⟩, only_err (by simp)⟩
        · refine ⟨by simp, ⟨nofun, ?_⟩, only_err (by simp)⟩
          rintro (⟨es', he⟩ | ⟨_, hl, _⟩)
          · simp at he; exact absurd he.1 h0
          · exact absurd hl h1
        · refine ⟨by simp, ⟨nofun, ?_⟩, only_ok _ _⟩
          rintro (⟨es', he⟩ | ⟨_, hl, _⟩)
          · simp at he; exact absurd he.1 h0
          · exact absurd hl h1
      | none =>
        cases stress with
        | nil => exact ⟨⟨fun _ => .inr ⟨⟨e, es, rfl, h0⟩, rfl, rfl⟩, fun _ => rfl⟩, by simp [h0], only_err (by simp)⟩
        | cons s ss =>
          dsimp only
          split_ifs with h1 h2
          · refine ⟨by simp, ⟨fun _ => .inr ⟨⟨e, es, rfl, h0⟩, h1, .inl (by simp)⟩, fun _ => rfl⟩, only_err (by simp)⟩
          · refine ⟨by simp, ⟨nofun, ?_⟩, only_err (by simp)⟩
            rintro (⟨es', he⟩ | ⟨_, hl, _⟩)
            · simp at he; exact absurd he.1 h0
            · exact absurd hl h1
          · refine ⟨by simp, ⟨nofun, ?_⟩, only_ok _ _⟩
            rintro (⟨es', he⟩ | ⟨_, hl, _⟩)
            · simp at he; exact absurd he.1 h0
            · exact absurd hl h1

/-- Printing a score object without any scores raises ZeroDivisionError, exactly then: `print` of a fresh object fails. -/
theorem C158_print_scores_violated (σ : List (Option K)) :
    (strAverage σ = .error .zeroDivision ↔ ∀ x ∈ σ, x = none) ∧ Only [.zeroDivision] (strAverage σ) ∧
    strAverage (scores0 : List (Option K)) = .error .zeroDivision := by
  have h1 : (strAverage σ = .error .zeroDivision ↔ ∀ x ∈ σ, x = none) := by
    unfold strAverage
    dsimp only
    split_ifs with h
    · refine ⟨fun _ x hx => ?_, fun _ => rfl⟩
      rw [List.length_eq_zero_iff, List.filterMap_eq_nil_iff] at h
      exact h x hx
    · refine ⟨nofun, fun hn => absurd ?_ h⟩
      rw [List.length_eq_zero_iff, List.filterMap_eq_nil_iff]
      exact hn
  refine ⟨h1, ?_, ?_⟩
  · unfold strAverage; dsimp only
    split_ifs
    · exact only_err (by simp)
    · exact only_ok _ _
  · unfold strAverage scores0; dsimp only; rw [if_pos (by simp)]

end

/-- The default frequency range of the helper functions raises TypeError (`np.max` of a number, with a number as second argument);
an empty range ValueError. -/
theorem C158_gof_range (fmin fmax : Option ℝ) :
    (gofRange fmin fmax = .error .typeError ↔ fmin = none ∨ fmax = none) ∧
    (gofRange fmin fmax = .error .valueError ↔ ∃ a b, fmin = some a ∧ fmax = some b ∧ b ≤ a) ∧
    Only [.typeError, .valueError] (gofRange fmin fmax) := by
  cases fmin with
  | none => exact ⟨by simp [gofRange], by simp [gofRange], only_err (by simp)⟩
  | some a =>
    cases fmax with
    | none => exact ⟨by simp [gofRange], by simp [gofRange], only_err (by simp)⟩
    | some b =>
      by_cases h : b ≤ a
      · have : gofRange (some a) (some b) = .error .valueError := if_pos h
        rw [this]; exact ⟨by simp, by simp [h], only_err (by simp)⟩
      · have : gofRange (some a) (some b) = .ok (a, b) := if_neg h
        rw [this]; exact ⟨by simp, by simp [h], only_ok _ _⟩

/-- Calibration of the HH model: ValueError exactly for curves of another number of layers or a strength array that does not
fit; nothing else. -/
theorem C158_calibration (nLayer : Nat) (curves : Option Nat) (Tmax : Option (List ℝ)) :
    (hhcInit nLayer curves Tmax = .error .valueError ↔ (∃ k, curves = some k ∧ k ≠ nLayer) ∨ tmaxOk nLayer Tmax = false) ∧
    Only [.valueError] (hhcInit nLayer curves Tmax) := by
  unfold hhcInit
  cases curves with
  | none => cases h : tmaxOk nLayer Tmax <;> simp [Only]
  | some k =>
    by_cases hk : k = nLayer
    · cases h : tmaxOk nLayer Tmax <;> simp [Only, hk]
    · simp [Only, hk]

/-- Smoothing raises ValueError only, for a frequency range that is positive and increasing. -/
theorem C158_smoothing (x : List ℝ) (M : Nat) (w : Win) (g : LogArgs)
    (hg : ∀ a b, g.linSpace = true → g.fmin = some a → g.fmax = some b → 0 < a ∧ a < b) :
    (linSmooth x M w = .error .valueError ↔ x.length < M ∨ 3 ≤ M ∧ w = .bad) ∧ Only [.valueError] (linSmooth x M w) ∧
    Only [.valueError] (logSmooth g x) := by
  have hlin : ∀ (x : List ℝ) (M : Nat) (w : Win), Only [.valueError] (linSmooth x M w) := by
    intro x M w
    unfold linSmooth
    split_ifs <;> first | exact only_err (by simp) | exact only_ok _ _
  refine ⟨?_, hlin _ _ _, ?_⟩
  · unfold linSmooth
    split_ifs with h1 h2 h3
    · exact ⟨fun _ => .inl h1, fun _ => rfl⟩
    · refine ⟨nofun, ?_⟩
      rintro (h | h) <;> omega
    · exact ⟨fun _ => .inr ⟨by omega, h3⟩, fun _ => rfl⟩
    · refine ⟨nofun, ?_⟩
      rintro (h | h)
      · omega
      · exact absurd h.2 h3
  · have hlog : Only [.valueError] (toLog g x) := by
      unfold toLog
      split
      · rename_i hl
        split
        · rename_i a b ha hb
          rw [if_pos (hg a b hl ha hb)]
          unfold interpMany
          split
          · exact only_err (by simp)
          · refine only_mapM fun z _ => ?_
            unfold npInterp
            split <;> first | exact only_err (by simp) | exact only_ok _ _ | skip
            all_goals split_ifs <;> first | exact only_err (by simp) | exact only_ok _ _
        · exact only_err (by simp)
      · exact only_ok _ _
    unfold logSmooth
    split_ifs
    · exact only_err (by simp)
    · exact only_ok _ _
    · exact only_err (by simp)
    all_goals
      refine only_bind hlog fun a _ => only_bind (hlin _ _ _) fun b _ => ?_
      first | exact only_err (by simp) | exact only_ok _ _

/-! ## Results -/

theorem only_checkShape {A : Type} (x : ArrArg A) (r c : Nat) : Only [.typeError, .assertionError] (checkShape x r c) := by
  cases x with
  | none => exact only_ok _ _
  | other => exact only_err (by simp)
  | arr s a =>
    unfold checkShape; dsimp only
    split_ifs <;> first | exact only_err (by simp) | exact only_ok _ _

theorem only_checkMax {A : Type} (nl : Nat) (a g : ArrArg A) : Only [.typeError, .assertionError] (checkMax nl a g) := by
  cases a <;> cases g <;> unfold checkMax <;> dsimp only <;>
    (try split_ifs) <;> first | exact only_err (by simp) | exact only_ok _ _

/-- The results object raises TypeError or AssertionError only. -/
theorem C158_results_partial {M V S A : Type} (npts : M → Nat) (nLayer : V → Nat) (time : String) (input surface : Option M)
    (profile : Option V) (tf tfs : SpecArg S) (x : ResArrays A) (name outDir : Option String) :
    Only [.typeError, .assertionError] (resultsInit npts nLayer time input surface profile tf tfs x name outDir) := by
  have hs : ∀ t : SpecArg S, Only [.typeError, .assertionError] (checkSpec t) := by
    intro t; cases t <;> first | exact only_err (by simp) | exact only_ok _ _
  unfold resultsInit
  split
  · exact only_bind (hs _) fun _ _ => only_bind (hs _) fun _ _ => only_bind (only_checkShape _ _ _) fun _ _ =>
      only_bind (only_checkShape _ _ _) fun _ _ => only_bind (only_checkShape _ _ _) fun _ _ =>
      only_bind (only_checkShape _ _ _) fun _ _ => only_bind (only_checkShape _ _ _) fun _ _ =>
      only_bind (only_checkMax _ _ _) fun _ _ => only_ok _ _
  · exact only_err (by simp)

/-- An array of accelerations of the wrong shape raises AssertionError, which no docstring names. -/
theorem C158_results_violated {M V S A : Type} (npts : M → Nat) (nLayer : V → Nat) (time : String) (i s : M) (p : V)
    (tf tfs : SpecArg S) (htf : tf ≠ .other) (htfs : tfs ≠ .other) (x : ResArrays A) (r c : Nat) (a : A)
    (hx : x.accel = .arr [r, c] a) (hrc : ¬ (r = npts s ∧ c = nLayer p + 1)) (name outDir : Option String) :
    resultsInit npts nLayer time (some i) (some s) (some p) tf tfs x name outDir = .error .assertionError := by
  have h1 : checkSpec tf = .ok () := by cases tf <;> first | rfl | exact absurd rfl htf
  have h2 : checkSpec tfs = .ok () := by cases tfs <;> first | rfl | exact absurd rfl htfs
  have h3 : checkShape x.accel (npts s) (nLayer p + 1) = .error .assertionError := by
    rw [hx]; unfold checkShape
    dsimp only
    rw [if_neg (by simp), if_neg (by simpa using hrc)]
  simp only [resultsInit, h1, h2, h3, bind, Except.bind]

/-! ## Nonlinear runs -/

section
variable {K : Type} [Field K] [LinearOrder K] [IsStrictOrderedRing K]

/-- A kernel run of one time step (tables of one row, read as 1D arrays): ValueError if there are at least two interfaces, and
IndexError — named by no docstring — if there is one. -/
theorem C158_one_step_violated {T : Type} (tf tfs : Rec K → Rec K → Except PyErr T) (x : Rec K) (a v d g t zb zm : List K)
    (ha : a ≠ []) (hv : v ≠ []) (hd : d ≠ []) (hg : g ≠ []) (ht : t ≠ []) :
    (zb.length ≠ 1 → nlPost tf tfs x ⟨.vec zb, .vec zm, .vec a, .vec v, .vec d, .vec g, .vec t⟩ = .error .valueError) ∧
    (zb.length = 1 → zm.length = 1 →
      nlPost tf tfs x ⟨.vec zb, .vec zm, .vec a, .vec v, .vec d, .vec g, .vec t⟩ = .error .indexError) := by
  have hc : ∀ l : List K, l ≠ [] → colMax (.vec l) = .ok [maxAbs l] := by
    intro l hl
    cases l with
    | nil => exact absurd rfl hl
    | cons => rfl
  constructor
  · intro hz
    have : nlStack4 zb [maxAbs a] [maxAbs v] [maxAbs d] = .error .valueError := by
      unfold nlStack4
      rw [if_neg (by simp only [List.length_singleton]; omega)]
    simp only [nlPost, hc _ ha, hc _ hv, hc _ hd, hc _ hg, hc _ ht, depthArr, this, bind, Except.bind]
  · intro hz hm
    have h4 : ∃ q, nlStack4 zb [maxAbs a] [maxAbs v] [maxAbs d] = .ok q := by
      unfold nlStack4
      rw [if_pos (by simp only [List.length_singleton]; omega)]
      exact ⟨_, rfl⟩
    have h3 : ∃ q, nlStack3 zm [maxAbs g] [maxAbs t] = .ok q := by
      unfold nlStack3
      rw [if_pos (by simp only [List.length_singleton]; omega)]
      exact ⟨_, rfl⟩
    obtain ⟨q4, h4⟩ := h4
    obtain ⟨q3, h3⟩ := h3
    simp only [nlPost, hc _ ha, hc _ hv, hc _ hd, hc _ hg, hc _ ht, depthArr, h4, h3, firstCol, bind, Except.bind]

/-- Empty tables raise ValueError; single numbers are taken as tables of one column. -/
theorem C158_tables (x : K) (c : List (List K)) :
    colMax (.vec ([] : List K)) = .error .valueError ∧ colMax (.scalar x) = .ok [|x|] ∧ colMax (.mat c) = .ok (c.map maxAbs) ∧
    toArr (.mat ([] : List (List K))) = .ok (.vec []) ∧
    (∀ (r : List K) rs q, q ∈ rs → q.length ≠ r.length → toArr (.mat (r :: rs)) = .error .valueError) := by
  refine ⟨rfl, by simp [colMax, maxAbs], rfl, rfl, ?_⟩
  intro r rs q hq hl
  unfold toArr
  dsimp only
  rw [if_pos]
  rw [Bool.eq_false_iff]
  intro h
  rw [List.all_eq_true] at h
  exact hl (of_decide_eq_true (h q hq))

end

/-! Concrete cases. -/

example : queryDepth [((2 : ℚ), 100), (0, 300)] (.array [1, -1]) = .error (.valueError : PyErr) ∧
    queryDepth [((2 : ℚ), 100), (0, 300)] (.array [1, 5]) = .ok [100, 300] := by decide +kernel

example : calcGGmax [0, 1] [1, 2] (none : Option ℚ) = .error .valueError ∧
    calcGGmax [1, 2] [4] (none : Option ℚ) = .error .valueError ∧
    calcGGmax [1, 2] [4, 6] (none : Option ℚ) = .ok [1, 3 / 4] := by decide +kernel

end Verif
