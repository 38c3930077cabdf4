import Verif.Proof.Truncate

/-!
Properties C08–C11, C72–C74: construction and truncation of `Vs_Profile` objects.
-/

set_option linter.unusedSectionVars false
set_option linter.unusedVariables false

namespace Verif

open Spec

variable {K : Type} [Field K] [LinearOrder K] [IsStrictOrderedRing K] [FloorRing K]

/-! ## C11 construction -/

/-- The format check accepts exactly the valid arrays; everything else is rejected
with ValueError (IndexError for an array without rows, TypeError for non-arrays). -/
theorem C11_format_check :
    (∀ rows : List (K × K), checkVsArg (.arr (.two rows)) = .ok () ↔ Valid rows) ∧
    (∀ rows : List (Row K), checkVsArg (.arr (.five rows)) = .ok () ↔ Valid5 rows) ∧
    checkVsArg (.notArray : VsArg K) = .error .typeError ∧
    (∀ x : VsArg K, x = .nonNumeric ∨ x = .nonFiniteArr ∨ x = .not2D ∨ x = .otherCols →
      checkVsArg x = .error .valueError) := by
  refine ⟨checkVsFormat_two_ok, checkVsFormat_five_ok, rfl, ?_⟩
  rintro x (rfl | rfl | rfl | rfl) <;> rfl

/-- The object described by a successful construction. -/
structure Spec.Constructed (rows : List (Row K)) (o : VsObj K) : Prop where
  valid : Valid5 rows
  zmax : o.zMax = (rows.map Row.thk).sum
  nlayer : o.nLayer = (if (rows.map Row.thk).getLast? = some 0 then rows.length - 1 else rows.length)
  vs30 : o.vs30 = 30 / travelTime (rows.map Row.tv) 30

theorem map_thk_of_tv (rows : List (Row K)) : (rows.map Row.tv).map Prod.fst = rows.map Row.thk := by
  rw [List.map_map]; rfl

theorem expandTwo_thk (rows : List (K × K)) (f : Int) (hne : rows ≠ []) :
    (expandTwo rows f).map Row.thk = rows.map Prod.fst := by
  rw [← map_thk_of_tv, expandTwo_map_tv rows f hne]

theorem getLast?_map_thk (rows : List (Row K)) (hne : rows ≠ []) :
    (rows.map Row.thk).getLast? = some (rows.getLast hne).thk := by
  rw [List.getLast?_map, List.getLast?_eq_getLast_of_ne_nil hne]; rfl

/-- The rows the constructor builds from the caller's array. -/
def Spec.expectedRows (c : Cell K) (du : DampUnit) (de : DensUnit) (formula : Int) : List (Row K) :=
  match c with
  | .two rows => expandTwo rows formula
  | .five rows => rows.map (convertRow du de)

/-- The object a successful construction returns. -/
def objOf (full : List (Row K)) (p t : Nat) (thk : List K) : VsObj K :=
  { prof := p, thkAddr := t, zMax := thk.sum
    nLayer := if thk.getLast? = some 0 then thk.length - 1 else thk.length
    vs30 := 30 / travelTime (full.map Row.tv) 30 }

/-- Complete description of a successful construction from the array at `a`. -/
theorem mkProfile_cases (σ : Store K) (a : Nat) (c : Cell K) (ha : σ[a]? = some c)
    (du : DampUnit) (de : DensUnit) (half : Bool) (f : Int)
    (hck : checkVsFormat c = .ok ()) (hdu : du ≠ .bad) (hde : de ≠ .bad)
    (hv : Valid5 (expectedRows c du de f)) (r : Row K) (hr : (expectedRows c du de f).getLast? = some r)
    (hm : half = true → r.thk ≠ 0 → 0 < r.mat) :
    ∃ o σ' rows, mkProfile σ a du de half f = .ok (o, σ') ∧ Constructed rows o ∧
      o.prof = σ.length ∧ σ'.length = σ.length + 1 ∧
      σ'[o.prof]? = some (.five rows) ∧
      σ'[a]? = some (match c with | .two r => .two r | .five r => .five (r.map (convertRow du de))) ∧
      (∀ b, b ≠ a → b < σ.length → σ'[b]? = σ[b]?) ∧
      (∃ tc, σ'[o.thkAddr]? = some tc ∧ tc.thk = rows.map Row.thk) ∧
      rows = expectedRows c du de f ++
        (if half = true ∧ r.thk ≠ 0 then [halfspaceOf r] else []) := by
  have hal : a < σ.length := by
    by_contra h; rw [List.getElem?_eq_none (by omega)] at ha; cases ha
  have hlast : ((expectedRows c du de f).map Row.thk).getLast? = some r.thk := by
    rw [List.getLast?_map, hr]; rfl
  have hvh : half = true ∧ r.thk ≠ 0 → Valid5 (expectedRows c du de f ++ [halfspaceOf r]) := by
    intro hh
    have hg : (expectedRows c du de f).getLast hv.nonempty = r := by
      rw [List.getLast?_eq_getLast_of_ne_nil hv.nonempty] at hr; exact Option.some.inj hr
    subst hg
    exact addHalf_valid5 _ hv hh.2 (hm hh.1 hh.2)
  cases c with
  | two rows =>
    have hv2 : Valid rows := (checkVsFormat_two_ok rows).1 hck
    have hthk := expandTwo_thk rows f hv2.nonempty
    simp only [expectedRows] at hv hlast hr hvh ⊢
    rw [hthk] at hlast
    by_cases hh : half = true ∧ r.thk ≠ 0
    · rw [if_pos hh]
      have hv' := hvh hh
      have hcond : half = true ∧ (rows.map Prod.fst).getLast? ≠ some 0 := ⟨hh.1, by rw [hlast]; simpa using hh.2⟩
      have hnew : (expandTwo rows f).getLast?.map halfspaceOf =
          some (halfspaceOf r) := by rw [hr]; rfl
      refine ⟨objOf (expandTwo rows f ++ [halfspaceOf r]) σ.length σ.length ((expandTwo rows f ++ [halfspaceOf r]).map Row.thk),
        σ ++ [.five (expandTwo rows f ++ [halfspaceOf r])], _, ?_, ?_, ?_, ?_, ?_, ?_, ?_, ?_, rfl⟩
      · simp only [mkProfile, ha, hck, bind, Except.bind, hdu, hde, if_false, hcond.1, hnew,
          Option.toList_some, finishObj_ok hv'.valid, objOf, pure, Except.pure]
        exact if_pos ⟨trivial, hcond.2⟩
      · exact ⟨hv', rfl, by simp [objOf], rfl⟩
      · rfl
      · simp
      · simp [objOf]
      · rw [List.getElem?_append_left hal, ha]
      · intro b _ hb; rw [List.getElem?_append_left hb]
      · exact ⟨_, by simp only [objOf]; exact List.getElem?_concat_length, rfl⟩
    · rw [if_neg hh]
      have hcond : ¬ (half = true ∧ (rows.map Prod.fst).getLast? ≠ some 0) := by
        rw [hlast]; simpa using hh
      refine ⟨objOf (expandTwo rows f) σ.length a (rows.map Prod.fst), σ ++ [.five (expandTwo rows f)], _, ?_, ?_, ?_, ?_, ?_, ?_, ?_, ?_, rfl⟩
      · simp only [mkProfile, ha, hck, bind, Except.bind, hdu, hde, if_false, hcond,
          finishObj_ok hv.valid, objOf, pure, Except.pure]
      · rw [List.append_nil]
        refine ⟨hv, by rw [hthk]; rfl, ?_, rfl⟩
        simp only [objOf]
        rw [hthk, List.length_map, ← List.length_map (f := Row.thk) (as := expandTwo rows f), hthk, List.length_map]
      · rfl
      · simp
      · simp [objOf]
      · rw [List.getElem?_append_left hal, ha]
      · intro b _ hb; rw [List.getElem?_append_left hb]
      · exact ⟨.two rows, by simp only [objOf]; rw [List.getElem?_append_left hal, ha], by rw [List.append_nil, hthk]; rfl⟩
  | five rows =>
    simp only [expectedRows] at hv hlast hr hvh ⊢
    have hset : ∀ b, (σ.set a (.five (rows.map (convertRow du de))))[b]? =
        if b = a then some (.five (rows.map (convertRow du de))) else σ[b]? := by
      intro b
      rw [List.getElem?_set]
      by_cases h : a = b
      · subst h; simp [hal]
      · simp [h, Ne.symm h]
    by_cases hh : half = true ∧ r.thk ≠ 0
    · rw [if_pos hh]
      have hv' := hvh hh
      have hcond : half = true ∧ ((rows.map (convertRow du de)).map Row.thk).getLast? ≠ some 0 :=
        ⟨hh.1, by rw [hlast]; simpa using hh.2⟩
      have hnew : (rows.map (convertRow du de)).getLast?.map halfspaceOf =
          some (halfspaceOf r) := by rw [hr]; rfl
      refine ⟨objOf ((rows.map (convertRow du de)) ++ [halfspaceOf r]) (σ.set a (.five (rows.map (convertRow du de)))).length (σ.set a (.five (rows.map (convertRow du de)))).length
          (((rows.map (convertRow du de)) ++ [halfspaceOf r]).map Row.thk),
        (σ.set a (.five (rows.map (convertRow du de)))) ++ [.five ((rows.map (convertRow du de)) ++ [halfspaceOf r])], _, ?_, ?_, ?_, ?_, ?_, ?_, ?_, ?_, rfl⟩
      · simp only [mkProfile, ha, hck, bind, Except.bind, hdu, hde, if_false, hcond.1, hnew,
          Option.toList_some, finishObj_ok hv'.valid, objOf, pure, Except.pure]
        exact if_pos ⟨trivial, hcond.2⟩
      · exact ⟨hv', rfl, by simp [objOf], rfl⟩
      · simp [objOf]
      · simp
      · simp [objOf]
      · rw [List.getElem?_append_left (by simpa using hal), hset, if_pos rfl]
      · intro b hba hb; rw [List.getElem?_append_left (by simpa using hb), hset, if_neg hba]
      · exact ⟨_, by simp only [objOf]; exact List.getElem?_concat_length, rfl⟩
    · rw [if_neg hh]
      have hcond : ¬ (half = true ∧ ((rows.map (convertRow du de)).map Row.thk).getLast? ≠ some 0) := by
        rw [hlast]; simpa using hh
      refine ⟨objOf (rows.map (convertRow du de)) (σ.set a (.five (rows.map (convertRow du de)))).length a ((rows.map (convertRow du de)).map Row.thk),
        (σ.set a (.five (rows.map (convertRow du de)))) ++ [.five (rows.map (convertRow du de))], _, ?_, ?_, ?_, ?_, ?_, ?_, ?_, ?_, rfl⟩
      · simp only [mkProfile, ha, hck, bind, Except.bind, hdu, hde, if_false, hcond,
          finishObj_ok hv.valid, objOf, pure, Except.pure]
      · rw [List.append_nil]
        exact ⟨hv, rfl, by simp [objOf], rfl⟩
      · simp [objOf]
      · simp
      · simp [objOf]
      · rw [List.getElem?_append_left (by simpa using hal), hset, if_pos rfl]
      · intro b hba hb; rw [List.getElem?_append_left (by simpa using hb), hset, if_neg hba]
      · refine ⟨.five (rows.map (convertRow du de)), ?_, by rw [List.append_nil]; rfl⟩
        simp only [objOf]
        rw [List.getElem?_append_left (by simpa using hal), hset, if_pos rfl]

/-- The rows are valid before the half space is appended. -/
theorem expectedRows_valid5 (c : Cell K) (du : DampUnit) (de : DensUnit) (f : Int)
    (hf : f = 1 ∨ f = 2 ∨ f = 3) (hck : checkVsFormat c = .ok ()) : Valid5 (expectedRows c du de f) := by
  cases c with
  | two rows => exact expandTwo_valid5 rows f hf ((checkVsFormat_two_ok rows).1 hck)
  | five rows => exact convert_valid5 rows du de ((checkVsFormat_five_ok rows).1 hck)

/-- The last row before the half space is appended. -/
theorem expectedRows_last (c : Cell K) (du : DampUnit) (de : DensUnit) (half : Bool) (f : Int)
    (hf : f = 1 ∨ f = 2 ∨ f = 3) (hck : checkVsFormat c = .ok ())
    (hlast : half = true → ∀ rows r, c = .five rows → rows.getLast? = some r → r.thk ≠ 0 → 0 < r.mat) :
    ∃ r, (expectedRows c du de f).getLast? = some r ∧ (half = true → r.thk ≠ 0 → 0 < r.mat) := by
  have hv := expectedRows_valid5 c du de f hf hck
  refine ⟨_, List.getLast?_eq_getLast_of_ne_nil hv.nonempty, ?_⟩
  intro h1 h2
  cases c with
  | two rows =>
    have hv2 := (checkVsFormat_two_ok rows).1 hck
    have hl : (rows.map Prod.fst).getLast? ≠ some 0 := by
      rw [← expandTwo_thk rows f hv2.nonempty]
      intro h
      have := getLast?_map_thk (expandTwo rows f) hv.nonempty
      rw [h] at this
      exact h2 (Option.some.inj this).symm
    have hmem : (expandTwo rows f).getLast hv.nonempty ∈ expandTwo rows f := List.getLast_mem _
    obtain ⟨q, _, m, hm, he⟩ := zipWith_mem _ _ _ _ hmem
    change 0 < ((expandTwo rows f).getLast hv.nonempty).mat
    rw [he]
    simp only
    unfold autoMaterial at hm
    rw [if_neg hl] at hm
    obtain ⟨i, _, rfl⟩ := List.mem_map.1 hm
    positivity
  | five rows =>
    have hne : rows ≠ [] := ((checkVsFormat_five_ok rows).1 hck).nonempty
    have he : (expectedRows (.five rows) du de f).getLast hv.nonempty = convertRow du de (rows.getLast hne) :=
      List.getLast_map (f := convertRow du de) hv.nonempty
    rw [he] at h2 ⊢
    exact hlast h1 rows (rows.getLast hne) rfl (List.getLast?_eq_getLast_of_ne_nil _) h2

/-- C11 for two-column data and for five-column data without an added half space:
a documented call on a valid array succeeds, and the object holds a valid profile
with the input's thicknesses and velocities, correct depth, layer count and Vs30;
with `add_halfspace` the last row has zero thickness.
Missing from the full property: a five-column array whose last row has positive
thickness and material number 0 together with `add_halfspace=True`
(`C11_halfspace_material_violated`) and undocumented values of `xi_rho_formula`
(`C11_formula_violated`). -/
theorem C11_construct_partial (σ : Store K) (a : Nat) (c : Cell K) (ha : σ[a]? = some c)
    (du : DampUnit) (de : DensUnit) (half : Bool) (f : Int) (hf : f = 1 ∨ f = 2 ∨ f = 3)
    (hck : checkVsFormat c = .ok ()) (hdu : du ≠ .bad) (hde : de ≠ .bad)
    (hlast : half = true → ∀ rows r, c = .five rows → rows.getLast? = some r → r.thk ≠ 0 → 0 < r.mat) :
    ∃ o σ' rows, mkProfile σ a du de half f = .ok (o, σ') ∧ σ'[o.prof]? = some (.five rows) ∧
      Constructed rows o ∧
      (∃ tl, rows.map Row.tv = c.thk.zip c.vs ++ tl) ∧
      (half = false → rows.map Row.tv = c.thk.zip c.vs) ∧
      (half = true → (rows.map Row.thk).getLast? = some 0) := by
  have hv := expectedRows_valid5 c du de f hf hck
  have htv : (expectedRows c du de f).map Row.tv = c.thk.zip c.vs := by
    cases c with
    | two rows =>
      simp only [expectedRows, Cell.thk, Cell.vs]
      rw [expandTwo_map_tv rows f ((checkVsFormat_two_ok rows).1 hck).nonempty]
      exact (List.zip_of_prod (l := rows.map Prod.fst) (l' := rows.map Prod.snd) (xs := rows) rfl rfl)
    | five rows =>
      simp only [expectedRows, Cell.thk, Cell.vs, List.map_map]
      rw [List.zip_map']
      apply List.map_congr_left
      intro r _; rfl
  obtain ⟨r, hr, hm⟩ := expectedRows_last c du de half f hf hck hlast
  obtain ⟨o, σ', rows, h1, h2, _, _, h5, _, _, _, h9⟩ := mkProfile_cases σ a c ha du de half f hck hdu hde hv r hr hm
  refine ⟨o, σ', rows, h1, h5, h2, ?_, ?_, ?_⟩
  · rw [h9, List.map_append, htv]; exact ⟨_, rfl⟩
  · intro hf; rw [h9, if_neg (by simp [hf]), List.append_nil, htv]
  · intro hf
    rw [h9]
    by_cases ht : r.thk = 0
    · rw [if_neg (by simp [ht]), List.append_nil, List.getLast?_map, hr]; simp [ht]
    · rw [if_pos ⟨hf, ht⟩]; simp [halfspaceOf]

/-- How a row of the object relates to the row given by the caller: damping in the unit 1,
density in kg/m³, everything else as given. -/
structure Spec.RowConverted (du : DampUnit) (de : DensUnit) (r q : Row K) : Prop where
  thk : q.thk = r.thk
  vs : q.vs = r.vs
  mat : q.mat = r.mat
  xi1 : du = .one → q.xi = r.xi
  xiPct : du = .pct → q.xi * 100 = r.xi
  rhoSI : de = .si → q.rho = r.rho
  rhoGcc : de = .gcc → q.rho = 1000 * r.rho

/-- The rows of an object constructed from five columns: the given rows with damping and
density converted; then the half space, which repeats the last row's properties with
zero thickness and material number 0. -/
theorem C11_five_columns_partial (σ : Store K) (a : Nat) (inp : List (Row K)) (ha : σ[a]? = some (.five inp))
    (du : DampUnit) (de : DensUnit) (half : Bool) (f : Int) (hf : f = 1 ∨ f = 2 ∨ f = 3)
    (hck : checkVsFormat (.five inp) = .ok ()) (hdu : du ≠ .bad) (hde : de ≠ .bad)
    (hlast : half = true → ∀ r, inp.getLast? = some r → r.thk ≠ 0 → 0 < r.mat) :
    ∃ o σ' rows, mkProfile σ a du de half f = .ok (o, σ') ∧ σ'[o.prof]? = some (.five rows) ∧
      List.Forall₂ (RowConverted du de) inp (rows.take inp.length) ∧
      ∀ r q, half = true → inp.getLast? = some r → r.thk ≠ 0 → rows[inp.length - 1]? = some q →
        rows.drop inp.length = [⟨0, q.vs, q.xi, q.rho, 0⟩] := by
  have hv := expectedRows_valid5 (.five inp) du de f hf hck
  obtain ⟨r, hr, hm⟩ := expectedRows_last (.five inp) du de half f hf hck (by
    intro h rows r hc hl ht
    cases hc
    exact hlast h r hl ht)
  obtain ⟨o, σ', rows, h1, _, _, _, h5, _, _, _, h9⟩ := mkProfile_cases σ a _ ha du de half f hck hdu hde hv r hr hm
  have hlen : (expectedRows (.five inp) du de f).length = inp.length := by simp [expectedRows]
  refine ⟨o, σ', rows, h1, h5, ?_, ?_⟩
  · rw [h9, List.take_append_of_le_length (by rw [hlen]), List.take_of_length_le (by rw [hlen])]
    simp only [expectedRows]
    rw [List.forall₂_map_right_iff]
    apply List.forall₂_same.2
    intro x _
    refine ⟨rfl, rfl, rfl, ?_, ?_, ?_, ?_⟩ <;> rintro rfl <;> simp [convertRow]
    ring
  · intro r' q hh hl ht hq
    have he : r = convertRow du de r' := by
      simp only [expectedRows, List.getLast?_map, hl, Option.map_some, Option.some.injEq] at hr
      exact hr.symm
    have hrt : r.thk ≠ 0 := by rw [he]; exact ht
    rw [if_pos ⟨hh, hrt⟩] at h9
    have hne : inp ≠ [] := by rintro rfl; simp at hl
    have hpos := List.length_pos_iff.2 hne
    have hq' : q = r := by
      rw [h9, List.getElem?_append_left (by rw [hlen]; omega)] at hq
      rw [List.getLast?_eq_getElem?, hlen, hq] at hr
      exact Option.some.inj hr
    rw [h9, ← hlen, List.drop_left]
    rw [hq']; rfl

example : ∃ inp : List (Row ℚ), checkVsFormat (.five inp) = .ok () ∧ inp.length = 2 :=
  ⟨[⟨10, 200, 5, 18 / 10, 1⟩, ⟨20, 400, 2, 2, 2⟩], by decide +kernel, rfl⟩

/-- The rows of an object constructed from two columns: thickness and velocity as given,
damping and density from the formula, materials numbered from 1, 0 for a half space. -/
theorem C11_two_columns (σ : Store K) (a : Nat) (inp : List (K × K)) (ha : σ[a]? = some (.two inp))
    (du : DampUnit) (de : DensUnit) (f : Int) (hf : f = 1 ∨ f = 2 ∨ f = 3)
    (hck : checkVsFormat (.two inp) = .ok ()) (hdu : du ≠ .bad) (hde : de ≠ .bad) :
    ∃ o σ' rows, mkProfile σ a du de false f = .ok (o, σ') ∧ σ'[o.prof]? = some (.five rows) ∧ rows.length = inp.length ∧
      ∀ (i : Nat) p q, inp[i]? = some p → rows[i]? = some q →
        q.tv = p ∧ q.xi = xiOf f p.2 ∧ q.rho = rhoOf p.2 ∧
        q.mat = if i + 1 = inp.length ∧ p.1 = 0 then 0 else (i : K) + 1 := by
  have hv := expectedRows_valid5 (.two inp) du de f hf hck
  obtain ⟨r, hr, hm⟩ := expectedRows_last (.two inp) du de false f hf hck (by intro h; cases h)
  obtain ⟨o, σ', rows, h1, _, _, _, h5, _, _, _, h9⟩ := mkProfile_cases σ a _ ha du de false f hck hdu hde hv r hr hm
  rw [if_neg (by simp), List.append_nil] at h9
  have hvv := (checkVsFormat_two_ok inp).1 hck
  have hpos := List.length_pos_iff.2 hvv.nonempty
  have hal : (autoMaterial (inp.map Prod.fst)).length = inp.length := by
    unfold autoMaterial
    split_ifs <;> simp <;> omega
  refine ⟨o, σ', rows, h1, h5, by rw [h9]; simp [expectedRows, expandTwo, hal], ?_⟩
  intro i p q hp hq
  have hil : i < inp.length := by
    by_contra hn; rw [List.getElem?_eq_none (by omega)] at hp; cases hp
  rw [h9] at hq
  simp only [expectedRows, expandTwo] at hq
  rw [List.getElem?_zipWith, hp] at hq
  cases hmat : (autoMaterial (inp.map Prod.fst))[i]? with
  | none => rw [List.getElem?_eq_none_iff] at hmat; omega
  | some mt =>
    rw [hmat] at hq
    simp only [Option.some.injEq] at hq
    subst hq
    refine ⟨rfl, rfl, rfl, ?_⟩
    simp only
    unfold autoMaterial at hmat
    rw [List.getLast?_map, List.getLast?_eq_getElem?] at hmat
    by_cases hl0 : Option.map Prod.fst inp[inp.length - 1]? = some 0
    · rw [if_pos hl0] at hmat
      by_cases hi : i + 1 = inp.length
      · have : inp.length - 1 = i := by omega
        rw [this, hp] at hl0
        simp only [Option.map_some, Option.some.injEq] at hl0
        rw [if_pos ⟨hi, hl0⟩]
        rw [List.getElem?_append_right (by simp; omega)] at hmat
        simp only [List.length_map, List.length_range] at hmat
        rw [show i - (inp.length - 1) = 0 by omega] at hmat
        simpa using hmat.symm
      · rw [if_neg (by tauto)]
        rw [List.getElem?_append_left (by simp; omega), List.getElem?_map, List.getElem?_range (by simp; omega)] at hmat
        simpa using hmat.symm
    · rw [if_neg hl0] at hmat
      rw [List.getElem?_map, List.getElem?_range (by simpa using hil)] at hmat
      rw [if_neg]
      · simpa using hmat.symm
      · rintro ⟨hi, h0⟩
        apply hl0
        rw [show inp.length - 1 = i by omega, hp]
        simp [h0]

/-- Rejections: an invalid array or an unknown unit never yields an object. -/
theorem C11_construct_rejects (σ : Store K) (a : Nat) (c : Cell K) (ha : σ[a]? = some c)
    (du : DampUnit) (de : DensUnit) (half : Bool) (f : Int)
    (h : checkVsFormat c ≠ .ok () ∨ du = .bad ∨ de = .bad) :
    ∃ e, mkProfile σ a du de half f = .error e ∧ (checkVsFormat c = .ok () → e = .valueError) := by
  unfold mkProfile
  rw [ha]
  cases hc : checkVsFormat c with
  | error e => exact ⟨e, by simp [bind, Except.bind, hc], by simp⟩
  | ok u =>
    simp only [bind, Except.bind, hc]
    rcases h with h | h | h
    · exact absurd hc h
    · exact ⟨.valueError, by simp [h], fun _ => rfl⟩
    · by_cases hd : du = .bad
      · exact ⟨.valueError, by simp [hd], fun _ => rfl⟩
      · exact ⟨.valueError, by simp [hd, h], fun _ => rfl⟩

/-- Two valid demo arrays. -/
def demoRows : List (Row ℚ) := [⟨10, 200, 1 / 20, 1800, 1⟩, ⟨10, 400, 1 / 50, 1900, 2⟩]
def demoStore : Store ℚ := [.five demoRows]

theorem demoRows_valid : Valid5 demoRows := by
  refine ⟨by simp [demoRows], by simp [demoRows], by simp [demoRows], by simp [demoRows],
    ?_, by simp [demoRows], by simp [demoRows]⟩
  intro r hr
  simp only [demoRows, List.mem_cons, List.not_mem_nil, or_false] at hr
  rcases hr with rfl | rfl
  · exact ⟨1, by norm_num⟩
  · exact ⟨2, by norm_num⟩

example : checkVsFormat (.five demoRows) = .ok () := (checkVsFormat_five_ok _).2 demoRows_valid
example : (mkProfile demoStore 0 .one .si true 3).map (fun x => (x.1.zMax, x.1.nLayer, x.1.vs30)) =
    .ok (20, 2, 300) := by decide +kernel

/-- C11 fails for a five-column array ending in a row of positive thickness and
material number 0 with `add_halfspace=True`: the object holds a soil layer with
material number 0, which the format check itself rejects. -/
theorem C11_halfspace_material_violated :
    ∃ (σ : Store ℚ) (o : VsObj ℚ) (σ' : Store ℚ) (rows : List (Row ℚ)),
      mkProfile σ 0 .one .si true 3 = .ok (o, σ') ∧ σ'[o.prof]? = some (.five rows) ∧ ¬ Valid5 rows := by
  refine ⟨[.five [⟨10, 200, 1 / 20, 1800, 0⟩]],
    { prof := 1, thkAddr := 1, zMax := 10, nLayer := 1, vs30 := 200 },
    [.five [⟨10, 200, 1 / 20, 1800, 0⟩], .five [⟨10, 200, 1 / 20, 1800, 0⟩, ⟨0, 200, 1 / 20, 1800, 0⟩]],
    [⟨10, 200, 1 / 20, 1800, 0⟩, ⟨0, 200, 1 / 20, 1800, 0⟩], by decide +kernel, rfl, ?_⟩
  intro h
  have := h.mat_pos ⟨10, 200, 1 / 20, 1800, 0⟩ (by simp)
  simp at this

/-- C11/C72 fail for an undocumented `xi_rho_formula`: no error, zero damping. -/
theorem C11_formula_violated :
    ∃ (σ : Store ℚ) (o : VsObj ℚ) (σ' : Store ℚ) (rows : List (Row ℚ)),
      mkProfile σ 0 .one .si false 4 = .ok (o, σ') ∧ σ'[o.prof]? = some (.five rows) ∧
      ∀ r ∈ rows, r.xi = 0 := by
  refine ⟨[.two [(10, 200)]], { prof := 1, thkAddr := 0, zMax := 10, nLayer := 1, vs30 := 200 },
    [.two [(10, 200)], .five [⟨10, 200, 0, 1800, 1⟩]], [⟨10, 200, 0, 1800, 1⟩], by decide +kernel, rfl, by simp⟩

/-! ## C72 -/

/-- Every documented formula assigns positive damping and density. -/
theorem C72_xi_rho_positive (f : Int) (hf : f = 1 ∨ f = 2 ∨ f = 3) (vs : List K) (h : ∀ v ∈ vs, 0 < v) :
    (getXiRho vs f).1.length = vs.length ∧ (getXiRho vs f).2.length = vs.length ∧
    (∀ x ∈ (getXiRho vs f).1, 0 < x) ∧ (∀ r ∈ (getXiRho vs f).2, r = 1600 ∨ r = 1800 ∨ r = 2000) := by
  refine ⟨by simp [getXiRho], by simp [getXiRho], ?_, ?_⟩
  · intro x hx
    obtain ⟨v, hv, rfl⟩ := List.mem_map.1 hx
    exact xiOf_pos f hf v (h v hv)
  · intro r hr
    obtain ⟨v, hv, rfl⟩ := List.mem_map.1 hr
    unfold rhoOf; split_ifs <;> simp

/-- Density never decreases with velocity, and the formula 3 quality factor
`Qs = 1/(2 xi)` is at least 6% of Vs. -/
theorem C72_monotone (v w : K) (h : v ≤ w) (hv : 0 < v) :
    rhoOf v ≤ rhoOf w ∧ xiOf 1 w ≤ xiOf 1 v ∧ xiOf 3 v ≤ 1 / (2 * (6 / 100 * v)) := by
  refine ⟨?_, ?_, ?_⟩
  · unfold rhoOf; split_ifs <;> first | (exfalso; linarith) | norm_num
  · simp only [xiOf, if_true]; split_ifs <;> first | (exfalso; linarith) | norm_num
  · simp only [xiOf, show (3 : Int) ≠ 1 by decide, show (3 : Int) ≠ 2 by decide, if_false, if_true]
    split_ifs
    · exact le_refl _
    all_goals
      apply one_div_le_one_div_of_le (by positivity)
      nlinarith

example : (getXiRho [(150 : ℚ), 400, 900, 2500] 3) =
    ([1 / 18, 1 / 48, 1 / 108, 1 / 800], [1600, 1800, 2000, 2000]) := by decide +kernel

/-! ## C10 the caller's array -/

/-- C10 for two-column arrays and for SI units: construction leaves every existing
array as it was, and constructing again gives an equal profile.
Missing from the full property: five columns with `%` or `g/cm^3`, for which it is
false (`C10_caller_array_violated`). -/
theorem C10_caller_array_partial (σ : Store K) (a : Nat) (c : Cell K) (ha : σ[a]? = some c)
    (du : DampUnit) (de : DensUnit) (half : Bool) (f : Int) (hf : f = 1 ∨ f = 2 ∨ f = 3)
    (hck : checkVsFormat c = .ok ()) (hdu : du ≠ .bad) (hde : de ≠ .bad)
    (hlast : half = true → ∀ rows r, c = .five rows → rows.getLast? = some r → r.thk ≠ 0 → 0 < r.mat)
    (hunits : (∃ rows, c = .two rows) ∨ (du = .one ∧ de = .si)) :
    ∃ o σ' o2 σ2, mkProfile σ a du de half f = .ok (o, σ') ∧ (∀ b, b < σ.length → σ'[b]? = σ[b]?) ∧
      mkProfile σ' a du de half f = .ok (o2, σ2) ∧ σ2[o2.prof]? = σ'[o.prof]? ∧
      o2.zMax = o.zMax ∧ o2.nLayer = o.nLayer ∧ o2.vs30 = o.vs30 := by
  have hv := expectedRows_valid5 c du de f hf hck
  obtain ⟨r, hr, hm⟩ := expectedRows_last c du de half f hf hck hlast
  obtain ⟨o, σ', rows, h1, h2, h3, h4, h5, h6, h7, h8, h9⟩ :=
    mkProfile_cases σ a c ha du de half f hck hdu hde hv r hr hm
  have hsame : σ'[a]? = some c := by
    rw [h6]
    cases c with
    | two r => rfl
    | five r =>
      rcases hunits with ⟨r', hr'⟩ | ⟨rfl, rfl⟩
      · cases hr'
      · simp only
        congr 2
        conv_rhs => rw [← List.map_id r]
        apply List.map_congr_left
        intro x _; simp [convertRow]
  obtain ⟨o2, σ2, rows2, g1, g2, g3, g4, g5, g6, g7, g8, g9⟩ :=
    mkProfile_cases σ' a c hsame du de half f hck hdu hde hv r hr hm
  have hrows : rows2 = rows := by rw [g9, h9]
  subst hrows
  refine ⟨o, σ', o2, σ2, h1, ?_, g1, by rw [g5, h5], by rw [g2.zmax, h2.zmax], by rw [g2.nlayer, h2.nlayer],
    by rw [g2.vs30, h2.vs30]⟩
  intro b hb
  by_cases hba : b = a
  · rw [hba, hsame, ha]
  · exact h7 b hba hb

/-- C10 fails for densities in g/cm^3: the caller's array is rescaled, so the second
profile built from the same array has a density of 1.8 million kg/m^3. -/
theorem C10_caller_array_violated :
    ∃ (σ σ1 σ2 : Store ℚ) (o1 o2 : VsObj ℚ),
      mkProfile σ 0 .one .gcc false 3 = .ok (o1, σ1) ∧ σ1[0]? ≠ σ[0]? ∧
      mkProfile σ1 0 .one .gcc false 3 = .ok (o2, σ2) ∧
      σ1[o1.prof]? = some (.five [⟨10, 200, 1 / 20, 1800, 1⟩]) ∧
      σ2[o2.prof]? = some (.five [⟨10, 200, 1 / 20, 1800000, 1⟩]) := by
  refine ⟨[.five [⟨10, 200, 1 / 20, 9 / 5, 1⟩]],
    [.five [⟨10, 200, 1 / 20, 1800, 1⟩], .five [⟨10, 200, 1 / 20, 1800, 1⟩]],
    [.five [⟨10, 200, 1 / 20, 1800000, 1⟩], .five [⟨10, 200, 1 / 20, 1800, 1⟩],
      .five [⟨10, 200, 1 / 20, 1800000, 1⟩]],
    { prof := 1, thkAddr := 0, zMax := 10, nLayer := 1, vs30 := 200 },
    { prof := 2, thkAddr := 0, zMax := 10, nLayer := 1, vs30 := 200 }, ?_, ?_, ?_, rfl, rfl⟩ <;>
  decide +kernel

/-! ## C08 truncation -/

/-- Renumbering of the half space when it becomes a soil layer. -/
def Spec.renumber (m : K) (r : Row K) : K := if r.mat = 0 then m else r.mat

/-- An object whose cached thickness column agrees with its profile (true for every
freshly constructed object, `fresh_consistent`). -/
structure Spec.Consistent (σ : Store K) (o : VsObj K) (rows : List (Row K)) : Prop where
  prof : σ[o.prof]? = some (.five rows)
  thk : ∃ c, σ[o.thkAddr]? = some c ∧ c.thk = rows.map Row.thk

/-- Truncation of a consistent object: the result is a valid profile of total
thickness `depth` over a half space of velocity `Vs`; at every depth above `depth` it
has the velocity, damping, density and material of the original (the last layer being
continued downwards; a half space that becomes soil gets an unused positive material
number), and at every depth below the bedrock velocity. -/
theorem C08_truncate (σ : Store K) (o : VsObj K) (rows : List (Row K)) (hc : Consistent σ o rows)
    (hv : Valid5 rows) (depth Vs : K) (hd : 0 < depth) (hV : 0 < Vs) :
    ∃ o' σ' rows' m, truncate σ o (some depth) (some Vs) = .ok (o', σ') ∧
      Consistent σ' o' rows' ∧ Constructed rows' o' ∧ o'.zMax = depth ∧
      (∃ b, rows'.getLast? = some b ∧ b.thk = 0 ∧ b.vs = Vs ∧ b.mat = 0) ∧
      0 < m ∧
      (∀ z x, HasAt (rows'.map fun r => (r.thk, (r.vs, r.xi, r.rho, r.mat))) z x ↔
        (z < depth ∧ HasAt (rows.map fun r => (r.thk, (r.vs, r.xi, r.rho, renumber m r))) z x) ∨
        (depth ≤ z ∧ x = (Vs, xiOf 3 Vs, rhoOf Vs, 0))) := by
  obtain ⟨hprof, tc, htc, hthk⟩ := hc
  obtain ⟨pre, r, post, t, hrows, htr, ht, hsum, hle⟩ :=
    truncLoop_spec depth 0 rows hv.nonempty hv.thk_pos hv.thk_nonneg hd
  rw [sub_zero] at hsum
  have hpl : o.prof < σ.length := by
    by_contra h; rw [List.getElem?_eq_none (by omega)] at hprof; cases hprof
  -- facts about the rows above
  have hpre_mem : ∀ s ∈ pre, s ∈ rows.dropLast := by
    intro s hs
    rw [hrows, List.dropLast_append_cons]; simp [hs]
  have hr_mem : r ∈ rows := by rw [hrows]; simp
  have hpre_rows : ∀ s ∈ pre, s ∈ rows := fun s hs => List.mem_of_mem_dropLast (hpre_mem s hs)
  obtain ⟨m, hfix, hm0, hmint, hmr, hmnew⟩ := fixMaterial_append pre { r with thk := t } (by
    intro s hs
    rcases List.mem_append.1 hs with h | h
    · exact hv.mat_int s (hpre_rows s h)
    · simp only [List.mem_singleton] at h; subst h; exact hv.mat_int r hr_mem) (hv.mat_nonneg r hr_mem)
  simp only at hmr hmnew hfix
  set newRows : List (Row K) := pre ++ [{ r with thk := t, mat := m }] ++ [bedrockRow Vs] with hnew
  have hval : Valid5 newRows := by
    refine ⟨by simp [hnew], ?_, ?_, ?_, ?_, ?_, ?_⟩
    · intro s hs
      rw [hnew, List.dropLast_concat] at hs
      rcases List.mem_append.1 hs with h | h
      · exact hv.thk_pos s (hpre_mem s h)
      · simp only [List.mem_singleton] at h; subst h; exact ht
    · intro s hs
      rcases List.mem_append.1 hs with h | h
      · rcases List.mem_append.1 h with h | h
        · exact hv.thk_nonneg s (hpre_rows s h)
        · simp only [List.mem_singleton] at h; subst h; exact ht.le
      · simp only [List.mem_singleton] at h; subst h; simp [bedrockRow]
    · intro s hs
      rcases List.mem_append.1 hs with h | h
      · rcases List.mem_append.1 h with h | h
        · exact hv.pos s (hpre_rows s h)
        · simp only [List.mem_singleton] at h; subst h; exact hv.pos r hr_mem
      · simp only [List.mem_singleton] at h; subst h
        exact ⟨hV, xiOf_pos 3 (by simp) Vs hV, rhoOf_pos Vs⟩
    · intro s hs
      rcases List.mem_append.1 hs with h | h
      · rcases List.mem_append.1 h with h | h
        · exact hv.mat_int s (hpre_rows s h)
        · simp only [List.mem_singleton] at h; subst h; exact hmint
      · simp only [List.mem_singleton] at h; subst h; exact ⟨0, by simp [bedrockRow]⟩
    · intro s hs
      rw [hnew, List.dropLast_concat] at hs
      rcases List.mem_append.1 hs with h | h
      · exact hv.mat_pos s (hpre_mem s h)
      · simp only [List.mem_singleton] at h; subst h; exact hm0
    · intro s hs
      rcases List.mem_append.1 hs with h | h
      · rcases List.mem_append.1 h with h | h
        · exact hv.mat_nonneg s (hpre_rows s h)
        · simp only [List.mem_singleton] at h; subst h; exact hm0.le
      · simp only [List.mem_singleton] at h; subst h; simp [bedrockRow]
  have hconv : newRows.map (convertRow .one .si) = newRows := by
    conv_rhs => rw [← List.map_id newRows]
    apply List.map_congr_left
    intro x _; simp [convertRow]
  -- the constructor call
  set σ1 := σ.set o.prof (.five (pre ++ [{ r with thk := t }] ++ post)) with hσ1
  have hlen1 : σ1.length = σ.length := by simp [hσ1]
  have hargs : (σ1 ++ [.five newRows])[σ1.length]? = some (.five newRows) := by simp
  have hexp : expectedRows (.five newRows) .one .si 3 = newRows := hconv
  have hv' : Valid5 (expectedRows (.five newRows) .one .si 3) := by rw [hexp]; exact hval
  obtain ⟨o', σ', rows', h1, h2, h3, h4, h5, h6, h7, h8, h9⟩ :=
    mkProfile_cases (σ1 ++ [.five newRows]) σ1.length (.five newRows) hargs .one .si false 3
      ((checkVsFormat_five_ok _).2 hval) (by simp) (by simp) hv' (bedrockRow Vs) (by rw [hexp]; simp [hnew]) (by simp)
  rw [if_neg (by simp), List.append_nil, hexp] at h9
  subst h9
  refine ⟨o', σ', newRows, m, ?_, ⟨h5, h8⟩, h2, ?_, ?_, hm0, ?_⟩
  · unfold truncate
    simp only [not_le.2 hd, not_le.2 hV, if_false, hprof, htc, hthk, htr, hfix]
    exact h1
  · rw [h2.zmax, hnew]
    simp only [List.map_append, List.sum_append, List.map_cons, List.map_nil, List.sum_cons, List.sum_nil,
      bedrockRow, add_zero]
    exact hsum
  · exact ⟨bedrockRow Vs, by simp [hnew], rfl, rfl, rfl⟩
  · intro z x
    have key := hasAt_truncated (fun s : Row K => (s.vs, s.xi, s.rho, renumber m s))
      (Vs, xiOf 3 Vs, rhoOf Vs, 0) x pre r post t (fun s hs => hv.thk_nonneg s (hpre_rows s hs))
      (hv.thk_nonneg r hr_mem) (fun s hs => hv.thk_nonneg s (by rw [hrows]; simp [hs])) ht hle z
    rw [hsum, ← hrows] at key
    rw [← key]
    have hmap : newRows.map (fun r => (r.thk, (r.vs, r.xi, r.rho, r.mat))) =
        pre.map (fun s => (s.thk, (s.vs, s.xi, s.rho, renumber m s))) ++
          [(t, (r.vs, r.xi, r.rho, renumber m r)), (0, (Vs, xiOf 3 Vs, rhoOf Vs, 0))] := by
      rw [hnew, List.map_append, List.map_append, List.append_assoc]
      congr 1
      · apply List.map_congr_left
        intro s hs
        simp [renumber, (hv.mat_pos s (hpre_mem s hs)).ne']
      · simp only [List.map_cons, List.map_nil, List.singleton_append, bedrockRow]
        by_cases h0 : r.mat = 0
        · simp [renumber, h0]
        · simp [renumber, h0, hmr h0]
    rw [hmap]

/-- Every constructed object is consistent. -/
theorem fresh_consistent (σ : Store K) (a : Nat) (c : Cell K) (ha : σ[a]? = some c)
    (du : DampUnit) (de : DensUnit) (f : Int) (hf : f = 1 ∨ f = 2 ∨ f = 3)
    (hck : checkVsFormat c = .ok ()) (hdu : du ≠ .bad) (hde : de ≠ .bad) :
    ∃ o σ' rows, mkProfile σ a du de false f = .ok (o, σ') ∧ Consistent σ' o rows ∧ Valid5 rows := by
  have hv := expectedRows_valid5 c du de f hf hck
  obtain ⟨o, σ', rows, h1, h2, h3, h4, h5, h6, h7, h8, h9⟩ :=
    mkProfile_cases σ a c ha du de false f hck hdu hde hv _ (List.getLast?_eq_getLast_of_ne_nil hv.nonempty) (by simp)
  exact ⟨o, σ', rows, h1, ⟨h5, h8⟩, h2.valid⟩

/-- Invalid truncation arguments are rejected. -/
theorem C08_truncate_rejects (σ : Store K) (o : VsObj K) (depth Vs : Option K)
    (h : (∀ d, depth = some d → d ≤ 0) ∨ (∀ v, Vs = some v → v ≤ 0)) :
    truncate σ o depth Vs = .error .valueError := by
  unfold truncate
  cases depth with
  | none => rfl
  | some d =>
    simp only
    rcases h with h | h
    · simp [h d rfl]
    · split_ifs
      · rfl
      · cases Vs with
        | none => rfl
        | some v => simp [h v rfl]

/-- The demo object: rows `demoRows`, cached thickness from the caller's array. -/
def demoObj : VsObj ℚ := { prof := 1, thkAddr := 0, zMax := 20, nLayer := 2, vs30 := 300 }
def demoStore1 : Store ℚ := [.five demoRows, .five demoRows]

example : Consistent demoStore1 demoObj demoRows := ⟨rfl, .five demoRows, rfl, rfl⟩
example : mkProfile demoStore 0 .one .si false 3 = .ok (demoObj, demoStore1) := by decide +kernel

/-! ## C09 the original object -/

/-- C09 when the truncation depth coincides with a layer bottom: the store (hence the
original object) is unchanged apart from newly allocated arrays.
Missing from the full property: any other depth, where it is false
(`C09_original_violated`). -/
theorem C09_original_partial (σ : Store K) (o : VsObj K) (rows : List (Row K)) (hc : Consistent σ o rows)
    (hv : Valid5 rows) (depth Vs : K) (hd : 0 < depth) (hV : 0 < Vs) (k : Nat) (hk : k ≤ rows.length)
    (hdk : topDepth (rows.map Row.thk) k = depth) (o' : VsObj K) (σ' : Store K)
    (h : truncate σ o (some depth) (some Vs) = .ok (o', σ')) :
    ∀ b, b < σ.length → σ'[b]? = σ[b]? := by
  obtain ⟨hprof, tc, htc, hthk⟩ := hc
  obtain ⟨pre, r, post, t, hrows, htr, ht, hsum, hle⟩ :=
    truncLoop_spec depth 0 rows hv.nonempty hv.thk_pos hv.thk_nonneg hd
  rw [sub_zero] at hsum
  have hnn : ∀ t ∈ rows.map Row.thk, 0 ≤ t := by
    intro t ht; obtain ⟨s, hs, rfl⟩ := List.mem_map.1 ht; exact hv.thk_nonneg s hs
  have htop : topDepth (rows.map Row.thk) pre.length = (pre.map Row.thk).sum := by
    rw [hrows]; simp [topDepth, List.take_left']
  have htop1 : topDepth (rows.map Row.thk) (pre.length + 1) = (pre.map Row.thk).sum + r.thk := by
    rw [topDepth_succ, htop, hrows]; simp
  have hkgt : pre.length < k := by
    by_contra hlt
    have := topDepth_mono hnn (not_lt.1 hlt)
    rw [hdk, htop] at this; linarith
  have hge : r.thk ≤ t := by
    have := topDepth_mono hnn hkgt
    rw [hdk, Nat.succ_eq_add_one, htop1] at this; linarith
  have hteq : t = r.thk := by
    by_cases hp : post = []
    · have : k = pre.length + 1 := by
        have : rows.length = pre.length + 1 := by rw [hrows, hp]; simp
        omega
      rw [this, htop1] at hdk; linarith
    · exact le_antisymm (hle hp) hge
  have hpl : o.prof < σ.length := by
    by_contra h; rw [List.getElem?_eq_none (by omega)] at hprof; cases hprof
  unfold truncate at h
  simp only [not_le.2 hd, not_le.2 hV, if_false, hprof, htc, hthk, htr] at h
  have hsame : σ.set o.prof (.five (pre ++ [{ r with thk := t }] ++ post)) = σ := by
    have : pre ++ [{ r with thk := t }] ++ post = rows := by rw [hrows, hteq]; simp
    rw [this]
    apply List.ext_getElem?
    intro i
    rw [List.getElem?_set]
    split_ifs with h1
    · subst h1; exact hprof.symm
    · rfl
  rw [hsame] at h
  intro b hb
  -- the constructor on a new array of SI units does not touch old ones
  unfold mkProfile at h
  simp only [List.getElem?_append_right (Nat.le_refl _), Nat.sub_self, List.getElem?_cons_zero,
    bind, Except.bind, pure, Except.pure] at h
  split at h
  · cases h
  · simp only [reduceCtorEq, if_false, Bool.false_eq_true, false_and] at h
    split at h
    · cases h
    · cases h
      rw [List.getElem?_append_left (by simp; omega), List.getElem?_set]
      rw [if_neg (by omega), List.getElem?_append_left hb]

/-- Result of a truncation, for building witnesses. -/
def tryTrunc (σ : Store ℚ) (o : VsObj ℚ) (d v : ℚ) : VsObj ℚ × Store ℚ :=
  (truncate σ o (some d) (some v)).toOption.getD (o, [])

/-- C09 fails: truncating a two-layer profile (10 m + 10 m) at 5 m shortens the
original's first layer, so a later truncation at 15 m yields a 10 m deep profile
instead of a 15 m deep one. -/
theorem C09_original_violated :
    ∃ (σ0 σ1 σ2 σ3 : Store ℚ) (o o1 o2 o3 : VsObj ℚ),
      mkProfile [.five demoRows] 0 .one .si false 3 = .ok (o, σ0) ∧
      truncate σ0 o (some 5) (some 1000) = .ok (o1, σ1) ∧ σ1[o.prof]? ≠ σ0[o.prof]? ∧
      truncate σ1 o (some 15) (some 1000) = .ok (o2, σ2) ∧ o2.zMax = 10 ∧
      truncate σ0 o (some 15) (some 1000) = .ok (o3, σ3) ∧ o3.zMax = 15 := by
  refine ⟨demoStore1, (tryTrunc demoStore1 demoObj 5 1000).2,
    (tryTrunc (tryTrunc demoStore1 demoObj 5 1000).2 demoObj 15 1000).2, (tryTrunc demoStore1 demoObj 15 1000).2,
    demoObj, (tryTrunc demoStore1 demoObj 5 1000).1,
    (tryTrunc (tryTrunc demoStore1 demoObj 5 1000).2 demoObj 15 1000).1, (tryTrunc demoStore1 demoObj 15 1000).1,
    ?_, ?_, ?_, ?_, ?_, ?_, ?_⟩ <;> decide +kernel

/-! ## C73 isolation from the caller's array -/

/-- C73 when a half space was added: the object refers only to its own arrays, so later
writes to the caller's array have no effect on truncation depths.
Missing from the full property: objects built without an added half space, whose cached
thicknesses are a view of the caller's array (`C73_isolation_violated`). -/
theorem C73_isolation_partial (σ : Store K) (a : Nat) (c : Cell K) (ha : σ[a]? = some c)
    (du : DampUnit) (de : DensUnit) (f : Int) (o : VsObj K) (σ' : Store K)
    (hadd : c.thk.getLast? ≠ some 0)
    (h : mkProfile σ a du de true f = .ok (o, σ')) :
    o.prof = σ.length ∧ o.thkAddr = σ.length ∧ a < σ.length := by
  have hal : a < σ.length := by
    by_contra h; rw [List.getElem?_eq_none (by omega)] at ha; cases ha
  unfold mkProfile at h
  rw [ha] at h
  simp only [bind, Except.bind, pure, Except.pure] at h
  split at h
  · cases h
  split_ifs at h with h1 h2
  cases c with
  | two rows =>
    simp only [Cell.thk] at hadd
    simp only [hadd, ne_eq, not_false_eq_true, and_self, if_true] at h
    unfold finishObj at h
    simp only [bind, Except.bind, pure, Except.pure] at h
    split at h
    · cases h
    · rename_i v hv
      split at hv
      · cases hv
      · cases hv; cases h; exact ⟨rfl, rfl, hal⟩
  | five rows =>
    have hadd' : ((rows.map (convertRow du de)).map Row.thk).getLast? ≠ some 0 := by
      rw [List.map_map]; exact hadd
    simp only [hadd', ne_eq, not_false_eq_true, and_self, if_true] at h
    unfold finishObj at h
    simp only [bind, Except.bind, pure, Except.pure] at h
    split at h
    · cases h
    · rename_i v hv
      split at hv
      · cases hv
      · cases hv; cases h; exact ⟨by simp, by simp, hal⟩

/-- C73 fails without a half space: after the caller writes 1 into the first thickness of
their array, truncating the (separately stored) profile at 5 m gives a total of 14 m. -/
theorem C73_isolation_violated :
    ∃ (σ0 σ1 σ2 : Store ℚ) (o o2 : VsObj ℚ),
      mkProfile [.five demoRows] 0 .one .si false 3 = .ok (o, σ0) ∧
      σ1 = σ0.set 0 (.five [⟨1, 200, 1 / 20, 1800, 1⟩, ⟨10, 400, 1 / 50, 1900, 2⟩]) ∧
      σ1[o.prof]? = σ0[o.prof]? ∧
      truncate σ1 o (some 5) (some 1000) = .ok (o2, σ2) ∧ o2.zMax = 14 := by
  refine ⟨demoStore1, _, ((truncate (demoStore1.set 0 (.five [⟨1, 200, 1 / 20, 1800, 1⟩,
      ⟨10, 400, 1 / 50, 1900, 2⟩])) demoObj (some 5) (some 1000)).toOption.getD (demoObj, [])).2, demoObj,
    ((truncate (demoStore1.set 0 (.five [⟨1, 200, 1 / 20, 1800, 1⟩,
      ⟨10, 400, 1 / 50, 1900, 2⟩])) demoObj (some 5) (some 1000)).toOption.getD (demoObj, [])).1,
    by decide +kernel, rfl, rfl, by decide +kernel, by decide +kernel⟩

/-! ## C74 output -/

/-- C74 for an explicit list: `to_txt` accepts exactly lists of five specifiers.
Missing: the documented default, which is a tuple (`C74_to_txt_default_violated`). -/
theorem C74_to_txt_partial (n : Nat) : toTxtCheck (.list n) = .ok () ↔ n = 5 := by
  simp only [toTxtCheck]
  split_ifs with h
  · simp [h]
  · simp only [ne_eq, not_not] at h; simp [h]

/-- C74 fails for the default arguments: the default 5-tuple is rejected. -/
theorem C74_to_txt_default_violated : toTxtCheck (.tuple 5) = .error .typeError := rfl

/-- Unit outputs keep the travel times: slowness is the reciprocal velocity, and in km the
ratio thickness/velocity of every layer is unchanged. -/
theorem C74_unit_outputs (rows : List (Row K)) (h : ∀ r ∈ rows, 0 < r.vs) :
    List.Forall₂ (fun r s => s.thk = r.thk ∧ s.vs * r.vs = 1) rows (getSlowness rows) ∧
    List.Forall₂ (fun r s => s.thk / s.vs = r.thk / r.vs ∧ 1000 * s.thk = r.thk ∧ 1000 * s.vs = r.vs ∧
      s.xi = r.xi ∧ s.rho = r.rho ∧ s.mat = r.mat) rows (outputKm rows) := by
  constructor
  · induction rows with
    | nil => exact .nil
    | cons r rows ih =>
      have := (h r (by simp)).ne'
      exact .cons ⟨rfl, by simp only; field_simp⟩ (ih fun r hr => h r (by simp [hr]))
  · induction rows with
    | nil => exact .nil
    | cons r rows ih =>
      have := (h r (by simp)).ne'
      refine .cons ⟨?_, ?_, ?_, rfl, rfl, rfl⟩ (ih fun r hr => h r (by simp [hr])) <;> simp only <;> field_simp

example : ∀ r ∈ demoRows, 0 < r.vs := by simp [demoRows]

end Verif
