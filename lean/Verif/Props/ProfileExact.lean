import Verif.Props.VsProfile

/-!
Exact extent of C09–C11, C72 and C73: for which inputs the stated properties of `Vs_Profile` hold, and what happens
for all others.
-/

set_option linter.unusedSectionVars false
set_option linter.unusedVariables false

namespace Verif

open Spec

variable {K : Type} [Field K] [LinearOrder K] [IsStrictOrderedRing K] [FloorRing K]

/-! ## C10 -/

/-- C10, exactly: the caller's array is unchanged if it has two columns or the units are SI, and changed in all other
cases. -/
theorem C10_exact (σ : Store K) (a : Nat) (c : Cell K) (ha : σ[a]? = some c)
    (du : DampUnit) (de : DensUnit) (half : Bool) (f : Int) (hf : f = 1 ∨ f = 2 ∨ f = 3)
    (hck : checkVsFormat c = .ok ()) (hdu : du ≠ .bad) (hde : de ≠ .bad)
    (hlast : half = true → ∀ rows r, c = .five rows → rows.getLast? = some r → r.thk ≠ 0 → 0 < r.mat) :
    ∃ o σ', mkProfile σ a du de half f = .ok (o, σ') ∧
      (σ'[a]? = σ[a]? ↔ (∃ rows, c = .two rows) ∨ (du = .one ∧ de = .si)) := by
  have hv := expectedRows_valid5 c du de f hf hck
  obtain ⟨r, hr, hm⟩ := expectedRows_last c du de half f hf hck hlast
  obtain ⟨o, σ', rows, h1, h2, h3, h4, h5, h6, h7, h8, h9⟩ :=
    mkProfile_cases σ a c ha du de half f hck hdu hde hv r hr hm
  refine ⟨o, σ', h1, ?_⟩
  cases c with
  | two r => simp only at h6; rw [h6, ha]; simp
  | five inp =>
    simp only at h6
    rw [h6, ha]
    have hvi := (checkVsFormat_five_ok inp).1 hck
    constructor
    · intro h
      right
      have he : inp.map (convertRow du de) = inp := by
        simpa using h
      obtain ⟨q, rest, rfl⟩ := List.exists_cons_of_ne_nil hvi.nonempty
      have hq : convertRow du de q = q := by
        simpa using (List.cons.inj he).1
      obtain ⟨_, hx, hrho⟩ := hvi.pos q (by simp)
      refine ⟨?_, ?_⟩
      · cases du with
        | one => rfl
        | bad => exact absurd rfl hdu
        | pct =>
          have := congrArg Row.xi hq
          simp only [convertRow, if_true] at this
          linarith
      · cases de with
        | si => rfl
        | bad => exact absurd rfl hde
        | gcc =>
          have := congrArg Row.rho hq
          simp only [convertRow, if_true] at this
          linarith
    · rintro (⟨r, hc⟩ | ⟨rfl, rfl⟩)
      · cases hc
      · have : inp.map (convertRow .one .si) = inp := by
          conv_rhs => rw [← List.map_id inp]
          exact List.map_congr_left fun x _ => by simp [convertRow]
        simp only [this]

/-- C10 is violated by every five-column array with densities in g/cm³ or damping in percent: a second object built
from the same array has other densities or damping ratios than the first. -/
theorem C10_twice_violated (σ : Store K) (a : Nat) (inp : List (Row K)) (ha : σ[a]? = some (.five inp))
    (du : DampUnit) (de : DensUnit) (hck : checkVsFormat (.five inp) = .ok ()) (hdu : du ≠ .bad) (hde : de ≠ .bad)
    (hu : ¬ (du = .one ∧ de = .si)) :
    ∃ o σ' o2 σ2 rows rows2, mkProfile σ a du de false 3 = .ok (o, σ') ∧ mkProfile σ' a du de false 3 = .ok (o2, σ2) ∧
      σ2[o.prof]? = some (.five rows) ∧ σ2[o2.prof]? = some (.five rows2) ∧ rows2.length = rows.length ∧
      ∀ (i : Nat) p q, rows[i]? = some p → rows2[i]? = some q → RowConverted du de p q ∧ (q.xi ≠ p.xi ∨ q.rho ≠ p.rho) := by
  have hv := expectedRows_valid5 (.five inp) du de 3 (by simp) hck
  obtain ⟨r, hr, hm⟩ := expectedRows_last (.five inp) du de false 3 (by simp) hck (by simp)
  obtain ⟨o, σ', rows, h1, h2, h3, h4, h5, h6, h7, h8, h9⟩ :=
    mkProfile_cases σ a (.five inp) ha du de false 3 hck hdu hde hv r hr hm
  rw [if_neg (by simp), List.append_nil] at h9
  simp only [expectedRows] at h9
  simp only at h6
  rw [← h9] at h6
  have hck' : checkVsFormat (.five rows) = .ok () := (checkVsFormat_five_ok rows).2 h2.valid
  have hv' := expectedRows_valid5 (.five rows) du de 3 (by simp) hck'
  obtain ⟨r', hr', hm'⟩ := expectedRows_last (.five rows) du de false 3 (by simp) hck' (by simp)
  obtain ⟨o2, σ2, rows2, g1, g2, g3, g4, g5, g6, g7, g8, g9⟩ :=
    mkProfile_cases σ' a (.five rows) h6 du de false 3 hck' hdu hde hv' r' hr' hm'
  rw [if_neg (by simp), List.append_nil] at g9
  simp only [expectedRows] at g9
  have hal : a < σ.length := by
    by_contra h; rw [List.getElem?_eq_none (by omega)] at ha; cases ha
  refine ⟨o, σ', o2, σ2, rows, rows2, h1, g1, ?_, g5, by rw [g9]; simp, ?_⟩
  · rw [g7 o.prof (by omega) (by omega), h5]
  · intro i p q hp hq
    rw [g9, List.getElem?_map, hp] at hq
    simp only [Option.map_some, Option.some.injEq] at hq
    subst hq
    obtain ⟨_, hx, hrho⟩ := h2.valid.pos p (List.mem_of_getElem? hp)
    refine ⟨⟨rfl, rfl, rfl, ?_, ?_, ?_, ?_⟩, ?_⟩
    · rintro rfl; simp [convertRow]
    · rintro rfl; simp only [convertRow, if_true]; ring
    · rintro rfl; simp [convertRow]
    · rintro rfl; simp only [convertRow, if_true]; ring
    · by_contra hcon
      rw [not_or, not_not, not_not] at hcon
      obtain ⟨e1, e2⟩ := hcon
      apply hu
      constructor
      · cases du with
        | one => rfl
        | bad => exact absurd rfl hdu
        | pct => simp only [convertRow, if_true] at e1; linarith
      · cases de with
        | si => rfl
        | bad => exact absurd rfl hde
        | gcc => simp only [convertRow, if_true] at e2; linarith

example : checkVsFormat (.five ([⟨10, 200, 5, 18 / 10, 1⟩, ⟨20, 400, 2, 2, 2⟩] : List (Row ℚ))) = .ok () := by decide +kernel

/-! ## C11 -/

/-- C11 is violated by every five-column array that ends in a layer of positive thickness with material number 0 if a
half space is added: the object is made, with a profile that the format check rejects.  (All other arrays:
`C11_construct_partial`.) -/
theorem C11_halfspace_all_violated (σ : Store K) (a : Nat) (inp : List (Row K)) (ha : σ[a]? = some (.five inp))
    (du : DampUnit) (de : DensUnit) (f : Int) (hck : checkVsFormat (.five inp) = .ok ()) (hdu : du ≠ .bad) (hde : de ≠ .bad)
    (r : Row K) (hr : inp.getLast? = some r) (ht : r.thk ≠ 0) (hm : r.mat = 0) :
    ∃ o σ' rows, mkProfile σ a du de true f = .ok (o, σ') ∧ σ'[o.prof]? = some (.five rows) ∧
      rows.length = inp.length + 1 ∧ checkVsFormat (.five rows) = .error .valueError := by
  have hv : Valid5 (inp.map (convertRow du de)) := expectedRows_valid5 (.five inp) du de 3 (by simp) hck
  have hlast : (inp.map (convertRow du de)).getLast? = some (convertRow du de r) := by
    rw [List.getLast?_map, hr]; rfl
  have hcond : ((inp.map (convertRow du de)).map Row.thk).getLast? ≠ some 0 := by
    rw [List.getLast?_map, hlast]
    simpa [convertRow] using ht
  set full := inp.map (convertRow du de) with hfull
  set full' := full ++ [halfspaceOf (convertRow du de r)] with hfull'
  have hmem : convertRow du de r ∈ full := List.mem_of_getLast? hlast
  have hvalid : Valid (full'.map Row.tv) := by
    have hthk : ∀ x ∈ full, 0 < x.thk := by
      intro x hx
      rw [← List.dropLast_append_getLast hv.nonempty] at hx
      rcases List.mem_append.1 hx with h | h
      · exact hv.thk_pos x h
      · simp only [List.mem_singleton] at h
        subst h
        have hg : full.getLast hv.nonempty = convertRow du de r := by
          rw [List.getLast?_eq_getLast_of_ne_nil hv.nonempty] at hlast; exact Option.some.inj hlast
        have := hv.thk_nonneg _ hmem
        rw [hg]
        exact lt_of_le_of_ne this (by simpa [convertRow] using ht.symm)
    refine ⟨by simp [hfull'], ?_, ?_, ?_⟩
    · intro p hp
      rw [hfull', List.map_append, List.map_singleton, List.dropLast_concat] at hp
      obtain ⟨x, hx, rfl⟩ := List.mem_map.1 hp
      exact hthk x hx
    · intro p hp
      obtain ⟨x, hx, rfl⟩ := List.mem_map.1 hp
      rcases List.mem_append.1 hx with h | h
      · exact (hthk x h).le
      · simp only [List.mem_singleton] at h; subst h; simp [Row.tv, halfspaceOf]
    · intro p hp
      obtain ⟨x, hx, rfl⟩ := List.mem_map.1 hp
      rcases List.mem_append.1 hx with h | h
      · exact (hv.pos x h).1
      · simp only [List.mem_singleton] at h; subst h; exact (hv.pos _ hmem).1
  have hnew : full.getLast?.map halfspaceOf = some (halfspaceOf (convertRow du de r)) := by rw [hlast]; rfl
  refine ⟨objOf full' (σ.set a (.five full)).length (σ.set a (.five full)).length (full'.map Row.thk),
    σ.set a (.five full) ++ [.five full'], full', ?_, by simp [objOf], by simp [hfull', hfull], ?_⟩
  · simp only [mkProfile, ha, hck, bind, Except.bind, hdu, hde, if_false, ← hfull, hnew, Option.toList_some, objOf, pure, Except.pure]
    rw [if_pos ⟨trivial, hcond⟩]
    simp only [← hfull', finishObj_ok hvalid]
  · have hnv : ¬ Valid5 full' := by
      intro h
      have := h.mat_pos (convertRow du de r) (by rw [hfull', List.dropLast_concat]; exact hmem)
      simp [convertRow, hm] at this
    have hne : checkVsFormat (.five full') ≠ .ok () := fun h => hnv ((checkVsFormat_five_ok _).1 h)
    have hne' : full' ≠ [] := by simp [hfull']
    revert hne
    simp only [checkVsFormat, bind, Except.bind]
    have hthkvs : checkThkVs (full'.map Row.thk) (full'.map Row.vs) = .ok () := by
      have := (checkVsFormat_two_ok (full'.map Row.tv)).2 hvalid
      simpa [checkVsFormat, List.map_map, Function.comp_def, Row.tv] using this
    rw [hthkvs]
    simp only
    split_ifs with h1 h2 h3
    · intro _; rfl
    · intro _; rfl
    · intro _; rfl
    · rw [List.getLast?_eq_getLast_of_ne_nil hne']
      simp only
      split_ifs
      · intro _; rfl
      · intro h; exact absurd rfl h

example : checkVsFormat (.five ([⟨10, 200, 1 / 20, 1800, 1⟩, ⟨10, 200, 1 / 20, 1800, 0⟩] : List (Row ℚ))) = .ok () := by
  decide +kernel

/-- C11/C72 are violated by every undocumented `xi_rho_formula` and every two-column array: no error, zero damping in
all layers, which the format check rejects. -/
theorem C11_formula_all_violated (σ : Store K) (a : Nat) (inp : List (K × K)) (ha : σ[a]? = some (.two inp))
    (du : DampUnit) (de : DensUnit) (f : Int) (hf : f ≠ 1 ∧ f ≠ 2 ∧ f ≠ 3)
    (hck : checkVsFormat (.two inp) = .ok ()) (hdu : du ≠ .bad) (hde : de ≠ .bad) :
    ∃ o σ' rows, mkProfile σ a du de false f = .ok (o, σ') ∧ σ'[o.prof]? = some (.five rows) ∧ rows.length = inp.length ∧
      (∀ r ∈ rows, r.xi = 0) ∧ checkVsFormat (.five rows) = .error .valueError := by
  have hvi := (checkVsFormat_two_ok inp).1 hck
  have htv : (expandTwo inp f).map Row.tv = inp := expandTwo_map_tv inp f hvi.nonempty
  have hlen : (expandTwo inp f).length = inp.length := by
    conv_rhs => rw [← htv]
    simp
  have hxi : ∀ r ∈ expandTwo inp f, r.xi = 0 := by
    intro r hr
    obtain ⟨q, _, m, _, rfl⟩ := zipWith_mem _ _ _ _ hr
    simp [xiOf, hf]
  refine ⟨objOf (expandTwo inp f) σ.length a (inp.map Prod.fst), σ ++ [.five (expandTwo inp f)], expandTwo inp f,
    ?_, by simp [objOf], hlen, hxi, ?_⟩
  · simp only [mkProfile, ha, hck, bind, Except.bind, hdu, hde, if_false, pure, Except.pure, Bool.false_eq_true, false_and]
    rw [finishObj_ok (by rw [htv]; exact hvi)]
    rfl
  · have hthkvs : checkThkVs ((expandTwo inp f).map Row.thk) ((expandTwo inp f).map Row.vs) = .ok () := by
      have h1 : (expandTwo inp f).map Row.thk = inp.map Prod.fst := by rw [← map_thk_of_tv, htv]
      have h2 : (expandTwo inp f).map Row.vs = inp.map Prod.snd := by
        conv_rhs => rw [← htv, List.map_map]
        rfl
      rw [h1, h2]; exact hck
    simp only [checkVsFormat, bind, Except.bind, hthkvs]
    rw [if_pos]
    obtain ⟨r, rest, he⟩ := List.exists_cons_of_ne_nil (l := expandTwo inp f) (by
      intro h; rw [h] at hlen; exact hvi.nonempty (List.length_eq_zero_iff.1 hlen.symm))
    have := hxi r (by rw [he]; simp)
    rw [he]
    simp [this]

example : checkVsFormat (.two ([(10, 200), (5, 300)] : List (ℚ × ℚ))) = .ok () := by decide +kernel

/-! ## C72 -/

/-- The documented correlations (docstring of `get_xi_rho`): damping `x` for velocity `v`. -/
inductive Spec.DampingRule : Int → K → K → Prop
  | soft {v : K} : v < 250 → DampingRule 1 v (5 / 100)
  | medium {v : K} : 250 ≤ v → v < 750 → DampingRule 1 v (2 / 100)
  | stiff {v : K} : 750 ≤ v → DampingRule 1 v (1 / 100)
  | taborda {v w Q x : K} : v = 1000 * w →
      Q = 105 / 10 - 16 * w + 153 * w ^ 2 - 103 * w ^ 3 + 347 / 10 * w ^ 4 - 529 / 100 * w ^ 5 + 31 / 100 * w ^ 6 →
      x * (2 * Q) = 1 → DampingRule 2 v x
  | slow {v x : K} : v ≤ 1000 → x * (2 * (6 / 100 * v)) = 1 → DampingRule 3 v x
  | middle {v x : K} : 1000 < v → v ≤ 2000 → x * (2 * (14 / 100 * v)) = 1 → DampingRule 3 v x
  | fast {v x : K} : 2000 < v → x * (2 * (16 / 100 * v)) = 1 → DampingRule 3 v x

/-- The documented densities. -/
inductive Spec.DensityRule : K → K → Prop
  | soft {v : K} : v < 200 → DensityRule v 1600
  | medium {v : K} : 200 ≤ v → v < 800 → DensityRule v 1800
  | stiff {v : K} : 800 ≤ v → DensityRule v 2000

/-- C72: damping and density are those of the documented rules, for every positive velocity. -/
theorem C72_documented (f : Int) (hf : f = 1 ∨ f = 2 ∨ f = 3) (vs : List K) (h : ∀ v ∈ vs, 0 < v) :
    List.Forall₂ (DampingRule f) vs (getXiRho vs f).1 ∧ List.Forall₂ DensityRule vs (getXiRho vs f).2 := by
  constructor
  · simp only [getXiRho]
    rw [List.forall₂_map_right_iff]
    apply List.forall₂_same.2
    intro v hv
    have hp := h v hv
    have hx := xiOf_pos f hf v hp
    rcases hf with rfl | rfl | rfl
    · simp only [xiOf, if_true]
      split_ifs with h1 h2
      · exact .soft h1
      · exact .medium (not_lt.1 h1) h2
      · exact .stiff (not_lt.1 h2)
    · refine .taborda (w := v / 1000) (by ring) rfl ?_
      have hq := qs2_pos (v / 1000)
      simp only [xiOf, show (2 : Int) ≠ 1 by decide, if_false, if_true]
      rw [if_neg hq.ne']
      exact one_div_mul_cancel (by positivity)
    · simp only [xiOf, show (3 : Int) ≠ 1 by decide, show (3 : Int) ≠ 2 by decide, if_false, if_true]
      split_ifs with h1 h2
      · exact .slow h1 (by field_simp)
      · exact .middle (not_le.1 h1) h2 (by field_simp)
      · exact .fast (not_le.1 h2) (by field_simp)
  · simp only [getXiRho]
    rw [List.forall₂_map_right_iff]
    apply List.forall₂_same.2
    intro v hv
    unfold rhoOf
    split_ifs with h1 h2
    · exact .soft h1
    · exact .medium (not_lt.1 h1) h2
    · exact .stiff (not_lt.1 h2)

example : ∀ v ∈ [(150 : ℚ), 400, 900, 2500], 0 < v := by simp

/-! ## C09 and C73 -/

/-- A truncation whose loop splits the profile at row `r`, which becomes `t` thick: the new object, its profile, and
the rows left in the original. -/
theorem truncate_of_loop (σ : Store K) (o : VsObj K) (rows : List (Row K)) (tc : Cell K) (hprof : σ[o.prof]? = some (.five rows))
    (htc : σ[o.thkAddr]? = some tc) (hv : Valid5 rows) (depth Vs t : K) (hd : 0 < depth) (hV : 0 < Vs) (pre post : List (Row K))
    (r : Row K) (hrows : rows = pre ++ r :: post) (ht : 0 < t)
    (htr : truncLoop depth 0 tc.thk rows = (pre ++ [{ r with thk := t }], post)) :
    ∃ o' σ' m, truncate σ o (some depth) (some Vs) = .ok (o', σ') ∧ 0 < m ∧ (r.mat ≠ 0 → m = r.mat) ∧
      σ'[o'.prof]? = some (.five (pre ++ [{ r with thk := t, mat := m }] ++ [bedrockRow Vs])) ∧
      o'.zMax = (pre.map Row.thk).sum + t ∧
      σ'[o.prof]? = some (.five (pre ++ [{ r with thk := t }] ++ post)) ∧
      (∀ b, b < σ.length → b ≠ o.prof → σ'[b]? = σ[b]?) ∧
      fixMaterial (pre ++ [{ r with thk := t }]) = pre ++ [{ r with thk := t, mat := m }] := by
  have hpl : o.prof < σ.length := by
    by_contra h; rw [List.getElem?_eq_none (by omega)] at hprof; cases hprof
  have hpre_mem : ∀ s ∈ pre, s ∈ rows.dropLast := by
    intro s hs
    rw [hrows, List.dropLast_append_cons]; simp [hs]
  have hr_mem : r ∈ rows := by rw [hrows]; simp
  have hpre_rows : ∀ s ∈ pre, s ∈ rows := fun s hs => List.mem_of_mem_dropLast (hpre_mem s hs)
  obtain ⟨m, hfix, hm0, hmint, hmr, hmnew⟩ := fixMaterial_append pre { r with thk := t } (by
    intro s hs
    rcases List.mem_append.1 hs with h | h
    · exact hv.mat_int s (hpre_rows s h)
    · simp only [List.mem_singleton] at h; subst h; exact hv.mat_int r hr_mem) (hv.mat_nonneg r hr_mem)
  simp only at hmr hmnew hfix
  set newRows : List (Row K) := pre ++ [{ r with thk := t, mat := m }] ++ [bedrockRow Vs] with hnew
  have hval : Valid5 newRows := by
    refine ⟨by simp [hnew], ?_, ?_, ?_, ?_, ?_, ?_⟩
    · intro s hs
      rw [hnew, List.dropLast_concat] at hs
      rcases List.mem_append.1 hs with h | h
      · exact hv.thk_pos s (hpre_mem s h)
      · simp only [List.mem_singleton] at h; subst h; exact ht
    · intro s hs
      rcases List.mem_append.1 hs with h | h
      · rcases List.mem_append.1 h with h | h
        · exact hv.thk_nonneg s (hpre_rows s h)
        · simp only [List.mem_singleton] at h; subst h; exact ht.le
      · simp only [List.mem_singleton] at h; subst h; simp [bedrockRow]
    · intro s hs
      rcases List.mem_append.1 hs with h | h
      · rcases List.mem_append.1 h with h | h
        · exact hv.pos s (hpre_rows s h)
        · simp only [List.mem_singleton] at h; subst h; exact hv.pos r hr_mem
      · simp only [List.mem_singleton] at h; subst h
        exact ⟨hV, xiOf_pos 3 (by simp) Vs hV, rhoOf_pos Vs⟩
    · intro s hs
      rcases List.mem_append.1 hs with h | h
      · rcases List.mem_append.1 h with h | h
        · exact hv.mat_int s (hpre_rows s h)
        · simp only [List.mem_singleton] at h; subst h; exact hmint
      · simp only [List.mem_singleton] at h; subst h; exact ⟨0, by simp [bedrockRow]⟩
    · intro s hs
      rw [hnew, List.dropLast_concat] at hs
      rcases List.mem_append.1 hs with h | h
      · exact hv.mat_pos s (hpre_mem s h)
      · simp only [List.mem_singleton] at h; subst h; exact hm0
    · intro s hs
      rcases List.mem_append.1 hs with h | h
      · rcases List.mem_append.1 h with h | h
        · exact hv.mat_nonneg s (hpre_rows s h)
        · simp only [List.mem_singleton] at h; subst h; exact hm0.le
      · simp only [List.mem_singleton] at h; subst h; simp [bedrockRow]
  have hconv : newRows.map (convertRow .one .si) = newRows := by
    conv_rhs => rw [← List.map_id newRows]
    apply List.map_congr_left
    intro x _; simp [convertRow]
  set σ1 := σ.set o.prof (.five (pre ++ [{ r with thk := t }] ++ post)) with hσ1
  have hlen1 : σ1.length = σ.length := by simp [hσ1]
  have hargs : (σ1 ++ [.five newRows])[σ1.length]? = some (.five newRows) := by simp
  have hexp : expectedRows (.five newRows) .one .si 3 = newRows := hconv
  have hv' : Valid5 (expectedRows (.five newRows) .one .si 3) := by rw [hexp]; exact hval
  obtain ⟨o', σ', rows', h1, h2, h3, h4, h5, h6, h7, h8, h9⟩ :=
    mkProfile_cases (σ1 ++ [.five newRows]) σ1.length (.five newRows) hargs .one .si false 3
      ((checkVsFormat_five_ok _).2 hval) (by simp) (by simp) hv' (bedrockRow Vs) (by rw [hexp]; simp [hnew]) (by simp)
  rw [if_neg (by simp), List.append_nil, hexp] at h9
  subst h9
  refine ⟨o', σ', m, ?_, hm0, hmr, h5, ?_, ?_, ?_, hfix⟩
  · unfold truncate
    simp only [not_le.2 hd, not_le.2 hV, if_false, hprof, htc, htr, hfix]
    exact h1
  · rw [h2.zmax, hnew]
    simp only [List.map_append, List.sum_append, List.map_cons, List.map_nil, List.sum_cons, List.sum_nil,
      bedrockRow, add_zero]
  · rw [h7 o.prof (by omega) (by simp; omega), List.getElem?_append_left (by omega), hσ1, List.getElem?_set_self hpl]
  · intro b hb hbo
    rw [h7 b (by omega) (by simp; omega), List.getElem?_append_left (by omega), hσ1, List.getElem?_set_ne (Ne.symm hbo)]

/-- C09, exactly: truncating leaves the original profile unchanged if the truncation depth is the bottom of one of its
layers, and changes it for every other depth, namely the thickness of one of its layers. -/
theorem C09_exact (σ : Store K) (o : VsObj K) (rows : List (Row K)) (hc : Consistent σ o rows) (hv : Valid5 rows)
    (depth Vs : K) (hd : 0 < depth) (hV : 0 < Vs) :
    ∃ o' σ' rows' t, truncate σ o (some depth) (some Vs) = .ok (o', σ') ∧ σ'[o.prof]? = some (.five rows') ∧
      (rows' = rows ↔ ∃ k ≤ rows.length, topDepth (rows.map Row.thk) k = depth) ∧
      (∃ k, ∀ (i : Nat) r, rows[i]? = some r → rows'[i]? = some (if i = k then { r with thk := t } else r)) := by
  obtain ⟨hprof, tc, htc, hthk⟩ := hc
  obtain ⟨pre, r, post, t, hrows, htr, ht, hsum, hle⟩ :=
    truncLoop_spec depth 0 rows hv.nonempty hv.thk_pos hv.thk_nonneg hd
  rw [sub_zero] at hsum
  rw [← hthk] at htr
  obtain ⟨o', σ', m, h1, _, _, _, _, h6, _⟩ :=
    truncate_of_loop σ o rows tc hprof htc hv depth Vs t hd hV pre post r hrows ht htr
  have htop : topDepth (rows.map Row.thk) pre.length = (pre.map Row.thk).sum := by
    rw [hrows]; simp [topDepth, List.take_left']
  have htop1 : topDepth (rows.map Row.thk) (pre.length + 1) = (pre.map Row.thk).sum + r.thk := by
    rw [topDepth_succ, htop, hrows]; simp
  refine ⟨o', σ', _, t, h1, h6, ⟨?_, ?_⟩, pre.length, ?_⟩
  · intro he
    rw [hrows] at he
    simp only [List.append_assoc, List.singleton_append] at he
    have h2 := List.append_cancel_left he
    have h3 : ({ r with thk := t } : Row K) = r := (List.cons.inj h2).1
    have h4 : t = r.thk := congrArg Row.thk h3
    refine ⟨pre.length + 1, by rw [hrows]; simp, ?_⟩
    rw [htop1, ← h4, hsum]
  · rintro ⟨k, hk, hdk⟩
    have hun := C09_original_partial σ o rows ⟨hprof, tc, htc, hthk⟩ hv depth Vs hd hV k hk hdk o' σ' h1 o.prof (by
      by_contra h; rw [List.getElem?_eq_none (by omega)] at hprof; cases hprof)
    rw [h6, hprof] at hun
    simpa using hun
  · intro i q hq
    rw [hrows] at hq
    rcases Nat.lt_trichotomy i pre.length with h | h | h
    · rw [if_neg (by omega)]
      rw [List.getElem?_append_left h] at hq
      rw [List.append_assoc, List.getElem?_append_left h, hq]
    · subst h
      rw [if_pos rfl]
      simp only [List.getElem?_append_right (Nat.le_refl _), Nat.sub_self, List.getElem?_cons_zero, Option.some.injEq] at hq
      subst hq
      simp
    · rw [if_neg (by omega)]
      rw [List.getElem?_append_right h.le] at hq
      obtain ⟨j, hj⟩ : ∃ j, i - pre.length = j + 1 := ⟨i - pre.length - 1, by omega⟩
      rw [hj, List.getElem?_cons_succ] at hq
      rw [List.append_assoc, List.getElem?_append_right h.le, hj, List.singleton_append, List.getElem?_cons_succ, hq]

example : Consistent demoStore1 demoObj demoRows ∧ Valid5 demoRows := ⟨⟨rfl, .five demoRows, rfl, rfl⟩, demoRows_valid⟩

/-- Where a constructed object finds its arrays: its profile is a new array; its thicknesses are read from the
caller's array unless a half space was added. -/
theorem mkProfile_addresses (σ : Store K) (a : Nat) (c : Cell K) (ha : σ[a]? = some c) (du : DampUnit) (de : DensUnit)
    (half : Bool) (f : Int) (o : VsObj K) (σ' : Store K) (h : mkProfile σ a du de half f = .ok (o, σ')) :
    o.prof = σ.length ∧ a < σ.length ∧
    o.thkAddr = if half = true ∧ c.thk.getLast? ≠ some 0 then σ.length else a := by
  have hal : a < σ.length := by
    by_contra h; rw [List.getElem?_eq_none (by omega)] at ha; cases ha
  by_cases hh : half = true ∧ c.thk.getLast? ≠ some 0
  · obtain ⟨rfl, hadd⟩ := hh
    rw [if_pos ⟨rfl, hadd⟩]
    obtain ⟨h1, h2, h3⟩ := C73_isolation_partial σ a c ha du de f o σ' hadd h
    exact ⟨h1, h3, h2⟩
  · rw [if_neg hh]
    unfold mkProfile at h
    rw [ha] at h
    simp only [bind, Except.bind, pure, Except.pure] at h
    split at h
    · cases h
    split_ifs at h with h1 h2
    cases c with
    | two rows =>
      simp only [Cell.thk] at hh
      simp only [if_neg hh] at h
      unfold finishObj at h
      simp only [bind, Except.bind, pure, Except.pure] at h
      split at h
      · cases h
      · rename_i v hv
        split at hv
        · cases hv
        · cases hv; cases h; exact ⟨rfl, hal, rfl⟩
    | five rows =>
      have hadd' : ¬ (half = true ∧ ((rows.map (convertRow du de)).map Row.thk).getLast? ≠ some 0) := by
        rw [List.map_map]; exact hh
      simp only [if_neg hadd'] at h
      unfold finishObj at h
      simp only [bind, Except.bind, pure, Except.pure] at h
      split at h
      · cases h
      · rename_i v hv
        split at hv
        · cases hv
        · cases hv; cases h; exact ⟨by simp, hal, rfl⟩

/-- C73 when a half space was added: whatever the caller writes into their array afterwards, truncating gives the same
object and the same profile.
Missing from the full property: objects built without an added half space (`C73_wrong_depth_violated`). -/
theorem C73_later_writes_partial (σ : Store K) (a : Nat) (c c' : Cell K) (ha : σ[a]? = some c) (du : DampUnit) (de : DensUnit)
    (f : Int) (o : VsObj K) (σ' : Store K) (hadd : c.thk.getLast? ≠ some 0) (h : mkProfile σ a du de true f = .ok (o, σ'))
    (rows : List (Row K)) (hrows : σ'[o.prof]? = some (.five rows)) (hv : Valid5 rows) (depth Vs : K) (hd : 0 < depth) (hV : 0 < Vs) :
    (σ'.set a c')[o.prof]? = some (.five rows) ∧
    ∃ o1 σ1 o2 σ2 new, truncate σ' o (some depth) (some Vs) = .ok (o1, σ1) ∧
      truncate (σ'.set a c') o (some depth) (some Vs) = .ok (o2, σ2) ∧ o1.zMax = depth ∧ o2.zMax = depth ∧
      σ1[o1.prof]? = some (.five new) ∧ σ2[o2.prof]? = some (.five new) := by
  obtain ⟨h1, h2, h3⟩ := mkProfile_addresses σ a c ha du de true f o σ' h
  rw [if_pos ⟨rfl, hadd⟩] at h3
  have hne : a ≠ o.prof := by omega
  have hprof' : (σ'.set a c')[o.prof]? = some (.five rows) := by rw [List.getElem?_set_ne hne, hrows]
  have hthk : σ'[o.thkAddr]? = some (.five rows) := by rw [h3, ← h1, hrows]
  have hthk' : (σ'.set a c')[o.thkAddr]? = some (.five rows) := by rw [h3, ← h1, hprof']
  refine ⟨hprof', ?_⟩
  obtain ⟨pre, r, post, t, hr, htr, ht, hsum, hle⟩ :=
    truncLoop_spec depth 0 rows hv.nonempty hv.thk_pos hv.thk_nonneg hd
  rw [sub_zero] at hsum
  have htr' : truncLoop depth 0 (Cell.five rows).thk rows = (pre ++ [{ r with thk := t }], post) := htr
  have hfun : ∀ τ : Store K, τ[o.prof]? = some (.five rows) → τ[o.thkAddr]? = some (.five rows) →
      ∃ o' τ', truncate τ o (some depth) (some Vs) = .ok (o', τ') ∧ o'.zMax = depth ∧
        τ'[o'.prof]? = some (.five (fixMaterial (pre ++ [{ r with thk := t }]) ++ [bedrockRow Vs])) := by
    intro τ e1 e2
    obtain ⟨o', τ', m, g1, g2, g3, g4, g5, g6, g7, g8⟩ :=
      truncate_of_loop τ o rows (.five rows) e1 e2 hv depth Vs t hd hV pre post r hr ht htr'
    exact ⟨o', τ', g1, by rw [g5, hsum], by rw [g8, g4]⟩
  obtain ⟨o1, σ1, a1, a2, a3⟩ := hfun σ' hrows hthk
  obtain ⟨o2, σ2, b1, b2, b3⟩ := hfun _ hprof' hthk'
  exact ⟨o1, σ1, o2, σ2, _, a1, b1, a2, b2, a3, b3⟩

/-- C73 is violated by every object built without an added half space: if the caller afterwards changes the first
thickness in their array from `t₀` to `t`, truncating at any depth below `t` gives a profile that is `t₀ - t` too deep,
although the stored profile is unchanged. -/
theorem C73_wrong_depth_violated (σ : Store K) (a : Nat) (inp : List (Row K)) (ha : σ[a]? = some (.five inp)) (half : Bool)
    (o : VsObj K) (σ' : Store K) (hck : checkVsFormat (.five inp) = .ok ())
    (hadd : half = false ∨ (inp.map Row.thk).getLast? = some 0)
    (h : mkProfile σ a .one .si half 3 = .ok (o, σ')) (r₀ : Row K) (rest : List (Row K)) (hin : inp = r₀ :: rest) (t depth Vs : K)
    (htd : t < depth) (hd : 0 < depth) (hV : 0 < Vs) :
    (σ'.set a (.five ({ r₀ with thk := t } :: rest)))[o.prof]? = some (.five inp) ∧
    ∃ o1 σ1, truncate (σ'.set a (.five ({ r₀ with thk := t } :: rest))) o (some depth) (some Vs) = .ok (o1, σ1) ∧
      o1.zMax = depth + (r₀.thk - t) := by
  have hnh : ¬ (half = true ∧ (Cell.five inp).thk.getLast? ≠ some 0) := by
    simp only [Cell.thk]
    rcases hadd with rfl | h
    · simp
    · simp [h]
  obtain ⟨h1, h2, h3⟩ := mkProfile_addresses σ a _ ha .one .si half 3 o σ' h
  rw [if_neg hnh] at h3
  have hv := (checkVsFormat_five_ok inp).1 hck
  have hexp : expectedRows (.five inp) .one .si 3 = inp := by
    simp only [expectedRows]
    conv_rhs => rw [← List.map_id inp]
    exact List.map_congr_left fun x _ => by simp [convertRow]
  have hlast : inp.getLast? = some (inp.getLast hv.nonempty) := List.getLast?_eq_getLast_of_ne_nil hv.nonempty
  have hthk0 : half = true → (inp.getLast hv.nonempty).thk = 0 := by
    intro hh
    rcases hadd with h' | h'
    · rw [hh] at h'; cases h'
    · rw [List.getLast?_map, hlast] at h'; simpa using h'
  obtain ⟨o', σ'', rows, g1, g2, g3, g4, g5, g6, g7, g8, g9⟩ := mkProfile_cases σ a (.five inp) ha .one .si half 3 hck
    (by simp) (by simp) (by rw [hexp]; exact hv) _ (by rw [hexp]; exact hlast) (fun hh hn => absurd (hthk0 hh) hn)
  rw [g1] at h
  cases h
  rw [if_neg (by rintro ⟨hh, hn⟩; exact hn (hthk0 hh)), List.append_nil, hexp] at g9
  subst g9
  have hne : a ≠ o.prof := by omega
  have hp : (σ'.set a (.five ({ r₀ with thk := t } :: rest)))[o.prof]? = some (.five rows) := by
    rw [List.getElem?_set_ne hne, g5]
  have hal' : a < σ'.length := by omega
  have htk : (σ'.set a (.five ({ r₀ with thk := t } :: rest)))[o.thkAddr]? = some (.five ({ r₀ with thk := t } :: rest)) := by
    rw [h3, List.getElem?_set_self hal']
  refine ⟨hp, ?_⟩
  cases rest with
  | nil =>
    have hloop : truncLoop depth 0 (Cell.five [{ r₀ with thk := t }]).thk rows = ([] ++ [{ r₀ with thk := depth + r₀.thk - t }], []) := by
      rw [hin]
      simp only [Cell.thk, List.map_cons, List.map_nil, truncLoop, zero_add, if_neg (not_le.2 htd), List.nil_append]
    obtain ⟨o1, σ1, m, k1, _, _, _, k5, _⟩ := truncate_of_loop _ o rows _ hp htk hv depth Vs _ hd hV [] [] r₀ (by simp [hin])
      (by have := hv.thk_nonneg r₀ (by rw [hin]; simp); linarith) hloop
    exact ⟨o1, σ1, k1, by rw [k5]; simp; ring⟩
  | cons r₁ rest =>
    obtain ⟨pre, r, post, u, hr, htr, hu, hsum, hle⟩ := truncLoop_spec depth t (r₁ :: rest) (by simp)
      (fun x hx => hv.thk_pos x (by rw [hin, List.dropLast_cons_cons]; simp [hx]))
      (fun x hx => hv.thk_nonneg x (by rw [hin]; exact List.mem_cons_of_mem _ hx)) htd
    have hloop : truncLoop depth 0 (Cell.five ({ r₀ with thk := t } :: r₁ :: rest)).thk rows =
        ((r₀ :: pre) ++ [{ r with thk := u }], post) := by
      rw [hin]
      simp only [List.map_cons] at htr
      simp only [Cell.thk, List.map_cons, truncLoop, zero_add, if_neg (not_le.2 htd), htr, List.cons_append]
    obtain ⟨o1, σ1, m, k1, _, _, _, k5, _⟩ := truncate_of_loop _ o rows _ hp htk hv depth Vs _ hd hV (r₀ :: pre) post r
      (by rw [hin, hr]; rfl) hu hloop
    refine ⟨o1, σ1, k1, ?_⟩
    rw [k5]
    simp only [List.map_cons, List.sum_cons]
    linarith

example : (mkProfile [.five demoRows] 0 .one .si false 3).toOption.isSome = true ∧ checkVsFormat (.five demoRows) = .ok () := by
  decide +kernel

end Verif
