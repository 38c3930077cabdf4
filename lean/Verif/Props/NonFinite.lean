import Verif.Model.NonFinite
import Verif.Proof.VsProfile

/-!
C138: NaN and infinite elements are refused at construction.
-/

set_option linter.unusedSectionVars false
set_option linter.unusedVariables false

namespace Verif

namespace Spec

/-- A finite number. -/
def FinElem {K : Type} (e : Ext K) : Prop := ∃ x : K, e = .fin x

/-- All rows have the stated number of columns. -/
def RectBody {K : Type} : XBody K → Prop
  | .mat c rows => ∀ r ∈ rows, r.length = c
  | _ => True

/-- A two-column record as an array. -/
def ofRec {K : Type} (y : Rec K) : XBody K := .mat 2 (y.map fun p => [.fin p.1, .fin p.2])

/-- A profile as an array. -/
def ofCell {K : Type} : Cell K → XBody K
  | .two rows => ofRec rows
  | .five rows => .mat 5 (rows.map fun r => [.fin r.thk, .fin r.vs, .fin r.xi, .fin r.rho, .fin r.mat])

/-- A unit and a type of motion which are accepted together. -/
def UnitOk (u : MUnit) (t : MType) : Prop := u ≠ .bad ∧ t ≠ .bad ∧ (u = .g ∨ u = .gal → t = .accel)

end Spec

open Spec (FinElem RectBody ofRec ofCell UnitOk)

section
variable {K : Type} [Field K] [LinearOrder K]

theorem isFin_iff (e : Ext K) : e.isFin = true ↔ FinElem e := by
  cases e <;> simp [Ext.isFin, FinElem]

theorem all_fin (l : List (Ext K)) : l.all Ext.isFin = true ↔ ∀ e ∈ l, FinElem e := by
  rw [List.all_eq_true]
  exact forall₂_congr fun e _ => isFin_iff e

theorem all_fin_map (l : List (Ext K)) (h : ∀ e ∈ l, FinElem e) : ∃ y : List K, l = y.map Ext.fin := by
  induction l with
  | nil => exact ⟨[], rfl⟩
  | cons a l ih =>
    obtain ⟨x, hx⟩ := h a (by simp)
    obtain ⟨y, hy⟩ := ih fun e he => h e (by simp [he])
    exact ⟨x :: y, by rw [hx, hy]; rfl⟩

/-- What the flag of `check_numbers_valid` means: -1 no numeric type, -2 a NaN or an infinity, -3 a negative number among
finite ones, 0 finite and non-negative numbers only. -/
theorem C138_flags (a : XArr K) :
    (checkNumbersValid a = -1 ↔ a.numeric = false) ∧
    (checkNumbersValid a = -2 ↔ a.numeric = true ∧ ∃ e ∈ a.body.elems, ¬ FinElem e) ∧
    (checkNumbersValid a = -3 ↔ a.numeric = true ∧ (∀ e ∈ a.body.elems, FinElem e) ∧
      ∃ x : K, x < 0 ∧ Ext.fin x ∈ a.body.elems) ∧
    (checkNumbersValid a = 0 ↔ a.numeric = true ∧ ∀ e ∈ a.body.elems, ∃ x : K, 0 ≤ x ∧ e = .fin x) := by
  unfold checkNumbersValid
  cases hn : a.numeric with
  | false => simp
  | true =>
    by_cases hf : a.body.elems.all Ext.isFin = true
    · have hF := (all_fin _).1 hf
      have hF' : ¬ ∃ e ∈ a.body.elems, ¬ FinElem e := fun ⟨e, he, h⟩ => h (hF e he)
      by_cases hg : a.body.elems.any Ext.neg = true
      · obtain ⟨e, he, h⟩ := List.any_eq_true.1 hg
        obtain ⟨x, rfl⟩ := hF e he
        have hx : x < 0 := by simpa [Ext.neg] using h
        have h0 : ¬ ∀ e ∈ a.body.elems, ∃ x : K, 0 ≤ x ∧ e = .fin x := fun hall => by
          obtain ⟨y, hy, hey⟩ := hall _ he
          rw [Ext.fin.inj hey] at hx
          exact absurd hx (not_lt.2 hy)
        simp only [hf, hg]
        simp [hF', h0]
        exact ⟨hF, x, hx, he⟩
      · have h3 : ¬ ∃ x : K, x < 0 ∧ Ext.fin x ∈ a.body.elems := fun ⟨x, hx, he⟩ =>
          hg (List.any_eq_true.2 ⟨_, he, by simpa [Ext.neg] using hx⟩)
        have h0 : ∀ e ∈ a.body.elems, ∃ x : K, 0 ≤ x ∧ e = .fin x := fun e he => by
          obtain ⟨x, rfl⟩ := hF e he
          exact ⟨x, not_lt.1 fun hx => h3 ⟨x, hx, he⟩, rfl⟩
        simp only [hf, hg]
        have hF'' : ∀ e ∈ a.body.elems, FinElem e := hF
        refine ⟨by simp, ?_, ?_, ?_⟩
        · constructor
          · intro h; simp at h
          · rintro ⟨-, h⟩; exact absurd h hF'
        · constructor
          · intro h; simp at h
          · rintro ⟨-, -, h⟩; exact absurd h h3
        · simpa using h0
    · have hF' : ∃ e ∈ a.body.elems, ¬ FinElem e := by
        by_contra hc
        push Not at hc
        exact hf ((all_fin _).2 hc)
      obtain ⟨e, he, hne⟩ := hF'
      simp only [hf]
      refine ⟨by simp, ?_, ?_, ?_⟩
      · simp; exact ⟨e, he, hne⟩
      · constructor
        · intro h; simp at h
        · rintro ⟨-, h, -⟩; exact absurd (h e he) hne
      · constructor
        · intro h; simp at h
        · rintro ⟨-, h⟩
          obtain ⟨x, -, hx⟩ := h e he
          exact absurd ⟨x, hx⟩ hne

theorem rows_two (rows : List (List (Ext K))) (hr : ∀ r ∈ rows, r.length = 2)
    (hf : ∀ e ∈ rows.flatten, FinElem e) : ∃ y : Rec K, rows = y.map fun p => [.fin p.1, .fin p.2] := by
  induction rows with
  | nil => exact ⟨[], rfl⟩
  | cons r rows ih =>
    obtain ⟨y, hy⟩ := ih (fun r h => hr r (by simp [h])) (fun e he => hf e (by simp at he ⊢; exact Or.inr he))
    match r, hr r (by simp) with
    | [a, b], _ =>
      obtain ⟨p, hp⟩ := hf a (by simp)
      obtain ⟨q, hq⟩ := hf b (by simp)
      exact ⟨(p, q) :: y, by rw [hp, hq, hy]; rfl⟩

theorem rows_five (rows : List (List (Ext K))) (hr : ∀ r ∈ rows, r.length = 5)
    (hf : ∀ e ∈ rows.flatten, FinElem e) :
    ∃ y : List (Row K), rows = y.map fun r => [.fin r.thk, .fin r.vs, .fin r.xi, .fin r.rho, .fin r.mat] := by
  induction rows with
  | nil => exact ⟨[], rfl⟩
  | cons r rows ih =>
    obtain ⟨y, hy⟩ := ih (fun r h => hr r (by simp [h])) (fun e he => hf e (by simp at he ⊢; exact Or.inr he))
    match r, hr r (by simp) with
    | [a, b, c, d, e], _ =>
      obtain ⟨p1, h1⟩ := hf a (by simp)
      obtain ⟨p2, h2⟩ := hf b (by simp)
      obtain ⟨p3, h3⟩ := hf c (by simp)
      obtain ⟨p4, h4⟩ := hf d (by simp)
      obtain ⟨p5, h5⟩ := hf e (by simp)
      exact ⟨⟨p1, p2, p3, p4, p5⟩ :: y, by rw [h1, h2, h3, h4, h5, hy]; rfl⟩

theorem elems_ofRec (y : Rec K) : (ofRec y).elems = y.flatMap fun p => [.fin p.1, .fin p.2] := by
  simp [ofRec, XBody.elems, List.flatMap_def]

/-- With the option `at_least_two_columns` the check accepts exactly the numeric two-dimensional arrays of finite numbers with
two columns or more, with `ensure_non_negative` exactly the non-negative ones. -/
theorem C138_at_least_two (nonNeg : Bool) (x : XArg K) :
    checkTwoColumn nonNeg true x = .ok () ↔
      ∃ c rows, x = .arr ⟨true, .mat c rows⟩ ∧ 2 ≤ c ∧ ∀ r ∈ rows, ∀ e ∈ r, ∃ v : K, e = .fin v ∧ (nonNeg = true → 0 ≤ v) := by
  constructor
  · intro h
    match x with
    | .arr ⟨num, .mat c rows⟩ =>
      obtain ⟨h1, h2, h3, h4⟩ := C138_flags (⟨num, .mat c rows⟩ : XArr K)
      simp only [checkTwoColumn, Bool.not_true, Bool.false_and, Bool.true_and, Bool.false_eq_true, if_false] at h
      by_cases hc : c < 2
      · rw [if_pos (by simpa using hc)] at h; exact absurd h (by simp)
      rw [if_neg (by simpa using hc)] at h
      by_cases e1 : checkNumbersValid (⟨num, .mat c rows⟩ : XArr K) = -1
      · rw [if_pos e1] at h; exact absurd h (by simp)
      rw [if_neg e1] at h
      by_cases e2 : checkNumbersValid (⟨num, .mat c rows⟩ : XArr K) = -2
      · rw [if_pos e2] at h; exact absurd h (by simp)
      rw [if_neg e2] at h
      have hnum : num = true := by
        cases num with
        | true => rfl
        | false => exact absurd (h1.2 rfl) e1
      subst hnum
      have hfin : ∀ e ∈ (XBody.mat c rows).elems, FinElem e := by
        intro e he
        by_contra hn
        exact e2 (h2.2 ⟨rfl, e, he, hn⟩)
      refine ⟨c, rows, rfl, by omega, ?_⟩
      intro r hr e he
      have hmem : e ∈ (XBody.mat c rows).elems := List.mem_flatten.2 ⟨r, hr, he⟩
      have hf := hfin e hmem
      cases e with
      | fin v =>
        refine ⟨v, rfl, ?_⟩
        intro hnn
        by_contra hv
        have e3 : checkNumbersValid (⟨true, .mat c rows⟩ : XArr K) = -3 := h3.2 ⟨rfl, hfin, v, not_le.1 hv, hmem⟩
        rw [if_pos (by simp [hnn, e3])] at h
        exact absurd h (by simp)
      | pinf => simp [FinElem] at hf
      | ninf => simp [FinElem] at hf
      | nan => simp [FinElem] at hf
    | .arr ⟨num, .vec l⟩ => simp [checkTwoColumn] at h
    | .arr ⟨num, .nd l⟩ => simp [checkTwoColumn] at h
    | .scalar v => simp [checkTwoColumn] at h
    | .other => simp [checkTwoColumn] at h
  · rintro ⟨c, rows, rfl, hc, hr⟩
    obtain ⟨h1, h2, h3, h4⟩ := C138_flags (⟨true, .mat c rows⟩ : XArr K)
    have hel : ∀ e ∈ (XBody.mat c rows).elems, ∃ v : K, e = .fin v ∧ (nonNeg = true → 0 ≤ v) := by
      intro e he
      obtain ⟨r, hr', he'⟩ := List.mem_flatten.1 he
      exact hr r hr' e he'
    simp only [checkTwoColumn, Bool.not_true, Bool.false_and, Bool.true_and, Bool.false_eq_true, if_false]
    rw [if_neg (by simp; omega), if_neg, if_neg, if_neg]
    · intro hh
      simp only [Bool.and_eq_true, decide_eq_true_eq] at hh
      obtain ⟨-, -, v, hv, hm⟩ := h3.1 hh.2
      obtain ⟨v', e', hv'⟩ := hel _ hm
      cases e'
      exact absurd (hv' hh.1) (not_le.2 hv)
    · intro hh
      obtain ⟨-, e, he, hn⟩ := h2.1 hh
      obtain ⟨v, rfl, -⟩ := hel e he
      exact hn (by simp [FinElem])
    · intro hh
      exact absurd (h1.1 hh) (by simp)

/-- The check for two columns accepts exactly the numeric two-column arrays of finite numbers, with the option
`ensure_non_negative` exactly the non-negative ones. -/
theorem C138_two_column (nonNeg : Bool) (x : XArg K) (hx : ∀ a, x = .arr a → RectBody a.body) :
    checkTwoColumn nonNeg false x = .ok () ↔
      ∃ y : Rec K, x = .arr ⟨true, ofRec y⟩ ∧ (nonNeg = true → ∀ p ∈ y, 0 ≤ p.1 ∧ 0 ≤ p.2) := by
  constructor
  · intro h
    match x, hx with
    | .arr ⟨num, .mat c rows⟩, hx =>
      have hr := hx _ rfl
      simp only [checkTwoColumn] at h
      obtain ⟨h1, h2, h3, h0⟩ := C138_flags (⟨num, .mat c rows⟩ : XArr K)
      by_cases hc : c = 2
      · subst hc
        simp only [Bool.not_false, ne_eq, not_true_eq_false, decide_false, Bool.and_false, Bool.false_and,
          Bool.false_eq_true, if_false] at h
        by_cases e1 : checkNumbersValid (⟨num, .mat 2 rows⟩ : XArr K) = -1
        · rw [if_pos e1] at h; exact absurd h (by simp)
        rw [if_neg e1] at h
        by_cases e2 : checkNumbersValid (⟨num, .mat 2 rows⟩ : XArr K) = -2
        · rw [if_pos e2] at h; exact absurd h (by simp)
        rw [if_neg e2] at h
        have hn : num = true := by
          by_contra hc; exact e1 (h1.2 (by simpa using hc))
        have hf : ∀ e ∈ rows.flatten, FinElem e := by
          intro e he
          by_contra hne
          exact e2 (h2.2 ⟨hn, e, he, hne⟩)
        obtain ⟨y, hy⟩ := rows_two rows hr hf
        refine ⟨y, by rw [hn, hy]; rfl, ?_⟩
        intro hnn p hp
        rw [hnn] at h
        by_cases e3 : checkNumbersValid (⟨num, .mat 2 rows⟩ : XArr K) = -3
        · rw [e3] at h; exact absurd h (by simp)
        have hno : ¬ ∃ x : K, x < 0 ∧ Ext.fin x ∈ rows.flatten := fun hc => e3 (h3.2 ⟨hn, hf, hc⟩)
        have hmem : ([.fin p.1, .fin p.2] : List (Ext K)) ∈ rows := by
          rw [hy]; exact List.mem_map.2 ⟨p, hp, rfl⟩
        exact ⟨not_lt.1 fun hlt => hno ⟨_, hlt, List.mem_flatten.2 ⟨_, hmem, by simp⟩⟩,
          not_lt.1 fun hlt => hno ⟨_, hlt, List.mem_flatten.2 ⟨_, hmem, by simp⟩⟩⟩
      · rw [if_pos (by simpa using hc)] at h
        exact absurd h (by simp)
  · rintro ⟨y, rfl, hy⟩
    obtain ⟨h1, h2, h3, h0⟩ := C138_flags (⟨true, ofRec y⟩ : XArr K)
    have hel : ∀ e ∈ (ofRec y).elems, FinElem e := by
      rw [elems_ofRec]
      intro e he
      obtain ⟨p, hp, he⟩ := List.mem_flatMap.1 he
      simp only [List.mem_cons, List.not_mem_nil, or_false] at he
      rcases he with rfl | rfl
      · exact ⟨_, rfl⟩
      · exact ⟨_, rfl⟩
    have e1 : checkNumbersValid (⟨true, ofRec y⟩ : XArr K) ≠ -1 := fun hc => absurd (h1.1 hc) (by simp)
    have e2 : checkNumbersValid (⟨true, ofRec y⟩ : XArr K) ≠ -2 := fun hc => by
      obtain ⟨-, e, he, hne⟩ := h2.1 hc
      exact hne (hel e he)
    have e3 : nonNeg = true → checkNumbersValid (⟨true, ofRec y⟩ : XArr K) ≠ -3 := fun hnn hc => by
      obtain ⟨-, -, x, hx, he⟩ := h3.1 hc
      rw [elems_ofRec] at he
      obtain ⟨p, hp, he⟩ := List.mem_flatMap.1 he
      simp only [List.mem_cons, Ext.fin.injEq, List.not_mem_nil, or_false] at he
      rcases he with rfl | rfl
      · exact absurd hx (not_lt.2 (hy hnn p hp).1)
      · exact absurd hx (not_lt.2 (hy hnn p hp).2)
    show checkTwoColumn nonNeg false (.arr ⟨true, .mat 2 (y.map fun p => [.fin p.1, .fin p.2])⟩) = _
    have hE : (⟨true, .mat 2 (y.map fun p => [.fin p.1, .fin p.2])⟩ : XArr K) = ⟨true, ofRec y⟩ := rfl
    simp only [checkTwoColumn, hE, if_neg e1, if_neg e2]
    cases hnn : nonNeg with
    | false => simp
    | true => simp [e3 hnn]

/-! ## Profiles -/

theorem any_map_fin (l : List K) : (l.map Ext.fin).any Ext.nonPos = l.any (fun t => decide (t ≤ 0)) := by
  rw [List.any_map]; rfl

theorem checkThkVsExt_fin (t v : List K) : checkThkVsExt (t.map Ext.fin) (v.map Ext.fin) = checkThkVs t v := by
  unfold checkThkVsExt checkThkVs
  rw [← List.map_dropLast, any_map_fin, any_map_fin, List.getLast?_map]
  cases t.getLast? with
  | none => rfl
  | some a => simp [Ext.neg]

theorem extCol_map {α : Type} (j : Nat) (l : List α) (f : α → List (Ext K)) (g : α → K)
    (h : ∀ a, (f a).getD j .nan = .fin (g a)) : extCol j (l.map f) = (l.map g).map Ext.fin := by
  unfold extCol
  rw [List.map_map, List.map_map]
  exact List.map_congr_left fun a _ => h a

variable [FloorRing K]

/-- On numeric arrays of finite numbers with two or five columns the check of a profile is the one of the other claims. -/
theorem C138_profile_same (c : Cell K) : checkVsExt (.arr ⟨true, ofCell c⟩) = checkVsFormat c := by
  have hel : ∀ e ∈ (ofCell c).elems, FinElem e := by
    cases c with
    | two rows =>
      show ∀ e ∈ (ofRec rows).elems, FinElem e
      rw [elems_ofRec]
      intro e he
      obtain ⟨p, hp, he⟩ := List.mem_flatMap.1 he
      simp only [List.mem_cons, List.not_mem_nil, or_false] at he
      rcases he with rfl | rfl
      · exact ⟨_, rfl⟩
      · exact ⟨_, rfl⟩
    | five rows =>
      intro e he
      obtain ⟨r, hr, he⟩ := List.mem_flatten.1 he
      obtain ⟨p, hp, rfl⟩ := List.mem_map.1 hr
      simp only [List.mem_cons, List.not_mem_nil, or_false] at he
      rcases he with rfl | rfl | rfl | rfl | rfl <;> exact ⟨_, rfl⟩
  obtain ⟨h1, h2, -, -⟩ := C138_flags (⟨true, ofCell c⟩ : XArr K)
  have e1 : checkNumbersValid (⟨true, ofCell c⟩ : XArr K) ≠ -1 := fun hc => absurd (h1.1 hc) (by simp)
  have e2 : checkNumbersValid (⟨true, ofCell c⟩ : XArr K) ≠ -2 := fun hc => by
    obtain ⟨-, e, he, hne⟩ := h2.1 hc
    exact hne (hel e he)
  unfold checkVsExt
  simp only [if_neg e1, if_neg e2]
  cases c with
  | two rows =>
    show (if 2 ≠ 2 ∧ 2 ≠ 5 then _ else _) = _
    rw [if_neg (by simp)]
    rw [extCol_map 0 rows _ Prod.fst (fun a => rfl), extCol_map 1 rows _ Prod.snd (fun a => rfl), checkThkVsExt_fin]
    simp only [checkVsFormat]
    cases checkThkVs (rows.map Prod.fst) (rows.map Prod.snd) <;> rfl
  | five rows =>
    show (if 5 ≠ 2 ∧ 5 ≠ 5 then _ else _) = _
    rw [if_neg (by simp)]
    rw [extCol_map 0 rows _ Row.thk (fun a => rfl), extCol_map 1 rows _ Row.vs (fun a => rfl),
      extCol_map 2 rows _ Row.xi (fun a => rfl), extCol_map 3 rows _ Row.rho (fun a => rfl),
      extCol_map 4 rows _ Row.mat (fun a => rfl), checkThkVsExt_fin, any_map_fin, any_map_fin, ← List.map_dropLast,
      any_map_fin, List.getLast?_map, List.getLast?_map]
    simp only [checkVsFormat, if_true, List.any_map, List.all_map, ← List.map_dropLast]
    cases checkThkVs (rows.map Row.thk) (rows.map Row.vs) with
    | error e => rfl
    | ok u =>
      cases hg : rows.getLast? with
      | none => rfl
      | some r =>
        simp only [Option.map_some, Ext.neg, decide_eq_true_eq]
        rfl

/-- The check of a profile accepts exactly the arrays of finite numbers with two or five columns which satisfy the
format rules: a NaN or an infinity never gets into a profile. -/
theorem C138_profile (x : XArg K) (hx : ∀ a, x = .arr a → RectBody a.body) :
    checkVsExt x = .ok () ↔ ∃ c : Cell K, x = .arr ⟨true, ofCell c⟩ ∧ checkVsFormat c = .ok () := by
  constructor
  · intro h
    match x, hx with
    | .arr ⟨num, body⟩, hx =>
      have hr := hx _ rfl
      obtain ⟨h1, h2, -, -⟩ := C138_flags (⟨num, body⟩ : XArr K)
      have h' := h
      simp only [checkVsExt] at h
      by_cases e1 : checkNumbersValid (⟨num, body⟩ : XArr K) = -1
      · rw [if_pos e1] at h; exact absurd h (by simp)
      rw [if_neg e1] at h
      by_cases e2 : checkNumbersValid (⟨num, body⟩ : XArr K) = -2
      · rw [if_pos e2] at h; exact absurd h (by simp)
      rw [if_neg e2] at h
      have hn : num = true := by
        by_contra hc; exact e1 (h1.2 (by simpa using hc))
      have hf : ∀ e ∈ body.elems, FinElem e := by
        intro e he
        by_contra hne
        exact e2 (h2.2 ⟨hn, e, he, hne⟩)
      subst hn
      cases body with
      | vec l => exact absurd h (by simp)
      | nd l => exact absurd h (by simp)
      | mat c rows =>
        by_cases hc : c ≠ 2 ∧ c ≠ 5
        · simp only [if_pos hc] at h; exact absurd h (by simp)
        · have hc' : c = 2 ∨ c = 5 := by
            by_contra hc2; push Not at hc2; exact hc hc2
          rcases hc' with rfl | rfl
          · obtain ⟨y, rfl⟩ := rows_two rows hr hf
            exact ⟨.two y, rfl, by rw [← C138_profile_same (.two y)]; exact h'⟩
          · obtain ⟨y, rfl⟩ := rows_five rows hr hf
            exact ⟨.five y, rfl, by rw [← C138_profile_same (.five y)]; exact h'⟩
  · rintro ⟨c, rfl, hc⟩
    rw [C138_profile_same]; exact hc

end

section
variable {K : Type} [Field K] [LinearOrder K]

/-! ## Motions -/

theorem scale_fin (c : K) (e : Ext K) : FinElem (e.scale c) ↔ FinElem e := by
  cases e <;> simp [Ext.scale, FinElem]

theorem scaleSecond_rows (c : K) (rows : List (List (Ext K))) (n : Nat) (h : ∀ r ∈ rows, r.length = n) :
    ∀ r ∈ scaleSecond c rows, r.length = n := by
  intro r hr
  obtain ⟨q, hq, rfl⟩ := List.mem_map.1 hr
  match q, h q hq with
  | [], hl => exact hl
  | [_], hl => exact hl
  | _ :: _ :: _, hl => exact hl

theorem scaleSecond_fin (c : K) (rows : List (List (Ext K))) :
    (∀ e ∈ (scaleSecond c rows).flatten, FinElem e) ↔ ∀ e ∈ rows.flatten, FinElem e := by
  induction rows with
  | nil => rfl
  | cons r rows ih =>
    have hs : scaleSecond c (r :: rows) = (match r with
      | t :: x :: rest => t :: x.scale c :: rest
      | r => r) :: scaleSecond c rows := rfl
    rw [hs, List.flatten_cons, List.flatten_cons]
    simp only [List.forall_mem_append, ih]
    refine and_congr_left fun _ => ?_
    match r with
    | [] => exact Iff.rfl
    | [_] => exact Iff.rfl
    | t :: x :: rest => simp [scale_fin]

theorem scaleSecond_ofRec (c : K) (y : Rec K) :
    scaleSecond c (y.map fun p => [.fin p.1, .fin p.2]) = (scaleCols 1 c y).map fun p => [.fin p.1, .fin p.2] := by
  unfold scaleSecond scaleCols
  rw [List.map_map, List.map_map]
  exact List.map_congr_left fun p _ => by simp [Ext.scale]

theorem flatten_singles {α : Type} (l : List α) : (l.map fun x => [x]).flatten = l := by
  induction l with
  | nil => rfl
  | cons a l ih => simpa using ih

theorem oneCol_ok (delta : Option (Ext K)) (rows : List (List (Ext K))) (hr : ∀ r ∈ rows, r.length = 1)
    (out : Bool × List (List (Ext K))) (h : readTwoExt.oneCol delta rows = .ok out) :
    out.1 = false ∧ (∀ r ∈ out.2, r.length = 2) ∧
      ((∀ e ∈ out.2.flatten, FinElem e) → ∀ e ∈ rows.flatten, FinElem e) := by
  unfold readTwoExt.oneCol at h
  cases hd : delta with
  | none => rw [hd] at h; exact absurd h (by simp)
  | some d =>
    rw [hd] at h
    simp only at h
    by_cases hl : rows.length < 2
    · rw [if_pos hl] at h; exact absurd h (by simp)
    rw [if_neg hl] at h
    cases d with
    | pinf => exact absurd h (by simp)
    | ninf => exact absurd h (by simp)
    | nan => exact absurd h (by simp)
    | fin x =>
      simp only at h
      by_cases hx : x = 0
      · rw [if_pos hx] at h; exact absurd h (by simp)
      rw [if_neg hx] at h
      have e := (Except.ok.inj h).symm
      subst e
      have hlen : (linspace x ((rows.length : K) * x) rows.length).length = rows.length := by simp [linspace]
      refine ⟨rfl, ?_, ?_⟩
      · intro r hr'
        obtain ⟨i, hi, rfl⟩ := List.getElem_of_mem hr'
        have hi2 : i < rows.length := by simpa [hlen] using hi
        rw [List.getElem_zipWith]
        simp [hr _ (List.getElem_mem hi2)]
      · intro hall e he
        obtain ⟨r, hrm, he⟩ := List.mem_flatten.1 he
        obtain ⟨i, hi, rfl⟩ := List.getElem_of_mem hrm
        refine hall e (List.mem_flatten.2 ⟨_, List.getElem_mem (n := i) (by simpa [hlen] using hi), ?_⟩)
        rw [List.getElem_zipWith]
        exact List.mem_cons_of_mem _ he

theorem readTwoExt_ok (delta : Option (Ext K)) (x : XArr K) (hx : RectBody x.body) (out : Bool × List (List (Ext K)))
    (h : readTwoExt delta (.arr x) = .ok out) :
    (∀ r ∈ out.2, r.length = 2) ∧ ((∀ e ∈ out.2.flatten, FinElem e) → ∀ e ∈ x.body.elems, FinElem e) ∧
      (out.1 = true → x.body = .mat 2 out.2) := by
  obtain ⟨num, body⟩ := x
  cases body with
  | vec l =>
    obtain ⟨h1, h2, h3⟩ := oneCol_ok delta (l.map fun x => [x])
      (fun r hr => by obtain ⟨a, -, rfl⟩ := List.mem_map.1 hr; rfl) out h
    refine ⟨h2, fun hall => ?_, fun hc => by rw [h1] at hc; cases hc⟩
    have := h3 hall
    rw [flatten_singles] at this
    exact this
  | nd l => exact absurd h (by simp [readTwoExt])
  | mat c rows =>
    simp only [readTwoExt] at h
    by_cases hm : min c rows.length = 1
    · rw [if_pos hm] at h
      by_cases hc : c = 1
      · obtain ⟨h1, h2, h3⟩ := oneCol_ok delta rows (fun r hr => by rw [hx r hr, hc]) out h
        exact ⟨h2, h3, fun hc => by rw [h1] at hc; cases hc⟩
      · have hl : rows.length = 1 := by
          rcases min_choice c rows.length with e | e
          · rw [e] at hm; exact absurd hm hc
          · rw [← e]; exact hm
        unfold readTwoExt.oneCol at h
        cases hd : delta with
        | none => rw [hd] at h; exact absurd h (by simp)
        | some d =>
          rw [hd] at h
          simp only [hl] at h
          exact absurd h (by simp)
    · rw [if_neg hm] at h
      by_cases hc : c = 2
      · rw [if_pos hc] at h
        by_cases hl : rows.length < 2
        · rw [if_pos hl] at h; exact absurd h (by simp)
        rw [if_neg hl] at h
        have e := (Except.ok.inj h).symm
        subst e
        subst hc
        exact ⟨hx, fun hall => hall, fun _ => rfl⟩
      · rw [if_neg hc] at h; exact absurd h (by simp)

/-- A motion is made from finite numbers only: the two-column record used by an accepted construction is a record of
numbers, and every element of the array passed in is finite. -/
theorem C138_motion (x : XArr K) (hx : RectBody x.body) (u : MUnit) (t : MType) (delta : Option (Ext K))
    (rows : List (List (Ext K))) (h : (motionGate x u t delta).1 = .ok rows) :
    (∃ y : Rec K, rows = y.map fun p => [.fin p.1, .fin p.2]) ∧ (∀ e ∈ x.body.elems, FinElem e) ∧ UnitOk u t := by
  unfold motionGate at h
  cases hq : readTwoExt delta (.arr x) with
  | error e => rw [hq] at h; exact absurd h (by simp)
  | ok out =>
    rw [hq] at h
    obtain ⟨hl, hfin, -⟩ := readTwoExt_ok delta x hx out hq
    simp only at h
    by_cases c1 : u = .bad
    · rw [if_pos c1] at h; exact absurd h (by simp)
    rw [if_neg c1] at h
    by_cases c2 : t = .bad
    · rw [if_pos c2] at h; exact absurd h (by simp)
    rw [if_neg c2] at h
    by_cases c3 : (u = .g ∨ u = .gal) ∧ t ≠ .accel
    · rw [if_pos c3] at h; exact absurd h (by simp)
    rw [if_neg c3] at h
    have hU : UnitOk u t := ⟨c1, c2, fun hg => by by_contra hc; exact c3 ⟨hg, hc⟩⟩
    generalize hR : siRows u out.2 = R at h
    cases hk : checkTwoColumn false false (.arr ⟨x.numeric, .mat 2 R⟩) with
    | error e => rw [hk] at h; exact absurd h (by simp)
    | ok w =>
      rw [hk] at h
      have e := Except.ok.inj h
      subst e
      have hRl : ∀ r ∈ R, r.length = 2 := by
        rw [← hR]
        unfold siRows
        cases (unitFactor u : Option K) with
        | none => exact hl
        | some f => exact scaleSecond_rows f _ 2 hl
      obtain ⟨y, hy, -⟩ := (C138_two_column false _ (fun a ha => by cases ha; exact hRl)).1 hk
      have hyR : R = y.map fun p => [.fin p.1, .fin p.2] := by
        have h1 := XArg.arr.inj hy
        have h2 := congrArg XArr.body h1
        exact (XBody.mat.inj h2).2
      have hRf : ∀ e ∈ R.flatten, FinElem e := by
        rw [hyR]
        intro e he
        obtain ⟨r, hr, he⟩ := List.mem_flatten.1 he
        obtain ⟨p, hp, rfl⟩ := List.mem_map.1 hr
        simp only [List.mem_cons, List.not_mem_nil, or_false] at he
        rcases he with rfl | rfl
        · exact ⟨_, rfl⟩
        · exact ⟨_, rfl⟩
      refine ⟨⟨y, hyR⟩, hfin ?_, hU⟩
      rw [← hR] at hRf
      unfold siRows at hRf
      cases hu : (unitFactor u : Option K) with
      | none => rw [hu] at hRf; exact hRf
      | some f => rw [hu] at hRf; exact (scaleSecond_fin f _).1 hRf

/-- An array with a NaN or an infinity never makes a motion, in whatever unit and of whatever type. -/
theorem C138_motion_rejects (x : XArr K) (hx : RectBody x.body) (u : MUnit) (t : MType) (delta : Option (Ext K))
    (hbad : ∃ e ∈ x.body.elems, ¬ FinElem e) : ∃ e, (motionGate x u t delta).1 = .error e := by
  cases h : (motionGate x u t delta).1 with
  | error e => exact ⟨e, rfl⟩
  | ok rows =>
    obtain ⟨e, he, hne⟩ := hbad
    exact absurd ((C138_motion x hx u t delta rows h).2.1 e he) hne

/-- Two-column records of at least two rows of numbers pass these checks in every accepted unit, and are used in SI
units. -/
theorem C138_motion_accepts (y : Rec K) (hy : 2 ≤ y.length) (u : MUnit) (t : MType) (delta : Option (Ext K))
    (hu : UnitOk u t) :
    (motionGate ⟨true, ofRec y⟩ u t delta).1 =
      .ok ((match (unitFactor u : Option K) with | some f => scaleCols 1 f y | none => y : Rec K).map
        fun p : K × K => [.fin p.1, .fin p.2]) := by
  have hr : readTwoExt delta (.arr ⟨true, ofRec y⟩) = .ok (true, y.map fun p => [.fin p.1, .fin p.2]) := by
    simp only [ofRec, readTwoExt, List.length_map]
    rw [if_neg (by omega), if_true, if_neg (by omega)]
  obtain ⟨c1, c2, c3⟩ := hu
  unfold motionGate
  rw [hr]
  simp only [if_neg c1, if_neg c2]
  rw [if_neg (fun h => h.2 (c3 h.1))]
  have hk : ∀ z : Rec K, checkTwoColumn false false
      (.arr ⟨true, .mat 2 (z.map fun p => [Ext.fin p.1, Ext.fin p.2])⟩) = .ok () := fun z =>
    (C138_two_column false _ (fun a ha => by
      cases ha
      intro r hr
      obtain ⟨p, -, rfl⟩ := List.mem_map.1 hr
      rfl)).2 ⟨z, rfl, fun hc => by cases hc⟩
  unfold siRows
  cases (unitFactor u : Option K) with
  | none => simp only [hk]
  | some f => simp only [scaleSecond_ofRec, hk]

theorem scaleSecond_ne (f : K) (hf : f ≠ 1) (rows : List (List (Ext K))) :
    scaleSecond f rows ≠ rows ↔ ∃ r ∈ rows, ∃ v : K, v ≠ 0 ∧ r[1]? = some (.fin v) := by
  have key : ∀ r : List (Ext K), ((match r with
      | t :: x :: rest => t :: x.scale f :: rest
      | r => r) ≠ r) ↔ ∃ v : K, v ≠ 0 ∧ r[1]? = some (.fin v) := by
    intro r
    match r with
    | [] => simp
    | [_] => simp
    | t :: x :: rest =>
      cases x with
      | fin v =>
        simp only [Ext.scale, ne_eq, List.cons.injEq, Ext.fin.injEq, true_and, and_true, List.getElem?_cons_succ,
          List.getElem?_cons_zero, Option.some.injEq]
        constructor
        · intro h
          exact ⟨v, fun h0 => h (by rw [h0, zero_mul]), rfl⟩
        · rintro ⟨w, hw, rfl⟩ h
          exact hf (mul_left_cancel₀ hw (by rw [h, mul_one]))
      | _ => simp [Ext.scale]
  have h1 : scaleSecond f rows = rows ↔ ∀ r ∈ rows, (match r with
      | t :: x :: rest => t :: x.scale f :: rest
      | r => r) = r := by
    unfold scaleSecond
    conv_lhs => rhs; rw [← List.map_id rows]
    rw [List.map_inj_left]
    rfl
  rw [ne_eq, h1]
  push Not
  exact exists_congr fun r => and_congr_right fun _ => key r

/-- What becomes of the array passed in, exactly and whether or not it is accepted: it is altered just when it has two
columns and at least two rows, unit and type are accepted, the unit is not an SI one, and some value other than zero is
in its second column. -/
theorem C138_argument_exact [IsStrictOrderedRing K] (x : XArr K) (u : MUnit) (t : MType) (delta : Option (Ext K)) :
    (motionGate x u t delta).2 ≠ x ↔
      ∃ rows : List (List (Ext K)), x.body = .mat 2 rows ∧ 2 ≤ rows.length ∧ UnitOk u t ∧
        (u = .cm ∨ u = .cmps ∨ u = .cmpss ∨ u = .gal ∨ u = .g) ∧
        ∃ r ∈ rows, ∃ v : K, v ≠ 0 ∧ r[1]? = some (.fin v) := by
  obtain ⟨b, body⟩ := x
  by_cases hm : ∃ rows : List (List (Ext K)), body = .mat 2 rows ∧ 2 ≤ rows.length
  · obtain ⟨rows, rfl, hl⟩ := hm
    have hr : readTwoExt delta (.arr ⟨b, .mat 2 rows⟩) = .ok (true, rows) := by
      simp only [readTwoExt]
      rw [if_neg (by omega), if_true, if_neg (by omega)]
    have hR : (motionGate ⟨b, .mat 2 rows⟩ u t delta).2 ≠ ⟨b, .mat 2 rows⟩ ↔ UnitOk u t ∧ siRows u rows ≠ rows := by
      unfold motionGate UnitOk
      rw [hr]
      dsimp only
      by_cases c1 : u = .bad
      · simp [c1]
      by_cases c2 : t = .bad
      · simp [c1, c2]
      by_cases c3 : (u = .g ∨ u = .gal) ∧ t ≠ .accel
      · rw [if_neg c1, if_neg c2, if_pos c3]
        simp only [ne_eq, not_true_eq_false, false_iff, not_and]
        exact fun h => absurd (h.2.2 c3.1) c3.2
      · rw [if_neg c1, if_neg c2, if_neg c3]
        have hc : (u = .g ∨ u = .gal → t = .accel) := fun h => by
          by_contra hn
          exact c3 ⟨h, hn⟩
        split <;> simp [c1, c2, hc] <;> exact fun _ => hc
    rw [hR]
    have h981 : (981 / 100 : K) ≠ 1 := by norm_num
    have h100 : (1 / 100 : K) ≠ 1 := by norm_num
    have hs : siRows u rows ≠ rows ↔ (u = .cm ∨ u = .cmps ∨ u = .cmpss ∨ u = .gal ∨ u = .g) ∧
        ∃ r ∈ rows, ∃ v : K, v ≠ 0 ∧ r[1]? = some (.fin v) := by
      cases u <;> simp only [siRows, unitFactor, scaleSecond_ne _ h981, scaleSecond_ne _ h100, ne_eq, reduceCtorEq,
        or_false, false_or, or_true, true_or, true_and, false_and, not_true_eq_false]
    rw [hs]
    constructor
    · rintro ⟨h1, h2, h3⟩
      exact ⟨rows, rfl, hl, h1, h2, h3⟩
    · rintro ⟨rows', he, -, h1, h2, h3⟩
      cases he
      exact ⟨h1, h2, h3⟩
  · constructor
    · intro h
      exfalso
      apply h
      unfold motionGate
      cases hr : readTwoExt delta (.arr ⟨b, body⟩) with
      | error e => rfl
      | ok w =>
        obtain ⟨same, R⟩ := w
        have hsame : same = false := by
          have hone : ∀ rows R, readTwoExt.oneCol delta rows = .ok (same, R) → same = false := by
            intro rows R h
            unfold readTwoExt.oneCol at h
            split at h
            · exact absurd h (by simp)
            · split at h
              · exact absurd h (by simp)
              · split at h
                · split at h
                  · exact absurd h (by simp)
                  · rw [Except.ok.injEq, Prod.mk.injEq] at h
                    exact h.1.symm
                · exact absurd h (by simp)
          cases body with
          | vec l => exact hone _ _ hr
          | nd l => exact absurd hr (by simp [readTwoExt])
          | mat c rows =>
            simp only [readTwoExt] at hr
            split at hr
            · exact hone _ _ hr
            · split at hr
              · split at hr
                · exact absurd hr (by simp)
                · next hc hl => exact absurd ⟨rows, by rw [hc], by omega⟩ hm
              · exact absurd hr (by simp)
        subst hsame
        dsimp only
        split_ifs <;> first | rfl | exact absurd ‹False› id | (split <;> rfl)
    · rintro ⟨rows, he, hl, -⟩
      exact absurd ⟨rows, he, hl⟩ hm

/-- The property fails for every array of the kind: a record of two columns with a number that is not finite in it, in
a unit that is not an SI one, is rejected, and yet every non-zero value of its second column means that the caller's
array has been changed. -/
theorem C138_rejected_argument_violated [IsStrictOrderedRing K] (b : Bool) (rows : List (List (Ext K)))
    (hw : RectBody (.mat 2 rows)) (hl : 2 ≤ rows.length) (u : MUnit) (t : MType) (delta : Option (Ext K))
    (hu : UnitOk u t) (hun : u = .cm ∨ u = .cmps ∨ u = .cmpss ∨ u = .gal ∨ u = .g)
    (hbad : ∃ e ∈ (XBody.mat 2 rows).elems, ¬ FinElem e)
    (hv : ∃ r ∈ rows, ∃ v : K, v ≠ 0 ∧ r[1]? = some (.fin v)) :
    (∃ e, (motionGate ⟨b, .mat 2 rows⟩ u t delta).1 = .error e) ∧
      (motionGate ⟨b, .mat 2 rows⟩ u t delta).2 ≠ ⟨b, .mat 2 rows⟩ :=
  ⟨C138_motion_rejects _ hw u t delta hbad,
    (C138_argument_exact _ u t delta).2 ⟨rows, rfl, hl, hu, hun, hv⟩⟩

/-- The property fails for the array passed in: a two-column record with a NaN, given in g, is rejected, but its
accelerations have been multiplied by 9.81 already. -/
theorem C138_rejected_array_violated :
    ∃ x : XArr ℚ, RectBody x.body ∧ (motionGate x .g .accel none).1 = .error .valueError ∧
      (motionGate x .g .accel none).2 ≠ x := by
  refine ⟨⟨true, .mat 2 [[.fin 0, .fin 1], [.fin 1, .nan]]⟩, ?_, by decide +kernel, by decide +kernel⟩
  intro r hr
  simp only [List.mem_cons, List.not_mem_nil, or_false] at hr
  rcases hr with rfl | rfl <;> rfl

/-! ## Curves and scores -/

/-- A curve whose values are checked is made of finite, non-negative numbers which do not exceed the limit of its class,
and all such two-column arrays are accepted. -/
theorem C138_curve (x : XArg K) (hx : ∀ a, x = .arr a → RectBody a.body) (hi : Option K) :
    curveGate x hi true = .ok () ↔
      ∃ y : Rec K, x = .arr ⟨true, ofRec y⟩ ∧ ∀ p ∈ y, 0 ≤ p.1 ∧ 0 ≤ p.2 ∧ ∀ h, hi = some h → p.2 ≤ h := by
  have key : ∀ y : Rec K, extCol 1 (y.map fun p => [Ext.fin p.1, Ext.fin p.2]) = (y.map Prod.snd).map Ext.fin :=
    fun y => extCol_map 1 y _ Prod.snd (fun a => rfl)
  constructor
  · intro h
    cases hk : checkTwoColumn true false x with
    | error e => simp only [curveGate, hk, bind, Except.bind] at h; exact absurd h (by simp)
    | ok w =>
      obtain ⟨y, rfl, hy⟩ := (C138_two_column true x hx).1 hk
      refine ⟨y, rfl, fun p hp => ⟨(hy rfl p hp).1, (hy rfl p hp).2, ?_⟩⟩
      intro b hb
      simp only [curveGate, hk, bind, Except.bind, hb] at h
      simp only [ofRec, key] at h
      by_contra hlt
      rw [if_pos] at h
      · exact absurd h (by simp)
      · rw [Bool.true_and, Bool.or_eq_true]
        exact Or.inl (List.any_eq_true.2 ⟨.fin p.2, List.mem_map.2 ⟨p.2, List.mem_map.2 ⟨p, hp, rfl⟩, rfl⟩,
          by simpa [Ext.above] using hlt⟩)
  · rintro ⟨y, rfl, hy⟩
    have hk : checkTwoColumn true false (.arr (⟨true, ofRec y⟩ : XArr K)) = .ok () :=
      (C138_two_column true _ hx).2 ⟨y, rfl, fun _ p hp => ⟨(hy p hp).1, (hy p hp).2.1⟩⟩
    simp only [curveGate, hk, bind, Except.bind]
    cases hb : hi with
    | none => rfl
    | some b =>
      simp only [ofRec, key]
      rw [if_neg]
      rw [Bool.true_and, Bool.or_eq_true]
      rintro (hc | hc)
      · obtain ⟨e, he, hab⟩ := List.any_eq_true.1 hc
        obtain ⟨v, hv, rfl⟩ := List.mem_map.1 he
        obtain ⟨p, hp, rfl⟩ := List.mem_map.1 hv
        have : b < p.2 := by simpa [Ext.above] using hab
        exact absurd this (not_lt.2 ((hy p hp).2.2 b hb))
      · obtain ⟨e, he, hab⟩ := List.any_eq_true.1 hc
        obtain ⟨v, hv, rfl⟩ := List.mem_map.1 he
        obtain ⟨p, hp, rfl⟩ := List.mem_map.1 hv
        have : p.2 < 0 := by simpa [Ext.neg] using hab
        exact absurd this (not_lt.2 (hy p hp).2.1)

/-- Without the check of the values, a curve still consists of finite numbers. -/
theorem C138_curve_unchecked (x : XArg K) (hx : ∀ a, x = .arr a → RectBody a.body) (hi : Option K)
    (h : curveGate x hi false = .ok ()) : ∃ y : Rec K, x = .arr ⟨true, ofRec y⟩ := by
  cases hk : checkTwoColumn false false x with
  | error e => simp only [curveGate, hk, bind, Except.bind] at h; exact absurd h (by simp)
  | ok w =>
    obtain ⟨y, hy, -⟩ := (C138_two_column false x hx).1 hk
    exact ⟨y, hy⟩

/-- A score object is made exactly from two records of numbers of the same length. -/
theorem C138_scores (m s : XArg K) (hm : ∀ a, m = .arr a → RectBody a.body) (hs : ∀ a, s = .arr a → RectBody a.body) :
    scoresInit m s = .ok () ↔
      ∃ y z : Rec K, m = .arr ⟨true, ofRec y⟩ ∧ s = .arr ⟨true, ofRec z⟩ ∧ y.length = z.length := by
  constructor
  · intro h
    cases hk : checkTwoColumn false false m with
    | error e => simp only [scoresInit, hk, bind, Except.bind] at h; exact absurd h (by simp)
    | ok w =>
      cases hl : checkTwoColumn false false s with
      | error e => simp only [scoresInit, hk, hl, bind, Except.bind] at h; exact absurd h (by simp)
      | ok w' =>
        obtain ⟨y, rfl, -⟩ := (C138_two_column false m hm).1 hk
        obtain ⟨z, rfl, -⟩ := (C138_two_column false s hs).1 hl
        refine ⟨y, z, rfl, rfl, ?_⟩
        simp only [scoresInit, hk, hl, bind, Except.bind] at h
        simp only [ofRec, List.length_map] at h
        by_contra hc
        rw [if_pos hc] at h
        exact absurd h (by simp)
  · rintro ⟨y, z, rfl, rfl, hl⟩
    have hk : checkTwoColumn false false (.arr (⟨true, ofRec y⟩ : XArr K)) = .ok () :=
      (C138_two_column false _ hm).2 ⟨y, rfl, fun hc => by cases hc⟩
    have hk' : checkTwoColumn false false (.arr (⟨true, ofRec z⟩ : XArr K)) = .ok () :=
      (C138_two_column false _ hs).2 ⟨z, rfl, fun hc => by cases hc⟩
    simp only [scoresInit, hk, hk', bind, Except.bind]
    simp only [ofRec, List.length_map]
    rw [if_neg (by simpa using hl)]

/-- The property fails for curve matrices: every two-dimensional array whose number of columns is a multiple of four is
kept by `Multiple_GGmax_Damping_Curves(data=…)` and handed out again, with NaN elements (such as `np.genfromtxt` makes from
unreadable entries) and whatever its type. -/
theorem C138_matrix_violated :
    (∀ (num : Bool) (k : Nat) (rows : List (List (Ext K))),
      matrixInit (.arr ⟨num, .mat (4 * k) rows⟩) = .ok (.arr ⟨num, .mat (4 * k) rows⟩)) ∧
    matrixInit (.arr ⟨true, .mat 4 [[.fin 1, .nan, .fin 1, .pinf]]⟩ : XArg K) =
      .ok (.arr ⟨true, .mat 4 [[.fin 1, .nan, .fin 1, .pinf]]⟩) := by
  have h : ∀ (num : Bool) (k : Nat) (rows : List (List (Ext K))),
      matrixInit (.arr ⟨num, .mat (4 * k) rows⟩) = .ok (.arr ⟨num, .mat (4 * k) rows⟩) := by
    intro num k rows
    simp [matrixInit, assert2D, bind, Except.bind]
  exact ⟨h, h true 1 _⟩

/-- The property fails for spectra: a two-column array of at least two rows is kept whatever its elements are. -/
theorem C138_spectrum_violated :
    (∀ (num : Bool) (rows : List (List (Ext K))), 2 ≤ rows.length →
      spectrumInit ⟨num, .mat 2 rows⟩ none = .ok rows) ∧
    spectrumInit (⟨true, .mat 2 [[.fin 1, .nan], [.fin 2, .ninf]]⟩ : XArr K) none =
      .ok [[.fin 1, .nan], [.fin 2, .ninf]] := by
  have h : ∀ (num : Bool) (rows : List (List (Ext K))), 2 ≤ rows.length →
      spectrumInit ⟨num, .mat 2 rows⟩ none = .ok rows := by
    intro num rows hl
    simp only [spectrumInit, readTwoExt]
    rw [if_neg (by omega), if_true, if_neg (by omega)]
  exact ⟨h, h true _ (by simp)⟩

/-! ## Scalars and arrays -/

/-- A number or an array of the required length: the number is repeated, the array is returned as it is, and nothing else
is accepted. -/
theorem C138_length_or_extend (x : XArg K) (n : Int) (l : List (Ext K)) :
    lengthOrExtend x n = .ok l ↔
      (∃ v, x = .scalar v ∧ 0 ≤ n ∧ l = List.replicate n.toNat v) ∨
      (∃ num, x = .arr ⟨num, .vec l⟩ ∧ (l.length : Int) = n) := by
  match x with
  | .other => simp [lengthOrExtend, assertLength, assert1D, bind, Except.bind]
  | .scalar v =>
    simp only [lengthOrExtend, extendScalar]
    by_cases hn : n < 0
    · rw [if_pos hn]
      simp [hn]
    · rw [if_neg hn]
      simp [not_lt.1 hn, eq_comm (a := l)]
  | .arr ⟨num, .vec w⟩ =>
    simp only [lengthOrExtend, assertLength, assert1D, bind, Except.bind]
    by_cases hw : (w.length : Int) = n
    · rw [if_neg (not_not.2 hw)]
      constructor
      · intro h
        have e := Except.ok.inj h
        subst e
        exact Or.inr ⟨num, rfl, hw⟩
      · rintro (⟨v, hv, -⟩ | ⟨m, hm, -⟩)
        · cases hv
        · cases hm; rfl
    · rw [if_pos hw]
      constructor
      · intro h; exact absurd h (by simp)
      · rintro (⟨v, hv, -⟩ | ⟨m, hm, hl⟩)
        · cases hv
        · cases hm; exact absurd hl hw
  | .arr ⟨num, .mat c rows⟩ => simp [lengthOrExtend, assertLength, assert1D, bind, Except.bind]
  | .arr ⟨num, .nd w⟩ => simp [lengthOrExtend, assertLength, assert1D, bind, Except.bind]

end

/-- An infinite damping ratio is refused, the same profile with a number is accepted. -/
example : checkVsExt (.arr ⟨true, .mat 5 [[.fin 10, .fin 200, .pinf, .fin 1800, .fin 1],
      [.fin 0, .fin 800, .fin (1/100), .fin 2000, .fin 0]]⟩ : XArg ℚ) = .error .valueError ∧
    checkVsExt (.arr ⟨true, .mat 5 [[.fin 10, .fin 200, .fin (2/100), .fin 1800, .fin 1],
      [.fin 0, .fin 800, .fin (1/100), .fin 2000, .fin 0]]⟩ : XArg ℚ) = .ok () := by
  decide +kernel

/-- A record in one column with a time step, in cm/s². -/
example : (motionGate (⟨true, .vec [.fin 100, .fin (-200), .fin 0]⟩ : XArr ℚ) .cmpss .accel (some (.fin (1/2)))).1 =
    .ok [[.fin (1/2), .fin 1], [.fin 1, .fin (-2)], [.fin (3/2), .fin 0]] := by
  decide +kernel

end Verif
