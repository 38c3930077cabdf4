import Verif.Model.CurveSets
import Verif.Props.ParamCurves
import Verif.Props.Compare
import Verif.Props.Batch
import Verif.Proof.EquivLinear

set_option linter.unusedSectionVars false
set_option linter.unusedVariables false

/-!
Property C132: curve matrices and curve containers hold the same curves.
-/

namespace Verif

open Spec (interleave nonnegMat)

namespace Spec

/-- The columns of the matrix of some G/Gmax and damping curves: strain, G/Gmax, strain, damping for every layer. -/
def curveColumns (gs ds : List Pts) : List (List ℝ) :=
  (List.zipWith (fun g d : Pts => [g.map Prod.fst, g.map Prod.snd, d.map Prod.fst, d.map Prod.snd]) gs ds).flatten

/-- All columns have the stated number of entries. -/
def Rect (m : CMat ℝ) : Prop := ∀ c ∈ m.cols, c.length = m.nrow

/-- Strains not negative, values from 0 to `hi`. -/
def ValidPts (hi : ℝ) (c : Pts) : Prop := ∀ p ∈ c, 0 ≤ p.1 ∧ 0 ≤ p.2 ∧ p.2 ≤ hi

end Spec

open Spec (curveColumns Rect ValidPts)

theorem zip_unzip_pts (c : Pts) : (c.map Prod.fst).zip (c.map Prod.snd) = c := by
  induction c with
  | nil => rfl
  | cons p c ih => rw [List.map_cons, List.map_cons, List.zip_cons_cons, ih]

theorem map_fst_zip_eq {e v : List ℝ} (h : e.length = v.length) : (e.zip v).map Prod.fst = e ∧ (e.zip v).map Prod.snd = v :=
  ⟨List.map_fst_zip (by omega), List.map_snd_zip (by omega)⟩

theorem curveOf_valid (n : Nat) (c : Pts) :
    (ValidPts 1 c → curveOf .ggmax ⟨n, [c.map Prod.fst, c.map Prod.snd]⟩ = .ok c) ∧
    (¬ ValidPts 1 c → curveOf .ggmax ⟨n, [c.map Prod.fst, c.map Prod.snd]⟩ = .error .valueError) ∧
    (ValidPts 100 c → curveOf (.damping .pct) ⟨n, [c.map Prod.fst, c.map Prod.snd]⟩ = .ok c) ∧
    (¬ ValidPts 100 c → curveOf (.damping .pct) ⟨n, [c.map Prod.fst, c.map Prod.snd]⟩ = .error .valueError) := by
  have hz := zip_unzip_pts c
  have hb : mkBase [c] 0 .pct none true =
      if ∃ p ∈ c, p.1 < 0 ∨ p.2 < 0 then (.error .valueError, [c]) else (.ok (.view 0), [c]) := by
    unfold mkBase
    simp only [List.getElem?_cons_zero, true_and]
  have hr : ∀ hi : ℝ, rangeCheck [c] (.view 0) hi true =
      if ∃ p ∈ c, hi < p.2 ∨ p.2 < 0 then (.error .valueError, [c]) else (.ok (.view 0), [c]) := by
    intro hi
    unfold rangeCheck
    simp only [Where.read, List.getElem?_cons_zero, Option.getD_some, true_and]
  have key : ∀ hi : ℝ, (ValidPts hi c → (¬ ∃ p ∈ c, p.1 < 0 ∨ p.2 < 0) ∧ ¬ ∃ p ∈ c, hi < p.2 ∨ p.2 < 0) ∧
      (¬ ValidPts hi c → (∃ p ∈ c, p.1 < 0 ∨ p.2 < 0) ∨ ∃ p ∈ c, hi < p.2 ∨ p.2 < 0) := by
    intro hi
    constructor
    · intro h
      constructor
      · rintro ⟨p, hp, h1 | h1⟩
        · exact absurd (h p hp).1 (not_le.2 h1)
        · exact absurd (h p hp).2.1 (not_le.2 h1)
      · rintro ⟨p, hp, h1 | h1⟩
        · exact absurd (h p hp).2.2 (not_le.2 h1)
        · exact absurd (h p hp).2.1 (not_le.2 h1)
    · intro h
      by_contra hc
      push Not at hc
      exact h fun p hp => ⟨(hc.1 p hp).1, (hc.1 p hp).2, (hc.2 p hp).1⟩
  refine ⟨fun h => ?_, fun h => ?_, fun h => ?_, fun h => ?_⟩
  · obtain ⟨h1, h2⟩ := (key 1).1 h
    unfold curveOf mkCurve
    simp only [hz, hb, if_neg h1, finishCurve, hr, if_neg h2, Where.read, List.getElem?_cons_zero, Option.getD_some]
  · unfold curveOf mkCurve
    by_cases h1 : ∃ p ∈ c, p.1 < 0 ∨ p.2 < 0
    · simp only [hz, hb, if_pos h1]
    · have h2 := ((key 1).2 h).resolve_left h1
      simp only [hz, hb, if_neg h1, finishCurve, hr, if_pos h2]
  · obtain ⟨h1, h2⟩ := (key 100).1 h
    unfold curveOf mkCurve
    simp only [hz, hb, if_neg h1, finishCurve, hr, if_neg h2, Where.read, List.getElem?_cons_zero, Option.getD_some]
  · unfold curveOf mkCurve
    by_cases h1 : ∃ p ∈ c, p.1 < 0 ∨ p.2 < 0
    · simp only [hz, hb, if_pos h1]
    · have h2 := ((key 100).2 h).resolve_left h1
      simp only [hz, hb, if_neg h1, finishCurve, hr, if_pos h2]

/-- The two-column matrix of a curve. -/
def ptsMat (n : Nat) (c : Pts) : CMat ℝ := ⟨n, [c.map Prod.fst, c.map Prod.snd]⟩

theorem curveColumns_length : ∀ (gs ds : List Pts), gs.length = ds.length → (curveColumns gs ds).length = 4 * gs.length
  | [], [], _ => rfl
  | g :: gs, d :: ds, h => by
    have := curveColumns_length gs ds (by simpa using h)
    unfold curveColumns at this ⊢
    rw [List.zipWith_cons_cons, List.flatten_cons, List.length_append, this, List.length_cons]
    simp only [List.length_cons, List.length_nil]
    omega
  | [], _ :: _, h => by simp at h
  | _ :: _, [], h => by simp at h

theorem curveColumns_cons (g d : Pts) (gs ds : List Pts) : curveColumns (g :: gs) (d :: ds) =
    [g.map Prod.fst, g.map Prod.snd, d.map Prod.fst, d.map Prod.snd] ++ curveColumns gs ds := by
  unfold curveColumns
  rw [List.zipWith_cons_cons, List.flatten_cons]

/-- Columns of one length, four for every layer, are the columns of some curves. -/
theorem curveColumns_exists (L : Nat) : ∀ (n : Nat) (cols : List (List ℝ)), cols.length = 4 * n → (∀ c ∈ cols, c.length = L) →
    ∃ gs ds : List Pts, gs.length = n ∧ ds.length = n ∧ cols = curveColumns gs ds ∧ (∀ g ∈ gs, g.length = L) ∧
      ∀ d ∈ ds, d.length = L
  | 0, cols, h, _ => ⟨[], [], rfl, rfl, by rw [List.length_eq_zero_iff.1 (show cols.length = 0 by omega)]; rfl, by simp, by simp⟩
  | n + 1, cols, h, hr => by
    match cols, h with
    | a :: b :: c :: d :: rest, h =>
      obtain ⟨gs, ds, h1, h2, h3, h4, h5⟩ := curveColumns_exists L n rest (by simp only [List.length_cons] at h; omega)
        fun x hx => hr x (by simp [hx])
      have ha := hr a (by simp)
      have hb := hr b (by simp)
      have hc := hr c (by simp)
      have hd := hr d (by simp)
      have e1 := map_fst_zip_eq (e := a) (v := b) (by omega)
      have e2 := map_fst_zip_eq (e := c) (v := d) (by omega)
      refine ⟨a.zip b :: gs, c.zip d :: ds, by simp [h1], by simp [h2], ?_, ?_, ?_⟩
      · rw [curveColumns_cons, e1.1, e1.2, e2.1, e2.2, ← h3]; rfl
      · intro g hg
        rcases List.mem_cons.1 hg with rfl | hg
        · rw [List.length_zip]; omega
        · exact h4 g hg
      · intro g hg
        rcases List.mem_cons.1 hg with rfl | hg
        · rw [List.length_zip]; omega
        · exact h5 g hg

theorem pts_ext {c c' : Pts} (h1 : c.map Prod.fst = c'.map Prod.fst) (h2 : c.map Prod.snd = c'.map Prod.snd) : c = c' := by
  rw [← zip_unzip_pts c, ← zip_unzip_pts c', h1, h2]

/-- The columns determine the curves. -/
theorem curveColumns_inj : ∀ (gs ds gs' ds' : List Pts), gs.length = ds.length → gs'.length = ds'.length →
    curveColumns gs ds = curveColumns gs' ds' → gs = gs' ∧ ds = ds'
  | [], [], [], [], _, _, _ => ⟨rfl, rfl⟩
  | [], [], g :: gs, d :: ds, _, _, h => by rw [curveColumns_cons] at h; cases h
  | g :: gs, d :: ds, [], [], _, _, h => by rw [curveColumns_cons] at h; cases h
  | g :: gs, d :: ds, g' :: gs', d' :: ds', hl, hl', h => by
    rw [curveColumns_cons, curveColumns_cons] at h
    simp only [List.cons_append, List.nil_append, List.cons.injEq] at h
    obtain ⟨h1, h2, h3, h4, h5⟩ := h
    obtain ⟨i1, i2⟩ := curveColumns_inj gs ds gs' ds' (by simpa using hl) (by simpa using hl') h5
    rw [pts_ext h1 h2, pts_ext h3 h4, i1, i2]
    exact ⟨rfl, rfl⟩
  | [], _ :: _, _, _, h, _, _ => by simp at h
  | _ :: _, [], _, _, h, _, _ => by simp at h
  | _, _, [], _ :: _, _, h, _ => by simp at h
  | _, _, _ :: _, [], _, h, _ => by simp at h

theorem interleave_cols (n : Nat) : ∀ (gs ds : List (CMat ℝ)) (g d : List Pts),
    gs.length = g.length → ds.length = d.length → g.length = d.length → (∀ x ∈ gs, x.cols.length = 2 ∧ x.nrow = n) →
    (∀ x ∈ ds, x.cols.length = 2 ∧ x.nrow = n) →
    interleave gs ds = curveColumns g d → gs = g.map (ptsMat n) ∧ ds = d.map (ptsMat n)
  | [], [], [], [], _, _, _, _, _, _ => ⟨rfl, rfl⟩
  | a :: gs, b :: ds, g :: gs', d :: ds', hl1, hl2, hl3, hg, hd, h => by
    obtain ⟨g1, g2⟩ := hg a List.mem_cons_self
    obtain ⟨d1, d2⟩ := hd b List.mem_cons_self
    obtain ⟨gn, gc⟩ := a
    obtain ⟨dn, dc⟩ := b
    simp only at g1 g2 d1 d2
    subst g2 d2
    match gc, dc, g1, d1 with
    | [a, b], [c, e], _, _ =>
      rw [curveColumns_cons] at h
      simp only [interleave, List.cons_append, List.nil_append, List.cons.injEq] at h
      obtain ⟨rfl, rfl, rfl, rfl, h⟩ := h
      obtain ⟨i1, i2⟩ := interleave_cols _ gs ds gs' ds' (by simpa using hl1) (by simpa using hl2) (by simpa using hl3)
        (fun x hx => hg x (List.mem_cons_of_mem _ hx)) (fun x hx => hd x (List.mem_cons_of_mem _ hx)) h
      exact ⟨by rw [List.map_cons, ← i1]; rfl, by rw [List.map_cons, ← i2]; rfl⟩
  | [], _, _ :: _, _, hl, _, _, _, _, _ => by simp at hl
  | _ :: _, _, [], _, hl, _, _, _, _, _ => by simp at hl
  | _, [], _, _ :: _, _, hl, _, _, _, _ => by simp at hl
  | _, _ :: _, _, [], _, hl, _, _, _, _ => by simp at hl

theorem extract_columns (L : Nat) (gs ds : List Pts) (h : gs.length = ds.length) (nn : Bool)
    (hn : nn = true → nonnegMat (⟨L, curveColumns gs ds⟩ : CMat ℝ)) :
    extractCurves ⟨L, curveColumns gs ds⟩ nn = .ok (gs.map (ptsMat L), ds.map (ptsMat L)) := by
  have hl := curveColumns_length gs ds h
  obtain ⟨a, b, h1, h2, h3, h4, h5, h6⟩ := C17_split ⟨L, curveColumns gs ds⟩ nn (by simp only; omega) hn
  simp only [hl] at h2 h3
  obtain ⟨i1, i2⟩ := interleave_cols L a b gs ds (by omega) (by omega) h h5 h6 h4
  rw [h1, i1, i2]

theorem mapM_curves (hi : ℝ) (kind : CurveKind) (L : Nat)
    (hk : ∀ c : Pts, (ValidPts hi c → curveOf kind (ptsMat L c) = .ok c) ∧
      (¬ ValidPts hi c → curveOf kind (ptsMat L c) = .error .valueError)) (cs : List Pts) :
    ((∀ c ∈ cs, ValidPts hi c) → (cs.map (ptsMat L)).mapM (curveOf kind) = .ok cs) ∧
    ((∃ c ∈ cs, ¬ ValidPts hi c) → (cs.map (ptsMat L)).mapM (curveOf kind) = .error .valueError) := by
  constructor
  · intro h
    apply mapM_exc_of
    rw [List.forall₂_map_left_iff]
    apply List.forall₂_same.2
    exact fun c hc => (hk c).1 (h c hc)
  · rintro ⟨c, hc, hv⟩
    apply mapM_some_error
    · intro a ha
      obtain ⟨x, _, rfl⟩ := List.mem_map.1 ha
      by_cases h : ValidPts hi x
      · exact .inl ⟨_, (hk x).1 h⟩
      · exact .inr ((hk x).2 h)
    · exact ⟨_, List.mem_map.2 ⟨c, hc, rfl⟩, (hk c).2 hv⟩

theorem gg_kind (L : Nat) (c : Pts) : (ValidPts 1 c → curveOf .ggmax (ptsMat L c) = .ok c) ∧
    (¬ ValidPts 1 c → curveOf .ggmax (ptsMat L c) = .error .valueError) :=
  ⟨(curveOf_valid L c).1, (curveOf_valid L c).2.1⟩

theorem xi_kind (L : Nat) (c : Pts) : (ValidPts 100 c → curveOf (.damping .pct) (ptsMat L c) = .ok c) ∧
    (¬ ValidPts 100 c → curveOf (.damping .pct) (ptsMat L c) = .error .valueError) :=
  ⟨(curveOf_valid L c).2.2.1, (curveOf_valid L c).2.2.2⟩

/-! ## C132 -/

/-- The constructor: a pair of containers is accepted iff they have as many layers, a matrix iff its number of columns is a
multiple of four; the number of layers is the number of curves of each kind. -/
theorem C132_construct (gs ds : List Pts) (m : CMat ℝ) :
    (gs.length = ds.length → csetOfPair gs ds = .ok ⟨.pair gs ds, gs.length⟩) ∧
    (gs.length ≠ ds.length → csetOfPair gs ds = .error .valueError) ∧
    (∀ n, m.cols.length = 4 * n → csetOfData m = .ok ⟨.data m, n⟩) ∧
    ((∀ n, m.cols.length ≠ 4 * n) → csetOfData m = .error .valueError) := by
  unfold csetOfPair csetOfData mgdInit
  refine ⟨fun h => ?_, fun h => ?_, fun n h => ?_, fun h => ?_⟩
  · simp only [h, ne_eq, not_true_eq_false, if_false]
  · simp only [ne_eq, h, not_false_eq_true, if_true]
  · simp only [h]
    rw [if_neg (by omega)]
    simp
  · simp only
    rw [if_pos]
    intro hc
    exact h (m.cols.length / 4) (by omega)

/-- Asking a matrix for its curve objects: the curves are the ones in its columns, layer by layer, if all their values are
valid, and ValueError is raised otherwise. -/
theorem C132_objects (m : CMat ℝ) (n : Nat) (c : CSet) (hr : Rect m) (h4 : m.cols.length = 4 * n) (hc : csetOfData m = .ok c) :
    c.nLayer = n ∧
    (∀ gs ds, csetObjects c = .ok (gs, ds) ↔
      gs.length = n ∧ ds.length = n ∧ m.cols = curveColumns gs ds ∧ (∀ g ∈ gs, ValidPts 1 g) ∧ ∀ d ∈ ds, ValidPts 100 d) ∧
    (∀ e, csetObjects c = .error e → e = .valueError) := by
  rw [(C132_construct [] [] m).2.2.1 n h4] at hc
  cases hc
  obtain ⟨g0, d0, l1, l2, hcols, _, _⟩ := curveColumns_exists m.nrow n m.cols h4 hr
  have hm : m = ⟨m.nrow, curveColumns g0 d0⟩ := by rw [← hcols]
  have hex := extract_columns m.nrow g0 d0 (by omega) false (by simp)
  rw [← hm] at hex
  have hg := mapM_curves 1 .ggmax m.nrow (gg_kind m.nrow) g0
  have hd := mapM_curves 100 (.damping .pct) m.nrow (xi_kind m.nrow) d0
  have hobj : csetObjects ⟨.data m, n⟩ = (do
      let g ← (g0.map (ptsMat m.nrow)).mapM (curveOf .ggmax)
      let x ← (d0.map (ptsMat m.nrow)).mapM (curveOf (.damping .pct))
      return (g, x)) := by
    unfold csetObjects
    simp only [bind, Except.bind, hex]
  refine ⟨rfl, fun gs ds => ?_, fun e he => ?_⟩
  · rw [hobj]
    by_cases h1 : ∀ g ∈ g0, ValidPts 1 g
    · by_cases h2 : ∀ d ∈ d0, ValidPts 100 d
      · simp only [bind, Except.bind, hg.1 h1, hd.1 h2, pure, Except.pure]
        constructor
        · intro h
          cases h
          exact ⟨l1, l2, hcols, h1, h2⟩
        · rintro ⟨a, b, h, _, _⟩
          rw [hcols] at h
          obtain ⟨rfl, rfl⟩ := curveColumns_inj g0 d0 gs ds (by omega) (by omega) h
          rfl
      · have h2' : ∃ d ∈ d0, ¬ ValidPts 100 d := by push Not at h2; exact h2
        simp only [bind, Except.bind, hg.1 h1, hd.2 h2']
        constructor
        · intro h; cases h
        · rintro ⟨a, b, h, _, hv⟩
          rw [hcols] at h
          obtain ⟨rfl, rfl⟩ := curveColumns_inj g0 d0 gs ds (by omega) (by omega) h
          exact absurd hv h2
    · have h1' : ∃ d ∈ g0, ¬ ValidPts 1 d := by push Not at h1; exact h1
      simp only [bind, Except.bind, hg.2 h1']
      constructor
      · intro h; cases h
      · rintro ⟨a, b, h, hv, _⟩
        rw [hcols] at h
        obtain ⟨rfl, rfl⟩ := curveColumns_inj g0 d0 gs ds (by omega) (by omega) h
        exact absurd hv h1
  · rw [hobj] at he
    by_cases h1 : ∀ g ∈ g0, ValidPts 1 g
    · by_cases h2 : ∀ d ∈ d0, ValidPts 100 d
      · simp only [bind, Except.bind, hg.1 h1, hd.1 h2, pure, Except.pure] at he
        cases he
      · have h2' : ∃ d ∈ d0, ¬ ValidPts 100 d := by push Not at h2; exact h2
        simp only [bind, Except.bind, hg.1 h1, hd.2 h2'] at he
        cases he; rfl
    · have h1' : ∃ d ∈ g0, ¬ ValidPts 1 d := by push Not at h1; exact h1
      simp only [bind, Except.bind, hg.2 h1'] at he
      cases he; rfl

theorem longest_same (L : Nat) : ∀ (cs : List Pts), cs ≠ [] → (∀ c ∈ cs, c.length = L) → longest cs = L
  | [], h, _ => absurd rfl h
  | [c], _, h => by simp [longest, h c (by simp)]
  | c :: d :: cs, _, h => by
    have := longest_same L (d :: cs) (by simp) fun x hx => h x (List.mem_cons_of_mem _ hx)
    unfold longest at this ⊢
    rw [List.map_cons, List.foldr_cons, this, h c (by simp)]
    simp

theorem level_same (L : Nat) (cs : List Pts) (hne : cs ≠ []) (h : ∀ c ∈ cs, c.length = L) : levelCurves cs = .ok cs := by
  unfold levelCurves
  rw [if_neg hne, longest_same L cs hne h]
  apply mapM_exc_of
  apply List.forall₂_same.2
  intro c hc
  rw [if_pos (h c hc)]

theorem pair_matrix (gs ds gl dl : List Pts) (L n : Nat) (hne : gl ≠ []) (hl : gl.length = dl.length)
    (hg : levelCurves gs = .ok gl) (hd : levelCurves ds = .ok dl) (hgL : ∀ c ∈ gl, c.length = L) (hdL : ∀ c ∈ dl, c.length = L) :
    csetMatrix ⟨.pair gs ds, n⟩ = .ok ⟨L, curveColumns gl dl⟩ := by
  obtain ⟨m, h1, h2, h3⟩ := C17_assemble (K := ℝ) (fun c _ => c) (gl.map fun c => (c.map Prod.fst, c.map Prod.snd))
    (dl.map fun c => (c.map Prod.fst, c.map Prod.snd)) L (by simpa using hne) (by simpa using hl)
    (by intro c hc; obtain ⟨x, hx, rfl⟩ := List.mem_map.1 hc; simpa using hgL x hx)
    (by intro c hc; obtain ⟨x, hx, rfl⟩ := List.mem_map.1 hc; simpa using hdL x hx)
  have : csetMatrix ⟨.pair gs ds, n⟩ = fullMatrix (fun c _ => c) (gl.map fun c => (c.map Prod.fst, c.map Prod.snd))
      (dl.map fun c => (c.map Prod.fst, c.map Prod.snd)) := by
    unfold csetMatrix fullMatrix containerMatrix
    simp only [hg, hd]
  rw [this, h1]
  obtain ⟨a, b⟩ := m
  simp only at h2 h3
  subst h2
  congr 2
  rw [h3]
  unfold curveColumns
  congr 1
  rw [List.zipWith_map]

/-- The matrix of two containers whose curves all have the same number of points is made of these curves, and asking it for
its curve objects returns them. -/
theorem C132_pair_roundtrip (gs ds : List Pts) (L : Nat) (c : CSet) (hne : gs ≠ []) (hg : ∀ g ∈ gs, g.length = L)
    (hd : ∀ d ∈ ds, d.length = L) (hc : csetOfPair gs ds = .ok c) :
    ∃ m c', csetMatrix c = .ok m ∧ Rect m ∧ m.nrow = L ∧ m.cols = curveColumns gs ds ∧ csetObjects c = .ok (gs, ds) ∧
      csetOfData m = .ok c' ∧ c'.nLayer = c.nLayer ∧
      ((∀ g ∈ gs, ValidPts 1 g) → (∀ d ∈ ds, ValidPts 100 d) → csetObjects c' = .ok (gs, ds)) := by
  have hl : gs.length = ds.length := by
    by_contra h
    rw [(C132_construct gs ds ⟨0, []⟩).2.1 h] at hc; cases hc
  rw [(C132_construct gs ds ⟨0, []⟩).1 hl] at hc
  cases hc
  have hdne : ds ≠ [] := by intro h; rw [h] at hl; exact hne (List.length_eq_zero_iff.1 hl)
  have hm := pair_matrix gs ds gs ds L gs.length hne hl (level_same L gs hne hg) (level_same L ds hdne hd) hg hd
  have hlen := curveColumns_length gs ds hl
  have hrect : Rect ⟨L, curveColumns gs ds⟩ := by
    intro x hx
    have hx' : x ∈ curveColumns gs ds := hx
    unfold curveColumns at hx'
    obtain ⟨b, hb, hxb⟩ := List.mem_flatten.1 hx'
    obtain ⟨g, d, hgd, rfl⟩ : ∃ g d, (g, d) ∈ gs.zip ds ∧ [g.map Prod.fst, g.map Prod.snd, d.map Prod.fst, d.map Prod.snd] = b := by
      rw [← List.map_uncurry_zip_eq_zipWith] at hb
      obtain ⟨p, hp, rfl⟩ := List.mem_map.1 hb
      exact ⟨p.1, p.2, hp, rfl⟩
    have hg' := hg g (List.of_mem_zip hgd).1
    have hd' := hd d (List.of_mem_zip hgd).2
    simp only [List.mem_cons, List.not_mem_nil, or_false] at hxb
    rcases hxb with rfl | rfl | rfl | rfl <;> simpa
  have hcd := (C132_construct [] [] ⟨L, curveColumns gs ds⟩).2.2.1 gs.length hlen
  refine ⟨_, _, hm, hrect, rfl, rfl, rfl, hcd, rfl, fun hv hw => ?_⟩
  exact ((C132_objects _ gs.length _ hrect hlen hcd).2.1 gs ds).2 ⟨rfl, hl.symm, rfl, hv, hw⟩

/-- A matrix with at least one layer that is turned into curve objects and back is the same matrix. -/
theorem C132_matrix_roundtrip (m : CMat ℝ) (n : Nat) (c : CSet) (gs ds : List Pts) (hr : Rect m) (hn : 0 < n)
    (h4 : m.cols.length = 4 * n) (hc : csetOfData m = .ok c) (ho : csetObjects c = .ok (gs, ds)) :
    ∃ c', csetOfPair gs ds = .ok c' ∧ c'.nLayer = c.nLayer ∧ csetMatrix c' = .ok m ∧ csetMatrix c = .ok m := by
  obtain ⟨h1, h2, h3⟩ := C132_objects m n c hr h4 hc
  obtain ⟨l1, l2, hcols, hv, hw⟩ := (h2 gs ds).1 ho
  obtain ⟨g0, d0, k1, k2, k3, k4, k5⟩ := curveColumns_exists m.nrow n m.cols h4 hr
  rw [hcols] at k3
  obtain ⟨rfl, rfl⟩ := curveColumns_inj gs ds g0 d0 (by omega) (by omega) k3
  have hne : gs ≠ [] := by intro h; rw [h] at l1; simp at l1; omega
  have hp := (C132_construct gs ds ⟨0, []⟩).1 (by omega)
  obtain ⟨m', c', e1, e2, e3, e4, _⟩ := C132_pair_roundtrip gs ds m.nrow _ hne k4 k5 hp
  have hmm : m' = m := by
    obtain ⟨a, b⟩ := m
    obtain ⟨a', b'⟩ := m'
    simp only at e3 e4 hcols
    rw [e3, e4, hcols]
  have hcm : csetMatrix c = .ok m := by
    rw [(C132_construct [] [] m).2.2.1 n h4] at hc
    cases hc; rfl
  exact ⟨_, hp, by rw [h1]; exact l1, by rw [e1, hmm], hcm⟩

/-- C132 fails when the longest G/Gmax curve and the longest damping curve have different numbers of points: the pair is
accepted but its matrix cannot be made (ValueError), although every curve is brought to the longest one of its own kind. -/
theorem C132_lengths_violated (gs ds gl dl : List Pts) (hl : gs.length = ds.length) (hne : gs ≠ [])
    (hg : levelCurves gs = .ok gl) (hd : levelCurves ds = .ok dl) (hgL : ∀ c ∈ gl, c.length = longest gs)
    (hdL : ∀ c ∈ dl, c.length = longest ds) (hdiff : longest gs ≠ longest ds) :
    csetOfPair gs ds = .ok ⟨.pair gs ds, gs.length⟩ ∧ csetMatrix ⟨.pair gs ds, gs.length⟩ = .error .valueError := by
  refine ⟨(C132_construct gs ds ⟨0, []⟩).1 hl, ?_⟩
  have hnrow : ∀ (gg : Bool) (cs l : List Pts), levelCurves cs = .ok l → cs ≠ [] → (∀ c ∈ l, c.length = longest cs) →
      ∃ m, containerMatrix gg 1 cs = .ok m ∧ m.nrow = longest cs := by
    intro gg cs l h hne hL
    unfold containerMatrix
    have hlne : l ≠ [] := by
      intro hc
      unfold levelCurves at h
      rw [if_neg hne] at h
      have := mapM_len_eq h
      rw [hc] at this
      exact hne (List.length_eq_zero_iff.1 (by simpa using this.symm))
    rw [h]
    cases l with
    | nil => exact absurd rfl hlne
    | cons a l =>
      refine ⟨_, rfl, ?_⟩
      have := longest_same (longest cs) (a :: l) (by simp) hL
      unfold longest at this ⊢
      simp only [List.map_map]
      rw [← this]
      congr 1
      apply List.map_congr_left
      intro c _
      simp
  have hdne : ds ≠ [] := by intro h; rw [h] at hl; exact hne (List.length_eq_zero_iff.1 hl)
  obtain ⟨m1, a1, a2⟩ := hnrow true gs gl hg hne hgL
  obtain ⟨m2, b1, b2⟩ := hnrow false ds dl hd hdne hdL
  unfold csetMatrix
  simp only [bind, Except.bind, a1, b1]
  exact C17_merge_rejects m1 m2 (.inr (.inr (.inr (by rw [a2, b2]; exact hdiff))))

/-- C132 fails for values out of range: the constructor accepts a matrix whose curves are not valid (`get_curve_matrix`
returns it), and only asking for the curve objects raises ValueError. -/
theorem C132_late_check_violated (m : CMat ℝ) (gs ds : List Pts) (hr : Rect m) (hl : gs.length = ds.length)
    (hcols : m.cols = curveColumns gs ds) (hbad : (∃ g ∈ gs, ¬ ValidPts 1 g) ∨ ∃ d ∈ ds, ¬ ValidPts 100 d) :
    ∃ c, csetOfData m = .ok c ∧ csetMatrix c = .ok m ∧ csetObjects c = .error .valueError := by
  have h4 : m.cols.length = 4 * gs.length := by rw [hcols, curveColumns_length gs ds hl]
  have hc := (C132_construct [] [] m).2.2.1 gs.length h4
  obtain ⟨_, h2, h3⟩ := C132_objects m gs.length _ hr h4 hc
  refine ⟨_, hc, rfl, ?_⟩
  cases ho : csetObjects ⟨.data m, gs.length⟩ with
  | error e => rw [h3 e ho]
  | ok r =>
    obtain ⟨a, b⟩ := r
    obtain ⟨q1, q2, q3, q4, q5⟩ := (h2 a b).1 ho
    rw [hcols] at q3
    obtain ⟨rfl, rfl⟩ := curveColumns_inj gs ds a b hl (by omega) q3
    rcases hbad with ⟨g, hg, hv⟩ | ⟨d, hd, hv⟩
    · exact absurd (q4 g hg) hv
    · exact absurd (q5 d hd) hv

/-! ### Resampling -/

namespace Spec

/-- `(x, y)` is a point of the curve, or lies on the segment between two consecutive points. -/
def OnCurve (c : Pts) (x y : ℝ) : Prop :=
  (x, y) ∈ c ∨ ∃ (k : Nat) (p q : ℝ × ℝ), c[k]? = some p ∧ c[k + 1]? = some q ∧ p.1 ≤ x ∧ x ≤ q.1 ∧
    (y - p.2) * (q.1 - p.1) = (q.2 - p.2) * (x - p.1)

/-- `r` is the curve `c` given at `L` strains: same first and last point, increasing strains, points on `c`. -/
structure Resampled (c r : Pts) (L : Nat) : Prop where
  len : r.length = L
  first : r.head? = c.head?
  last : r.getLast? = c.getLast?
  inc : 2 ≤ c.length → (r.map Prod.fst).Pairwise (· < ·)
  on : ∀ p ∈ r, OnCurve c p.1 p.2

/-- A curve that can be resampled: it has points, its strains are positive and increase. -/
def Positive (c : Pts) : Prop := c ≠ [] ∧ (∀ p ∈ c, 0 < p.1) ∧ (c.map Prod.fst).Pairwise (· < ·)

end Spec

open Spec (OnCurve Resampled Positive)

theorem OnCurve_cons {c : Pts} {a : ℝ × ℝ} {x y : ℝ} (h : OnCurve c x y) : OnCurve (a :: c) x y := by
  rcases h with h | ⟨k, p, q, h1, h2, h3⟩
  · exact .inl (List.mem_cons_of_mem _ h)
  · exact .inr ⟨k + 1, p, q, by simpa using h1, by simpa using h2, h3⟩

theorem interpFrom_onCurve (x : ℝ) : ∀ (l : Pts) (p : ℝ × ℝ), ((p :: l).map Prod.fst).Pairwise (· < ·) → p.1 ≤ x →
    (∃ q ∈ p :: l, x ≤ q.1) → OnCurve (p :: l) x (interpFrom x p l)
  | [], p, _, h1, ⟨q, hq, h2⟩ => by
    rw [List.mem_singleton] at hq
    subst hq
    have : x = q.1 := le_antisymm h2 h1
    exact .inl (by rw [this]; exact List.mem_singleton_self _)
  | q :: l, p, hi, h1, ⟨w, hw, h2⟩ => by
    have hi' := hi
    rw [List.map_cons, List.map_cons, List.pairwise_cons] at hi'
    obtain ⟨i1, i2⟩ := hi'
    unfold interpFrom
    by_cases hx : x < q.1
    · rw [if_pos hx]
      by_cases hp : x ≤ p.1
      · rw [if_pos hp]
        have : x = p.1 := le_antisymm hp h1
        exact .inl (by rw [this]; exact List.mem_cons_self)
      · rw [if_neg hp]
        refine .inr ⟨0, p, q, rfl, rfl, h1, hx.le, ?_⟩
        have hpq : q.1 - p.1 ≠ 0 := sub_ne_zero.2 (i1 q.1 (by simp)).ne'
        field_simp
        ring
    · rw [if_neg hx]
      refine OnCurve_cons (interpFrom_onCurve x l q (by rw [List.map_cons]; exact i2) (not_lt.1 hx) ?_)
      rcases List.mem_cons.1 hw with rfl | hw
      · exact ⟨q, List.mem_cons_self, le_trans h2 (i1 q.1 (by simp)).le⟩
      · exact ⟨w, hw, h2⟩

theorem foldl_min_first : ∀ (l : List ℝ) (a : ℝ), (∀ b ∈ l, a ≤ b) → l.foldl min a = a
  | [], a, _ => rfl
  | b :: l, a, h => by
    rw [List.foldl_cons, min_eq_left (h b (by simp))]
    exact foldl_min_first l a fun c hc => h c (by simp [hc])

theorem foldl_max_last : ∀ (l : List ℝ) (a : ℝ), (a :: l).Pairwise (· < ·) →
    l.foldl max a = (a :: l).getLast (List.cons_ne_nil _ _)
  | [], a, _ => rfl
  | b :: l, a, h => by
    rw [List.pairwise_cons] at h
    rw [List.foldl_cons, max_eq_right (h.1 b (by simp)).le, foldl_max_last l b h.2, List.getLast_cons (a := a)]

theorem foldl_min_zero : ∀ (l : List ℝ) (a : ℝ), 0 ≤ a → (∀ b ∈ l, 0 ≤ b) → (a = 0 ∨ 0 ∈ l) → l.foldl min a = 0
  | [], a, _, _, h => by simpa using h
  | b :: l, a, ha, hb, h => by
    rw [List.foldl_cons]
    apply foldl_min_zero l _ (le_min ha (hb b (by simp))) fun c hc => hb c (by simp [hc])
    rcases h with rfl | h
    · exact .inl (min_eq_left (hb b (by simp)))
    · rcases List.mem_cons.1 h with rfl | h
      · exact .inl (min_eq_right ha)
      · exact .inr h

theorem geomspace_props (a b : ℝ) (L : Nat) (ha : 0 < a) (hab : a ≤ b) (hL : 2 ≤ L) :
    (geomspace a b L).length = L ∧ (geomspace a b L).head? = some a ∧ (geomspace a b L).getLast? = some b ∧
    (∀ x ∈ geomspace a b L, a ≤ x ∧ x ≤ b) ∧ (a < b → (geomspace a b L).Pairwise (· < ·)) := by
  have hL1 : (0 : ℝ) < (L : ℝ) - 1 := by
    have : (2 : ℝ) ≤ L := by exact_mod_cast hL
    linarith
  have hr : 1 ≤ b / a := (one_le_div ha).2 hab
  have hlen : (geomspace a b L).length = L := by simp [geomspace]
  refine ⟨hlen, ?_, ?_, ?_, ?_⟩
  · rw [List.head?_eq_getElem?]
    unfold geomspace
    rw [List.getElem?_map, List.getElem?_range (by omega)]
    simp
  · rw [List.getLast?_eq_getElem?, hlen]
    unfold geomspace
    rw [List.getElem?_map, List.getElem?_range (by omega)]
    have : ((L - 1 : Nat) : ℝ) = (L : ℝ) - 1 := by rw [Nat.cast_sub (by omega)]; simp
    simp only [Option.map_some, this, div_self hL1.ne', Real.rpow_one]
    congr 1
    field_simp
  · intro x hx
    unfold geomspace at hx
    obtain ⟨i, hi, rfl⟩ := List.mem_map.1 hx
    have hi' : (i : ℝ) ≤ (L : ℝ) - 1 := by
      have : (i : ℝ) + 1 ≤ L := by exact_mod_cast List.mem_range.1 hi
      linarith
    have he0 : 0 ≤ (i : ℝ) / ((L : ℝ) - 1) := div_nonneg (Nat.cast_nonneg i) hL1.le
    have he1 : (i : ℝ) / ((L : ℝ) - 1) ≤ 1 := (div_le_one hL1).2 hi'
    constructor
    · have := Real.one_le_rpow hr he0
      nlinarith
    · have := Real.rpow_le_rpow_of_exponent_le hr he1
      rw [Real.rpow_one] at this
      calc a * (b / a) ^ ((i : ℝ) / ((L : ℝ) - 1)) ≤ a * (b / a) := by nlinarith
        _ = b := by field_simp
  · intro hlt
    have hr' : 1 < b / a := (one_lt_div ha).2 hlt
    unfold geomspace
    rw [List.pairwise_map]
    apply List.Pairwise.imp _ (List.pairwise_lt_range)
    intro i j hij
    have : (i : ℝ) / ((L : ℝ) - 1) < (j : ℝ) / ((L : ℝ) - 1) := by
      apply div_lt_div_of_pos_right _ hL1
      exact_mod_cast hij
    exact mul_lt_mul_of_pos_left (Real.rpow_lt_rpow_of_exponent_lt hr' this) ha

theorem mem_of_getLast {l : List ℝ} {b : ℝ} (h : l.getLast? = some b) : b ∈ l := by
  obtain ⟨l', rfl⟩ := List.getLast?_eq_some_iff.1 h
  simp

/-- A curve with positive increasing strains brought to more points is the same curve: first and last points are kept, the
strains increase, and all points lie on the given curve; valid values stay valid. -/
theorem C132_resample (c : Pts) (L : Nat) (hc : Positive c) (hL : 2 ≤ L) :
    ∃ r, resampleCurve c L = .ok r ∧ Resampled c r L ∧ ∀ hi, ValidPts hi c → ValidPts hi r := by
  obtain ⟨hne, hpos, hinc⟩ := hc
  match c, hne with
  | p :: rest, _ =>
    have hmin : (rest.map Prod.fst).foldl min p.1 = p.1 := by
      apply foldl_min_first
      rw [List.map_cons, List.pairwise_cons] at hinc
      exact fun b hb => (hinc.1 b hb).le
    have hmax := foldl_max_last (rest.map Prod.fst) p.1 (by rw [← List.map_cons (f := Prod.fst)]; exact hinc)
    set hi := (p.1 :: rest.map Prod.fst).getLast (List.cons_ne_nil _ _) with hhi
    have hp0 := hpos p List.mem_cons_self
    have hhi' : ((p :: rest).map Prod.fst).getLast? = some hi := by
      rw [List.map_cons, List.getLast?_eq_some_getLast (List.cons_ne_nil _ _)]
    have hle : p.1 ≤ hi := by
      have hm := mem_of_getLast hhi'
      rw [List.map_cons] at hm hinc
      rw [List.pairwise_cons] at hinc
      rcases List.mem_cons.1 hm with h | h
      · exact h.ge
      · exact (hinc.1 _ h).le
    obtain ⟨g1, g2, g3, g4, g5⟩ := geomspace_props p.1 hi L hp0 hle hL
    have hval := mapM_npInterp p rest (geomspace p.1 hi L)
    have hres : resampleCurve (p :: rest) L =
        .ok ((geomspace p.1 hi L).map fun x => (x, interpFrom x p rest)) := by
      unfold resampleCurve
      simp only [hmin, hmax, if_neg hp0.ne', hval, zip_map_pair]
    obtain ⟨w, hw1, hw2⟩ : ∃ w ∈ p :: rest, w.1 = hi := by
      obtain ⟨w, a, b⟩ := List.mem_map.1 (mem_of_getLast hhi')
      exact ⟨w, a, b⟩
    have hlastw : (p :: rest).getLast? = some w → True := fun _ => trivial
    refine ⟨_, hres, ⟨by rw [List.length_map, g1], ?_, ?_, ?_, ?_⟩, ?_⟩
    · rw [List.head?_map, g2]
      simp only [Option.map_some, List.head?_cons]
      rw [interpFrom_node p.1 p.2 rest p hinc List.mem_cons_self]
    · rw [List.getLast?_map, g3, Option.map_some]
      obtain ⟨z, hz⟩ : ∃ z, (p :: rest).getLast? = some z := ⟨_, List.getLast?_eq_some_getLast (List.cons_ne_nil _ _)⟩
      have hz1 : z.1 = hi := by
        rw [List.getLast?_map, hz] at hhi'
        exact Option.some.inj hhi'
      have hzm : z ∈ p :: rest := by
        obtain ⟨l', hl'⟩ := List.getLast?_eq_some_iff.1 hz
        rw [hl']; simp
      rw [hz, ← hz1, interpFrom_node z.1 z.2 rest p hinc hzm]
    · intro h2
      rw [List.map_map]
      have : (Prod.fst ∘ fun x => (x, interpFrom x p rest)) = (id : ℝ → ℝ) := rfl
      rw [this, List.map_id]
      apply g5
      have hm := mem_of_getLast hhi'
      match rest, h2 with
      | q :: rest, _ =>
        rw [List.map_cons, List.pairwise_cons] at hinc
        rw [List.map_cons, List.map_cons, List.getLast?_cons_cons] at hhi'
        exact hinc.1 hi (by rw [List.map_cons]; exact mem_of_getLast hhi')
    · intro q hq
      obtain ⟨x, hx, rfl⟩ := List.mem_map.1 hq
      exact interpFrom_onCurve x rest p hinc (g4 x hx).1 ⟨w, hw1, by rw [hw2]; exact (g4 x hx).2⟩
    · intro top hv q hq
      obtain ⟨x, hx, rfl⟩ := List.mem_map.1 hq
      have := interpFrom_bounds x 0 top p rest fun r hr => (hv r hr).2
      exact ⟨hp0.le.trans (g4 x hx).1, this⟩

theorem longest_le : ∀ (cs : List Pts) (c : Pts), c ∈ cs → c.length ≤ longest cs
  | d :: cs, c, h => by
    unfold longest
    rw [List.map_cons, List.foldr_cons]
    rcases List.mem_cons.1 h with rfl | h
    · exact le_max_left _ _
    · exact le_trans (longest_le cs c h) (le_max_right _ _)

theorem level_ok (cs : List Pts) (hne : cs ≠ []) (h : ∀ c ∈ cs, Positive c) :
    ∃ l, levelCurves cs = .ok l ∧ (∀ c ∈ l, c.length = longest cs) ∧
      List.Forall₂ (fun c r => (c.length = longest cs ∧ r = c) ∨ (c.length < longest cs ∧ Resampled c r (longest cs))) cs l ∧
      ∀ hi, (∀ c ∈ cs, ValidPts hi c) → ∀ c ∈ l, ValidPts hi c := by
  have step : ∀ c ∈ cs, ∃ r, (if c.length = longest cs then Except.ok c else resampleCurve c (longest cs)) = .ok r ∧
      ((c.length = longest cs ∧ r = c) ∨ (c.length < longest cs ∧ Resampled c r (longest cs))) ∧ r.length = longest cs ∧
      ∀ hi, ValidPts hi c → ValidPts hi r := by
    intro c hc
    by_cases hl : c.length = longest cs
    · exact ⟨c, by rw [if_pos hl], .inl ⟨hl, rfl⟩, hl, fun _ h => h⟩
    · have hlt := lt_of_le_of_ne (longest_le cs c hc) hl
      have h1 : 0 < c.length := List.length_pos_iff.2 (h c hc).1
      obtain ⟨r, a, b, d⟩ := C132_resample c (longest cs) (h c hc) (by omega)
      exact ⟨r, by rw [if_neg hl, a], .inr ⟨hlt, b⟩, b.len, d⟩
  have main : ∀ (l : List Pts), (∀ c ∈ l, ∃ r, (if c.length = longest cs then Except.ok c else resampleCurve c (longest cs)) = .ok r ∧
      ((c.length = longest cs ∧ r = c) ∨ (c.length < longest cs ∧ Resampled c r (longest cs))) ∧ r.length = longest cs ∧
      ∀ hi, ValidPts hi c → ValidPts hi r) →
      ∃ rs, (l.mapM fun c => if c.length = longest cs then Except.ok c else resampleCurve c (longest cs)) = .ok rs ∧
        (∀ c ∈ rs, c.length = longest cs) ∧
        List.Forall₂ (fun c r => (c.length = longest cs ∧ r = c) ∨ (c.length < longest cs ∧ Resampled c r (longest cs))) l rs ∧
        ∀ hi, (∀ c ∈ l, ValidPts hi c) → ∀ c ∈ rs, ValidPts hi c := by
    intro l
    induction l with
    | nil => intro _; exact ⟨[], rfl, by simp, .nil, by simp⟩
    | cons c l ih =>
      intro hl
      obtain ⟨rs, i1, i2, i3, i4⟩ := ih fun x hx => hl x (List.mem_cons_of_mem _ hx)
      obtain ⟨r, a, b, d, e⟩ := hl c List.mem_cons_self
      refine ⟨r :: rs, ?_, ?_, .cons b i3, ?_⟩
      · rw [List.mapM_cons, a, i1]; rfl
      · intro x hx
        rcases List.mem_cons.1 hx with rfl | hx
        · exact d
        · exact i2 x hx
      · intro hi hv x hx
        rcases List.mem_cons.1 hx with rfl | hx
        · exact e hi (hv c List.mem_cons_self)
        · exact i4 hi (fun y hy => hv y (List.mem_cons_of_mem _ hy)) x hx
  obtain ⟨rs, h1, h2, h3, h4⟩ := main cs step
  refine ⟨rs, ?_, h2, h3, h4⟩
  unfold levelCurves
  rw [if_neg hne, h1]

/-- The matrix of two containers whose curves have positive increasing strains: if the longest curves of both kinds have the
same number of points, the matrix is made of the given curves, the shorter ones resampled, and gives curve objects again when
the values are valid.  Missing: longest curves of different lengths (`C132_lengths_violated`) and curves that contain the
strain zero (`C132_zero_strain_violated`). -/
theorem C132_matrix_partial (gs ds : List Pts) (hne : gs ≠ []) (hl : gs.length = ds.length) (hg : ∀ g ∈ gs, Positive g)
    (hd : ∀ d ∈ ds, Positive d) (hLL : longest gs = longest ds) :
    ∃ gl dl m c, csetMatrix ⟨.pair gs ds, gs.length⟩ = .ok m ∧ m.nrow = longest gs ∧ m.cols = curveColumns gl dl ∧
      List.Forall₂ (fun c r => (c.length = longest gs ∧ r = c) ∨ (c.length < longest gs ∧ Resampled c r (longest gs))) gs gl ∧
      List.Forall₂ (fun c r => (c.length = longest gs ∧ r = c) ∨ (c.length < longest gs ∧ Resampled c r (longest gs))) ds dl ∧
      csetOfData m = .ok c ∧
      ((∀ g ∈ gs, ValidPts 1 g) → (∀ d ∈ ds, ValidPts 100 d) → csetObjects c = .ok (gl, dl)) := by
  have hdne : ds ≠ [] := by intro h; rw [h] at hl; exact hne (List.length_eq_zero_iff.1 hl)
  obtain ⟨gl, a1, a2, a3, a4⟩ := level_ok gs hne hg
  obtain ⟨dl, b1, b2, b3, b4⟩ := level_ok ds hdne hd
  rw [← hLL] at b2 b3
  have la := a3.length_eq
  have lb := b3.length_eq
  have hglne : gl ≠ [] := by intro h; rw [h] at la; exact hne (List.length_eq_zero_iff.1 (by simpa using la))
  have hm := pair_matrix gs ds gl dl (longest gs) gs.length hglne (by omega) a1 b1 a2 b2
  obtain ⟨m', c', e1, e2, e3, e4, e5, e6, e7, e8⟩ := C132_pair_roundtrip gl dl (longest gs) _ hglne a2 b2
    ((C132_construct gl dl ⟨0, []⟩).1 (by omega))
  have hmm : m' = ⟨longest gs, curveColumns gl dl⟩ := by
    obtain ⟨x, y⟩ := m'
    simp only at e3 e4
    rw [e3, e4]
  rw [hmm] at e6
  exact ⟨gl, dl, _, c', hm, rfl, rfl, a3, b3, e6, fun hv hw => e8 (a4 1 hv) (b4 100 hw)⟩

theorem resample_err (c : Pts) (L : Nat) (e : PyErr) (h : resampleCurve c L = .error e) : e = .valueError := by
  unfold resampleCurve at h
  match c, h with
  | [], h => cases h; rfl
  | p :: rest, h =>
    simp only [mapM_npInterp] at h
    split_ifs at h
    · cases h; rfl

/-- C132 fails for a curve that starts at strain zero (a valid strain of a curve object) and has fewer points than the
longest curve: the logarithmic resampling raises ValueError. -/
theorem C132_zero_strain_violated (gg : Bool) (f : ℝ) (cs : List Pts) (c : Pts) (hc : c ∈ cs) (hlen : c.length < longest cs)
    (hv : ∀ p ∈ c, 0 ≤ p.1) (h0 : ∃ p ∈ c, p.1 = 0) : containerMatrix gg f cs = .error .valueError := by
  have hfail : resampleCurve c (longest cs) = .error .valueError := by
    unfold resampleCurve
    match c, hv, h0 with
    | p :: rest, hv, ⟨q, hq, hq0⟩ =>
      simp only
      rw [if_pos]
      apply foldl_min_zero
      · exact hv p List.mem_cons_self
      · intro b hb
        obtain ⟨w, hw, rfl⟩ := List.mem_map.1 hb
        exact hv w (List.mem_cons_of_mem _ hw)
      · rcases List.mem_cons.1 hq with rfl | hq
        · exact .inl hq0
        · exact .inr (List.mem_map.2 ⟨q, hq, hq0⟩)
  have hlev : levelCurves cs = .error .valueError := by
    unfold levelCurves
    rw [if_neg (by intro h; rw [h] at hc; cases hc)]
    apply mapM_some_error
    · intro a _
      by_cases h : a.length = longest cs
      · exact .inl ⟨a, by rw [if_pos h]⟩
      · rw [if_neg h]
        cases hr : resampleCurve a (longest cs) with
        | ok r => exact .inl ⟨r, rfl⟩
        | error e => rw [resample_err a _ e hr]; exact .inr rfl
    · exact ⟨c, hc, by rw [if_neg hlen.ne, hfail]⟩
  unfold containerMatrix
  rw [hlev]

/-! ### Files -/

theorem colsOf_curves (rows : List (List ℝ)) : ∀ n : Nat, colsOf rows (4 * n) =
    curveColumns ((List.range n).map fun j => rows.map fun r => (r.getD (4 * j) 0, r.getD (4 * j + 1) 0))
      ((List.range n).map fun j => rows.map fun r => (r.getD (4 * j + 2) 0, r.getD (4 * j + 3) 0)) := by
  intro n
  induction n with
  | zero => rfl
  | succ n ih =>
    have happ : ∀ (a b : List Pts) (g d : Pts), a.length = b.length → curveColumns (a ++ [g]) (b ++ [d]) =
        curveColumns a b ++ [g.map Prod.fst, g.map Prod.snd, d.map Prod.fst, d.map Prod.snd] := by
      intro a b g d h
      unfold curveColumns
      rw [List.zipWith_append h, List.flatten_append]
      simp
    rw [List.range_succ, List.map_append, List.map_append, List.map_singleton, List.map_singleton,
      happ _ _ _ _ (by simp), ← ih]
    unfold colsOf
    rw [show 4 * (n + 1) = 4 * n + 1 + 1 + 1 + 1 by ring, List.range_succ, List.range_succ, List.range_succ, List.range_succ]
    simp only [List.map_append, List.map_map, List.append_assoc, List.cons_append, List.nil_append]
    rfl

theorem toArr_rect (r1 r2 : List ℝ) (rs : List (List ℝ)) (w : Nat) (hw2 : 2 ≤ w) (hw : ∀ r ∈ r1 :: r2 :: rs, r.length = w) :
    toArr (.mat (r1 :: r2 :: rs)) = .ok (.mat (colsOf (r1 :: r2 :: rs) w)) := by
  have hr1 := hw r1 (by simp)
  have hall : ((r2 :: rs).all fun q => decide (q.length = r1.length)) = true := by
    rw [List.all_eq_true]
    intro q hq
    rw [decide_eq_true_eq, hr1]
    exact hw q (List.mem_cons_of_mem _ hq)
  unfold toArr
  simp only [hall, Bool.true_eq_false, if_false]
  match r1, hr1 with
  | a :: b :: r, h => rw [← h]
  | [a], h => simp only [List.length_singleton] at h; omega
  | [], h => simp only [List.length_nil] at h; omega

/-- A container read from a file with at least two rows and four columns for each layer: it has the curves of its kind, layer
by layer, if no number in the file is negative and its own values are valid; otherwise ValueError. -/
theorem C132_file (r1 r2 : List ℝ) (rs : List (List ℝ)) (n : Nat) (hn : 0 < n)
    (hw : ∀ r ∈ r1 :: r2 :: rs, r.length = 4 * n) :
    let rows := r1 :: r2 :: rs
    let gs : List Pts := (List.range n).map fun j => rows.map fun r => (r.getD (4 * j) 0, r.getD (4 * j + 1) 0)
    let ds : List Pts := (List.range n).map fun j => rows.map fun r => (r.getD (4 * j + 2) 0, r.getD (4 * j + 3) 0)
    let nonneg := ∀ r ∈ rows, ∀ x ∈ r, 0 ≤ x
    (nonneg → (∀ g ∈ gs, ValidPts 1 g) → containerOfFile true (.mat rows) = .ok gs) ∧
    (nonneg → (∀ d ∈ ds, ValidPts 100 d) → containerOfFile false (.mat rows) = .ok ds) ∧
    (¬ (nonneg ∧ ∀ g ∈ gs, ValidPts 1 g) → containerOfFile true (.mat rows) = .error .valueError) ∧
    (¬ (nonneg ∧ ∀ d ∈ ds, ValidPts 100 d) → containerOfFile false (.mat rows) = .error .valueError) := by
  intro rows gs ds nonneg
  have hr1 := hw r1 (by simp)
  have harr : toArr (.mat rows) = .ok (.mat (colsOf rows (4 * n))) := toArr_rect r1 r2 rs (4 * n) (by omega) hw
  have hcols : colsOf rows (4 * n) = curveColumns gs ds := colsOf_curves rows n
  have hgl : gs.length = ds.length := by simp [gs, ds]
  have hnn : nonnegMat (⟨((colsOf rows (4 * n)).head?.getD []).length, colsOf rows (4 * n)⟩ : CMat ℝ) ↔ nonneg := by
    unfold nonnegMat
    simp only
    constructor
    · intro h r hr x hx
      obtain ⟨j, hj, rfl⟩ := List.getElem_of_mem hx
      have hjn : j < 4 * n := by rw [← hw r hr]; exact hj
      have := h (rows.map fun q => q.getD j 0) (by
        unfold colsOf
        exact List.mem_map.2 ⟨j, List.mem_range.2 hjn, rfl⟩) (r.getD j 0) (List.mem_map.2 ⟨r, hr, rfl⟩)
      rwa [List.getD_eq_getElem _ _ hj] at this
    · intro h c hc x hx
      unfold colsOf at hc
      obtain ⟨j, hj, rfl⟩ := List.mem_map.1 hc
      obtain ⟨r, hr, rfl⟩ := List.mem_map.1 hx
      have hjr : j < r.length := by rw [hw r hr]; exact List.mem_range.1 hj
      rw [List.getD_eq_getElem _ _ hjr]
      exact h r hr _ (List.getElem_mem hjr)
  have h4 : (colsOf rows (4 * n)).length % 4 = 0 := by unfold colsOf; simp
  set L := ((colsOf rows (4 * n)).head?.getD []).length with hL
  have hex : nonneg → extractCurves ⟨L, colsOf rows (4 * n)⟩ true = .ok (gs.map (ptsMat L), ds.map (ptsMat L)) := by
    intro h
    have := extract_columns L gs ds hgl true (fun _ => by rw [← hcols]; exact hnn.2 h)
    rw [← hcols] at this
    exact this
  have hexn : ¬ nonneg → extractCurves ⟨L, colsOf rows (4 * n)⟩ true = .error .valueError := fun h =>
    (C17_split_rejects ⟨L, colsOf rows (4 * n)⟩ true).2 h4 (fun hc => h (hnn.1 hc))
  have hg := mapM_curves 1 .ggmax L (gg_kind L) gs
  have hd := mapM_curves 100 (.damping .pct) L (xi_kind L) ds
  refine ⟨fun h1 h2 => ?_, fun h1 h2 => ?_, fun h => ?_, fun h => ?_⟩
  · unfold containerOfFile
    simp only [harr, ← hL, hex h1, bind, Except.bind, if_true, hg.1 h2]
  · unfold containerOfFile
    simp only [harr, ← hL, hex h1, bind, Except.bind, Bool.false_eq_true, if_false, hd.1 h2]
  · by_cases h1 : nonneg
    · have h2 : ∃ g ∈ gs, ¬ ValidPts 1 g := by
        by_contra hc; push Not at hc; exact h ⟨h1, hc⟩
      unfold containerOfFile
      simp only [harr, ← hL, hex h1, bind, Except.bind, if_true, hg.2 h2]
    · unfold containerOfFile
      simp only [harr, ← hL, hexn h1, bind, Except.bind]
  · by_cases h1 : nonneg
    · have h2 : ∃ g ∈ ds, ¬ ValidPts 100 g := by
        by_contra hc; push Not at hc; exact h ⟨h1, hc⟩
      unfold containerOfFile
      simp only [harr, ← hL, hex h1, bind, Except.bind, Bool.false_eq_true, if_false, hd.2 h2]
    · unfold containerOfFile
      simp only [harr, ← hL, hexn h1, bind, Except.bind]

/-- C132 fails for files with a single row (curves with one point): the file is read as a one-dimensional array and TypeError
is raised, although the same curves can be put into a container as arrays. -/
theorem C132_one_row_violated (gg : Bool) (r : List ℝ) : containerOfFile gg (.mat [r]) = .error .typeError := by
  unfold containerOfFile toArr
  match r with
  | [] => rfl
  | [x] => rfl
  | x :: y :: r => rfl

example : Positive [(1, 2), (3, 4)] := by
  refine ⟨by simp, ?_, by simp⟩
  intro p hp
  simp only [List.mem_cons, List.not_mem_nil, or_false] at hp
  rcases hp with rfl | rfl <;> norm_num

example : csetMatrix ⟨.pair [[(1, 1), (2, 0.5)]] [[(1, 3), (2, 8)]], 1⟩ = .ok ⟨2, [[1, 2], [1, 0.5], [1, 2], [3, 8]]⟩ :=
  pair_matrix [[(1, 1), (2, 0.5)]] [[(1, 3), (2, 8)]] [[(1, 1), (2, 0.5)]] [[(1, 3), (2, 8)]] 2 1 (by simp) rfl
    (level_same 2 _ (by simp) (by simp)) (level_same 2 _ (by simp) (by simp)) (by simp) (by simp)

/-- A pair of valid curves whose matrix cannot be made. -/
example : csetMatrix ⟨.pair [[(1, 1), (2, 0.5)]] [[(1, 3)]], 1⟩ = .error .valueError :=
  (C132_lengths_violated [[(1, 1), (2, 0.5)]] [[(1, 3)]] [[(1, 1), (2, 0.5)]] [[(1, 3)]] rfl (by simp)
    (level_same 2 _ (by simp) (by simp)) (level_same 1 _ (by simp) (by simp)) (by simp [longest]) (by simp [longest])
    (by simp [longest])).2

end Verif
