import Verif.Props.SiteFactors

set_option linter.unusedSectionVars false
set_option linter.unusedVariables false

/-!
Properties C111 (interpolated site factors) and C112 (site-effect adjustment).
-/

open Complex

namespace Verif

namespace Spec

/-- Weighted sum. -/
def wsum (w v : List ℝ) : ℝ := (List.zipWith (· * ·) w v).sum

/-- `w` are convex weights of the points that reproduce `q`. -/
def IsWeights (w : List ℝ) (pts : List (ℝ × ℝ × ℝ)) (q : ℝ × ℝ × ℝ) : Prop :=
  w.length = pts.length ∧ (∀ a ∈ w, 0 ≤ a) ∧ w.sum = 1 ∧ wsum w (pts.map fun p => p.1) = q.1 ∧
    wsum w (pts.map fun p => p.2.1) = q.2.1 ∧ wsum w (pts.map fun p => p.2.2) = q.2.2

/-- What is needed of `griddata(method='linear')`: inside the convex hull of the points the value is that of a convex
combination that reproduces the query point; the weights do not depend on the values. -/
def LinearGrid (g : GridFun) : Prop :=
  ∀ pts q, (∃ w, IsWeights w pts q) → ∃ w, IsWeights w pts q ∧ ∀ vals : List ℝ, vals.length = pts.length → g pts vals q = wsum w vals

/-- Which factors exist: amplification for both methods, phase for one. -/
def Available : SfKind → SfMethod → Prop
  | .phase, m => m = .eqHH
  | _, m => m = .nlHH ∨ m = .eqHH

/-- The shipped files have one row per PGA value and one column per entry of the common abscissa `ax kind`. -/
structure ShippedData (d : SfData) (ax : SfKind → List ℝ) : Prop where
  files : ∀ kind m v z, Available kind m → shippedPair v z = true →
    ∃ rows, d.factors kind m v z = some rows ∧ rows.length = pgaGrid.length ∧ (∀ r ∈ rows, r.length = (ax kind).length) ∧
      d.xs kind v z = some (ax kind)
  two : ∀ kind, 2 ≤ (ax kind).length
  pos : ∀ kind, ∀ x ∈ ax kind, 0 < x
  freq : ax .phase = ax .fs

/-- The tabulated curve of a grid point. -/
def curve (d : SfData) (kind : SfKind) (m : SfMethod) (v z k : ℕ) : List ℝ := ((d.factors kind m v z).getD []).getD k []

/-- The part of a curve that is returned: frequencies up to the 140th. -/
def shown (kind : SfKind) (l : List ℝ) : List ℝ := if kind = .rs then l else l.take 140

/-- Corners of a cell. -/
noncomputable def corners (v₀ v₁ z₀ z₁ p₀ p₁ : ℕ) : List (ℝ × ℝ × ℝ) :=
  [((v₀ : ℝ), (z₀ : ℝ), (p₀ : ℝ) / 100), ((v₀ : ℝ), (z₀ : ℝ), (p₁ : ℝ) / 100), ((v₀ : ℝ), (z₁ : ℝ), (p₀ : ℝ) / 100),
   ((v₀ : ℝ), (z₁ : ℝ), (p₁ : ℝ) / 100), ((v₁ : ℝ), (z₀ : ℝ), (p₀ : ℝ) / 100), ((v₁ : ℝ), (z₀ : ℝ), (p₁ : ℝ) / 100),
   ((v₁ : ℝ), (z₁ : ℝ), (p₀ : ℝ) / 100), ((v₁ : ℝ), (z₁ : ℝ), (p₁ : ℝ) / 100)]

/-- The tabulated curves at the corners. -/
def cornerCurves (d : SfData) (kind : SfKind) (m : SfMethod) (v₀ v₁ z₀ z₁ k : ℕ) : List (List ℝ) :=
  [curve d kind m v₀ z₀ k, curve d kind m v₀ z₀ (k + 1), curve d kind m v₀ z₁ k, curve d kind m v₀ z₁ (k + 1),
   curve d kind m v₁ z₀ k, curve d kind m v₁ z₀ (k + 1), curve d kind m v₁ z₁ k, curve d kind m v₁ z₁ (k + 1)]

end Spec

open Spec (maxZ1 CoveredPair InRange clampTo wsum IsWeights LinearGrid Available ShippedData curve shown corners cornerCurves Hermitian)

noncomputable section

/-- Trilinear weights: every point of a cell is a convex combination of the corners. -/
theorem trilinear (v₀ v₁ z₀ z₁ p₀ p₁ : ℕ) (a b c : ℝ) (ha : 0 ≤ a ∧ a ≤ 1) (hb : 0 ≤ b ∧ b ≤ 1) (hc : 0 ≤ c ∧ c ≤ 1) :
    IsWeights [(1 - a) * (1 - b) * (1 - c), (1 - a) * (1 - b) * c, (1 - a) * b * (1 - c), (1 - a) * b * c,
      a * (1 - b) * (1 - c), a * (1 - b) * c, a * b * (1 - c), a * b * c] (corners v₀ v₁ z₀ z₁ p₀ p₁)
      ((v₀ : ℝ) + a * (v₁ - v₀), (z₀ : ℝ) + b * (z₁ - z₀), (p₀ : ℝ) / 100 + c * (p₁ / 100 - p₀ / 100)) := by
  have h1 : (0 : ℝ) ≤ 1 - a := by linarith
  have h2 : (0 : ℝ) ≤ 1 - b := by linarith
  have h3 : (0 : ℝ) ≤ 1 - c := by linarith
  obtain ⟨ha, -⟩ := ha
  obtain ⟨hb, -⟩ := hb
  obtain ⟨hc, -⟩ := hc
  refine ⟨rfl, ?_, ?_, ?_, ?_, ?_⟩
  · simp only [List.mem_cons, List.not_mem_nil, or_false, forall_eq_or_imp, forall_eq]
    refine ⟨?_, ?_, ?_, ?_, ?_, ?_, ?_, ?_⟩ <;> positivity
  · simp only [List.sum_cons, List.sum_nil]; ring
  · simp only [corners, wsum, List.map_cons, List.map_nil, List.zipWith_cons_cons, List.zipWith_nil_right, List.sum_cons, List.sum_nil]; ring
  · simp only [corners, wsum, List.map_cons, List.map_nil, List.zipWith_cons_cons, List.zipWith_nil_right, List.sum_cons, List.sum_nil]; ring
  · simp only [corners, wsum, List.map_cons, List.map_nil, List.zipWith_cons_cons, List.zipWith_nil_right, List.sum_cons, List.sum_nil]; ring

/-- Interpolation refuses any number of reference points other than eight, and a number of values that differs from the
number of points; the linear interpolation of eight corners is what every result of the table lookup relies on. -/
theorem C111_eight_points (g : GridFun) (pts : List (ℝ × ℝ × ℝ)) (vals : List (List ℝ)) (q : ℝ × ℝ × ℝ) :
    (sfInterp g pts vals q = .error .assertionError ↔ ¬(pts.length = 8 ∧ vals.length = 8)) := by
  unfold sfInterp
  constructor
  · intro h ⟨h1, h2⟩
    rw [if_neg (by simp [h1, h2])] at h
    cases vals with
    | nil => simp at h2
    | cons y ys => simp only at h; split at h <;> simp at h
  · intro h
    rw [if_pos]
    by_cases h1 : pts.length = 8
    · exact .inr fun h2 => h ⟨h1, h2 ▸ h1⟩
    · exact .inl h1

theorem lin_coord {lo hi x : ℝ} (h : lo < hi) (h1 : lo ≤ x) (h2 : x ≤ hi) : ∃ a : ℝ, (0 ≤ a ∧ a ≤ 1) ∧ lo + a * (hi - lo) = x := by
  refine ⟨(x - lo) / (hi - lo), ⟨div_nonneg (by linarith) (by linarith), ?_⟩, ?_⟩
  · rw [div_le_one (by linarith)]; linarith
  · rw [div_mul_cancel₀ _ (by linarith)]; ring

theorem cell_hull {s : SiteFac ℝ} {i j k v₀ v₁ z₀ z₁ p₀ p₁ : ℕ} (h : RefCell s i j k v₀ v₁ z₀ z₁ p₀ p₁) :
    ∃ w, IsWeights w (corners v₀ v₁ z₀ z₁ p₀ p₁) (s.vs30, s.z1, s.pga) := by
  obtain ⟨a, ha, ea⟩ := lin_coord (by exact_mod_cast h.v_lt : (v₀ : ℝ) < v₁) h.v_in.1 h.v_in.2
  obtain ⟨b, hb, eb⟩ := lin_coord (by exact_mod_cast h.z_lt : (z₀ : ℝ) < z₁) h.z_in.1 h.z_in.2
  have hp : (p₀ : ℝ) < p₁ := by exact_mod_cast h.p_lt
  obtain ⟨c, hc, ec⟩ := lin_coord (by linarith : (p₀ : ℝ) / 100 < (p₁ : ℝ) / 100) h.p_in.1 h.p_in.2
  have := trilinear v₀ v₁ z₀ z₁ p₀ p₁ a b c ha hb hc
  rw [ea, eb, ec] at this
  exact ⟨_, this⟩

/-- Convex weights stay between bounds. -/
theorem wsum_le : ∀ (w v : List ℝ) (hi : ℝ), w.length = v.length → (∀ a ∈ w, 0 ≤ a) → (∀ x ∈ v, x ≤ hi) → wsum w v ≤ hi * w.sum
  | [], [], hi, _, _, _ => by simp [wsum]
  | a :: w, x :: v, hi, hl, hw, hv => by
    have ih := wsum_le w v hi (by simpa using hl) (fun b hb => hw b (List.mem_cons_of_mem _ hb)) fun b hb => hv b (List.mem_cons_of_mem _ hb)
    have h1 := hw a List.mem_cons_self
    have h2 := hv x List.mem_cons_self
    unfold wsum at *
    rw [List.zipWith_cons_cons, List.sum_cons, List.sum_cons]
    nlinarith

theorem wsum_ge (w v : List ℝ) (lo : ℝ) (hl : w.length = v.length) (hw : ∀ a ∈ w, 0 ≤ a) (hv : ∀ x ∈ v, lo ≤ x) : lo * w.sum ≤ wsum w v := by
  induction w generalizing v with
  | nil => cases v with
    | nil => simp [wsum]
    | cons => simp at hl
  | cons a w ih => cases v with
    | nil => simp at hl
    | cons x v =>
      have ih' := ih v (by simpa using hl) (fun b hb => hw b (List.mem_cons_of_mem _ hb)) fun b hb => hv b (List.mem_cons_of_mem _ hb)
      have h1 := hw a List.mem_cons_self
      have h2 := hv x List.mem_cons_self
      unfold wsum at *
      rw [List.zipWith_cons_cons, List.sum_cons, List.sum_cons]
      nlinarith

variable {d : SfData} {g : GridFun} {ax : SfKind → List ℝ} {kind : SfKind} {m : SfMethod}

theorem available_ne_other (hA : Available kind m) : m ≠ .other := by
  cases kind <;> unfold Available at hA
  · rcases hA with rfl | rfl <;> exact fun h => nomatch h
  · rcases hA with rfl | rfl <;> exact fun h => nomatch h
  · rw [hA]; exact fun h => nomatch h

/-- Looking up a curve: an unknown method is refused with the documented ValueError; otherwise the outcome is a curve or a missing
file. -/
theorem C158_sf_query (d : SfData) (kind : SfKind) (v z k : ℕ) :
    sfQuery d kind .other v z k = .error .valueError ∧
    ∀ m, m ≠ .other → sfQuery d kind m v z k ≠ .error .valueError ∧
      (d.factors kind m v z = none ∨ d.xs kind v z = none → sfQuery d kind m v z k = .error .fileNotFound) := by
  refine ⟨by unfold sfQuery; rw [if_pos rfl], fun m hm => ?_⟩
  unfold sfQuery
  rw [if_neg hm]
  constructor
  · cases d.factors kind m v z with
    | none => simp
    | some rows =>
      cases d.xs kind v z with
      | none => simp
      | some x =>
        simp only
        cases rows[k]? with
        | none => simp
        | some y => simp
  · rintro (h | h)
    · rw [h]
    · cases d.factors kind m v z with
      | none => rfl
      | some rows => simp only [h]

theorem sfQuery_ok (hd : ShippedData d ax) (hA : Available kind m) {v z k : ℕ} (hs : shippedPair v z = true) (hk : k < 11) :
    sfQuery d kind m v z k = .ok (ax kind, curve d kind m v z k) ∧ (curve d kind m v z k).length = (ax kind).length := by
  obtain ⟨rows, h1, h2, h3, h4⟩ := hd.files kind m v z hA hs
  have hk' : k < rows.length := by rw [h2]; exact hk
  have hc : curve d kind m v z k = rows[k] := by
    unfold curve
    rw [h1, Option.getD_some, List.getD_eq_getElem?_getD, List.getElem?_eq_getElem hk', Option.getD_some]
  refine ⟨?_, by rw [hc]; exact h3 _ (List.getElem_mem hk')⟩
  unfold sfQuery
  rw [if_neg (available_ne_other hA), h1, h4]
  simp only
  rw [List.getElem?_eq_getElem hk', hc]

/-- The result of a query is one convex combination of the eight curves at the surrounding grid points; the weights reproduce
the query and are the same at every frequency. -/
theorem C111_convex (hd : ShippedData d ax) (hg : LinearGrid g) (hA : Available kind m) (s : SiteFac ℝ)
    (hr : InRange s.vs30 s.z1 s.pga) (hc : CoveredPair s.vs30 s.z1) :
    ∃ i j k v₀ v₁ z₀ z₁ p₀ p₁ w, RefCell s i j k v₀ v₁ z₀ z₁ p₀ p₁ ∧
      IsWeights w (corners v₀ v₁ z₀ z₁ p₀ p₁) (s.vs30, s.z1, s.pga) ∧
      (∀ r ∈ cornerCurves d kind m v₀ v₁ z₀ z₁ k, r.length = (ax kind).length) ∧
      sfResults d g s kind m = .ok (shown kind (ax kind), shown kind ((List.range (ax kind).length).map fun c =>
        wsum w ((cornerCurves d kind m v₀ v₁ z₀ z₁ k).map fun r => r.getD c 0))) := by
  obtain ⟨i, j, k, v₀, v₁, z₀, z₁, p₀, p₁, hcell, hloc⟩ := C54_reference_cell s hr hc
  obtain ⟨w, hw, hgw⟩ := hg _ _ (cell_hull hcell)
  have hk : k + 1 < 11 := (List.getElem?_eq_some_iff.1 hcell.pk').1
  have f : ∀ v ∈ [v₀, v₁], ∀ z ∈ [z₀, z₁], shippedPair v z = true := hcell.files
  have f00 := f v₀ (by simp) z₀ (by simp)
  have f01 := f v₀ (by simp) z₁ (by simp)
  have f10 := f v₁ (by simp) z₀ (by simp)
  have f11 := f v₁ (by simp) z₁ (by simp)
  have q0 : k < 11 := by omega
  obtain ⟨e1, l1⟩ := sfQuery_ok hd hA f00 q0
  obtain ⟨e2, l2⟩ := sfQuery_ok hd hA f00 hk
  obtain ⟨e3, l3⟩ := sfQuery_ok hd hA f01 q0
  obtain ⟨e4, l4⟩ := sfQuery_ok hd hA f01 hk
  obtain ⟨e5, l5⟩ := sfQuery_ok hd hA f10 q0
  obtain ⟨e6, l6⟩ := sfQuery_ok hd hA f10 hk
  obtain ⟨e7, l7⟩ := sfQuery_ok hd hA f11 q0
  obtain ⟨e8, l8⟩ := sfQuery_ok hd hA f11 hk
  have hl : ∀ r ∈ cornerCurves d kind m v₀ v₁ z₀ z₁ k, r.length = (ax kind).length := by
    simp only [cornerCurves, List.mem_cons, List.not_mem_nil, or_false, forall_eq_or_imp, forall_eq]
    exact ⟨l1, l2, l3, l4, l5, l6, l7, l8⟩
  refine ⟨i, j, k, v₀, v₁, z₀, z₁, p₀, p₁, w, hcell, hw, hl, ?_⟩
  have hint : sfInterp g (corners v₀ v₁ z₀ z₁ p₀ p₁) (cornerCurves d kind m v₀ v₁ z₀ z₁ k) (s.vs30, s.z1, s.pga) =
      .ok ((List.range (ax kind).length).map fun c =>
        wsum w ((cornerCurves d kind m v₀ v₁ z₀ z₁ k).map fun r => r.getD c 0)) := by
    unfold sfInterp
    rw [if_neg (by simp [corners, cornerCurves])]
    conv_lhs => rw [cornerCurves]
    simp only
    rw [if_neg]
    · rw [l1]
      refine congrArg Except.ok (List.map_congr_left ?_)
      intro c _
      exact hgw _ (by simp [corners])
    · rintro ⟨r, hr, hne⟩
      exact hne ((hl r hr).trans l1.symm)
  unfold sfResults
  rw [hloc]
  simp only [bind, Except.bind, List.mapM_cons, List.mapM_nil, hcell.vi, hcell.vi', hcell.zj, hcell.zj', hcell.pk, hcell.pk', e1, e2,
    e3, e4, e5, e6, e7, e8, pure, Except.pure, List.map_cons, List.map_nil]
  simp only [corners, cornerCurves] at hint
  rw [hint]
  simp only [List.getLast?_cons_cons, List.getLast?_singleton]
  unfold shown
  by_cases hk : kind = .rs
  · simp only [if_pos hk]; rfl
  · simp only [if_neg hk]; rfl

/-- At every frequency the factor lies between the smallest and the largest of the eight tabulated values. -/
theorem C111_bounded (hd : ShippedData d ax) (hg : LinearGrid g) (hA : Available kind m) (s : SiteFac ℝ)
    (hr : InRange s.vs30 s.z1 s.pga) (hc : CoveredPair s.vs30 s.z1) :
    ∃ i j k v₀ v₁ z₀ z₁ p₀ p₁ y, RefCell s i j k v₀ v₁ z₀ z₁ p₀ p₁ ∧ sfResults d g s kind m = .ok (shown kind (ax kind), shown kind y) ∧
      y.length = (ax kind).length ∧ ∀ (c : ℕ) x, y[c]? = some x →
        (∀ hi, (∀ r ∈ cornerCurves d kind m v₀ v₁ z₀ z₁ k, r.getD c 0 ≤ hi) → x ≤ hi) ∧
        ∀ lo, (∀ r ∈ cornerCurves d kind m v₀ v₁ z₀ z₁ k, lo ≤ r.getD c 0) → lo ≤ x := by
  obtain ⟨i, j, k, v₀, v₁, z₀, z₁, p₀, p₁, w, hcell, ⟨w1, w2, w3, -⟩, hl, he⟩ := C111_convex hd hg hA s hr hc
  refine ⟨i, j, k, v₀, v₁, z₀, z₁, p₀, p₁, _, hcell, he, by simp, ?_⟩
  intro c x hx
  rw [List.getElem?_map] at hx
  cases hcn : (List.range (ax kind).length)[c]? with
  | none => rw [hcn] at hx; cases hx
  | some c' =>
    have : c' = c := by
      obtain ⟨h1, h2⟩ := List.getElem?_eq_some_iff.1 hcn
      rw [List.getElem_range] at h2; exact h2.symm
    rw [hcn, this] at hx
    have hx := Option.some.inj hx
    have hlen : w.length = ((cornerCurves d kind m v₀ v₁ z₀ z₁ k).map fun r => r.getD c 0).length := by
      rw [w1]; simp [corners, cornerCurves]
    constructor
    · intro hi hh
      have := wsum_le w _ hi hlen w2 (fun y hy => by obtain ⟨r, hr, rfl⟩ := List.mem_map.1 hy; exact hh r hr)
      rw [w3, mul_one] at this
      rw [← hx]; exact this
    · intro lo hh
      have := wsum_ge w _ lo hlen w2 (fun y hy => by obtain ⟨r, hr, rfl⟩ := List.mem_map.1 hy; exact hh r hr)
      rw [w3, mul_one] at this
      rw [← hx]; exact this

/-- Neighbours on the three grids. -/
theorem grid_neighbours :
    (∀ i < 16, ∀ v ∈ vs30Grid, vs30Grid.getD i 0 ≤ v → v ≤ vs30Grid.getD (i + 1) 0 → v = vs30Grid.getD i 0 ∨ v = vs30Grid.getD (i + 1) 0) ∧
    (∀ i < 9, ∀ v ∈ z1Grid, z1Grid.getD i 0 ≤ v → v ≤ z1Grid.getD (i + 1) 0 → v = z1Grid.getD i 0 ∨ v = z1Grid.getD (i + 1) 0) ∧
    (∀ i < 10, ∀ k < 11, pgaGrid.getD i 0 ≤ pgaGrid.getD k 0 → pgaGrid.getD k 0 ≤ pgaGrid.getD (i + 1) 0 → k = i ∨ k = i + 1) := by
  decide +kernel

theorem eight_weights {w : List ℝ} (h : w.length = 8) : ∃ a b c d e f g h', w = [a, b, c, d, e, f, g, h'] := by
  match w, h with
  | [a, b, c, d, e, f, g, h'], _ => exact ⟨a, b, c, d, e, f, g, h', rfl⟩

/-- Weights that reproduce a corner are concentrated there. -/
theorem corner_weights {v₀ v₁ z₀ z₁ p₀ p₁ : ℕ} (hv : v₀ < v₁) (hz : z₀ < z₁) (hp : p₀ < p₁) {w : List ℝ} {q : ℝ × ℝ × ℝ}
    (hw : IsWeights w (corners v₀ v₁ z₀ z₁ p₀ p₁) q) (x₁ x₂ x₃ x₄ x₅ x₆ x₇ x₈ : ℝ) (a b c : Bool)
    (h1 : q.1 = ((if a then v₁ else v₀ : ℕ) : ℝ)) (h2 : q.2.1 = ((if b then z₁ else z₀ : ℕ) : ℝ))
    (h3 : q.2.2 = ((if c then p₁ else p₀ : ℕ) : ℝ) / 100) :
    wsum w [x₁, x₂, x₃, x₄, x₅, x₆, x₇, x₈] =
      if a then (if b then (if c then x₈ else x₇) else (if c then x₆ else x₅))
      else (if b then (if c then x₄ else x₃) else (if c then x₂ else x₁)) := by
  obtain ⟨w1, w2, w3, w4, w5, w6⟩ := hw
  obtain ⟨a1, a2, a3, a4, a5, a6, a7, a8, rfl⟩ := eight_weights (w1.trans (by simp [corners]))
  simp only [List.mem_cons, List.not_mem_nil, or_false, forall_eq_or_imp, forall_eq] at w2
  obtain ⟨n1, n2, n3, n4, n5, n6, n7, n8⟩ := w2
  simp only [corners, wsum, List.map_cons, List.map_nil, List.zipWith_cons_cons, List.zipWith_nil_right, List.sum_cons, List.sum_nil,
    add_zero] at w3 w4 w5 w6 ⊢
  have hv' : (v₁ : ℝ) - v₀ ≠ 0 := ne_of_gt (sub_pos.2 (by exact_mod_cast hv))
  have hz' : (z₁ : ℝ) - z₀ ≠ 0 := ne_of_gt (sub_pos.2 (by exact_mod_cast hz))
  have hp' : (p₁ : ℝ) - p₀ ≠ 0 := ne_of_gt (sub_pos.2 (by exact_mod_cast hp))
  have tv : a5 + a6 + a7 + a8 = if a then 1 else 0 := by
    apply mul_right_cancel₀ hv'
    have : (a5 + a6 + a7 + a8) * ((v₁ : ℝ) - v₀) = q.1 - v₀ * (a1 + (a2 + (a3 + (a4 + (a5 + (a6 + (a7 + a8))))))) := by rw [← w4]; ring
    rw [this, w3, h1]
    cases a <;> simp
  have tz : a3 + a4 + a7 + a8 = if b then 1 else 0 := by
    apply mul_right_cancel₀ hz'
    have : (a3 + a4 + a7 + a8) * ((z₁ : ℝ) - z₀) = q.2.1 - z₀ * (a1 + (a2 + (a3 + (a4 + (a5 + (a6 + (a7 + a8))))))) := by rw [← w5]; ring
    rw [this, w3, h2]
    cases b <;> simp
  have tp : a2 + a4 + a6 + a8 = if c then 1 else 0 := by
    apply mul_right_cancel₀ hp'
    have : (a2 + a4 + a6 + a8) * ((p₁ : ℝ) - p₀) = q.2.2 * 100 - p₀ * (a1 + (a2 + (a3 + (a4 + (a5 + (a6 + (a7 + a8))))))) := by rw [← w6]; ring
    rw [this, w3, h3]
    cases c <;> simp
  cases a <;> cases b <;> cases c <;> simp only [Bool.false_eq_true, if_false, if_true] at tv tz tp ⊢
  · obtain rfl : a2 = 0 := by linarith
    obtain rfl : a3 = 0 := by linarith
    obtain rfl : a4 = 0 := by linarith
    obtain rfl : a5 = 0 := by linarith
    obtain rfl : a6 = 0 := by linarith
    obtain rfl : a7 = 0 := by linarith
    obtain rfl : a8 = 0 := by linarith
    obtain rfl : a1 = 1 := by linarith
    ring
  · obtain rfl : a1 = 0 := by linarith
    obtain rfl : a3 = 0 := by linarith
    obtain rfl : a4 = 0 := by linarith
    obtain rfl : a5 = 0 := by linarith
    obtain rfl : a6 = 0 := by linarith
    obtain rfl : a7 = 0 := by linarith
    obtain rfl : a8 = 0 := by linarith
    obtain rfl : a2 = 1 := by linarith
    ring
  · obtain rfl : a1 = 0 := by linarith
    obtain rfl : a2 = 0 := by linarith
    obtain rfl : a4 = 0 := by linarith
    obtain rfl : a5 = 0 := by linarith
    obtain rfl : a6 = 0 := by linarith
    obtain rfl : a7 = 0 := by linarith
    obtain rfl : a8 = 0 := by linarith
    obtain rfl : a3 = 1 := by linarith
    ring
  · obtain rfl : a1 = 0 := by linarith
    obtain rfl : a2 = 0 := by linarith
    obtain rfl : a3 = 0 := by linarith
    obtain rfl : a5 = 0 := by linarith
    obtain rfl : a6 = 0 := by linarith
    obtain rfl : a7 = 0 := by linarith
    obtain rfl : a8 = 0 := by linarith
    obtain rfl : a4 = 1 := by linarith
    ring
  · obtain rfl : a1 = 0 := by linarith
    obtain rfl : a2 = 0 := by linarith
    obtain rfl : a3 = 0 := by linarith
    obtain rfl : a4 = 0 := by linarith
    obtain rfl : a6 = 0 := by linarith
    obtain rfl : a7 = 0 := by linarith
    obtain rfl : a8 = 0 := by linarith
    obtain rfl : a5 = 1 := by linarith
    ring
  · obtain rfl : a1 = 0 := by linarith
    obtain rfl : a2 = 0 := by linarith
    obtain rfl : a3 = 0 := by linarith
    obtain rfl : a4 = 0 := by linarith
    obtain rfl : a5 = 0 := by linarith
    obtain rfl : a7 = 0 := by linarith
    obtain rfl : a8 = 0 := by linarith
    obtain rfl : a6 = 1 := by linarith
    ring
  · obtain rfl : a1 = 0 := by linarith
    obtain rfl : a2 = 0 := by linarith
    obtain rfl : a3 = 0 := by linarith
    obtain rfl : a4 = 0 := by linarith
    obtain rfl : a5 = 0 := by linarith
    obtain rfl : a6 = 0 := by linarith
    obtain rfl : a8 = 0 := by linarith
    obtain rfl : a7 = 1 := by linarith
    ring
  · obtain rfl : a1 = 0 := by linarith
    obtain rfl : a2 = 0 := by linarith
    obtain rfl : a3 = 0 := by linarith
    obtain rfl : a4 = 0 := by linarith
    obtain rfl : a5 = 0 := by linarith
    obtain rfl : a6 = 0 := by linarith
    obtain rfl : a7 = 0 := by linarith
    obtain rfl : a8 = 1 := by linarith
    ring

/-- At a grid point the tabulated curve is returned. -/
theorem C111_grid_point (hd : ShippedData d ax) (hg : LinearGrid g) (hA : Available kind m) (v z k : ℕ)
    (hv : v ∈ vs30Grid) (hz : z ∈ z1Grid) (hk : k < 11) (hr : InRange (v : ℝ) (z : ℝ) ((pgaGrid.getD k 0 : ℕ) / 100 : ℝ))
    (hc : CoveredPair (v : ℝ) (z : ℝ)) :
    sfResults d g ⟨v, z, (pgaGrid.getD k 0 : ℕ) / 100⟩ kind m = .ok (shown kind (ax kind), shown kind (curve d kind m v z k)) := by
  obtain ⟨i, j, l, v₀, v₁, z₀, z₁, p₀, p₁, w, hcell, hw, hl, he⟩ := C111_convex hd hg hA ⟨v, z, (pgaGrid.getD k 0 : ℕ) / 100⟩ hr hc
  rw [he]
  obtain ⟨n1, n2, n3⟩ := grid_neighbours
  have hgd : ∀ {l : List ℕ} {i n : ℕ}, l[i]? = some n → l.getD i 0 = n := by
    intro l i n h; rw [List.getD_eq_getElem?_getD, h]; rfl
  have hi : i + 1 < 17 := (List.getElem?_eq_some_iff.1 hcell.vi').1
  have hj : j + 1 < 10 := (List.getElem?_eq_some_iff.1 hcell.zj').1
  have hlk : l + 1 < 11 := (List.getElem?_eq_some_iff.1 hcell.pk').1
  have m1 := n1 i (by omega) v hv
  rw [hgd hcell.vi, hgd hcell.vi'] at m1
  have m2 := n2 j (by omega) z hz
  rw [hgd hcell.zj, hgd hcell.zj'] at m2
  have m3 := n3 l (by omega) k hk
  rw [hgd hcell.pk, hgd hcell.pk'] at m3
  have cv : (v₀ : ℝ) ≤ v ∧ (v : ℝ) ≤ v₁ := hcell.v_in
  have cz : (z₀ : ℝ) ≤ z ∧ (z : ℝ) ≤ z₁ := hcell.z_in
  have cp := hcell.p_in
  have m1 := m1 (by exact_mod_cast cv.1) (by exact_mod_cast cv.2)
  have m2 := m2 (by exact_mod_cast cz.1) (by exact_mod_cast cz.2)
  have hp1 : (p₀ : ℝ) ≤ ((pgaGrid.getD k 0 : ℕ) : ℝ) := by
    have h := cp.1
    rwa [div_le_div_iff_of_pos_right (by norm_num)] at h
  have hp2 : ((pgaGrid.getD k 0 : ℕ) : ℝ) ≤ (p₁ : ℝ) := by
    have h := cp.2
    rwa [div_le_div_iff_of_pos_right (by norm_num)] at h
  have m3 := m3 (by exact_mod_cast hp1) (by exact_mod_cast hp2)
  have hfin : ∀ r ∈ cornerCurves d kind m v₀ v₁ z₀ z₁ l, (∀ c : ℕ, wsum w ((cornerCurves d kind m v₀ v₁ z₀ z₁ l).map fun r => r.getD c 0) = r.getD c 0) →
      (List.range (ax kind).length).map (fun c => wsum w ((cornerCurves d kind m v₀ v₁ z₀ z₁ l).map fun r => r.getD c 0)) = r := by
    intro r hr hall
    apply List.ext_getElem (by simp [hl r hr])
    intro c h1 h2
    rw [List.getElem_map, hall, List.getElem_range, List.getD_eq_getElem?_getD, List.getElem?_eq_getElem h2, Option.getD_some]
  have key : ∀ a b c : Bool, v = (if a then v₁ else v₀) → z = (if b then z₁ else z₀) → k = (if c then l + 1 else l) →
      (List.range (ax kind).length).map (fun c => wsum w ((cornerCurves d kind m v₀ v₁ z₀ z₁ l).map fun r => r.getD c 0)) = curve d kind m v z k := by
    intro a b c ha hb hcc
    have hpc : pgaGrid.getD k 0 = if c then p₁ else p₀ := by
      rw [hcc]; cases c
      · exact hgd hcell.pk
      · exact hgd hcell.pk'
    apply hfin
    · rw [ha, hb, hcc]
      cases a <;> cases b <;> cases c <;> simp [cornerCurves]
    · intro n
      have := corner_weights hcell.v_lt hcell.z_lt hcell.p_lt hw ((curve d kind m v₀ z₀ l).getD n 0) ((curve d kind m v₀ z₀ (l + 1)).getD n 0)
        ((curve d kind m v₀ z₁ l).getD n 0) ((curve d kind m v₀ z₁ (l + 1)).getD n 0) ((curve d kind m v₁ z₀ l).getD n 0)
        ((curve d kind m v₁ z₀ (l + 1)).getD n 0) ((curve d kind m v₁ z₁ l).getD n 0) ((curve d kind m v₁ z₁ (l + 1)).getD n 0) a b c
        (by rw [ha]) (by rw [hb]) (by rw [hpc])
      simp only [cornerCurves, List.map_cons, List.map_nil]
      rw [this]
      clear this
      cases a <;> cases b <;> cases c <;> simp only [Bool.false_eq_true, if_false, if_true] at ha hb hcc ⊢ <;> rw [ha, hb, hcc]
  rw [show curve d kind m v z k = _ from (key (decide (v = v₁)) (decide (z = z₁)) (decide (k = l + 1)) ?_ ?_ ?_).symm]
  · rcases m1 with h | h
    · rw [if_neg (by simp; have := hcell.v_lt; omega)]; exact h
    · rw [if_pos (by simpa using h)]; exact h
  · rcases m2 with h | h
    · rw [if_neg (by simp; have := hcell.z_lt; omega)]; exact h
    · rw [if_pos (by simpa using h)]; exact h
  · rcases m3 with h | h
    · rw [if_neg (by simp; omega)]; exact h
    · rw [if_pos (by simpa using h)]; exact h

theorem asSpect_fst {x y : List ℝ} (h : x.length = y.length) : (asSpect x y).map Prod.fst = x := by
  unfold asSpect
  rw [List.map_fst_zip]
  simp [h]

theorem asSpect_snd {x y : List ℝ} (h : x.length = y.length) : (asSpect x y).map Prod.snd = y.map fun a : ℝ => (a : ℂ) := by
  unfold asSpect
  rw [List.map_snd_zip]
  simp [h]

theorem asSpect_length {x y : List ℝ} (h : x.length = y.length) : (asSpect x y).length = x.length := by
  unfold asSpect
  rw [List.length_zip, List.length_map, h, min_self]

theorem shown_length (kind : SfKind) {x y : List ℝ} (h : x.length = y.length) : (shown kind x).length = (shown kind y).length := by
  unfold shown; split_ifs
  · exact h
  · simp [h]

theorem shown_two (kind : SfKind) {x : List ℝ} (h : 2 ≤ x.length) : 2 ≤ (shown kind x).length := by
  unfold shown; split_ifs
  · exact h
  · simp; omega

/-- Amplification factors of an accepted query: the Fourier factors at the first 140 frequencies, the response-spectral ones
at the reciprocals of the periods, last period first; both real. -/
theorem C111_amplification (hd : ShippedData d ax) (hg : LinearGrid g) (m : SfMethod) (hm : m = .nlHH ∨ m = .eqHH) (fourier : Bool)
    (s : SiteFac ℝ) (hr : InRange s.vs30 s.z1 s.pga) (hc : CoveredPair s.vs30 s.z1) :
    ∃ y F, sfResults d g s (if fourier then .fs else .rs) m = .ok (shown (if fourier then .fs else .rs) (ax (if fourier then .fs else .rs)), y) ∧
      getAmplif d g s m fourier = .ok F ∧ y.length = F.freq.length ∧
      (fourier = true → F.freq = (ax .fs).take 140 ∧ F.spectrum = y.map fun a : ℝ => (a : ℂ)) ∧
      (fourier = false → F.freq = ((ax .rs).map fun t => 1 / t).reverse ∧ F.spectrum = (y.map fun a : ℝ => (a : ℂ)).reverse) := by
  have hA : Available (if fourier then .fs else .rs) m := by cases fourier <;> exact hm
  obtain ⟨i, j, k, v₀, v₁, z₀, z₁, p₀, p₁, y, -, he, hy, -⟩ := C111_bounded hd hg hA s hr hc
  have hlen := shown_length (if fourier then SfKind.fs else .rs) hy.symm
  have h2 := shown_two (if fourier then SfKind.fs else .rs) (hd.two (if fourier then .fs else .rs))
  have hm' : ¬(m ≠ .nlHH ∧ m ≠ .eqHH) := by rintro ⟨a, b⟩; rcases hm with h | h <;> contradiction
  refine ⟨shown (if fourier then SfKind.fs else .rs) y, ?_⟩
  unfold getAmplif
  rw [if_neg hm', he]
  simp only [bind, Except.bind]
  rw [if_neg (by rw [hlen]; simp)]
  cases fourier with
  | true =>
    simp only [if_true] at hlen h2 ⊢
    obtain ⟨F, hF, hf, hs, -⟩ := C107_raw (asSpect (shown .fs (ax .fs)) (shown .fs y)) none (by rw [asSpect_length hlen]; exact h2)
    rw [asSpect_fst hlen] at hf
    rw [asSpect_snd hlen] at hs
    refine ⟨F, trivial, hF, by rw [hf, hlen], fun _ => ⟨by rw [hf]; rfl, hs⟩, fun h => by simp at h⟩
  | false =>
    simp only [Bool.false_eq_true, if_false] at hlen h2 ⊢
    have h0 : (0 : ℝ) ∉ shown .rs (ax .rs) := by
      intro h
      exact absurd (hd.pos .rs 0 h) (lt_irrefl _)
    have hlen' : ((shown .rs (ax .rs)).map fun t : ℝ => 1 / t).length = (shown .rs y).length := by rw [List.length_map, hlen]
    obtain ⟨F, hF, hf, hs, -⟩ := C107_raw (asSpect ((shown .rs (ax .rs)).map fun t => 1 / t) (shown .rs y)).reverse none
      (by rw [List.length_reverse, asSpect_length hlen', List.length_map]; exact h2)
    rw [List.map_reverse, asSpect_fst hlen'] at hf
    rw [List.map_reverse, asSpect_snd hlen'] at hs
    refine ⟨F, trivial, by rw [if_neg h0]; exact hF, by rw [hf, List.length_reverse, hlen'], fun h => h.elim, fun _ => ⟨by rw [hf]; rfl, hs⟩⟩

/-- Phase shifts of an accepted query. -/
theorem C111_phase (hd : ShippedData d ax) (hg : LinearGrid g) (s : SiteFac ℝ) (hr : InRange s.vs30 s.z1 s.pga)
    (hc : CoveredPair s.vs30 s.z1) :
    ∃ y F, sfResults d g s .phase .eqHH = .ok (shown .phase (ax .phase), y) ∧ getPhaseShift d g s .eqHH = .ok F ∧
      y.length = F.freq.length ∧ F.freq = (ax .fs).take 140 ∧ F.spectrum = y.map fun a : ℝ => (a : ℂ) := by
  obtain ⟨i, j, k, v₀, v₁, z₀, z₁, p₀, p₁, y, -, he, hy, -⟩ := C111_bounded (kind := .phase) (m := .eqHH) hd hg rfl s hr hc
  have hlen := shown_length .phase hy.symm
  have h2 := shown_two .phase (hd.two .phase)
  refine ⟨shown .phase y, ?_⟩
  unfold getPhaseShift
  rw [if_neg (by simp), he]
  simp only [bind, Except.bind]
  rw [if_neg (by rw [hlen]; simp)]
  obtain ⟨F, hF, hf, hs, -⟩ := C107_raw (asSpect (shown .phase (ax .phase)) (shown .phase y)) none (by rw [asSpect_length hlen]; exact h2)
  rw [asSpect_fst hlen] at hf
  rw [asSpect_snd hlen] at hs
  exact ⟨F, trivial, hF, by rw [hf, hlen], by rw [hf, ← hd.freq]; rfl, hs⟩

/-- Other methods are refused. -/
theorem C111_methods (d : SfData) (g : GridFun) (s : SiteFac ℝ) (m : SfMethod) (fourier : Bool) :
    (m ≠ .nlHH → m ≠ .eqHH → getAmplif d g s m fourier = .error .valueError) ∧
    (m ≠ .eqHH → getPhaseShift d g s m = .error .valueError) := by
  constructor
  · intro h1 h2
    unfold getAmplif
    rw [if_pos ⟨h1, h2⟩]
  · intro h
    unfold getPhaseShift
    rw [if_pos h]

/-- Both factors of a query are on one frequency axis. -/
theorem C111_both (hd : ShippedData d ax) (hg : LinearGrid g) (m : SfMethod) (hm : m = .nlHH ∨ m = .eqHH) (s : SiteFac ℝ)
    (hr : InRange s.vs30 s.z1 s.pga) (hc : CoveredPair s.vs30 s.z1) :
    ∃ A P, getBoth d g s m = .ok (A, P) ∧ getAmplif d g s m true = .ok A ∧ getPhaseShift d g s .eqHH = .ok P ∧ A.freq = P.freq ∧
      A.spectrum.length = A.freq.length ∧ P.spectrum.length = P.freq.length := by
  obtain ⟨y, A, -, hA, hyl, hf, -⟩ := C111_amplification hd hg m hm true s hr hc
  obtain ⟨y', P, -, hP, hyl', hf', hs'⟩ := C111_phase hd hg s hr hc
  obtain ⟨hf, hs⟩ := hf rfl
  refine ⟨A, P, ?_, hA, hP, by rw [hf, hf'], by rw [hs, List.length_map, hyl], by rw [hs', List.length_map, hyl']⟩
  unfold getBoth
  rw [hA, hP]
  rfl

/-! ## Site-effect adjustment -/

theorem prepareTf_total {x : Rec ℝ} {p q : ℝ × ℝ} {rest : Rec ℝ} (hx : x = p :: q :: rest) (hdt : q.1 - p.1 ≠ 0)
    (f a ph : List ℝ) (hf : f ≠ []) (hpos : ∀ t ∈ f, 0 < t) (ha : a.length = f.length) (hp : ph.length = f.length) :
    ∃ ds, prepareTf x f (.ampPhase a ph) true = .ok (x, ds) := by
  obtain ⟨fi, hfi⟩ : ∃ fi, freqInterval x = .ok fi := by
    rw [hx]; unfold freqInterval; simp only; rw [if_neg hdt]; exact ⟨_, rfl⟩
  set tab : TfTab := f.zip (a.zip ph) with htab
  have hlen : tab.length = f.length := by simp [htab, ha, hp]
  have hne : tab ≠ [] := by
    intro h0; apply hf
    exact List.length_eq_zero_iff.mp (by rw [← hlen, h0]; rfl)
  have hfpos : ∀ r ∈ tab, 0 < r.1 := by
    intro r hr; exact hpos _ (List.of_mem_zip (show (r.1, r.2) ∈ _ from hr)).1
  have hext : ∃ t, extendHigh fi.fmax tab = .ok t ∧ t ≠ [] := by
    unfold extendHigh
    by_cases c : tabMax tab < fi.fmax
    · rw [if_pos c]
      obtain ⟨r, hr⟩ : ∃ r, tab.getLast? = some r := by
        cases hg : tab.getLast? with
        | none => exact absurd (List.getLast?_eq_none_iff.mp hg) hne
        | some r => exact ⟨r, rfl⟩
      obtain ⟨t, u, v⟩ := r
      have h2 := hfpos _ (List.mem_of_getLast? hr)
      rw [hr]
      simp only
      rw [if_neg (ne_of_gt h2)]
      exact ⟨_, rfl, by simp⟩
    · rw [if_neg c]; exact ⟨tab, rfl, hne⟩
  obtain ⟨t, ht, htne⟩ := hext
  have hlne : extendLow fi.df t ≠ [] := by
    unfold extendLow
    split_ifs
    · simp
    · exact htne
  obtain ⟨ss, hss⟩ := tfSingle_total (extendLow fi.df t) hlne fi.n fi.f
  refine ⟨tfDouble fi.n fi.half ss, ?_⟩
  unfold prepareTf tfArg
  simp only [ha, hp, ne_eq, not_true_eq_false, if_false, bind, Except.bind, hfi, if_neg hf, if_true, ← htab, ht, pure, Except.pure, hss]

/-- The constructor keeps the given parameters and builds the site factors from them and the motion's peak; z1 defaults to
the value correlated with Vs30. -/
theorem C112_construct (accel : Rec ℝ) (pga v : ℝ) (z : Option ℝ) (m : SfMethod) (lenient : Bool) (a : SiteAdj) :
    mkSiteAdj accel pga v z m lenient = .ok a ↔ (m = .nlHH ∨ m = .eqHH) ∧ ∃ s, mkSiteFac v (z.getD (z1FromVs30 v)) pga lenient = .ok s ∧
      a = ⟨accel, v, z.getD (z1FromVs30 v), pga, s, m⟩ := by
  unfold mkSiteAdj
  by_cases hm : m = .nlHH ∨ m = .eqHH
  · rw [if_neg (by rintro ⟨h1, h2⟩; rcases hm with h | h <;> contradiction)]
    simp only [bind, Except.bind]
    cases hs : mkSiteFac v (z.getD (z1FromVs30 v)) pga lenient with
    | error e => simp
    | ok s =>
      simp only [pure, Except.pure, Except.ok.injEq]
      constructor
      · intro h; exact ⟨hm, s, rfl, h.symm⟩
      · rintro ⟨-, s', rfl, h⟩; exact h.symm
  · rw [if_pos ⟨fun h => hm (.inl h), fun h => hm (.inr h)⟩]
    constructor
    · intro h; cases h
    · rintro ⟨h, -⟩; exact absurd h hm

/-- For every accepted site and every motion with at least two samples, the adjustment returns a record on the time axis of
the input; its spectrum is the spectrum of the input times a factor with Hermitian symmetry, namely the two-sided extension of
the interpolated amplification and phase factors. -/
theorem C112_adjusted (hd : ShippedData d ax) (hg : LinearGrid g) (pga v : ℝ) (z : Option ℝ) (m : SfMethod) (lenient : Bool)
    (p q : ℝ × ℝ) (rest : Rec ℝ) (hdt : q.1 - p.1 ≠ 0) (a : SiteAdj)
    (ha : mkSiteAdj (p :: q :: rest) pga v z m lenient = .ok a) :
    ∃ A P H y, getAmplif d g a.fac m true = .ok A ∧ getPhaseShift d g a.fac .eqHH = .ok P ∧ A.freq = (ax .fs).take 140 ∧
      prepareTf (p :: q :: rest) A.freq (.ampPhase (A.spectrum.map Complex.re) (P.spectrum.map Complex.re)) true = .ok (p :: q :: rest, H) ∧
      runSiteAdj d g a = .ok y ∧ y.map Prod.fst = (p :: q :: rest).map Prod.fst ∧ H.length = rest.length + 2 ∧ Hermitian H ∧
      fftL (cx (y.map Prod.snd)) = List.zipWith (· * ·) (fftL (cx ((p :: q :: rest).map Prod.snd))) H := by
  obtain ⟨hm, s, hs, rfl⟩ := (C112_construct _ _ _ _ _ _ _).1 ha
  obtain ⟨hr, hc⟩ := C54_constructed _ _ _ _ _ hs
  obtain ⟨A, P, -, hA, hP, hfreq, hAl, hPl⟩ := C111_both hd hg m hm s hr hc
  obtain ⟨y, A', -, hA', -, hfA, -⟩ := C111_amplification hd hg m hm true s hr hc
  rw [hA] at hA'
  cases hA'
  obtain ⟨hfA, -⟩ := hfA rfl
  have hne : A.freq ≠ [] := by
    rw [hfA]; intro h
    have := congrArg List.length h
    have h2 := hd.two .fs
    simp at this
    rw [this] at h2
    simp at h2
  have hpos : ∀ t ∈ A.freq, 0 < t := by
    intro t ht; rw [hfA] at ht; exact hd.pos .fs t (List.mem_of_mem_take ht)
  obtain ⟨H, hH⟩ := prepareTf_total (x := p :: q :: rest) rfl hdt A.freq (A.spectrum.map Complex.re) (P.spectrum.map Complex.re) hne hpos
    (by rw [List.length_map, hAl]) (by rw [List.length_map, hPl, hfreq])
  obtain ⟨⟨r, hrr⟩, -⟩ := C29_no_shape_error (taper := none) (fun g hg => by cases hg) hH
  obtain ⟨x', ds, hp', ha', hff⟩ := amplifyMotion_inv hrr
  rw [hH] at hp'
  cases hp'
  obtain ⟨k1, k2, -, -⟩ := prepareTf_ok hH
  obtain ⟨l1, l2⟩ := applyTf_inv ha'
  obtain ⟨r', hr', hrl, hfr⟩ := applyTf_spec false _ _ l1 k2 l2
  rw [ha'] at hr'
  cases hr'
  refine ⟨A, P, H, r, hA, hP, hfA, hH, ?_, hff, by rw [k1]; simp, k2, ?_⟩
  · unfold runSiteAdj
    simp only [bind, Except.bind]
    rw [hA]
    simp only
    rw [hP]
    exact hrr
  · simpa [tapered] using hfr

/-- The hypotheses can be met: a linear interpolation exists, and so do files of the required shape. -/
theorem linearGrid_exists : ∃ g, LinearGrid g := by
  classical
  refine ⟨fun pts vals q => if h : ∃ w, IsWeights w pts q then wsum (Classical.choose h) vals else 0, ?_⟩
  intro pts q h
  refine ⟨Classical.choose h, Classical.choose_spec h, fun vals _ => ?_⟩
  simp only [dif_pos h]

/-- With files that tabulate twice the frequency for 0.01 g and three times the frequency above, the factors for 0.03 g are 2.5 times the
frequency. -/
example : ∃ d g ax F, ShippedData d ax ∧ LinearGrid g ∧ getAmplif d g ⟨760, 50, 3 / 100⟩ .nlHH true = .ok F ∧ F.freq = [1, 4] ∧
    F.spectrum = [5 / 2, 10] := by
  obtain ⟨g, hg⟩ := linearGrid_exists
  refine ⟨⟨fun _ _ _ _ => some ([2, 8] :: List.replicate 10 [3, 12]), fun _ _ _ => some [1, 4]⟩, g, fun _ => [1, 4], ?_⟩
  have hd : ShippedData ⟨fun _ _ _ _ => some ([2, 8] :: List.replicate 10 [3, 12]), fun _ _ _ => some [1, 4]⟩ fun _ => [1, 4] := by
    refine ⟨?_, fun _ => by simp, ?_, rfl⟩
    · intro kind m v z _ _
      refine ⟨_, rfl, rfl, ?_, rfl⟩
      intro r hr
      rcases List.mem_cons.1 hr with rfl | hr
      · rfl
      · rw [List.eq_of_mem_replicate hr]; rfl
    · intro _ x hx
      simp at hx
      rcases hx with rfl | rfl <;> norm_num
  have hr : InRange (760 : ℝ) 50 (3 / 100) := by unfold InRange; norm_num
  have hc : CoveredPair (760 : ℝ) 50 := .inr (by unfold maxZ1; norm_num)
  obtain ⟨y, F, h1, h2, h3, h4, -⟩ := C111_amplification hd hg .nlHH (.inl rfl) true ⟨760, 50, 3 / 100⟩ hr hc
  obtain ⟨h5, h6⟩ := h4 rfl
  obtain ⟨i, j, k, v₀, v₁, z₀, z₁, p₀, p₁, w, hcell, hw, -, he⟩ := C111_convex (kind := .fs) (m := .nlHH) hd hg (.inl rfl)
    ⟨760, 50, 3 / 100⟩ hr hc
  simp only [if_true] at h1
  rw [h1] at he
  have hy := (Prod.mk.inj (Except.ok.inj he)).2
  -- the cell is the first one in PGA
  have hk : k = 0 ∧ p₀ = 1 ∧ p₁ = 5 := by
    have hp0 : (p₀ : ℝ) ≤ 3 := by have h := hcell.p_in.1; change (p₀ : ℝ) / 100 ≤ 3 / 100 at h; linarith
    have hp0' : p₀ ≤ 3 := by exact_mod_cast hp0
    have hp1 := hcell.pk'
    have hp := hcell.pk
    have hk : k + 1 < 11 := (List.getElem?_eq_some_iff.1 hcell.pk').1
    have hk0 : k = 0 := by
      have h' : ∀ k < 11, pgaGrid.getD k 0 ≤ 3 → k = 0 := by decide
      exact h' k (by omega) (by rw [List.getD_eq_getElem?_getD, hp]; exact hp0')
    subst hk0
    simp [pgaGrid] at hp hp1
    exact ⟨rfl, hp.symm, hp1.symm⟩
  obtain ⟨rfl, rfl, rfl⟩ := hk
  obtain ⟨w1, -, w3, -, -, w6⟩ := hw
  obtain ⟨a1, a2, a3, a4, a5, a6, a7, a8, rfl⟩ := eight_weights (w1.trans (by simp [corners]))
  simp [corners, wsum] at w3 w6
  refine ⟨F, hd, hg, h2, by rw [h5]; rfl, ?_⟩
  rw [h6, hy]
  have e : ∀ c : ℝ, a1 * (2 * c) + (a2 * (3 * c) + (a3 * (2 * c) + (a4 * (3 * c) + (a5 * (2 * c) + (a6 * (3 * c) + (a7 * (2 * c) + a8 * (3 * c))))))) = 5 / 2 * c := by
    intro c
    have h3 : a2 + a4 + a6 + a8 = 1 / 2 := by norm_num at w6; linarith
    have h4 : a1 + a3 + a5 + a7 = 1 / 2 := by linarith
    have : a1 * (2 * c) + (a2 * (3 * c) + (a3 * (2 * c) + (a4 * (3 * c) + (a5 * (2 * c) + (a6 * (3 * c) + (a7 * (2 * c) + a8 * (3 * c)))))))
      = 2 * c * (a1 + a3 + a5 + a7) + 3 * c * (a2 + a4 + a6 + a8) := by ring
    rw [this, h3, h4]; ring
  have e1 := e 1
  have e2 := e 4
  norm_num at e1 e2
  simp [shown, cornerCurves, curve, wsum, List.range_succ]
  constructor
  · have h := congrArg (fun r : ℝ => (r : ℂ)) e1
    push_cast at h
    exact h
  · have h := congrArg (fun r : ℝ => (r : ℂ)) e2
    push_cast at h
    exact h

end

end Verif
