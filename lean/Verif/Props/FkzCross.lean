import Verif.Props.CalibHH
import Mathlib.Algebra.BigOperators.Group.List.Basic
import Mathlib.Algebra.BigOperators.Intervals

/-!
C48, continued: where the two stress curves cross and which distance is made small, stated without the functions of the model.
-/

set_option linter.unusedSectionVars false
set_option linter.unusedVariables false

namespace Verif

/-- `k` is the first strain at which the two stresses are closest. -/
def Spec.CrossAt (T F : ℝ → ℝ) (x : List ℝ) (k : Nat) : Prop :=
  ∃ y, x[k]? = some y ∧ (∀ z ∈ x, |T y - F y| ≤ |T z - F z|) ∧
    ∀ (j : Nat) z, j < k → x[j]? = some z → |T y - F y| < |T z - F z|

/-- The distance of the two stress curves up to sample `k`: square root of the sum of squares, over the number of samples. -/
noncomputable def Spec.CurveDist (T F : ℝ → ℝ) (x : List ℝ) (k : Nat) : ℝ :=
  Real.sqrt (∑ j ∈ Finset.range (k + 1), (T (x.getD j 0) - F (x.getD j 0)) ^ 2) / (k + 1)

/-- The curves cross at a strain between `lb` and `ub` (percent). -/
def Spec.CrossWithin (T F : ℝ → ℝ) (x : List ℝ) (lb ub : ℝ) (k : Nat) : Prop :=
  Spec.CrossAt T F x k ∧ ∃ y, x[k]? = some y ∧ lb / 100 ≤ y ∧ y ≤ ub / 100

open Spec (CrossAt CurveDist CrossWithin)

theorem crossAt_unique {T F : ℝ → ℝ} {x : List ℝ} {i k : Nat} (hi : CrossAt T F x i) (hk : CrossAt T F x k) : i = k := by
  obtain ⟨y, hy, hy1, hy2⟩ := hi
  obtain ⟨z, hz, hz1, hz2⟩ := hk
  rcases lt_trichotomy i k with h | h | h
  · exact absurd (hz2 i y h hy) (not_lt.2 (hy1 z (List.mem_of_getElem? hz)))
  · exact h
  · exact absurd (hy2 k z h hz) (not_lt.2 (hz1 y (List.mem_of_getElem? hy)))

/-- The index computed by the code. -/
theorem crossIdx_spec (T F : ℝ → ℝ) (x : List ℝ) (k : Nat) :
    crossIdx (x.map T) (x.map F) = some k ↔ CrossAt T F x k := by
  have hz : List.zipWith (fun a b => |a - b|) (x.map T) (x.map F) = x.map fun y => |T y - F y| := by
    rw [List.zipWith_map]
    induction x with
    | nil => rfl
    | cons a l ih => simp [ih]
  have key : ∀ k, crossIdx (x.map T) (x.map F) = some k → CrossAt T F x k := by
    intro k hk
    unfold crossIdx at hk
    rw [hz] at hk
    have hne : x ≠ [] := by rintro rfl; simp [findClosest] at hk
    obtain ⟨i, v, h1, h2, h3, h4⟩ := (C66_closest (x.map fun y => |T y - F y|) 0).2 (by simpa using hne)
    rw [h1] at hk
    simp only [Option.map_some, Option.some.injEq] at hk
    subst hk
    rw [List.getElem?_map] at h2
    cases hy : x[i]? with
    | none => rw [hy] at h2; cases h2
    | some y =>
      rw [hy] at h2
      simp only [Option.map_some, Option.some.injEq] at h2
      subst h2
      refine ⟨y, hy, fun z hz => ?_, fun j z hj hjz => ?_⟩
      · have := h3 _ (List.mem_map.2 ⟨z, hz, rfl⟩)
        simpa [sub_zero, abs_abs] using this
      · have := h4 j (|T z - F z|) hj (by rw [List.getElem?_map, hjz]; rfl)
        simpa [sub_zero, abs_abs] using this
  refine ⟨key k, fun h => ?_⟩
  cases hc : crossIdx (x.map T) (x.map F) with
  | some i => rw [crossAt_unique (key i hc) h]
  | none =>
    exfalso
    obtain ⟨y, hy, _⟩ := h
    have hne : x ≠ [] := by rintro rfl; simp at hy
    obtain ⟨i, v, h1, _⟩ := (C66_closest (x.map fun y => |T y - F y|) 0).2 (by simpa using hne)
    unfold crossIdx at hc
    rw [hz, h1] at hc
    cases hc

theorem sum_map_range (f : Nat → ℝ) (n : Nat) : ((List.range n).map f).sum = ∑ j ∈ Finset.range n, f j := by
  induction n with
  | zero => simp
  | succ n ih => rw [List.range_succ, List.map_append, List.sum_append, ih, Finset.sum_range_succ]; simp

theorem norm2_take (T F : ℝ → ℝ) (x : List ℝ) (k : Nat) (hk : k < x.length) :
    norm2 (List.zipWith (fun a b => |a - b|) ((x.map T).take (k + 1)) ((x.map F).take (k + 1))) =
      Real.sqrt (∑ j ∈ Finset.range (k + 1), (T (x.getD j 0) - F (x.getD j 0)) ^ 2) := by
  unfold norm2
  congr 1
  have h : (List.zipWith (fun a b => |a - b|) ((x.map T).take (k + 1)) ((x.map F).take (k + 1))).map (fun x => x ^ 2) =
      (List.range (k + 1)).map fun j => (T (x.getD j 0) - F (x.getD j 0)) ^ 2 := by
    apply List.ext_getElem
    · simp; omega
    · intro i h1 h2
      simp only [List.length_map, List.length_range] at h2
      have hi : i < x.length := by omega
      simp only [List.getElem_map, List.getElem_zipWith, List.getElem_take, List.getElem_range, sq_abs]
      rw [List.getD_eq_getElem?_getD, List.getElem?_eq_getElem hi, Option.getD_some]
  rw [h]
  exact sum_map_range _ _

/-- The area of a power is finite exactly when the curves cross between the bounds, and then it is the distance up to the
crossing. -/
theorem areaOne_exact (T : ℝ → ℝ) (x : List ℝ) (Gmax mu tauF lb ub d a : ℝ) :
    areaOne ⟨x, x.map T, Gmax, mu, tauF⟩ lb ub d = some a ↔
      ∃ k, CrossWithin T (tauFKZ Gmax mu d tauF) x lb ub k ∧ a = CurveDist T (tauFKZ Gmax mu d tauF) x k := by
  unfold areaOne FkzCase.fkz
  dsimp only
  constructor
  · intro h
    cases hc : crossIdx (x.map T) (x.map (tauFKZ Gmax mu d tauF)) with
    | none => rw [hc] at h; cases h
    | some k =>
      rw [hc] at h
      dsimp only at h
      cases hx : x[k]? with
      | none => rw [hx] at h; cases h
      | some y =>
        rw [hx] at h
        dsimp only at h
        split_ifs at h with hb
        rw [Option.some.injEq] at h
        refine ⟨k, ⟨(crossIdx_spec _ _ _ _).1 hc, y, hx, hb.1, hb.2⟩, ?_⟩
        rw [← h, norm2_take _ _ _ _ (List.getElem?_eq_some_iff.1 hx).1]
        rfl
  · rintro ⟨k, ⟨hc, y, hy, h1, h2⟩, rfl⟩
    rw [(crossIdx_spec _ _ _ _).2 hc]
    dsimp only
    rw [hy]
    dsimp only
    rw [if_pos ⟨h1, h2⟩, norm2_take _ _ _ _ (List.getElem?_eq_some_iff.1 hy).1]
    rfl

theorem findXt_cross (T : ℝ → ℝ) (x : List ℝ) (Gmax mu tauF d gt : ℝ)
    (h1 : findXt ⟨x, x.map T, Gmax, mu, tauF⟩ d = .ok (gt, d)) :
    ∃ k, CrossAt T (tauFKZ Gmax mu d tauF) x k ∧ x[k]? = some gt := by
  unfold findXt FkzCase.fkz at h1
  dsimp only at h1
  cases hk : crossIdx (x.map T) (x.map (tauFKZ Gmax mu d tauF)) with
  | none => rw [hk] at h1; cases h1
  | some k =>
    rw [hk] at h1
    dsimp only at h1
    cases hxk : x[k]? with
    | none => rw [hxk] at h1; cases h1
    | some g =>
      rw [hxk] at h1
      have hg : g = gt := by simpa using h1
      exact ⟨k, (crossIdx_spec _ _ _ _).1 hk, by rw [← hg]; exact hxk⟩

/-- Where the transition strain of the result comes from: for the power that is returned it is the first given strain at which
the MKZ and the FKZ stresses are closest, unless no power of the three grids is admissible; in this case, and only in this case, the
fall-back values are returned. -/
theorem C48_crossing (x : List ℝ) (xref beta s Gmax tauF mu : ℝ) (hx : x ≠ []) :
    ∃ gt d, kernel x xref beta s Gmax tauF mu = .ok (100, gt, d) ∧
      ((∃ k, CrossAt (tauMKZ xref beta s Gmax) (tauFKZ Gmax mu d tauF) x k ∧ x[k]? = some gt) ∨
       (gt = 0.001 / 100 ∧ d = 1.03 ∧ ∀ d' ∈ linspace (0.67 : ℝ) 1.39 1000, ∀ k,
          ¬ CrossWithin (tauMKZ xref beta s Gmax) (tauFKZ Gmax mu d' tauF) x 0.005 3 k)) := by
  unfold kernel
  simp only
  set c : FkzCase := ⟨x, x.map (tauMKZ xref beta s Gmax), Gmax, mu, tauF⟩ with hc
  have hlen : c.tm.length = c.x.length := by rw [hc]; simp
  obtain ⟨lb1, e1, hlb1⟩ := relaxLB_ok c (if mu ≤ 0.03 then 0.001 else 0.01) 0.005 hx hlen
  rw [e1]
  simp only
  obtain ⟨lb, e2, hlb⟩ := relaxLB_ok c lb1 0.001 hx hlen
  rw [e2]
  simp only
  have fin : ∀ n l d, searchD c n l 3 = some d → ∃ gt, findXt c d = .ok (gt, d) ∧
      ∃ k, CrossAt (tauMKZ xref beta s Gmax) (tauFKZ Gmax mu d tauF) x k ∧ x[k]? = some gt := by
    intro n l d h
    obtain ⟨gt, a, h1, _⟩ := searchD_some c n l 3 d h
    exact ⟨gt, h1, findXt_cross _ _ _ _ _ _ _ h1⟩
  cases h200 : searchD c 200 lb 3 with
  | some d =>
    obtain ⟨gt, h1, h2⟩ := fin 200 lb d h200
    simp only [h1]
    exact ⟨gt, d, rfl, .inl h2⟩
  | none =>
    simp only
    cases h400 : searchD c 400 lb 3 with
    | some d =>
      obtain ⟨gt, h1, h2⟩ := fin 400 lb d h400
      simp only [h1]
      exact ⟨gt, d, rfl, .inl h2⟩
    | none =>
      simp only
      cases h1000 : searchD c 1000 0.005 3 with
      | some d =>
        obtain ⟨gt, h1, h2⟩ := fin 1000 0.005 d h1000
        simp only [h1]
        exact ⟨gt, d, rfl, .inl h2⟩
      | none =>
        refine ⟨0.001 / 100, 1.03, rfl, .inr ⟨rfl, rfl, fun d' hd' k hk => ?_⟩⟩
        have := (searchD_none c 1000 0.005 3).1 h1000 d' hd'
        rw [hc, (areaOne_exact _ _ _ _ _ _ _ _ _).2 ⟨k, hk, rfl⟩] at this
        cases this

/-- The power returned is the best one: if for some power of the first grid the curves cross between the lower bound `lb` and 3%,
the returned power is one of these, its transition strain is its crossing, and no power of the grid whose curves cross between
the bounds has curves that are closer up to the crossing. -/
theorem C48_least (x : List ℝ) (xref beta s Gmax tauF mu lb1 lb : ℝ)
    (h1 : relaxLB ⟨x, x.map (tauMKZ xref beta s Gmax), Gmax, mu, tauF⟩ (if mu ≤ 0.03 then 0.001 else 0.01) 0.005 = .ok lb1)
    (h2 : relaxLB ⟨x, x.map (tauMKZ xref beta s Gmax), Gmax, mu, tauF⟩ lb1 0.001 = .ok lb)
    (hex : ∃ d ∈ linspace (0.67 : ℝ) 1.39 200, ∃ k, CrossWithin (tauMKZ xref beta s Gmax) (tauFKZ Gmax mu d tauF) x lb 3 k) :
    ∃ gt d k, kernel x xref beta s Gmax tauF mu = .ok (100, gt, d) ∧ d ∈ linspace (0.67 : ℝ) 1.39 200 ∧ x[k]? = some gt ∧
      CrossWithin (tauMKZ xref beta s Gmax) (tauFKZ Gmax mu d tauF) x lb 3 k ∧
      ∀ d' ∈ linspace (0.67 : ℝ) 1.39 200, ∀ k', CrossWithin (tauMKZ xref beta s Gmax) (tauFKZ Gmax mu d' tauF) x lb 3 k' →
        CurveDist (tauMKZ xref beta s Gmax) (tauFKZ Gmax mu d tauF) x k ≤
          CurveDist (tauMKZ xref beta s Gmax) (tauFKZ Gmax mu d' tauF) x k' := by
  unfold kernel
  simp only [h1, h2]
  cases h200 : searchD ⟨x, x.map (tauMKZ xref beta s Gmax), Gmax, mu, tauF⟩ 200 lb 3 with
  | none =>
    obtain ⟨d, hd, k, hk⟩ := hex
    have := (searchD_none _ 200 lb 3).1 h200 d hd
    rw [(areaOne_exact _ _ _ _ _ _ _ _ _).2 ⟨k, hk, rfl⟩] at this
    cases this
  | some d =>
    obtain ⟨gt, a, h3, _, h5, h6, _, _, h9, h10, h11⟩ := searchD_some _ 200 lb 3 d h200
    obtain ⟨k, hk, rfl⟩ := (areaOne_exact _ _ _ _ _ _ _ _ _).1 h10
    obtain ⟨i, hi, hgi⟩ := findXt_cross _ _ _ _ _ _ _ h3
    simp only [h3]
    refine ⟨gt, d, k, rfl, h9, ?_, hk, fun d' hd' k' hk' => h11 d' hd' _ ((areaOne_exact _ _ _ _ _ _ _ _ _).2 ⟨k', hk', rfl⟩)⟩
    rw [crossAt_unique hk.1 hi]; exact hgi

/-- A crossing: the curves `y` and `2 y - 1` on the strains 1/2, 1, 2 cross at the second of them. -/
example : CrossAt (fun y => y) (fun y => 2 * y - 1) [1 / 2, 1, 2] 1 := by
  refine ⟨1, rfl, ?_, ?_⟩
  · intro z hz; norm_num
  · intro j z hj hz
    obtain rfl : j = 0 := by omega
    simp only [List.getElem?_cons_zero, Option.some.injEq] at hz
    subst hz
    norm_num

end Verif
