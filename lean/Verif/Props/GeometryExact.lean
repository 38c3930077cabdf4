import Verif.Props.ProfileGeometry
import Verif.Props.MotionTrunc
import Verif.Proof.Float

/-!
Exact extent of C07, C12, C23 and C24.
-/

set_option linter.unusedSectionVars false
set_option linter.unusedVariables false

namespace Verif

open Spec

section
variable {K : Type} [_root_.Field K] [LinearOrder K] [IsStrictOrderedRing K] [FloorRing K]

/-! ## C07 -/

/-- The sub-layers of one layer add up to it, except if it is thicker than Vs/225 and the ratio is close to an integer
without being one. -/
theorem stratifyLayer_sum_iff {P : Type*} (r : LRow K P) (ht : 0 < r.thk) (hv : 0 < r.vs) :
    ((stratifyLayer r).map LRow.thk).sum = r.thk ↔
      (r.thk ≤ r.vs / 225 ∨ (∃ m : ℤ, (m : K) * (r.vs / 225) = r.thk) ∨
        ∀ m : ℤ, 1 / 10 ^ 8 + 1 / 10 ^ 5 * (r.thk / (r.vs / 225)) < |(m : K) - r.thk / (r.vs / 225)|) := by
  have hh : 0 < r.vs / 225 := by positivity
  have hq : 0 < r.thk / (r.vs / 225) := div_pos ht hh
  have hc : 0 < ⌈r.thk / (r.vs / 225)⌉ := Int.ceil_pos.2 hq
  have hn : (⌈r.thk / (r.vs / 225)⌉.toNat : K) = (⌈r.thk / (r.vs / 225)⌉ : K) := toNat_cast hc.le
  have hcK : (0 : K) < (⌈r.thk / (r.vs / 225)⌉ : K) := by exact_mod_cast hc
  unfold stratifyLayer
  simp only
  split_ifs with h1 h2
  · simp [h1]
  · simp only [List.map_replicate, List.sum_replicate, nsmul_eq_mul, hn]
    constructor
    · intro he
      exact .inr (.inl ⟨_, he⟩)
    · rintro (h | ⟨m, h⟩ | h)
      · exact absurd h h1
      · have he : r.thk / (r.vs / 225) = (m : K) := by rw [div_eq_iff hh.ne']; exact h.symm
        rw [he, Int.ceil_intCast, h]
      · exfalso
        simp only [allclose, decide_eq_true_eq, abs_of_pos hq] at h2
        exact absurd h2 (not_le.2 (h _))
  · simp only [List.map_replicate, List.sum_replicate, nsmul_eq_mul, hn]
    rw [mul_div_cancel₀ _ hcK.ne']
    simp only [true_iff]
    refine .inr (.inr fun m => ?_)
    simp only [allclose, decide_eq_true_eq, abs_of_pos hq, not_le] at h2
    refine lt_of_lt_of_le h2 ?_
    rw [abs_sub_comm, abs_sub_comm (m : K)]
    exact rhe_nearest _ m

/-- C07, exactly: the total thickness is kept if every layer is thin enough already, or is a whole number of sub-layers
of thickness Vs/225, or is far enough from that; in all other cases the column grows. -/
theorem C07_exact {P : Type*} (rows : List (LRow K P)) (h : ValidRows rows) :
    ((stratify rows).map LRow.thk).sum = (rows.map LRow.thk).sum ↔
      ∀ r ∈ rows, r.thk ≤ r.vs / 225 ∨ (∃ m : ℤ, (m : K) * (r.vs / 225) = r.thk) ∨
        ∀ m : ℤ, 1 / 10 ^ 8 + 1 / 10 ^ 5 * (r.thk / (r.vs / 225)) < |(m : K) - r.thk / (r.vs / 225)| := by
  obtain ⟨hne, hpos, hall⟩ := h
  have sumL : ∀ l : List (LRow K P), (∀ r ∈ l, 0 < r.thk ∧ 0 < r.vs) →
      (l.map LRow.thk).sum ≤ ((l.flatMap stratifyLayer).map LRow.thk).sum ∧
      (((l.flatMap stratifyLayer).map LRow.thk).sum = (l.map LRow.thk).sum ↔
        ∀ r ∈ l, ((stratifyLayer r).map LRow.thk).sum = r.thk) := by
    intro l hl
    induction l with
    | nil => simp
    | cons r l ih =>
      obtain ⟨i1, i2⟩ := ih fun r' hr' => hl r' (by simp [hr'])
      obtain ⟨_, _, c, _⟩ := stratifyLayer_spec r (hl r (by simp)).1 (hl r (by simp)).2
      simp only [List.flatMap_cons, List.map_append, List.sum_append, List.map_cons, List.sum_cons, List.forall_mem_cons]
      refine ⟨by linarith, ?_⟩
      rw [← i2]
      constructor
      · intro he; constructor <;> linarith
      · rintro ⟨e1, e2⟩; linarith
  have hlast := List.getLast?_eq_getLast_of_ne_nil hne
  obtain ⟨hl0, hlv⟩ := hall _ (List.getLast_mem hne)
  have hdl : ∀ r ∈ rows.dropLast, 0 < r.thk ∧ 0 < r.vs := fun r hr => ⟨hpos r hr, (hall r (List.mem_of_mem_dropLast hr)).2⟩
  by_cases hz : (rows.getLast hne).thk = 0
  · have hs : stratify rows = rows.dropLast.flatMap stratifyLayer ++ [rows.getLast hne] := by
      simp [stratify, hlast, hz]
    rw [hs]
    have hR : (rows.map LRow.thk).sum = (rows.dropLast.map LRow.thk).sum := by
      conv_lhs => rw [← List.dropLast_append_getLast hne, List.map_append, List.sum_append]
      simp [hz]
    rw [hR, List.map_append, List.sum_append]
    simp only [List.map_cons, List.map_nil, List.sum_cons, List.sum_nil, hz, add_zero]
    rw [(sumL rows.dropLast hdl).2]
    constructor
    · intro hx r hr
      rw [← List.dropLast_append_getLast hne] at hr
      rcases List.mem_append.1 hr with h | h
      · exact (stratifyLayer_sum_iff r (hdl r h).1 (hdl r h).2).1 (hx r h)
      · simp only [List.mem_singleton] at h
        left
        rw [h, hz]
        positivity
    · intro hx r hr
      exact (stratifyLayer_sum_iff r (hdl r hr).1 (hdl r hr).2).2 (hx r (List.mem_of_mem_dropLast hr))
  · have hs : stratify rows = rows.flatMap stratifyLayer := by simp [stratify, hlast, hz]
    have hall' : ∀ r ∈ rows, 0 < r.thk ∧ 0 < r.vs := by
      intro r hr
      rw [← List.dropLast_append_getLast hne] at hr
      rcases List.mem_append.1 hr with h | h
      · exact hdl r h
      · simp only [List.mem_singleton] at h
        subst h
        exact ⟨lt_of_le_of_ne hl0 (Ne.symm hz), hlv⟩
    rw [hs, (sumL rows hall').2]
    exact forall₂_congr fun r hr => stratifyLayer_sum_iff r (hall' r hr).1 (hall' r hr).2

/-! ## C12 -/

/-- C12 is violated by every list of thicknesses that ends in a zero: there is no velocity for the last entry.  The other
velocities are those at the mid-points. -/
theorem C12_halfspace_all_violated (p : List (K × K)) (hp : Valid p) (thk : List K) (ht : ∀ t ∈ thk, 0 ≤ t)
    (hlast : thk.getLast? = some 0) :
    ∃ vs, queryVsGivenThk p (.array thk) true = .ok (vs, thk) ∧ vs.length + 1 = thk.length ∧
      ∀ (i : Nat) v, vs[i]? = some v → HasAt p ((topDepth thk i + topDepth thk (i + 1)) / 2) v := by
  have hne : thk ≠ [] := by rintro rfl; simp at hlast
  have hl : 0 < thk.length := List.length_pos_iff.2 hne
  obtain ⟨dep, h1, h2, h3⟩ := C01_thk2dep_midpoints thk hne
  rw [if_pos hlast] at h2
  have hnn : ∀ z ∈ dep, 0 ≤ z := by
    intro z hz
    obtain ⟨i, hi, rfl⟩ := List.getElem_of_mem hz
    have := h3 i hi
    rw [List.getElem?_eq_getElem hi] at this
    rw [Option.some.inj this]
    have h1 := topDepth_nonneg ht i
    have h2 := topDepth_nonneg ht (i + 1)
    linarith
  obtain ⟨out, ho, hF⟩ := C02_query_depth p hp dep hnn
  refine ⟨out, ?_, by rw [← hF.length_eq]; omega, ?_⟩
  · simp [queryVsGivenThk, thkArray, h1, ho, bind, Except.bind, pure, Except.pure]
  · intro i v hv
    have hi2 : i < out.length := by
      by_contra hn
      rw [List.getElem?_eq_none (by omega)] at hv; cases hv
    have hi1 : i < dep.length := by rw [hF.length_eq]; exact hi2
    have hz := h3 i hi1
    rw [List.getElem?_eq_getElem hi1] at hz
    rw [List.getElem?_eq_getElem hi2] at hv
    rw [← Option.some.inj hz, ← Option.some.inj hv]
    exact List.Forall₂.get hF hi1 hi2

/-! ## C23 -/

/-- C23 is violated by every low threshold which the first sample has reached already: the lower bound is time 0, whether
the record contains it or not. -/
theorem C23_low_all_violated (tn : Rec K) (low high : K) (hlh : low < high) (hm : NonDecr (vals tn))
    (h0 : ∃ x, (vals tn)[0]? = some x ∧ low ≤ x) : ∃ th, ariasBounds tn low high = .ok (0, th) := by
  obtain ⟨x0, hx0, hle⟩ := h0
  cases tn with
  | nil => simp [vals] at hx0
  | cons p rest =>
    obtain ⟨t0, y0⟩ := p
    simp only [vals, List.map_cons, List.getElem?_cons_zero, Option.some.injEq] at hx0
    subst hx0
    have key : ∀ (l : Rec K) (prev : K) (acc : K × K), low ≤ prev → (∀ q ∈ l, low ≤ q.2) →
        (boundsLoop low high prev acc l).1 = acc.1 := by
      intro l
      induction l with
      | nil => intro prev acc _ _; rfl
      | cons q l ih =>
        intro prev acc hp hq
        obtain ⟨t, x⟩ := q
        have hx : low ≤ x := hq (t, x) (by simp)
        simp only [boundsLoop]
        rw [if_neg (show ¬ (low ≤ x ∧ prev < low) by rintro ⟨_, h⟩; exact absurd h (not_lt.2 hp))]
        rw [ih x _ hx fun q hq' => hq q (by simp [hq'])]
        split_ifs <;> rfl
    have hall : ∀ q ∈ (t0, y0) :: rest, low ≤ q.2 := by
      intro q hq
      obtain ⟨i, hi⟩ := List.mem_iff_getElem?.1 hq
      exact hle.trans (hm 0 i y0 q.2 (by omega) (by simp [vals]) (by unfold vals; rw [List.getElem?_map, hi]; rfl))
    unfold ariasBounds
    rw [if_neg (not_le.2 hlh)]
    simp only
    rw [List.getLast?_eq_getLast_of_ne_nil (by simp)]
    simp only
    have := key ((t0, y0) :: rest) y0 (0, (((t0, y0) :: rest).getLast (by simp)).1) hle hall
    exact ⟨(boundsLoop low high y0 (0, (((t0, y0) :: rest).getLast (by simp)).1) ((t0, y0) :: rest)).2,
      by rw [Except.ok.injEq]; exact Prod.ext this rfl⟩

/-! ## C24 -/

/-- C24 is violated by every window which ends `k` or more, but less than `k + 1`, intervals before time 0, provided the
record is at least `k + 2` samples long: it is answered with the record without its last `k` samples. -/
theorem C24_before_start_all_violated (σ : CStore K) (m : Motion K) (norm : Rec K) (lim ext : K × K) (hdt : 0 < m.dt)
    (hn : m.npts = (m.accel.read σ).length) (hext : 0 ≤ ext.1 ∧ 0 ≤ ext.2) (hlim : lim.1 < lim.2) (k : Nat) (hk : 1 ≤ k)
    (hk1 : lim.2 + ext.2 ≤ -((k : K) * m.dt)) (hk2 : -(((k : K) + 1) * m.dt) < lim.2 + ext.2)
    (hkn : k + 2 ≤ (m.accel.read σ).length) :
    ∃ m', truncateMotion σ m norm lim false ext = (.ok (m', 0, -(k : Int)),
        σ ++ [(m.accel.read σ).take ((m.accel.read σ).length - k)]) ∧
      m'.accel.read (σ ++ [(m.accel.read σ).take ((m.accel.read σ).length - k)]) =
        (m.accel.read σ).take ((m.accel.read σ).length - k) := by
  have hkpos : (0 : K) < k * m.dt := mul_pos (by exact_mod_cast hk) hdt
  have hneg : lim.2 + ext.2 < 0 := by linarith
  have hn2 : pyInt ((lim.2 + ext.2) / m.dt) = -(k : Int) := by
    unfold pyInt
    rw [if_neg (not_le.2 (div_neg_of_neg_of_pos hneg hdt)), Int.ceil_eq_iff]
    push_cast
    constructor
    · rw [lt_div_iff₀ hdt]; linarith
    · rw [div_le_iff₀ hdt]; linarith
  have hn1 : pyInt ((lim.1 - ext.1) / m.dt) ≤ 0 := by
    unfold pyInt
    have : (lim.1 - ext.1) / m.dt < 0 := div_neg_of_neg_of_pos (by linarith) hdt
    rw [if_neg (not_le.2 this)]
    exact Int.ceil_le.2 (by push_cast; exact this.le)
  have hidx : truncIdx (m.accel.read σ) norm m.dt m.npts lim false ext = .ok (0, -(k : Int)) := by
    unfold truncIdx
    rw [if_neg (by rintro (h | h) <;> linarith), if_neg (not_le.2 hlim), if_neg hdt.ne']
    simp only [Bool.false_eq_true, if_false, bind, Except.bind, pure, Except.pure, hn2]
    have e1 : (if pyInt ((lim.1 - ext.1) / m.dt) < 0 then 0 else pyInt ((lim.1 - ext.1) / m.dt)) = 0 := by
      split_ifs <;> omega
    rw [e1, if_neg (by omega)]
  have harr : truncArr (m.accel.read σ) 0 (-(k : Int)) =
      .ok ((m.accel.read σ).take ((m.accel.read σ).length - k)) := by
    have hs : pySlice (m.accel.read σ) 0 (-(k : Int)) = (m.accel.read σ).take ((m.accel.read σ).length - k) := by
      unfold pySlice sliceBound
      rw [if_pos (show -(k : Int) < 0 by omega), if_neg (show ¬ (0 : Int) < 0 by omega)]
      have : ((m.accel.read σ).length + -(k : Int) : Int).toNat = (m.accel.read σ).length - k := by omega
      rw [this]
      simp
    unfold truncArr colStack
    rw [sub_zero, hs]
    simp only [List.length_map, ne_eq, not_true_eq_false, if_false, Except.ok.injEq]
    generalize (m.accel.read σ).take ((m.accel.read σ).length - k) = l
    induction l with
    | nil => rfl
    | cons q l ih => simp only [List.map_cons, List.zip_cons_cons, ih]
  obtain ⟨m', hm', hr, _⟩ := mkFresh_spec σ ((m.accel.read σ).take ((m.accel.read σ).length - k)) (by simp; omega)
  refine ⟨m', ?_, hr⟩
  unfold truncateMotion
  rw [hidx]
  simp only [harr, hm']

end

example : ValidRows [(⟨300001 / 100000, 225, ()⟩ : LRow ℚ Unit)] := by
  refine ⟨by simp, by simp, ?_⟩
  intro r hr
  simp only [List.mem_singleton] at hr
  subst hr; norm_num

end Verif
