import Verif.Model.ProfilePlot
import Verif.Props.PlotLine
import Verif.Props.Query
import Verif.Props.SvmDisc

/-!
C160: what is drawn in a figure of velocity profiles lies within the limits of its axes.
-/

set_option linter.unusedSectionVars false
set_option linter.unusedVariables false

namespace Verif

namespace Spec

variable {K : Type} [Field K] [LinearOrder K]

/-- A point is within the limits of the axes (which may be given in either order). -/
def Shown (a : VsAxes K) (x y : K) : Prop :=
  min a.xlim.1 a.xlim.2 ≤ x ∧ x ≤ max a.xlim.1 a.xlim.2 ∧ min a.ylim.1 a.ylim.2 ≤ y ∧ y ≤ max a.ylim.1 a.ylim.2

/-- All points of a line are within the limits of the axes. -/
def AllShown (a : VsAxes K) (l : List K × List K) : Prop :=
  ∀ (k : Nat) x y, l.1[k]? = some x → l.2[k]? = some y → Shown a x y

/-- The greatest velocity of a profile. -/
def Fastest (p : List (K × K)) (m : K) : Prop := m ∈ p.map Prod.snd ∧ ∀ v ∈ p.map Prod.snd, v ≤ m

/-- The depth to which a profile is drawn: its total thickness and once more that of its first layer. -/
def drawnDepth (p : List (K × K)) : K := (p.map Prod.fst).sum + (p.map Prod.fst).headD 0

end Spec

open Spec (Valid HasAt Contains topDepth Shown AllShown Fastest drawnDepth)

variable {K : Type} [Field K] [LinearOrder K] [IsStrictOrderedRing K]

theorem npFoldMax (l : List K) : ∀ a : K, (l.foldl max a = a ∨ l.foldl max a ∈ l) ∧ a ≤ l.foldl max a ∧ ∀ b ∈ l, b ≤ l.foldl max a := by
  induction l with
  | nil => intro a; exact ⟨.inl rfl, le_rfl, by simp⟩
  | cons b l ih =>
    intro a
    obtain ⟨h1, h2, h3⟩ := ih (max a b)
    rw [List.foldl_cons]
    refine ⟨?_, (le_max_left _ _).trans h2, ?_⟩
    · rcases h1 with h1 | h1
      · rw [h1]
        rcases max_choice a b with h | h
        · exact .inl h
        · right; rw [h]; exact List.mem_cons_self
      · exact .inr (List.mem_cons_of_mem _ h1)
    · intro c hc
      rcases List.mem_cons.1 hc with rfl | hc
      · exact (le_max_right _ _).trans h2
      · exact h3 c hc

theorem npMax_spec {l : List K} (h : l ≠ []) : ∃ m, npMax l = .ok m ∧ m ∈ l ∧ ∀ b ∈ l, b ≤ m := by
  match l, h with
  | a :: l, _ =>
    obtain ⟨h1, h2, h3⟩ := npFoldMax l a
    refine ⟨_, rfl, ?_, ?_⟩
    · rcases h1 with h | h
      · rw [h]; exact List.mem_cons_self
      · exact List.mem_cons_of_mem _ h
    · intro b hb
      rcases List.mem_cons.1 hb with rfl | hb
      · exact h2
      · exact h3 b hb

/-- The depth at which the line of `p` ends with the argument `o` for `max_depth`. -/
def endOf (p : List (K × K)) (o : Option K) : K :=
  match o with
  | some m => if m = 0 then drawnDepth p else m
  | none => drawnDepth p

theorem drawVs_ok (old : List (List K × List K)) (p : List (K × K)) (hp : p ≠ []) (o : Option K) :
    ∃ x y m, plotLine p o = .ok (x, y) ∧ Fastest p m ∧
      drawVs old p o = .ok ⟨old ++ [(x, y)], (0, m * (11 / 10)), (endOf p o, 0)⟩ := by
  obtain ⟨z, hz, hze⟩ := plotZmax_ok hp o
  obtain ⟨x, y, hl, -⟩ := C141_points p hp o
  obtain ⟨m, hm, hm1, hm2⟩ := npMax_spec (l := p.map Prod.snd) (by simpa using hp)
  refine ⟨x, y, m, hl, ⟨hm1, hm2⟩, ?_⟩
  have hz' : z = endOf p o := by rw [hze]; cases o <;> rfl
  subst hz'
  unfold plotLine at hl
  simp only [hz, bind, Except.bind] at hl
  unfold drawVs
  simp only [hz, hl, hm, bind, Except.bind, pure, Except.pure]

/-- The points of the line of a profile. -/
theorem line_points (p : List (K × K)) (hp : Valid p) (o : Option K) (x y : List K) (h : plotLine p o = .ok (x, y)) :
    (∀ (k : Nat) a b, x[k]? = some a → y[k]? = some b → a ∈ p.map Prod.snd ∧
      ((0 ≤ b ∧ b ≤ topDepth (p.map Prod.fst) (p.length - 1)) ∨ b = endOf p o)) ∧
    (∀ v ∈ p.map Prod.snd, ∃ (k : Nat) (b : K), x[k]? = some v ∧ y[k]? = some b) ∧
    (∃ (k : Nat) (a : K), x[k]? = some a ∧ y[k]? = some (topDepth (p.map Prod.fst) (p.length - 1))) ∧
    ∃ (k : Nat) (a : K), x[k]? = some a ∧ y[k]? = some (endOf p o) := by
  obtain ⟨x', y', h', hxl, hyl, hpt, hlast⟩ := C141_points p hp.nonempty o
  rw [h] at h'
  obtain ⟨rfl, rfl⟩ := Prod.mk.inj (Except.ok.inj h')
  have hpos : 0 < p.length := List.length_pos_iff.2 hp.nonempty
  have hget : ∀ i, i < p.length → p[i]? = some (p.getD i (0, 0)) := by
    intro i hi
    rw [List.getElem?_eq_getElem hi]
    simp [hi]
  have hnn := hp.thkOK.nonneg
  have hlast' : y.getLast? = some (endOf p o) := by rw [hlast]; cases o <;> rfl
  have hmem : ∀ i, i < p.length → (p.getD i (0, 0)).2 ∈ p.map Prod.snd := fun i hi =>
    List.mem_map_of_mem (List.mem_of_getElem? (hget i hi))
  refine ⟨?_, ?_, ?_, ?_⟩
  · intro k a b ha hb
    have hk : k < 2 * p.length := by rw [← hxl]; exact (List.getElem?_eq_some_iff.1 ha).1
    obtain ⟨i, rfl | rfl⟩ : ∃ i, k = 2 * i ∨ k = 2 * i + 1 := ⟨k / 2, by omega⟩
    · obtain ⟨e1, -, e3, -⟩ := hpt i _ (hget i (by omega))
      rw [ha] at e1; rw [hb] at e3
      refine ⟨by rw [Option.some.inj e1]; exact hmem i (by omega), .inl ⟨?_, ?_⟩⟩
      · rw [Option.some.inj e3]; exact topDepth_nonneg hnn i
      · rw [Option.some.inj e3]; exact topDepth_mono hnn (by omega)
    · obtain ⟨-, e2, -, e4⟩ := hpt i _ (hget i (by omega))
      rw [ha] at e2
      refine ⟨by rw [Option.some.inj e2]; exact hmem i (by omega), ?_⟩
      by_cases hlt : i + 1 < p.length
      · have e4 := e4 hlt
        rw [hb] at e4
        left
        rw [Option.some.inj e4]
        exact ⟨topDepth_nonneg hnn _, topDepth_mono hnn (by omega)⟩
      · right
        rw [List.getLast?_eq_getElem?, show y.length - 1 = 2 * i + 1 by omega, hb] at hlast'
        exact Option.some.inj hlast'
  · intro v hv
    obtain ⟨r, hr, rfl⟩ := List.mem_map.1 hv
    obtain ⟨i, hi⟩ := List.mem_iff_getElem?.1 hr
    obtain ⟨e1, -, e3, -⟩ := hpt i _ hi
    exact ⟨2 * i, _, e1, e3⟩
  · obtain ⟨e1, -, e3, -⟩ := hpt (p.length - 1) _ (hget _ (by omega))
    exact ⟨_, _, e1, e3⟩
  · obtain ⟨-, e2, -, -⟩ := hpt (p.length - 1) _ (hget _ (by omega))
    refine ⟨2 * (p.length - 1) + 1, _, e2, ?_⟩
    rw [List.getLast?_eq_getElem?, show y.length - 1 = 2 * (p.length - 1) + 1 by omega] at hlast'
    exact hlast'

theorem drawnDepth_ge {p : List (K × K)} (hp : Valid p) :
    topDepth (p.map Prod.fst) (p.length - 1) ≤ drawnDepth p ∧ (p.map Prod.fst).sum ≤ drawnDepth p ∧ 0 ≤ drawnDepth p := by
  have hnn := hp.thkOK.nonneg
  have h1 := topDepth_mono hnn (show p.length - 1 ≤ p.length by omega)
  have h2 : topDepth (p.map Prod.fst) p.length = (p.map Prod.fst).sum := by
    unfold topDepth
    rw [List.take_of_length_le (by simp)]
  have h3 : 0 ≤ (p.map Prod.fst).headD 0 := by
    match p, hp.nonempty with
    | r :: q, _ => exact hp.thk_nonneg r (by simp)
  have h4 := topDepth_nonneg hnn (p.length - 1)
  rw [h2] at h1
  unfold drawnDepth
  exact ⟨by linarith, by linarith, by linarith⟩

theorem fastest_pos {p : List (K × K)} (hp : Valid p) {m : K} (hm : Fastest p m) : 0 < m := by
  obtain ⟨r, hr, rfl⟩ := List.mem_map.1 hm.1
  exact hp.vs_pos r hr

theorem fastest_unique {p : List (K × K)} {m n : K} (hm : Fastest p m) (hn : Fastest p n) : m = n :=
  le_antisymm (hn.2 m hm.1) (hm.2 n hn.1)

/-- When the line of a valid profile is within given limits. -/
theorem allShown_iff (p : List (K × K)) (hp : Valid p) (o : Option K) (x y : List K) (h : plotLine p o = .ok (x, y)) (a : VsAxes K)
    (hx0 : a.xlim.1 = 0) (hx1 : 0 ≤ a.xlim.2) (hy : a.ylim.2 = 0) (m : K) (hm : Fastest p m) :
    AllShown a (x, y) ↔ m ≤ a.xlim.2 ∧ topDepth (p.map Prod.fst) (p.length - 1) ≤ max a.ylim.1 0 ∧
      min a.ylim.1 0 ≤ endOf p o ∧ endOf p o ≤ max a.ylim.1 0 := by
  obtain ⟨h1, h2, ⟨k3, a3, hx3, hy3⟩, ⟨k4, a4, hx4, hy4⟩⟩ := line_points p hp o x y h
  have hs : ∀ u w, Shown a u w ↔ 0 ≤ u ∧ u ≤ a.xlim.2 ∧ min a.ylim.1 0 ≤ w ∧ w ≤ max a.ylim.1 0 := by
    intro u w
    unfold Shown
    rw [hx0, hy, min_eq_left hx1, max_eq_right hx1]
  constructor
  · intro hall
    obtain ⟨k, b, hk, hb⟩ := h2 m hm.1
    have e1 := (hs _ _).1 (hall k _ _ hk hb)
    have e3 := (hs _ _).1 (hall k3 _ _ hx3 hy3)
    have e4 := (hs _ _).1 (hall k4 _ _ hx4 hy4)
    exact ⟨e1.2.1, e3.2.2.2, e4.2.2.1, e4.2.2.2⟩
  · rintro ⟨g1, g2, g3, g4⟩ k u w hu hw
    obtain ⟨hv, hd⟩ := h1 k u w hu hw
    have hv0 : 0 ≤ u := by
      obtain ⟨r, hr, rfl⟩ := List.mem_map.1 hv
      exact (hp.vs_pos r hr).le
    refine (hs _ _).2 ⟨hv0, (hm.2 u hv).trans g1, ?_, ?_⟩
    · rcases hd with ⟨hd, _⟩ | hd
      · exact (min_le_right _ _).trans hd
      · rw [hd]; exact g3
    · rcases hd with ⟨_, hd⟩ | hd
      · exact hd.trans g2
      · rw [hd]; exact g4

/-- A profile that is drawn by itself is within the limits of the axes: all points of its line, and every depth down to its
total thickness.  The vertical axis points downwards and starts at the surface; the horizontal one starts at 0. -/
theorem C160_own (p : List (K × K)) (hp : Valid p) :
    ∃ a x y, drawVs [] p none = .ok a ∧ plotLine p none = .ok (x, y) ∧ a.lines = [(x, y)] ∧ AllShown a (x, y) ∧
      a.ylim.2 = 0 ∧ (p.map Prod.fst).sum ≤ a.ylim.1 ∧ a.xlim.1 = 0 ∧
      ∃ m, Fastest p m ∧ a.xlim.2 = m * (11 / 10) := by
  obtain ⟨x, y, m, hl, hm, hd⟩ := drawVs_ok [] p hp.nonempty none
  obtain ⟨e1, e2, e3⟩ := drawnDepth_ge hp
  have hm0 := fastest_pos hp hm
  refine ⟨_, x, y, hd, hl, rfl, ?_, rfl, e2, rfl, m, hm, rfl⟩
  rw [allShown_iff p hp none x y hl _ rfl (by dsimp only; linarith) rfl m hm]
  dsimp only [endOf]
  rw [max_eq_left e3, min_eq_right e3]
  exact ⟨by linarith, e1, e3, le_rfl⟩

/-- With `max_depth` the line is within the limits exactly if `max_depth` reaches the top of the last layer (0 counts as no
`max_depth`). -/
theorem C160_max_depth_exact (p : List (K × K)) (hp : Valid p) (d : K) :
    ∃ a x y, drawVs [] p (some d) = .ok a ∧ plotLine p (some d) = .ok (x, y) ∧ a.lines = [(x, y)] ∧
      (AllShown a (x, y) ↔ d = 0 ∨ topDepth (p.map Prod.fst) (p.length - 1) ≤ max d 0) := by
  obtain ⟨x, y, m, hl, hm, hd⟩ := drawVs_ok [] p hp.nonempty (some d)
  obtain ⟨e1, e2, e3⟩ := drawnDepth_ge hp
  have hm0 := fastest_pos hp hm
  refine ⟨_, x, y, hd, hl, rfl, ?_⟩
  rw [allShown_iff p hp (some d) x y hl _ rfl (by dsimp only; linarith) rfl m hm]
  dsimp only [endOf]
  by_cases h0 : d = 0
  · rw [if_pos h0, max_eq_left e3, min_eq_right e3]
    exact ⟨fun _ => .inl h0, fun _ => ⟨by linarith, e1, e3, le_rfl⟩⟩
  · rw [if_neg h0]
    constructor
    · rintro ⟨-, h, -⟩; exact .inr h
    · rintro (h | h)
      · exact absurd h h0
      · exact ⟨by linarith, h, min_le_left _ _, le_max_left _ _⟩

/-- Velocities that were queried are drawn at their depths; the profile and all of these points are within the limits, also
depths below the profile. -/
theorem drawQueried_ok (p : List (K × K)) (hp : Valid p) (vs depth : List K) (hne : depth ≠ [])
    (h : queryVsAtDepth p depth = .ok vs) :
    ∃ a x y, drawQueried p vs depth = .ok a ∧ plotLine p none = .ok (x, y) ∧ a.lines = [(x, y), (vs, depth)] ∧
      ∀ l ∈ a.lines, AllShown a l := by
  have hd : ∀ z ∈ depth, 0 ≤ z := by
    intro z hz
    by_contra hn
    rw [C02_negative_depth p depth z hz (not_le.1 hn)] at h
    cases h
  obtain ⟨out, ho, hF⟩ := C02_query_depth p hp depth hd
  rw [h] at ho
  cases ho
  obtain ⟨x, y, m, hl, hm, hdr⟩ := drawVs_ok [] p hp.nonempty none
  obtain ⟨e1, e2, e3⟩ := drawnDepth_ge hp
  have hm0 := fastest_pos hp hm
  obtain ⟨D, hD, hD1, hD2⟩ := npMax_spec hne
  have hD0 := hd D hD1
  have hq : ∀ (a : VsAxes K), a.xlim = (0, m * (11 / 10)) → a.ylim.2 = 0 → (∀ z ∈ depth, z ≤ a.ylim.1) → 0 ≤ a.ylim.1 →
      AllShown a (vs, depth) := by
    intro a hax hay haz ha0 k u w hu hw
    have hmem : u ∈ p.map Prod.snd := by
      have hk1 := (List.getElem?_eq_some_iff.1 hu).1
      have hk2 := (List.getElem?_eq_some_iff.1 hw).1
      have := List.Forall₂.get hF hk2 hk1
      have hu' := (List.getElem?_eq_some_iff.1 hu).2
      simp only [List.get_eq_getElem] at this
      rw [hu'] at this
      obtain ⟨i, _, hi⟩ := this
      exact List.mem_of_getElem? hi
    have hu0 : 0 < u := by
      obtain ⟨r, hr, rfl⟩ := List.mem_map.1 hmem
      exact hp.vs_pos r hr
    have hw0 := List.mem_of_getElem? hw
    unfold Shown
    rw [hax, hay, min_eq_right ha0, max_eq_left ha0]
    dsimp only
    refine ⟨(min_le_left _ _).trans hu0.le, le_max_of_le_right ?_, hd w hw0, haz w hw0⟩
    have := hm.2 u hmem
    linarith
  unfold drawQueried
  simp only [hdr, hD, bind, Except.bind, pure, Except.pure, endOf]
  rw [max_eq_left e3, min_eq_right e3]
  by_cases hc : drawnDepth p ≤ D
  · rw [if_pos hc]
    refine ⟨_, x, y, rfl, hl, rfl, ?_⟩
    intro l hl'
    simp only [List.nil_append, List.cons_append, List.mem_cons, List.not_mem_nil, or_false] at hl'
    rcases hl' with rfl | rfl
    · rw [allShown_iff p hp none x y hl _ rfl (by dsimp only; linarith) rfl m hm]
      dsimp only [endOf]
      rw [max_eq_left hD0, min_eq_right hD0]
      exact ⟨by linarith, e1.trans hc, e3, hc⟩
    · exact hq _ rfl rfl hD2 hD0
  · rw [if_neg hc]
    refine ⟨_, x, y, rfl, hl, rfl, ?_⟩
    intro l hl'
    simp only [List.nil_append, List.cons_append, List.mem_cons, List.not_mem_nil, or_false] at hl'
    rcases hl' with rfl | rfl
    · rw [allShown_iff p hp none x y hl _ rfl (by dsimp only; linarith) rfl m hm]
      dsimp only [endOf]
      rw [max_eq_left e3, min_eq_right e3]
      exact ⟨by linarith, e1, e3, le_rfl⟩
    · refine hq _ rfl rfl (fun z hz => ?_) e3
      exact (hD2 z hz).trans (not_le.1 hc).le

/-- The figure of a query at depths shows the profile and every queried velocity at its depth, also below the profile. -/
theorem C160_query_depth [FloorRing K] (p : List (K × K)) (hp : Valid p) (d : DepthArg K) (hne : d.arr ≠ []) (vs : List K)
    (h : queryDepth p d = .ok vs) :
    ∃ a x y, figQueryDepth p d = .ok a ∧ plotLine p none = .ok (x, y) ∧ a.lines = [(x, y), (vs, d.arr)] ∧
      List.Forall₂ (HasAt p) d.arr vs ∧ ∀ l ∈ a.lines, AllShown a l := by
  have hq : queryVsAtDepth p d.arr = .ok vs := by
    cases d with
    | other => cases h
    | scalar z => exact h
    | array l => exact h
  obtain ⟨a, x, y, h1, h2, h3, h4⟩ := drawQueried_ok p hp vs d.arr hne hq
  refine ⟨a, x, y, ?_, h2, h3, ?_, h4⟩
  · unfold figQueryDepth
    simp only [h, bind, Except.bind]
    exact h1
  · have hd : ∀ z ∈ d.arr, 0 ≤ z := by
      intro z hz
      by_contra hn
      rw [C02_negative_depth p d.arr z hz (not_le.1 hn)] at hq
      cases hq
    obtain ⟨out, ho, hF⟩ := C02_query_depth p hp d.arr hd
    rw [hq] at ho
    cases ho
    exact hF

/-- The figure of a query with thicknesses shows the profile and every queried velocity at the depth where it was queried. -/
theorem C160_query_thickness (p : List (K × K)) (hp : Valid p) (thk : ThkArg K) (mid : Bool) (vs arr depth : List K)
    (h : queryVsGivenThk p thk mid = .ok (vs, arr)) (hd : thk2dep arr mid = .ok depth) (hne : depth ≠ []) :
    ∃ a x y, figQueryThk p thk mid = .ok a ∧ plotLine p none = .ok (x, y) ∧ a.lines = [(x, y), (vs, depth)] ∧
      ∀ l ∈ a.lines, AllShown a l := by
  have hq : queryVsAtDepth p depth = .ok vs := by
    unfold queryVsGivenThk at h
    cases ha : thkArray thk with
    | error e => rw [ha] at h; cases h
    | ok b =>
      simp only [ha, bind, Except.bind] at h
      cases hb : thk2dep b mid with
      | error e => rw [hb] at h; cases h
      | ok dep =>
        simp only [hb] at h
        cases hc : queryVsAtDepth p dep with
        | error e => rw [hc] at h; cases h
        | ok v =>
          simp only [hc, pure, Except.pure] at h
          obtain ⟨rfl, rfl⟩ := Prod.mk.inj (Except.ok.inj h)
          rw [hb] at hd
          cases hd
          exact hc
  obtain ⟨a, x, y, h1, h2, h3, h4⟩ := drawQueried_ok p hp vs depth hne hq
  refine ⟨a, x, y, ?_, h2, h3, h4⟩
  unfold figQueryThk
  simp only [h, hd, bind, Except.bind]
  exact h1

/-- The figure of a query at no depths cannot be drawn, although the query itself has an (empty) result. -/
theorem C160_no_depths_violated [FloorRing K] (p : List (K × K)) (hp : Valid p) :
    queryDepth p (.array []) = .ok [] ∧ figQueryDepth p (.array []) = .error .valueError := by
  have hq : queryDepth p (.array []) = .ok [] := by
    obtain ⟨out, ho, hF⟩ := C02_query_depth p hp [] (by simp)
    cases hF
    exact ho
  refine ⟨hq, ?_⟩
  obtain ⟨x, y, m, hl, hm, hdr⟩ := drawVs_ok [] p hp.nonempty none
  unfold figQueryDepth drawQueried
  simp only [hq, hdr, bind, Except.bind, DepthArg.arr, npMax]

/-- A second profile on the axes of a first one: both lines are drawn, the second is within the limits. The first is within them
exactly if the second is drawn at least as deep and its greatest velocity, and a tenth more, is at least that of the first. -/
theorem C160_over_exact (p q : List (K × K)) (hp : Valid p) (hq : Valid q) (m n : K) (hm : Fastest p m) (hn : Fastest q n) :
    ∃ a l1 l2, drawOver p q = .ok a ∧ plotLine p none = .ok l1 ∧ plotLine q none = .ok l2 ∧ a.lines = [l1, l2] ∧ AllShown a l2 ∧
      (AllShown a l1 ↔ m ≤ n * (11 / 10) ∧ drawnDepth p ≤ drawnDepth q) := by
  obtain ⟨x, y, m', hl, hm', hdr⟩ := drawVs_ok [] p hp.nonempty none
  rw [fastest_unique hm' hm] at hdr
  obtain ⟨x2, y2, n', hl2, hn', hdr2⟩ := drawVs_ok [(x, y)] q hq.nonempty none
  rw [fastest_unique hn' hn] at hdr2
  obtain ⟨e1, e2, e3⟩ := drawnDepth_ge hp
  obtain ⟨f1, f2, f3⟩ := drawnDepth_ge hq
  have hn0 := fastest_pos hq hn
  have hover : drawOver p q = .ok ⟨[(x, y), (x2, y2)], (0, n * (11 / 10)), (endOf q none, 0)⟩ := by
    unfold drawOver
    simp only [hdr, List.nil_append, bind, Except.bind, hdr2, List.cons_append]
  refine ⟨_, _, _, hover, hl, hl2, rfl, ?_, ?_⟩
  · rw [allShown_iff q hq none x2 y2 hl2 _ rfl (by dsimp only; linarith) rfl n hn]
    dsimp only [endOf]
    rw [max_eq_left f3, min_eq_right f3]
    exact ⟨by linarith, f1, f3, le_rfl⟩
  · rw [allShown_iff p hp none x y hl _ rfl (by dsimp only; linarith) rfl m hm]
    dsimp only [endOf]
    rw [max_eq_left f3, min_eq_right f3]
    constructor
    · rintro ⟨g1, -, -, g4⟩; exact ⟨g1, g4⟩
    · rintro ⟨g1, g4⟩; exact ⟨g1, e1.trans g4, e3, g4⟩

/-- The figure that compares a soil velocity model with a profile derived from it: both lines are drawn; the derived profile is within the limits; the smooth one
exactly if it is not drawn deeper and its velocities are at most a tenth above 1000 m/s or the greatest velocity of the other. -/
theorem C160_smooth_exact (p q : List (K × K)) (hp : Valid p) (hq : Valid q) (m n : K) (hm : Fastest p m) (hn : Fastest q n) :
    ∃ a l1 l2, drawAdditional p q = .ok a ∧ plotLine p none = .ok l1 ∧ plotLine q none = .ok l2 ∧ a.lines = [l1, l2] ∧
      AllShown a l2 ∧ (AllShown a l1 ↔ m ≤ max n 1000 * (11 / 10) ∧ drawnDepth p ≤ drawnDepth q) := by
  obtain ⟨x, y, m', hl, hm', hdr⟩ := drawVs_ok [] p hp.nonempty none
  rw [fastest_unique hm' hm] at hdr
  obtain ⟨x2, y2, n', hl2, hn', hdr2⟩ := drawVs_ok [(x, y)] q hq.nonempty none
  rw [fastest_unique hn' hn] at hdr2
  obtain ⟨e1, e2, e3⟩ := drawnDepth_ge hp
  obtain ⟨f1, f2, f3⟩ := drawnDepth_ge hq
  have hn0 := fastest_pos hq hn
  have hover : drawOver p q = .ok ⟨[(x, y), (x2, y2)], (0, n * (11 / 10)), (endOf q none, 0)⟩ := by
    unfold drawOver
    simp only [hdr, List.nil_append, bind, Except.bind, hdr2, List.cons_append]
  obtain ⟨v, hv, hv1, hv2⟩ := npMax_spec (l := q.map Prod.snd ++ [1000]) (by simp)
  have hve : v = max n 1000 := by
    apply le_antisymm
    · rcases List.mem_append.1 hv1 with h | h
      · exact (hn.2 v h).trans (le_max_left _ _)
      · simp only [List.mem_singleton] at h
        rw [h]; exact le_max_right _ _
    · exact max_le (hv2 n (List.mem_append.2 (.inl hn.1))) (hv2 1000 (by simp))
  have hadd : drawAdditional p q = .ok ⟨[(x, y), (x2, y2)], (0, max n 1000 * (11 / 10)), (endOf q none, 0)⟩ := by
    unfold drawAdditional
    simp only [hover, hv, bind, Except.bind, pure, Except.pure, hve]
  have hx : n ≤ max n 1000 := le_max_left _ _
  refine ⟨_, _, _, hadd, hl, hl2, rfl, ?_, ?_⟩
  · rw [allShown_iff q hq none x2 y2 hl2 _ rfl (by dsimp only; linarith) rfl n hn]
    dsimp only [endOf]
    rw [max_eq_left f3, min_eq_right f3]
    exact ⟨by linarith, f1, f3, le_rfl⟩
  · rw [allShown_iff p hp none x y hl _ rfl (by dsimp only; linarith) rfl m hm]
    dsimp only [endOf]
    rw [max_eq_left f3, min_eq_right f3]
    constructor
    · rintro ⟨g1, -, -, g4⟩; exact ⟨g1, g4⟩
    · rintro ⟨g1, g4⟩; exact ⟨g1, e1.trans g4, e3, g4⟩

/-- The array drawn for a query that returns a profile is the one of which that profile is made. -/
theorem C160_profile_drawn [FloorRing K] (σ : Store K) (p : List (K × K)) (d : DepthArg K) :
    queryDepthProfile σ p d = (queryStack p d >>= fun q => mkProfile (σ ++ [.two q]) σ.length .one .si false 3) := by
  unfold queryDepthProfile queryStack stackProfile
  cases h : queryDepth p d with
  | error e => rfl
  | ok vs =>
    simp only [bind, Except.bind]
    split_ifs
    · rfl
    · rfl
    · cases h2 : dep2thk (0 :: d.arr) true with
      | error e => rfl
      | ok thk =>
        dsimp only
        split_ifs <;> rfl
    · cases d with
      | array a =>
        dsimp only
        cases h2 : dep2thk a true with
        | error e => rfl
        | ok thk =>
          dsimp only
          split_ifs <;> rfl
      | scalar z => rfl
      | other => rfl

/-- The figure of a query that returns a profile cuts off the profile that was queried: for every profile and every single depth
less than half of that to which the profile is drawn. -/
theorem C160_query_profile_violated [FloorRing K] (p : List (K × K)) (hp : Valid p) (d : K) (hd : 0 < d) (h2 : 2 * d < drawnDepth p) :
    ∃ a l1 l2, figDepthProfile p (.scalar d) = .ok a ∧ plotLine p none = .ok l1 ∧ a.lines = [l1, l2] ∧ ¬ AllShown a l1 := by
  obtain ⟨out, ho, hF⟩ := C02_query_depth p hp [d] (by simpa using hd.le)
  obtain ⟨v, rfl⟩ : ∃ v, out = [v] := by
    cases hF with
    | cons _ h => cases h; exact ⟨_, rfl⟩
  have hv : 0 < v := by
    cases hF with
    | cons h _ =>
      obtain ⟨i, _, hi⟩ := h
      obtain ⟨r, hr, rfl⟩ := List.mem_map.1 (List.mem_of_getElem? hi)
      exact hp.vs_pos r hr
  have hs : queryStack p (.scalar d) = .ok [(d, v), (0, v)] := by
    unfold queryStack
    have : queryDepth p (.scalar d) = .ok [v] := ho
    simp [this, bind, Except.bind, isSortedFlag, hasDuplicateFlag, DepthArg.arr, diff, hd.ne', dep2thk, dep2thkLoop]
  have hq : Valid [(d, v), ((0 : K), v)] := by
    constructor <;> simp [hd, hd.le, hv]
  obtain ⟨m, -, hm1, hm2⟩ := npMax_spec (l := p.map Prod.snd) (by simpa using hp.nonempty)
  have hn : Fastest [(d, v), ((0 : K), v)] v := by constructor <;> simp
  obtain ⟨a, l1, l2, h1, h3, h4, h5, h6, h7⟩ := C160_over_exact p _ hp hq m v ⟨hm1, hm2⟩ hn
  refine ⟨a, l1, l2, ?_, h3, h5, ?_⟩
  · unfold figDepthProfile
    simp only [hs, bind, Except.bind]
    exact h1
  · intro h
    have := (h7.1 h).2
    rw [show drawnDepth [(d, v), ((0 : K), v)] = 2 * d by unfold drawnDepth; simp; ring] at this
    exact absurd h2 (not_lt.2 this)

/-- The figure of a query with thicknesses that returns a profile: the new profile is within the limits; the queried one exactly if it is
not drawn deeper and not faster by more than a tenth. -/
theorem C160_thickness_profile_exact (p : List (K × K)) (hp : Valid p) (thk : ThkArg K) (mid : Bool) (vs arr : List K)
    (h : queryVsGivenThk p thk mid = .ok (vs, arr)) (hl : arr.length = vs.length) (hq : Valid (arr.zip vs)) (m n : K) (hm : Fastest p m)
    (hn : Fastest (arr.zip vs) n) :
    ∃ a l1 l2, figThkProfile p thk mid = .ok a ∧ plotLine p none = .ok l1 ∧ plotLine (arr.zip vs) none = .ok l2 ∧ a.lines = [l1, l2] ∧
      AllShown a l2 ∧ (AllShown a l1 ↔ m ≤ n * (11 / 10) ∧ drawnDepth p ≤ drawnDepth (arr.zip vs)) := by
  obtain ⟨a, l1, l2, h1, h3⟩ := C160_over_exact p _ hp hq m n hm hn
  refine ⟨a, l1, l2, ?_, h3⟩
  unfold figThkProfile
  simp only [h, hl, bind, Except.bind, ne_eq, not_true_eq_false, if_false]
  exact h1

/-! Concrete cases. -/

example : drawVs [] demoProfile none = .ok ⟨[([200, 200, 400, 400, 800, 800], [0, 10, 10, 30, 30, 40])], (0, 880), (40, 0)⟩ := by
  decide +kernel

example : figQueryDepth demoProfile (.array [5, 50]) =
    .ok ⟨[([200, 200, 400, 400, 800, 800], [0, 10, 10, 30, 30, 40]), ([200, 800], [5, 50])], (0, 880), (50, 0)⟩ := by decide +kernel

example : figDepthProfile demoProfile (.array [5, 12]) =
    .ok ⟨[([200, 200, 400, 400, 800, 800], [0, 10, 10, 30, 30, 40]), ([200, 200, 200, 200, 400, 400], [0, 5, 5, 12, 12, 17])], (0, 440),
      (17, 0)⟩ := by decide +kernel

example : (drawAdditional demoProfile [(2, 300), (0, (1500 : ℚ))]).map VsAxes.xlim = .ok (0, 1650) := by decide +kernel

end Verif
