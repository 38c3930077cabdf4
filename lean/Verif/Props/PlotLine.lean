import Verif.Model.PlotLine
import Verif.Props.ProfileGeometry

/-!
Property C141: the line that is plotted for a profile is its graph.
-/

set_option linter.unusedSectionVars false
set_option linter.unusedVariables false

namespace Verif

open Spec (Valid HasAt Contains topDepth)

variable {K : Type} [Field K] [LinearOrder K] [IsStrictOrderedRing K]

theorem mapM_range_ok {α : Type} {n : Nat} {f : Nat → Except PyErr α} (h : ∀ i < n, ∃ a, f i = .ok a) :
    ∃ l, (List.range n).mapM f = .ok l ∧ l.length = n ∧ ∀ i < n, ∃ a, f i = .ok a ∧ l[i]? = some a := by
  obtain ⟨l, h1, h2⟩ := mapM_ok_forall₂ f (fun i a => f i = .ok a) (List.range n) (fun i hi => by
    obtain ⟨a, ha⟩ := h i (List.mem_range.1 hi); exact ⟨a, ha, ha⟩)
  have hlen : l.length = n := by simpa using h2.length_eq.symm
  refine ⟨l, h1, hlen, ?_⟩
  intro i hi
  have hr : (List.range n)[i]? = some i := by simp [hi]
  have hl : l[i]? = some (l[i]'(by omega)) := List.getElem?_eq_getElem (by omega)
  obtain ⟨a, ha⟩ := h i hi
  have := (List.forall₂_iff_get.1 h2).2 i (by simpa using hi) (by omega)
  simp only [List.get_eq_getElem, List.getElem_range] at this
  exact ⟨_, this, hl⟩

theorem plotZmax_ok {p : List (K × K)} (hp : p ≠ []) (o : Option K) :
    ∃ z, plotZmax (p.map Prod.fst) o = .ok z ∧
      (z = match o with
        | some m => if m = 0 then (p.map Prod.fst).sum + (p.map Prod.fst).headD 0 else m
        | none => (p.map Prod.fst).sum + (p.map Prod.fst).headD 0) := by
  match p, hp with
  | r :: p, _ =>
    cases o with
    | none => exact ⟨_, rfl, rfl⟩
    | some m =>
      unfold plotZmax
      simp only [List.map_cons]
      by_cases hm : m = 0
      · rw [if_pos hm, if_pos hm]; exact ⟨_, rfl, rfl⟩
      · rw [if_neg hm, if_neg hm]; exact ⟨_, rfl, rfl⟩

/-- Every profile gives a line of two points per layer: its velocity at its top and at its bottom; the last point is at
the maximum depth, which is the one asked for, or else the total thickness and once more that of the first layer. -/
theorem C141_points (p : List (K × K)) (hp : p ≠ []) (o : Option K) :
    ∃ x y, plotLine p o = .ok (x, y) ∧ x.length = 2 * p.length ∧ y.length = 2 * p.length ∧
      (∀ i r, p[i]? = some r → x[2 * i]? = some r.2 ∧ x[2 * i + 1]? = some r.2 ∧
        y[2 * i]? = some (topDepth (p.map Prod.fst) i) ∧
        (i + 1 < p.length → y[2 * i + 1]? = some (topDepth (p.map Prod.fst) (i + 1)))) ∧
      y.getLast? = some (match o with
        | some m => if m = 0 then (p.map Prod.fst).sum + (p.map Prod.fst).headD 0 else m
        | none => (p.map Prod.fst).sum + (p.map Prod.fst).headD 0) := by
  obtain ⟨z, hz, hze⟩ := plotZmax_ok hp o
  obtain ⟨dep, hd, hdl, hdg⟩ := C01_thk2dep_tops (p.map Prod.fst) (by simpa using hp)
  have hpos : 0 < p.length := List.length_pos_iff.2 hp
  obtain ⟨x, hx, hxl, hxg⟩ := mapM_range_ok (n := 2 * (p.map Prod.snd).length) (f := fun i => itemOf (p.map Prod.snd) (i / 2)) (by
      intro i hi
      have h : i / 2 < (p.map Prod.snd).length := by omega
      simp only [itemOf, List.getElem?_eq_getElem h]
      exact ⟨_, rfl⟩)
  obtain ⟨y, hy, hyl, hyg⟩ := mapM_range_ok (n := 2 * (p.map Prod.snd).length) (f := fun i =>
    if i + 1 < 2 * (p.map Prod.snd).length then itemOf dep ((i + 1) / 2) else .ok z) (by
      intro i hi
      by_cases h : i + 1 < 2 * (p.map Prod.snd).length
      · have h' : (i + 1) / 2 < dep.length := by rw [hdl]; simp at h ⊢; omega
        simp only [if_pos h, itemOf, List.getElem?_eq_getElem h']
        exact ⟨_, rfl⟩
      · simp only [if_neg h]; exact ⟨_, rfl⟩)
  simp only [List.length_map] at hxl hyl hxg hyg hdl hdg
  refine ⟨x, y, ?_, hxl, hyl, ?_, ?_⟩
  · unfold plotLine plotArray
    simp only [hz, hd, bind, Except.bind, hx, hy, pure, Except.pure]
  · intro i r hr
    have hi : i < p.length := (List.getElem?_eq_some_iff.1 hr).1
    have hv : (p.map Prod.snd)[i]? = some r.2 := by rw [List.getElem?_map, hr]; rfl
    have hxi : ∀ j, j / 2 = i → j < 2 * p.length → x[j]? = some r.2 := by
      intro j hj hlt
      obtain ⟨a, ha, hxa⟩ := hxg j hlt
      simp only [itemOf, hj, hv] at ha
      rw [hxa, ← Except.ok.inj ha]
    have hyi : ∀ j k, (j + 1) / 2 = k → j + 1 < 2 * p.length → y[j]? = some (topDepth (p.map Prod.fst) k) := by
      intro j k hj hlt
      obtain ⟨a, ha, hya⟩ := hyg j (by omega)
      simp only [if_pos hlt, itemOf, hj, hdg k (by omega)] at ha
      rw [hya, ← Except.ok.inj ha]
    refine ⟨hxi _ (by omega) (by omega), hxi _ (by omega) (by omega), hyi _ _ (by omega) (by omega), ?_⟩
    intro h
    exact hyi _ _ (by omega) (by omega)
  · obtain ⟨a, ha, hya⟩ := hyg (2 * p.length - 1) (by omega)
    simp only [show ¬ 2 * p.length - 1 + 1 < 2 * p.length by omega, if_false] at ha
    rw [List.getLast?_eq_getElem?, hyl, hya, ← Except.ok.inj ha, hze]

/-- The line is the graph of the profile: wherever it goes down it is vertical, at the velocity the profile has at these
depths; and every depth above its end is on it. -/
theorem C141_graph (p : List (K × K)) (hp : Valid p) (o : Option K) (x y : List K) (h : plotLine p o = .ok (x, y)) :
    (∀ (k : Nat) a b c d z, x[k]? = some a → x[k + 1]? = some b → y[k]? = some c → y[k + 1]? = some d → c ≤ z → z < d →
      a = b ∧ HasAt p z a) ∧
    (∀ z l, y.getLast? = some l → 0 ≤ z → z < l →
      ∃ (k : Nat) (c d : K), y[k]? = some c ∧ y[k + 1]? = some d ∧ c ≤ z ∧ z < d) := by
  obtain ⟨x', y', h', hxl, hyl, hpt, hlast⟩ := C141_points p hp.nonempty o
  rw [h] at h'
  obtain ⟨rfl, rfl⟩ := Prod.mk.inj (Except.ok.inj h')
  have hpos : 0 < p.length := List.length_pos_iff.2 hp.nonempty
  have hget : ∀ i, i < p.length → p[i]? = some (p.getD i (0, 0)) := by
    intro i hi
    rw [List.getElem?_eq_getElem hi]
    simp [hi]
  constructor
  · intro k a b c d z ha hb hc hd h1 h2
    have hk : k + 1 < 2 * p.length := by
      rw [← hxl]; exact (List.getElem?_eq_some_iff.1 hb).1
    obtain ⟨i, rfl | rfl⟩ : ∃ i, k = 2 * i ∨ k = 2 * i + 1 := ⟨k / 2, by omega⟩
    · have hi : i < p.length := by omega
      obtain ⟨e1, e2, e3, e4⟩ := hpt i _ (hget i hi)
      rw [ha] at e1; rw [hb] at e2; rw [hc] at e3
      have ea := Option.some.inj e1
      have eb := Option.some.inj e2
      have ec := Option.some.inj e3
      refine ⟨by rw [ea, eb], i, ⟨by simpa using hi, by rw [← ec]; exact h1, ?_⟩, ?_⟩
      · intro hlt
        simp only [List.length_map] at hlt
        have := e4 hlt
        rw [hd] at this
        rw [← Option.some.inj this]
        exact h2
      · rw [List.getElem?_map, hget i hi, ea]; rfl
    · -- between two layers the line does not go down
      exfalso
      have hi : i + 1 < p.length := by omega
      obtain ⟨-, -, -, e4⟩ := hpt i _ (hget i (by omega))
      obtain ⟨-, -, e3, -⟩ := hpt (i + 1) _ (hget (i + 1) hi)
      have e4 := e4 hi
      rw [hc] at e4
      rw [show 2 * (i + 1) = 2 * i + 1 + 1 by ring, hd] at e3
      have := Option.some.inj e4
      have := Option.some.inj e3
      rw [this] at h2
      rw [Option.some.inj e4] at h1
      exact absurd h2 (not_lt.2 h1)
  · intro z l hl h0 hz
    obtain ⟨i, -, hc⟩ := count_zTop 0 z (p.map Prod.fst) hp.thkOK h0
    rw [sub_zero] at hc
    obtain ⟨hi, hc1, hc2⟩ := hc
    simp only [List.length_map] at hi hc2
    obtain ⟨-, -, e3, e4⟩ := hpt i _ (hget i hi)
    by_cases hlt : i + 1 < p.length
    · exact ⟨2 * i, _, _, e3, e4 hlt, hc1, hc2 hlt⟩
    · have : 2 * i + 1 = y.length - 1 := by omega
      rw [List.getLast?_eq_getElem?, ← this] at hl
      exact ⟨2 * i, _, _, e3, hl, hc1, hz⟩

/-- The line never goes up if it ends below the top of the last layer, in particular without `max_depth`.  Missing: a
smaller `max_depth` (`C141_descending_violated`). -/
theorem C141_descending_partial (p : List (K × K)) (hp : Valid p) (o : Option K) (x y : List K)
    (h : plotLine p o = .ok (x, y))
    (ho : ∀ m, o = some m → m ≠ 0 → topDepth (p.map Prod.fst) (p.length - 1) ≤ m) (k : Nat) (c d : K)
    (hc : y[k]? = some c) (hd : y[k + 1]? = some d) : c ≤ d := by
  obtain ⟨x', y', h', hxl, hyl, hpt, hlast⟩ := C141_points p hp.nonempty o
  rw [h] at h'
  obtain ⟨rfl, rfl⟩ := Prod.mk.inj (Except.ok.inj h')
  have hpos : 0 < p.length := List.length_pos_iff.2 hp.nonempty
  have hk : k + 1 < 2 * p.length := by rw [← hyl]; exact (List.getElem?_eq_some_iff.1 hd).1
  have hget : ∀ i, i < p.length → p[i]? = some (p.getD i (0, 0)) := by
    intro i hi
    rw [List.getElem?_eq_getElem hi]
    simp [hi]
  have hnn := hp.thkOK.nonneg
  obtain ⟨i, rfl | rfl⟩ : ∃ i, k = 2 * i ∨ k = 2 * i + 1 := ⟨k / 2, by omega⟩
  · have hi : i < p.length := by omega
    obtain ⟨-, -, e3, e4⟩ := hpt i _ (hget i hi)
    rw [hc] at e3
    rw [Option.some.inj e3]
    by_cases hlt : i + 1 < p.length
    · have e4 := e4 hlt
      rw [hd] at e4
      rw [Option.some.inj e4]
      exact topDepth_mono hnn (by omega)
    · have hil : i = p.length - 1 := by omega
      rw [List.getLast?_eq_getElem?, show y.length - 1 = 2 * i + 1 by omega, hd] at hlast
      rw [Option.some.inj hlast, hil]
      have hsum : topDepth (p.map Prod.fst) (p.length - 1) ≤ (p.map Prod.fst).sum + (p.map Prod.fst).headD 0 := by
        have h1 := topDepth_mono hnn (show p.length - 1 ≤ p.length by omega)
        have h2 : topDepth (p.map Prod.fst) p.length = (p.map Prod.fst).sum := by
          unfold topDepth
          rw [List.take_of_length_le (by simp)]
        have h3 : 0 ≤ (p.map Prod.fst).headD 0 := by
          match p, hp.nonempty with
          | r :: q, _ => exact hp.thk_nonneg r (by simp)
        rw [h2] at h1
        linarith
      cases o with
      | none => exact hsum
      | some m =>
        simp only
        by_cases hm : m = 0
        · rw [if_pos hm]; exact hsum
        · rw [if_neg hm]; exact ho m rfl hm
  · have hi : i + 1 < p.length := by omega
    obtain ⟨-, -, -, e4⟩ := hpt i _ (hget i (by omega))
    obtain ⟨-, -, e3, -⟩ := hpt (i + 1) _ (hget (i + 1) hi)
    have e4 := e4 hi
    rw [hc] at e4
    rw [show 2 * (i + 1) = 2 * i + 1 + 1 by ring, hd] at e3
    rw [Option.some.inj e4, Option.some.inj e3]

/-- Exactly when the line never goes up: with a `max_depth` other than 0 it must reach the top of the last layer. -/
theorem C141_descending_exact (p : List (K × K)) (hp : Valid p) (m : K) (hm : m ≠ 0) (x y : List K)
    (h : plotLine p (some m) = .ok (x, y)) :
    (∀ (k : Nat) c d, y[k]? = some c → y[k + 1]? = some d → c ≤ d) ↔ topDepth (p.map Prod.fst) (p.length - 1) ≤ m := by
  constructor
  · intro hk
    obtain ⟨x', y', h', hxl, hyl, hpt, hlast⟩ := C141_points p hp.nonempty (some m)
    rw [h] at h'
    obtain ⟨rfl, rfl⟩ := Prod.mk.inj (Except.ok.inj h')
    have hpos : 0 < p.length := List.length_pos_iff.2 hp.nonempty
    obtain ⟨-, -, e3, -⟩ := hpt (p.length - 1) _ (List.getElem?_eq_getElem (by omega))
    simp only [if_neg hm] at hlast
    rw [List.getLast?_eq_getElem?, show y.length - 1 = 2 * (p.length - 1) + 1 by omega] at hlast
    exact hk _ _ _ e3 hlast
  · intro hle
    exact C141_descending_partial p hp (some m) x y h (by intro m' e _; cases e; exact hle)

/-- The property fails for every `max_depth` above the top of the last layer (other than 0): the line goes back up from there, across
depths of other velocities. -/
theorem C141_descending_violated (p : List (K × K)) (hp : Valid p) (m : K) (hm : m ≠ 0)
    (hlt : m < topDepth (p.map Prod.fst) (p.length - 1)) :
    ∃ (x y : List K), plotLine p (some m) = .ok (x, y) ∧
      ∃ (k : Nat) (c d : K), y[k]? = some c ∧ y[k + 1]? = some d ∧ d < c := by
  obtain ⟨x, y, h, -⟩ := C141_points p hp.nonempty (some m)
  refine ⟨x, y, h, ?_⟩
  by_contra hcon
  push Not at hcon
  exact absurd ((C141_descending_exact p hp m hm x y h).1 hcon) (not_le.2 hlt)

example : plotLine demoProfile (some 5) = .ok ([200, 200, 400, 400, 800, 800], [0, 10, 10, 30, 30, 5]) := by decide +kernel

/-- No layers, no line. -/
theorem C141_empty (o : Option K) : plotLine ([] : List (K × K)) o = .error .indexError := by
  cases o with
  | none => rfl
  | some m =>
    unfold plotLine plotZmax
    simp only [List.map_nil]
    by_cases hm : m = 0
    · rw [if_pos hm]; rfl
    · rw [if_neg hm]; rfl

example : plotLine demoProfile none = .ok ([200, 200, 400, 400, 800, 800], [0, 10, 10, 30, 30, 40]) := by
  decide +kernel

end Verif
