import Verif.Model.SimInit
import Verif.Props.EquivLinear
import Verif.Props.Containers

/-!
Property C130: which simulations can be made.
-/

set_option linter.unusedSectionVars false
set_option linter.unusedVariables false

namespace Verif

namespace Spec

/-- The boundary named by the argument. -/
def boundaryNamed : BoundaryArg → Option Boundary
  | .elastic => some .elastic
  | .rigid => some .rigid
  | .other => none

/-- Both absent, or both parameter containers of one class. -/
def Matching {P : Type} (g xi : ParArg P) : Prop :=
  (g = .none ∧ xi = .none) ∨ ∃ a b, g = .multi a ∧ xi = .multi b ∧ a.cls = b.cls

end Spec

open Spec (boundaryNamed Matching)

variable {V M P C K : Type} [Field K] [LinearOrder K] [IsStrictOrderedRing K] [FloorRing K]

theorem matching_iff (g xi : ParArg P) :
    Matching g xi ↔ ParArg.sameType g xi = true ∧ g.foreign = false ∧ xi.foreign = false := by
  unfold Matching
  cases g <;> cases xi <;> simp [ParArg.sameType, ParArg.foreign]

/-- What is accepted, and that the object keeps what was given. -/
theorem C130_base (profile : Option V) (motion : Option M) (boundary : BoundaryArg) (g xi : ParArg P) (curves : CurvesArg C)
    (s : SimObj V M P C) :
    simInit profile motion boundary g xi curves = .ok s ↔
      profile = some s.profile ∧ motion = some s.motion ∧ boundaryNamed boundary = some s.boundary ∧ g = s.gParam ∧
      xi = s.xiParam ∧ curves = s.curves ∧ Matching g xi ∧ curves ≠ .other := by
  rw [matching_iff]
  obtain ⟨v, m, b, g', xi', c'⟩ := s
  cases profile with
  | none => simp [simInit]
  | some v0 =>
  cases motion with
  | none => simp [simInit]
  | some m0 =>
  cases hs : ParArg.sameType g xi <;> cases hg : g.foreign <;> cases hx : xi.foreign <;> cases boundary <;> cases curves <;>
    simp [simInit, boundaryNamed, hs, hg, hx]

/-- Which error is raised: the value of `boundary` is looked at before the parameters and curves. -/
theorem C130_errors (profile : Option V) (motion : Option M) (boundary : BoundaryArg) (g xi : ParArg P) (curves : CurvesArg C)
    (e : PyErr) :
    simInit profile motion boundary g xi curves = .error e ↔
      (e = .valueError ∧ profile ≠ none ∧ motion ≠ none ∧ boundaryNamed boundary = none) ∨
      (e = .typeError ∧ (profile = none ∨ motion = none ∨
        (boundaryNamed boundary ≠ none ∧ (¬ Matching g xi ∨ curves = .other)))) := by
  rw [matching_iff]
  have t1 : (PyErr.typeError = e) = (e = .typeError) := propext eq_comm
  have t2 : (PyErr.valueError = e) = (e = .valueError) := propext eq_comm
  cases profile with
  | none => simp [simInit, t1]
  | some v0 =>
  cases motion with
  | none => simp [simInit, t1]
  | some m0 =>
  cases hs : ParArg.sameType g xi <;> cases hg : g.foreign <;> cases hx : xi.foreign <;> cases boundary <;> cases curves <;>
    simp [simInit, boundaryNamed, hs, hg, hx, t1, t2]

theorem simObj_unique {profile : Option V} {motion : Option M} {boundary : BoundaryArg} {g xi : ParArg P} {curves : CurvesArg C}
    {s s' : SimObj V M P C} (hs : simInit profile motion boundary g xi curves = .ok s')
    (h : simInit profile motion boundary g xi curves = .ok s) : s' = s := Except.ok.inj (hs.symm.trans h)

/-- Equivalent linear simulations: curves are required, one set for each material number of the profile. -/
theorem C130_equiv (mats : V → List K) (count : C → Int) (profile : Option V) (motion : Option M) (curves : CurvesArg C)
    (boundary : BoundaryArg) (s : SimObj V M P C) :
    equivInit mats count profile motion curves boundary = .ok s ↔
      profile = some s.profile ∧ motion = some s.motion ∧ boundaryNamed boundary = some s.boundary ∧ s.gParam = .none ∧
      s.xiParam = .none ∧ curves = s.curves ∧ mats s.profile ≠ [] ∧
      ∃ c, curves = .curves c ∧ ∀ m ∈ mats s.profile, m ≤ (count c : K) := by
  have hbase : (profile = some s.profile ∧ motion = some s.motion ∧ boundaryNamed boundary = some s.boundary ∧
      s.gParam = .none ∧ s.xiParam = .none ∧ curves = s.curves ∧ curves ≠ .other) ↔
      simInit (P := P) profile motion boundary .none .none curves = .ok s := by
    rw [C130_base]
    constructor
    · rintro ⟨h1, h2, h3, h4, h5, h6, h7⟩
      exact ⟨h1, h2, h3, h4.symm, h5.symm, h6, Or.inl ⟨rfl, rfl⟩, h7⟩
    · rintro ⟨h1, h2, h3, h4, h5, h6, _, h7⟩
      exact ⟨h1, h2, h3, h4.symm, h5.symm, h6, h7⟩
  constructor
  · intro h
    cases curves with
    | none => cases h
    | other =>
      simp only [equivInit, bind, Except.bind] at h
      cases hs : simInit (P := P) profile motion boundary .none .none (CurvesArg.other : CurvesArg C) with
      | error e => rw [hs] at h; cases h
      | ok s' => exact absurd rfl ((C130_base ..).mp hs).2.2.2.2.2.2.2
    | curves c =>
      simp only [equivInit, bind, Except.bind] at h
      cases hs : simInit (P := P) profile motion boundary .none .none (CurvesArg.curves c) with
      | error e => rw [hs] at h; cases h
      | ok s' =>
        have a6 := ((C130_base ..).mp hs).2.2.2.2.2.1
        rw [hs] at h
        simp only [← a6] at h
        cases hc : checkLayerCount (count c) (mats s'.profile) with
        | error e => rw [hc] at h; cases h
        | ok u =>
          rw [hc] at h
          cases h
          obtain ⟨h1, h2, h3, h4, h5, h6, h7⟩ := hbase.mpr hs
          obtain ⟨k1, k2⟩ := (C60_accept (count c) (mats s.profile)).mp hc
          exact ⟨h1, h2, h3, h4, h5, h6, k1, c, rfl, k2⟩
  · rintro ⟨h1, h2, h3, h4, h5, h6, h7, c, rfl, h8⟩
    have hs := hbase.mp ⟨h1, h2, h3, h4, h5, h6, by simp⟩
    have hc := (C60_accept (count c) (mats s.profile)).mpr ⟨h7, h8⟩
    simp only [equivInit, bind, Except.bind]
    rw [hs]
    simp only [← h6, hc]
    rfl

/-- Nonlinear simulations: both sets of parameters are required, of one class, with one set for each material number. -/
theorem C130_nonlinear (mats : V → List K) (profile : Option V) (motion : Option M) (g xi : ParArg P)
    (boundary : BoundaryArg) (s : SimObj V M P C) :
    nonlinInit mats profile motion g xi boundary = .ok s ↔
      profile = some s.profile ∧ motion = some s.motion ∧ boundaryNamed boundary = some s.boundary ∧ g = s.gParam ∧
      xi = s.xiParam ∧ s.curves = .none ∧ mats s.profile ≠ [] ∧
      ∃ a b, g = .multi a ∧ xi = .multi b ∧ a.cls = b.cls ∧
        ∀ m ∈ mats s.profile, m ≤ (a.nLayer : K) ∧ m ≤ (b.nLayer : K) := by
  constructor
  · intro h
    cases hg : g with
    | none => subst hg; simp [nonlinInit] at h
    | other i =>
      subst hg
      cases xi with
      | none => simp [nonlinInit] at h
      | other j =>
        simp only [nonlinInit, bind, Except.bind] at h
        cases hs : simInit (C := C) profile motion boundary (.other i : ParArg P) (.other j) .none with
        | error e => rw [hs] at h; cases h
        | ok s' =>
          rcases ((C130_base ..).mp hs).2.2.2.2.2.2.1 with ⟨h, _⟩ | ⟨_, _, h, _⟩ <;> cases h
      | multi b =>
        simp only [nonlinInit, bind, Except.bind] at h
        cases hs : simInit (C := C) profile motion boundary (.other i : ParArg P) (.multi b) .none with
        | error e => rw [hs] at h; cases h
        | ok s' =>
          rcases ((C130_base ..).mp hs).2.2.2.2.2.2.1 with ⟨h, _⟩ | ⟨_, _, h, _⟩ <;> cases h
    | multi a =>
      subst hg
      cases xi with
      | none => simp [nonlinInit] at h
      | other j =>
        simp only [nonlinInit, bind, Except.bind] at h
        cases hs : simInit (C := C) profile motion boundary (.multi a : ParArg P) (.other j) .none with
        | error e => rw [hs] at h; cases h
        | ok s' =>
          rcases ((C130_base ..).mp hs).2.2.2.2.2.2.1 with ⟨h, _⟩ | ⟨_, _, _, h, _⟩ <;> cases h
      | multi b =>
        simp only [nonlinInit, bind, Except.bind] at h
        cases hs : simInit (C := C) profile motion boundary (.multi a : ParArg P) (.multi b) .none with
        | error e => rw [hs] at h; cases h
        | ok s' =>
          obtain ⟨h1, h2, h3, h4, h5, h6, h7, _⟩ := (C130_base ..).mp hs
          rw [hs] at h
          simp only [← h4, ← h5] at h
          cases hc : checkLayerCount a.nLayer (mats s'.profile) with
          | error e => rw [hc] at h; cases h
          | ok u =>
          rw [hc] at h
          simp only at h
          cases hc' : checkLayerCount b.nLayer (mats s'.profile) with
          | error e => rw [hc'] at h; cases h
          | ok u =>
          rw [hc'] at h
          cases h
          obtain ⟨k1, k2⟩ := (C60_accept a.nLayer (mats s.profile)).mp hc
          obtain ⟨_, k3⟩ := (C60_accept b.nLayer (mats s.profile)).mp hc'
          rcases h7 with ⟨h, _⟩ | ⟨a', b', e1, e2, e3⟩
          · cases h
          cases e1
          cases e2
          exact ⟨h1, h2, h3, h4, h5, h6.symm, k1, a, b, rfl, rfl, e3, fun m hm => ⟨k2 m hm, k3 m hm⟩⟩
  · rintro ⟨h1, h2, h3, h4, h5, h6, h7, a, b, rfl, rfl, h8, h9⟩
    have hs : simInit (C := C) profile motion boundary (.multi a : ParArg P) (.multi b) .none = .ok s := by
      rw [C130_base]
      exact ⟨h1, h2, h3, h4, h5, h6.symm, Or.inr ⟨a, b, rfl, rfl, h8⟩, by simp⟩
    have hc := (C60_accept a.nLayer (mats s.profile)).mpr ⟨h7, fun m hm => (h9 m hm).1⟩
    have hc' := (C60_accept b.nLayer (mats s.profile)).mpr ⟨h7, fun m hm => (h9 m hm).2⟩
    simp only [nonlinInit, bind, Except.bind]
    rw [hs]
    simp only [← h4, ← h5, hc, hc']
    rfl

/-- The count that is checked is not the number of parameter sets: after a slice of the parameters has been deleted, a
nonlinear simulation is still made although no set is left at all. -/
theorem C130_deleted_violated [DecidableEq P] (mats : V → List K) (v : V) (mo : M) (m : PMulti P) (hm : m.nLayer = m.items.length)
    (hne : mats v ≠ []) (hmats : ∀ x ∈ mats v, x ≤ (m.nLayer : K) - 1) :
    (m.step (.delSlice ⟨none, none, none⟩)).1.items = [] ∧
    ∃ s : SimObj V M P C, nonlinInit mats (some v) (some mo) (.multi (m.step (.delSlice ⟨none, none, none⟩)).1)
      (.multi (m.step (.delSlice ⟨none, none, none⟩)).1) .elastic = .ok s := by
  have hsl : sliceIdx m.items.length ⟨none, none, none⟩ = .ok (List.range m.items.length) := by
    simp [sliceIdx]
  have hit : delIdx m.items (List.range m.items.length) = [] := by
    unfold delIdx
    rw [List.map_eq_nil_iff, List.filter_eq_nil_iff]
    rintro ⟨x, i⟩ hx
    have := List.snd_lt_of_mem_zipIdx hx
    simpa using this
  have hstep : (m.step (.delSlice ⟨none, none, none⟩)).1 = { m with items := [], nLayer := m.nLayer - 1 } := by
    simp only [PMulti.step, hsl, hit]
  rw [hstep]
  refine ⟨rfl, ⟨v, mo, .elastic, .multi { m with items := [], nLayer := m.nLayer - 1 },
    .multi { m with items := [], nLayer := m.nLayer - 1 }, .none⟩, ?_⟩
  rw [C130_nonlinear]
  refine ⟨rfl, rfl, rfl, rfl, rfl, rfl, hne, _, _, rfl, rfl, rfl, fun x hx => ?_⟩
  have := hmats x hx
  push_cast
  exact ⟨this, this⟩

/-- Two sets of parameters and a profile with one material and a half-space (material number 0). -/
example : ∃ s : SimObj (List ℚ) Unit Nat Unit, nonlinInit id (some [1, 0]) (some ())
    (.multi ⟨.hh, .hh, [⟨.hh, 1⟩, ⟨.hh, 2⟩], 2⟩) (.multi ⟨.hh, .hh, [⟨.hh, 3⟩, ⟨.hh, 4⟩], 2⟩) .rigid = .ok s := by
  refine ⟨⟨[1, 0], (), .rigid, .multi ⟨.hh, .hh, [⟨.hh, 1⟩, ⟨.hh, 2⟩], 2⟩, .multi ⟨.hh, .hh, [⟨.hh, 3⟩, ⟨.hh, 4⟩], 2⟩, .none⟩, ?_⟩
  rw [C130_nonlinear]
  refine ⟨rfl, rfl, rfl, rfl, rfl, rfl, by simp, _, _, rfl, rfl, rfl, fun x hx => ?_⟩
  simp only [id, List.mem_cons, List.not_mem_nil, or_false] at hx
  rcases hx with rfl | rfl <;> norm_num

end Verif
