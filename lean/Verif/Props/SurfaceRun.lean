import Verif.Model.SurfaceRun
import Verif.Props.EveryLayerTf
import Verif.Props.ProfileTf

/-!
Properties C139 and C140: linear simulation of the motion on the surface, and what a results object keeps.
-/

set_option linter.unusedSectionVars false
set_option linter.unusedVariables false

namespace Verif

open Spec (times vals Valid5 DampedLay MakesUp)

namespace Spec

/-- An argument which is `None` or an array of the stated shape. -/
def ShapedArg {A : Type} (x : ArrArg A) (r c : Nat) : Prop := x = .none ∨ ∃ a, x = .arr [r, c] a

/-- `None` or a spectrum. -/
def SpecOk {S : Type} (x : SpecArg S) : Prop := x = .none ∨ ∃ s, x = .spec s

/-- The transfer function of a soil column between the motion put in and the motion on the surface. -/
noncomputable def surfaceTf (b : BoundaryArg) (f : ℝ) (ls : List Lay) : ℂ :=
  match b with
  | .elastic => tfRo (2 * Real.pi * f) ls
  | _ => tfBh (2 * Real.pi * f) ls

end Spec

open Spec (ShapedArg SpecOk surfaceTf)

/-! ## C140 -/

section
variable {M V S A : Type}

theorem checkShape_ok (x : ArrArg A) (r c : Nat) : checkShape x r c = .ok () ↔ ShapedArg x r c := by
  unfold ShapedArg
  cases x with
  | none => simp [checkShape]
  | other => simp [checkShape]
  | arr s a =>
    simp only [checkShape]
    constructor
    · intro h
      by_cases h1 : s.length ≠ 2
      · rw [if_pos h1] at h; exact absurd h (by simp)
      · rw [if_neg h1] at h
        by_cases h2 : s = [r, c]
        · exact .inr ⟨a, by rw [h2]⟩
        · rw [if_neg h2] at h; exact absurd h (by simp)
    · rintro (h | ⟨a', h⟩)
      · cases h
      · cases h; simp

theorem checkSpec_ok (x : SpecArg S) : checkSpec x = .ok () ↔ SpecOk x := by
  unfold SpecOk
  cases x <;> simp [checkSpec]

theorem checkMax_ok (nl : Nat) (a g p q : ArrArg A) : checkMax nl a g = .ok (p, q) ↔
    ((a = .none ∨ g = .none) ∧ p = .none ∧ q = .none) ∨
    (a ≠ .none ∧ g ≠ .none ∧ ShapedArg a (nl + 1) 4 ∧ ShapedArg g nl 3 ∧ p = a ∧ q = g) := by
  unfold ShapedArg
  cases a with
  | none => simp [checkMax, eq_comm]
  | other => cases g <;> simp [checkMax, eq_comm]
  | arr s x =>
    cases g with
    | none => simp [checkMax, eq_comm]
    | other => simp [checkMax]
    | arr t y =>
      simp only [checkMax]
      by_cases h1 : s.length ≠ 2
      · rw [if_pos h1]
        have : s ≠ [nl + 1, 4] := by rintro rfl; simp at h1
        simp [this]
      rw [if_neg h1]
      by_cases h2 : t.length ≠ 2
      · rw [if_pos h2]
        have : t ≠ [nl, 3] := by rintro rfl; simp at h2
        simp [this]
      rw [if_neg h2]
      by_cases h3 : s ≠ [nl + 1, 4]
      · rw [if_pos h3]; simp [h3]
      rw [if_neg h3]
      by_cases h4 : t ≠ [nl, 3]
      · rw [if_pos h4]; simp [h4]
      rw [if_neg h4]
      push Not at h3 h4
      subst h3 h4
      simp [eq_comm]

theorem bind_unit_ok {α : Type} {x : Except PyErr Unit} {f : Unit → Except PyErr α} {y : α} :
    (x >>= f) = .ok y ↔ x = .ok () ∧ f () = .ok y := by
  cases x with
  | error e => simp [bind, Except.bind]
  | ok u => simp [bind, Except.bind]

/-- A results object is made exactly from two motions and a profile, spectra or `None`, histories of one row per sample
of the surface motion and one column per layer boundary (accelerations, velocities, displacements) or per layer (stress,
strain), and, if both are given, maxima with one row per boundary or layer; everything is kept as given.  Missing: maxima
given alone are neither checked nor kept (`C140_maxima_violated`). -/
theorem C140_accepted_partial (npts : M → Nat) (nLayer : V → Nat) (time : String) (i s : Option M) (p : Option V)
    (tf tfs : SpecArg S) (x : ResArrays A) (name od : Option String) (o : ResultsObj M V S A)
    (hmax : (x.maxAvd = .none ↔ x.maxGt = .none)) :
    resultsInit npts nLayer time i s p tf tfs x name od = .ok o ↔
      i = some o.input ∧ s = some o.surface ∧ p = some o.profile ∧ o.tf = tf ∧ o.tfSmoothed = tfs ∧ SpecOk tf ∧ SpecOk tfs ∧
      (∀ y ∈ [x.accel, x.veloc, x.displ], ShapedArg y (npts o.surface) (nLayer o.profile + 1)) ∧
      (∀ y ∈ [x.stress, x.strain], ShapedArg y (npts o.surface) (nLayer o.profile)) ∧
      ShapedArg x.maxAvd (nLayer o.profile + 1) 4 ∧ ShapedArg x.maxGt (nLayer o.profile) 3 ∧ o.arrays = x ∧
      o.name = name.getD ("accel_" ++ time) ∧ o.outDir = od.getD ("./sim_" ++ time) := by
  obtain ⟨oi, os, op, otf, otfs, ox, on, oo⟩ := o
  cases i with
  | none => simp [resultsInit]
  | some i =>
  cases s with
  | none => simp [resultsInit]
  | some s =>
  cases p with
  | none => simp [resultsInit]
  | some p =>
  simp only [resultsInit, bind_unit_ok, checkSpec_ok, checkShape_ok]
  have key : (∃ m, checkMax (nLayer p) x.maxAvd x.maxGt = .ok m ∧ { x with maxAvd := m.1, maxGt := m.2 } = ox) ↔
      ShapedArg x.maxAvd (nLayer p + 1) 4 ∧ ShapedArg x.maxGt (nLayer p) 3 ∧ ox = x := by
    constructor
    · rintro ⟨⟨m1, m2⟩, h, rfl⟩
      rcases (checkMax_ok _ _ _ _ _).1 h with ⟨h1, rfl, rfl⟩ | ⟨h1, h2, h3, h4, rfl, rfl⟩
      · have h1' : x.maxAvd = .none ∧ x.maxGt = .none := by
          rcases h1 with h1 | h1
          · exact ⟨h1, hmax.1 h1⟩
          · exact ⟨hmax.2 h1, h1⟩
        refine ⟨.inl h1'.1, .inl h1'.2, ?_⟩
        obtain ⟨a, b, c, d, e, f, g⟩ := x
        simp only at h1'
        rw [h1'.1, h1'.2]
      · exact ⟨h3, h4, rfl⟩
    · rintro ⟨h1, h2, rfl⟩
      refine ⟨(ox.maxAvd, ox.maxGt), (checkMax_ok _ _ _ _ _).2 ?_, rfl⟩
      by_cases h : ox.maxAvd = .none
      · exact .inl ⟨.inl h, h, hmax.1 h⟩
      · exact .inr ⟨h, fun h' => h (hmax.2 h'), h1, h2, rfl, rfl⟩
  have fin : (checkMax (nLayer p) x.maxAvd x.maxGt >>= fun m =>
        (pure ⟨i, s, p, tf, tfs, { x with maxAvd := m.1, maxGt := m.2 }, name.getD ("accel_" ++ time),
          od.getD ("./sim_" ++ time)⟩ : Except PyErr (ResultsObj M V S A))) = .ok ⟨oi, os, op, otf, otfs, ox, on, oo⟩ ↔
      (∃ m, checkMax (nLayer p) x.maxAvd x.maxGt = .ok m ∧ { x with maxAvd := m.1, maxGt := m.2 } = ox) ∧
      i = oi ∧ s = os ∧ p = op ∧ tf = otf ∧ tfs = otfs ∧ name.getD ("accel_" ++ time) = on ∧
      od.getD ("./sim_" ++ time) = oo := by
    cases checkMax (nLayer p) x.maxAvd x.maxGt with
    | error e => simp [bind, Except.bind]
    | ok m =>
      simp only [bind, Except.bind, pure, Except.pure, Except.ok.injEq, ResultsObj.mk.injEq, exists_eq_left']
      tauto
  rw [fin, key]
  simp only [List.mem_cons, List.not_mem_nil, or_false, forall_eq_or_imp, forall_eq, Option.some.injEq]
  constructor
  · rintro ⟨a1, a2, a3, a4, a5, a6, a7, ⟨a8, a9, rfl⟩, rfl, rfl, rfl, rfl, rfl, rfl, rfl⟩
    exact ⟨rfl, rfl, rfl, rfl, rfl, a1, a2, ⟨a3, a4, a5⟩, ⟨a6, a7⟩, a8, a9, rfl, rfl, rfl⟩
  · rintro ⟨rfl, rfl, rfl, rfl, rfl, a1, a2, ⟨a3, a4, a5⟩, ⟨a6, a7⟩, a8, a9, rfl, rfl, rfl⟩
    exact ⟨a1, a2, a3, a4, a5, a6, a7, ⟨a8, a9, rfl⟩, rfl, rfl, rfl, rfl, rfl, rfl, rfl⟩

/-- The property fails for maxima: `max_a_v_d` given without `max_strain_stress` (or the other way round) is dropped
without a message, whatever it is, although the attribute is documented to be the argument. -/
theorem C140_maxima_violated (npts : M → Nat) (nLayer : V → Nat) (time : String) (i s : M) (p : V) (y : ArrArg A)
    (name od : Option String) :
    (resultsInit (S := S) npts nLayer time (some i) (some s) (some p) .none .none
        ⟨.none, .none, .none, .none, .none, y, .none⟩ name od).map (fun o => (o.arrays.maxAvd, o.arrays.maxGt)) =
      .ok (.none, .none) ∧
    (resultsInit (S := S) npts nLayer time (some i) (some s) (some p) .none .none
        ⟨.none, .none, .none, .none, .none, .none, y⟩ name od).map (fun o => (o.arrays.maxAvd, o.arrays.maxGt)) =
      .ok (.none, .none) := by
  constructor
  · cases y <;> rfl
  · cases y <;> rfl

/-- Anything but two motions and a profile is a TypeError, before any other argument is looked at. -/
theorem C140_class (npts : M → Nat) (nLayer : V → Nat) (time : String) (i s : Option M) (p : Option V)
    (tf tfs : SpecArg S) (x : ResArrays A) (name od : Option String) (h : i = none ∨ s = none ∨ p = none) :
    resultsInit npts nLayer time i s p tf tfs x name od = .error .typeError := by
  cases i <;> cases s <;> cases p <;> simp_all [resultsInit]

/-- A history with the wrong number of samples is an AssertionError, an array of another dimension a TypeError. -/
example : (resultsInit (M := Nat) (V := Nat) (S := Unit) (A := Unit) id id "T" (some 5) (some 5) (some 2) .none .none
      ⟨.arr [5, 2] (), .none, .none, .none, .none, .none, .none⟩ none none).isOk = false ∧
    (resultsInit (M := Nat) (V := Nat) (S := Unit) (A := Unit) id id "T" (some 5) (some 5) (some 2) .none .none
      ⟨.arr [5, 3] (), .none, .none, .none, .arr [5, 2] (), .arr [3, 4] (), .arr [2, 3] ()⟩ none none).isOk = true := by
  decide

end

/-! ## C139 -/

section
variable {V A : Type}

theorem surfaceResp_site (rows : List (Row ℝ)) (b : BoundaryArg) (d : Bool) (σ : CStore ℝ) (m : Motion ℝ) :
    siteMotion (some rows) b d σ m = match surfaceResp rows (m.accel.read σ) b d with
      | .error e => (.error e, σ)
      | .ok y => mkFresh σ y.1 := rfl

theorem surfaceRun_inv {array : V → List (Row ℝ)} {nLayer : V → Nat} {time : String} {v : V} {b : BoundaryArg} {d : Bool}
    {σ τ : CStore ℝ} {m : Motion ℝ} {o : ResultsObj (Motion ℝ) V FreqSpec A}
    (h : surfaceRun array nLayer time v b d σ m = (.ok o, τ)) :
    ∃ y f tf s, surfaceResp (array v) (m.accel.read σ) b d = .ok (y, f, tf) ∧ surfaceSpec f tf = .ok s ∧
      mkFresh σ y = (.ok o.surface, τ) ∧ o.input = m ∧ o.profile = v ∧ o.tf = .spec s ∧ o.tfSmoothed = .none ∧
      o.arrays = ⟨.none, .none, .none, .none, .none, .none, .none⟩ := by
  unfold surfaceRun at h
  cases h1 : surfaceResp (array v) (m.accel.read σ) b d with
  | error e => rw [h1] at h; exact absurd (Prod.mk.inj h).1 (by simp)
  | ok r =>
    obtain ⟨y, f, tf⟩ := r
    rw [h1] at h
    simp only at h
    cases h2 : surfaceSpec f tf with
    | error e => rw [h2] at h; exact absurd (Prod.mk.inj h).1 (by simp)
    | ok s =>
      rw [h2] at h
      simp only at h
      match h3 : mkFresh σ y with
      | (.error e, τ') => rw [h3] at h; exact absurd (Prod.mk.inj h).1 (by simp)
      | (.ok m', τ') =>
        rw [h3] at h
        simp only [resultsInit, checkSpec, checkShape, checkMax, bind, Except.bind, pure, Except.pure] at h
        obtain ⟨e1, e2⟩ := Prod.mk.inj h
        obtain rfl := Except.ok.inj e1
        subst e2
        exact ⟨y, f, tf, s, rfl, h2, h3, rfl, rfl, rfl, rfl, rfl⟩

/-- The motion on the surface is the one that `Ground_Motion.amplify` (or `deconvolve`) makes of the motion of the
simulation with the profile of the simulation. -/
theorem C139_amplify {array : V → List (Row ℝ)} {nLayer : V → Nat} {time : String} {v : V} {b : BoundaryArg} {d : Bool}
    {σ τ : CStore ℝ} {m : Motion ℝ} {o : ResultsObj (Motion ℝ) V FreqSpec A}
    (h : surfaceRun array nLayer time v b d σ m = (.ok o, τ)) :
    siteMotion (some (array v)) b d σ m = (.ok o.surface, τ) := by
  obtain ⟨y, f, tf, s, h1, -, h3, -⟩ := surfaceRun_inv h
  rw [surfaceResp_site, h1]
  exact h3

theorem surfaceSpec_ok {df : ℝ} (hdf : 0 < df) {f : List ℝ} {tf : List ℂ} (h2 : 2 ≤ f.length) (hl : tf.length = f.length)
    (hf : ∀ (k : Nat) g, f[k]? = some g → g = ((k + 1 : ℕ) : ℝ) * df) :
    ∃ s, surfaceSpec f tf = .ok s ∧ s.spectrum = tf ∧ s.freq = f := by
  match f, h2 with
  | f0 :: f1 :: rest, _ =>
    have e0 := hf 0 f0 rfl
    have e1 := hf 1 f1 rfl
    have ed : f1 - f0 = df := by rw [e0, e1]; push_cast; ring
    obtain ⟨s, hs, e2, e3, e4⟩ := C107_one_column tf df hdf.ne' (by rw [hl]; simp)
    refine ⟨s, ?_, e2, ?_⟩
    · simp only [surfaceSpec, ed]; exact hs
    · have hlen : s.freq.length = s.spectrum.length := by
        obtain ⟨r, f, v, hr, hm, hl', -⟩ := newSpect_inv hs
        obtain ⟨_, _, e3, e4, e5, e6, _⟩ := mkSpect_inv hm
        rw [e5, e6, hl']
      refine List.ext_getElem? fun k => ?_
      by_cases hk : k < tf.length
      · rw [e4 k hk]
        have hk' : k < (f0 :: f1 :: rest).length := by omega
        rw [List.getElem?_eq_getElem hk']
        congr 1
        rw [hf k _ (List.getElem?_eq_getElem hk')]
        push_cast; ring
      · rw [List.getElem?_eq_none (by rw [hlen, e2]; omega), List.getElem?_eq_none (by rw [← hl]; omega)]


theorem linearSiteResp_inv {ls : List Lay} {x y : Rec ℝ} {b : BoundaryArg} {d : Bool} {f : List ℝ} {tf : List ℂ}
    (h : linearSiteResp ls x b d = .ok (y, f, tf)) :
    ∃ fi, freqInterval x = .ok fi ∧ b ≠ .other ∧ f = tfFreqs (fi.df * (105 / 100)) (fi.fmax * (105 / 100)) ∧
      tf = f.map (fun g => surfaceTf b g ls) ∧ amplifyMotion x f (.complex tf) none true d = .ok y := by
  unfold linearSiteResp at h
  cases hfi : freqInterval x with
  | error e => rw [hfi] at h; exact absurd h (by simp [bind, Except.bind])
  | ok fi =>
    rw [hfi] at h
    have hfreq : (linearTf ls (fi.df * (105 / 100)) (fi.fmax * (105 / 100))).map (fun r => r.1)
        = tfFreqs (fi.df * (105 / 100)) (fi.fmax * (105 / 100)) := by
      unfold linearTf; rw [List.map_map]; exact List.map_id _
    cases b with
    | other => exact absurd h (by simp [bind, Except.bind])
    | elastic =>
      simp only [bind, Except.bind, hfreq, pure, Except.pure] at h
      cases hy : amplifyMotion x (tfFreqs (fi.df * (105 / 100)) (fi.fmax * (105 / 100)))
          (.complex ((linearTf ls (fi.df * (105 / 100)) (fi.fmax * (105 / 100))).map fun r => r.2.1.1)) none true d with
      | error e => rw [hy] at h; exact absurd h (by simp)
      | ok w =>
        rw [hy] at h
        obtain ⟨rfl, h2⟩ := Prod.mk.inj (Except.ok.inj h)
        obtain ⟨rfl, rfl⟩ := Prod.mk.inj h2
        refine ⟨fi, rfl, by simp, rfl, ?_, hy⟩
        unfold linearTf; rw [List.map_map]; rfl
    | rigid =>
      simp only [bind, Except.bind, hfreq, pure, Except.pure] at h
      cases hy : amplifyMotion x (tfFreqs (fi.df * (105 / 100)) (fi.fmax * (105 / 100)))
          (.complex ((linearTf ls (fi.df * (105 / 100)) (fi.fmax * (105 / 100))).map fun r => r.2.1.2.2)) none true d with
      | error e => rw [hy] at h; exact absurd h (by simp)
      | ok w =>
        rw [hy] at h
        obtain ⟨rfl, h2⟩ := Prod.mk.inj (Except.ok.inj h)
        obtain ⟨rfl, rfl⟩ := Prod.mk.inj h2
        refine ⟨fi, rfl, by simp, rfl, ?_, hy⟩
        unfold linearTf; rw [List.map_map]; rfl

theorem surfaceResp_inv {rows : List (Row ℝ)} {x y : Rec ℝ} {b : BoundaryArg} {d : Bool} {f : List ℝ} {tf : List ℂ}
    (h : surfaceResp rows x b d = .ok (y, f, tf)) :
    checkVsFormat (.five rows) = .ok () ∧ linearSiteResp (rows.map rowLay) x b d = .ok (y, f, tf) := by
  unfold surfaceResp at h
  cases hfi : freqInterval x with
  | error e => rw [hfi] at h; exact absurd h (by simp [bind, Except.bind])
  | ok fi =>
    rw [hfi] at h
    cases hc : checkVsFormat (.five rows) with
    | error e => rw [hc] at h; exact absurd h (by simp [bind, Except.bind])
    | ok u =>
      rw [hc] at h
      exact ⟨rfl, h⟩

/-- Frequencies of the transfer function of a motion of `n` samples every `dt`. -/
theorem surface_freqs {x : Rec ℝ} {fi : FreqInt} (hfi : freqInterval x = .ok fi) {p q : ℝ × ℝ} {rest : Rec ℝ}
    (hx : x = p :: q :: rest) (hdt : p.1 < q.1) :
    (tfFreqs (fi.df * (105 / 100)) (fi.fmax * (105 / 100))).length = x.length / 2 + 1 ∧
    0 < fi.df * (105 / 100) ∧ fi.df * (105 / 100) = 105 / 100 / ((x.length : ℝ) * (q.1 - p.1)) ∧
    ∀ (k : Nat) g, (tfFreqs (fi.df * (105 / 100)) (fi.fmax * (105 / 100)))[k]? = some g →
      g = ((k + 1 : ℕ) : ℝ) * (fi.df * (105 / 100)) := by
  obtain ⟨hx2, hn, hh, hfl, hfg, hfm, p', q', r', hxx, _, hdf'⟩ := freqInterval_ok hfi
  rw [hx] at hxx
  cases hxx
  have hl : (0 : ℝ) < x.length := by exact_mod_cast (by omega : 0 < x.length)
  have h1 : 0 < q.1 - p.1 := by linarith
  have hdf : 0 < fi.df := by rw [hdf']; positivity
  have hhalf : 2 ≤ fi.half := by rw [hh]; split_ifs <;> omega
  obtain ⟨hgl, hgg⟩ := siteGrid fi hdf hhalf hfm
  refine ⟨?_, by positivity, ?_, ?_⟩
  · rw [hgl, hh]
    split_ifs <;> omega
  · rw [hdf']
    field_simp
  · intro k g hg
    have hk : k < fi.half := by
      rw [← hgl]
      exact (List.getElem?_eq_some_iff.1 hg).1
    rw [hgg k hk] at hg
    exact (Option.some.inj hg).symm

/-- The transfer function of the results is the one of the profile of the simulation, at the multiples of
1.05/(n dt) which it is labelled with (outcrop to surface for an elastic boundary, base to surface for a rigid one), up to
more than half the sampling rate; the profile and the input motion are those of the simulation; there are no histories
and no maxima. -/
theorem C139_transfer_function {array : V → List (Row ℝ)} {nLayer : V → Nat} {time : String} {v : V} {b : BoundaryArg}
    {d : Bool} {σ τ : CStore ℝ} {m : Motion ℝ} {o : ResultsObj (Motion ℝ) V FreqSpec A} {p q : ℝ × ℝ} {rest : Rec ℝ}
    (hx : m.accel.read σ = p :: q :: rest) (hdt : p.1 < q.1)
    (h : surfaceRun array nLayer time v b d σ m = (.ok o, τ)) :
    (∃ s, o.tf = .spec s ∧ s.freq.length = (m.accel.read σ).length / 2 + 1 ∧ s.spectrum.length = s.freq.length ∧
      (∀ (k : Nat) g w, s.freq[k]? = some g → s.spectrum[k]? = some w →
        g = ((k + 1 : ℕ) : ℝ) * (105 / 100 / (((m.accel.read σ).length : ℝ) * (q.1 - p.1))) ∧
        w = surfaceTf b g ((array v).map rowLay)) ∧
      ∃ g ∈ s.freq, 1 / (2 * (q.1 - p.1)) < g) ∧
    o.profile = v ∧ o.input = m ∧ o.tfSmoothed = .none ∧
      o.arrays = ⟨.none, .none, .none, .none, .none, .none, .none⟩ := by
  obtain ⟨y, f, tf, s, h1, h2, -, h4, h5, h6, h7, h8⟩ := surfaceRun_inv h
  obtain ⟨hc, h9⟩ := surfaceResp_inv h1
  obtain ⟨fi, hfi, hb, hf, htf, hy⟩ := linearSiteResp_inv h9
  obtain ⟨g1, g2, g3, g4⟩ := surface_freqs hfi hx hdt
  rw [← hf] at g1 g4
  have hn2 : 2 ≤ (m.accel.read σ).length := by rw [hx]; simp
  obtain ⟨s', hs', e1, e2⟩ := surfaceSpec_ok g2 (tf := tf) (by omega) (by rw [htf]; simp) g4
  rw [h2] at hs'
  cases hs'
  refine ⟨⟨s, h6, by rw [e2, g1], by rw [e1, e2, htf]; simp, ?_, ?_⟩, h5, h4, h7, h8⟩
  · intro k g w hg hw
    rw [e2] at hg
    rw [e1, htf, List.getElem?_map, hg] at hw
    simp only [Option.map_some, Option.some.injEq] at hw
    refine ⟨?_, hw.symm⟩
    rw [g4 k g hg, g3]
  · rw [e2]
    have hk : (m.accel.read σ).length / 2 < f.length := by omega
    refine ⟨f[(m.accel.read σ).length / 2], List.getElem_mem hk, ?_⟩
    rw [g4 _ _ (List.getElem?_eq_getElem hk), g3]
    have h1 : 0 < q.1 - p.1 := by linarith
    have hl : (0 : ℝ) < (m.accel.read σ).length := by exact_mod_cast (by omega)
    have hge : ((m.accel.read σ).length : ℝ) ≤ 2 * (((m.accel.read σ).length / 2 + 1 : ℕ) : ℝ) := by
      exact_mod_cast (by omega)
    rw [← mul_div_assoc, div_lt_div_iff₀ (by positivity) (by positivity)]
    nlinarith [mul_pos hl h1, mul_le_mul_of_nonneg_right hge h1.le]

/-- Such a simulation can be run for every valid profile, both boundary conditions and every motion with two or more
samples at increasing times: same times, same mean acceleration, no existing array changes. -/
theorem C139_runs (array : V → List (Row ℝ)) (nLayer : V → Nat) (time : String) (v : V) (b : BoundaryArg) (hb : b ≠ .other)
    (hv : Valid5 (array v)) (σ : CStore ℝ) (m : Motion ℝ) (p q : ℝ × ℝ) (rest : Rec ℝ)
    (hx : m.accel.read σ = p :: q :: rest) (hdt : p.1 < q.1) :
    ∃ (o : ResultsObj (Motion ℝ) V FreqSpec A) (τ : CStore ℝ), surfaceRun array nLayer time v b false σ m = (.ok o, τ) ∧
      times (o.surface.accel.read τ) = times (m.accel.read σ) ∧
      (vals (o.surface.accel.read τ)).sum = (vals (m.accel.read σ)).sum ∧ o.surface.npts = (m.accel.read σ).length ∧
      o.surface.accel = .view σ.length ∧ ∀ c, c < σ.length → τ[c]? = σ[c]? := by
  have hck := (checkVsFormat_five_ok (array v)).2 hv
  obtain ⟨fi, hfi⟩ := freqInterval_inc hx hdt
  obtain ⟨y, f, tf, h1, h2, h3, -⟩ := C82_site_response ((array v).map rowLay) (m.accel.read σ) p q rest hx hdt b hb
  have hlen : y.length = (m.accel.read σ).length := by simpa using congrArg List.length h2
  obtain ⟨m', hm, ha, hn, -⟩ := mkFresh_addr σ y (by rw [hlen, hx]; simp)
  have hr : m'.accel.read (σ ++ [y]) = y := by rw [ha]; simp [Where.read]
  obtain ⟨fi', hfi', -, hf, htf, hy⟩ := linearSiteResp_inv h1
  obtain ⟨g1, g2, g3, g4⟩ := surface_freqs hfi' hx hdt
  rw [← hf] at g1 g4
  have hn2 : 2 ≤ (m.accel.read σ).length := by rw [hx]; simp
  obtain ⟨s, hs, -⟩ := surfaceSpec_ok g2 (tf := tf) (by omega) (by rw [htf]; simp) g4
  have hresp : surfaceResp (array v) (m.accel.read σ) b false = .ok (y, f, tf) := by
    unfold surfaceResp
    simp only [hfi, hck, bind, Except.bind, h1]
  refine ⟨⟨m, m', v, .spec s, .none, ⟨.none, .none, .none, .none, .none, .none, .none⟩, "accel_" ++ time,
    "./sim_" ++ time⟩, σ ++ [y], ?_, ?_, ?_, ?_, ha, ?_⟩
  · unfold surfaceRun
    simp only [hresp, hs, hm]
    rfl
  · rw [hr]; exact h2
  · rw [hr]; exact h3
  · show m'.npts = _; rw [hn, hlen]
  · intro c hc; rw [List.getElem?_append_left hc]

/-- Deconvolution of the motion computed for the surface gives back the input motion (and the other way round), for a
motion with an odd number of samples at increasing times; both succeed. -/
theorem C139_roundtrip_odd (array : V → List (Row ℝ)) (nLayer : V → Nat) (time : String) (v : V) (b : BoundaryArg)
    (hb : b ≠ .other) (hv : Valid5 (array v)) (σ : CStore ℝ) (m : Motion ℝ) (p q : ℝ × ℝ) (rest : Rec ℝ)
    (hx : m.accel.read σ = p :: q :: rest) (hdt : p.1 < q.1) (hodd : (m.accel.read σ).length % 2 = 1) (d : Bool) :
    ∃ (o₁ o₂ : ResultsObj (Motion ℝ) V FreqSpec A) (τ₁ τ₂ : CStore ℝ),
      surfaceRun array nLayer time v b d σ m = (.ok o₁, τ₁) ∧
      surfaceRun array nLayer time v b (!d) τ₁ o₁.surface = (.ok o₂, τ₂) ∧
      o₂.surface.accel.read τ₂ = m.accel.read σ ∧ o₂.tf = o₁.tf ∧ ∀ c, c < σ.length → τ₂[c]? = σ[c]? := by
  have hck := (checkVsFormat_five_ok (array v)).2 hv
  obtain ⟨fi, hfi⟩ := freqInterval_inc hx hdt
  obtain ⟨y, f, tf, h1, h2, h3⟩ := siteResp_inverse ((array v).map rowLay) (by simpa using hv.nonempty) (valid5_damped hv)
    (m.accel.read σ) p q rest hx hdt hodd b hb d
  have hlen : y.length = (m.accel.read σ).length := by simpa using congrArg List.length h2
  have hn2 : 2 ≤ (m.accel.read σ).length := by rw [hx]; simp
  obtain ⟨m₁, hm1, ha1, -⟩ := mkFresh_addr σ y (by rw [hlen]; exact hn2)
  have hr1 : m₁.accel.read (σ ++ [y]) = y := by rw [ha1]; simp [Where.read]
  obtain ⟨m₂, hm2, ha2, -⟩ := mkFresh_addr (σ ++ [y]) (m.accel.read σ) hn2
  obtain ⟨fi', hfi', -, hf, htf, -⟩ := linearSiteResp_inv h1
  obtain ⟨g1, g2, g3, g4⟩ := surface_freqs hfi' hx hdt
  rw [← hf] at g1 g4
  obtain ⟨s, hs, -⟩ := surfaceSpec_ok g2 (tf := tf) (by omega) (by rw [htf]; simp) g4
  have e1 : surfaceResp (array v) (m.accel.read σ) b d = .ok (y, f, tf) := by
    unfold surfaceResp
    simp only [hfi, hck, bind, Except.bind, h1]
  have e2 : surfaceResp (array v) y b (!d) = .ok (m.accel.read σ, f, tf) := by
    unfold surfaceResp
    simp only [freqInterval_congr h2, hfi, hck, bind, Except.bind, h3]
  refine ⟨⟨m, m₁, v, .spec s, .none, ⟨.none, .none, .none, .none, .none, .none, .none⟩, "accel_" ++ time,
    "./sim_" ++ time⟩, ⟨m₁, m₂, v, .spec s, .none, ⟨.none, .none, .none, .none, .none, .none, .none⟩, "accel_" ++ time,
    "./sim_" ++ time⟩, σ ++ [y], σ ++ [y] ++ [m.accel.read σ], ?_, ?_, ?_, rfl, ?_⟩
  · unfold surfaceRun
    simp only [e1, hs, hm1]
    rfl
  · unfold surfaceRun
    simp only [hr1, e2, hs, hm2]
    rfl
  · show m₂.accel.read _ = _
    rw [ha2]; simp [Where.read]
  · intro c hc
    rw [List.getElem?_append_left (by simp; omega), List.getElem?_append_left hc]

/-- With any number of samples the input motion is recovered, provided the division by the transfer function is finite
(for an even number of samples the factor at the Nyquist frequency is the real part of the transfer function, which can be
zero). -/
theorem C139_roundtrip {rows : List (Row ℝ)} {x y : Rec ℝ} {b : BoundaryArg} {d : Bool} {f : List ℝ} {tf : List ℂ}
    (h : surfaceResp rows x b d = .ok (y, f, tf)) (hfin : surfaceResp rows y b true ≠ .error .nonFinite) :
    surfaceResp rows y b (!d) = .ok (x, f, tf) := by
  obtain ⟨hc, h1⟩ := surfaceResp_inv h
  obtain ⟨fi, hfi, hb, rfl, rfl, hy⟩ := linearSiteResp_inv h1
  have hfst : y.map Prod.fst = x.map Prod.fst := by
    obtain ⟨x', _, _, hx', hf, _⟩ := C29_amplify_real (taper := none) (fun g hg => by cases hg) hy
    rw [hf, hx' rfl]
  have hfreq : (linearTf (rows.map rowLay) (fi.df * (105 / 100)) (fi.fmax * (105 / 100))).map (fun r => r.1)
      = tfFreqs (fi.df * (105 / 100)) (fi.fmax * (105 / 100)) := by
    unfold linearTf; rw [List.map_map]; exact List.map_id _
  have heq : ∀ e, surfaceResp rows y b e = (amplifyMotion y (tfFreqs (fi.df * (105 / 100)) (fi.fmax * (105 / 100)))
      (.complex ((tfFreqs (fi.df * (105 / 100)) (fi.fmax * (105 / 100))).map fun g => surfaceTf b g (rows.map rowLay)))
      none true e).map fun z => (z, tfFreqs (fi.df * (105 / 100)) (fi.fmax * (105 / 100)),
        (tfFreqs (fi.df * (105 / 100)) (fi.fmax * (105 / 100))).map fun g => surfaceTf b g (rows.map rowLay)) := by
    intro e
    have hE : ∀ s : ℂ × ℂ × ℂ → ℂ, (linearTf (rows.map rowLay) (fi.df * (105 / 100)) (fi.fmax * (105 / 100))).map
        (fun r => s r.2.1) = (tfFreqs (fi.df * (105 / 100)) (fi.fmax * (105 / 100))).map fun g =>
          s (tfRo (2 * Real.pi * g) (rows.map rowLay), tfIn (2 * Real.pi * g) (rows.map rowLay),
            tfBh (2 * Real.pi * g) (rows.map rowLay)) := by
      intro s; unfold linearTf; rw [List.map_map]; rfl
    have e1 := hE (fun t => t.1)
    have e2 := hE (fun t => t.2.2)
    simp only at e1 e2
    unfold surfaceResp linearSiteResp
    simp only [freqInterval_congr hfst, hfi, hc, bind, Except.bind, hfreq, e1, e2, pure, Except.pure]
    cases b with
    | other => exact absurd rfl hb
    | elastic =>
      simp only [surfaceTf]
      cases amplifyMotion y (tfFreqs (fi.df * (105 / 100)) (fi.fmax * (105 / 100)))
        (.complex ((tfFreqs (fi.df * (105 / 100)) (fi.fmax * (105 / 100))).map fun g =>
          tfRo (2 * Real.pi * g) (rows.map rowLay))) none true e <;> rfl
    | rigid =>
      simp only [surfaceTf]
      cases amplifyMotion y (tfFreqs (fi.df * (105 / 100)) (fi.fmax * (105 / 100)))
        (.complex ((tfFreqs (fi.df * (105 / 100)) (fi.fmax * (105 / 100))).map fun g =>
          tfBh (2 * Real.pi * g) (rows.map rowLay))) none true e <;> rfl
  have hfin' : amplifyMotion y (tfFreqs (fi.df * (105 / 100)) (fi.fmax * (105 / 100)))
      (.complex ((tfFreqs (fi.df * (105 / 100)) (fi.fmax * (105 / 100))).map fun g => surfaceTf b g (rows.map rowLay)))
      none true true ≠ .error .nonFinite := by
    intro he
    apply hfin
    rw [heq, he]
    rfl
  obtain ⟨x', -, hx', -, hr⟩ := C30_inverse hy hfin'
  rw [heq, hr, hx' rfl]
  rfl

/-- Superposition: motions at the same times whose combination is run give the combination of the results. -/
theorem C139_linear {array : V → List (Row ℝ)} {nLayer : V → Nat} {time : String} {v : V} {b : BoundaryArg} {d : Bool}
    {σ₁ τ₁ σ₂ τ₂ σ₃ τ₃ : CStore ℝ} {m₁ m₂ m₃ : Motion ℝ} {o₁ o₂ o₃ : ResultsObj (Motion ℝ) V FreqSpec A} (c : ℝ)
    (ht : times (m₁.accel.read σ₁) = times (m₂.accel.read σ₂))
    (h3 : m₃.accel.read σ₃ = Spec.comb c (m₁.accel.read σ₁) (m₂.accel.read σ₂))
    (e1 : surfaceRun array nLayer time v b d σ₁ m₁ = (.ok o₁, τ₁))
    (e2 : surfaceRun array nLayer time v b d σ₂ m₂ = (.ok o₂, τ₂))
    (e3 : surfaceRun array nLayer time v b d σ₃ m₃ = (.ok o₃, τ₃)) :
    o₃.surface.accel.read τ₃ = Spec.comb c (o₁.surface.accel.read τ₁) (o₂.surface.accel.read τ₂) := by
  have key : ∀ {σ τ : CStore ℝ} {m : Motion ℝ} {o : ResultsObj (Motion ℝ) V FreqSpec A},
      surfaceRun array nLayer time v b d σ m = (.ok o, τ) → ∃ fi, freqInterval (m.accel.read σ) = .ok fi ∧
        amplifyMotion (m.accel.read σ) (tfFreqs (fi.df * (105 / 100)) (fi.fmax * (105 / 100)))
          (.complex ((tfFreqs (fi.df * (105 / 100)) (fi.fmax * (105 / 100))).map fun g => surfaceTf b g ((array v).map rowLay)))
          none true d = .ok (o.surface.accel.read τ) := by
    intro σ τ m o h
    obtain ⟨y, f, tf, s, h1, -, hm, -⟩ := surfaceRun_inv h
    obtain ⟨-, h9⟩ := surfaceResp_inv h1
    obtain ⟨fi, hfi, -, rfl, rfl, hy⟩ := linearSiteResp_inv h9
    refine ⟨fi, hfi, ?_⟩
    rw [hy]
    have h2 : 2 ≤ y.length := by
      by_contra hlt
      have : mkFresh σ y = (mkFresh σ y) := rfl
      unfold mkFresh mkMotion at hm
      have hr : ∃ e, readTwo (σ ++ [y]) (.two σ.length) none = .error e := by
        unfold readTwo
        simp only [List.getElem?_concat_length]
        match y, hlt with
        | [], _ => exact ⟨_, rfl⟩
        | [_], _ => exact ⟨_, rfl⟩
        | _ :: _ :: _, hlt => simp at hlt
      obtain ⟨e, he⟩ := hr
      rw [he] at hm
      exact absurd (Prod.mk.inj hm).1 (by simp)
    obtain ⟨m', hm', ha, -⟩ := mkFresh_addr σ y h2
    rw [hm] at hm'
    obtain ⟨e1, e2⟩ := Prod.mk.inj hm'
    cases e1
    rw [e2, ha]
    simp [Where.read]
  obtain ⟨fi, hf1, a1⟩ := key e1
  obtain ⟨fi2, hf2, a2⟩ := key e2
  obtain ⟨fi3, hf3, a3⟩ := key e3
  have hl : (m₁.accel.read σ₁).length = (m₂.accel.read σ₂).length := by simpa [times] using congrArg List.length ht
  rw [freqInterval_congr ht.symm] at hf2
  rw [hf1] at hf2
  cases hf2
  rw [h3, freqInterval_congr (comb_fst c _ _ hl), hf1] at hf3
  cases hf3
  have := C81_linear (taper := none) ⟨fun g hg => (by cases hg), fun g hg => (by cases hg)⟩ ht a1 a2 c
  rw [h3, this] at a3
  exact (Except.ok.inj a3).symm

/-- Dividing the soil above the base into thinner layers of the same material does not change the motion on the surface
or the transfer function. -/
theorem C139_subdivision (rows rows' : List (Row ℝ)) (hv : Valid5 rows) (hv' : Valid5 rows') (base : Lay) (ls : List Lay)
    (gs : List (List Lay)) (h1 : rows.map rowLay = ls ++ [base]) (h2 : rows'.map rowLay = gs.flatten ++ [base])
    (h : List.Forall₂ MakesUp ls gs) (x : Rec ℝ) (b : BoundaryArg) (d : Bool) :
    surfaceResp rows' x b d = surfaceResp rows x b d := by
  have hp : ∀ l ∈ ls, 0 < l.vs ∧ 0 < l.rho := by
    intro l hl
    have := valid5_damped hv l (by rw [h1]; simp [hl])
    exact ⟨this.2.1, this.2.2.1⟩
  have ht : ∀ df fmax, linearTf (rows'.map rowLay) df fmax = linearTf (rows.map rowLay) df fmax := by
    intro df fmax
    unfold linearTf
    refine List.map_congr_left fun f hf => ?_
    obtain ⟨e1, e2, e3⟩ := C34_subdivision (2 * Real.pi * f) base ls gs hp h
    rw [h1, h2]
    simp only [e1, e2, e3]
  unfold surfaceResp linearSiteResp
  simp only [(checkVsFormat_five_ok rows).2 hv, (checkVsFormat_five_ok rows').2 hv', ht]

/-- A motion of three samples through 10 m of soil on a base of the same material. -/
example (time : String) : ∃ (o : ResultsObj (Motion ℝ) (List (Row ℝ)) FreqSpec Unit) (τ : CStore ℝ),
    surfaceRun id List.length time [demoRow, { demoRow with thk := 0 }] .rigid false [[(0, 1), (1, -2), (2, 1)]]
      ⟨.view 0, .own [], .own [], 1, 3, 2, 0, 0⟩ = (.ok o, τ) ∧ (vals (o.surface.accel.read τ)).sum = 0 := by
  obtain ⟨o, τ, h, -, h2, -⟩ := C139_runs (A := Unit) id List.length time [demoRow, { demoRow with thk := 0 }] .rigid (by simp)
    demoSim_valid [[(0, 1), (1, -2), (2, 1)]] ⟨.view 0, .own [], .own [], 1, 3, 2, 0, 0⟩ (0, 1) (1, -2) [(2, 1)] rfl
    (by norm_num)
  refine ⟨o, τ, h, ?_⟩
  rw [h2]
  simp [vals, Where.read]; norm_num

end

end Verif
