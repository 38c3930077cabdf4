import Verif.Props.MotionObj
import Verif.Props.Curves
import Verif.Props.Amplify

/-!
Exact extent of C18, C20, C21, C76, C77, C78 and C80: for which inputs the stated properties hold, and what happens for all
others.
-/

set_option linter.unusedSectionVars false
set_option linter.unusedVariables false

namespace Verif

open Spec

section Motions
variable {K : Type} [Field K] [LinearOrder K] [IsStrictOrderedRing K]

/-! ## C20 -/

/-- A successful construction from two columns: the object shows the given data through the caller's array, in which the
values have been converted. -/
theorem mkMotion_store (σ τ : CStore K) (a : Nat) (d : Rec K) (ha : σ[a]? = some d) (unit : MUnit) (ty : MType)
    (delta : Option K) (m : Motion K) (h : mkMotion σ (.two a) unit ty delta = (.ok m, τ)) :
    given m ty = .view a ∧ τ = σ.set a (d.map fun p => (p.1, toSI unit p.2)) := by
  have hal : a < σ.length := by
    by_contra hn; rw [List.getElem?_eq_none (by omega)] at ha; cases ha
  have hv := (C20_values σ τ a d ha unit ty delta m h).1
  unfold mkMotion at h
  cases hr : readTwo σ (.two a) delta with
  | error e => rw [hr] at h; cases h
  | ok r =>
    rw [hr] at h
    obtain ⟨w, dt⟩ := r
    obtain ⟨rfl, x, hx, hdt⟩ := readTwo_view hr
    simp only at h
    by_cases h1 : unit = .bad
    · rw [if_pos h1] at h; cases h
    rw [if_neg h1] at h
    by_cases h2 : ty = .bad
    · rw [if_pos h2] at h; cases h
    rw [if_neg h2] at h
    by_cases h3 : (unit = .g ∨ unit = .gal) ∧ ty ≠ .accel
    · rw [if_pos h3] at h; cases h
    rw [if_neg h3] at h
    have hw : (toSIinPlace σ (Where.view a) unit).1 = .view a ∧
        ∀ b, b ≠ a → (toSIinPlace σ (Where.view a) unit).2[b]? = σ[b]? := by
      unfold toSIinPlace
      split
      · exact ⟨rfl, fun b hb => by simp only [Where.scale]; rw [List.getElem?_set_ne (Ne.symm hb)]⟩
      · exact ⟨rfl, fun _ _ => rfl⟩
    have hτ : τ = (toSIinPlace σ (Where.view a) unit).2 ∧ given m ty = .view a := by
      split at h
      · cases h
      · rename_i av vv uv hout
        cases h
        refine ⟨rfl, ?_⟩
        rw [hw.1] at hout
        cases ty with
        | bad => exact absurd rfl h2
        | accel =>
          simp only [bind, Except.bind] at hout
          split at hout
          · cases hout
          · cases hout; rfl
        | veloc =>
          simp only [bind, Except.bind] at hout
          split at hout
          · cases hout
          · split at hout
            · cases hout
            · cases hout; rfl
        | displ =>
          simp only [bind, Except.bind] at hout
          split at hout
          · cases hout
          · split at hout
            · cases hout
            · cases hout; rfl
    refine ⟨hτ.2, ?_⟩
    rw [hτ.2] at hv
    have hlen : τ.length = σ.length := by
      rw [hτ.1]; unfold toSIinPlace; split <;> simp [Where.scale]
    apply List.ext_getElem?
    intro b
    by_cases hb : b = a
    · subst hb
      rw [List.getElem?_set_self hal, ← hv]
      simp only [Where.read]
      rw [List.getElem?_eq_getElem (by omega)]; rfl
    · rw [List.getElem?_set_ne (Ne.symm hb), hτ.1, hw.2 b hb]

/-- C20, exactly: a successful construction from two columns leaves the caller's array unchanged if the unit is an SI
unit or all values are zero, and changes it in all other cases. -/
theorem C20_exact (σ τ : CStore K) (a : Nat) (d : Rec K) (ha : σ[a]? = some d) (unit : MUnit) (ty : MType)
    (delta : Option K) (m : Motion K) (h : mkMotion σ (.two a) unit ty delta = (.ok m, τ)) :
    τ = σ ↔ (unit = .m ∨ unit = .mps ∨ unit = .mpss) ∨ ∀ p ∈ d, p.2 = 0 := by
  have hal : a < σ.length := by
    by_contra hn; rw [List.getElem?_eq_none (by omega)] at ha; cases ha
  obtain ⟨_, hτ⟩ := mkMotion_store σ τ a d ha unit ty delta m h
  have hub : unit ≠ .bad := by
    rintro rfl
    unfold mkMotion at h
    split at h
    · cases h
    · simp at h
  constructor
  · intro he
    rw [he] at hτ
    have h1 : σ[a]? = some (d.map fun p => (p.1, toSI unit p.2)) := by
      rw [hτ]; rw [List.getElem?_set_self (by simpa using hal)]
    rw [ha, Option.some.injEq] at h1
    by_cases hu : unit = .m ∨ unit = .mps ∨ unit = .mpss
    · exact .inl hu
    · right
      intro p hp
      obtain ⟨i, hi⟩ := List.mem_iff_getElem?.1 hp
      have h2 := congrArg (fun l => l[i]?) h1
      simp only [hi, List.getElem?_map, Option.map_some, Option.some.injEq] at h2
      have h3 : p.2 = toSI unit p.2 := congrArg Prod.snd h2
      cases unit <;> simp only [toSI] at h3 <;> first | linarith | exact absurd rfl hub | (exfalso; simp at hu; done)
  · intro hc
    rw [hτ]
    have : (d.map fun p => (p.1, toSI unit p.2)) = d := by
      conv_rhs => rw [← List.map_id d]
      apply List.map_congr_left
      intro p hp
      rcases hc with (rfl | rfl | rfl) | h0
      · rfl
      · rfl
      · rfl
      · have := h0 p hp
        ext
        · rfl
        · change toSI unit p.2 = p.2
          rw [this]
          cases unit <;> simp [toSI]
    rw [this]
    apply List.ext_getElem?
    intro b
    by_cases hb : a = b
    · subst hb; rw [List.getElem?_set_self hal, ha]
    · rw [List.getElem?_set_ne hb]

/-- C20 is violated by every two-column array in a unit other than SI: a second motion built from the same array has its
values converted twice, and so has the first motion from then on. -/
theorem C20_twice_violated (σ σ1 σ2 : CStore K) (a : Nat) (d : Rec K) (ha : σ[a]? = some d) (unit : MUnit) (ty : MType)
    (delta : Option K) (m1 m2 : Motion K) (h1 : mkMotion σ (.two a) unit ty delta = (.ok m1, σ1))
    (h2 : mkMotion σ1 (.two a) unit ty delta = (.ok m2, σ2)) :
    (given m2 ty).read σ2 = d.map (fun p => (p.1, toSI unit (toSI unit p.2))) ∧
    (given m1 ty).read σ2 = d.map (fun p => (p.1, toSI unit (toSI unit p.2))) := by
  have hal : a < σ.length := by
    by_contra hn; rw [List.getElem?_eq_none (by omega)] at ha; cases ha
  obtain ⟨g1, e1⟩ := mkMotion_store σ σ1 a d ha unit ty delta m1 h1
  have ha1 : σ1[a]? = some (d.map fun p => (p.1, toSI unit p.2)) := by rw [e1, List.getElem?_set_self hal]
  obtain ⟨g2, e2⟩ := mkMotion_store σ1 σ2 a _ ha1 unit ty delta m2 h2
  have ha2 : σ2[a]? = some (d.map fun p => (p.1, toSI unit (toSI unit p.2))) := by
    rw [e2, List.getElem?_set_self (by rw [e1]; simpa using hal), List.map_map]; rfl
  rw [g1, g2]
  simp [Where.read, ha2]

/-! ## C77 -/

theorem times_toSI (unit : MUnit) (d : Rec K) : times (d.map fun p => (p.1, toSI unit p.2)) = times d := by simp [times]

/-- C77, exactly: which units and motion types are accepted.  All others are a ValueError, and nothing is changed. -/
theorem C77_exact (σ : CStore K) (a : Nat) (d : Rec K) (ha : σ[a]? = some d) (dt : K) (hdt : dt ≠ 0)
    (hu : Uniform dt (times d)) (h2 : 2 ≤ d.length) (unit : MUnit) (ty : MType) (delta : Option K) :
    ((∃ m τ, mkMotion σ (.two a) unit ty delta = (.ok m, τ)) ↔
      unit ≠ .bad ∧ ty ≠ .bad ∧ (unit = .g ∨ unit = .gal → ty = .accel)) ∧
    ((∀ m τ, mkMotion σ (.two a) unit ty delta ≠ (.ok m, τ)) →
      mkMotion σ (.two a) unit ty delta = (.error .valueError, σ)) := by
  have hal : a < σ.length := by
    by_contra hn; rw [List.getElem?_eq_none (by omega)] at ha; cases ha
  have hr : ∃ dt, readTwo σ (.two a) delta = .ok (.view a, dt) := by
    match d, h2 with
    | p :: q :: d, _ => unfold readTwo; simp only [ha]; exact ⟨_, rfl⟩
  obtain ⟨dt', hr⟩ := hr
  have hok : unit ≠ .bad ∧ ty ≠ .bad ∧ (unit = .g ∨ unit = .gal → ty = .accel) →
      ∃ m τ, mkMotion σ (.two a) unit ty delta = (.ok m, τ) := by
    rintro ⟨n1, n2, n3⟩
    unfold mkMotion
    rw [hr]
    simp only
    rw [if_neg n1, if_neg n2, if_neg (by rintro ⟨h1, h2⟩; exact h2 (n3 h1))]
    obtain ⟨x, hx, hxt⟩ : ∃ x, ((toSIinPlace σ (Where.view a) unit).1.read (toSIinPlace σ (Where.view a) unit).2) = x ∧
        times x = times d := by
      refine ⟨_, rfl, ?_⟩
      unfold toSIinPlace
      split
      · rename_i f _
        rw [scale_read σ (.view a) d f (by intro b hb; cases hb; exact hal) (by simp [Where.read, ha])]
        simp [times, scaleCols]
      · simp [Where.read, ha]
    rw [hx]
    have hxl : x.length = d.length := by
      have := congrArg List.length hxt
      simpa [times] using this
    have hxu : Uniform dt (times x) := by rw [hxt]; exact hu
    have hxne : x ≠ [] := by rintro rfl; simp at hxl; omega
    have hint := numInt_ok dt x (uniform_dtOf hxu (by omega))
    have hdf := numDiff_uniform dt hdt x hxu hxne
    have hvl : (times x).length = (0 :: (diff (vals x)).map (· / dt)).length := by
      simp [times, vals, diff_length]
      have := List.length_pos_iff.2 hxne
      omega
    have hdf2 := numDiff_uniform dt hdt ((times x).zip (0 :: (diff (vals x)).map (· / dt)))
      (by
        have : times ((times x).zip (0 :: (diff (vals x)).map (· / dt))) = times x := by
          unfold times; exact List.map_fst_zip (by rw [← times, hvl])
        rw [this]; exact hxu)
      (by
        intro hn
        have := congrArg List.length hn
        rw [List.length_zip, ← hvl, Nat.min_self] at this
        simp [times] at this
        exact hxne this)
    cases ty with
    | bad => exact absurd rfl n2
    | accel => simp only [hint, bind, Except.bind, pure, Except.pure]; exact ⟨_, _, rfl⟩
    | veloc => simp only [hint, hdf, bind, Except.bind, pure, Except.pure]; exact ⟨_, _, rfl⟩
    | displ => simp only [hdf, hdf2, bind, Except.bind, pure, Except.pure]; exact ⟨_, _, rfl⟩
  have hbad : ¬ (unit ≠ .bad ∧ ty ≠ .bad ∧ (unit = .g ∨ unit = .gal → ty = .accel)) →
      mkMotion σ (.two a) unit ty delta = (.error .valueError, σ) := by
    intro hn
    apply C77_unit_check_partial σ a d ha h2
    by_contra hc
    apply hn
    push Not at hc
    obtain ⟨c1, c2, c3⟩ := hc
    refine ⟨c1, c2, fun hg => ?_⟩
    have := c3 hg
    cases ty <;> rcases hg with rfl | rfl <;> simp_all [unitFits]
  refine ⟨⟨?_, hok⟩, ?_⟩
  · rintro ⟨m, τ, h⟩
    by_contra hn
    rw [hbad hn] at h
    cases h
  · intro hno
    apply hbad
    intro hc
    obtain ⟨m, τ, h⟩ := hok hc
    exact hno m τ h

/-- C77 is violated by all other mismatches: a length or velocity unit for acceleration, and so on, is accepted. -/
theorem C77_mismatch_violated (σ : CStore K) (a : Nat) (d : Rec K) (ha : σ[a]? = some d) (dt : K) (hdt : dt ≠ 0)
    (hu : Uniform dt (times d)) (h2 : 2 ≤ d.length) (unit : MUnit) (ty : MType) (delta : Option K)
    (hb : unit ≠ .bad) (hg : unit ≠ .g) (hgal : unit ≠ .gal) (ht : ty ≠ .bad) (hmis : ¬ unitFits ty unit) :
    ∃ m τ, mkMotion σ (.two a) unit ty delta = (.ok m, τ) ∧
      (given m ty).read τ = d.map fun p => (p.1, toSI unit p.2) := by
  obtain ⟨m, τ, h⟩ := (C77_exact σ a d ha dt hdt hu h2 unit ty delta).1.2 ⟨hb, ht, by rintro (h | h) <;> contradiction⟩
  exact ⟨m, τ, h, (C20_values σ τ a d ha unit ty delta m h).1⟩

example : Uniform (1 : ℚ) (times [(0, 3), (1, 5), (2, 4)]) ∧ ¬ unitFits .accel .mps := by
  refine ⟨?_, by simp [unitFits]⟩
  intro i x y hx hy
  match i with
  | 0 => simp [times] at hx hy; rw [← hx, ← hy]; norm_num
  | 1 => simp [times] at hx hy; rw [← hx, ← hy]; norm_num
  | n + 2 => simp [times] at hy

/-! ## C78 -/

/-- C78, exactly: `time` is the time column if and only if this column is `0, dt, 2 dt, …`. -/
theorem C78_exact (σ τ : CStore K) (a : Nat) (d : Rec K) (ha : σ[a]? = some d) (unit : MUnit) (ty : MType)
    (delta : Option K) (m : Motion K) (h : mkMotion σ (.two a) unit ty delta = (.ok m, τ)) (h2 : 2 ≤ d.length) :
    motionTime m = times ((given m ty).read τ) ↔ (times d)[0]? = some 0 ∧ ∃ dt, Uniform dt (times d) := by
  constructor
  · intro he
    obtain ⟨hv, hd, hn, _⟩ := C20_values σ τ a d ha unit ty delta m h
    rw [hv, times_toSI] at he
    have hi : ∀ i, i < d.length → (times d)[i]? = some ((i : K) * m.dt) := by
      intro i hil
      rw [← he]
      unfold motionTime
      rw [hn, linspace_getElem? _ _ _ _ hil]
      congr 1
      have := cast_sub_one_ne (K := K) h2
      field_simp
      ring
    refine ⟨by rw [hi 0 (by omega)]; simp, m.dt, ?_⟩
    intro i x y hx hy
    have hil : i + 1 < d.length := by
      by_contra hn
      rw [List.getElem?_eq_none (by simp [times]; omega)] at hy; cases hy
    rw [hi i (by omega), Option.some.injEq] at hx
    rw [hi (i + 1) hil, Option.some.injEq] at hy
    rw [← hx, ← hy]
    push_cast
    ring
  · rintro ⟨h0, dt, hu⟩
    exact C78_time_partial σ τ a d ha unit ty delta m h dt hu h0 h2

/-- C78 is violated by every one-column record: `time` starts at 0, the time column one interval later. -/
theorem C78_one_column_all_violated (σ τ : CStore K) (col : List K) (unit : MUnit) (delta : Option K) (m : Motion K)
    (h : mkMotion σ (.one col) unit .accel delta = (.ok m, τ)) :
    ∃ dt, delta = some dt ∧ dt ≠ 0 ∧ (times (m.accel.read τ)).length = (motionTime m).length ∧
      ∀ (i : Nat) x y, (times (m.accel.read τ))[i]? = some x → (motionTime m)[i]? = some y → x = y + dt := by
  unfold mkMotion at h
  cases hr : readTwo σ (.one col) delta with
  | error e => rw [hr] at h; cases h
  | ok r =>
    rw [hr] at h
    obtain ⟨w, dt⟩ := r
    obtain ⟨e1, e2, e3, rfl⟩ := readTwo_own hr
    simp only at h
    by_cases h1 : unit = .bad
    · rw [if_pos h1] at h; cases h
    rw [if_neg h1, if_neg (by simp), if_neg (by simp)] at h
    obtain ⟨x, hx, hxt⟩ : ∃ x, (toSIinPlace σ (Where.own ((linspace dt ((col.length : K) * dt) col.length).zip col)) unit).1 = .own x ∧
        times x = linspace dt ((col.length : K) * dt) col.length := by
      have hz : times ((linspace dt ((col.length : K) * dt) col.length).zip col) = linspace dt ((col.length : K) * dt) col.length := by
        unfold times; exact List.map_fst_zip (by rw [linspace_length])
      unfold toSIinPlace
      split
      · refine ⟨_, rfl, ?_⟩
        conv_rhs => rw [← hz]
        simp [times, scaleCols]
      · exact ⟨_, rfl, hz⟩
    rw [hx] at h
    have hxl : x.length = col.length := by
      have := congrArg List.length hxt
      simpa [times, linspace_length] using this
    split at h
    · cases h
    · rename_i av vv uv hout
      simp only [bind, Except.bind] at hout
      split at hout
      · cases hout
      · cases hout
        cases h
        refine ⟨dt, e1, e2, ?_, ?_⟩
        · simp [Where.read, motionTime, linspace_length, times]
        · intro i u v hu hv
          simp only [Where.read, hxt] at hu
          simp only [motionTime, Where.read, hxl] at hv
          have hil : i < col.length := by
            by_contra hn
            rw [List.getElem?_eq_none (by rw [linspace_length]; omega)] at hu; cases hu
          rw [linspace_getElem? _ _ _ _ hil, Option.some.injEq] at hu hv
          rw [← hu, ← hv]
          have := cast_sub_one_ne (K := K) e3
          field_simp
          ring

example : ∃ m, mkMotion ([] : CStore ℚ) (.one [4, 5, 6]) .m .accel (some 1) = (.ok m, []) :=
  ⟨⟨.own [(1, 4), (2, 5), (3, 6)], .own [(1, 4), (2, 9), (3, 15)], .own [(1, 4), (2, 13), (3, 28)], 1, 3, 6, 15, 28⟩,
    by decide +kernel⟩

/-! ## C21 -/

/-- C21, exactly: saving leaves the acceleration of the motion as it was if the unit is not one of g, gal and cm/s/s, or
all accelerations are zero, and changes it in all other cases. -/
theorem C21_exact (σ : CStore K) (m : Motion K) (unit : MUnit) (hw : ∀ a, m.accel = .view a → a < σ.length) :
    (saveAccel σ m unit).2.1.accel.read (saveAccel σ m unit).2.2 = m.accel.read σ ↔
      (unit ≠ .g ∧ unit ≠ .gal ∧ unit ≠ .cmpss) ∨ ∀ p ∈ m.accel.read σ, p.2 = 0 := by
  have key : ∀ f : K, f ≠ 1 → (scaleCols 1 f (m.accel.read σ) = m.accel.read σ ↔ ∀ p ∈ m.accel.read σ, p.2 = 0) := by
    intro f hf
    constructor
    · intro he p hp
      obtain ⟨i, hi⟩ := List.mem_iff_getElem?.1 hp
      have h2 := congrArg (fun l => l[i]?) he
      simp only [scaleCols, hi, List.getElem?_map, Option.map_some, Option.some.injEq] at h2
      have h3 : p.2 * f = p.2 := congrArg Prod.snd h2
      by_contra h0
      exact hf (mul_left_cancel₀ h0 (by rw [h3, mul_one]))
    · intro h0
      unfold scaleCols
      conv_rhs => rw [← List.map_id (m.accel.read σ)]
      apply List.map_congr_left
      intro p hp
      ext
      · simp
      · simp [h0 p hp]
  cases unit with
  | g =>
    have := key (1 / (981 / 100)) (by norm_num)
    simp only [saveAccel, ne_eq, not_true_eq_false, false_and, false_or]
    rw [scale_read σ _ _ _ hw rfl]; exact this
  | gal =>
    have := key 100 (by norm_num)
    simp only [saveAccel, ne_eq, not_true_eq_false, false_and, and_false, false_or]
    rw [scale_read σ _ _ _ hw rfl]; exact this
  | cmpss =>
    have := key 100 (by norm_num)
    simp only [saveAccel, ne_eq, not_true_eq_false, and_false, false_or]
    rw [scale_read σ _ _ _ hw rfl]; exact this
  | m => simp [saveAccel]
  | cm => simp [saveAccel]
  | mps => simp [saveAccel]
  | cmps => simp [saveAccel]
  | mpss => simp [saveAccel]
  | bad => simp [saveAccel]

/-- C21 is violated by every motion: the second of two saves in the same unit writes values converted twice. -/
theorem C21_twice_violated (σ : CStore K) (m : Motion K) (unit : MUnit) (hw : ∀ a, m.accel = .view a → a < σ.length)
    (hu : unit = .mpss ∨ unit = .cmpss ∨ unit = .gal ∨ unit = .g) :
    List.Forall₂ (fun p q => q.1 = p.1 ∧ ∃ v, fromSI unit p.2 = some v ∧ fromSI unit v = some q.2) (m.accel.read σ)
      (saveAccel (saveAccel σ m unit).2.2 (saveAccel σ m unit).2.1 unit).1 := by
  have h1 := C21_file σ m unit hw hu
  have hw' : ∀ a, (saveAccel σ m unit).2.1.accel = .view a → a < (saveAccel σ m unit).2.2.length := by
    intro a
    cases hm : m.accel with
    | own d => cases unit <;> simp [saveAccel, hm, Where.scale]
    | view b =>
      have := hw b hm
      cases unit <;> simp [saveAccel, hm, Where.scale] <;> rintro rfl <;> exact this
  have h2 := C21_file (saveAccel σ m unit).2.2 (saveAccel σ m unit).2.1 unit hw' hu
  have he : (saveAccel σ m unit).2.1.accel.read (saveAccel σ m unit).2.2 = (saveAccel σ m unit).1 := rfl
  rw [he] at h2
  have hcomp : ∀ {l1 l2 l3 : Rec K}, List.Forall₂ (fun p q : K × K => q.1 = p.1 ∧ fromSI unit p.2 = some q.2) l1 l2 →
      List.Forall₂ (fun p q : K × K => q.1 = p.1 ∧ fromSI unit p.2 = some q.2) l2 l3 →
      List.Forall₂ (fun p q : K × K => q.1 = p.1 ∧ ∃ v, fromSI unit p.2 = some v ∧ fromSI unit v = some q.2) l1 l3 := by
    intro l1 l2 l3 g1
    induction g1 generalizing l3 with
    | nil => intro g2; cases g2; exact .nil
    | cons a _ ih =>
      intro g2
      cases g2 with
      | cons b g2 => exact .cons ⟨b.1.trans a.1, _, a.2, b.2⟩ (ih g2)
  exact hcomp h1 h2

/-- C21 is violated by every unknown unit, and by every unit of length or velocity: the values in m/s/s are written, no
error is raised. -/
theorem C21_unknown_all_violated (σ : CStore K) (m : Motion K) (unit : MUnit)
    (hu : ¬ (unit = .mpss ∨ unit = .cmpss ∨ unit = .gal ∨ unit = .g)) : saveAccel σ m unit = (m.accel.read σ, m, σ) := by
  cases unit <;> first | rfl | (exfalso; simp at hu)

end Motions

section Curves
variable {K : Type} [_root_.Field K] [LinearOrder K] [IsStrictOrderedRing K]

/-! ## C18 -/

/-- The values are converted to another unit. -/
def Spec.valueConv (kind : CurveKind) : Prop :=
  kind = .damping .one ∨ kind = .stress .pa ∨ kind = .stress .mpa ∨ kind = .stress .gpa

/-- C18, exactly: a successful construction without interpolation leaves the caller's array unchanged if every column
that is to be converted is zero or no column is to be converted, and changes it in all other cases. -/
theorem C18_exact (σ : CStore K) (a : Nat) (d : List (K × K)) (ha : σ[a]? = some d) (kind : CurveKind) (su : Unit1) (chk : Bool)
    (w : Where K) (σ' : CStore K) (h : mkCurve σ a kind su none chk = (.ok w, σ')) :
    w = .view a ∧ (σ'[a]? = σ[a]? ↔ (su = .one → ∀ p ∈ d, p.1 = 0) ∧ (valueConv kind → ∀ p ∈ d, p.2 = 0)) := by
  have hal : a < σ.length := by
    by_contra hn; rw [List.getElem?_eq_none (by omega)] at ha; cases ha
  have hrd := C18_units σ a d ha kind su chk w σ' h
  have hb : ∀ w0 τ, mkBase σ a su none chk = (.ok w0, τ) → w0 = .view a ∧ τ.length = σ.length := by
    intro w0 τ h0
    unfold mkBase at h0
    rw [ha] at h0
    simp only at h0
    split_ifs at h0 with hc
    · cases h0
    · cases su with
      | bad => cases h0
      | pct => cases h0; exact ⟨rfl, rfl⟩
      | one => cases h0; exact ⟨rfl, by simp [Where.scale]⟩
  have hr : ∀ (τ : CStore K) (w0 w : Where K) (hi : K) τ', rangeCheck τ w0 hi chk = (.ok w, τ') → w = w0 ∧ τ' = τ := by
    intro τ w0 w hi τ' h0; unfold rangeCheck at h0; split_ifs at h0 <;> cases h0; exact ⟨rfl, rfl⟩
  have hw : w = .view a ∧ σ'.length = σ.length := by
    unfold mkCurve at h
    cases hm : mkBase σ a su none chk with
    | mk e τ =>
      rw [hm] at h
      cases e with
      | error e => cases h
      | ok w0 =>
        simp only at h
        obtain ⟨rfl, hl⟩ := hb w0 τ hm
        rcases kind with _ | _ | u | u
        · cases h; exact ⟨rfl, hl⟩
        · obtain ⟨rfl, rfl⟩ := hr _ _ _ _ _ h; exact ⟨rfl, hl⟩
        · cases u with
          | bad => cases h
          | one => obtain ⟨rfl, rfl⟩ := hr _ _ _ _ _ h; exact ⟨rfl, by simpa [Where.scale] using hl⟩
          | pct => obtain ⟨rfl, rfl⟩ := hr _ _ _ _ _ h; exact ⟨rfl, hl⟩
        · cases u with
          | bad => cases h
          | kpa => cases h; exact ⟨rfl, hl⟩
          | pa => cases h; exact ⟨rfl, by simpa [Where.scale] using hl⟩
          | mpa => cases h; exact ⟨rfl, by simpa [Where.scale] using hl⟩
          | gpa => cases h; exact ⟨rfl, by simpa [Where.scale] using hl⟩
  obtain ⟨rfl, hlen⟩ := hw
  refine ⟨rfl, ?_⟩
  have hσ' : σ'[a]? = some (σ'[a]'(by omega)) := List.getElem?_eq_getElem _
  simp only [Where.read, hσ', Option.getD_some] at hrd
  rw [hσ', ha, Option.some.injEq, hrd]
  constructor
  · intro he
    have hp : ∀ p ∈ d, (if su = .one then 100 * p.1 else p.1) = p.1 := by
      intro p hp
      obtain ⟨i, hi⟩ := List.mem_iff_getElem?.1 hp
      have h2 := congrArg (fun l => l[i]?) he
      simp only [hi, List.getElem?_map, Option.map_some, Option.some.injEq] at h2
      exact congrArg Prod.fst h2
    constructor
    · rintro rfl p hp'
      have := hp p hp'
      simp only [if_true] at this
      linarith
    · intro hv p hp'
      obtain ⟨i, hi⟩ := List.mem_iff_getElem?.1 hp'
      have h2 := congrArg (fun l => l[i]?) he
      rcases hv with rfl | rfl | rfl | rfl <;>
        simp only [hi, List.getElem?_map, Option.map_some, Option.some.injEq] at h2 <;>
        (have h3 := congrArg Prod.snd h2; simp only at h3; linarith)
  · rintro ⟨h1, h2⟩
    conv_rhs => rw [← List.map_id d]
    apply List.map_congr_left
    intro p hp
    ext
    · simp only [id]
      split_ifs with hs
      · rw [h1 hs p hp, mul_zero]
      · rfl
    · simp only [id]
      by_cases hv : valueConv kind
      · rw [h2 hv p hp]
        rcases hv with rfl | rfl | rfl | rfl <;> simp
      · rcases kind with _ | _ | u | u
        · rfl
        · rfl
        · cases u <;> first | rfl | (exfalso; apply hv; simp [valueConv])
        · cases u <;> first | rfl | (exfalso; apply hv; simp [valueConv])

example : mkCurve ([[(1 / 1000, 1 / 1000)]] : CStore ℚ) 0 (.damping .one) .one none true = (.ok (.view 0), [[(1 / 10, 1 / 10)]]) := by
  decide +kernel

/-! ## C76 -/

/-- The documented name: the prefix `curve_` of the file name is removed, and nothing else. -/
def Spec.siteName (s : List Char) : List Char := if "curve_".toList <+: s then s.drop 6 else s

/-- C76, exactly: the name is the documented one if the file name starts with `curve_` or does not contain it, and in no
other case. -/
theorem C76_exact (pre ext s : List Char) :
    outputFileName pre ext (some s) = .ok (pre ++ "_x_".toList ++ siteName s ++ ".".toList ++ ext) ↔
      "curve_".toList <+: s ∨ ¬ "curve_".toList <:+: s := by
  unfold outputFileName siteName
  simp only [Except.ok.injEq]
  by_cases hp : "curve_".toList <+: s
  · rw [if_pos hp, if_pos hp.isInfix]
    exact ⟨fun _ => .inl hp, fun _ => rfl⟩
  · rw [if_neg hp]
    by_cases hi : "curve_".toList <:+: s
    · rw [if_pos hi]
      constructor
      · intro he
        exfalso
        have hl := congrArg List.length he
        simp only [List.length_append, List.length_drop] at hl
        have h6 : 6 ≤ s.length := hi.length_le
        omega
      · rintro (h | h)
        · exact absurd h hp
        · exact absurd hi h
    · rw [if_neg hi]; exact ⟨fun _ => .inr hi, fun _ => rfl⟩

example : ¬ ("curve_".toList <+: "my_curve_A".toList) ∧ "curve_".toList <:+: "my_curve_A".toList := by decide

end Curves

/-! ## C80 -/

/-- C80, exactly: a component of the motion is multiplied by the transfer function at its own frequency if it is zero or
the transfer function has the same value at the next frequency of the grid, and in no other case. -/
theorem C80_exact {x y : Rec ℝ} {f a p : List ℝ} {fi : FreqInt} (hfi : freqInterval x = .ok fi)
    (hcov : ∃ g ∈ f, fi.fmax ≤ g) (h : amplifyMotion x f (.ampPhase a p) none false false = .ok y) (m : Nat) (hm0 : 0 < m)
    (hm : 2 * m < x.length) (w w' : ℂ) (hw : TfAt f a p (m * fi.df) w) (hw' : TfAt f a p ((m + 1 : ℕ) * fi.df) w') :
    (fftL (cx (y.map Prod.snd))).getD m 0 = (fftL (cx (x.map Prod.snd))).getD m 0 * w ↔
      (fftL (cx (x.map Prod.snd))).getD m 0 = 0 ∨ w = w' := by
  obtain ⟨w2, h2, he⟩ := (C80_frequency_alignment_partial hfi hcov h).2 m hm0 hm
  have : w2 = w' := by
    obtain ⟨u, v, hu, hv, rfl⟩ := h2
    obtain ⟨u', v', hu', hv', rfl⟩ := hw'
    rw [hu] at hu'; rw [hv] at hv'
    cases hu'; cases hv'; rfl
  rw [he, this]
  constructor
  · intro h3
    by_cases h0 : (fftL (cx (x.map Prod.snd))).getD m 0 = 0
    · exact .inl h0
    · exact .inr (mul_left_cancel₀ h0 h3.symm)
  · rintro (h3 | h3)
    · rw [h3, zero_mul, zero_mul]
    · rw [h3]

end Verif
