import Verif.Props.Motion

/-!
Properties C20, C21, C24–C27, C66, C67, C77, C78: ground-motion objects.
-/

set_option linter.unusedSectionVars false
set_option linter.unusedVariables false

namespace Verif

open Spec

section Obj
variable {K : Type} [Field K] [LinearOrder K] [IsStrictOrderedRing K]

/-- Documented conversion to SI: divide centimetre units by 100, multiply g by 9.81. -/
def Spec.toSI : MUnit → K → K
  | .cm, v => v / 100
  | .cmps, v => v / 100
  | .cmpss, v => v / 100
  | .gal, v => v / 100
  | .g, v => v * (981 / 100)
  | _, v => v

/-- The array holding the given data of a motion object, by motion type. -/
def Spec.given (m : Motion K) : MType → Where K
  | .veloc => m.veloc
  | .displ => m.displ
  | _ => m.accel

theorem readTwo_view {σ : CStore K} {a : Nat} {delta : Option K} {w : Where K} {dt : K}
    (h : readTwo σ (.two a) delta = .ok (w, dt)) : w = .view a ∧ ∃ x, σ[a]? = some x ∧ dtOf x = .ok dt := by
  unfold readTwo at h
  simp only at h
  split at h
  · cases h
  · split_ifs at h
  · rename_i x _ hx
    cases hd : dtOf x with
    | error e => rw [hd] at h; cases h
    | ok d =>
      rw [hd] at h
      simp only [bind, Except.bind, pure, Except.pure, Except.ok.injEq, Prod.mk.injEq] at h
      obtain ⟨rfl, rfl⟩ := h
      exact ⟨rfl, x, hx, hd⟩

theorem readTwo_own {σ : CStore K} {col : List K} {delta : Option K} {w : Where K} {dt : K}
    (h : readTwo σ (.one col) delta = .ok (w, dt)) :
    delta = some dt ∧ dt ≠ 0 ∧ 2 ≤ col.length ∧ w = .own ((linspace dt ((col.length : K) * dt) col.length).zip col) := by
  unfold readTwo at h
  simp only at h
  cases delta with
  | none => cases h
  | some d =>
    simp only at h
    split at h
    · rename_i c0 c1 rest hc
      have hl : 2 ≤ col.length := by
        have := congrArg List.length hc
        simp [linspace] at this; omega
      split_ifs at h with h1 h2
      cases h
      exact ⟨rfl, h1, hl, rfl⟩
    · cases h

/-! ## C20 -/

/-- Construction from SI units or from one-column data leaves memory unchanged, whether it
succeeds or not.  Missing: two-column data in other units (`C20_violated`). -/
theorem C20_caller_array_partial (σ : CStore K) (data : MData K) (unit : MUnit) (ty : MType) (delta : Option K)
    (h : (∀ v : K, toSI unit v = v) ∨ ∃ col, data = .one col) : (mkMotion σ data unit ty delta).2 = σ := by
  unfold mkMotion
  cases hr : readTwo σ data delta with
  | error e => rfl
  | ok r =>
    obtain ⟨w, dt⟩ := r
    simp only
    split_ifs with h1 h2 h3
    · rfl
    · rfl
    · rfl
    · have key : (toSIinPlace σ w unit).2 = σ := by
        rcases h with h | ⟨col, rfl⟩
        · have h1' := h 1
          cases unit <;> simp only [toSIinPlace, unitFactor, toSI] at h1' ⊢ <;> norm_num at h1'
        · obtain ⟨_, _, _, rfl⟩ := readTwo_own hr
          unfold toSIinPlace
          split <;> rfl
      split
      · exact key
      · exact key

/-- No construction touches any array other than the one passed in. -/
theorem C20_other_arrays (σ : CStore K) (a b : Nat) (hab : a ≠ b) (unit : MUnit) (ty : MType) (delta : Option K) :
    (mkMotion σ (.two a) unit ty delta).2[b]? = σ[b]? := by
  unfold mkMotion
  cases hr : readTwo σ (.two a) delta with
  | error e => rfl
  | ok r =>
    obtain ⟨w, dt⟩ := r
    obtain ⟨rfl, _⟩ := readTwo_view hr
    simp only
    split_ifs with h1 h2 h3
    · rfl
    · rfl
    · rfl
    · have key : (toSIinPlace σ (Where.view a) unit).2[b]? = σ[b]? := by
        unfold toSIinPlace
        split
        · simp only [Where.scale]; rw [List.getElem?_set_ne hab]
        · rfl
      split
      · exact key
      · exact key

/-- What the constructed object shows: the times as given, the values converted to SI; the
interval and number of samples; and the peaks of its three arrays. -/
theorem C20_values (σ τ : CStore K) (a : Nat) (d : Rec K) (ha : σ[a]? = some d) (unit : MUnit) (ty : MType)
    (delta : Option K) (m : Motion K) (h : mkMotion σ (.two a) unit ty delta = (.ok m, τ)) :
    (given m ty).read τ = d.map (fun p => (p.1, toSI unit p.2)) ∧ dtOf d = .ok m.dt ∧ m.npts = d.length ∧
      m.pga = maxAbs (vals (m.accel.read τ)) ∧ m.pgv = maxAbs (vals (m.veloc.read τ)) ∧
      m.pgd = maxAbs (vals (m.displ.read τ)) := by
  have hal : a < σ.length := by
    by_contra hn; rw [List.getElem?_eq_none (by omega)] at ha; cases ha
  unfold mkMotion at h
  cases hr : readTwo σ (.two a) delta with
  | error e => rw [hr] at h; cases h
  | ok r =>
    rw [hr] at h
    obtain ⟨w, dt⟩ := r
    obtain ⟨rfl, x, hx, hdt⟩ := readTwo_view hr
    rw [ha] at hx; cases hx
    simp only at h
    by_cases h1 : unit = .bad
    · rw [if_pos h1] at h; cases h
    rw [if_neg h1] at h
    by_cases h2 : ty = .bad
    · rw [if_pos h2] at h; cases h
    rw [if_neg h2] at h
    by_cases h3 : (unit = .g ∨ unit = .gal) ∧ ty ≠ .accel
    · rw [if_pos h3] at h; cases h
    rw [if_neg h3] at h
    have key : ∃ ρ : CStore K, (toSIinPlace σ (Where.view a) unit) = (Where.view a, ρ) ∧ ρ[a]? = some (d.map fun p => (p.1, toSI unit p.2)) := by
      have hs : ∀ f : K, (∀ v, toSI unit v = v * f) → ((Where.view a).scale σ 1 f) = (Where.view a, σ.set a (scaleCols 1 f d)) ∧
          (σ.set a (scaleCols 1 f d))[a]? = some (d.map fun p => (p.1, toSI unit p.2)) := by
        intro f hf
        refine ⟨by simp [Where.scale, ha], ?_⟩
        rw [List.getElem?_set_self hal]
        congr 1
        apply List.map_congr_left
        intro p _
        rw [hf, mul_one]
      cases unit with
      | cm => exact ⟨_, (hs (1 / 100) (fun v => by simp [toSI, div_eq_mul_inv])).1, (hs (1 / 100) (fun v => by simp [toSI, div_eq_mul_inv])).2⟩
      | cmps => exact ⟨_, (hs (1 / 100) (fun v => by simp [toSI, div_eq_mul_inv])).1, (hs (1 / 100) (fun v => by simp [toSI, div_eq_mul_inv])).2⟩
      | cmpss => exact ⟨_, (hs (1 / 100) (fun v => by simp [toSI, div_eq_mul_inv])).1, (hs (1 / 100) (fun v => by simp [toSI, div_eq_mul_inv])).2⟩
      | gal => exact ⟨_, (hs (1 / 100) (fun v => by simp [toSI, div_eq_mul_inv])).1, (hs (1 / 100) (fun v => by simp [toSI, div_eq_mul_inv])).2⟩
      | g => exact ⟨_, (hs (981 / 100) (fun v => rfl)).1, (hs (981 / 100) (fun v => rfl)).2⟩
      | bad => exact absurd rfl h1
      | m => exact ⟨σ, rfl, by rw [ha]; simp [toSI]⟩
      | mps => exact ⟨σ, rfl, by rw [ha]; simp [toSI]⟩
      | mpss => exact ⟨σ, rfl, by rw [ha]; simp [toSI]⟩
    obtain ⟨ρ, hρ, hρa⟩ := key
    rw [hρ] at h
    have hread : (Where.view a).read ρ = d.map (fun p => (p.1, toSI unit p.2)) := by simp [Where.read, hρa]
    simp only [hread] at h
    split at h
    · cases h
    · rename_i av vv uv hout
      cases h
      refine ⟨?_, hdt, by simp, rfl, rfl, rfl⟩
      cases ty with
      | bad => exact absurd rfl h2
      | accel =>
        simp only [bind, Except.bind] at hout
        split at hout
        · cases hout
        · cases hout; exact hread
      | veloc =>
        simp only [bind, Except.bind] at hout
        split at hout
        · cases hout
        · split at hout
          · cases hout
          · cases hout; exact hread
      | displ =>
        simp only [bind, Except.bind] at hout
        split at hout
        · cases hout
        · split at hout
          · cases hout
          · cases hout; exact hread

/-- C20 fails: two motions constructed from one array in cm/s/s.  The second shows values
100 times smaller, and so does the first from then on. -/
theorem C20_violated :
    ∃ (σ σ1 σ2 : CStore ℚ) (m1 m2 : Motion ℚ),
      mkMotion σ (.two 0) .cmpss .accel none = (.ok m1, σ1) ∧ mkMotion σ1 (.two 0) .cmpss .accel none = (.ok m2, σ2) ∧
      m1.accel.read σ1 = [(0, 3), (1, 5)] ∧ m2.accel.read σ2 = [(0, 3 / 100), (1, 5 / 100)] ∧
      m1.accel.read σ2 = [(0, 3 / 100), (1, 5 / 100)] :=
  ⟨[[(0, 300), (1, 500)]], [[(0, 3), (1, 5)]], [[(0, 3 / 100), (1, 5 / 100)]],
    ⟨.view 0, .own [(0, 3), (1, 8)], .own [(0, 3), (1, 11)], 1, 2, 5, 8, 11⟩,
    ⟨.view 0, .own [(0, 3 / 100), (1, 8 / 100)], .own [(0, 3 / 100), (1, 11 / 100)], 1, 2, 5 / 100, 8 / 100, 11 / 100⟩,
    by decide +kernel, by decide +kernel, by decide +kernel, by decide +kernel, by decide +kernel⟩

/-! ## C77 -/

/-- The units belonging to a motion type. -/
def Spec.unitFits : MType → MUnit → Prop
  | .accel, u => u = .mpss ∨ u = .cmpss ∨ u = .gal ∨ u = .g
  | .veloc, u => u = .mps ∨ u = .cmps
  | .displ, u => u = .m ∨ u = .cm
  | .bad, _ => False

/-- Unknown units, unknown motion types, and g or gal for anything but acceleration are
rejected with ValueError.  Missing: other mismatches are accepted (`C77_violated`). -/
theorem C77_unit_check_partial (σ : CStore K) (a : Nat) (d : Rec K) (ha : σ[a]? = some d) (h2 : 2 ≤ d.length)
    (unit : MUnit) (ty : MType) (delta : Option K)
    (h : unit = .bad ∨ ty = .bad ∨ ((unit = .g ∨ unit = .gal) ∧ ¬ unitFits ty unit)) :
    mkMotion σ (.two a) unit ty delta = (.error .valueError, σ) := by
  have hr : ∃ dt, readTwo σ (.two a) delta = .ok (.view a, dt) := by
    match d, h2 with
    | p :: q :: d, _ =>
      unfold readTwo
      simp only [ha]
      exact ⟨_, rfl⟩
  obtain ⟨dt, hr⟩ := hr
  unfold mkMotion
  rw [hr]
  simp only
  by_cases h1 : unit = .bad
  · rw [if_pos h1]
  rw [if_neg h1]
  by_cases h2 : ty = .bad
  · rw [if_pos h2]
  rw [if_neg h2, if_pos]
  rcases h with h | h | ⟨hg, hf⟩
  · exact absurd h h1
  · exact absurd h h2
  · refine ⟨hg, ?_⟩
    rintro rfl
    apply hf
    rcases hg with rfl | rfl <;> simp [unitFits]

/-- C77 fails: acceleration in m/s is accepted although the documentation says an exception
is raised. -/
theorem C77_violated :
    ∃ (σ : CStore ℚ) (m : Motion ℚ), mkMotion σ (.two 0) .mps .accel none = (.ok m, σ) ∧ ¬ unitFits .accel .mps :=
  ⟨[[(0, 3), (1, 5)]], ⟨.view 0, .own [(0, 3), (1, 8)], .own [(0, 3), (1, 11)], 1, 2, 5, 8, 11⟩,
    by decide +kernel, by simp [unitFits]⟩

/-! ## C78 -/

theorem linspace_length (a b : K) (n : Nat) : (linspace a b n).length = n := by simp [linspace]

theorem linspace_getElem? (a b : K) (n i : Nat) (h : i < n) :
    (linspace a b n)[i]? = some (a + (i : K) * ((b - a) / ((n : K) - 1))) := by
  unfold linspace
  rw [List.getElem?_map, List.getElem?_range h]; rfl

theorem cast_sub_one_ne {n : Nat} (h : 2 ≤ n) : ((n : K) - 1) ≠ 0 := by
  have : (2 : K) ≤ n := by exact_mod_cast h
  intro h0; linarith

/-- The attribute `time` equals the time column of the given data when that column is
uniform and starts at 0.  Missing: other records (`C78_offset_violated`,
`C78_one_column_violated`). -/
theorem C78_time_partial (σ τ : CStore K) (a : Nat) (d : Rec K) (ha : σ[a]? = some d) (unit : MUnit) (ty : MType)
    (delta : Option K) (m : Motion K) (h : mkMotion σ (.two a) unit ty delta = (.ok m, τ)) (dt : K)
    (hu : Uniform dt (times d)) (h0 : (times d)[0]? = some 0) (h2 : 2 ≤ d.length) :
    motionTime m = times ((given m ty).read τ) := by
  obtain ⟨hv, hd, hn, _⟩ := C20_values σ τ a d ha unit ty delta m h
  rw [uniform_dtOf hu h2, Except.ok.injEq] at hd
  have hi : ∀ i, i < d.length → (times d)[i]? = some ((i : K) * dt) := by
    intro i
    induction i with
    | zero => intro _; rw [h0]; simp
    | succ i ih =>
      intro hi
      have h3 := ih (by omega)
      have h4 : (times d)[i + 1]? = some ((times d)[i + 1]'(by simpa [times] using hi)) := List.getElem?_eq_getElem _
      have := hu i _ _ h3 h4
      rw [h4]
      congr 1
      push_cast
      linarith
  rw [hv]
  have : times (d.map fun p => (p.1, toSI unit p.2)) = times d := by simp [times]
  rw [this]
  apply List.ext_getElem?
  intro i
  unfold motionTime
  rw [hn]
  by_cases hil : i < d.length
  · rw [linspace_getElem? _ _ _ _ hil, hi i hil, ← hd]
    congr 1
    have := cast_sub_one_ne (K := K) h2
    field_simp
    ring
  · rw [List.getElem?_eq_none (by rw [linspace_length]; omega), List.getElem?_eq_none (by simp [times]; omega)]

/-- C78 fails for one-column data: the time column is 1, 2, 3 while `time` is 0, 1, 2. -/
theorem C78_one_column_violated :
    ∃ (m : Motion ℚ), mkMotion [] (.one [4, 5, 6]) .m .accel (some 1) = (.ok m, []) ∧
      times (m.accel.read []) = [1, 2, 3] ∧ motionTime m = [0, 1, 2] :=
  ⟨⟨.own [(1, 4), (2, 5), (3, 6)], .own [(1, 4), (2, 9), (3, 15)], .own [(1, 4), (2, 13), (3, 28)], 1, 3, 6, 15, 28⟩,
    by decide +kernel, by decide +kernel, by decide +kernel⟩

/-- C78 fails for two-column data starting at another time. -/
theorem C78_offset_violated :
    ∃ (m : Motion ℚ), mkMotion [[(10, 4), (11, 5)]] (.two 0) .m .accel none = (.ok m, [[(10, 4), (11, 5)]]) ∧
      times (m.accel.read [[(10, 4), (11, 5)]]) = [10, 11] ∧ motionTime m = [0, 1] :=
  ⟨⟨.view 0, .own [(10, 4), (11, 9)], .own [(10, 4), (11, 13)], 1, 2, 5, 9, 13⟩,
    by decide +kernel, by decide +kernel, by decide +kernel⟩

/-! ## C21 -/

/-- Acceleration in m/s/s expressed in another unit. -/
def Spec.fromSI : MUnit → K → Option K
  | .mpss, v => some v
  | .cmpss, v => some (v * 100)
  | .gal, v => some (v * 100)
  | .g, v => some (v / (981 / 100))
  | _, _ => none

theorem scale_read (σ : CStore K) (w : Where K) (d : Rec K) (f : K) (hw : ∀ a, w = .view a → a < σ.length)
    (hd : w.read σ = d) : (w.scale σ 1 f).1.read (w.scale σ 1 f).2 = scaleCols 1 f d := by
  subst hd
  cases w with
  | own d => rfl
  | view a =>
    simp only [Where.scale, Where.read]
    rw [List.getElem?_set_self (hw a rfl)]; rfl

/-- The file written by a save holds the acceleration shown by the object before the save,
converted to the unit. -/
theorem C21_file (σ : CStore K) (m : Motion K) (unit : MUnit) (hw : ∀ a, m.accel = .view a → a < σ.length)
    (hu : unit = .mpss ∨ unit = .cmpss ∨ unit = .gal ∨ unit = .g) :
    List.Forall₂ (fun p q => q.1 = p.1 ∧ fromSI unit p.2 = some q.2) (m.accel.read σ) (saveAccel σ m unit).1 := by
  have hgen : ∀ (f : K) (d : Rec K), (∀ v, fromSI unit v = some (v * f)) →
      List.Forall₂ (fun p q => q.1 = p.1 ∧ fromSI unit p.2 = some q.2) d (scaleCols 1 f d) := by
    intro f d hf
    unfold scaleCols
    rw [List.forall₂_map_right_iff]
    apply List.forall₂_same.2
    intro p _
    exact ⟨by simp, hf _⟩
  unfold saveAccel
  rcases hu with rfl | rfl | rfl | rfl
  · exact List.forall₂_same.2 fun p _ => ⟨rfl, rfl⟩
  · simp only; rw [scale_read σ _ _ _ hw rfl]; exact hgen 100 _ fun v => rfl
  · simp only; rw [scale_read σ _ _ _ hw rfl]; exact hgen 100 _ fun v => rfl
  · simp only; rw [scale_read σ _ _ _ hw rfl]
    exact hgen _ _ fun v => by simp [fromSI, div_eq_mul_inv]

/-- Saving in SI units changes neither object nor memory.  Missing: other units
(`C21_violated`). -/
theorem C21_unchanged_partial (σ : CStore K) (m : Motion K) : (saveAccel σ m .mpss).2 = (m, σ) := rfl

/-- C21 fails: after saving in g the motion's acceleration is in g, and saving again in
g writes other numbers. -/
theorem C21_violated :
    ∃ (σ : CStore ℚ) (m : Motion ℚ), m.accel.read σ = [(0, 981), (1, 0)] ∧
      (saveAccel σ m .g).1 = [(0, 100), (1, 0)] ∧
      (saveAccel σ m .g).2.1.accel.read (saveAccel σ m .g).2.2 = [(0, 100), (1, 0)] ∧
      (saveAccel (saveAccel σ m .g).2.2 (saveAccel σ m .g).2.1 .g).1 = [(0, 10000 / 981), (1, 0)] :=
  ⟨[[(0, 981), (1, 0)]], ⟨.view 0, .own [], .own [], 1, 2, 981, 0, 0⟩,
    by decide +kernel, by decide +kernel, by decide +kernel, by decide +kernel⟩

/-- C21 fails: an unknown unit is not rejected; the SI numbers are written. -/
theorem C21_unknown_unit_violated :
    ∃ (σ : CStore ℚ) (m : Motion ℚ), (saveAccel σ m .bad).1 = m.accel.read σ ∧ m.accel.read σ ≠ [] :=
  ⟨[[(0, 981), (1, 0)]], ⟨.view 0, .own [], .own [], 1, 2, 981, 0, 0⟩, by decide +kernel, by decide +kernel⟩

/-! ## C25 -/

theorem mkFresh_spec (σ : CStore K) (x : Rec K) (h2 : 2 ≤ x.length) :
    ∃ m, mkFresh σ x = (.ok m, σ ++ [x]) ∧ m.accel.read (σ ++ [x]) = x ∧ m.npts = x.length ∧
      dtOf x = .ok m.dt ∧ m.pga = maxAbs (vals x) := by
  have ha : (σ ++ [x])[σ.length]? = some x := by simp
  have hok : ∃ dt, dtOf x = .ok dt := by
    match x, h2 with
    | p :: q :: x, _ => exact ⟨_, rfl⟩
  obtain ⟨dt, hdt⟩ := hok
  have hread : (Where.view σ.length).read (σ ++ [x]) = x := by simp [Where.read]
  have hm : ∃ m, mkFresh σ x = (.ok m, σ ++ [x]) := by
    unfold mkFresh mkMotion
    have hr : readTwo (σ ++ [x]) (.two σ.length) none = .ok (.view σ.length, dt) := by
      unfold readTwo
      simp only [ha]
      match x, h2, hdt with
      | p :: q :: x, _, hdt => simp only [hdt]; rfl
    rw [hr]
    simp only [reduceCtorEq, if_false, toSIinPlace, unitFactor, hread, numInt_ok dt x hdt, bind, Except.bind, pure, Except.pure,
      false_or, false_and, or_self]
    exact ⟨_, rfl⟩
  obtain ⟨m, hm⟩ := hm
  obtain ⟨h1, h3, h4, h5, _⟩ := C20_values (σ ++ [x]) (σ ++ [x]) σ.length x ha .m .accel none m hm
  have h1' : m.accel.read (σ ++ [x]) = x := by
    have := h1
    simp only [given, toSI] at this
    rw [this]; simp
  exact ⟨m, hm, h1', h4, h3, by rw [h5, h1']⟩

/-- Scaling by a factor multiplies every sample; times are kept. -/
theorem C25_factor (σ : CStore K) (m : Motion K) (c : K) (h2 : 2 ≤ (m.accel.read σ).length) :
    ∃ m' τ, scaleMotion σ m c none = (.ok m', τ) ∧
      m'.accel.read τ = (m.accel.read σ).map (fun p => (p.1, c * p.2)) ∧
      m'.pga = |c| * maxAbs (vals (m.accel.read σ)) := by
  obtain ⟨m', h, hr, _, _, hp⟩ := mkFresh_spec σ (scaleCols 1 c (m.accel.read σ)) (by simpa [scaleCols] using h2)
  have hs : scaleCols 1 c (m.accel.read σ) = (m.accel.read σ).map (fun p => (p.1, c * p.2)) := by
    unfold scaleCols
    apply List.map_congr_left
    intro p _; rw [mul_one, mul_comm]
  refine ⟨m', _, h, by rw [hr, hs], ?_⟩
  rw [hp, hs, ← maxAbs_map_mul]
  congr 1
  simp [vals]

/-- Scaling to a target PGA: the new motion's PGA in g is the (absolute) target; the samples
are multiplied by one common factor; a given `factor` is overridden. -/
theorem C25_target (σ : CStore K) (m : Motion K) (c p : K) (h2 : 2 ≤ (m.accel.read σ).length)
    (hp : m.pga = maxAbs (vals (m.accel.read σ))) (h0 : m.pga ≠ 0) :
    ∃ m' τ k, scaleMotion σ m c (some p) = (.ok m', τ) ∧
      m'.accel.read τ = (m.accel.read σ).map (fun q => (q.1, k * q.2)) ∧
      IsPeak m'.pga (vals (m'.accel.read τ)) ∧ m'.pga / (981 / 100) = |p| := by
  have hg : m.pga / (981 / 100) ≠ 0 := div_ne_zero h0 (by norm_num)
  obtain ⟨m', τ, h, hr, hpga⟩ := C25_factor σ m (p / (m.pga / (981 / 100))) h2
  refine ⟨m', τ, p / (m.pga / (981 / 100)), ?_, hr, ?_, ?_⟩
  · unfold scaleMotion at h ⊢
    simp only at h ⊢
    rw [if_neg hg]; exact h
  · have : m'.pga = maxAbs (vals (m'.accel.read τ)) := by
      rw [hpga, hr, ← maxAbs_map_mul]; congr 1; simp [vals]
    rw [this]
    apply isPeak_maxAbs
    rw [hr]
    intro hn
    have := congrArg List.length hn
    simp [vals] at this
    rw [this] at h2; simp at h2
  · have hpos : 0 < m.pga := lt_of_le_of_ne (by rw [hp]; exact maxAbs_nonneg _) (Ne.symm h0)
    rw [hpga, ← hp, abs_div, abs_of_pos (div_pos hpos (by norm_num))]
    field_simp

/-- A motion without acceleration cannot be scaled to a target. -/
theorem C25_zero (σ : CStore K) (m : Motion K) (c p : K) (h0 : m.pga = 0) :
    scaleMotion σ m c (some p) = (.error .zeroDivision, σ) := by
  simp [scaleMotion, h0]

/-- Scaling and truncation never touch an existing array. -/
theorem C25_original_unchanged (σ : CStore K) (m : Motion K) (c : K) (t : Option K) (b : Nat) (hb : b < σ.length) :
    (scaleMotion σ m c t).2[b]? = σ[b]? := by
  have hf : ∀ x, (mkFresh σ x).2[b]? = σ[b]? := by
    intro x
    unfold mkFresh
    rw [C20_other_arrays _ _ _ (by omega)]
    rw [List.getElem?_append_left hb]
  unfold scaleMotion
  cases t with
  | none => exact hf _
  | some p =>
    simp only
    split_ifs
    · rfl
    · exact hf _

/-- A motion meeting the hypotheses. -/
example : ∃ (σ : CStore ℚ) (m : Motion ℚ), 2 ≤ (m.accel.read σ).length ∧ m.pga = maxAbs (vals (m.accel.read σ)) ∧ m.pga ≠ 0 :=
  ⟨[[(0, 981), (1, -3)]], ⟨.view 0, .own [], .own [], 1, 2, 981, 0, 0⟩, by decide +kernel, by decide +kernel, by decide +kernel⟩

/-! ## C26 -/

/-- Multiplying the acceleration by `c` multiplies every spectral ordinate by `|c|`. -/
theorem C26_scaling (coef : K → K → Coefs K) (xi : K) (wns : List K) (n : Nat) (acc : Rec K) (c : K)
    (rows : List (SpecRow K)) (h : responseSpectra coef xi wns n acc = .ok rows) :
    responseSpectra coef xi wns n (acc.map fun p => (p.1, c * p.2)) =
      .ok (rows.map fun r => ⟨|c| * r.sa, |c| * r.sv, |c| * r.sd, |c| * r.psa, |c| * r.psv⟩) := by
  have hsub : subsample n (acc.map fun p => (p.1, c * p.2)) = (subsample n acc).map fun p => (p.1, c * p.2) := by
    unfold subsample
    rw [List.length_map, List.map_filterMap]
    apply List.filterMap_congr
    intro i _
    rw [List.getElem?_map]
  have hstep : ∀ (k : Coefs K) (wn : K) (a : List K), timeStepping k wn xi (a.map fun x => c * x) =
      (fun r : SpecRow K => ⟨|c| * r.sa, |c| * r.sv, |c| * r.sd, |c| * r.psa, |c| * r.psv⟩) (timeStepping k wn xi a) := by
    intro k wn a
    have hs := stepFrom_scale k c (0, 0) a
    simp only [mul_zero] at hs
    unfold timeStepping
    simp only [hs, List.map_map]
    have e1 : (Prod.fst ∘ fun p : K × K => (c * p.1, c * p.2)) = (fun x => c * x) ∘ Prod.fst := rfl
    have e2 : (Prod.snd ∘ fun p : K × K => (c * p.1, c * p.2)) = (fun x => c * x) ∘ Prod.snd := rfl
    have e3 : List.zipWith (fun (p : K × K) x => -(2 * wn * xi * p.2 + wn ^ 2 * p.1 + x) + x)
        ((stepFrom k (0, 0) a).map fun p => (c * p.1, c * p.2)) (a.map fun x => c * x) =
        (List.zipWith (fun (p : K × K) x => -(2 * wn * xi * p.2 + wn ^ 2 * p.1 + x) + x) (stepFrom k (0, 0) a) a).map
          fun x => c * x := by
      rw [List.zipWith_map, List.map_zipWith]
      congr 1
      funext p x
      ring
    rw [e1, e2, e3, ← List.map_map, ← List.map_map, maxAbs_map_mul, maxAbs_map_mul, maxAbs_map_mul]
    congr 1 <;> ring
  unfold responseSpectra at h ⊢
  by_cases hn : n = 0
  · rw [if_pos hn] at h; cases h
  rw [if_neg hn] at h ⊢
  rw [hsub]
  simp only [List.map_map] at h ⊢
  have e1 : (Prod.fst ∘ fun p : K × K => (p.1, c * p.2)) = Prod.fst := rfl
  have e2 : (Prod.snd ∘ fun p : K × K => (p.1, c * p.2)) = (fun x => c * x) ∘ Prod.snd := rfl
  have hdt : dtOf ((subsample n acc).map fun p => (p.1, c * p.2)) = dtOf (subsample n acc) := by
    match subsample n acc with
    | [] => rfl
    | [_] => rfl
    | _ :: _ :: _ => rfl
  rw [e1, e2, hdt]
  cases hsp : spacingOk ((subsample n acc).map Prod.fst) with
  | error e => rw [hsp] at h; cases h
  | ok u =>
    rw [hsp] at h
    simp only [bind, Except.bind] at h ⊢
    cases hd : dtOf (subsample n acc) with
    | error e => rw [hd] at h; cases h
    | ok dt =>
      rw [hd] at h
      simp only [pure, Except.pure, Except.ok.injEq] at h ⊢
      subst h
      rw [List.map_map]
      apply List.map_congr_left
      intro wn _
      rw [← List.map_map]
      exact hstep _ _ _

/-- The trajectory of an oscillator starting from rest, as a relation: `u`, `v` are
displacements and velocities at the samples of `a`. -/
structure Spec.Trajectory (k : Coefs K) (a : List K) (u v : List K) : Prop where
  lenU : u.length = a.length
  lenV : v.length = a.length
  u0 : ∀ x, u[0]? = some x → x = 0
  v0 : ∀ x, v[0]? = some x → x = 0
  step : ∀ (j : Nat) (uj vj aj un vn an : K), u[j]? = some uj → v[j]? = some vj → a[j]? = some aj →
    u[j + 1]? = some un → v[j + 1]? = some vn → a[j + 1]? = some an →
    un = k.A * uj + k.B * vj - k.C * aj - k.D * an ∧ vn = k.A' * uj + k.B' * vj - k.C' * aj - k.D' * an

theorem stepFrom_zero (k : Coefs K) (s : K × K) (a : K) (l : List K) : (stepFrom k s (a :: l))[0]? = some s := by
  cases l <;> rfl

theorem stepFrom_step (k : Coefs K) (s : K × K) (l : List K) (j : Nat) (p q : K × K) (a b : K)
    (h1 : (stepFrom k s l)[j]? = some p) (h2 : (stepFrom k s l)[j + 1]? = some q) (h3 : l[j]? = some a)
    (h4 : l[j + 1]? = some b) :
    q.1 = k.A * p.1 + k.B * p.2 - k.C * a - k.D * b ∧ q.2 = k.A' * p.1 + k.B' * p.2 - k.C' * a - k.D' * b := by
  induction l generalizing s j with
  | nil => simp at h3
  | cons x l ih =>
    cases l with
    | nil => simp at h4
    | cons y l =>
      rw [stepFrom] at h1 h2
      cases j with
      | zero =>
        simp only [List.getElem?_cons_zero, Option.some.injEq, List.getElem?_cons_succ, zero_add] at h1 h2 h3 h4
        rw [stepFrom_zero, Option.some.injEq] at h2
        subst h1 h2 h3 h4
        constructor <;> ring
      | succ j =>
        simp only [List.getElem?_cons_succ] at h1 h2 h3 h4
        exact ih _ j h1 h2 h3 h4

/-- The spectral ordinates of one oscillator are the peaks over its trajectory of
displacement, velocity and total acceleration, and the pseudo quantities are multiples of
the displacement ordinate. -/
theorem C26_peaks (k : Coefs K) (wn xi : K) (a : List K) (ha : a ≠ []) :
    ∃ u v, Trajectory k a u v ∧ IsPeak (timeStepping k wn xi a).sd u ∧ IsPeak (timeStepping k wn xi a).sv v ∧
      IsPeak (timeStepping k wn xi a).sa (List.zipWith (fun x y => 2 * wn * xi * y + wn ^ 2 * x) u v) ∧
      (timeStepping k wn xi a).psv = wn * (timeStepping k wn xi a).sd ∧
      (timeStepping k wn xi a).psa = wn * (timeStepping k wn xi a).psv := by
  have hl := stepFrom_length k (0, 0) a
  have hpos := List.length_pos_iff.2 ha
  have hne : stepFrom k (0, 0) a ≠ [] := by intro h; rw [h] at hl; simp at hl; omega
  refine ⟨(stepFrom k (0, 0) a).map Prod.fst, (stepFrom k (0, 0) a).map Prod.snd,
    ⟨by simp [hl], by simp [hl], ?_, ?_, ?_⟩, isPeak_maxAbs (by simpa using hne), isPeak_maxAbs (by simpa using hne), ?_,
    by simp [timeStepping, mul_comm], by simp only [timeStepping]; ring⟩
  · intro x hx
    match a, ha with
    | b :: a, _ => rw [List.getElem?_map, stepFrom_zero] at hx; simpa using hx.symm
  · intro x hx
    match a, ha with
    | b :: a, _ => rw [List.getElem?_map, stepFrom_zero] at hx; simpa using hx.symm
  · intro j uj vj aj un vn an h1 h2 h3 h4 h5 h6
    rw [List.getElem?_map, Option.map_eq_some_iff] at h1 h2 h4 h5
    obtain ⟨p, hp, rfl⟩ := h1
    obtain ⟨p', hp', rfl⟩ := h2
    obtain ⟨q, hq, rfl⟩ := h4
    obtain ⟨q', hq', rfl⟩ := h5
    rw [hp] at hp'; cases hp'
    rw [hq] at hq'; cases hq'
    exact stepFrom_step k _ a j p q aj an hp hq h3 h6
  · have e : List.zipWith (fun x y => 2 * wn * xi * y + wn ^ 2 * x) ((stepFrom k (0, 0) a).map Prod.fst)
        ((stepFrom k (0, 0) a).map Prod.snd) = (stepFrom k (0, 0) a).map fun p => 2 * wn * xi * p.2 + wn ^ 2 * p.1 := by
      rw [List.zipWith_map, List.zipWith_self]
    have e2 : ∀ (s : List (K × K)) (b : List K), s.length = b.length →
        List.zipWith (fun (p : K × K) x => -(2 * wn * xi * p.2 + wn ^ 2 * p.1 + x) + x) s b =
          s.map fun p => (-1) * (2 * wn * xi * p.2 + wn ^ 2 * p.1) := by
      intro s
      induction s with
      | nil => intro b _; simp
      | cons p s ih =>
        intro b hb
        cases b with
        | nil => simp at hb
        | cons x b =>
          rw [List.zipWith_cons_cons, ih b (by simpa using hb), List.map_cons]
          congr 1; ring
    have e3 : (timeStepping k wn xi a).sa = maxAbs ((stepFrom k (0, 0) a).map fun p => 2 * wn * xi * p.2 + wn ^ 2 * p.1) := by
      simp only [timeStepping]
      rw [e2 _ _ hl]
      have := maxAbs_map_mul (-1 : K) ((stepFrom k (0, 0) a).map fun p => 2 * wn * xi * p.2 + wn ^ 2 * p.1)
      rw [List.map_map] at this
      rw [abs_neg, abs_one, one_mul] at this
      exact this
    rw [e, e3]
    exact isPeak_maxAbs (by simpa using hne)

/-- One row per requested frequency, in order, each that of the oscillator alone. -/
theorem C26_rows (coef : K → K → Coefs K) (xi : K) (wns : List K) (n : Nat) (acc : Rec K)
    (rows : List (SpecRow K)) (h : responseSpectra coef xi wns n acc = .ok rows) :
    rows.length = wns.length ∧ ∃ dt, dtOf (subsample n acc) = .ok dt ∧
      ∀ (i : Nat) wn, wns[i]? = some wn → rows[i]? = some (timeStepping (coef wn dt) wn xi (vals (subsample n acc))) := by
  unfold responseSpectra at h
  split_ifs at h
  simp only [bind, Except.bind] at h
  split at h
  · cases h
  · split at h
    · cases h
    · rename_i dt hd
      simp only [pure, Except.pure, Except.ok.injEq] at h
      subst h
      refine ⟨by simp, dt, hd, ?_⟩
      intro i wn hi
      rw [List.getElem?_map, hi]; rfl

/-! ## C27 -/

/-- Time intervals exceeding the first one by the tolerance or more are rejected, and exactly
those.  Missing: intervals that are shorter than the first (`C27_violated`). -/
theorem C27_uneven_partial (t : List K) (h2 : 2 ≤ t.length) :
    (spacingOk t = .error .valueError ↔
      ∃ i t0 t1 a b, t[0]? = some t0 ∧ t[1]? = some t1 ∧ t[i]? = some a ∧ t[i + 1]? = some b ∧
        (b - a) - (t1 - t0) ≥ 1 / 10 ^ 7) ∧
    (spacingOk t = .ok () ∨ spacingOk t = .error .valueError) := by
  have hget : ∀ (l : List K) (i : Nat) (x : K), (diff l)[i]? = some x ↔ ∃ a b, l[i]? = some a ∧ l[i + 1]? = some b ∧ x = b - a := by
    intro l
    induction l with
    | nil => intro i x; simp [diff]
    | cons a l ih =>
      cases l with
      | nil => intro i x; simp [diff]
      | cons b l =>
        intro i x
        rw [diff]
        cases i with
        | zero => simp [eq_comm]
        | succ i => simp only [List.getElem?_cons_succ]; rw [ih i x]; simp
  unfold spacingOk
  match t, h2 with
  | t0 :: t1 :: t, _ =>
    rw [diff]
    simp only
    split_ifs with h
    · constructor
      · constructor
        · intro hh; cases hh
        · rintro ⟨i, u0, u1, a, b, h0, h1, ha, hb, hge⟩
          exfalso
          simp only [List.getElem?_cons_zero, Option.some.injEq, List.getElem?_cons_succ] at h0 h1
          subst h0 h1
          have hm : (diff (t0 :: t1 :: t))[i]? = some (b - a) := (hget _ i _).2 ⟨a, b, ha, hb, rfl⟩
          have := h _ (List.mem_of_getElem? (by rw [diff] at hm; exact hm))
          linarith
      · exact Or.inl rfl
    · constructor
      · refine ⟨fun _ => ?_, fun _ => rfl⟩
        push Not at h
        obtain ⟨x, hx, hge⟩ := h
        obtain ⟨i, hi⟩ := List.mem_iff_getElem?.1 hx
        obtain ⟨a, b, ha, hb, rfl⟩ := (hget (t0 :: t1 :: t) i x).1 (by rw [diff]; exact hi)
        exact ⟨i, t0, t1, a, b, rfl, rfl, ha, hb, hge⟩
      · exact Or.inr rfl

/-- C27 fails: intervals 1, 1/2 are accepted. -/
theorem C27_violated : spacingOk ([0, 1, 3 / 2] : List ℚ) = .ok () := by decide +kernel

/-- The check decides whether spectra are computed. -/
theorem C27_gate (coef : K → K → Coefs K) (xi : K) (wns : List K) (acc : Rec K) (n : Nat) (hn : n ≠ 0)
    (h : spacingOk (times (subsample n acc)) = .error .valueError) :
    responseSpectra coef xi wns n acc = .error .valueError := by
  unfold responseSpectra
  rw [if_neg hn]
  have : (subsample n acc).map Prod.fst = times (subsample n acc) := rfl
  simp only [this, h, bind, Except.bind]

/-! ## C66 -/

theorem argminFrom_spec (best : Nat × K) (i : Nat) (l : List K) :
    let r := argminFrom best i l
    (r = best ∧ ∀ x ∈ l, best.2 ≤ x) ∨
    (∃ k x, r = (i + k, x) ∧ l[k]? = some x ∧ x < best.2 ∧ (∀ y ∈ l, x ≤ y) ∧
      ∀ (j : Nat) y, j < k → l[j]? = some y → x < y) := by
  induction l generalizing best i with
  | nil => exact Or.inl ⟨rfl, by simp⟩
  | cons a l ih =>
    simp only [argminFrom]
    by_cases h : a < best.2
    · rw [if_pos h]
      rcases ih (i, a) (i + 1) with ⟨hr, hle⟩ | ⟨k, x, hr, hk, hx, hle, hlt⟩
      · right
        refine ⟨0, a, by rw [hr]; simp, rfl, h, ?_, by intro j y hj; omega⟩
        intro y hy
        rcases List.mem_cons.1 hy with rfl | hy
        · exact le_rfl
        · exact hle y hy
      · right
        refine ⟨k + 1, x, by rw [hr]; congr 1; omega, by simpa using hk, lt_trans hx h, ?_, ?_⟩
        · intro y hy
          rcases List.mem_cons.1 hy with rfl | hy
          · exact hx.le
          · exact hle y hy
        · intro j y hj hy
          cases j with
          | zero => simp at hy; subst hy; exact hx
          | succ j => exact hlt j y (by omega) (by simpa using hy)
    · rw [if_neg h]
      rcases ih best (i + 1) with ⟨hr, hle⟩ | ⟨k, x, hr, hk, hx, hle, hlt⟩
      · left
        refine ⟨hr, ?_⟩
        intro y hy
        rcases List.mem_cons.1 hy with rfl | hy
        · exact not_lt.1 h
        · exact hle y hy
      · right
        refine ⟨k + 1, x, by rw [hr]; congr 1; omega, by simpa using hk, hx, ?_, ?_⟩
        · intro y hy
          rcases List.mem_cons.1 hy with rfl | hy
          · exact hx.le.trans (not_lt.1 h)
          · exact hle y hy
        · intro j y hj hy
          cases j with
          | zero => simp at hy; subst hy; exact lt_of_lt_of_le hx (not_lt.1 h)
          | succ j => exact hlt j y (by omega) (by simpa using hy)

/-- `find_closest_index` returns the first nearest element, and nothing exactly for the empty
array. -/
theorem C66_closest (l : List K) (v : K) :
    (l = [] → findClosest l v = none) ∧
    (l ≠ [] → ∃ i x, findClosest l v = some (i, x) ∧ l[i]? = some x ∧ (∀ y ∈ l, |x - v| ≤ |y - v|) ∧
      ∀ (j : Nat) y, j < i → l[j]? = some y → |x - v| < |y - v|) := by
  constructor
  · rintro rfl; rfl
  · intro h
    match l, h with
    | a :: l, _ =>
      unfold findClosest
      simp only
      rcases argminFrom_spec (0, |a - v|) 1 (l.map fun y => |y - v|) with ⟨hr, hle⟩ | ⟨k, d, hr, hk, hx, hle, hlt⟩
      · rw [hr]
        refine ⟨0, a, rfl, rfl, ?_, by intro j y hj; omega⟩
        intro y hy
        rcases List.mem_cons.1 hy with rfl | hy
        · exact le_rfl
        · exact hle _ (List.mem_map_of_mem hy)
      · rw [hr]
        rw [List.getElem?_map, Option.map_eq_some_iff] at hk
        obtain ⟨x, hx', rfl⟩ := hk
        have hg : (a :: l)[1 + k]? = some x := by rw [add_comm]; simpa using hx'
        refine ⟨1 + k, x, by simp only [hg]; rfl, hg, ?_, ?_⟩
        · intro y hy
          rcases List.mem_cons.1 hy with rfl | hy
          · exact hx.le
          · exact hle _ (List.mem_map_of_mem hy)
        · intro j y hj hy
          cases j with
          | zero => simp at hy; subst hy; exact hx
          | succ j =>
            simp only [List.getElem?_cons_succ] at hy
            exact hlt j _ (by omega) (by rw [List.getElem?_map, hy]; rfl)

example : findClosest ([5, 1, 3, 3] : List ℚ) (7 / 2) = some (2, 3) := by decide +kernel

/-! ## C67 -/

/-- One-column data of at least two samples with a non-zero interval becomes two columns with
axis `d, 2d, …, nd` and the data unchanged. -/
theorem C67_axis (σ : CStore K) (col : List K) (d : K) (hd : d ≠ 0) (h2 : 2 ≤ col.length) :
    ∃ x, readTwo σ (.one col) (some d) = .ok (.own x, d) ∧ vals x = col ∧ x.length = col.length ∧
      ∀ i, i < col.length → (times x)[i]? = some (((i : K) + 1) * d) := by
  have hn := cast_sub_one_ne (K := K) h2
  have hg : ∀ i, i < col.length → (linspace d ((col.length : K) * d) col.length)[i]? = some (((i : K) + 1) * d) := by
    intro i hi
    rw [linspace_getElem? _ _ _ _ hi]
    congr 1
    field_simp
    ring
  have hl := linspace_length d ((col.length : K) * d) col.length
  refine ⟨(linspace d ((col.length : K) * d) col.length).zip col, ?_, zip_snd _ _ hl, by simp [hl], ?_⟩
  · unfold readTwo
    simp only
    have h0 := hg 0 (by omega)
    have h1 := hg 1 (by omega)
    generalize linspace d ((col.length : K) * d) col.length = c at h0 h1 hl
    match c, hl with
    | c0 :: c1 :: c, _ =>
      simp only [List.getElem?_cons_zero, Option.some.injEq, List.getElem?_cons_succ] at h0 h1
      simp only
      rw [if_neg hd, if_pos]
      rw [h0, h1]
      have : ((((1 : ℕ) : K) + 1) * d - (((0 : ℕ) : K) + 1) * d - d) = 0 := by push_cast; ring
      rw [this]
      simp
    | [], hl => simp at hl; omega
    | [_], hl => simp at hl; omega
  · intro i hi
    have : times ((linspace d ((col.length : K) * d) col.length).zip col) = linspace d ((col.length : K) * d) col.length :=
      zip_fst _ _ hl
    rw [this, hg i hi]

/-- Missing interval: ValueError; fewer than two samples: IndexError; zero interval: the
assertion fails. -/
theorem C67_rejects (σ : CStore K) (col : List K) (d : K) :
    readTwo σ (.one col) none = .error .valueError ∧
    (col.length < 2 → readTwo σ (.one col) (some d) = .error .indexError) ∧
    (2 ≤ col.length → readTwo σ (.one col) (some 0) = .error .assertionError) := by
  refine ⟨rfl, ?_, ?_⟩
  · intro h
    match col, h with
    | [], _ => rfl
    | [_], _ => rfl
  · intro h
    unfold readTwo
    simp only
    have hl := linspace_length (0 : K) ((col.length : K) * 0) col.length
    generalize linspace (0 : K) ((col.length : K) * 0) col.length = c at hl
    match c, hl with
    | c0 :: c1 :: c, _ => simp
    | [], hl => simp at hl; omega
    | [_], hl => simp at hl; omega

example : 2 ≤ ([3, 1, 4] : List ℚ).length := by decide

end Obj

end Verif
