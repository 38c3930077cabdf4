import Verif.Props.Containers
import Verif.Props.MotionTrunc
import Verif.Props.Fit
import Verif.Props.Typed
import Verif.Props.FloatDepth
import Verif.Props.FloatIndex
import Verif.Props.EquivLinear

/-!
Exact forms of properties that fail: for all inputs, when and how far they fail (C13, C24, C39, C68, C121, C142, C145, C154).
-/

set_option linter.unusedSectionVars false
set_option linter.unusedVariables false

namespace Verif

/-! ## C13 -/

section Slices
variable {P : Type} [DecidableEq P]

/-- C13, exactly when a slice of a container accepts the same curves as the container: when the element class is the one the
class of the container declares. -/
theorem C13_slice_class_exact (m m' : Multi P) (s : Slice) (hs : (m.step (.getSlice s)).2 = .sub m') (x : P) :
    (∀ c : CurveObj P, (m'.step (.append (.obj c))).2 = (m.step (.append (.obj c))).2) ↔ m.elemClass = m.cls.defaultElem := by
  have he : m'.elemClass = m.cls.defaultElem := by
    simp only [Multi.step] at hs
    cases hi : sliceIdx m.curves.length s with
    | error e => rw [hi] at hs; cases hs
    | ok idx =>
      rw [hi] at hs
      simp only at hs
      unfold Multi.mk' at hs
      cases hm : List.mapM (convArg m.cls.defaultElem fun _ _ => Except.error PyErr.other) ((getIdx m.curves idx).map .obj) with
      | error e => rw [hm] at hs; cases hs
      | ok cs =>
        rw [hm] at hs
        simp only [Except.map, MOut.sub.injEq] at hs
        rw [← hs]
  have key : ∀ (n : Multi P) (c : CurveObj P), (n.step (.append (.obj c))).2 =
      if c.cls.isInst n.elemClass then .unit else .err .typeError := by
    intro n c
    simp only [Multi.step, CurveArg.inst]
    by_cases h : c.cls.isInst n.elemClass = true
    · rw [if_pos h, if_pos h]
    · rw [if_neg h, if_neg h]
  simp only [key, he]
  constructor
  · intro h
    have h1 := h ⟨m.elemClass, x⟩
    have h2 := h ⟨m.cls.defaultElem, x⟩
    have h3 := h ⟨.curve, x⟩
    revert h1 h2 h3
    cases m.elemClass <;> cases m.cls <;> simp [MultiCls.defaultElem, CurveCls.isInst]
  · intro h c
    rw [h]

end Slices

example : (∀ c : CurveObj Nat, ((⟨.base, .curve, [⟨.damping, 1⟩], 1⟩ : Multi Nat).step (.append (.obj c))).2 =
    ((⟨.base, .damping, [⟨.damping, 1⟩], 1⟩ : Multi Nat).step (.append (.obj c))).2) ↔ False :=
  (C13_slice_class_exact ⟨.base, .damping, [⟨.damping, 1⟩], 1⟩ ⟨.base, .curve, [⟨.damping, 1⟩], 1⟩ ⟨none, none, none⟩
    (by decide) 0).trans (by decide)

/-! ## C24 -/

section Windows
variable {K : Type} [Field K] [LinearOrder K] [IsStrictOrderedRing K] [FloorRing K]

theorem pyInt_neg_steps (x dt : K) (j : ℕ) (hdt : 0 < dt) (h1 : -((j : K) + 1) * dt < x) (h2 : x ≤ -(j : K) * dt) (h0 : x < 0) :
    pyInt (x / dt) = -(j : ℤ) := by
  have hx : ¬ 0 ≤ x / dt := not_le.2 (div_neg_of_neg_of_pos h0 hdt)
  unfold pyInt
  rw [if_neg hx, Int.ceil_eq_iff]
  push_cast
  constructor
  · rw [lt_div_iff₀ hdt]; linarith
  · rwa [div_le_iff₀ hdt]

/-- C24, exactly what becomes of a window that ends before the start of the record, `j` whole steps before it: with `j = 0` and
for `j` beyond the last sample but one there is an error; otherwise the answer is the record without its last `j` samples,
although none of its samples lies in the window. -/
theorem C24_before_start_exact (σ : CStore K) (m : Motion K) (norm : Rec K) (lim ext : K × K) (j : ℕ) (hdt : 0 < m.dt)
    (hn : m.npts = (m.accel.read σ).length) (he1 : 0 ≤ ext.1) (he2 : 0 ≤ ext.2) (hl : lim.1 < lim.2) (h0 : lim.2 + ext.2 < 0)
    (h1 : -((j : K) + 1) * m.dt < lim.2 + ext.2) (h2 : lim.2 + ext.2 ≤ -(j : K) * m.dt) :
    (1 ≤ j → j + 2 ≤ m.npts → ∃ m' τ, truncateMotion σ m norm lim false ext = (.ok (m', 0, -(j : ℤ)), τ) ∧
      m'.accel.read τ = (m.accel.read σ).take (m.npts - j)) ∧
    ((j = 0 ∨ m.npts < j + 2) → ∃ e τ, truncateMotion σ m norm lim false ext = (.error e, τ)) := by
  have hidx : truncIdx (m.accel.read σ) norm m.dt m.npts lim false ext = .ok (0, -(j : ℤ)) := by
    unfold truncIdx
    rw [if_neg (not_or.2 ⟨not_lt.2 he1, not_lt.2 he2⟩), if_neg (not_le.2 hl), if_neg hdt.ne']
    simp only [Bool.false_eq_true, if_false, bind, Except.bind, pure, Except.pure, Except.ok.injEq, Prod.mk.injEq]
    rw [pyInt_neg_steps _ _ j hdt h1 h2 h0]
    refine ⟨?_, by rw [if_neg (by omega)]⟩
    have hneg : lim.1 - ext.1 < 0 := by linarith
    have : pyInt ((lim.1 - ext.1) / m.dt) ≤ 0 := by
      unfold pyInt
      rw [if_neg (not_le.2 (div_neg_of_neg_of_pos hneg hdt))]
      exact Int.ceil_le.2 (by push_cast; exact (div_neg_of_neg_of_pos hneg hdt).le)
    split_ifs <;> omega
  have harr : truncArr (m.accel.read σ) 0 (-(j : ℤ)) =
      .ok (if j = 0 then [] else (m.accel.read σ).take (m.npts - j)) := by
    have hb : sliceBound (m.accel.read σ).length (-(j : ℤ)) = if j = 0 then 0 else m.npts - j := by
      unfold sliceBound
      rcases Nat.eq_zero_or_pos j with rfl | hj
      · simp
      · rw [if_pos (by omega), if_neg (by omega)]; omega
    have hz : sliceBound (m.accel.read σ).length 0 = 0 := by unfold sliceBound; simp
    unfold truncArr pySlice
    rw [sub_zero, hb, hz, List.drop_zero]
    unfold colStack
    rw [if_neg (by simp)]
    have hz : ∀ l : Rec K, (l.map Prod.fst).zip (l.map Prod.snd) = l := fun l => (List.zip_of_prod rfl rfl).symm
    rw [hz]
    split_ifs <;> simp
  have hfresh : ∀ x : Rec K, x.length < 2 → ∃ e τ, mkFresh σ x = (.error e, τ) := by
    intro x hx
    unfold mkFresh mkMotion
    have ha : (σ ++ [x])[σ.length]? = some x := by simp
    have : ∃ e, readTwo (σ ++ [x]) (.two σ.length) none = .error e := by
      unfold readTwo
      simp only [ha]
      match x, hx with
      | [], _ => exact ⟨_, rfl⟩
      | [_], _ => exact ⟨_, rfl⟩
    obtain ⟨e, he⟩ := this
    rw [he]
    exact ⟨_, _, rfl⟩
  unfold truncateMotion
  rw [hidx]
  simp only [harr]
  constructor
  · intro hj hj2
    rw [if_neg (by omega)]
    obtain ⟨m2, hm2, hread, _⟩ := mkFresh_spec σ ((m.accel.read σ).take (m.npts - j)) (by simp; omega)
    rw [hm2]
    exact ⟨m2, _, rfl, hread⟩
  · intro hj
    obtain ⟨e, τ, h⟩ := hfresh (if j = 0 then [] else (m.accel.read σ).take (m.npts - j)) (by
      split_ifs with c
      · simp
      · simp; omega)
    rw [h]
    exact ⟨e, τ, rfl⟩

/-- C24, truncation by Arias intensity: the times at which the limits are reached, `t1` and `t2`, are taken for offsets from the
start of the record. -/
theorem C24_arias_as_time (acc norm : Rec K) (dt : K) (npts : ℕ) (lim ext : K × K) (t : K × K) (hl : lim.1 < lim.2)
    (ht : t.1 < t.2) (h : ariasBounds norm lim.1 lim.2 = .ok t) :
    truncIdx acc norm dt npts lim true ext = truncIdx acc norm dt npts t false ext := by
  unfold truncIdx
  rw [if_neg (not_le.2 hl), if_neg (not_le.2 ht)]
  simp only [if_true, Bool.false_eq_true, if_false, h]

/-- C24, exactly how far truncation by Arias intensity is off for a record that starts `s` steps after time 0: the indices are
`s` larger than those of the samples at the times where the limits are reached (both ranges being within the record). -/
theorem C24_arias_offset_exact (acc norm : Rec K) (dt t0 : K) (npts s : ℕ) (lim ext : K × K) (t : K × K) (hdt : 0 < dt)
    (hl : lim.1 < lim.2) (ht : t.1 < t.2) (h : ariasBounds norm lim.1 lim.2 = .ok t) (hs : t0 = s * dt)
    (he1 : 0 ≤ ext.1) (he2 : 0 ≤ ext.2) (hin : 0 ≤ t.1 - t0 - ext.1) (hend : t.2 + ext.2 ≤ npts * dt) :
    ∃ n1 n2 : ℤ, truncIdx acc norm dt npts (t.1 - t0, t.2 - t0) false ext = .ok (n1, n2) ∧
      truncIdx acc norm dt npts lim true ext = .ok (n1 + s, n2 + s) ∧
      ((n1 + s, n2 + s) = (n1, n2) ↔ t0 = 0) := by
  have hs0 : (0 : K) ≤ s * dt := by positivity
  have key : ∀ y : K, 0 ≤ y - t0 → pyInt ((y - t0) / dt) = ⌊(y - t0) / dt⌋ ∧ pyInt (y / dt) = ⌊(y - t0) / dt⌋ + s := by
    intro y hy
    have a : 0 ≤ (y - t0) / dt := div_nonneg hy hdt.le
    have b : 0 ≤ y / dt := div_nonneg (by linarith) hdt.le
    refine ⟨by unfold pyInt; rw [if_pos a], ?_⟩
    unfold pyInt
    rw [if_pos b]
    have : y / dt = (y - t0) / dt + (s : ℤ) := by
      rw [hs]; push_cast; field_simp; ring
    rw [this, Int.floor_add_intCast]
  have k1 := key (t.1 - ext.1) (by linarith)
  have k2 := key (t.2 + ext.2) (by linarith)
  rw [show t.1 - ext.1 - t0 = t.1 - t0 - ext.1 by ring] at k1
  rw [show t.2 + ext.2 - t0 = t.2 - t0 + ext.2 by ring] at k2
  have f1 : 0 ≤ ⌊(t.1 - t0 - ext.1) / dt⌋ := Int.floor_nonneg.2 (div_nonneg hin hdt.le)
  have f2 : ⌊(t.2 - t0 + ext.2) / dt⌋ + s ≤ (npts : ℤ) := by
    rw [← k2.2]
    unfold pyInt
    rw [if_pos (div_nonneg (by linarith) hdt.le)]
    have : ((⌊(t.2 + ext.2) / dt⌋ : ℤ) : K) ≤ npts := (Int.floor_le _).trans (by rwa [div_le_iff₀ hdt])
    exact_mod_cast this
  rw [C24_arias_as_time acc norm dt npts lim ext t hl ht h]
  refine ⟨⌊(t.1 - t0 - ext.1) / dt⌋, ⌊(t.2 - t0 + ext.2) / dt⌋, ?_, ?_, ?_⟩
  · unfold truncIdx
    rw [if_neg (not_or.2 ⟨not_lt.2 he1, not_lt.2 he2⟩), if_neg (by simpa using ht), if_neg hdt.ne']
    simp only [Bool.false_eq_true, if_false, bind, Except.bind, pure, Except.pure, k1.1, k2.1]
    rw [if_neg (by omega), if_neg (by omega)]
  · unfold truncIdx
    rw [if_neg (not_or.2 ⟨not_lt.2 he1, not_lt.2 he2⟩), if_neg (not_le.2 ht), if_neg hdt.ne']
    simp only [Bool.false_eq_true, if_false, bind, Except.bind, pure, Except.pure, k1.2, k2.2]
    rw [if_neg (by omega), if_neg (by omega)]
  · rw [hs, mul_eq_zero, or_iff_left hdt.ne', Nat.cast_eq_zero, Prod.mk.injEq]
    constructor
    · rintro ⟨h, _⟩; omega
    · rintro rfl; simp

end Windows

/-- The window from -9 to -3 of a record of six samples, one per second. -/
example : ∃ m' τ, truncateMotion mem6 motion6 [] (-9, -3) false (0, 0) = (.ok (m', 0, -3), τ) ∧
    m'.accel.read τ = [(0, 10), (1, 11), (2, 12)] := by
  obtain ⟨m', τ, h1, h2⟩ := (C24_before_start_exact mem6 motion6 [] (-9, -3) (0, 0) 3 (by decide +kernel) (by decide +kernel)
    (by decide +kernel) (by decide +kernel) (by decide +kernel) (by decide +kernel) (by norm_num [motion6]) (by norm_num [motion6])).1
    (by decide) (by decide +kernel)
  exact ⟨m', τ, h1, h2.trans (by decide +kernel)⟩

/-- A record starting at time 2: the indices are two too large. -/
example : truncIdx ([(2, 0), (3, 1), (4, 1), (5, 0), (6, 0), (7, 0)] : Rec ℚ) [(2, 0), (3, 0), (4, 1 / 2), (5, 1), (6, 1), (7, 1)] 1 6
    (1 / 10, 9 / 10) true (0, 0) = .ok (2 + 2, 3 + 2) := by
  obtain ⟨n1, n2, h1, h2, _⟩ := C24_arias_offset_exact ([(2, 0), (3, 1), (4, 1), (5, 0), (6, 0), (7, 0)] : Rec ℚ)
    [(2, 0), (3, 0), (4, 1 / 2), (5, 1), (6, 1), (7, 1)] 1 2 6 2 (1 / 10, 9 / 10) (0, 0) (4, 5) (by norm_num) (by norm_num) (by norm_num)
    (by decide +kernel) (by norm_num) (by norm_num) (by norm_num) (by norm_num) (by norm_num)
  have h3 : truncIdx ([(2, 0), (3, 1), (4, 1), (5, 0), (6, 0), (7, 0)] : Rec ℚ) [(2, 0), (3, 0), (4, 1 / 2), (5, 1), (6, 1), (7, 1)] 1 6
    (4 - 2, 5 - 2) false (0, 0) = .ok (2, 3) := by decide +kernel
  rw [h3] at h1
  simp only [Except.ok.injEq, Prod.mk.injEq] at h1
  rw [h2, ← h1.1, ← h1.2]; rfl

/-! ## C39 -/

section Damping
variable {K : Type} [Field K] [LinearOrder K] [IsStrictOrderedRing K] [FloorRing K]

/-- C39, exactly when the reported profile has the damping of the input: when the dampings of the last pass are those of the
input. -/
theorem C39_profile_exact {R : Type} {resp : RespFn K R} {prof : List (Row K)} {cols : List (List K)} {tol : K}
    {maxIter : Int} {verbose : Bool} {s : EqState K R} {r : R} (hne : prof ≠ []) (hresp : Spec.OneStrainPerLayer resp)
    (h : eqIterate resp prof cols tol maxIter verbose = .ok (s, r)) :
    s.prof.map Row.xi = prof.map Row.xi ↔ (s.hist.getLast?.getD []).map Prod.snd = prof.dropLast.map Row.xi := by
  obtain ⟨h1, h2, h3, _⟩ := C39_profile_partial hne hresp h
  have hl : s.prof.length = prof.length := by simpa using congrArg List.length h1
  have hsne : s.prof ≠ [] := by intro e; rw [e] at hl; exact hne (List.length_eq_zero_iff.1 hl.symm)
  rw [← h3]
  have hd : ∀ l : List (Row K), l ≠ [] → ∃ x, l.getLast? = some x ∧ l = l.dropLast ++ [x] := fun l hl =>
    ⟨l.getLast hl, List.getLast?_eq_getLast_of_ne_nil hl, (List.dropLast_append_getLast hl).symm⟩
  obtain ⟨x, x1, x2⟩ := hd _ hsne
  obtain ⟨y, y1, y2⟩ := hd _ hne
  have hxy : x = y := by rw [h2, y1] at x1; exact (Option.some.inj x1).symm
  constructor
  · intro e
    rw [List.map_dropLast, List.map_dropLast, e]
  · intro e
    rw [x2, y2, List.map_append, List.map_append, e, hxy]

end Damping

/-! ## C68, C121 -/

section Fits
variable {K : Type} [Field K] [LinearOrder K] [IsStrictOrderedRing K] {R : Type}

/-- C68, exactly what a second serial fit of the same array gives: ValueError if some damping is below the first one (it has
become negative), otherwise the result of the first fit. -/
theorem C68_twice_exact (fit : List (K × K) → Except PyErr R) (σ : CStore K) (a : ℕ) (e x0 : K) (rest : List (K × K))
    (ha : σ[a]? = some ((e, x0) :: rest)) (hn : ∀ p ∈ (e, x0) :: rest, 0 ≤ p.1 ∧ 0 ≤ p.2) :
    (fitAll fit (fitAll fit σ [a] none).2 [a] none).1 =
      if ∃ p ∈ rest, p.2 < x0 then .error .valueError else (fitAll fit σ [a] none).1 := by
  have hal : a < σ.length := (List.getElem?_eq_some_iff.1 ha).1
  have hone : ∀ (τ : CStore K) (d : List (K × K)), τ[a]? = some d → d ≠ [] → hasNeg d = false →
      fitAll fit τ [a] none = ((fit (Spec.lowered d)).map fun r => [r], τ.set a (Spec.lowered d)) := by
    intro τ d hd hne hneg
    have hc : ([a].any fun a => hasNeg (τ[a]?.getD [])) = false := by simp [hd, hneg]
    have : fitOne fit τ a = (fit (Spec.lowered d), τ.set a (Spec.lowered d)) := by
      unfold fitOne
      rw [hd]
      simp only
      rw [hneg, if_neg hne, shiftCurve_lowered]
      rfl
    unfold fitAll
    rw [hc]
    simp only [Bool.false_eq_true, if_false]
    rw [fitSerial, this]
    cases fit (Spec.lowered d) with
    | error e => rfl
    | ok r => rfl
  have h1 := hone σ _ ha (by simp) ((hasNeg_iff _).2 hn)
  set d := (e, x0) :: rest with hdd
  have hτ : (σ.set a (Spec.lowered d))[a]? = some (Spec.lowered d) := by rw [List.getElem?_set_self hal]
  rw [h1]
  simp only
  by_cases hx : ∃ p ∈ rest, p.2 < x0
  · rw [if_pos hx]
    obtain ⟨p, hp, hpx⟩ := hx
    rw [C68_negative fit _ [a] none a _ (by simp) hτ (p.1, p.2 - x0) ?_ (Or.inr (by simpa using hpx))]
    exact List.mem_map.2 ⟨p, by simp [hdd, hp], by simp [hdd]⟩
  · rw [if_neg hx]
    have hp : Spec.ProperCurve d := ⟨by simp [hdd], hn, by
      intro y hy p hp
      simp only [hdd, List.head?_cons, Option.mem_def, Option.some.injEq] at hy
      subst hy
      rcases List.mem_cons.1 hp with rfl | hp
      · exact le_rfl
      · exact not_lt.1 fun hc => hx ⟨p, hp, hc⟩⟩
    have hp2 := properCurve_lowered d hp
    rw [hone _ _ hτ hp2.nonempty ((hasNeg_iff _).2 hp2.nonneg), lowered_lowered]

/-- An interpolated curve: the array the object was made from is not changed by the constructor. -/
theorem mkDamping_raw (σ σ' : CStore K) (a : ℕ) (du su : Unit1) (ip : List (K × K) → List (K × K)) (o : DampObj K)
    (h : mkDamping σ a du su (some ip) = (.ok o, σ')) : o.raw = a ∧ σ' = σ := by
  unfold mkDamping at h
  cases hm : mkCurve σ a (.damping du) su (some ip) true with
  | mk r τ =>
    rw [hm] at h
    cases r with
    | error e => cases h
    | ok w =>
      cases h
      refine ⟨rfl, ?_⟩
      have hr : ∀ (τ : CStore K) (w0 w : Where K) (hi : K) τ', rangeCheck τ w0 hi true = (.ok w, τ') → w = w0 ∧ τ' = τ := by
        intro τ w0 w hi τ' h0; unfold rangeCheck at h0; split_ifs at h0 <;> cases h0; exact ⟨rfl, rfl⟩
      unfold mkCurve at hm
      cases hb : mkBase σ a su (some ip) true with
      | mk e τ =>
        rw [hb] at hm
        cases e with
        | error e => cases hm
        | ok w0 =>
          have hw : (∃ l, w0 = .own l) ∧ τ = σ := by
            unfold mkBase at hb
            cases hd : σ[a]? with
            | none => rw [hd] at hb; cases hb
            | some d =>
              rw [hd] at hb
              simp only at hb
              split_ifs at hb with hc
              · cases hb
              · cases su with
                | bad => cases hb
                | pct => cases hb; exact ⟨⟨_, rfl⟩, rfl⟩
                | one => cases hb; exact ⟨⟨_, rfl⟩, rfl⟩
          obtain ⟨⟨l, rfl⟩, rfl⟩ := hw
          simp only at hm
          cases du with
          | bad => cases hm
          | pct => exact (hr _ _ _ _ _ hm).2
          | one => exact (hr _ _ _ _ _ hm).2

/-- C121, interpolated curves: the fit works on the array as given by the caller, in the units given and without interpolation;
exactly when that array and the curve shown by the object are the same up to their small-strain damping, every fit gives
what it would give for the curve shown. -/
theorem C121_interpolated_exact (σ σ' : CStore K) (a : ℕ) (du su : Unit1) (ip : List (K × K) → List (K × K))
    (o : DampObj K) (d : List (K × K)) (h : mkDamping σ a du su (some ip) = (.ok o, σ')) (hd : σ[a]? = some d) (hne : d ≠ []) :
    (∀ (R : Type) (fit : List (K × K) → Except PyErr R), (o.fit fit σ').1 = fit (Spec.lowered d)) ∧
    ((∀ (R : Type) (fit : List (K × K) → Except PyErr R), (o.fit fit σ').1 = fit (Spec.lowered (o.cols.read σ'))) ↔
      Spec.lowered d = Spec.lowered (o.cols.read σ')) := by
  obtain ⟨hraw, hσ⟩ := mkDamping_raw σ σ' a du su ip o h
  have hneg : hasNeg d = false := by
    unfold mkDamping mkCurve mkBase at h
    simp only [hd] at h
    by_contra hc
    rw [Bool.not_eq_false] at hc
    unfold hasNeg at hc
    rw [List.any_eq_true] at hc
    obtain ⟨p, hp, hp2⟩ := hc
    rw [if_pos ⟨trivial, p, hp, by simpa using hp2⟩] at h
    cases h
  have key : ∀ (R : Type) (fit : List (K × K) → Except PyErr R), (o.fit fit σ').1 = fit (Spec.lowered d) := by
    intro R fit
    unfold DampObj.fit fitOne
    rw [hraw, hσ, hd]
    simp only
    rw [hneg, if_neg hne, shiftCurve_lowered]
    rfl
  refine ⟨key, ?_⟩
  constructor
  · intro h2
    have := h2 _ (fun l => Except.ok l)
    rw [key] at this
    exact Except.ok.inj this
  · intro h2 R fit
    rw [key, h2]

end Fits

example : (fitAll (fun d => (.ok d : Except PyErr (List (ℚ × ℚ)))) (fitAll (fun d => (.ok d : Except PyErr (List (ℚ × ℚ))))
    [[(1, 2), (2, 5)]] [0] none).2 [0] none).1 = .ok [[(1, 0), (2, 3)]] := by
  rw [C68_twice_exact _ [[(1, 2), (2, 5)]] 0 1 2 [(2, 5)] rfl (by decide +kernel), if_neg (by decide +kernel)]
  decide +kernel

/-! ## C154 -/

section Whole
variable {K : Type} [Field K] [LinearOrder K] [IsStrictOrderedRing K] [FloorRing K]

theorem castTo_true_iff (x : K) : castTo true x = x ↔ ∃ z : ℤ, x = z := by
  unfold castTo pyInt
  rw [if_pos rfl]
  constructor
  · intro h; exact ⟨_, h.symm⟩
  · rintro ⟨z, rfl⟩
    split_ifs <;> simp

theorem stressLoopT_iff (g : K) (l : List (K × K)) : ∀ (s hp rp : K),
    stressLoopT true g s hp rp l = stressLoopT false g s hp rp l ↔ ∀ x ∈ stressLoopT false g s hp rp l, ∃ z : ℤ, x = z := by
  induction l with
  | nil => intro s hp rp; simp [stressLoopT]
  | cons q l ih =>
    obtain ⟨h, r⟩ := q
    intro s hp rp
    rw [stressLoopT, stressLoopT]
    simp only [List.cons.injEq, List.mem_cons, forall_eq_or_imp]
    have e : castTo false (s + rp * g * hp / 2 + r * g * h / 2) = s + rp * g * hp / 2 + r * g * h / 2 := by simp [castTo]
    rw [e]
    constructor
    · rintro ⟨h1, h2⟩
      rw [h1] at h2
      exact ⟨(castTo_true_iff _).1 h1, (ih _ _ _).1 h2⟩
    · rintro ⟨h1, h2⟩
      rw [(castTo_true_iff _).2 h1]
      exact ⟨rfl, (ih _ _ _).2 h2⟩

/-- C154, exactly when the vertical stress is the same for thicknesses given as integers and as real numbers: when the exact
stress in the middle of every layer is a whole number of Pascals. -/
theorem C154_stress_exact (h rho : List K) (hne : h ≠ []) (hlen : rho.length = h.length) (hlast : h.getLast? ≠ some 0) :
    vertStressT true h rho = vertStressT false h rho ↔ ∀ i, i < h.length → ∃ z : ℤ, 9.81 * Spec.massAbove h rho i = (z : K) := by
  obtain ⟨s, h1, h2, h3⟩ := C45_overburden h rho hne hlen hlast
  rw [show (9.81 : K) = 981 / 100 by norm_num]
  have hall : (∀ i, i < h.length → ∃ z : ℤ, 981 / 100 * Spec.massAbove h rho i = (z : K)) ↔ ∀ x ∈ s, ∃ z : ℤ, x = z := by
    constructor
    · intro hi x hx
      obtain ⟨i, hi2, rfl⟩ := List.getElem_of_mem hx
      have := h3 i (by omega)
      rw [List.getElem?_eq_getElem hi2, Option.some.injEq] at this
      rw [this]; exact hi i (by omega)
    · intro hs i hi
      exact hs _ (List.mem_of_getElem? (h3 i hi))
  rw [hall]
  have hF : vertStressT false h rho = .ok (s, h) := by rw [vertStressT_float]; exact h1
  rw [hF]
  have hfix : fixLast h = h := by rw [fixLast, if_neg hlast]
  unfold vertStressT at hF ⊢
  rw [if_neg hne, if_neg (by omega), hfix] at hF ⊢
  cases h with
  | nil => exact absurd rfl hne
  | cons h0 hs =>
    cases rho with
    | nil => simp at hlen
    | cons r0 rs =>
      simp only [Except.ok.injEq, Prod.mk.injEq, and_true] at hF ⊢
      rw [← hF]
      have e : castTo false (r0 * (981 / 100) * h0 / 2) = r0 * (981 / 100) * h0 / 2 := by simp [castTo]
      simp only [List.cons.injEq, List.mem_cons, forall_eq_or_imp, e]
      constructor
      · rintro ⟨a, b⟩
        rw [a] at b
        exact ⟨(castTo_true_iff _).1 a, (stressLoopT_iff _ _ _ _ _).1 b⟩
      · rintro ⟨a, b⟩
        rw [(castTo_true_iff _).2 a]
        exact ⟨rfl, (stressLoopT_iff _ _ _ _ _).2 b⟩

end Whole

example : vertStressT true [(2 : ℚ), 4] [1000, 2000] = vertStressT false [2, 4] [1000, 2000] :=
  (C154_stress_exact [(2 : ℚ), 4] [1000, 2000] (by simp) rfl (by decide +kernel)).2 (by
    intro i hi
    match i, hi with
    | 0, _ => exact ⟨9810, by decide +kernel⟩
    | 1, _ => exact ⟨58860, by decide +kernel⟩)

/-! ## C142, C145 -/

section Doubles
variable {K : Type} [Field K] [LinearOrder K] [IsStrictOrderedRing K] [FloorRing K]

open Spec (IsDouble)

/-- Adding less than half a unit in the last place changes nothing. -/
theorem fl_absorb {z h : K} (hz : IsDouble z) (h0 : 0 ≤ h) (hh : h ≤ z / 2 ^ 54) : fl (z + h) = z := by
  have hz0 : 0 ≤ z := by
    by_contra hc
    have : z / 2 ^ 54 < 0 := div_neg_of_neg_of_pos (not_le.1 hc) (by positivity)
    linarith
  rcases eq_or_lt_of_le hz0 with rfl | hzp
  · have : h = 0 := le_antisymm (by simpa using hh) h0
    rw [this, add_zero, fl_zero]
  -- every multiple of the unit at `z` other than `z` is at least half a unit away from `z + h`
  have hl := log2_le (x := z) hzp.ne'
  have hu := lt_log2 z
  rw [abs_of_pos hzp] at hl hu
  have hulp : (2 : K) ^ (Int.log 2 z - 52) ≤ ulp z := by
    unfold ulp ulpExp
    rw [abs_of_pos hzp]
    exact two_zpow_le (by omega)
  have hsmall : h < ulp z / 2 := by
    have a : z / 2 ^ 54 < (2 : K) ^ (Int.log 2 z + 1) / 2 ^ 54 := div_lt_div_of_pos_right hu (by positivity)
    have b : (2 : K) ^ (Int.log 2 z + 1) / 2 ^ 54 = (2 : K) ^ (Int.log 2 z - 52) / 2 := by
      rw [show Int.log 2 z + 1 = (Int.log 2 z - 52) + 53 by ring, zpow_add₀ (by norm_num : (2 : K) ≠ 0)]
      norm_num
      ring
    rw [b] at a
    linarith
  obtain ⟨n, hn⟩ := double_mult (x := z) hz (by
    intro hc; rw [abs_of_pos hzp] at hc; exact absurd hl (not_le.2 hc))
  have hw : z ≤ fl (z + h) := le_fl_of (by linarith) hz
  have hwd := fl_double (z + h)
  obtain ⟨k, hk⟩ := double_mult (x := z) (z := fl (z + h)) hwd (by
    intro hc; rw [abs_of_nonneg (hz0.trans hw), abs_of_pos hzp] at hc; exact absurd (hl.trans hw) (not_le.2 hc))
  have hnear := fl_near (x := z + h) hz
  rw [show z + h - z = h by ring, abs_of_nonneg h0] at hnear
  have hle : fl (z + h) ≤ z + 2 * h := by
    have := (abs_le.1 hnear).1
    linarith
  by_contra hne
  have hlt : z < fl (z + h) := lt_of_le_of_ne hw (Ne.symm hne)
  have hlt2 : (n : K) * ulp z < k * ulp z := by rw [← hn, ← hk]; exact hlt
  rw [hk] at hle
  have hnk : n + 1 ≤ k := by
    have := lt_of_mul_lt_mul_right hlt2 (ulp_pos z).le
    exact_mod_cast this
  have : ((n : K) + 1) * ulp z ≤ k * ulp z := mul_le_mul_of_nonneg_right (by exact_mod_cast hnk) (ulp_pos z).le
  rw [add_mul, one_mul, ← hn] at this
  linarith

/-- C142, violated in general: a layer thinner than its depth divided by 2^54 has thickness 0 after the way to depths and back,
whatever its thickness was. -/
theorem C142_thin_layer_general (thk : List K) (ht : ∀ t ∈ thk, IsDouble t ∧ 0 ≤ t) (i : ℕ) (h z : K)
    (hi : i + 1 < thk.length) (hh : thk[i]? = some h) (hz : (fzTop 0 thk)[i]? = some z) (hthin : h ≤ z / 2 ^ 54) :
    ∃ dep thk', fthk2dep thk = .ok dep ∧ dep[i]? = some z ∧ dep[i + 1]? = some z ∧ fdep2thk dep true = .ok thk' ∧
      thk'[i]? = some 0 := by
  have hne : thk ≠ [] := by rintro rfl; simp at hi
  obtain ⟨dep, h1, h2, h3, h4, h5⟩ := C142_sorted thk hne (fun t h => (ht t h).2)
  have hdep : dep = fzTop 0 thk := by unfold fthk2dep at h1; rw [if_neg hne] at h1; exact (Except.ok.inj h1).symm
  obtain ⟨b, hb⟩ : ∃ b, (fzTop 0 thk)[i + 1]? = some b :=
    ⟨_, List.getElem?_eq_getElem (by rw [fzTop_length]; exact hi)⟩
  have hbz : b = z := by
    rw [fzTop_step 0 thk i z b h hz hb hh]
    have hmem : h ∈ thk := List.mem_of_getElem? hh
    exact fl_absorb (fzTop_double 0 double_zero thk z (List.mem_of_getElem? hz)) (ht h hmem).2 hthin
  subst hbz
  cases hd : fzTop 0 thk with
  | nil => rw [hd] at hz; simp at hz
  | cons d ds =>
    have hd0 : d = 0 := by rw [hdep, hd] at h3; simpa using h3
    refine ⟨fzTop 0 thk, fdepLoop (fzTop 0 thk), by rw [← hdep]; exact h1, hz, hb, ?_, ?_⟩
    · rw [hd]; unfold fdep2thk; simp [hd0]
    · rw [fdepLoop_get _ i b b hz hb]
      simp [fsub, fl_zero]

/-- C142: a thickness comes back unchanged when the sum of the depth and the thickness needs no rounding. -/
theorem C142_representable (thk : List K) (hne : thk ≠ []) (ht : ∀ t ∈ thk, IsDouble t ∧ 0 ≤ t) (i : ℕ) (h z : K)
    (hi : i + 1 < thk.length) (hh : thk[i]? = some h) (hz : (fzTop 0 thk)[i]? = some z) (hrep : IsDouble (z + h)) :
    ∃ dep thk', fthk2dep thk = .ok dep ∧ dep[i]? = some z ∧ fdep2thk dep true = .ok thk' ∧ thk'[i]? = some h := by
  obtain ⟨dep, h1, h2, h3, h4, h5⟩ := C142_sorted thk hne (fun t h => (ht t h).2)
  have hdep : dep = fzTop 0 thk := by unfold fthk2dep at h1; rw [if_neg hne] at h1; exact (Except.ok.inj h1).symm
  obtain ⟨b, hb⟩ : ∃ b, (fzTop 0 thk)[i + 1]? = some b :=
    ⟨_, List.getElem?_eq_getElem (by rw [fzTop_length]; exact hi)⟩
  have hbz : b = z + h := by
    rw [fzTop_step 0 thk i z b h hz hb hh]
    exact fl_of_double hrep
  subst hbz
  cases hd : fzTop 0 thk with
  | nil => rw [hd] at hz; simp at hz
  | cons d ds =>
    have hd0 : d = 0 := by rw [hdep, hd] at h3; simpa using h3
    refine ⟨fzTop 0 thk, fdepLoop (fzTop 0 thk), by rw [← hdep]; exact h1, hz, ?_, ?_⟩
    · rw [hd]; unfold fdep2thk; simp [hd0]
    · rw [fdepLoop_get _ i z (z + h) hz hb]
      unfold fsub
      rw [add_sub_cancel_left, fl_of_double (ht h (List.mem_of_getElem? hh)).1]

/-- C145, exactly when a maximum frequency of `k` resolutions (as decimal numbers) gives `k` frequencies: when the maximum as a
double is not below `k` times the resolution as a double; otherwise one frequency is missing. -/
theorem C145_decimal_exact (d : K) (k : ℕ) (hd : (2 : K) ^ (-1022 : ℤ) ≤ d) (h0 : 0 < k) (hk : k ≤ 2 ^ 50) :
    ∃ N f, fTfGrid (fl d) (fl (k * d)) = .ok (N, f) ∧ (N = (k : ℤ) ↔ (k : K) * fl d ≤ fl (k * d)) ∧
      (N = (k : ℤ) - 1 ↔ fl (k * d) < (k : K) * fl d) := by
  have hD : fl d ≠ 0 := by
    intro hc
    have := (quot_near (k := 1) hd (by norm_num)).1
    rw [hc, div_zero] at this
    norm_num at this
  have hD0 : 0 < fl d := lt_of_le_of_ne (fl_nonneg ((zpow_pos (by norm_num) _).le.trans hd)) (Ne.symm hD)
  obtain ⟨p1, p2⟩ := quot_near hd hk
  have hf := floor_near p1 p2
  have hiff : ⌊fl ((k : K) * d) / fl d⌋ = (k : ℤ) ↔ (k : K) * fl d ≤ fl (k * d) := by
    rw [← le_div_iff₀ hD0]
    constructor
    · intro h
      have := Int.floor_le (fl ((k : K) * d) / fl d)
      rw [h] at this
      exact_mod_cast this
    · intro h
      have : (k : ℤ) ≤ ⌊fl ((k : K) * d) / fl d⌋ := Int.le_floor.2 (by exact_mod_cast h)
      omega
  refine ⟨⌊fl ((k : K) * d) / fl d⌋, _, by unfold fTfGrid; rw [if_neg hD, if_neg (by omega)], hiff, ?_⟩
  rw [← not_le, ← hiff]
  omega

end Doubles

/-- A layer of 10^-13 m below 4096 m. -/
example : ∃ dep thk' : List ℚ, fthk2dep [4096, fl (1 / 10 ^ 13), 0] = .ok dep ∧ dep[1]? = some 4096 ∧ dep[2]? = some 4096 ∧
    fdep2thk dep true = .ok thk' ∧ thk'[1]? = some 0 :=
  C142_thin_layer_general [4096, fl (1 / 10 ^ 13), 0] (by
    intro t ht
    simp only [List.mem_cons, List.not_mem_nil, or_false] at ht
    rcases ht with rfl | rfl | rfl
    · exact ⟨double_nat (n := 4096) (by norm_num), by norm_num⟩
    · exact ⟨fl_double _, fl_nonneg (by norm_num)⟩
    · exact ⟨double_zero, le_rfl⟩) 1 (fl (1 / 10 ^ 13)) 4096 (by decide) rfl (by decide +kernel) (by decide +kernel)

end Verif
