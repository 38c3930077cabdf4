import Verif.Props.MotionObj

/-!
Property C24: truncation of motions.
-/

set_option linter.unusedSectionVars false
set_option linter.unusedVariables false

namespace Verif

open Spec

section Trunc
variable {K : Type} [Field K] [LinearOrder K] [IsStrictOrderedRing K] [FloorRing K]

theorem pySlice_nat {α : Type} (l : List α) (a b : Nat) (hb : b ≤ l.length) :
    pySlice l (a : Int) (b : Int) = (l.take b).drop a := by
  unfold pySlice sliceBound
  rw [if_neg (by omega), if_neg (by omega)]
  simp only [Int.toNat_natCast]
  rw [min_eq_left hb]
  by_cases h : a ≤ l.length
  · rw [min_eq_left h]
  · rw [min_eq_right (by omega), List.drop_eq_nil_of_le (by simp), List.drop_eq_nil_of_le (by simp; omega)]

theorem clampLow (x : K) : (if pyInt x < 0 then 0 else pyInt x) = max 0 ⌊x⌋ := by
  unfold pyInt
  by_cases h : 0 ≤ x
  · rw [if_pos h]
    have := Int.floor_nonneg.2 h
    rw [if_neg (by omega)]; omega
  · rw [if_neg h]
    have h1 : ⌊x⌋ < 0 := by
      rw [Int.floor_lt]; push_cast; exact not_le.1 h
    have h2 : ⌈x⌉ ≤ 0 := by
      rw [Int.ceil_le]; push_cast; exact (not_le.1 h).le
    split_ifs <;> omega

/-- The window of samples selected by time limits: sample `k` ends at `(k+1) dt`. -/
def Spec.inWindow (dt t1 t2 : K) (k : Nat) : Prop := t1 < ((k : K) + 1) * dt ∧ ((k : K) + 1) * dt ≤ t2

theorem window_iff (dt t1 t2 : K) (hdt : 0 < dt) (ht2 : 0 ≤ t2) (npts k : Nat) (hk : k < npts) :
    (max 0 ⌊t1 / dt⌋ ≤ (k : Int) ∧ (k : Int) < min (npts : Int) ⌊t2 / dt⌋) ↔ inWindow dt t1 t2 k := by
  unfold inWindow
  have h1 : max 0 ⌊t1 / dt⌋ ≤ (k : Int) ↔ t1 < ((k : K) + 1) * dt := by
    rw [max_le_iff, ← div_lt_iff₀ hdt]
    constructor
    · rintro ⟨_, h⟩
      have : ⌊t1 / dt⌋ < (k : Int) + 1 := by omega
      rw [Int.floor_lt] at this
      push_cast at this; exact this
    · intro h
      refine ⟨by omega, ?_⟩
      have : ⌊t1 / dt⌋ < (k : Int) + 1 := by rw [Int.floor_lt]; push_cast; exact h
      omega
  have h2 : (k : Int) < min (npts : Int) ⌊t2 / dt⌋ ↔ ((k : K) + 1) * dt ≤ t2 := by
    rw [lt_min_iff, ← le_div_iff₀ hdt]
    constructor
    · rintro ⟨_, h⟩
      have : (k : Int) + 1 ≤ ⌊t2 / dt⌋ := by omega
      rw [Int.le_floor] at this
      push_cast at this; exact this
    · intro h
      refine ⟨by omega, ?_⟩
      have : (k : Int) + 1 ≤ ⌊t2 / dt⌋ := by rw [Int.le_floor]; push_cast; exact h
      omega
  rw [h1, h2]

/-- Truncation in time.  The new motion's samples are those of the original whose interval
ends inside the window extended by `ext`, clipped to the record; it starts again at the
original's first time.  The returned pair is the index range.  The original is unchanged.
Missing: windows ending before time 0 (`C24_before_start_violated`), and truncation by Arias
intensity for records not starting at 0 (`C24_arias_offset_violated`). -/
theorem C24_truncate_partial (σ τ : CStore K) (m m' : Motion K) (norm : Rec K) (lim ext : K × K) (r1 r2 : Int)
    (hdt : 0 < m.dt) (hn : m.npts = (m.accel.read σ).length) (ht2 : 0 ≤ lim.2 + ext.2)
    (h : truncateMotion σ m norm lim false ext = (.ok (m', r1, r2), τ)) :
    ∃ n1 n2 : Nat, r1 = n1 ∧ r2 = n2 ∧ n1 + 2 ≤ n2 ∧ n2 ≤ (m.accel.read σ).length ∧
      (∀ k, k < (m.accel.read σ).length → ((n1 ≤ k ∧ k < n2) ↔ inWindow m.dt (lim.1 - ext.1) (lim.2 + ext.2) k)) ∧
      (m'.accel.read τ).length = n2 - n1 ∧
      (∀ j, j < n2 - n1 → (vals (m'.accel.read τ))[j]? = (vals (m.accel.read σ))[n1 + j]? ∧
        (times (m'.accel.read τ))[j]? = (times (m.accel.read σ))[j]?) ∧
      ∀ b, b < σ.length → τ[b]? = σ[b]? := by
  have hclamp2 : (if (m.npts : Int) < pyInt ((lim.2 + ext.2) / m.dt) then (m.npts : Int) else pyInt ((lim.2 + ext.2) / m.dt)) =
      min (m.npts : Int) ⌊(lim.2 + ext.2) / m.dt⌋ := by
    unfold pyInt
    rw [if_pos (div_nonneg ht2 hdt.le)]
    split_ifs <;> omega
  have h2pos : 0 ≤ min (m.npts : Int) ⌊(lim.2 + ext.2) / m.dt⌋ := by
    have := Int.floor_nonneg.2 (div_nonneg ht2 hdt.le)
    omega
  unfold truncateMotion at h
  cases hi : truncIdx (m.accel.read σ) norm m.dt m.npts lim false ext with
  | error e => rw [hi] at h; cases h
  | ok r =>
    obtain ⟨a1, a2⟩ := r
    rw [hi] at h
    have hidx : a1 = max 0 ⌊(lim.1 - ext.1) / m.dt⌋ ∧ a2 = min (m.npts : Int) ⌊(lim.2 + ext.2) / m.dt⌋ := by
      unfold truncIdx at hi
      simp only [Bool.false_eq_true, if_false] at hi
      by_cases c1 : ext.1 < 0 ∨ ext.2 < 0
      · rw [if_pos c1] at hi; cases hi
      rw [if_neg c1] at hi
      by_cases c2 : lim.2 ≤ lim.1
      · rw [if_pos c2] at hi; cases hi
      rw [if_neg c2, if_neg hdt.ne'] at hi
      simp only [bind, Except.bind, pure, Except.pure, Except.ok.injEq, Prod.mk.injEq,
        clampLow, hclamp2] at hi
      exact ⟨hi.1.symm, hi.2.symm⟩
    obtain ⟨e1, e2⟩ := hidx
    simp only at h
    have hw := fun k hk => window_iff m.dt (lim.1 - ext.1) (lim.2 + ext.2) hdt ht2 m.npts k hk
    rw [← e1, ← e2] at hw
    have ha1 : 0 ≤ a1 := by rw [e1]; exact le_max_left _ _
    have ha2 : 0 ≤ a2 := by rw [e2]; exact h2pos
    have ha2n : a2 ≤ m.npts := by rw [e2]; exact min_le_left _ _
    clear e1 e2 hclamp2 h2pos
    obtain ⟨n1, rfl⟩ := Int.eq_ofNat_of_zero_le ha1
    obtain ⟨n2, rfl⟩ := Int.eq_ofNat_of_zero_le ha2
    have hn2 : n2 ≤ (m.accel.read σ).length := by rw [← hn]; omega
    cases hx : truncArr (m.accel.read σ) n1 n2 with
    | error e => rw [hx] at h; cases h
    | ok x =>
      rw [hx] at h
      simp only at h
      cases hf : mkFresh σ x with
      | mk res ρ =>
        rw [hf] at h
        cases res with
        | error e => cases h
        | ok mm =>
          simp only [Prod.mk.injEq, Except.ok.injEq] at h
          obtain ⟨⟨rfl, rfl, rfl⟩, rfl⟩ := h
          have hx2 : 2 ≤ x.length := by
            by_contra hlt
            unfold mkFresh mkMotion at hf
            have : readTwo (σ ++ [x]) (.two σ.length) none = .error .indexError ∨
                ∃ e, readTwo (σ ++ [x]) (.two σ.length) none = .error e := by
              right
              unfold readTwo
              have ha : (σ ++ [x])[σ.length]? = some x := by simp
              simp only [ha]
              match x, hlt with
              | [], _ => exact ⟨_, rfl⟩
              | [_], _ => exact ⟨_, rfl⟩
              | _ :: _ :: _, hlt => exact absurd (by simp) hlt
            rcases this with h | ⟨e, h⟩ <;> rw [h] at hf <;> cases hf
          obtain ⟨m2, hm2, hread, hnp, _, _⟩ := mkFresh_spec σ x hx2
          rw [hf] at hm2
          simp only [Prod.mk.injEq, Except.ok.injEq] at hm2
          obtain ⟨rfl, rfl⟩ := hm2
          have hle : n1 ≤ n2 ∨ n2 < n1 := le_or_gt _ _
          have hvals : pySlice (m.accel.read σ) (n1 : Int) (n2 : Int) = ((m.accel.read σ).take n2).drop n1 := pySlice_nat _ _ _ hn2
          rcases hle with hle | hlt
          · have hsub : (n2 : Int) - n1 = ((n2 - n1 : Nat) : Int) := by omega
            have htim : pySlice (m.accel.read σ) 0 ((n2 : Int) - n1) = (m.accel.read σ).take (n2 - n1) := by
              rw [hsub]
              have := pySlice_nat (m.accel.read σ) 0 (n2 - n1) (by omega)
              simpa using this
            unfold truncArr at hx
            rw [hvals, htim] at hx
            unfold colStack at hx
            split_ifs at hx with hlen
            cases hx
            have hl1 : ((m.accel.read σ).take (n2 - n1)).length = n2 - n1 := by simp; omega
            have hl2 : (((m.accel.read σ).take n2).drop n1).length = n2 - n1 := by simp; omega
            have hxl : ((((m.accel.read σ).take (n2 - n1)).map Prod.fst).zip ((((m.accel.read σ).take n2).drop n1).map Prod.snd)).length = n2 - n1 := by
              rw [List.length_zip, List.length_map, List.length_map, hl1, hl2, min_self]
            refine ⟨n1, n2, rfl, rfl, by omega, hn2, ?_, by rw [hread, hxl], ?_, ?_⟩
            · intro k hk
              rw [← hw k (by omega)]
              constructor <;> rintro ⟨_, _⟩ <;> constructor <;> omega
            · intro j hj
              rw [hread]
              constructor
              · have : vals ((((m.accel.read σ).take (n2 - n1)).map Prod.fst).zip ((((m.accel.read σ).take n2).drop n1).map Prod.snd)) =
                    (((m.accel.read σ).take n2).drop n1).map Prod.snd := zip_snd _ _ (by simp [hl1, hl2]; omega)
                rw [this, List.getElem?_map, List.getElem?_drop, List.getElem?_take_of_lt (by omega)]
                simp [vals]
              · have : times ((((m.accel.read σ).take (n2 - n1)).map Prod.fst).zip ((((m.accel.read σ).take n2).drop n1).map Prod.snd)) =
                    ((m.accel.read σ).take (n2 - n1)).map Prod.fst := zip_fst _ _ (by simp [hl1, hl2]; omega)
                rw [this, List.getElem?_map, List.getElem?_take_of_lt (by omega)]
                simp [times]
            · intro b hb
              rw [List.getElem?_append_left hb]
          · exfalso
            unfold truncArr colStack at hx
            rw [hvals] at hx
            split_ifs at hx with hlen
            cases hx
            rw [List.length_zip] at hx2
            have : ((((m.accel.read σ).take n2).drop n1).map Prod.snd).length = 0 := by simp; omega
            omega

/-- Bad extensions or limits are rejected, and a window without at least two samples is
answered with an error. -/
theorem C24_rejects (σ : CStore K) (m : Motion K) (norm : Rec K) (lim ext : K × K) (arias : Bool)
    (h : ext.1 < 0 ∨ ext.2 < 0 ∨ lim.2 ≤ lim.1) :
    truncateMotion σ m norm lim arias ext = (.error .valueError, σ) := by
  unfold truncateMotion truncIdx
  by_cases h1 : ext.1 < 0 ∨ ext.2 < 0
  · rw [if_pos h1]
  · rw [if_neg h1, if_pos (by tauto)]

/-- A window lying after the end of the record is answered with an error. -/
theorem C24_after_end (σ : CStore K) (m : Motion K) (norm : Rec K) (lim ext : K × K)
    (hdt : 0 < m.dt) (hn : m.npts = (m.accel.read σ).length) (h0 : 0 ≤ lim.2 + ext.2)
    (h : (m.npts : K) * m.dt ≤ lim.1 - ext.1) :
    ∃ e, (truncateMotion σ m norm lim false ext).1 = .error e := by
  cases hr : truncateMotion σ m norm lim false ext with
  | mk res τ =>
    cases res with
    | error e => exact ⟨e, rfl⟩
    | ok r =>
      exfalso
      obtain ⟨m', r1, r2⟩ := r
      obtain ⟨n1, n2, _, _, h3, h4, h5, _⟩ := C24_truncate_partial σ τ m m' norm lim ext r1 r2 hdt hn h0 hr
      have := (h5 n1 (by omega)).1 ⟨le_rfl, by omega⟩
      have h6 := this.1
      have : ((n1 : K) + 1) * m.dt ≤ (m.npts : K) * m.dt := by
        apply mul_le_mul_of_nonneg_right _ hdt.le
        rw [hn]
        exact_mod_cast (by omega : n1 + 1 ≤ (m.accel.read σ).length)
      linarith

/-- A motion of six samples. -/
def motion6 : Motion ℚ := ⟨.view 0, .own [], .own [], 1, 6, 15, 0, 0⟩
def mem6 : CStore ℚ := [[(0, 10), (1, 11), (2, 12), (3, 13), (4, 14), (5, 15)]]

def view6 (r : Except PyErr (Motion ℚ × Int × Int) × CStore ℚ) : Except PyErr (Rec ℚ) :=
  match r with
  | (.error e, _) => .error e
  | (.ok (m, _), τ) => .ok (m.accel.read τ)

/-- A window inside of the record. -/
example : view6 (truncateMotion mem6 motion6 [] (2, 4) false (0, 0)) = .ok [(0, 12), (1, 13)] := by decide +kernel

/-- C24 fails: the window from -9 to -3, before the start of the record, is answered with the
first three samples. -/
theorem C24_before_start_violated :
    view6 (truncateMotion mem6 motion6 [] (-9, -3) false (0, 0)) = .ok [(0, 10), (1, 11), (2, 12)] := by decide +kernel

/-- C24 fails for truncation by Arias intensity of a record starting at time 10.  The strong
part, the third to fifth sample at times 12 to 14, lies inside of the record, but its
absolute times are used as offsets and the result is an error. -/
theorem C24_arias_offset_violated :
    ∃ (σ : CStore ℚ) (m : Motion ℚ) (norm : Rec ℚ), m.accel.read σ = [(10, 0), (11, 0), (12, 1), (13, 1), (14, 0), (15, 0)] ∧
      norm = [(10, 0), (11, 0), (12, 0), (13, 1 / 2), (14, 1), (15, 1)] ∧
      ariasBounds norm (1 / 10) (9 / 10) = .ok (13, 14) ∧
      view6 (truncateMotion σ m norm (1 / 10, 9 / 10) true (1, 0)) = .error .indexError :=
  ⟨[[(10, 0), (11, 0), (12, 1), (13, 1), (14, 0), (15, 0)]], ⟨.view 0, .own [], .own [], 1, 6, 1, 0, 0⟩, _,
    by decide +kernel, rfl, by decide +kernel, by decide +kernel⟩

end Trunc

end Verif
