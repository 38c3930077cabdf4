import Verif.Model.MotionFigs
import Verif.Props.MotionTrunc
import Verif.Props.Figures

/-!
Property C171: the figure of `Ground_Motion.truncate`.
-/

set_option linter.unusedSectionVars false
set_option linter.unusedVariables false

namespace Verif

open Spec (times vals)

/-- The value of a history just before sample `a`; histories start from zero. -/
def Spec.valBefore {K : Type} [_root_.Field K] (l : List K) : Nat → K
  | 0 => 0
  | k + 1 => (l[k]?).getD 0

open Spec (valBefore)

section
variable {K : Type} [Field K] [LinearOrder K] [IsStrictOrderedRing K] [FloorRing K]

theorem cumsumFrom_getK (s : K) (l : List K) (k : Nat) (h : k < l.length) :
    (cumsumFrom s l)[k]? = some (s + (l.take (k + 1)).sum) := by
  induction l generalizing s k with
  | nil => simp at h
  | cons a l ih =>
    cases k with
    | zero => simp [cumsumFrom]
    | succ k =>
      simp only [cumsumFrom, List.getElem?_cons_succ]
      rw [ih _ _ (by simpa using h)]
      simp [add_assoc]

theorem cumsum_getK (l : List K) (k : Nat) (h : k < l.length) : (cumsum l)[k]? = some (l.take (k + 1)).sum := by
  unfold cumsum
  rw [cumsumFrom_getK _ _ _ h, zero_add]

theorem integral_len (l : List K) (d : K) : ((cumsum l).map (· * d)).length = l.length := by
  simp [cumsum, cumsumFrom_length]

theorem integral_before (l : List K) (d : K) (a : Nat) (h : a ≤ l.length) :
    valBefore ((cumsum l).map (· * d)) a = (l.take a).sum * d := by
  cases a with
  | zero => simp [valBefore]
  | succ a => simp only [valBefore]; rw [List.getElem?_map, cumsum_getK _ _ (by omega)]; rfl

/-- A part of a history. -/
def part (l : List K) (a b : Nat) : List K := (l.take b).drop a

theorem part_len (l : List K) (a b : Nat) (h : b ≤ l.length) : (part l a b).length = b - a := by
  unfold part; simp; omega

theorem part_get (l : List K) (a b j : Nat) (hj : j < b - a) : (part l a b)[j]? = l[a + j]? := by
  unfold part
  rw [List.getElem?_drop, List.getElem?_take_of_lt (by omega)]

theorem part_take_sum (l : List K) (a b j : Nat) (hj : j < b - a) (hb : b ≤ l.length) :
    ((part l a b).take (j + 1)).sum = (l.take (a + j + 1)).sum - (l.take a).sum := by
  have h1 : (part l a b).take (j + 1) = (l.drop a).take (j + 1) := by
    unfold part
    rw [List.drop_take, List.take_take, min_eq_left (by omega)]
  have h2 : l.take (a + j + 1) = l.take a ++ (l.drop a).take (j + 1) := by
    rw [show a + j + 1 = a + (j + 1) by omega]
    exact List.take_add
  rw [h1, h2, List.sum_append]
  ring

theorem part_integral (l : List K) (d : K) (a b : Nat) (hab : a ≤ b) (hb : b ≤ l.length) :
    (cumsum (part l a b)).map (· * d) = (part ((cumsum l).map (· * d)) a b).map (· - (l.take a).sum * d) := by
  apply List.ext_getElem?
  intro j
  by_cases hj : j < b - a
  · rw [List.getElem?_map, cumsum_getK _ _ (by rw [part_len _ _ _ hb]; exact hj), List.getElem?_map, part_get _ _ _ _ hj,
      List.getElem?_map, cumsum_getK _ _ (by omega), part_take_sum _ _ _ _ hj hb]
    simp only [Option.map_some]
    congr 1; ring
  · rw [List.getElem?_eq_none (by rw [integral_len, part_len _ _ _ hb]; omega),
      List.getElem?_eq_none (by rw [List.length_map, part_len _ _ _ (by rw [integral_len]; exact hb)]; omega)]

theorem take_sub_sum (l : List K) (c : K) (k : Nat) (h : k ≤ l.length) :
    ((l.map (· - c)).take k).sum = (l.take k).sum - (k : K) * c := by
  induction l generalizing k with
  | nil => have : k = 0 := by simpa using h
           subst this; simp
  | cons a l ih =>
    cases k with
    | zero => simp
    | succ k =>
      simp only [List.map_cons, List.take_succ_cons, List.sum_cons]
      rw [ih k (by simpa using h)]
      push_cast; ring

/-- The second integral of a part. -/
theorem part_integral2 (l : List K) (d : K) (a b j : Nat) (hb : b ≤ l.length) (hj : j < b - a) (c u : K)
    (hu : ((cumsum l).map (· * d))[a + j]? = some u) :
    ((cumsum ((part l a b).map (· - c))).map (· * d))[j]? = some (u - (l.take a).sum * d - ((j : K) + 1) * d * c) := by
  rw [List.getElem?_map, cumsum_getK _ _ (by omega)] at hu
  rw [List.getElem?_map, cumsum_getK _ _ (by rw [List.length_map, part_len _ _ _ hb]; exact hj),
    take_sub_sum _ _ _ (by rw [part_len _ _ _ hb]; omega), part_take_sum _ _ _ _ hj hb]
  simp only [Option.map_some, Option.some.injEq] at hu ⊢
  rw [← hu]
  push_cast; ring

theorem truncIdx_bounds (acc norm : Rec K) (dt : K) (n : Nat) (lim : K × K) (ar : Bool) (ext : K × K) (n1 n2 : Int)
    (h : truncIdx acc norm dt n lim ar ext = .ok (n1, n2)) : 0 ≤ n1 ∧ n2 ≤ n := by
  unfold truncIdx at h
  split_ifs at h with h1 h2 h3 h4
  · cases hb : ariasBounds norm lim.1 lim.2 with
    | error e => simp only [hb, bind, Except.bind] at h; cases h
    | ok b =>
      simp only [hb, bind, Except.bind, pure, Except.pure, Except.ok.injEq, Prod.mk.injEq] at h
      rw [← h.1, ← h.2]
      constructor <;> split_ifs <;> omega
  · simp only [bind, Except.bind, pure, Except.pure, Except.ok.injEq, Prod.mk.injEq] at h
    rw [← h.1, ← h.2]
    constructor <;> split_ifs <;> omega

theorem mkFresh_two (σ τ : CStore K) (x : Rec K) (m : Motion K) (h : mkFresh σ x = (.ok m, τ)) : 2 ≤ x.length := by
  by_contra hlt
  unfold mkFresh mkMotion at h
  have : ∃ e, readTwo (σ ++ [x]) (.two σ.length) none = .error e := by
    unfold readTwo
    have ha : (σ ++ [x])[σ.length]? = some x := by simp
    simp only [ha]
    match x, hlt with
    | [], _ => exact ⟨_, rfl⟩
    | [_], _ => exact ⟨_, rfl⟩
    | _ :: _ :: _, hlt => exact absurd (by simp) hlt
  obtain ⟨e, he⟩ := this
  rw [he] at h
  cases h

theorem pySlice_len {α β : Type} (l : List α) (k : List β) (a b : Int) (h : l.length = k.length) :
    (pySlice l a b).length = (pySlice k a b).length := by
  unfold pySlice
  simp [h]

theorem motionTime_get (m : Motion K) (k : Nat) (hk : k < m.npts) (h2 : 2 ≤ m.npts) : (motionTime m)[k]? = some ((k : K) * m.dt) := by
  unfold motionTime
  rw [linspace_getElem? _ _ _ _ hk]
  congr 1
  have := cast_sub_one_ne (K := K) h2
  field_simp
  ring

/-- C171: asking for the figure changes nothing else.  For a motion that was given as accelerations, `truncate` with the figure returns the
motion and indices that it returns without, leaves the same memory, and fails exactly when it fails without. -/
theorem C171_same_result (σ : CStore K) (m : Motion K) (norm : Rec K) (lim ext : K × K) (arias : Bool)
    (hI : numInt (m.accel.read σ) = .ok (m.veloc.read σ, m.displ.read σ)) (hn : m.npts = (m.accel.read σ).length) :
    (∀ r f τ, truncateShow σ m norm lim arias ext = (.ok (r, f), τ) → truncateMotion σ m norm lim arias ext = (.ok r, τ)) ∧
    (∀ r τ, truncateMotion σ m norm lim arias ext = (.ok r, τ) → ∃ f, truncateShow σ m norm lim arias ext = (.ok (r, f), τ)) := by
  unfold truncateShow truncateMotion
  cases hi : truncIdx (m.accel.read σ) norm m.dt m.npts lim arias ext with
  | error e => simp
  | ok n =>
  obtain ⟨n1, n2⟩ := n
  simp only
  cases hx : truncArr (m.accel.read σ) n1 n2 with
  | error e => simp
  | ok x =>
  simp only
  constructor
  · intro r f τ h
    cases hf : truncFig σ m n1 n2 x with
    | error e => rw [hf] at h; cases h
    | ok g =>
      rw [hf] at h
      simp only at h
      cases hm : mkFresh σ x with
      | mk res ρ =>
        rw [hm] at h
        cases res with
        | error e => cases h
        | ok m' => simp only at h ⊢; cases h; rfl
  · intro r τ h
    cases hm : mkFresh σ x with
    | mk res ρ =>
      rw [hm] at h
      cases res with
      | error e => cases h
      | ok m' =>
        simp only at h
        cases h
        have h2 := mkFresh_two _ _ _ _ hm
        obtain ⟨d, hd⟩ : ∃ d, dtOf x = .ok d := by
          match x, h2 with
          | p :: q :: x, _ => exact ⟨_, rfl⟩
        obtain ⟨d0, hd0⟩ : ∃ d, dtOf (m.accel.read σ) = .ok d := by
          cases h' : dtOf (m.accel.read σ) with
          | ok d => exact ⟨d, rfl⟩
          | error e => unfold numInt at hI; rw [h'] at hI; cases hI
        rw [numInt_ok d0 _ hd0, Except.ok.injEq, Prod.mk.injEq] at hI
        have hlen : x.length = (pySlice (motionTime m) n1 n2).length := by
          unfold truncArr colStack at hx
          split_ifs at hx with hc
          rw [not_not] at hc
          cases hx
          rw [List.length_zip, hc, min_self, List.length_map]
          exact pySlice_len _ _ _ _ (by unfold motionTime; rw [linspace_length, hn])
        have htl : (motionTime m).length = (m.accel.read σ).length := by unfold motionTime; rw [linspace_length, hn]
        have hf : ∃ f, truncFig σ m n1 n2 x = .ok f := by
          unfold truncFig labLine
          simp only
          rw [numInt_ok d x hd, ← hI.1, ← hI.2, if_pos (by simp [htl]), if_pos (by simp [hlen]),
            if_pos (by simp [htl, times, vals, cumsum, cumsumFrom_length]),
            if_pos (by simp [htl, times, vals, cumsum, cumsumFrom_length])]
          simp only [bind, Except.bind]
          rw [if_pos (by simp [← hlen, times, vals, cumsum, cumsumFrom_length]),
            if_pos (by simp [← hlen, times, vals, cumsum, cumsumFrom_length])]
          exact ⟨_, rfl⟩
        obtain ⟨f, hf⟩ := hf
        rw [hf]
        exact ⟨f, rfl⟩

/-- **C171**, what the figure of `truncate` shows, for a motion that was given as accelerations.  Each panel has the history of the
original motion and that of the new one, the latter at the place that the kept samples have on the time axis.  There the two
accelerations coincide; the two velocities differ by the original velocity just before the cut, and the displacements by the original
displacement just before the cut and the distance covered at that velocity.  Missing: windows that end before time 0 (`n2 < 0`, see
`C24_before_start_violated`), motions given as velocities or displacements, and the times of records that do not start at 0
(`C171_times_violated`). -/
theorem C171_figure_partial (σ τ : CStore K) (m m' : Motion K) (norm : Rec K) (lim ext : K × K) (arias : Bool) (n1 n2 : Int)
    (f : List (LabPanel K)) (hI : numInt (m.accel.read σ) = .ok (m.veloc.read σ, m.displ.read σ))
    (hd : dtOf (m.accel.read σ) = .ok m.dt) (hn : m.npts = (m.accel.read σ).length) (h0 : 0 ≤ n2)
    (h : truncateShow σ m norm lim arias ext = (.ok ((m', n1, n2), f), τ)) :
    ∃ (a b : Nat) (t tt A A' V V' U U' : List K), n1 = a ∧ n2 = b ∧ a + 2 ≤ b ∧ b ≤ m.npts ∧
      f = [⟨"Accel. [m/s/s]", [⟨some "original", t, A⟩, ⟨some "truncated", tt, A'⟩]⟩,
        ⟨"Veloc. [m/s]", [⟨none, t, V⟩, ⟨none, tt, V'⟩]⟩, ⟨"Displ. [m]", [⟨none, t, U⟩, ⟨none, tt, U'⟩]⟩] ∧
      A = vals (m.accel.read σ) ∧ V = vals (m.veloc.read σ) ∧ U = vals (m.displ.read σ) ∧
      A' = vals (m'.accel.read τ) ∧ V' = vals (m'.veloc.read τ) ∧ U' = vals (m'.displ.read τ) ∧
      t.length = m.npts ∧ (∀ k : Nat, k < m.npts → t[k]? = some ((k : K) * m.dt)) ∧ tt.length = b - a ∧ A'.length = b - a ∧
      ∀ j : Nat, j < b - a → tt[j]? = t[a + j]? ∧ A'[j]? = A[a + j]? ∧
        (∀ v, V[a + j]? = some v → V'[j]? = some (v - valBefore V a)) ∧
        ∀ u, U[a + j]? = some u → U'[j]? = some (u - valBefore U a - ((j : K) + 1) * m.dt * valBefore V a) := by
  unfold truncateShow at h
  cases hi : truncIdx (m.accel.read σ) norm m.dt m.npts lim arias ext with
  | error e => rw [hi] at h; cases h
  | ok n =>
  obtain ⟨k1, k2⟩ := n
  rw [hi] at h
  simp only at h
  cases hx : truncArr (m.accel.read σ) k1 k2 with
  | error e => rw [hx] at h; cases h
  | ok x =>
  rw [hx] at h
  simp only at h
  cases hf : truncFig σ m k1 k2 x with
  | error e => rw [hf] at h; cases h
  | ok g =>
  rw [hf] at h
  simp only at h
  cases hm : mkFresh σ x with
  | mk res ρ =>
  rw [hm] at h
  cases res with
  | error e => cases h
  | ok mm =>
  simp only [Prod.mk.injEq, Except.ok.injEq] at h
  obtain ⟨⟨⟨rfl, rfl, rfl⟩, rfl⟩, rfl⟩ := h
  obtain ⟨b1, b2⟩ := truncIdx_bounds _ _ _ _ _ _ _ _ _ hi
  obtain ⟨a, rfl⟩ := Int.eq_ofNat_of_zero_le b1
  obtain ⟨b, rfl⟩ := Int.eq_ofNat_of_zero_le h0
  have hb : b ≤ m.npts := by omega
  have hb' : b ≤ (m.accel.read σ).length := by omega
  have h2 := mkFresh_two _ _ _ _ hm
  have hvals : pySlice (m.accel.read σ) (a : Int) (b : Int) = ((m.accel.read σ).take b).drop a := pySlice_nat _ _ _ hb'
  have hab : a + 2 ≤ b := by
    unfold truncArr colStack at hx
    split_ifs at hx with hc
    rw [not_not] at hc
    cases hx
    rw [List.length_zip, hc, min_self, List.length_map, hvals] at h2
    simp at h2
    omega
  have hsub : (b : Int) - a = ((b - a : Nat) : Int) := by omega
  have htim : pySlice (m.accel.read σ) 0 ((b : Int) - a) = (m.accel.read σ).take (b - a) := by
    rw [hsub]
    have := pySlice_nat (m.accel.read σ) 0 (b - a) (by omega)
    simpa using this
  have hxe : x = (((m.accel.read σ).take (b - a)).map Prod.fst).zip (part (vals (m.accel.read σ)) a b) := by
    unfold truncArr colStack at hx
    rw [hvals, htim] at hx
    split_ifs at hx with hc
    cases hx
    unfold part vals
    rw [List.map_drop, List.map_take, List.map_take]
  have lv : (vals (m.accel.read σ)).length = (m.accel.read σ).length := by simp [vals]
  have lp : (part (vals (m.accel.read σ)) a b).length = b - a := part_len _ _ _ (by omega)
  have hxv : vals x = part (vals (m.accel.read σ)) a b := by
    rw [hxe]
    exact zip_snd _ _ (by simp [lp]; omega)
  have hxl : x.length = b - a := by rw [hxe, List.length_zip, lp]; simp; omega
  have hdx : dtOf x = .ok m.dt := by
    obtain ⟨w, hw⟩ : ∃ w, (m.accel.read σ).take (b - a) = w := ⟨_, rfl⟩
    have hwl : w.length = b - a := by rw [← hw]; simp; omega
    match hm1 : m.accel.read σ, (part (vals (m.accel.read σ)) a b), lp, hxe with
    | [], _, _, _ => rw [hm1] at hd; cases hd
    | [_], _, _, _ => rw [hm1] at hd; cases hd
    | p :: q :: rest, [], l, e => simp at l; omega
    | p :: q :: rest, [_], l, e => simp at l; omega
    | p :: q :: rest, s1 :: s2 :: _, l, e =>
      rw [hm1] at hd
      obtain ⟨c, hc⟩ : ∃ c, b - a = c + 2 := ⟨b - a - 2, by omega⟩
      rw [e, hc]
      exact hd
  obtain ⟨m2, hm2, hread, _⟩ := mkFresh_spec σ x h2
  rw [hm] at hm2
  simp only [Prod.mk.injEq, Except.ok.injEq] at hm2
  obtain ⟨rfl, rfl⟩ := hm2
  have hvu := mkMotion_accel (σ ++ [x]) (σ ++ [x]) σ.length x (by simp) .m none _ hm
  rw [hread, numInt_ok _ _ hdx, Except.ok.injEq, Prod.mk.injEq] at hvu
  have hfig := hf
  unfold truncFig at hfig
  rw [numInt_ok _ _ hdx, hvu.1, hvu.2] at hfig
  rw [numInt_ok _ _ hd, Except.ok.injEq, Prod.mk.injEq] at hI
  have hV : vals (m.veloc.read σ) = (cumsum (vals (m.accel.read σ))).map (· * m.dt) := by
    rw [← hI.1]; exact zip_snd _ _ (by simp [times, vals, cumsum, cumsumFrom_length])
  have hU : vals (m.displ.read σ) = (cumsum (vals (m.veloc.read σ))).map (· * m.dt) := by
    rw [hV, ← hI.2]; exact zip_snd _ _ (by simp [times, vals, cumsum, cumsumFrom_length])
  have hV' : vals (mm.veloc.read (σ ++ [x])) = (cumsum (vals x)).map (· * m.dt) := by
    rw [← hvu.1]; exact zip_snd _ _ (by simp [times, vals, cumsum, cumsumFrom_length])
  have hU' : vals (mm.displ.read (σ ++ [x])) = (cumsum (vals (mm.veloc.read (σ ++ [x])))).map (· * m.dt) := by
    rw [hV', ← hvu.2]; exact zip_snd _ _ (by simp [times, vals, cumsum, cumsumFrom_length])
  have htl : (motionTime m).length = m.npts := by unfold motionTime; rw [linspace_length]
  have hpt : pySlice (motionTime m) (a : Int) (b : Int) = part (motionTime m) a b := pySlice_nat _ _ _ (by omega)
  have lpt : (part (motionTime m) a b).length = b - a := part_len _ _ _ (by omega)
  have lV : (vals (m.veloc.read σ)).length = m.npts := by rw [hV, integral_len, lv, hn]
  have lU : (vals (m.displ.read σ)).length = m.npts := by rw [hU, integral_len, lV]
  have lV' : (vals (mm.veloc.read (σ ++ [x]))).length = b - a := by rw [hV', integral_len, hxv, lp]
  have lU' : (vals (mm.displ.read (σ ++ [x]))).length = b - a := by rw [hU', integral_len, lV']
  refine ⟨a, b, motionTime m, part (motionTime m) a b, vals (m.accel.read σ), vals (mm.accel.read (σ ++ [x])),
    vals (m.veloc.read σ), vals (mm.veloc.read (σ ++ [x])), vals (m.displ.read σ), vals (mm.displ.read (σ ++ [x])), rfl, rfl, hab, hb, ?_,
    rfl, rfl, rfl, rfl, rfl, rfl, htl, fun k hk => motionTime_get m k hk (by omega), lpt, by rw [hread, hxv, lp], ?_⟩
  · have l1 : (motionTime m).length = ((m.accel.read σ).map Prod.snd).length := by simp [htl, hn]
    have l2 : (part (motionTime m) a b).length = (x.map Prod.snd).length := by rw [lpt, List.length_map, hxl]
    have l3 : (motionTime m).length = ((m.veloc.read σ).map Prod.snd).length := htl.trans lV.symm
    have l4 : (motionTime m).length = ((m.displ.read σ).map Prod.snd).length := htl.trans lU.symm
    have l5 : (part (motionTime m) a b).length = ((mm.veloc.read (σ ++ [x])).map Prod.snd).length := lpt.trans lV'.symm
    have l6 : (part (motionTime m) a b).length = ((mm.displ.read (σ ++ [x])).map Prod.snd).length := lpt.trans lU'.symm
    simp only [hpt, labLine, if_pos l1, if_pos l2, if_pos l3, if_pos l4, if_pos l5, if_pos l6, bind, Except.bind, pure, Except.pure,
      Except.ok.injEq] at hfig
    rw [← hfig, hread]
    rfl
  · intro j hj
    have hjb : a + j < (vals (m.accel.read σ)).length := by omega
    refine ⟨part_get _ _ _ _ hj, by rw [hread, hxv, part_get _ _ _ _ hj], ?_, ?_⟩
    · intro v hv
      rw [hV', hxv, part_integral _ _ _ _ (by omega) (by omega), ← hV, List.getElem?_map, part_get _ _ _ _ hj, hv]
      rw [Option.map_some, hV, integral_before _ _ _ (by omega)]
    · intro u hu
      rw [hU', hV', hxv, part_integral _ _ _ _ (by omega) (by omega), ← hV]
      rw [hU] at hu
      rw [part_integral2 _ _ _ _ _ (by omega) hj _ _ hu, hU, integral_before _ _ _ (by omega)]
      rw [hV, integral_before _ _ _ (by omega)]

/-- C171: the velocity line of the new motion lies on the original one exactly if the original velocity just before the cut is zero; then
the displacement lines differ by a constant. -/
theorem C171_coincide_exact (σ τ : CStore K) (m m' : Motion K) (norm : Rec K) (lim ext : K × K) (arias : Bool) (n1 n2 : Int)
    (f : List (LabPanel K)) (hI : numInt (m.accel.read σ) = .ok (m.veloc.read σ, m.displ.read σ))
    (hd : dtOf (m.accel.read σ) = .ok m.dt) (hn : m.npts = (m.accel.read σ).length) (h0 : 0 ≤ n2)
    (h : truncateShow σ m norm lim arias ext = (.ok ((m', n1, n2), f), τ)) :
    ∃ a b : Nat, n1 = a ∧ n2 = b ∧
    ((∀ j : Nat, j < b - a → (vals (m'.veloc.read τ))[j]? = (vals (m.veloc.read σ))[a + j]?) ↔ valBefore (vals (m.veloc.read σ)) a = 0) ∧
    (valBefore (vals (m.veloc.read σ)) a = 0 → ∀ (j : Nat) u, j < b - a → (vals (m.displ.read σ))[a + j]? = some u →
      (vals (m'.displ.read τ))[j]? = some (u - valBefore (vals (m.displ.read σ)) a)) := by
  obtain ⟨a, b, t, tt, A, A', V, V', U, U', e1, e2, hab, hb, _, _, rfl, rfl, _, rfl, rfl, _, _, _, _, hj⟩ :=
    C171_figure_partial σ τ m m' norm lim ext arias n1 n2 f hI hd hn h0 h
  rw [numInt_ok _ _ hd, Except.ok.injEq, Prod.mk.injEq] at hI
  have lV : (vals (m.veloc.read σ)).length = m.npts := by
    rw [← hI.1]; simp [vals, times, cumsum, cumsumFrom_length, hn]
  refine ⟨a, b, e1, e2, ⟨fun hall => ?_, fun hz j hjl => ?_⟩, fun hz j u hjl hu => ?_⟩
  · have h1 := hall 0 (by omega)
    have hv : (vals (m.veloc.read σ))[a + 0]? = some ((vals (m.veloc.read σ))[a + 0]'(by omega)) := List.getElem?_eq_getElem _
    have h2 := (hj 0 (by omega)).2.2.1 _ hv
    rw [h1, hv, Option.some.injEq] at h2
    linear_combination h2
  · have hv : (vals (m.veloc.read σ))[a + j]? = some ((vals (m.veloc.read σ))[a + j]'(by omega)) := List.getElem?_eq_getElem _
    rw [(hj j hjl).2.2.1 _ hv, hv, hz, sub_zero]
  · rw [(hj j hjl).2.2.2 _ hu, hz, mul_zero, sub_zero]

/-- C171 fails for records that do not start at time 0 (all one-column records start at their time step): they are drawn from time 0 on,
every sample too early by the first time. -/
theorem C171_times_violated (σ τ : CStore K) (m m' : Motion K) (norm : Rec K) (lim ext : K × K) (arias : Bool) (n1 n2 : Int)
    (f : List (LabPanel K)) (hI : numInt (m.accel.read σ) = .ok (m.veloc.read σ, m.displ.read σ))
    (hd : dtOf (m.accel.read σ) = .ok m.dt) (hn : m.npts = (m.accel.read σ).length) (h0 : 0 ≤ n2)
    (h : truncateShow σ m norm lim arias ext = (.ok ((m', n1, n2), f), τ)) (t0 : K) (ht : t0 ≠ 0)
    (hu : ∀ (k : Nat) s, (times (m.accel.read σ))[k]? = some s → s = t0 + (k : K) * m.dt) :
    ∃ p q rest, f = p :: rest ∧ p.lines.head? = some q ∧ q.lab = some "original" ∧ q.xs ≠ times (m.accel.read σ) ∧
      ∀ (k : Nat) s, (times (m.accel.read σ))[k]? = some s → q.xs[k]? = some (s - t0) := by
  obtain ⟨a, b, t, tt, A, A', V, V', U, U', e1, e2, hab, hb, rfl, rfl, _, _, _, _, _, lt, hk, _⟩ :=
    C171_figure_partial σ τ m m' norm lim ext arias n1 n2 f hI hd hn h0 h
  have hlen : (times (m.accel.read σ)).length = m.npts := by simp [times, hn]
  have hall : ∀ (k : Nat) s, (times (m.accel.read σ))[k]? = some s → t[k]? = some (s - t0) := by
    intro k s hs
    have hkl := (List.getElem?_eq_some_iff.1 hs).1
    rw [hk k (by omega), hu k s hs]
    congr 1; ring
  refine ⟨_, _, _, rfl, rfl, rfl, ?_, hall⟩
  intro heq
  have heq : t = times (m.accel.read σ) := heq
  obtain ⟨s, hs⟩ : ∃ s, (times (m.accel.read σ))[0]? = some s := ⟨_, List.getElem?_eq_getElem (by omega)⟩
  have h1 := hall 0 s hs
  rw [heq, hs, Option.some.injEq] at h1
  exact ht (by linear_combination h1)

end

/-- A motion of four samples at times 0 to 3. -/
def motionFig4 : Except PyErr (Motion ℚ) × CStore ℚ := mkMotion [[(0, 2), (1, 1), (2, -1), (3, 3)]] (.two 0) .m .accel none

/-- Cut from 1 to 3: the samples 1 and 2.  The velocity just before the cut is 2. -/
example : ∃ m, motionFig4 = (.ok m, [[(0, 2), (1, 1), (2, -1), (3, 3)]]) ∧
    (truncateShow [[(0, 2), (1, 1), (2, -1), (3, 3)]] m [] (1, 3) false (0, 0)).1.map Prod.snd =
    .ok [⟨"Accel. [m/s/s]", [⟨some "original", [0, 1, 2, 3], [2, 1, -1, 3]⟩, ⟨some "truncated", [1, 2], [1, -1]⟩]⟩,
      ⟨"Veloc. [m/s]", [⟨none, [0, 1, 2, 3], [2, 3, 2, 5]⟩, ⟨none, [1, 2], [1, 0]⟩]⟩,
      ⟨"Displ. [m]", [⟨none, [0, 1, 2, 3], [2, 5, 7, 12]⟩, ⟨none, [1, 2], [1, 1]⟩]⟩] :=
  ⟨⟨.view 0, .own [(0, 2), (1, 3), (2, 2), (3, 5)], .own [(0, 2), (1, 5), (2, 7), (3, 12)], 1, 4, 3, 5, 12⟩, by decide +kernel,
    by decide +kernel⟩

end Verif
