import Verif.Model.Figures
import Verif.Props.MotionHist
import Verif.Proof.Float

/-!
C155: the figure of a motion.  C156: figures and axes that are passed in.  C157: keyword arguments that are handed on.
-/

set_option linter.unusedSectionVars false
set_option linter.unusedVariables false

namespace Verif

open Spec (Uniform times vals given RateOf)

section
variable {K V : Type} [Field K] [LinearOrder K]

/-- The first sample of largest magnitude. -/
def Spec.LargestFirst (a : List K) (k : Nat) : Prop :=
  ∃ p, a[k]? = some p ∧ (∀ y ∈ a, |y| ≤ |p|) ∧ ∀ (j : Nat) y, j < k → a[j]? = some y → |y| < |p|

/-- A fortieth of `n`, rounded to the nearest integer, halves to even. -/
def Spec.fortieth (n : Nat) : Nat :=
  if n % 40 < 20 ∨ (n % 40 = 20 ∧ n / 40 % 2 = 0) then n / 40 else n / 40 + 1

/-- Axes that are passed in exist and have not been removed. -/
def Spec.Usable (c : Canvas K V) (ax : Option Nat) : Prop :=
  ∀ i, ax = some i → ∃ a, c.axs[i]? = some a ∧ a.gone = false

open Spec (LargestFirst fortieth Usable)

variable [IsStrictOrderedRing K]

theorem argmaxAbs_first (a : List K) (h : a ≠ []) : LargestFirst a (argmaxAbs a) := by
  obtain ⟨p, hp, he⟩ := maxAbs_mem h
  have hlt : argmaxAbs a < a.length := List.findIdx_lt_length_of_exists ⟨p, hp, by simpa using he⟩
  have h1 := List.findIdx_getElem (xs := a) (p := fun x => decide (|x| = maxAbs a)) (w := hlt)
  refine ⟨a[argmaxAbs a], List.getElem?_eq_getElem hlt, fun y hy => ?_, fun j y hj hy => ?_⟩
  · have := le_maxAbs hy
    have h2 : |a[argmaxAbs a]| = maxAbs a := of_decide_eq_true h1
    rw [h2]; exact this
  · have h2 : |a[argmaxAbs a]| = maxAbs a := of_decide_eq_true h1
    have h3 := List.not_of_lt_findIdx hj
    have hjl : j < a.length := by
      rcases Nat.lt_or_ge j a.length with h | h
      · exact h
      · rw [List.getElem?_eq_none h] at hy; cases hy
    rw [List.getElem?_eq_getElem hjl, Option.some.injEq] at hy
    have h4 : ¬ |y| = maxAbs a := by simpa [hy] using h3
    rw [h2]
    exact lt_of_le_of_ne (le_maxAbs (hy ▸ List.getElem_mem hjl)) h4

theorem LargestFirst_unique {a : List K} {j k : Nat} (hj : LargestFirst a j) (hk : LargestFirst a k) : j = k := by
  obtain ⟨p, hp, hp1, hp2⟩ := hj
  obtain ⟨q, hq, hq1, hq2⟩ := hk
  have hpq := hq1 p (List.mem_of_getElem? hp)
  have hqp := hp1 q (List.mem_of_getElem? hq)
  rcases lt_trichotomy j k with h | h | h
  · exact absurd (hq2 j p h hp) (not_lt.2 hqp)
  · exact h
  · exact absurd (hp2 k q h hq) (not_lt.2 hpq)

variable [FloorRing K]

theorem rhe_fortieth (n : Nat) : roundHalfEven ((n : K) / 40) = (fortieth n : ℤ) := by
  have hn : (n : K) = 40 * ((n / 40 : Nat) : K) + ((n % 40 : Nat) : K) := by
    have := Nat.div_add_mod n 40
    exact_mod_cast this.symm
  have hlt : n % 40 < 40 := Nat.mod_lt _ (by norm_num)
  have hltK : ((n % 40 : Nat) : K) < 40 := by exact_mod_cast hlt
  have h0K : (0 : K) ≤ ((n % 40 : Nat) : K) := Nat.cast_nonneg _
  have hfl : ⌊(n : K) / 40⌋ = ((n / 40 : Nat) : ℤ) := by
    rw [Int.floor_eq_iff]
    constructor
    · rw [le_div_iff₀ (by norm_num : (0 : K) < 40), hn]
      have : (((n / 40 : Nat) : ℤ) : K) = ((n / 40 : Nat) : K) := Int.cast_natCast _
      rw [this]; linarith
    · rw [div_lt_iff₀ (by norm_num : (0 : K) < 40), hn]
      have : (((n / 40 : Nat) : ℤ) : K) = ((n / 40 : Nat) : K) := Int.cast_natCast _
      rw [this]; linarith
  have hfr : (n : K) / 40 - ((⌊(n : K) / 40⌋ : ℤ) : K) = ((n % 40 : Nat) : K) / 40 := by
    rw [hfl]
    have : (((n / 40 : Nat) : ℤ) : K) = ((n / 40 : Nat) : K) := Int.cast_natCast _
    rw [this]; conv_lhs => rw [hn]
    ring
  unfold roundHalfEven fortieth
  rw [hfl] at hfr
  simp only [hfl, hfr]
  have e1 : ((n % 40 : Nat) : K) / 40 < 1 / 2 ↔ n % 40 < 20 := by
    rw [div_lt_iff₀ (by norm_num : (0 : K) < 40), show (1 / 2 * 40 : K) = ((20 : Nat) : K) by norm_num]
    exact Nat.cast_lt
  have e2 : 1 / 2 < ((n % 40 : Nat) : K) / 40 ↔ 20 < n % 40 := by
    rw [lt_div_iff₀ (by norm_num : (0 : K) < 40), show (1 / 2 * 40 : K) = ((20 : Nat) : K) by norm_num]
    exact Nat.cast_lt
  simp only [e1, e2]
  by_cases c1 : n % 40 < 20
  · rw [if_pos c1, if_pos (.inl c1)]
  · rw [if_neg c1]
    by_cases c2 : 20 < n % 40
    · rw [if_pos c2, if_neg (by omega)]; push_cast; ring
    · rw [if_neg c2]
      have c3 : n % 40 = 20 := by omega
      by_cases c4 : n / 40 % 2 = 0
      · rw [if_pos (by omega), if_pos (.inr ⟨c3, c4⟩)]
      · rw [if_neg (by omega), if_neg (by omega)]; push_cast; ring

theorem noteIdx_eq (n k : Nat) : noteIdx (K := K) n k = min (k + fortieth n) n := by
  unfold noteIdx
  rw [rhe_fortieth]; omega

/-- What `_process_fig_ax_objects` and the removal of the axes leave. -/
theorem remove_ok (c : Canvas K V) (fig ax : Option Nat) (hu : Usable c ax) :
    ∃ c1, removeAx (processFigAx c fig ax false).2.2 (processFigAx c fig ax false).2.1 = (.ok (), c1) ∧
      (processFigAx c fig ax false).1 = fig.getD c.figs ∧ c1.figs = c.figs + (if fig = none then 1 else 0) ∧
      c1.axs.length = c.axs.length + (if ax = none then 1 else 0) ∧
      (∀ j, j < c.axs.length → ax ≠ some j → c1.axs[j]? = c.axs[j]?) ∧
      (∀ j a, ax = some j → c.axs[j]? = some a → c1.axs[j]? = some { a with gone := true }) := by
  cases ax with
  | none =>
    cases fig with
    | none =>
      refine ⟨_, by simp [processFigAx, newFig, pushAx, removeAx]; rfl, ?_, ?_, ?_, ?_, ?_⟩
      · simp [processFigAx, newFig]
      · simp
      · simp
      · intro j hj _
        simp only
        rw [List.getElem?_modify, List.getElem?_append_left hj]
        simp [Nat.ne_of_gt hj]
      · intro j a h; cases h
    | some f =>
      refine ⟨_, by simp [processFigAx, newFig, pushAx, removeAx]; rfl, ?_, ?_, ?_, ?_, ?_⟩
      · simp [processFigAx, newFig]
      · simp
      · simp
      · intro j hj _
        simp only
        rw [List.getElem?_modify, List.getElem?_append_left hj]
        simp [Nat.ne_of_gt hj]
      · intro j a h; cases h
  | some i =>
    obtain ⟨a, ha, hg⟩ := hu i rfl
    cases fig with
    | none =>
      refine ⟨_, by simp [processFigAx, newFig, pushAx, removeAx, ha, hg]; rfl, ?_, ?_, ?_, ?_, ?_⟩
      · simp [processFigAx, newFig]
      · simp
      · simp
      · intro j hj hne
        have : i ≠ j := fun h => hne (by rw [h])
        simp [List.getElem?_modify, this]
      · intro j b h hb
        cases h
        simp [List.getElem?_modify, hb]
    | some f =>
      refine ⟨_, by simp [processFigAx, newFig, pushAx, removeAx, ha, hg]; rfl, ?_, ?_, ?_, ?_, ?_⟩
      · simp [processFigAx, newFig]
      · simp
      · simp
      · intro j hj hne
        have : i ≠ j := fun h => hne (by rw [h])
        simp [List.getElem?_modify, this]
      · intro j b h hb
        cases h
        simp [List.getElem?_modify, hb]

/-- The whole of `plot_motion` for a record of at least two samples and an accepted unit. -/
theorem plotMotion_run (c : Canvas K V) (x : Rec K) (d : K) (hd : dtOf x = .ok d) (v u : Rec K) (hvu : numInt x = .ok (v, u))
    (unit : String) (hun : unit = "m" ∨ unit = "cm") (fig ax : Option Nat) (hu : Usable c ax) (k : Nat) (p : K)
    (hk : LargestFirst (vals x) k) (hp : (vals x)[k]? = some p) :
    ∃ c1 tk, (times x)[k]? = some tk ∧ c1.figs = c.figs + (if fig = none then 1 else 0) ∧
      c1.axs.length = c.axs.length + (if ax = none then 1 else 0) ∧
      (∀ j, j < c.axs.length → ax ≠ some j → c1.axs[j]? = c.axs[j]?) ∧
      (∀ j a, ax = some j → c.axs[j]? = some a → c1.axs[j]? = some { a with gone := true }) ∧
      (x.length ≤ k + fortieth x.length → plotMotion c x unit fig ax = (.error .indexError,
        (pushAx c1 ⟨fig.getD c.figs, [⟨times x, vals x, []⟩, ⟨[tk], [p], []⟩], "", [], false⟩).2)) ∧
      (∀ tn, (times x)[k + fortieth x.length]? = some tn →
        plotMotion c x unit fig ax =
          (.ok (fig.getD c.figs, c1.axs.length, c1.axs.length + 1, c1.axs.length + 2),
            ⟨c1.figs, c1.axs ++
              [⟨fig.getD c.figs, [⟨times x, vals x, []⟩, ⟨[tk], [p], []⟩], "Acceleration [" ++ accelUnit unit ++ "]",
                  [⟨tn, p, |p|, accelUnit unit⟩], false⟩,
               ⟨fig.getD c.figs, [⟨times x, vals v, []⟩], "Velocity [" ++ (unit ++ "/s") ++ "]", [], false⟩,
               ⟨fig.getD c.figs, [⟨times x, vals u, []⟩], "Displacement [" ++ unit ++ "]", [], false⟩]⟩)) := by
  obtain ⟨c1, h1, h2, h3, h4, h5, h6⟩ := remove_ok c fig ax hu
  have hne : x ≠ [] := by rintro rfl; cases hd
  have hkk : argmaxAbs (x.map Prod.snd) = k :=
    LargestFirst_unique (argmaxAbs_first _ (by simpa using hne)) hk
  have hkl : k < x.length := by
    have := (List.getElem?_eq_some_iff.1 hp).1
    simpa [vals] using this
  obtain ⟨tk, htk⟩ : ∃ tk, (times x)[k]? = some tk := ⟨_, List.getElem?_eq_getElem (by simpa [times] using hkl)⟩
  have hmax : maxAbs (x.map Prod.snd) = |p| := by
    obtain ⟨q, hq, hqe⟩ := maxAbs_mem (l := x.map Prod.snd) (by simpa using hne)
    apply le_antisymm
    · obtain ⟨p', hp', hle, _⟩ := hk
      rw [hp, Option.some.injEq] at hp'
      subst hp'
      rw [← hqe]; exact hle q hq
    · exact le_maxAbs (List.mem_of_getElem? hp)
  have hun' : ¬ (unit ≠ "m" ∧ unit ≠ "cm") := by
    rintro ⟨ha, hb⟩; exact hun.elim ha hb
  have hkey : plotMotion c x unit fig ax =
      match (times x)[min (k + fortieth x.length) x.length]? with
      | none => (.error .indexError,
        (pushAx c1 ⟨fig.getD c.figs, [⟨times x, vals x, []⟩, ⟨[tk], [p], []⟩], "", [], false⟩).2)
      | some tn => (.ok (fig.getD c.figs, c1.axs.length, c1.axs.length + 1, c1.axs.length + 2),
            ⟨c1.figs, c1.axs ++
              [⟨fig.getD c.figs, [⟨times x, vals x, []⟩, ⟨[tk], [p], []⟩], "Acceleration [" ++ accelUnit unit ++ "]",
                  [⟨tn, p, |p|, accelUnit unit⟩], false⟩,
               ⟨fig.getD c.figs, [⟨times x, vals v, []⟩], "Velocity [" ++ (unit ++ "/s") ++ "]", [], false⟩,
               ⟨fig.getD c.figs, [⟨times x, vals u, []⟩], "Displacement [" ++ unit ++ "]", [], false⟩]⟩) := by
    unfold plotMotion
    have hne' : ¬ (x.map Prod.snd = []) := by simpa using hne
    simp only [if_neg hne', hvu, h1, if_neg hun', hkk, h2, hmax, noteIdx_eq, List.length_map]
    rw [show x.map Prod.fst = times x from rfl, show x.map Prod.snd = vals x from rfl]
    simp only [htk, hp]
    cases (times x)[min (k + fortieth x.length) x.length]? with
    | none => rfl
    | some tn =>
      simp [pushAx, vals]
  refine ⟨c1, _, htk, h3, h4, h5, h6, fun hle => ?_, fun tn htn => ?_⟩
  · rw [hkey, Nat.min_eq_right hle, List.getElem?_eq_none (by simp [times])]
  · have hlt : k + fortieth x.length < x.length := by
      have := (List.getElem?_eq_some_iff.1 htn).1
      simpa [times] using this
    rw [hkey, Nat.min_eq_left hlt.le, htn]

/-! ## C155 -/

/-- C155, exactly: a record of at least two samples can be drawn in metres or centimetres if and only if its (first) peak is
not within a fortieth of the record length of the end. -/
theorem C155_exact (c : Canvas K V) (x : Rec K) (h2 : 2 ≤ x.length) (unit : String) (hun : unit = "m" ∨ unit = "cm")
    (fig ax : Option Nat) (hu : Usable c ax) (k : Nat) (hk : LargestFirst (vals x) k) :
    (∃ r c', plotMotion c x unit fig ax = (.ok r, c')) ↔ k + fortieth x.length < x.length := by
  match x, h2 with
  | r :: s :: x, _ =>
    have hd : dtOf (r :: s :: x) = .ok (s.1 - r.1) := rfl
    obtain ⟨p, hp, _⟩ := id hk
    obtain ⟨c1, tk, _, _, _, _, _, he, hok⟩ := plotMotion_run c _ _ hd _ _ (numInt_ok _ _ hd) unit hun fig ax hu k p hk hp
    constructor
    · rintro ⟨r', c', h⟩
      by_contra hc
      rw [he (by omega)] at h
      cases h
    · intro hlt
      exact ⟨_, _, hok _ (List.getElem?_eq_getElem (by simpa [times] using hlt))⟩

/-- C155 fails: a record whose first peak is within a fortieth of the record length of its end cannot be drawn: the annotation
is looked up one past the end of the time column, and IndexError is raised after the figure has been made. -/
theorem C155_near_end_violated (c : Canvas K V) (x : Rec K) (h2 : 2 ≤ x.length) (unit : String)
    (hun : unit = "m" ∨ unit = "cm") (fig ax : Option Nat) (hu : Usable c ax) (k : Nat) (hk : LargestFirst (vals x) k)
    (hend : x.length ≤ k + fortieth x.length) :
    ∃ c', plotMotion c x unit fig ax = (.error .indexError, c') ∧ (fig = none → c'.figs = c.figs + 1) := by
  match x, h2 with
  | r :: s :: x, _ =>
    have hd : dtOf (r :: s :: x) = .ok (s.1 - r.1) := rfl
    obtain ⟨p, hp, _⟩ := id hk
    obtain ⟨c1, tk, _, hf, _, _, _, he, _⟩ := plotMotion_run c _ _ hd _ _ (numInt_ok _ _ hd) unit hun fig ax hu k p hk hp
    refine ⟨_, he hend, ?_⟩
    rintro rfl
    simpa [pushAx] using hf

/-- In particular, a motion of more than twenty samples that grows until its last sample cannot be drawn. -/
theorem C155_growing_violated (c : Canvas K V) (x : Rec K) (h2 : 20 < x.length) (unit : String)
    (hun : unit = "m" ∨ unit = "cm") (hk : LargestFirst (vals x) (x.length - 1)) :
    ∃ c', plotMotion c x unit none none = (.error .indexError, c') ∧ c'.figs = c.figs + 1 := by
  have hf : 1 ≤ fortieth x.length := by
    unfold fortieth
    split <;> omega
  obtain ⟨c', h, h'⟩ := C155_near_end_violated c x (by omega) unit hun none none (by intro i h; cases h) _ hk (by omega)
  exact ⟨c', h, h' rfl⟩

/-- Records of two to twenty samples can always be drawn. -/
theorem C155_short (c : Canvas K V) (x : Rec K) (h2 : 2 ≤ x.length) (h20 : x.length ≤ 20) (unit : String)
    (hun : unit = "m" ∨ unit = "cm") (fig ax : Option Nat) (hu : Usable c ax) :
    ∃ r c', plotMotion c x unit fig ax = (.ok r, c') := by
  have hne : vals x ≠ [] := by
    intro h; have := congrArg List.length h; simp [vals] at this; subst this; simp at h2
  have hk := argmaxAbs_first (vals x) hne
  refine (C155_exact c x h2 unit hun fig ax hu _ hk).2 ?_
  obtain ⟨p, hp, _⟩ := hk
  have h1 := (List.getElem?_eq_some_iff.1 hp).1
  have hf : fortieth x.length = 0 := by
    unfold fortieth
    rw [if_pos (by omega)]; omega
  rw [vals, List.length_map] at h1
  change argmaxAbs (x.map Prod.snd) + _ < _
  omega

/-- What is drawn: three axes in the figure (the one passed in, or a new one) with the record, its integral and its second
integral over its times, the peak marked at its own time and amplitude, its magnitude in the annotation, and the units of the
labels; all other axes are left alone.  Missing: records whose peak is close to the end (`C155_near_end_violated`). -/
theorem C155_drawn_partial (c : Canvas K V) (x : Rec K) (d : K) (hd : dtOf x = .ok d) (v u : Rec K)
    (hvu : numInt x = .ok (v, u)) (unit : String) (hun : unit = "m" ∨ unit = "cm") (fig ax : Option Nat) (hu : Usable c ax)
    (f i1 i2 i3 : Nat) (c' : Canvas K V) (h : plotMotion c x unit fig ax = (.ok (f, i1, i2, i3), c')) :
    f = fig.getD c.figs ∧ c'.figs = c.figs + (if fig = none then 1 else 0) ∧
    i1 < i2 ∧ i2 < i3 ∧ c.axs.length ≤ i1 ∧
    (∃ k tk p tn, LargestFirst (vals x) k ∧ (times x)[k]? = some tk ∧ (vals x)[k]? = some p ∧ tn ∈ times x ∧
      c'.axs[i1]? = some ⟨f, [⟨times x, vals x, []⟩, ⟨[tk], [p], []⟩],
        if unit = "m" then "Acceleration [m/s/s]" else "Acceleration [gal]",
        [⟨tn, p, |p|, if unit = "m" then "m/s/s" else "gal"⟩], false⟩) ∧
    c'.axs[i2]? = some ⟨f, [⟨times x, vals v, []⟩], if unit = "m" then "Velocity [m/s]" else "Velocity [cm/s]", [], false⟩ ∧
    c'.axs[i3]? = some ⟨f, [⟨times x, vals u, []⟩], if unit = "m" then "Displacement [m]" else "Displacement [cm]", [], false⟩ ∧
    ∀ j, j < c.axs.length → ax ≠ some j → c'.axs[j]? = c.axs[j]? := by
  have hne : vals x ≠ [] := by
    intro h'; have := congrArg List.length h'; simp [vals] at this; subst this; cases hd
  have hk := argmaxAbs_first (vals x) hne
  obtain ⟨p, hp, _⟩ := id hk
  obtain ⟨c1, tk, htk, hf, hl, ho, _, he, hok⟩ := plotMotion_run c x d hd v u hvu unit hun fig ax hu _ p hk hp
  have hlt : argmaxAbs (vals x) + fortieth x.length < x.length := by
    by_contra hc
    rw [he (by omega)] at h
    cases h
  obtain ⟨tn, htn⟩ : ∃ tn, (times x)[argmaxAbs (vals x) + fortieth x.length]? = some tn :=
    ⟨_, List.getElem?_eq_getElem (by simpa [times] using hlt)⟩
  rw [hok _ htn] at h
  cases h
  refine ⟨rfl, hf, by omega, by omega, ?_, ⟨_, tk, p, tn, hk, htk, hp, List.mem_of_getElem? htn, ?_⟩, ?_, ?_, ?_⟩
  · rw [hl]; omega
  · rw [List.getElem?_append_right (by omega), Nat.sub_self]
    rcases hun with rfl | rfl
    · simp [accelUnit]
    · simp [accelUnit]
  · rw [List.getElem?_append_right (by omega), Nat.add_sub_cancel_left]
    rcases hun with rfl | rfl
    · simp
    · simp
  · rw [List.getElem?_append_right (by omega), Nat.add_sub_cancel_left]
    rcases hun with rfl | rfl
    · simp
    · simp
  · intro j hj hne'
    rw [← ho j hj hne']
    exact List.getElem?_append_left (by rw [hl]; omega)

/-- Two histories with the same rate differ by a constant. -/
theorem rate_const (d : K) (a v w : Rec K) (hv : RateOf d a v) (hw : RateOf d a w) (v0 w0 : K) (hv0 : (vals v)[0]? = some v0)
    (hw0 : (vals w)[0]? = some w0) : ∀ (i : Nat) y, (vals v)[i]? = some y → (vals w)[i]? = some (y + (w0 - v0)) := by
  have hlv : (vals v).length = (vals a).length := by
    have := congrArg List.length hv.1; simp [times] at this; simp [vals, this]
  have hlw : (vals w).length = (vals a).length := by
    have := congrArg List.length hw.1; simp [times] at this; simp [vals, this]
  intro i
  induction i with
  | zero => intro y hy; rw [hv0, Option.some.injEq] at hy; rw [hw0, ← hy]; congr 1; ring
  | succ i ih =>
    intro y hy
    have h1 : i + 1 < (vals v).length := (List.getElem?_eq_some_iff.1 hy).1
    obtain ⟨y0, hy0⟩ : ∃ y0, (vals v)[i]? = some y0 := ⟨_, List.getElem?_eq_getElem (by omega)⟩
    obtain ⟨b, hb⟩ : ∃ b, (vals a)[i + 1]? = some b := ⟨_, List.getElem?_eq_getElem (by omega)⟩
    obtain ⟨z, hz⟩ : ∃ z, (vals w)[i + 1]? = some z := ⟨_, List.getElem?_eq_getElem (by omega)⟩
    have e1 := hv.2 i b y0 y hb hy0 hy
    have e2 := hw.2 i b _ z hb (ih y0 hy0) hz
    rw [hz]; congr 1; linarith

theorem numInt_heads (d : K) (x v u : Rec K) (hd : dtOf x = .ok d) (h : numInt x = .ok (v, u)) (a0 : K)
    (h0 : (vals x)[0]? = some a0) : (vals v)[0]? = some (d * a0) := by
  rw [numInt_ok d x hd] at h
  cases h
  have : vals ((times x).zip ((cumsum (vals x)).map (· * d))) = (cumsum (vals x)).map (· * d) :=
    zip_snd _ _ (by simp [times, vals, cumsum, cumsumFrom_length])
  rw [this]
  cases x with
  | nil => cases hd
  | cons p x =>
    simp [vals] at h0
    subst h0
    simp [vals, cumsum, cumsumFrom, mul_comm]

/-- The velocity drawn by `Ground_Motion.plot` (in metres) is the velocity of the object plus the constant `d a₀ - v₀`; it is the
velocity of the object if and only if the first velocity is `d` times the first acceleration. -/
theorem C155_velocity_exact (σ τ : CStore K) (a : Nat) (x : Rec K) (ha : σ[a]? = some x) (d : K) (hd : d ≠ 0)
    (hu : Uniform d (times x)) (h2 : 2 ≤ x.length) (unit : MUnit) (ty : MType) (delta : Option K) (m : Motion K)
    (hm : mkMotion σ (.two a) unit ty delta = (.ok m, τ)) (c c' : Canvas K V) (fig ax : Option Nat) (hax : Usable c ax)
    (f i1 i2 i3 : Nat) (h : motionPlot τ m c "m" fig ax = (.ok (f, i1, i2, i3), c')) (a0 v0 : K)
    (h0 : (vals (m.accel.read τ))[0]? = some a0) (hv0 : (vals (m.veloc.read τ))[0]? = some v0) :
    ∃ y, c'.axs[i2]? = some ⟨f, [⟨times x, y, []⟩], "Velocity [m/s]", [], false⟩ ∧
      y = (vals (m.veloc.read τ)).map (· + (d * a0 - v0)) ∧
      (y = vals (m.veloc.read τ) ↔ v0 = d * a0) := by
  obtain ⟨hav, hvu⟩ := C83_histories σ τ a x ha d hd hu h2 unit ty delta m hm
  obtain ⟨hg, hdt, _⟩ := C20_values σ τ a x ha unit ty delta m hm
  have hgt : times ((given m ty).read τ) = times x := by rw [hg]; simp [times]
  have hty : ty ≠ .bad := by
    rintro rfl
    unfold mkMotion at hm
    split at hm
    · cases hm
    · simp only at hm
      split at hm
      · cases hm
      · cases hm
  have hat : times (m.accel.read τ) = times x := by
    cases ty with
    | bad => exact absurd rfl hty
    | accel => exact hgt
    | veloc => rw [hav.1]; exact hgt
    | displ => rw [hav.1, hvu.1]; exact hgt
  have hal : (m.accel.read τ).length = x.length := by
    have := congrArg List.length hat; simpa [times] using this
  have hau : dtOf (m.accel.read τ) = .ok d := uniform_dtOf (by rw [hat]; exact hu) (by omega)
  simp only [motionPlot, if_true] at h
  obtain ⟨_, _, _, _, _, _, hl2, _⟩ :=
    C155_drawn_partial c _ d hau _ _ (numInt_ok d _ hau) "m" (.inl rfl) fig ax hax f i1 i2 i3 c' h
  simp only [if_true] at hl2
  rw [hat] at hl2
  obtain ⟨hr1, hr2, _⟩ := numInt_rate d _ hau _ _ (numInt_ok d _ hau)
  have hh := numInt_heads d _ _ _ hau (numInt_ok d _ hau) a0 h0
  have hc := rate_const d _ _ _ hav hr1 v0 (d * a0) hv0 hh
  rw [hat] at hc hr1
  have hll : ((times x).zip ((cumsum (vals (m.accel.read τ))).map (· * d))).length = (m.veloc.read τ).length := by
    have e1 := congrArg List.length hr1.1
    have e2 := congrArg List.length hav.1
    simp only [times, List.length_map] at e1 e2
    have e3 : (x.map Prod.fst) = times x := rfl
    rw [e3] at e1
    omega
  have hy : vals ((times x).zip ((cumsum (vals (m.accel.read τ))).map (· * d))) =
      (vals (m.veloc.read τ)).map (· + (d * a0 - v0)) := by
    apply List.ext_getElem?
    intro i
    rw [List.getElem?_map]
    cases hvi : (vals (m.veloc.read τ))[i]? with
    | none =>
      rw [Option.map_none]
      rw [List.getElem?_eq_none_iff] at hvi ⊢
      simp only [vals, List.length_map] at hvi ⊢
      exact hll ▸ hvi
    | some y => rw [hc i y hvi]; rfl
  refine ⟨_, hl2, hy, ?_⟩
  rw [hy]
  constructor
  · intro he
    have := congrArg (fun l => l[0]?) he
    simp only [List.getElem?_map, hv0, Option.map_some, Option.some.injEq] at this
    linarith
  · intro he
    rw [he, sub_self]; simp

/-- Constructed from accelerations: the velocity and displacement columns are the integrals of the acceleration column. -/
theorem mkMotion_accel (σ τ : CStore K) (a : Nat) (x : Rec K) (ha : σ[a]? = some x) (unit : MUnit) (delta : Option K)
    (m : Motion K) (hm : mkMotion σ (.two a) unit .accel delta = (.ok m, τ)) :
    numInt (m.accel.read τ) = .ok (m.veloc.read τ, m.displ.read τ) := by
  unfold mkMotion at hm
  split at hm
  · cases hm
  · simp only at hm
    split at hm
    · cases hm
    · split at hm
      · cases hm
      · split at hm
        · cases hm
        · split at hm
          · cases hm
          · rename_i av vv uv hout
            cases hm
            simp only [bind, Except.bind] at hout
            split at hout
            · cases hout
            · rename_i r hr
              cases hout
              simp only [Where.read]
              exact hr

/-- A motion given as accelerations is drawn with its own acceleration, velocity and displacement. -/
theorem C155_accel_motion (σ τ : CStore K) (a : Nat) (x : Rec K) (ha : σ[a]? = some x) (h2 : 2 ≤ x.length) (unit : MUnit)
    (delta : Option K) (m : Motion K) (hm : mkMotion σ (.two a) unit .accel delta = (.ok m, τ)) (c c' : Canvas K V)
    (fig ax : Option Nat) (hax : Usable c ax) (f i1 i2 i3 : Nat)
    (h : motionPlot τ m c "m" fig ax = (.ok (f, i1, i2, i3), c')) :
    (∃ ls, c'.axs[i1]? = some ls ∧ ls.fig = f ∧ ls.ylabel = "Acceleration [m/s/s]" ∧
      ls.lines[0]? = some ⟨times x, vals (m.accel.read τ), []⟩ ∧ ls.notes.map PlNote.value = [m.pga]) ∧
    c'.axs[i2]? = some ⟨f, [⟨times x, vals (m.veloc.read τ), []⟩], "Velocity [m/s]", [], false⟩ ∧
    c'.axs[i3]? = some ⟨f, [⟨times x, vals (m.displ.read τ), []⟩], "Displacement [m]", [], false⟩ := by
  have hi := mkMotion_accel σ τ a x ha unit delta m hm
  obtain ⟨hg, hdt, _, hpga, _⟩ := C20_values σ τ a x ha unit .accel delta m hm
  have hat : times (m.accel.read τ) = times x := by
    have : (given m .accel).read τ = m.accel.read τ := rfl
    rw [← this, hg]; simp [times]
  have hal : (m.accel.read τ).length = x.length := by
    have := congrArg List.length hat; simpa [times] using this
  obtain ⟨d, hd⟩ : ∃ d, dtOf (m.accel.read τ) = .ok d := by
    match hx : m.accel.read τ with
    | [] => rw [hx] at hal; simp at hal; omega
    | [_] => rw [hx] at hal; simp at hal; omega
    | r :: s :: l => exact ⟨_, rfl⟩
  simp only [motionPlot, if_true] at h
  obtain ⟨_, _, _, _, _, ⟨k, tk, p, tn, hk, _, hp, _, hl1⟩, hl2, hl3, _⟩ :=
    C155_drawn_partial c _ d hd _ _ hi "m" (.inl rfl) fig ax hax f i1 i2 i3 c' h
  simp only [if_true] at hl1 hl2 hl3
  rw [hat] at hl1 hl2 hl3
  refine ⟨⟨_, hl1, rfl, rfl, rfl, ?_⟩, hl2, hl3⟩
  have hne : vals (m.accel.read τ) ≠ [] := by
    intro he; have := congrArg List.length he; simp [vals] at this; rw [this] at hal; simp at hal; omega
  obtain ⟨p', hp', hle, _⟩ := hk
  rw [hp, Option.some.injEq] at hp'
  subst hp'
  have : m.pga = |p| := by
    rw [hpga]
    obtain ⟨q, hq, hqe⟩ := maxAbs_mem hne
    exact le_antisymm (hqe ▸ hle q hq) (le_maxAbs (List.mem_of_getElem? hp))
  simp [this]

/-- Constructed from velocities at uniform times: the first acceleration is 0. -/
theorem mkMotion_veloc_head (σ τ : CStore K) (a : Nat) (x : Rec K) (ha : σ[a]? = some x) (d : K) (hd : d ≠ 0)
    (hu : Uniform d (times x)) (h2 : 2 ≤ x.length) (unit : MUnit) (delta : Option K)
    (m : Motion K) (hm : mkMotion σ (.two a) unit .veloc delta = (.ok m, τ)) :
    (vals (m.accel.read τ))[0]? = some 0 := by
  obtain ⟨hg, _⟩ := C20_values σ τ a x ha unit .veloc delta m hm
  have hgr : (given m .veloc).read τ = m.veloc.read τ := rfl
  rw [hgr] at hg
  have hnd : numDiff (m.veloc.read τ) = .ok (m.accel.read τ) := by
    unfold mkMotion at hm
    split at hm
    · cases hm
    · simp only at hm
      split at hm
      · cases hm
      · split at hm
        · cases hm
        · split at hm
          · cases hm
          · split at hm
            · cases hm
            · rename_i av vv uv hout
              cases hm
              simp only [bind, Except.bind] at hout
              split at hout
              · cases hout
              · rename_i r hr
                split at hout
                · cases hout
                · cases hout
                  exact hr
  have hvt : times (m.veloc.read τ) = times x := by rw [hg]; simp [times]
  have hne : m.veloc.read τ ≠ [] := by
    intro he; rw [he] at hg; simp at hg; rw [hg] at h2; simp at h2
  rw [numDiff_uniform d hd _ (by rw [hvt]; exact hu) hne] at hnd
  rw [Except.ok.injEq] at hnd
  rw [← hnd]
  rw [show vals ((times (m.veloc.read τ)).zip (0 :: (diff (vals (m.veloc.read τ))).map (· / d))) =
    0 :: (diff (vals (m.veloc.read τ))).map (· / d) from zip_snd _ _ ?_]
  · rfl
  · have := List.length_pos_iff.2 hne
    simp [times, vals, diff_length]; omega

/-- C155 fails for motions given as velocities that do not start from zero: what is drawn as velocity is not the velocity of
the object, but the velocity less its first value. -/
theorem C155_velocity_violated (σ τ : CStore K) (a : Nat) (x : Rec K) (ha : σ[a]? = some x) (d : K) (hd : d ≠ 0)
    (hu : Uniform d (times x)) (h2 : 2 ≤ x.length) (unit : MUnit) (delta : Option K) (m : Motion K)
    (hm : mkMotion σ (.two a) unit .veloc delta = (.ok m, τ)) (c c' : Canvas K V) (fig ax : Option Nat) (hax : Usable c ax)
    (f i1 i2 i3 : Nat) (h : motionPlot τ m c "m" fig ax = (.ok (f, i1, i2, i3), c')) (v0 : K)
    (hv0 : (vals (m.veloc.read τ))[0]? = some v0) (hv : v0 ≠ 0) :
    ∃ y, c'.axs[i2]? = some ⟨f, [⟨times x, y, []⟩], "Velocity [m/s]", [], false⟩ ∧
      y = (vals (m.veloc.read τ)).map (· - v0) ∧ y ≠ vals (m.veloc.read τ) := by
  obtain ⟨y, h1, h3, h4⟩ := C155_velocity_exact σ τ a x ha d hd hu h2 unit .veloc delta m hm c c' fig ax hax f i1 i2 i3 h 0 v0
    (mkMotion_veloc_head σ τ a x ha d hd hu h2 unit delta m hm) hv0
  refine ⟨y, h1, ?_, fun he => hv (by rw [h4.1 he]; ring)⟩
  rw [h3]
  congr 1
  funext z; ring

theorem cumsum_mul (k : K) (l : List K) : cumsum (l.map (· * k)) = (cumsum l).map (· * k) := by
  have := cumsumFrom_map_mul 0 k l
  rwa [zero_mul] at this

theorem numInt_cm (x v u : Rec K) (k : K) (h : numInt x = .ok (v, u)) :
    numInt (scaleCols 1 k x) = .ok (scaleCols 1 k v, scaleCols 1 k u) := by
  match x with
  | [] => cases h
  | [_] => cases h
  | r :: s :: x =>
    have hd : dtOf (r :: s :: x) = .ok (s.1 - r.1) := rfl
    have hd' : dtOf (scaleCols 1 k (r :: s :: x)) = .ok (s.1 - r.1) := by simp [scaleCols, dtOf]
    rw [numInt_ok _ _ hd] at h
    rw [numInt_ok _ _ hd']
    cases h
    have ht : times (scaleCols 1 k (r :: s :: x)) = times (r :: s :: x) := by simp [times, scaleCols]
    have hvv : vals (scaleCols 1 k (r :: s :: x)) = (vals (r :: s :: x)).map (· * k) := by simp [vals, scaleCols]
    have hz : ∀ (t l : List K), t.zip (l.map (· * k)) = scaleCols 1 k (t.zip l) := by
      intro t l
      induction t generalizing l with
      | nil => rfl
      | cons a t ih => cases l with
        | nil => rfl
        | cons b l => simp only [List.map_cons, List.zip_cons_cons, ih, scaleCols, mul_one]
    have hc : ∀ l : List K, (l.map (· * k)).map (· * (s.1 - r.1)) = (l.map (· * (s.1 - r.1))).map (· * k) := by
      intro l; rw [List.map_map, List.map_map]; apply List.map_congr_left; intro y _; simp only [Function.comp_apply]; ring
    rw [ht, hvv, cumsum_mul, hc, cumsum_mul, hc, hz, hz]

theorem LargestFirst_scale (a : List K) (k : Nat) (q : K) (hq : 0 < q) (h : LargestFirst a k) : LargestFirst (a.map (· * q)) k := by
  obtain ⟨p, hp, h1, h2⟩ := h
  refine ⟨p * q, by rw [List.getElem?_map, hp]; rfl, ?_, ?_⟩
  · intro y hy
    obtain ⟨z, hz, rfl⟩ := List.mem_map.1 hy
    rw [abs_mul, abs_mul]
    exact mul_le_mul_of_nonneg_right (h1 z hz) (abs_nonneg _)
  · intro j y hj hy
    rw [List.getElem?_map] at hy
    cases hz : a[j]? with
    | none => rw [hz] at hy; cases hy
    | some z =>
      rw [hz] at hy
      cases hy
      rw [abs_mul, abs_mul]
      exact mul_lt_mul_of_pos_right (h2 j z hj hz) (abs_pos.2 hq.ne')

/-- Drawn in centimetres: the same axes as in metres, with all values multiplied by 100 and with the labels of the units gal,
cm/s and cm. -/
theorem C155_cm (σ : CStore K) (m : Motion K) (c c' : Canvas K V) (fig ax : Option Nat) (hax : Usable c ax)
    (r : Nat × Nat × Nat × Nat) (h : motionPlot σ m c "m" fig ax = (.ok r, c')) :
    ∃ c'', motionPlot σ m c "cm" fig ax = (.ok r, c'') ∧
      (∃ x y, c'.axs[r.2.1]? = some x ∧ c''.axs[r.2.1]? = some y ∧ y.ylabel = "Acceleration [gal]" ∧
        y.lines = x.lines.map (fun l => { l with y := l.y.map (· * 100) }) ∧
        y.notes = x.notes.map (fun n => { n with y := n.y * 100, value := n.value * 100, unit := "gal" })) ∧
      (∃ x y, c'.axs[r.2.2.1]? = some x ∧ c''.axs[r.2.2.1]? = some y ∧ y.ylabel = "Velocity [cm/s]" ∧
        y.lines = x.lines.map (fun l => { l with y := l.y.map (· * 100) })) ∧
      (∃ x y, c'.axs[r.2.2.2]? = some x ∧ c''.axs[r.2.2.2]? = some y ∧ y.ylabel = "Displacement [cm]" ∧
        y.lines = x.lines.map (fun l => { l with y := l.y.map (· * 100) })) := by
  have h' := h
  simp only [motionPlot, if_true] at h'
  set x := m.accel.read σ with hxdef
  have hcm : motionPlot σ m c "cm" fig ax = plotMotion c (scaleCols 1 100 x) "cm" fig ax := by
    unfold motionPlot
    rw [if_neg (by decide), if_pos rfl]; rfl
  have hne : x ≠ [] := by rintro he; rw [he] at h'; simp [plotMotion] at h'
  match hx : x, hne with
  | [p0], _ =>
    exfalso
    simp [plotMotion, numInt, dtOf, bind, Except.bind] at h'
  | r0 :: s0 :: l0, _ =>
    set x2 : Rec K := r0 :: s0 :: l0 with hx2
    have hd : dtOf x2 = .ok (s0.1 - r0.1) := rfl
    have hd' : dtOf (scaleCols 1 100 x2) = .ok (s0.1 - r0.1) := by simp [scaleCols, dtOf, hx2]
    have hni := numInt_ok _ _ hd
    have hk := argmaxAbs_first (vals x2) (by simp [vals, hx2])
    obtain ⟨p, hp, _⟩ := id hk
    have hvs : vals (scaleCols 1 100 x2) = (vals x2).map (· * 100) := by simp [vals, scaleCols]
    have hts : times (scaleCols 1 100 x2) = times x2 := by simp [times, scaleCols]
    have hls : (scaleCols 1 100 x2).length = x2.length := by simp [scaleCols]
    have hk' : LargestFirst (vals (scaleCols 1 100 x2)) (argmaxAbs (vals x2)) := by
      rw [hvs]; exact LargestFirst_scale _ _ _ (by norm_num) hk
    have hp' : (vals (scaleCols 1 100 x2))[argmaxAbs (vals x2)]? = some (p * 100) := by
      rw [hvs, List.getElem?_map, hp]; rfl
    obtain ⟨c1, tk, htk, hf, hl, ho, _, he, hok⟩ := plotMotion_run c x2 _ hd _ _ hni "m" (.inl rfl) fig ax hax _ p hk hp
    obtain ⟨d1, tk', htk', hf', hl', _, _, _, hok'⟩ :=
      plotMotion_run c _ _ hd' _ _ (numInt_cm _ _ _ 100 hni) "cm" (.inr rfl) fig ax hax _ (p * 100) hk' hp'
    have hlt : argmaxAbs (vals x2) + fortieth x2.length < x2.length := by
      by_contra hc
      rw [he (by omega)] at h'
      cases h'
    obtain ⟨tn, htn⟩ : ∃ tn, (times x2)[argmaxAbs (vals x2) + fortieth x2.length]? = some tn :=
      ⟨_, List.getElem?_eq_getElem (by simpa [times] using hlt)⟩
    rw [hok tn htn] at h'
    rw [hts] at htk' hok'
    rw [htk, Option.some.injEq] at htk'
    subst htk'
    rw [hls] at hok'
    have hll : d1.axs.length = c1.axs.length := by rw [hl, hl']
    have hok2 := hok' tn htn
    rw [hll] at hok2
    cases h'
    refine ⟨_, hcm.trans hok2, ?_, ?_, ?_⟩
    · dsimp only
      refine ⟨_, _, by rw [List.getElem?_append_right (le_refl _), Nat.sub_self]; rfl,
        by rw [← hll, List.getElem?_append_right (le_refl _), Nat.sub_self]; rfl, by simp [accelUnit], ?_, ?_⟩
      · simp [hvs]
      · simp [accelUnit, abs_mul]
    · dsimp only
      refine ⟨_, _, by rw [List.getElem?_append_right (by omega), Nat.add_sub_cancel_left]; rfl,
        by rw [← hll, List.getElem?_append_right (by omega), Nat.add_sub_cancel_left]; rfl, by simp, ?_⟩
      simp [vals, scaleCols]
    · dsimp only
      refine ⟨_, _, by rw [List.getElem?_append_right (by omega), Nat.add_sub_cancel_left]; rfl,
        by rw [← hll, List.getElem?_append_right (by omega), Nat.add_sub_cancel_left]; rfl, by simp, ?_⟩
      simp [vals, scaleCols]

/-- C155 fails for the documented unit 'g': it is converted to g and then refused with ValueError, after a figure has been
made. -/
theorem C155_g_violated (σ : CStore K) (m : Motion K) (c : Canvas K V) (h2 : 2 ≤ (m.accel.read σ).length) (fig ax : Option Nat)
    (hax : Usable c ax) :
    ∃ c', motionPlot σ m c "g" fig ax = (.error .valueError, c') ∧ (fig = none → c'.figs = c.figs + 1) := by
  have hg : motionPlot σ m c "g" fig ax = plotMotion c (scaleCols 1 (1 / (981 / 100)) (m.accel.read σ)) "g" fig ax := by
    unfold motionPlot
    rw [if_neg (by decide), if_neg (by decide), if_pos rfl]; rfl
  rw [hg]
  set y := scaleCols 1 (1 / (981 / 100)) (m.accel.read σ) with hy
  have hl : 2 ≤ y.length := by rw [hy]; simpa [scaleCols] using h2
  obtain ⟨c1, h1, _, hf, _⟩ := remove_ok c fig ax hax
  match y, hl with
  | r :: s :: l, _ =>
    refine ⟨c1, ?_, ?_⟩
    · unfold plotMotion
      rw [if_neg (by simp), numInt_ok (s.1 - r.1) _ rfl]
      simp only [h1]
      rw [if_pos (by decide)]
    · rintro rfl; simpa using hf

/-- Every unit other than m, cm and g is refused before anything is drawn. -/
theorem C155_unknown_unit (σ : CStore K) (m : Motion K) (c : Canvas K V) (unit : String) (h1 : unit ≠ "m") (h2 : unit ≠ "cm")
    (h3 : unit ≠ "g") (fig ax : Option Nat) : motionPlot σ m c unit fig ax = (.error .valueError, c) := by
  unfold motionPlot
  rw [if_neg h1, if_neg h2, if_neg h3]

end

end Verif
