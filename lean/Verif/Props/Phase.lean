import Verif.Model.Phase
import Mathlib.Tactic.Linarith
import Mathlib.Tactic.FieldSimp
import Mathlib.Tactic.Ring
import Mathlib.Tactic.NormNum
import Mathlib.Tactic.Positivity

/-!
Properties C31 and C32: first peak of a spectrum, phase unwrapping.
-/

set_option linter.unusedSectionVars false
set_option linter.unusedVariables false

namespace Verif

section
variable {K : Type} [Field K] [LinearOrder K] [IsStrictOrderedRing K]

/-! ## C31 -/

/-- `i` is the first index at which the values stop rising. -/
def Spec.FirstPeak (a : List K) (i : Nat) : Prop :=
  (∀ (j : Nat) u v, j < i → a[j]? = some u → a[j + 1]? = some v → u < v) ∧
  ∃ u v, a[i]? = some u ∧ a[i + 1]? = some v ∧ v ≤ u

/-- The values rise throughout. -/
def Spec.Rising (a : List K) : Prop := ∀ (j : Nat) u v, a[j]? = some u → a[j + 1]? = some v → u < v

theorem flagOf_pos {x : K} (h : 0 < x) : flagOf x = 1 := by simp [flagOf, h]

theorem flagOf_nonpos {x : K} (h : x ≤ 0) : flagOf x ≤ 0 := by
  unfold flagOf
  rw [if_neg (not_lt.2 h)]
  split_ifs <;> decide

theorem f0Loop_spec (i : Nat) (l : List K) (h2 : 2 ≤ l.length) :
    (∃ k, f0Loop 1 i l = i + k ∧ k + 2 < l.length ∧ Spec.FirstPeak l k) ∨
    (f0Loop 1 i l + 2 = i + l.length ∧
      ∀ (j : Nat) u v, j + 2 < l.length → l[j]? = some u → l[j + 1]? = some v → u < v) := by
  induction l generalizing i with
  | nil => simp at h2
  | cons a l ih =>
    match l, h2, ih with
    | [b], _, _ =>
      right
      refine ⟨by simp [f0Loop], ?_⟩
      intro j u v hj; simp at hj
    | b :: c :: rest, _, ih =>
      rw [f0Loop]
      by_cases hab : 0 < b - a
      · rw [flagOf_pos hab, if_neg (by decide)]
        rcases ih (i + 1) (by simp) with ⟨k, h1, h3, h4⟩ | ⟨h1, h3⟩
        · left
          refine ⟨k + 1, by rw [h1]; omega, by simpa using h3, ?_⟩
          refine ⟨?_, by simpa using h4.2⟩
          intro j u v hj hu hv
          cases j with
          | zero => simp at hu hv; subst hu hv; linarith
          | succ j => exact h4.1 j u v (by omega) (by simpa using hu) (by simpa using hv)
        · right
          refine ⟨by rw [h1]; simp; omega, ?_⟩
          intro j u v hj hu hv
          cases j with
          | zero => simp at hu hv; subst hu hv; linarith
          | succ j => exact h3 j u v (by simp at hj ⊢; omega) (by simpa using hu) (by simpa using hv)
      · rw [if_pos ⟨flagOf_nonpos (not_lt.1 hab), rfl⟩]
        left
        refine ⟨0, rfl, by simp, by intro j u v hj; omega, a, b, rfl, rfl, by linarith [not_lt.1 hab]⟩

theorem firstPeak_unique {a : List K} {i j : Nat} (hi : Spec.FirstPeak a i) (hj : Spec.FirstPeak a j) : i = j := by
  rcases Nat.lt_trichotomy i j with h | h | h
  · obtain ⟨u, v, hu, hv, huv⟩ := hi.2
    exact absurd (hj.1 i u v h hu hv) (not_lt.2 huv)
  · exact h
  · obtain ⟨u, v, hu, hv, huv⟩ := hj.2
    exact absurd (hi.1 j u v h hu hv) (not_lt.2 huv)

/-- The first peak is found if it lies before the second-last point.
Missing: a first peak at the second-last point (`C31_violated`). -/
theorem C31_first_peak_partial (x : List (K × K)) (i : Nat) (h : Spec.FirstPeak (x.map Prod.snd) i) (hi : i + 2 < x.length)
    (f : K) (hf : (x.map Prod.fst)[i]? = some f) : findF0 x = .ok f := by
  unfold findF0
  rw [if_neg (by omega)]
  rcases f0Loop_spec 0 (x.map Prod.snd) (by simp; omega) with ⟨k, h1, h3, h4⟩ | ⟨h1, h3⟩
  · have := firstPeak_unique h h4
    subst this
    rw [h1]
    simp only [zero_add]
    rw [if_neg (by omega)]
    rw [List.getElem?_map, Option.map_eq_some_iff] at hf
    obtain ⟨p, hp, rfl⟩ := hf
    rw [hp]
  · obtain ⟨u, v, hu, hv, huv⟩ := h.2
    exact absurd (h3 i u v (by simpa using hi) hu hv) (not_lt.2 huv)

/-- A spectrum that keeps rising: the last frequency. -/
theorem C31_rising (x : List (K × K)) (h : Spec.Rising (x.map Prod.snd)) (h2 : 2 ≤ x.length) (f : K)
    (hf : (x.map Prod.fst).getLast? = some f) : findF0 x = .ok f := by
  unfold findF0
  rw [if_neg (by omega)]
  rcases f0Loop_spec 0 (x.map Prod.snd) (by simpa using h2) with ⟨k, h1, h3, h4⟩ | ⟨h1, h3⟩
  · obtain ⟨u, v, hu, hv, huv⟩ := h4.2
    exact absurd (h k u v hu hv) (not_lt.2 huv)
  · simp only [List.length_map] at h1
    simp only
    rw [if_pos (by omega)]
    rw [List.getLast?_eq_getElem?, List.length_map, List.getElem?_map, Option.map_eq_some_iff] at hf
    obtain ⟨p, hp, rfl⟩ := hf
    rw [show f0Loop 1 0 (x.map Prod.snd) + 1 = x.length - 1 by omega, hp]

/-- Fewer than two points: an error, never a frequency. -/
theorem C31_short (x : List (K × K)) (h : x.length < 2) : findF0 x = .error .unboundLocal := by
  simp [findF0, h]

/-- C31 fails for every spectrum whose first peak is its second-last point: the last frequency
is returned. -/
theorem C31_second_last_violated (x : List (K × K)) (i : Nat) (h : Spec.FirstPeak (x.map Prod.snd) i)
    (hi : i + 2 = x.length) (f : K) (hf : (x.map Prod.fst)[i + 1]? = some f) : findF0 x = .ok f := by
  unfold findF0
  rw [if_neg (by omega)]
  rcases f0Loop_spec 0 (x.map Prod.snd) (by simp; omega) with ⟨k, h1, h3, h4⟩ | ⟨h1, h3⟩
  · have := firstPeak_unique h h4
    subst this
    simp at h3; omega
  · simp only [List.length_map] at h1
    simp only
    rw [if_pos (by omega), show f0Loop 1 0 (x.map Prod.snd) + 1 = i + 1 by omega]
    rw [List.getElem?_map, Option.map_eq_some_iff] at hf
    obtain ⟨p, hp, rfl⟩ := hf
    rw [hp]

/-- C31 fails: the peak is at frequency 2, the function returns 3. -/
theorem C31_violated : findF0 ([(1, 1), (2, 2), (3, 1)] : List (ℚ × ℚ)) = .ok 3 := by decide +kernel

example : findF0 ([(1, 1), (2, 2), (3, 1), (4, 5)] : List (ℚ × ℚ)) = .ok 2 := by decide +kernel

/-! ## C32 -/

/-- The samples as a function of the index. -/
def Spec.at0 (l : List K) (i : Nat) : K := l[i]?.getD 0

/-- A complete climb over several samples, from the trough `t` to the peak `p`. -/
structure Spec.Climb (l : List K) (t p : Nat) : Prop where
  long : t + 1 < p
  inside : p + 1 < l.length
  start : 1 ≤ t
  before : Spec.at0 l t ≤ Spec.at0 l (t - 1)
  up : ∀ k, t < k → k ≤ p → Spec.at0 l (k - 1) < Spec.at0 l k
  after : Spec.at0 l (p + 1) ≤ Spec.at0 l p

theorem climb_unique {l : List K} {t p t' p' j : Nat} (h : Spec.Climb l t p) (h' : Spec.Climb l t' p')
    (h1 : t < j) (h2 : j ≤ p) (h3 : t' < j) (h4 : j ≤ p') : t = t' ∧ p = p' := by
  constructor
  · rcases Nat.lt_trichotomy t t' with hh | hh | hh
    · exact absurd (h.up t' hh (by omega)) (not_lt.2 h'.before)
    · exact hh
    · exact absurd (h'.up t hh (by omega)) (not_lt.2 h.before)
  · rcases Nat.lt_trichotomy p p' with hh | hh | hh
    · have := h'.up (p + 1) (by omega) (by omega)
      exact absurd this (not_lt.2 h.after)
    · exact hh
    · have := h.up (p' + 1) (by omega) (by omega)
      exact absurd this (not_lt.2 h'.after)

/-- Invariant of the first loop after processing index `m`. -/
structure UInv (l : List K) (m : Nat) (s : UState) : Prop where
  down : s.flag = false → s.trough = (m : Int) ∧ Spec.at0 l m ≤ Spec.at0 l (m - 1)
  climbing : s.flag = true → s.peak = (m : Int) ∧ ∃ t : Nat, s.trough = (t : Int) ∧ 1 ≤ t ∧ t < m ∧
    Spec.at0 l t ≤ Spec.at0 l (t - 1) ∧ ∀ k, t < k → k ≤ m → Spec.at0 l (k - 1) < Spec.at0 l k
  sound : ∀ q ∈ s.drawer, ∃ t p : Nat, q = ((t : Int), (p : Int)) ∧ Spec.Climb l t p
  complete : ∀ t p : Nat, Spec.Climb l t p → p + 1 ≤ m → ((t : Int), (p : Int)) ∈ s.drawer

theorem uInv_step (l : List K) (m : Nat) (s : UState) (hm : 1 ≤ m) (hlen : m + 1 < l.length) (h : UInv l m s) :
    UInv l (m + 1) (uStep (m + 1) (Spec.at0 l m) (Spec.at0 l (m + 1)) s) := by
  unfold uStep
  by_cases hle : Spec.at0 l (m + 1) ≤ Spec.at0 l m
  · rw [if_pos hle]
    by_cases hf : s.flag = true
    · rw [if_pos hf]
      obtain ⟨hp, t, ht, ht1, htm, hb, hup⟩ := h.climbing hf
      refine ⟨fun _ => ⟨by simp, by simpa using hle⟩, (by intro hh; cases hh), ?_, ?_⟩
      · intro q hq
        simp only at hq
        split_ifs at hq with hlong
        · rcases List.mem_append.1 hq with hq | hq
          · exact h.sound q hq
          · simp only [List.mem_singleton] at hq
            subst hq
            rw [hp, ht] at hlong ⊢
            exact ⟨t, m, rfl, by omega, hlen, ht1, hb, hup, hle⟩
        · exact h.sound q hq
      · intro t' p' hc hpm
        simp only
        by_cases hpm' : p' + 1 ≤ m
        · have := h.complete t' p' hc hpm'
          split_ifs
          · exact List.mem_append_left _ this
          · exact this
        · have : p' = m := by omega
          subst this
          have hlong := hc.long
          have htt : t = t' := by
            rcases Nat.lt_trichotomy t t' with hh | hh | hh
            · exact absurd (hup t' hh (by omega)) (not_lt.2 hc.before)
            · exact hh
            · exact absurd (hc.up t hh (by omega)) (not_lt.2 hb)
          subst htt
          rw [if_pos (by rw [hp, ht]; omega)]
          apply List.mem_append_right
          rw [hp, ht]; simp
    · rw [if_neg hf]
      have hf' : s.flag = false := by simpa using hf
      obtain ⟨ht, hd⟩ := h.down hf'
      refine ⟨fun _ => ⟨by simp, by simpa using hle⟩, (fun hh => absurd hh hf), h.sound, ?_⟩
      intro t' p' hc hpm
      by_cases hpm' : p' + 1 ≤ m
      · exact h.complete t' p' hc hpm'
      · have : p' = m := by omega
        subst this
        have := hc.up p' (by have := hc.long; omega) le_rfl
        exact absurd this (not_lt.2 hd)
  · rw [if_neg hle]
    push Not at hle
    refine ⟨(by intro hh; cases hh), ?_, h.sound, ?_⟩
    · intro _
      refine ⟨by simp, ?_⟩
      by_cases hf : s.flag = true
      · obtain ⟨hp, t, ht, ht1, htm, hb, hup⟩ := h.climbing hf
        refine ⟨t, ht, ht1, by omega, hb, ?_⟩
        intro k hk1 hk2
        by_cases hk : k ≤ m
        · exact hup k hk1 hk
        · have : k = m + 1 := by omega
          subst this
          simpa using hle
      · have hf' : s.flag = false := by simpa using hf
        obtain ⟨ht, hd⟩ := h.down hf'
        refine ⟨m, ht, hm, by omega, hd, ?_⟩
        intro k hk1 hk2
        have : k = m + 1 := by omega
        subst this
        simpa using hle
    · intro t' p' hc hpm
      by_cases hpm' : p' + 1 ≤ m
      · exact h.complete t' p' hc hpm'
      · have : p' = m := by omega
        subst this
        exact absurd hc.after (not_le.2 hle)

theorem uInv_loop (l : List K) (m : Nat) (s : UState) (rest : List K) (hm : 1 ≤ m) (hrest : l.drop m = rest)
    (hlen : m < l.length) (h : UInv l m s) : UInv l (l.length - 1) (uLoop (m + 1) s rest) := by
  induction rest generalizing m s with
  | nil =>
    have := congrArg List.length hrest
    simp at this; omega
  | cons a rest ih =>
    cases rest with
    | nil =>
      have := congrArg List.length hrest
      simp at this
      have hm' : m = l.length - 1 := by omega
      subst hm'
      exact h
    | cons b rest =>
      have hl := congrArg List.length hrest
      simp at hl
      have ha : l[m]? = some a := by
        have := congrArg (fun l => l[0]?) hrest
        simpa using this
      have hb : l[m + 1]? = some b := by
        have := congrArg (fun l => l[1]?) hrest
        simpa using this
      rw [uLoop]
      apply ih (m + 1) _ (by omega) _ (by omega)
      · have := uInv_step l m s hm (by omega) h
        simpa [Spec.at0, ha, hb] using this
      · rw [← List.drop_drop, hrest]; rfl

theorem set_same (x : List K) (w : Nat) (c : K) : x.set w (x[w]?.getD 0 + 0 / c * 0) = x := by
  apply List.ext_getElem?
  intro i
  by_cases h : w = i
  · subst h
    by_cases hw : w < x.length
    · rw [List.getElem?_set_self hw, List.getElem?_eq_getElem hw]; simp
    · rw [List.getElem?_eq_none (by simpa using hw), List.getElem?_eq_none (by simpa using hw)]
  · rw [List.getElem?_set_ne h]

theorem fillClimb_length (n : Nat) (i1 : Int) (len scale : K) (ks : List Nat) (x : List K) :
    (fillClimb n i1 len scale x ks).length = x.length := by
  induction ks generalizing x with
  | nil => rfl
  | cons k ks ih => rw [fillClimb, ih, List.length_set]

theorem fillClimb_other (n : Nat) (t : Nat) (len scale : K) (q : Nat) (ks : List Nat) (x : List K)
    (h : ∀ k ∈ ks, k ≠ 0 → t + k ≠ q) :
    (fillClimb n (t : Int) len scale x ks)[q]? = x[q]? := by
  induction ks generalizing x with
  | nil => rfl
  | cons k ks ih =>
    rw [fillClimb, ih _ (fun k' hk' => h k' (by simp [hk']))]
    have hw : wrapIdx n ((t : Int) + (k : Int)) = t + k := by unfold wrapIdx; rw [if_neg (by omega)]; omega
    have hw0 : wrapIdx n (t : Int) = t := by unfold wrapIdx; rw [if_neg (by omega)]; omega
    rw [hw, hw0]
    by_cases hk : k = 0
    · subst hk
      have : x.set (t + 0) (x[t]?.getD 0 + ((0 : Nat) : K) / len * scale) = x := by
        have := set_same x t 1
        simpa using this
      rw [this]
    · rw [List.getElem?_set_ne (h k (by simp) hk)]

theorem fillClimb_hit (n : Nat) (t : Nat) (len scale : K) (ks : List Nat) (x : List K) (k : Nat) (hk : k ∈ ks) (hk0 : k ≠ 0)
    (hnd : ks.Nodup) (hlt : t + k < x.length) (ht : t < x.length) :
    (fillClimb n (t : Int) len scale x ks)[t + k]? = some (Spec.at0 x t + (k : K) / len * scale) := by
  induction ks generalizing x with
  | nil => cases hk
  | cons k' ks ih =>
    rw [List.nodup_cons] at hnd
    rw [fillClimb]
    have hw : wrapIdx n ((t : Int) + (k' : Int)) = t + k' := by unfold wrapIdx; rw [if_neg (by omega)]; omega
    have hw0 : wrapIdx n (t : Int) = t := by unfold wrapIdx; rw [if_neg (by omega)]; omega
    rw [hw, hw0]
    rcases List.mem_cons.1 hk with rfl | hk
    · rw [fillClimb_other]
      · rw [List.getElem?_set_self hlt]; rfl
      · intro j hj _ he
        have : j = k := by omega
        subst this
        exact hnd.1 hj
    · rw [ih _ hk hnd.2 (by simpa using hlt) (by simpa using ht)]
      congr 2
      unfold Spec.at0
      by_cases hk' : k' = 0
      · subst hk'
        rw [add_zero, List.getElem?_set_self ht]
        simp
      · rw [List.getElem?_set_ne (by omega)]

/-- The value given to sample `j` of a climb from `t` to `p`: linear from the trough to `-π`. -/
def Spec.repaired (pi : K) (l : List K) (t p j : Nat) : K :=
  Spec.at0 l t + ((j - t : Nat) : K) / ((p - t - 1 : Nat) : K) * (-pi - Spec.at0 l t)

theorem repairPair_spec (pi : K) (l x : List K) (t p : Nat) (hc : Spec.Climb l t p) (hx : x.length = l.length) :
    (repairPair pi l x ((t : Int), (p : Int))).length = l.length ∧
    (∀ q, ¬ (t < q ∧ q < p) → (repairPair pi l x ((t : Int), (p : Int)))[q]? = x[q]?) ∧
    (∀ j, t < j → j < p → Spec.at0 x t = Spec.at0 l t →
      (repairPair pi l x ((t : Int), (p : Int)))[j]? = some (Spec.repaired pi l t p j)) := by
  have hlong := hc.long
  have hin := hc.inside
  have hw0 : wrapIdx l.length (t : Int) = t := by unfold wrapIdx; rw [if_neg (by omega)]; omega
  have hr : ((p : Int) - (t : Int)).toNat = p - t := by omega
  have hcast : (((p : Int) - (t : Int) - 1 : Int) : K) = ((p - t - 1 : Nat) : K) := by
    rw [show ((p : Int) - (t : Int) - 1) = ((p - t - 1 : Nat) : Int) by omega]; simp
  unfold repairPair
  simp only [hw0, hr]
  refine ⟨by rw [fillClimb_length, hx], ?_, ?_⟩
  · intro q hq
    apply fillClimb_other
    intro k hk hk0 he
    rw [List.mem_range] at hk
    exact hq ⟨by omega, by omega⟩
  · intro j hj1 hj2 hxt
    have := fillClimb_hit l.length t (((p : Int) - (t : Int) - 1 : Int) : K) (-pi - l[t]?.getD 0) (List.range (p - t)) x (j - t)
      (by rw [List.mem_range]; omega) (by omega) List.nodup_range (by omega) (by omega)
    rw [show t + (j - t) = j by omega] at this
    rw [this, hcast, hxt]
    rfl

theorem foldl_repair (pi : K) (l : List K) (dr : List (Int × Int)) (x : List K) (hx : x.length = l.length)
    (hs : ∀ q ∈ dr, ∃ t p : Nat, q = ((t : Int), (p : Int)) ∧ Spec.Climb l t p)
    (hxt : ∀ t p : Nat, Spec.Climb l t p → Spec.at0 x t = Spec.at0 l t) :
    let y := dr.foldl (repairPair pi l) x
    y.length = l.length ∧
    (∀ q, (∀ t p : Nat, ((t : Int), (p : Int)) ∈ dr → ¬ (t < q ∧ q < p)) → y[q]? = x[q]?) ∧
    (∀ t p j : Nat, ((t : Int), (p : Int)) ∈ dr → t < j → j < p → y[j]? = some (Spec.repaired pi l t p j)) := by
  induction dr generalizing x with
  | nil => exact ⟨hx, fun _ _ => rfl, by intro t p j h; cases h⟩
  | cons d dr ih =>
    obtain ⟨t, p, rfl, hc⟩ := hs d (by simp)
    obtain ⟨h1, h2, h3⟩ := repairPair_spec pi l x t p hc hx
    have hxt' : ∀ t' p' : Nat, Spec.Climb l t' p' →
        Spec.at0 (repairPair pi l x ((t : Int), (p : Int))) t' = Spec.at0 l t' := by
      intro t' p' hc'
      rw [← hxt t' p' hc']
      unfold Spec.at0
      rw [h2 t']
      rintro ⟨ha, hb⟩
      exact absurd (hc.up t' ha hb.le) (not_lt.2 hc'.before)
    obtain ⟨g1, g2, g3⟩ := ih _ h1 (fun q hq => hs q (by simp [hq])) hxt'
    simp only [List.foldl_cons]
    refine ⟨g1, ?_, ?_⟩
    · intro q hq
      rw [g2 q (fun t' p' hm => hq t' p' (by simp [hm])), h2 q (hq t p (by simp))]
    · intro t' p' j hm hj1 hj2
      by_cases hm' : ((t' : Int), (p' : Int)) ∈ dr
      · exact g3 t' p' j hm' hj1 hj2
      · rcases List.mem_cons.1 hm with he | he
        · simp only [Prod.mk.injEq, Nat.cast_inj] at he
          obtain ⟨rfl, rfl⟩ := he
          rw [g2 j, h3 j hj1 hj2 (hxt _ _ hc)]
          intro t'' p'' hm'' hh
          obtain ⟨a, b, hab, hc''⟩ := hs _ (List.mem_cons_of_mem _ hm'')
          simp only [Prod.mk.injEq, Nat.cast_inj] at hab
          obtain ⟨rfl, rfl⟩ := hab
          obtain ⟨rfl, rfl⟩ := climb_unique hc hc'' hj1 hj2.le hh.1 hh.2.le
          exact hm' hm''
        · exact absurd he hm'

/-- The repair step, for signals that do not begin with a climb: samples strictly inside of a
complete multi-sample climb are replaced by the line from the trough value towards `-π`,
all others are kept.  Missing: signals beginning with a climb (`C32_violated`). -/
theorem C32_repair_partial (pi : K) (l : List K)
    (h01 : ∀ a b, l[0]? = some a → l[1]? = some b → b ≤ a) :
    (repair pi l).length = l.length ∧
    (∀ q, (∀ t p, Spec.Climb l t p → ¬ (t < q ∧ q < p)) → (repair pi l)[q]? = l[q]?) ∧
    (∀ t p j, Spec.Climb l t p → t < j → j < p → (repair pi l)[j]? = some (Spec.repaired pi l t p j)) := by
  by_cases hlen : l.length < 2
  · have hr : repair pi l = l := by
      match l, hlen with
      | [], _ => rfl
      | [_], _ => rfl
    rw [hr]
    refine ⟨rfl, fun _ _ => rfl, ?_⟩
    intro t p j hc
    have := hc.inside
    omega
  · match l, hlen, h01 with
    | [], hlen, _ => exact absurd (by simp) hlen
    | [_], hlen, _ => exact absurd (by simp) hlen
    | a :: b :: rest, _, h01 =>
      have hba := h01 a b rfl rfl
      have h1 : UInv (a :: b :: rest) 1 (uStep 1 a b ⟨-1, -1, false, []⟩) := by
        unfold uStep
        rw [if_pos hba]
        refine ⟨fun _ => ⟨rfl, hba⟩, (by intro hh; cases hh), (by intro q hq; cases hq), ?_⟩
        intro t p hc hp
        have := hc.long
        have := hc.start
        omega
      have hinv := uInv_loop (a :: b :: rest) 1 _ (b :: rest) le_rfl rfl (by simp) h1
      have hloop : uLoop 1 ⟨-1, -1, false, []⟩ (a :: b :: rest) = uLoop 2 (uStep 1 a b ⟨-1, -1, false, []⟩) (b :: rest) := by
        rw [uLoop]
      unfold repair
      rw [hloop]
      obtain ⟨g1, g2, g3⟩ := foldl_repair pi (a :: b :: rest) _ (a :: b :: rest) rfl hinv.sound (fun _ _ _ => rfl)
      refine ⟨g1, ?_, ?_⟩
      · intro q hq
        apply g2 q
        intro t p hm
        obtain ⟨t', p', he, hc⟩ := hinv.sound _ hm
        simp only [Prod.mk.injEq, Nat.cast_inj] at he
        obtain ⟨rfl, rfl⟩ := he
        exact hq _ _ hc
      · intro t p j hc
        apply g3 t p j
        apply hinv.complete t p hc
        have := hc.inside
        omega

/-- A non-increasing signal is not changed by the repair step. -/
theorem C32_nonincreasing (pi : K) (l : List K)
    (h : ∀ (j : Nat) u v, l[j]? = some u → l[j + 1]? = some v → v ≤ u) : repair pi l = l := by
  obtain ⟨_, h2, _⟩ := C32_repair_partial pi l (fun a b ha hb => h 0 a b ha hb)
  apply List.ext_getElem?
  intro q
  apply h2
  intro t p hc hq
  have hin := hc.inside
  have hup := hc.up p (by omega) le_rfl
  have := hc.long
  have := h (p - 1) l[p - 1] l[p] (List.getElem?_eq_getElem _) (by rw [show p - 1 + 1 = p by omega]; exact List.getElem?_eq_getElem _)
  unfold Spec.at0 at hup
  rw [List.getElem?_eq_getElem (by omega), List.getElem?_eq_getElem (by omega)] at hup
  exact absurd hup (not_lt.2 this)

/-- A climb satisfying the definition: samples 2 to 4 of the second signal below. -/
example : repair (3 : ℚ) [0, -1, -2, -1, 1, 0] = [0, -1, -2, -3, 1, 0] := by decide +kernel

/-- C32 fails: the signal 0, 1, 1/2 has no multi-sample climb, but its first sample is
replaced (the trough index -1 is used as an array index). -/
theorem C32_violated : repair (3 : ℚ) [0, 1, 1 / 2] = [-3, 1, 1 / 2] ∧ ∀ t p, ¬ Spec.Climb ([0, 1, 1 / 2] : List ℚ) t p := by
  refine ⟨by decide +kernel, ?_⟩
  intro t p hc
  have h1 := hc.long
  have h2 := hc.inside
  simp at h2; omega

variable [FloorRing K]

/-- Unwrapping keeps the number of samples, the first sample, changes samples by whole turns
only, and leaves no step larger than half a turn (or than `discont` if that is larger). -/
theorem C32_unwrap (pi discont : K) (hpi : 0 < pi) (c : K) (l : List K) (hc : ∃ k : Int, c = 2 * pi * k) :
    (npUnwrapFrom pi discont c l).length = l.length ∧
    (∀ a, l[0]? = some a → (npUnwrapFrom pi discont c l)[0]? = some (a + c)) ∧
    (∀ (i : Nat) a x, l[i]? = some a → (npUnwrapFrom pi discont c l)[i]? = some x → ∃ k : Int, x = a + 2 * pi * k) ∧
    (∀ (i : Nat) x y, (npUnwrapFrom pi discont c l)[i]? = some x → (npUnwrapFrom pi discont c l)[i + 1]? = some y →
      |y - x| ≤ max pi discont) := by
  have hcorr : ∀ d : K, (∃ k : Int, unwrapCorr pi discont d = 2 * pi * k) ∧ |d + unwrapCorr pi discont d| ≤ max pi discont := by
    intro d
    unfold unwrapCorr fmod
    simp only
    set f : K := (⌊(d + pi) / (2 * pi)⌋ : K) with hf
    have hp2 : (0 : K) < 2 * pi := by linarith
    have hle : 2 * pi * f ≤ d + pi := by
      have := Int.floor_le ((d + pi) / (2 * pi))
      rw [le_div_iff₀ hp2] at this
      linarith
    have hlt : d + pi < 2 * pi * f + 2 * pi := by
      have := Int.lt_floor_add_one ((d + pi) / (2 * pi))
      rw [div_lt_iff₀ hp2] at this
      linarith
    by_cases hd : |d| < discont
    · rw [if_pos hd]
      exact ⟨⟨0, by simp⟩, by simpa using hd.le.trans (le_max_right _ _)⟩
    · rw [if_neg hd]
      by_cases hm : d + pi - 2 * pi * f - pi = -pi ∧ 0 < d
      · rw [if_pos hm]
        constructor
        · refine ⟨1 - ⌊(d + pi) / (2 * pi)⌋, ?_⟩
          push_cast
          rw [← hf]
          linarith [hm.1]
        · rw [show d + (pi - d) = pi by ring, abs_of_pos hpi]
          exact le_max_left _ _
      · rw [if_neg hm]
        constructor
        · refine ⟨-⌊(d + pi) / (2 * pi)⌋, ?_⟩
          push_cast
          rw [← hf]; ring
        · refine le_trans ?_ (le_max_left _ _)
          rw [abs_le]
          constructor <;> linarith
  induction l generalizing c with
  | nil => refine ⟨rfl, by intro a h; simp at h, by intro i a x h; simp at h, by intro i x y h; simp [npUnwrapFrom] at h⟩
  | cons a l ih =>
    cases l with
    | nil =>
      obtain ⟨k, hk⟩ := hc
      refine ⟨rfl, by intro b h; simp at h; subst h; rfl, ?_, by intro i x y h h'; simp [npUnwrapFrom] at h'⟩
      intro i b x h1 h2
      cases i with
      | zero =>
        simp only [List.getElem?_cons_zero, Option.some.injEq, npUnwrapFrom] at h1 h2
        subst h1 h2
        exact ⟨k, by rw [hk]⟩
      | succ i => simp at h1
    | cons b l =>
      obtain ⟨k, hk⟩ := hc
      obtain ⟨⟨k', hk'⟩, hstep⟩ := hcorr (b - a)
      obtain ⟨g1, g2, g3, g4⟩ := ih (c + unwrapCorr pi discont (b - a)) ⟨k + k', by rw [hk, hk']; push_cast; ring⟩
      rw [npUnwrapFrom]
      refine ⟨by simpa using g1, by intro x h; simp at h; subst h; rfl, ?_, ?_⟩
      · intro i y x h1 h2
        cases i with
        | zero =>
          simp only [List.getElem?_cons_zero, Option.some.injEq] at h1 h2
          subst h1 h2
          exact ⟨k, by rw [hk]⟩
        | succ i => exact g3 i y x (by simpa using h1) (by simpa using h2)
      · intro i x y h1 h2
        cases i with
        | zero =>
          simp only [List.getElem?_cons_zero, Option.some.injEq, List.getElem?_cons_succ, zero_add] at h1 h2
          rw [g2 b rfl, Option.some.injEq] at h2
          subst h1 h2
          rw [show b + (c + unwrapCorr pi discont (b - a)) - (a + c) = (b - a) + unwrapCorr pi discont (b - a) by ring]
          exact hstep
        | succ i => exact g4 i x y (by simpa using h1) (by simpa using h2)

/-- For the whole function: as many samples as given, and no step above half a turn. -/
theorem C32_robust (pi : K) (hpi : 0 < pi) (l : List K) (h01 : ∀ a b, l[0]? = some a → l[1]? = some b → b ≤ a) :
    (robustUnwrap pi pi l).length = l.length ∧
    ∀ (i : Nat) x y, (robustUnwrap pi pi l)[i]? = some x → (robustUnwrap pi pi l)[i + 1]? = some y → |y - x| ≤ pi := by
  obtain ⟨h1, _, _, h4⟩ := C32_unwrap pi pi hpi 0 (repair pi l) ⟨0, by simp⟩
  refine ⟨by unfold robustUnwrap; rw [h1]; exact (C32_repair_partial pi l h01).1, ?_⟩
  intro i x y hx hy
  have := h4 i x y hx hy
  rwa [max_self] at this

/-- A signal with steps below half a turn is not changed by unwrapping. -/
theorem C32_smooth (pi discont : K) (l : List K)
    (h : ∀ (i : Nat) x y, l[i]? = some x → l[i + 1]? = some y → |y - x| < discont) : npUnwrapFrom pi discont 0 l = l := by
  induction l with
  | nil => rfl
  | cons a l ih =>
    cases l with
    | nil => simp [npUnwrapFrom]
    | cons b l =>
      rw [npUnwrapFrom]
      have h0 := h 0 a b rfl rfl
      have : unwrapCorr pi discont (b - a) = 0 := by unfold unwrapCorr; simp only; rw [if_pos h0]
      rw [this, add_zero, add_zero, ih (fun i x y hx hy => h (i + 1) x y (by simpa using hx) (by simpa using hy))]

example : npUnwrapFrom (3 : ℚ) 3 0 [-2, 2, 1] = [-2, -4, -5] := by decide +kernel

end

end Verif
