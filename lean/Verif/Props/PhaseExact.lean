import Verif.Props.Phase

/-!
C32 for signals beginning with a climb: the repair step for every signal.
-/

set_option linter.unusedSectionVars false
set_option linter.unusedVariables false

namespace Verif

section
variable {K : Type} [Field K] [LinearOrder K] [IsStrictOrderedRing K]

/-- The signal rises from its first sample to sample `p` and falls or stays after it. -/
structure Spec.FirstClimb (l : List K) (p : Nat) : Prop where
  some' : 1 ≤ p
  inside : p + 1 < l.length
  up : ∀ k, 1 ≤ k → k ≤ p → Spec.at0 l (k - 1) < Spec.at0 l k
  after : Spec.at0 l (p + 1) ≤ Spec.at0 l p

theorem uStep_prefix (d : List (Int × Int)) (i : Nat) (a b : K) (s : UState) :
    uStep i a b { s with drawer := d ++ s.drawer } = { uStep i a b s with drawer := d ++ (uStep i a b s).drawer } := by
  unfold uStep
  simp only
  split_ifs <;> simp

theorem uLoop_prefix (d : List (Int × Int)) (l : List K) (i : Nat) (s : UState) :
    uLoop i { s with drawer := d ++ s.drawer } l = { uLoop i s l with drawer := d ++ (uLoop i s l).drawer } := by
  induction l generalizing i s with
  | nil => rfl
  | cons a l ih =>
    cases l with
    | nil => rfl
    | cons b l => rw [uLoop, uLoop, uStep_prefix, ih]

theorem drop_two (l : List K) (p : Nat) (h : p + 1 < l.length) :
    l.drop p = Spec.at0 l p :: Spec.at0 l (p + 1) :: l.drop (p + 2) := by
  rw [List.drop_eq_getElem_cons (by omega), List.drop_eq_getElem_cons h]
  simp [Spec.at0, List.getElem?_eq_getElem (show p < l.length by omega), List.getElem?_eq_getElem h]

theorem uLoop_rise (l : List K) (p : Nat) (h1 : 1 ≤ p) (hp : p < l.length)
    (hup : ∀ k, 1 ≤ k → k ≤ p → Spec.at0 l (k - 1) < Spec.at0 l k) :
    uLoop 1 ⟨-1, -1, false, []⟩ l = uLoop (p + 1) ⟨-1, (p : Int), true, []⟩ (l.drop p) := by
  induction p with
  | zero => omega
  | succ p ih =>
    have hr := hup (p + 1) (by omega) le_rfl
    simp only [Nat.add_sub_cancel] at hr
    by_cases h0 : p = 0
    · subst h0
      have := drop_two l 0 hp
      rw [List.drop_zero] at this
      conv_lhs => rw [this, uLoop]
      rw [show l.drop (0 + 1) = Spec.at0 l (0 + 1) :: l.drop (0 + 2) by
        have h2 := congrArg List.tail this
        simpa using h2]
      congr 1
      unfold uStep
      rw [if_neg (not_le.2 hr)]
    · rw [ih (by omega) (by omega) (fun k hk1 hk2 => hup k hk1 (by omega)), drop_two l p hp, uLoop]
      rw [show l.drop (p + 1) = Spec.at0 l (p + 1) :: l.drop (p + 2) by
        have h2 := congrArg List.tail (drop_two l p hp)
        simpa using h2]
      congr 1
      unfold uStep
      rw [if_neg (not_le.2 hr)]

theorem wrap_last (n : Nat) (hn : 1 ≤ n) : wrapIdx n (-1) = n - 1 := by
  unfold wrapIdx; rw [if_pos (by omega)]; omega

/-- The pair with trough `-1`: the samples before the peak are put on a line starting at the last
sample of the signal. -/
theorem repairPair_first (pi : K) (l : List K) (p : Nat) (h1 : 1 ≤ p) (hp : p + 1 < l.length) :
    repairPair pi l l (-1, (p : Int)) =
      (List.range p).foldl (fun x j => x.set j (Spec.at0 l (l.length - 1)
        + ((j + 1 : Nat) : K) / (p : K) * (-pi - Spec.at0 l (l.length - 1)))) l := by
  have key : ∀ (ks : List Nat) (x : List K), (∀ k ∈ ks, k < p) → x[l.length - 1]? = l[l.length - 1]? →
      fillClimb l.length (-1) (p : K) (-pi - Spec.at0 l (l.length - 1)) x (ks.map (· + 1)) =
      ks.foldl (fun x j => x.set j (Spec.at0 l (l.length - 1)
        + ((j + 1 : Nat) : K) / (p : K) * (-pi - Spec.at0 l (l.length - 1)))) x := by
    intro ks
    induction ks with
    | nil => intro x _ _; rfl
    | cons k ks ih =>
      intro x hk hx
      rw [List.map_cons, fillClimb, List.foldl_cons]
      have hw : wrapIdx l.length (-1 + ((k + 1 : Nat) : Int)) = k := by
        unfold wrapIdx; rw [if_neg (by omega)]; omega
      rw [hw, wrap_last _ (by omega), hx, ih]
      · rfl
      · exact fun k' hk' => hk k' (by simp [hk'])
      · rw [List.getElem?_set_ne (by have := hk k (by simp); omega), hx]
  unfold repairPair
  simp only
  rw [wrap_last _ (by omega)]
  rw [show ((p : Int) - -1).toNat = p + 1 by omega, show ((p : Int) - -1 - 1 : Int) = (p : Int) by omega]
  rw [List.range_succ_eq_map, fillClimb]
  have hset : l.set (wrapIdx l.length (-1 + ((0 : Nat) : Int)))
      (l[wrapIdx l.length (-1)]?.getD 0 + ((0 : Nat) : K) / (((p : Int) : Int) : K) * (-pi - l[l.length - 1]?.getD 0)) = l := by
    rw [show (-1 + ((0 : Nat) : Int)) = -1 by omega, wrap_last _ (by omega)]
    have := set_same l (l.length - 1) 1
    simpa using this
  rw [hset]
  have := key (List.range p) l (fun k hk => List.mem_range.1 hk) rfl
  simpa [Spec.at0, Nat.succ_eq_add_one] using this

theorem foldl_set_range (f : Nat → K) (p : Nat) (l : List K) (hp : p ≤ l.length) :
    ((List.range p).foldl (fun x j => x.set j (f j)) l).length = l.length ∧
    (∀ q, p ≤ q → ((List.range p).foldl (fun x j => x.set j (f j)) l)[q]? = l[q]?) ∧
    ∀ j, j < p → ((List.range p).foldl (fun x j => x.set j (f j)) l)[j]? = some (f j) := by
  induction p with
  | zero => exact ⟨rfl, fun _ _ => rfl, by intro j hj; omega⟩
  | succ p ih =>
    obtain ⟨g1, g2, g3⟩ := ih (by omega)
    rw [List.range_succ, List.foldl_append, List.foldl_cons, List.foldl_nil]
    refine ⟨by rw [List.length_set, g1], ?_, ?_⟩
    · intro q hq
      rw [List.getElem?_set_ne (by omega), g2 q (by omega)]
    · intro j hj
      by_cases hjp : j = p
      · subst hjp
        rw [List.getElem?_set_self (by rw [g1]; omega)]
      · rw [List.getElem?_set_ne (Ne.symm hjp), g3 j (by omega)]

theorem climb_after_first {l : List K} {p t q : Nat} (h : Spec.FirstClimb l p) (hc : Spec.Climb l t q) : p < t := by
  by_contra hn
  exact absurd (h.up t hc.start (by omega)) (not_lt.2 hc.before)

/-- C32 fails for every signal that begins with a complete climb, of however few samples: all samples
before the first peak `p` are replaced by a line which starts at the **last** sample of the signal and
ends at `-π` (the trough index -1 is used as an array index).  All other samples are treated as
documented. -/
theorem C32_initial_climb_violated (pi : K) (l : List K) (p : Nat) (h : Spec.FirstClimb l p) :
    (repair pi l).length = l.length ∧
    (∀ j, j < p → (repair pi l)[j]? = some (Spec.at0 l (l.length - 1)
      + ((j + 1 : Nat) : K) / (p : K) * (-pi - Spec.at0 l (l.length - 1)))) ∧
    (∀ q, p ≤ q → (∀ t p', Spec.Climb l t p' → ¬ (t < q ∧ q < p')) → (repair pi l)[q]? = l[q]?) ∧
    (∀ t p' j, Spec.Climb l t p' → t < j → j < p' → (repair pi l)[j]? = some (Spec.repaired pi l t p' j)) := by
  have hin := h.inside
  have h1 := h.some'
  have hloop : (uLoop 1 ⟨-1, -1, false, []⟩ l) =
      { uLoop (p + 2) ⟨((p + 1 : Nat) : Int), (p : Int), false, []⟩ (l.drop (p + 1)) with
        drawer := [(-1, (p : Int))] ++ (uLoop (p + 2) ⟨((p + 1 : Nat) : Int), (p : Int), false, []⟩ (l.drop (p + 1))).drawer } := by
    rw [uLoop_rise l p h1 (by omega) h.up, drop_two l p hin, uLoop]
    rw [show l.drop (p + 1) = Spec.at0 l (p + 1) :: l.drop (p + 2) by
      have h2 := congrArg List.tail (drop_two l p hin)
      simpa using h2]
    rw [← uLoop_prefix]
    congr 1
    unfold uStep
    rw [if_pos h.after, if_pos rfl]
    simp only
    rw [if_pos (by omega)]
    rfl
  have hinv : UInv l (p + 1) ⟨((p + 1 : Nat) : Int), (p : Int), false, []⟩ := by
    refine ⟨fun _ => ⟨rfl, by simpa using h.after⟩, (by intro hh; cases hh), (by intro q hq; cases hq), ?_⟩
    intro t p' hc hp'
    have := climb_after_first h hc
    have := hc.long
    omega
  have hfin := uInv_loop l (p + 1) _ (l.drop (p + 1)) (by omega) rfl hin hinv
  obtain ⟨f1, f2, f3⟩ := foldl_set_range (fun j => Spec.at0 l (l.length - 1)
        + ((j + 1 : Nat) : K) / (p : K) * (-pi - Spec.at0 l (l.length - 1))) p l (by omega)
  rw [← repairPair_first pi l p h1 hin] at f1 f2 f3
  have hxt : ∀ t p' : Nat, Spec.Climb l t p' → Spec.at0 (repairPair pi l l (-1, (p : Int))) t = Spec.at0 l t := by
    intro t p' hc
    have := climb_after_first h hc
    unfold Spec.at0
    rw [f2 t (by omega)]
  obtain ⟨g1, g2, g3⟩ := foldl_repair pi l _ _ f1 hfin.sound hxt
  have hrep : repair pi l = (uLoop (p + 2) ⟨((p + 1 : Nat) : Int), (p : Int), false, []⟩ (l.drop (p + 1))).drawer.foldl
      (repairPair pi l) (repairPair pi l l (-1, (p : Int))) := by
    unfold repair
    rw [hloop]
    simp
  rw [hrep]
  have hclimb : ∀ t p' : Nat, ((t : Int), (p' : Int)) ∈
      (uLoop (p + 2) ⟨((p + 1 : Nat) : Int), (p : Int), false, []⟩ (l.drop (p + 1))).drawer → Spec.Climb l t p' := by
    intro t p' hm
    obtain ⟨a, b, he, hc⟩ := hfin.sound _ hm
    simp only [Prod.mk.injEq, Nat.cast_inj] at he
    obtain ⟨rfl, rfl⟩ := he
    exact hc
  refine ⟨g1, ?_, ?_, ?_⟩
  · intro j hj
    rw [g2 j, f3 j hj]
    intro t p' hm hq
    have := climb_after_first h (hclimb t p' hm)
    omega
  · intro q hq hno
    rw [g2 q (fun t p' hm => hno t p' (hclimb t p' hm)), f2 q hq]
  · intro t p' j hc
    apply g3 t p' j
    apply hfin.complete t p' hc
    have := hc.inside
    omega

/-- A signal that rises throughout has no complete climb and is kept. -/
theorem C32_rising (pi : K) (l : List K) (h : ∀ k, 1 ≤ k → k < l.length → Spec.at0 l (k - 1) < Spec.at0 l k) :
    repair pi l = l := by
  by_cases hl : l.length < 2
  · match l, hl with
    | [], _ => rfl
    | [_], _ => rfl
  · unfold repair
    rw [uLoop_rise l (l.length - 1) (by omega) (by omega) (fun k hk1 hk2 => h k hk1 (by omega))]
    have hd : ∃ a, l.drop (l.length - 1) = [a] := by
      rw [← List.length_eq_one_iff, List.length_drop]; omega
    obtain ⟨a, ha⟩ := hd
    rw [ha]
    rfl

/-- Every signal begins with a fall (or has fewer than two samples), begins with a complete climb, or
rises throughout. -/
theorem signal_cases (l : List K) :
    (∀ a b, l[0]? = some a → l[1]? = some b → b ≤ a) ∨ (∃ p, Spec.FirstClimb l p) ∨
    (∀ k, 1 ≤ k → k < l.length → Spec.at0 l (k - 1) < Spec.at0 l k) := by
  by_cases hall : ∀ k, 1 ≤ k → k < l.length → Spec.at0 l (k - 1) < Spec.at0 l k
  · exact .inr (.inr hall)
  · push Not at hall
    classical
    have hex : ∃ k, 1 ≤ k ∧ k < l.length ∧ Spec.at0 l k ≤ Spec.at0 l (k - 1) := hall
    obtain ⟨h1, h2, h3⟩ := Nat.find_spec hex
    have hmin : ∀ k, 1 ≤ k → k < Nat.find hex → Spec.at0 l (k - 1) < Spec.at0 l k := by
      intro k hk1 hk2
      have := Nat.find_min hex hk2
      push Not at this
      exact this hk1 (by omega)
    by_cases hone : Nat.find hex = 1
    · left
      intro a b ha hb
      rw [hone] at h3
      simpa [Spec.at0, ha, hb] using h3
    · right; left
      refine ⟨Nat.find hex - 1, by omega, by omega, fun k hk1 hk2 => hmin k hk1 (by omega), ?_⟩
      rw [show Nat.find hex - 1 + 1 = Nat.find hex by omega]
      exact h3

/-- C32, exactly: the samples outside of all complete multi-sample climbs are kept and those inside put
on the documented line if and only if the signal does not begin with a complete climb, or the samples of
that first climb lie on the line from the last sample to `-π` already. -/
theorem C32_exact (pi : K) (l : List K) :
    ((∀ q, (∀ t p, Spec.Climb l t p → ¬ (t < q ∧ q < p)) → (repair pi l)[q]? = l[q]?) ∧
     (∀ t p j, Spec.Climb l t p → t < j → j < p → (repair pi l)[j]? = some (Spec.repaired pi l t p j))) ↔
    ∀ p, Spec.FirstClimb l p → ∀ j, j < p → Spec.at0 l j = Spec.at0 l (l.length - 1)
      + ((j + 1 : Nat) : K) / (p : K) * (-pi - Spec.at0 l (l.length - 1)) := by
  constructor
  · rintro ⟨h, -⟩ p hp j hj
    obtain ⟨-, g, -⟩ := C32_initial_climb_violated pi l p hp
    have h1 := h j (by
      intro t q hc hq
      have := climb_after_first hp hc
      omega)
    rw [g j hj] at h1
    unfold Spec.at0 at h1 ⊢
    rw [← h1]
    rfl
  · intro h
    rcases signal_cases l with hf | ⟨p, hp⟩ | hr
    · obtain ⟨-, g2, g3⟩ := C32_repair_partial pi l hf
      exact ⟨g2, g3⟩
    · obtain ⟨-, g1, g2, g3⟩ := C32_initial_climb_violated pi l p hp
      refine ⟨?_, g3⟩
      intro q hq
      by_cases hqp : q < p
      · have hin := hp.inside
        have := h p hp q hqp
        rw [g1 q hqp, ← this]
        unfold Spec.at0
        rw [List.getElem?_eq_getElem (by omega)]
        rfl
      · exact g2 q (by omega) hq
    · rw [C32_rising pi l hr]
      refine ⟨fun _ _ => rfl, ?_⟩
      intro t p j hc h1 h2
      have := hc.inside
      have := hc.long
      exact absurd (hr t hc.start (by omega)) (not_lt.2 hc.before)

/-- Whatever the signal, the number of samples is kept. -/
theorem C32_length (pi : K) (l : List K) : (repair pi l).length = l.length := by
  rcases signal_cases l with hf | ⟨p, hp⟩ | hr
  · exact (C32_repair_partial pi l hf).1
  · exact (C32_initial_climb_violated pi l p hp).1
  · rw [C32_rising pi l hr]

/-- The whole function, for every signal: as many samples as given, and no step above half a turn. -/
theorem C32_robust_all [FloorRing K] (pi : K) (hpi : 0 < pi) (l : List K) :
    (robustUnwrap pi pi l).length = l.length ∧
    ∀ (i : Nat) x y, (robustUnwrap pi pi l)[i]? = some x → (robustUnwrap pi pi l)[i + 1]? = some y → |y - x| ≤ pi := by
  obtain ⟨h1, _, _, h4⟩ := C32_unwrap pi pi hpi 0 (repair pi l) ⟨0, by simp⟩
  refine ⟨by unfold robustUnwrap; rw [h1]; exact C32_length pi l, ?_⟩
  intro i x y hx hy
  have := h4 i x y hx hy
  rwa [max_self] at this

/-- The signal 0, 1, 1/2 begins with a climb. -/
example : Spec.FirstClimb ([0, 1, 1 / 2] : List ℚ) 1 := by
  refine ⟨by decide, by decide, ?_, by simp [Spec.at0]; norm_num⟩
  intro k hk1 hk2
  have : k = 1 := by omega
  subst this
  simp [Spec.at0]

end

end Verif
