import Verif.Model.Fit
import Verif.Props.Batch
import Verif.Props.CalibCurves

/-!
C68 (fitting damping curves), C69 (number of cores), C119 (bounds of the fitted parameters), C121 (which data are fitted)
and the part of C49 about `get_H4_x_param`.
-/

set_option linter.unusedSectionVars false
set_option linter.unusedVariables false

namespace Verif

section Arrays
variable {K : Type} [Field K] [LinearOrder K] [IsStrictOrderedRing K] {R : Type}

namespace Spec

/-- A damping curve as a measurement gives it: at least one point, nothing negative, least damping at the first strain. -/
structure ProperCurve (d : List (K × K)) : Prop where
  nonempty : d ≠ []
  nonneg : ∀ p ∈ d, 0 ≤ p.1 ∧ 0 ≤ p.2
  lowest : ∀ x0 ∈ d.head?, ∀ p ∈ d, x0.2 ≤ p.2

/-- The curve with its small-strain damping removed. -/
def lowered (d : List (K × K)) : List (K × K) := d.map fun p => (p.1, p.2 - (d.head?.map Prod.snd).getD 0)

end Spec

open Spec (ProperCurve lowered Schedule)

theorem shiftCurve_lowered (d : List (K × K)) : shiftCurve d = lowered d := by
  cases d with
  | nil => rfl
  | cons p d => rfl

theorem lowered_lowered (d : List (K × K)) : lowered (lowered d) = lowered d := by
  cases d with
  | nil => rfl
  | cons p d =>
    simp [lowered]

theorem hasNeg_iff (d : List (K × K)) : hasNeg d = false ↔ ∀ p ∈ d, 0 ≤ p.1 ∧ 0 ≤ p.2 := by
  unfold hasNeg
  rw [List.any_eq_false]
  simp only [Bool.or_eq_true, decide_eq_true_eq, not_or, not_lt]

theorem properCurve_lowered (d : List (K × K)) (h : ProperCurve d) : ProperCurve (lowered d) := by
  obtain ⟨h1, h2, h3⟩ := h
  match d, h1 with
  | q :: d, _ =>
    have hm : ∀ p ∈ lowered (q :: d), ∃ r ∈ q :: d, p = (r.1, r.2 - q.2) := by
      intro p hp
      obtain ⟨r, hr, rfl⟩ := List.mem_map.1 hp
      exact ⟨r, hr, rfl⟩
    refine ⟨by simp [lowered], ?_, ?_⟩
    · intro p hp
      obtain ⟨r, hr, rfl⟩ := hm p hp
      exact ⟨(h2 r hr).1, sub_nonneg.2 (h3 q rfl r hr)⟩
    · intro x0 hx p hp
      obtain ⟨r, hr, rfl⟩ := hm p hp
      simp only [lowered, List.map_cons, List.head?_cons, Option.mem_def, Option.some.injEq] at hx
      subst hx
      have := h3 q rfl r hr
      simpa using this

theorem fitOne_proper (fit : List (K × K) → Except PyErr R) (σ : CStore K) (a : Nat) (d : List (K × K))
    (ha : σ[a]? = some d) (h : ProperCurve d) : fitOne fit σ a = (fit (lowered d), σ.set a (lowered d)) := by
  unfold fitOne
  rw [ha]
  simp only
  rw [(hasNeg_iff d).2 h.nonneg, if_neg h.nonempty, shiftCurve_lowered]
  rfl

/-- Serial fitting, for a memory `σ'` in which some of the curves of `σ` have already been lowered. -/
theorem fitSerial_proper (fit : List (K × K) → Except PyErr R) (σ : CStore K) : ∀ (addrs : List Nat) (σ' : CStore K),
    (∀ a ∈ addrs, ∃ d, σ[a]? = some d ∧ ProperCurve d ∧ (σ'[a]? = some d ∨ σ'[a]? = some (lowered d))) →
    (fitSerial fit σ' addrs).1 = addrs.mapM (fun a => fit (lowered (σ[a]?.getD []))) ∧
    (fitSerial fit σ' addrs).2.length = σ'.length ∧
    (∀ b, b ∉ addrs → (fitSerial fit σ' addrs).2[b]? = σ'[b]?) ∧
    (∀ rs, (fitSerial fit σ' addrs).1 = .ok rs → ∀ a ∈ addrs, (fitSerial fit σ' addrs).2[a]? = some (lowered (σ[a]?.getD [])))
  | [], σ', _ => ⟨rfl, rfl, fun _ _ => rfl, fun _ _ a ha => by cases ha⟩
  | a :: as, σ', h => by
    obtain ⟨d, hd, hp, hor⟩ := h a List.mem_cons_self
    have hal : a < σ'.length := by
      rcases hor with e | e <;> exact (List.getElem?_eq_some_iff.1 e).1
    have hone : fitOne fit σ' a = (fit (lowered d), σ'.set a (lowered d)) := by
      rcases hor with e | e
      · exact fitOne_proper fit σ' a d e hp
      · rw [fitOne_proper fit σ' a _ e (properCurve_lowered d hp), lowered_lowered]
    rw [fitSerial, hone, List.mapM_cons, hd]
    simp only [Option.getD_some]
    cases hf : fit (lowered d) with
    | error e =>
      refine ⟨rfl, by simp, ?_, by intro rs hrs; cases hrs⟩
      intro b hb
      simp only
      rw [List.getElem?_set_ne (by rintro rfl; exact hb List.mem_cons_self)]
    | ok r =>
      simp only
      have hset : ∀ b, (σ'.set a (lowered d))[b]? = if a = b then some (lowered d) else σ'[b]? := by
        intro b
        by_cases hab : a = b
        · subst hab; rw [if_pos rfl, List.getElem?_set_self hal]
        · rw [if_neg hab, List.getElem?_set_ne hab]
      obtain ⟨i1, i2, i3, i4⟩ := fitSerial_proper fit σ as (σ'.set a (lowered d)) (by
        intro b hb
        obtain ⟨db, e1, e2, e3⟩ := h b (List.mem_cons_of_mem _ hb)
        refine ⟨db, e1, e2, ?_⟩
        rw [hset b]
        by_cases hab : a = b
        · subst hab
          rw [hd] at e1
          rw [if_pos rfl]; right; rw [Option.some.inj e1]
        · rw [if_neg hab]; exact e3)
      generalize hrec : fitSerial fit (σ'.set a (lowered d)) as = res at i1 i2 i3 i4
      obtain ⟨res1, τ⟩ := res
      simp only at i1 i2 i3 i4
      rw [List.length_set] at i2
      have hnb : ∀ b, b ∉ a :: as → τ[b]? = σ'[b]? := by
        intro b hb
        rw [i3 b (fun hc => hb (List.mem_cons_of_mem _ hc)), hset b, if_neg (by rintro rfl; exact hb List.mem_cons_self)]
      cases res1 with
      | error e =>
        simp only [bind, Except.bind, ← i1]
        exact ⟨trivial, i2, hnb, by intro rs hrs; cases hrs⟩
      | ok rs0 =>
        simp only [bind, Except.bind, ← i1]
        refine ⟨rfl, i2, hnb, ?_⟩
        intro rs _ b hb
        by_cases hbs : b ∈ as
        · exact i4 rs0 rfl b hbs
        · rcases List.mem_cons.1 hb with rfl | hb
          · rw [i3 b hbs, hset b, if_pos rfl, hd]; rfl
          · exact absurd hb hbs

theorem poolLoop_congr {α : Type} (f g : List Nat → Except PyErr (List α)) : ∀ (sched : List (List Nat)),
    (∀ c ∈ sched, f c = g c) → ∀ slots err, poolLoop f sched slots err = poolLoop g sched slots err
  | [], _, _, _ => rfl
  | c :: cs, h, slots, err => by
    rw [poolLoop, poolLoop, h c List.mem_cons_self]
    cases g c with
    | ok rs => exact poolLoop_congr f g cs (fun d hd => h d (List.mem_cons_of_mem _ hd)) _ _
    | error e => exact poolLoop_congr f g cs (fun d hd => h d (List.mem_cons_of_mem _ hd)) _ _

theorem mapM_filterMap_get {β : Type} (g : Nat → Except PyErr β) (addrs : List Nat) : ∀ (c : List Nat),
    (∀ i ∈ c, i < addrs.length) →
    (c.filterMap fun i => addrs[i]?).mapM g = c.mapM fun i => match addrs[i]? with | some a => g a | none => .error .other
  | [], _ => rfl
  | i :: c, h => by
    have hi := h i List.mem_cons_self
    rw [List.filterMap_cons_some (List.getElem?_eq_getElem hi), List.mapM_cons, List.mapM_cons, List.getElem?_eq_getElem hi,
      mapM_filterMap_get g addrs c fun j hj => h j (List.mem_cons_of_mem _ hj)]

theorem fitAll_checked (fit : List (K × K) → Except PyErr R) (σ : CStore K) (addrs : List Nat) (par : Option (List (List Nat)))
    (h : ∀ a ∈ addrs, ∃ d, σ[a]? = some d ∧ ProperCurve d) :
    fitAll fit σ addrs par = match par with | none => fitSerial fit σ addrs | some sched => (fitPool fit σ addrs sched, σ) := by
  have hno : ¬ (addrs.any fun a => hasNeg (σ[a]?.getD [])) = true := by
    intro hc
    obtain ⟨a, ha, hx⟩ := List.any_eq_true.1 hc
    obtain ⟨d, hd, hp⟩ := h a ha
    rw [hd, Option.getD_some, (hasNeg_iff d).2 hp.nonneg] at hx
    cases hx
  unfold fitAll
  rw [if_neg hno]
  cases par <;> rfl

/-- For curves whose damping is least at the first strain: serial and parallel fits succeed together, whatever the schedule,
with the same parameters, namely those of the lowered curves in the order of the layers; this holds even if an array occurs
several times.  Missing from the full property: curves with a dip, and that the curves are left unchanged
(`C68_unchanged_violated`, `C68_twice_violated`). -/
theorem C68_same_partial (fit : List (K × K) → Except PyErr R) (σ : CStore K) (addrs : List Nat) (sched : List (List Nat))
    (hs : Schedule addrs.length sched) (h : ∀ a ∈ addrs, ∃ d, σ[a]? = some d ∧ ProperCurve d) :
    (∀ rs, (fitAll fit σ addrs none).1 = .ok rs ↔ (fitAll fit σ addrs (some sched)).1 = .ok rs) ∧
    (∀ rs, (fitAll fit σ addrs none).1 = .ok rs → rs.length = addrs.length ∧
      ∀ (i : Nat) a d, addrs[i]? = some a → σ[a]? = some d → ∃ r, rs[i]? = some r ∧ fit (lowered d) = .ok r) ∧
    (fitAll fit σ addrs (some sched)).2 = σ := by
  obtain ⟨i1, _, _, _⟩ := fitSerial_proper fit σ addrs σ (fun a ha => by
    obtain ⟨d, h1, h2⟩ := h a ha; exact ⟨d, h1, h2, Or.inl h1⟩)
  rw [fitAll_checked fit σ addrs none h, fitAll_checked fit σ addrs (some sched) h]
  simp only
  set g : Nat → Except PyErr R := fun a => fit (lowered (σ[a]?.getD [])) with hg
  set f : Nat → Except PyErr R := fun i => match addrs[i]? with | some a => g a | none => .error .other with hf
  have hmem : ∀ c ∈ sched, ∀ i ∈ c, i < addrs.length := by
    intro c hc i hi
    have : i ∈ sched.flatten := List.mem_flatten.2 ⟨c, hc, hi⟩
    rw [List.Perm.mem_iff hs, List.mem_range] at this
    exact this
  have hpool : fitPool fit σ addrs sched = poolMap addrs.length (fun c => c.mapM f) sched := by
    unfold fitPool poolMap
    rw [poolLoop_congr _ (fun c => c.mapM f) sched]
    intro c hc
    obtain ⟨j1, _, _, _⟩ := fitSerial_proper fit σ (c.filterMap fun i => addrs[i]?) σ (fun a ha => by
      obtain ⟨i, _, hi⟩ := List.mem_filterMap.1 ha
      obtain ⟨d, h1, h2⟩ := h a (List.mem_of_getElem? hi); exact ⟨d, h1, h2, Or.inl h1⟩)
    rw [j1, mapM_filterMap_get g addrs c (hmem c hc)]
  have hser : (List.range addrs.length).mapM f = addrs.mapM g := by
    rw [← mapM_filterMap_get g addrs (List.range addrs.length) (fun i hi => List.mem_range.1 hi)]
    congr 1
    apply List.ext_getElem?
    intro i
    have : ((List.range addrs.length).filterMap fun i => addrs[i]?) = (List.range addrs.length).attach.map fun i =>
        addrs[i.1]'(List.mem_range.1 i.2) := by
      rw [← List.filterMap_eq_map]
      conv_lhs => rw [← List.attach_map_subtype_val (List.range addrs.length)]
      rw [List.filterMap_map]
      apply List.filterMap_congr
      intro j _
      simp only [Function.comp]
      exact List.getElem?_eq_getElem _
    rw [this]
    by_cases hi : i < addrs.length
    · rw [List.getElem?_eq_getElem (by simpa using hi), List.getElem?_eq_getElem hi]
      simp
    · rw [List.getElem?_eq_none (by simpa using hi), List.getElem?_eq_none (by omega)]
  obtain ⟨p1, p2⟩ := poolMap_spec f addrs.length sched hs
  rw [hser] at p1 p2
  refine ⟨?_, ?_, trivial⟩
  · intro rs
    rw [i1, hpool]
    constructor
    · exact p1 rs
    · intro hrs
      cases hm : addrs.mapM g with
      | ok rs' => rw [p1 rs' hm] at hrs; exact hrs
      | error e =>
        obtain ⟨e', _, _, _, hp⟩ := p2 e hm
        rw [hp] at hrs; cases hrs
  · intro rs hrs
    rw [i1] at hrs
    have hfa := mapM_all_ok g (fun a r => g a = .ok r) (fun _ _ hx => hx) addrs rs hrs
    refine ⟨hfa.length_eq.symm, ?_⟩
    intro i a d ha hd
    obtain ⟨hi, e⟩ := List.getElem?_eq_some_iff.1 ha
    have hir : i < rs.length := by rw [← hfa.length_eq]; exact hi
    have := (List.forall₂_iff_get.1 hfa).2 i hi hir
    simp only [List.get_eq_getElem, e, hg, hd, Option.getD_some] at this
    exact ⟨rs[i], List.getElem?_eq_getElem hir, this⟩

/-- After a successful serial fit every fitted array holds the lowered curve; other arrays are as before. -/
theorem C68_after (fit : List (K × K) → Except PyErr R) (σ : CStore K) (addrs : List Nat) (rs : List R)
    (h : ∀ a ∈ addrs, ∃ d, σ[a]? = some d ∧ ProperCurve d) (hrs : (fitAll fit σ addrs none).1 = .ok rs) :
    (∀ a ∈ addrs, ∀ d, σ[a]? = some d → (fitAll fit σ addrs none).2[a]? = some (lowered d)) ∧
    (∀ b, b ∉ addrs → (fitAll fit σ addrs none).2[b]? = σ[b]?) ∧
    (fitAll fit σ addrs none).2.length = σ.length := by
  rw [fitAll_checked fit σ addrs none h] at hrs ⊢
  simp only at hrs ⊢
  obtain ⟨_, i2, i3, i4⟩ := fitSerial_proper fit σ addrs σ (fun a ha => by
    obtain ⟨d, h1, h2⟩ := h a ha; exact ⟨d, h1, h2, Or.inl h1⟩)
  refine ⟨?_, i3, i2⟩
  intro a ha d hd
  rw [i4 rs hrs a ha, hd]; rfl

/-- The curves are left unchanged when they start at zero damping, or when the fit is done by a pool.  Missing from the full
property: serial fits of other curves (`C68_unchanged_violated`). -/
theorem C68_unchanged_partial (fit : List (K × K) → Except PyErr R) (σ : CStore K) (addrs : List Nat) (rs : List R)
    (h : ∀ a ∈ addrs, ∃ d, σ[a]? = some d ∧ ProperCurve d ∧ ∀ x0 ∈ d.head?, x0.2 = 0)
    (hrs : (fitAll fit σ addrs none).1 = .ok rs) : (fitAll fit σ addrs none).2 = σ := by
  obtain ⟨h1, h2, h3⟩ := C68_after fit σ addrs rs (fun a ha => by
    obtain ⟨d, e1, e2, _⟩ := h a ha; exact ⟨d, e1, e2⟩) hrs
  apply List.ext_getElem?
  intro b
  by_cases hb : b ∈ addrs
  · obtain ⟨d, e1, e2, e3⟩ := h b hb
    rw [h1 b hb d e1, e1]
    congr 1
    cases d with
    | nil => rfl
    | cons p d =>
      have := e3 p rfl
      simp [lowered, this]
  · exact h2 b hb

/-- Serial fitting of any curve with non-zero small-strain damping changes the caller's array (whatever the fit gives); the
pool does not. -/
theorem C68_unchanged_violated (fit : List (K × K) → Except PyErr R) (σ : CStore K) (a : Nat) (e x0 : K) (rest : List (K × K))
    (ha : σ[a]? = some ((e, x0) :: rest)) (hn : ∀ p ∈ (e, x0) :: rest, 0 ≤ p.1 ∧ 0 ≤ p.2) (hx : x0 ≠ 0) :
    (fitAll fit σ [a] none).2 ≠ σ ∧ (fitAll fit σ [a] none).2[a]? = some (lowered ((e, x0) :: rest)) ∧
    ∀ sched, (fitAll fit σ [a] (some sched)).2 = σ := by
  have hneg := (hasNeg_iff ((e, x0) :: rest)).2 hn
  have hal : a < σ.length := (List.getElem?_eq_some_iff.1 ha).1
  have hc : ([a].any fun a => hasNeg (σ[a]?.getD [])) = false := by simp [ha, hneg]
  have h1 : (fitAll fit σ [a] none).2 = σ.set a (lowered ((e, x0) :: rest)) := by
    unfold fitAll
    rw [hc]
    simp only [Bool.false_eq_true, if_false]
    rw [fitSerial]
    have : fitOne fit σ a = (fit (lowered ((e, x0) :: rest)), σ.set a (lowered ((e, x0) :: rest))) := by
      unfold fitOne
      rw [ha]
      simp only
      rw [hneg, if_neg (by simp), shiftCurve_lowered]
      rfl
    rw [this]
    cases fit (lowered ((e, x0) :: rest)) <;> rfl
  have h2 : (fitAll fit σ [a] none).2[a]? = some (lowered ((e, x0) :: rest)) := by
    rw [h1, List.getElem?_set_self hal]
  refine ⟨?_, h2, ?_⟩
  · intro hc
    rw [hc, ha, Option.some.injEq] at h2
    simp [lowered] at h2
    exact hx h2.1
  · intro sched
    unfold fitAll
    rw [hc]
    rfl

/-- A negative entry in any of the curves: ValueError before any curve is fitted or changed. -/
theorem C68_negative (fit : List (K × K) → Except PyErr R) (σ : CStore K) (addrs : List Nat) (par : Option (List (List Nat)))
    (a : Nat) (d : List (K × K)) (ha : a ∈ addrs) (hd : σ[a]? = some d) (p : K × K) (hp : p ∈ d) (hn : p.1 < 0 ∨ p.2 < 0) :
    fitAll fit σ addrs par = (.error .valueError, σ) := by
  unfold fitAll
  rw [if_pos]
  rw [List.any_eq_true]
  refine ⟨a, ha, ?_⟩
  rw [hd, Option.getD_some]
  unfold hasNeg
  rw [List.any_eq_true]
  exact ⟨p, hp, by simpa using hn⟩

end Arrays

example : Spec.ProperCurve ([(1, 2), (3, 5), (4, 3)] : List (ℚ × ℚ)) := ⟨by simp, by decide +kernel, by
  intro x0 hx
  simp only [List.head?_cons, Option.mem_def, Option.some.injEq] at hx
  subst hx
  decide +kernel⟩

/-- A curve with a dip, used for two layers or fitted twice: the serial fit refuses the array it has itself changed, the
pool does not. -/
theorem C68_twice_violated :
    ∃ (σ : CStore ℚ) (d : List (ℚ × ℚ)), σ = [d] ∧ (∀ p ∈ d, 0 ≤ p.1 ∧ 0 ≤ p.2) ∧
      ∀ fit : List (ℚ × ℚ) → Except PyErr Nat, fit (Spec.lowered d) = .ok 7 →
        (fitAll fit σ [0, 0] none).1 = .error .valueError ∧
        (fitAll fit σ [0, 0] (some [[1], [0]])).1 = .ok [7, 7] ∧
        (fitAll fit σ [0, 0] (some [[0, 1]])).1 = .error .valueError ∧
        (fitAll fit σ [0] none).1 = .ok [7] ∧
        (fitAll fit (fitAll fit σ [0] none).2 [0] none).1 = .error .valueError := by
  refine ⟨[[(1, 2), (3, 1)]], [(1, 2), (3, 1)], rfl, by decide +kernel, ?_⟩
  intro fit hfit
  have e : Spec.lowered [((1 : ℚ), (2 : ℚ)), (3, 1)] = [(1, 0), (3, -1)] := by decide +kernel
  rw [e] at hfit
  have h1 : fitOne fit [[(1, 2), (3, 1)]] 0 = (.ok 7, [[(1, 0), (3, -1)]]) := by
    have e1 : hasNeg [((1 : ℚ), (2 : ℚ)), (3, 1)] = false := by decide +kernel
    have e2 : shiftCurve [((1 : ℚ), (2 : ℚ)), (3, 1)] = [(1, 0), (3, -1)] := by decide +kernel
    unfold fitOne
    simp only [List.getElem?_cons_zero, e1, e2, hfit]
    rfl
  have h2 : fitOne fit [[(1, 0), (3, -1)]] 0 = (.error .valueError, [[(1, 0), (3, -1)]]) := by
    have e1 : hasNeg [((1 : ℚ), (0 : ℚ)), (3, -1)] = true := by decide +kernel
    unfold fitOne
    simp only [List.getElem?_cons_zero, e1]
    rfl
  have c1 : hasNeg [((1 : ℚ), (2 : ℚ)), (3, 1)] = false := by decide +kernel
  have c2 : hasNeg [((1 : ℚ), (0 : ℚ)), (3, -1)] = true := by decide +kernel
  refine ⟨?_, ?_, ?_, ?_, ?_⟩
  · simp [fitAll, c1, fitSerial, h1, h2]
  · simp [fitAll, c1, fitPool, poolMap, poolLoop, fitSerial, h1, putAll, List.replicate]
  · simp [fitAll, c1, fitPool, poolMap, poolLoop, fitSerial, h1, h2]
  · simp [fitAll, c1, fitSerial, h1]
  · simp [fitAll, c1, c2, fitSerial, h1]

/-! ## C69 -/

/-- No parallelism: one worker.  Parallel without a number: all cores (-1 for scipy).  Missing from the full property: a
given number of cores (`C69_violated`). -/
theorem C69_workers_partial (n : Nat) (lo hi : ℝ) (pop : Int) (k : Option Int) :
    (gaCall n lo hi pop false k).workers = 1 ∧ (gaCall n lo hi pop true none).workers = -1 := by
  simp [gaCall]

/-- A requested number of cores is ignored: the optimisation runs on one core. -/
theorem C69_violated (n : Nat) (lo hi : ℝ) (pop k : Int) (hk : k ≠ 1) :
    (gaCall n lo hi pop true (some k)).workers = 1 ∧ (gaCall n lo hi pop true (some k)).workers ≠ k := by
  simp [gaCall, Ne.symm hk]

/-! ## C119 -/

/-- What the optimiser promises: as many numbers as parameters, within the bounds. -/
def Spec.RespectsBounds (opt : Optimiser) (lo hi : ℝ) : Prop :=
  ∀ n data r, opt n data = .ok r → r.length = n ∧ ∀ x ∈ r, lo ≤ x ∧ x ≤ hi

example : Spec.RespectsBounds (fun n _ => .ok (List.replicate n 1)) (-5) 3 := by
  intro n data r h
  cases h
  refine ⟨by simp, ?_⟩
  intro x hx
  rw [List.eq_of_mem_replicate hx]
  norm_num

theorem pow_bounds (lo hi x : ℝ) (h : lo ≤ x ∧ x ≤ hi) : (10 : ℝ) ^ lo ≤ 10 ^ x ∧ (10 : ℝ) ^ x ≤ 10 ^ hi ∧ 0 < (10 : ℝ) ^ x :=
  ⟨Real.rpow_le_rpow_of_exponent_le (by norm_num) h.1, Real.rpow_le_rpow_of_exponent_le (by norm_num) h.2,
    Real.rpow_pos_of_pos (by norm_num) _⟩

/-- The fitted HH parameters have exactly the HH names, are positive and lie between the powers of ten given as bounds; they
are accepted by `HH_Param`. -/
theorem C119_hh (opt : Optimiser) (lo hi : ℝ) (d : List (ℝ × ℝ)) (p : Dict ℝ) (ho : Spec.RespectsBounds opt lo hi)
    (h : fitHH opt d = .ok p) :
    p.map Prod.fst = hhKeys ∧ (∀ q ∈ p, (10 : ℝ) ^ lo ≤ q.2 ∧ q.2 ≤ (10 : ℝ) ^ hi ∧ 0 < q.2) ∧
    ∃ o, Param.mk' hhKeys p = .ok o := by
  unfold fitHH at h
  cases hd : denseCurve d with
  | error e => simp [hd, bind, Except.bind] at h
  | ok dense =>
    cases hr : opt 9 dense with
    | error e => simp [hd, hr, bind, Except.bind] at h
    | ok r =>
      simp only [hd, hr, bind, Except.bind] at h
      obtain ⟨hl, hb⟩ := ho 9 dense r hr
      match r, hl with
      | [x0, x1, x2, x3, x4, x5, x6, x7, x8], _ =>
        have := Except.ok.inj h
        subst this
        refine ⟨rfl, ?_, ?_⟩
        · intro q hq
          simp only [List.mem_cons, List.not_mem_nil, or_false] at hq
          rcases hq with rfl | rfl | rfl | rfl | rfl | rfl | rfl | rfl | rfl <;> exact pow_bounds lo hi _ (hb _ (by simp))
        · unfold Param.mk'
          rw [if_pos]
          · exact ⟨_, rfl⟩
          · simp [sameKeys, hhKeys]

/-- The fitted H4 parameters: the MKZ names, `Gmax = 1`, the other three within the bounds. -/
theorem C119_h4 (opt : Optimiser) (lo hi : ℝ) (d : List (ℝ × ℝ)) (p : Dict ℝ) (ho : Spec.RespectsBounds opt lo hi)
    (h : fitH4 opt d = .ok p) :
    p.map Prod.fst = mkzKeys ∧ p.look "Gmax" = .ok 1 ∧
    (∀ q ∈ p, q.1 ≠ "Gmax" → (10 : ℝ) ^ lo ≤ q.2 ∧ q.2 ≤ (10 : ℝ) ^ hi ∧ 0 < q.2) ∧
    ∃ o, Param.mk' mkzKeys p = .ok o := by
  unfold fitH4 at h
  cases hd : denseCurve d with
  | error e => simp [hd, bind, Except.bind] at h
  | ok dense =>
    cases hr : opt 3 dense with
    | error e => simp [hd, hr, bind, Except.bind] at h
    | ok r =>
      simp only [hd, hr, bind, Except.bind] at h
      obtain ⟨hl, hb⟩ := ho 3 dense r hr
      match r, hl with
      | [x0, x1, x2], _ =>
        have := Except.ok.inj h
        subst this
        refine ⟨rfl, by simp [Dict.look], ?_, ?_⟩
        · intro q hq hne
          simp only [List.mem_cons, List.not_mem_nil, or_false] at hq
          rcases hq with rfl | rfl | rfl | rfl
          · exact pow_bounds lo hi _ (hb _ (by simp))
          · exact pow_bounds lo hi _ (hb _ (by simp))
          · exact pow_bounds lo hi _ (hb _ (by simp))
          · exact absurd rfl hne
        · unfold Param.mk'
          rw [if_pos]
          · exact ⟨_, rfl⟩
          · simp [sameKeys, mkzKeys]

/-- The optimiser is given exactly the bounds asked for, one pair per parameter, and a positive population. -/
theorem C119_bounds (n : Nat) (lo hi : ℝ) (pop : Int) (par : Bool) (k : Option Int) :
    (gaCall n lo hi pop par k).bounds.length = n ∧ (∀ b ∈ (gaCall n lo hi pop par k).bounds, b = (lo, hi)) ∧
    1 ≤ (gaCall n lo hi pop par k).popsize := by
  refine ⟨by simp [gaCall], ?_, by simp [gaCall]⟩
  intro b hb
  exact List.eq_of_mem_replicate hb

theorem denseCurve_ok (d : List (ℝ × ℝ)) (hne : d ≠ []) : ∃ l, denseCurve d = .ok l ∧ l.length = 122 := by
  unfold denseCurve
  obtain ⟨l, h1, h2⟩ := mapM_ok_of (fun x => match npInterp (d.map fun p => (p.1 / 100, p.2 / 100)) x with
    | .error e => .error e
    | .ok y => (.ok (x, y) : Except PyErr (ℝ × ℝ))) (fun _ _ => True) (logspace (1 / 1000000) (1 / 10) 122) (by
      intro x _
      match d, hne with
      | p :: d, _ => exact ⟨_, rfl, trivial⟩)
  refine ⟨l, h1, ?_⟩
  rw [← h2.length_eq]
  simp [logspace, linspace]

/-- Fits succeed whenever the optimiser does. -/
theorem C119_success (opt : Optimiser) (lo hi : ℝ) (d : List (ℝ × ℝ)) (ho : Spec.RespectsBounds opt lo hi) (hne : d ≠ [])
    (htot : ∀ n data, n ≠ 0 → ∃ r, opt n data = .ok r) : (∃ p, fitHH opt d = .ok p) ∧ ∃ p, fitH4 opt d = .ok p := by
  obtain ⟨l, hl, _⟩ := denseCurve_ok d hne
  constructor
  · obtain ⟨r, hr⟩ := htot 9 l (by decide)
    obtain ⟨hlen, _⟩ := ho 9 l r hr
    unfold fitHH
    simp only [hl, hr, bind, Except.bind]
    match r, hlen with
    | [x0, x1, x2, x3, x4, x5, x6, x7, x8], _ => exact ⟨_, rfl⟩
  · obtain ⟨r, hr⟩ := htot 3 l (by decide)
    obtain ⟨hlen, _⟩ := ho 3 l r hr
    unfold fitH4
    simp only [hl, hr, bind, Except.bind]
    match r, hlen with
    | [x0, x1, x2], _ => exact ⟨_, rfl⟩

/-! ## C121 -/

section Data
variable {K : Type} [Field K] [LinearOrder K] [IsStrictOrderedRing K] {R : Type}

/-- What is fitted is the curve the object shows (in percent), small-strain damping removed, when the data are not
interpolated.  Missing from the full property: interpolated curves (`C121_violated`). -/
theorem C121_data_partial (fit : List (K × K) → Except PyErr R) (σ σ' : CStore K) (a : Nat) (du su : Unit1) (o : DampObj K)
    (h : mkDamping σ a du su none = (.ok o, σ')) (hne : o.cols.read σ' ≠ []) (hn : ∀ p ∈ o.cols.read σ', 0 ≤ p.1) :
    (o.fit fit σ').1 = fit (Spec.lowered (o.cols.read σ')) := by
  unfold mkDamping at h
  cases hm : mkCurve σ a (.damping du) su none true with
  | mk r τ =>
    rw [hm] at h
    cases r with
    | error e => cases h
    | ok w =>
      cases h
      have hrange := (C18_accepted_range σ a su none w σ').2 du hm
      have hview : w = .view a ∧ σ'[a]? = some (w.read σ') := by
        have hb : ∀ w0 τ, mkBase σ a su none true = (.ok w0, τ) → w0 = .view a ∧ a < τ.length := by
          intro w0 τ h0
          unfold mkBase at h0
          cases hd : σ[a]? with
          | none => rw [hd] at h0; cases h0
          | some d =>
            have hal := (List.getElem?_eq_some_iff.1 hd).1
            rw [hd] at h0
            simp only at h0
            split_ifs at h0 with hc
            · cases h0
            · cases su with
              | bad => cases h0
              | pct => cases h0; exact ⟨rfl, hal⟩
              | one => cases h0; exact ⟨rfl, by simpa [Where.scale] using hal⟩
        have hr : ∀ (τ : CStore K) (w0 w : Where K) (hi : K) τ', rangeCheck τ w0 hi true = (.ok w, τ') → w = w0 ∧ τ' = τ := by
          intro τ w0 w hi τ' h0; unfold rangeCheck at h0; split_ifs at h0 <;> cases h0; exact ⟨rfl, rfl⟩
        unfold mkCurve at hm
        cases hbm : mkBase σ a su none true with
        | mk e τ =>
          rw [hbm] at hm
          cases e with
          | error e => cases hm
          | ok w0 =>
            obtain ⟨rfl, hal⟩ := hb w0 τ hbm
            simp only at hm
            have key : ∀ (w : Where K) (τ' : CStore K), w = .view a → a < τ'.length → w = .view a ∧ τ'[a]? = some (w.read τ') := by
              intro w τ' e1 e2
              subst e1
              refine ⟨rfl, ?_⟩
              simp only [Where.read]
              rw [List.getElem?_eq_getElem e2]; rfl
            cases du with
            | bad => cases hm
            | pct =>
              obtain ⟨e1, e2⟩ := hr _ _ _ _ _ hm
              rw [e2]; exact key w _ e1 hal
            | one =>
              obtain ⟨e1, e2⟩ := hr _ _ _ _ _ hm
              rw [e2]
              exact key w _ (by rw [e1]; rfl) (by simpa [Where.scale] using hal)
      obtain ⟨rfl, hv⟩ := hview
      unfold DampObj.fit fitOne
      simp only
      rw [hv]
      simp only
      have hneg : hasNeg ((Where.view a).read σ') = false := (hasNeg_iff _).2 fun p hp => ⟨hn p hp, (hrange p hp).1⟩
      rw [hneg, if_neg hne, shiftCurve_lowered]
      rfl

end Data

/-- With interpolation and damping given as ratios, the fit works on the ratios as if they were percent: for every fit that
can tell a curve from one a hundred times smaller the parameters are not those of the curve shown. -/
theorem C121_violated :
    ∃ (σ σ' : CStore ℚ) (o : DampObj ℚ), mkDamping σ 0 .one .pct (some id) = (.ok o, σ') ∧
      o.cols.read σ' = [(1, 1), (2, 10)] ∧
      ∀ fit : List (ℚ × ℚ) → Except PyErr Nat, (o.fit fit σ').1 = fit [(1, 0), (2, 9 / 100)] :=
  ⟨[[(1, 1 / 100), (2, 1 / 10)]], [[(1, 1 / 100), (2, 1 / 10)]], ⟨0, .own [(1, 1), (2, 10)]⟩, by
    refine ⟨?_, rfl, ?_⟩
    · have : mkCurve ([[(1, 1 / 100), (2, 1 / 10)]] : CStore ℚ) 0 (.damping .one) .pct (some id) true =
          (.ok (.own [(1, 1), (2, 10)]), [[(1, 1 / 100), (2, 1 / 10)]]) := by decide +kernel
      unfold mkDamping
      rw [this]
    · intro fit
      have e1 : hasNeg ([(1, 1 / 100), (2, 1 / 10)] : List (ℚ × ℚ)) = false := by decide +kernel
      have e2 : shiftCurve ([(1, 1 / 100), (2, 1 / 10)] : List (ℚ × ℚ)) = [(1, 0), (2, 9 / 100)] := by decide +kernel
      unfold DampObj.fit fitOne
      simp only [List.getElem?_cons_zero, e1, e2]
      rfl⟩

/-! ## C49: errors, `get_H4_x_param` -/

/-- A profile without soil layers, a zero strain: errors; hence errors of both calibrations for a bare half-space. -/
theorem C49_rejects (rows : List (Row ℝ)) (strain : List ℝ) (useMin : Bool) (opt : Optimiser) :
    (rows.length ≤ 1 → getDampingCurves rows strain useMin = .error .indexError ∧ calibHHx opt rows = .error .indexError) ∧
    (∀ hv : Spec.Valid5 rows, 2 ≤ rows.length → 0 ∈ strain → getDampingCurves rows strain useMin = .error .nonFinite) := by
  have h1 : ∀ strain useMin, rows.length ≤ 1 → getDampingCurves rows strain useMin = .error .indexError := by
    intro strain useMin h
    have hd : rows.dropLast = [] := by
      apply List.length_eq_zero_iff.1
      rw [List.length_dropLast]; omega
    unfold getDampingCurves
    simp only [hd, List.map_nil]
    rfl
  refine ⟨fun h => ⟨h1 _ _ h, ?_⟩, ?_⟩
  · unfold calibHHx
    rw [h1 _ _ h]
  · intro hv hn h0
    have hdl : rows.dropLast.length = rows.length - 1 := List.length_dropLast
    obtain ⟨sv, e1, e2, _⟩ := C45_increasing (rows.dropLast.map Row.thk) (rows.dropLast.map Row.rho)
      (by intro e; have := congrArg List.length e; simp at this; omega) (by simp)
      (by intro x hx; obtain ⟨r, hr, rfl⟩ := List.mem_map.1 hx; exact hv.thk_pos r hr)
      (by intro x hx; obtain ⟨r, hr, rfl⟩ := List.mem_map.1 hx; exact (hv.pos r (List.mem_of_mem_dropLast hr)).2.2)
    rw [List.length_map] at e2
    unfold getDampingCurves
    simp only [e1]
    have hst : ∃ qs, darStates sv (.arr (rows.dropLast.map fun r => piOne r.vs)) (.arr (calcOCR none (rows.dropLast.map Row.vs) sv))
        none (.num 30) = .ok qs := by
      obtain ⟨c, hc, _⟩ := darendeli_layers rows.dropLast sv [1] e2 (by simp)
      unfold darendeli at hc
      cases hq : darStates sv (.arr (rows.dropLast.map fun r => piOne r.vs)) (.arr (calcOCR none (rows.dropLast.map Row.vs) sv))
        none (.num 30) with
      | ok qs => exact ⟨qs, rfl⟩
      | error e => rw [hq] at hc; cases hc
    obtain ⟨qs, hqs⟩ := hst
    unfold darendeli
    simp only [hqs, h0, if_true]

/-- `get_H4_x_param` gives what `get_HH_x_param` gives; every layer has the nine HH names, hence no layer is an MKZ parameter
set. -/
theorem C49_h4_violated (opt : Optimiser) (lo hi : ℝ) (ho : Spec.RespectsBounds opt lo hi) (rows : List (Row ℝ))
    (ds : LayerDicts) (h : calibH4x opt rows = .ok ds) :
    calibHHx opt rows = .ok ds ∧ ∀ d ∈ ds, d.map Prod.fst = hhKeys ∧ Param.mk' mkzKeys d = .error .keyError := by
  refine ⟨h, ?_⟩
  unfold calibH4x at h
  cases hg : getDampingCurves rows (geomspace 0.0001 15 100) false with
  | error e => rw [hg] at h; cases h
  | ok cs =>
    rw [hg] at h
    simp only at h
    have key : ∀ (addrs : List Nat) (σ : CStore ℝ) rs, (fitSerial (fitHH opt) σ addrs).1 = .ok rs →
        ∀ d ∈ rs, d.map Prod.fst = hhKeys := by
      intro addrs
      induction addrs with
      | nil => intro σ rs h d hd; cases h; cases hd
      | cons a as ih =>
        intro σ rs h d hd
        rw [fitSerial] at h
        cases h1 : fitOne (fitHH opt) σ a with
        | mk r τ =>
          rw [h1] at h
          cases r with
          | error e => cases h
          | ok r =>
            simp only at h
            cases h2 : fitSerial (fitHH opt) τ as with
            | mk r2 τ2 =>
              rw [h2] at h
              cases r2 with
              | error e => cases h
              | ok rs2 =>
                cases h
                rcases List.mem_cons.1 hd with rfl | hd
                · unfold fitOne at h1
                  cases hs : σ[a]? with
                  | none => rw [hs] at h1; cases h1
                  | some c =>
                    rw [hs] at h1
                    simp only at h1
                    split_ifs at h1
                    · cases h1
                    · cases h1
                    · rw [Prod.mk.injEq] at h1
                      exact (C119_hh opt lo hi _ _ ho h1.1).1
                · exact ih τ rs2 (by rw [h2]) d hd
    unfold fitAll at h
    split_ifs at h
    · simp only at h
      intro d hd
      have hk := key _ _ _ h d hd
      refine ⟨hk, ?_⟩
      unfold Param.mk'
      rw [if_neg]
      simp only [sameKeys, Bool.and_eq_true, List.all_eq_true, decide_eq_true_eq, not_and]
      intro h1
      exfalso
      have hm : "gamma_t" ∈ d.map Prod.fst := by rw [hk]; simp [hhKeys]
      obtain ⟨q, hq, e⟩ := List.mem_map.1 hm
      have := h1 q hq
      rw [e] at this
      simp [mkzKeys] at this

end Verif
