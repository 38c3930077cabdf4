import Verif.Model.Batch
import Mathlib.Data.Nat.Digits.Lemmas

/-!
C58, C59: running a batch of simulations.
-/

set_option linter.unusedSectionVars false
set_option linter.unusedVariables false

namespace Verif

namespace Spec

variable {R : Type}

/-- What simulation `i` contributes, when it gets the options with its own directory: its result, `none` for a
caught `ValueError`, or the error. -/
def outcome (run : PyDict → Except PyErr R) (opts : PyDict) (catching : Bool) : Except PyErr (Option R) :=
  match run opts with
  | .ok r => .ok (some r)
  | .error .valueError => if catching then .ok none else .error .valueError
  | .error e => .error e

/-- `o'` is `o` with `k` set to `v`, seen through `get`. -/
def IsUpdate (o o' : PyDict) (k : String) (v : OptVal) : Prop :=
  dictGet o' k = some v ∧ ∀ k', k' ≠ k → dictGet o' k' = dictGet o k'

/-- The chunks hold every index below `n` exactly once. -/
def Schedule (n : Nat) (sched : List (List Nat)) : Prop := sched.flatten.Perm (List.range n)

end Spec

open Spec (outcome IsUpdate Schedule)

variable {R : Type}

theorem dictSet_update (o : PyDict) (k : String) (v : OptVal) : IsUpdate o (dictSet o k v) k v := by
  induction o with
  | nil =>
    refine ⟨by simp [dictSet, dictGet], ?_⟩
    intro k' h
    simp [dictSet, dictGet, Ne.symm h]
  | cons p o ih =>
    rw [dictSet]
    by_cases c : p.1 = k
    · rw [if_pos c]
      refine ⟨by simp [dictGet], ?_⟩
      intro k' h
      have h2 : ¬ p.1 = k' := by rw [c]; exact fun e => h e.symm
      simp [dictGet, Ne.symm h, h2]
    · rw [if_neg c]
      obtain ⟨a, b⟩ := ih
      refine ⟨?_, ?_⟩
      · unfold dictGet at a ⊢
        rw [List.find?_cons_of_neg (by simpa using c)]
        exact a
      · intro k' h
        unfold dictGet at b ⊢
        by_cases c2 : p.1 = k'
        · rw [List.find?_cons_of_pos (by simpa using c2), List.find?_cons_of_pos (by simpa using c2)]
        · rw [List.find?_cons_of_neg (by simpa using c2), List.find?_cons_of_neg (by simpa using c2)]
          exact b k' h

theorem dictSet_twice (o : PyDict) (k : String) (v w : OptVal) : dictSet (dictSet o k v) k w = dictSet o k w := by
  induction o with
  | nil => simp [dictSet]
  | cons p o ih =>
    by_cases c : p.1 = k
    · simp [dictSet, c]
    · simp only [dictSet, if_neg c, ih]

/-- The result of a single simulation does not depend on a directory left by an earlier one. -/
theorem runSingle_eq (sims : List (PyDict → Except PyErr R)) (nl : Bool) (base : List Char) (ca : Bool) (i : Nat)
    (opts : PyDict) (hi : i < sims.length) :
    (runSingle sims nl base ca i opts).1 =
      outcome sims[i] (dictSet opts (dirKey nl) (.str (simDir base sims.length i))) ca := by
  simp only [runSingle, List.getElem?_eq_getElem hi, outcome]
  cases sims[i] (dictSet opts (dirKey nl) (.str (simDir base sims.length i))) with
  | ok r => rfl
  | error e => cases e <;> cases ca <;> simp

theorem runSingle_opts (sims : List (PyDict → Except PyErr R)) (nl : Bool) (base : List Char) (ca : Bool) (i : Nat)
    (opts : PyDict) :
    (runSingle sims nl base ca i opts).2 = dictSet opts (dirKey nl) (.str (simDir base sims.length i)) := by
  simp only [runSingle]
  split
  · rfl
  · split
    · rfl
    · split <;> rfl

/-- The outcome of task `i` for the options of the caller. -/
def taskOf (sims : List (PyDict → Except PyErr R)) (nl : Bool) (base : List Char) (ca : Bool) (opts : PyDict) (i : Nat) :
    Except PyErr (Option R) := (runSingle sims nl base ca i opts).1

theorem taskOf_stale (sims : List (PyDict → Except PyErr R)) (nl : Bool) (base : List Char) (ca : Bool) (i : Nat)
    (opts : PyDict) (v : OptVal) :
    taskOf sims nl base ca (dictSet opts (dirKey nl) v) i = taskOf sims nl base ca opts i := by
  simp only [taskOf, runSingle, dictSet_twice]

/-- A sequence of tasks is the sequence of their outcomes, up to the first error. -/
theorem runSeq_eq (sims : List (PyDict → Except PyErr R)) (nl : Bool) (base : List Char) (ca : Bool) (is : List Nat) :
    ∀ opts, (runSeq sims nl base ca is opts).1 = is.mapM (taskOf sims nl base ca opts) := by
  induction is with
  | nil => intro opts; rfl
  | cons i is ih =>
    intro opts
    rw [runSeq, List.mapM_cons]
    have hs : (taskOf sims nl base ca (runSingle sims nl base ca i opts).2) = taskOf sims nl base ca opts := by
      funext j
      rw [runSingle_opts]
      exact taskOf_stale sims nl base ca j opts _
    simp only [bind, Except.bind]
    have hi := ih (runSingle sims nl base ca i opts).2
    rw [hs] at hi
    change (match (runSingle sims nl base ca i opts).1 with
      | .error e => (Except.error e, (runSingle sims nl base ca i opts).2)
      | .ok r => match (runSeq sims nl base ca is (runSingle sims nl base ca i opts).2).1 with
        | .error e => (Except.error e, (runSeq sims nl base ca is (runSingle sims nl base ca i opts).2).2)
        | .ok rs => (Except.ok (r :: rs), (runSeq sims nl base ca is (runSingle sims nl base ca i opts).2).2)).1 = _
    rw [← hi]
    unfold taskOf
    cases (runSingle sims nl base ca i opts).1 with
    | error e => rfl
    | ok r =>
      simp only
      cases (runSeq sims nl base ca is (runSingle sims nl base ca i opts).2).1 <;> rfl

theorem mapM_exc_ok {α β : Type} {f : α → Except PyErr β} {l : List α} {rs : List β} (h : l.mapM f = .ok rs) :
    List.Forall₂ (fun a b => f a = .ok b) l rs := by
  induction l generalizing rs with
  | nil =>
    rw [List.mapM_nil] at h
    cases h
    exact .nil
  | cons a l ih =>
    rw [List.mapM_cons] at h
    simp only [bind, Except.bind] at h
    cases hfa : f a with
    | error e => rw [hfa] at h; cases h
    | ok b =>
      rw [hfa] at h
      simp only at h
      cases hm : l.mapM f with
      | error e => rw [hm] at h; cases h
      | ok bs =>
        rw [hm] at h
        cases h
        exact .cons hfa (ih hm)

theorem mapM_exc_of {α β : Type} {f : α → Except PyErr β} {l : List α} {rs : List β}
    (h : List.Forall₂ (fun a b => f a = .ok b) l rs) : l.mapM f = .ok rs := by
  induction h with
  | nil => rfl
  | cons h1 _ ih => rw [List.mapM_cons, h1, ih]; rfl

theorem mapM_exc_err {α β : Type} {f : α → Except PyErr β} {l : List α} {e : PyErr} (h : l.mapM f = .error e) :
    ∃ a ∈ l, f a = .error e := by
  induction l with
  | nil => rw [List.mapM_nil] at h; cases h
  | cons a l ih =>
    rw [List.mapM_cons] at h
    simp only [bind, Except.bind] at h
    cases hfa : f a with
    | error e' =>
      rw [hfa] at h
      cases h
      exact ⟨a, List.mem_cons_self, hfa⟩
    | ok b =>
      rw [hfa] at h
      simp only at h
      cases hm : l.mapM f with
      | error e' =>
        rw [hm] at h
        cases h
        obtain ⟨x, hx, hfx⟩ := ih hm
        exact ⟨x, List.mem_cons_of_mem _ hx, hfx⟩
      | ok bs => rw [hm] at h; cases h

theorem mapM_exc_dich {α β : Type} (f : α → Except PyErr β) (l : List α) :
    (∃ rs, l.mapM f = .ok rs) ∨ ∃ a ∈ l, ∃ e, f a = .error e := by
  cases h : l.mapM f with
  | ok rs => exact .inl ⟨rs, rfl⟩
  | error e =>
    obtain ⟨a, ha, hf⟩ := mapM_exc_err h
    exact .inr ⟨a, ha, e, hf⟩

/-! ## The pool -/

/-- Slots after placing results. -/
theorem putAll_spec {α : Type} (f : Nat → Except PyErr α) {is : List Nat} {rs : List α}
    (h : List.Forall₂ (fun a b => f a = .ok b) is rs) :
    ∀ slots : List (Option α), (putAll is rs slots).length = slots.length ∧
      ∀ k, k < slots.length → (k ∈ is → ∃ r, f k = .ok r ∧ (putAll is rs slots)[k]? = some (some r)) ∧
        (k ∉ is → (putAll is rs slots)[k]? = slots[k]?) := by
  induction h with
  | nil => intro slots; exact ⟨by rw [putAll]; intros; simp_all, fun k hk => ⟨fun h => by simp at h, fun _ => by rw [putAll]; intros; simp_all⟩⟩
  | @cons i r is rs h1 h2 ih =>
    intro slots
    rw [putAll]
    obtain ⟨hl, hs⟩ := ih (slots.set i (some r))
    refine ⟨by rw [hl, List.length_set], ?_⟩
    intro k hk
    obtain ⟨a, b⟩ := hs k (by rw [List.length_set]; exact hk)
    by_cases hm : k ∈ is
    · exact ⟨fun _ => a hm, fun hn => absurd (List.mem_cons_of_mem _ hm) hn⟩
    · refine ⟨?_, ?_⟩
      · intro hk2
        rcases List.mem_cons.mp hk2 with e | e
        · subst e
          refine ⟨r, h1, ?_⟩
          rw [b hm, List.getElem?_set_self hk]
        · exact absurd e hm
      · intro hk2
        rw [b hm, List.getElem?_set_ne (by intro e; exact hk2 (by rw [e]; exact List.mem_cons_self))]

/-- Once an error is recorded it stays. -/
theorem poolLoop_err {α : Type} (chunk : List Nat → Except PyErr (List α)) (sched : List (List Nat)) :
    ∀ slots e, (poolLoop chunk sched slots (some e)).2 = some e := by
  induction sched with
  | nil => intro slots e; rfl
  | cons c cs ih =>
    intro slots e
    rw [poolLoop]
    cases chunk c with
    | ok rs => exact ih _ e
    | error e' => exact ih _ e

/-- The error raised by the pool is the error of a task. -/
theorem poolLoop_err_of {α : Type} (f : Nat → Except PyErr α) (sched : List (List Nat)) :
    ∀ slots e, (poolLoop (fun c => c.mapM f) sched slots none).2 = some e → ∃ i ∈ sched.flatten, f i = .error e := by
  induction sched with
  | nil => intro slots e h; cases h
  | cons c cs ih =>
    intro slots e h
    rw [poolLoop] at h
    cases hc : c.mapM f with
    | ok rs =>
      rw [hc] at h
      obtain ⟨i, hi, hf⟩ := ih _ e h
      exact ⟨i, by rw [List.flatten_cons]; exact List.mem_append_right _ hi, hf⟩
    | error e' =>
      rw [hc] at h
      rw [poolLoop_err] at h
      cases h
      obtain ⟨i, hi, hf⟩ := mapM_exc_err hc
      exact ⟨i, by rw [List.flatten_cons]; exact List.mem_append_left _ hi, hf⟩

/-- If some task fails the pool raises an error. -/
theorem poolLoop_fails {α : Type} (f : Nat → Except PyErr α) (sched : List (List Nat)) (i : Nat) (e : PyErr)
    (hf : f i = .error e) : ∀ slots, i ∈ sched.flatten → ∃ e', (poolLoop (fun c => c.mapM f) sched slots none).2 = some e' := by
  induction sched with
  | nil => intro slots h; simp at h
  | cons c cs ih =>
    intro slots h
    rw [poolLoop]
    cases hc : c.mapM f with
    | error e' => exact ⟨e', poolLoop_err _ cs _ e'⟩
    | ok rs =>
      rw [List.flatten_cons] at h
      rcases List.mem_append.mp h with h1 | h1
      · exfalso
        have := mapM_exc_ok hc
        clear hc h
        induction this with
        | nil => simp at h1
        | cons hd _ ihh =>
          rcases List.mem_cons.mp h1 with e1 | e1
          · rw [e1] at hf; rw [hf] at hd; cases hd
          · exact ihh e1
      · exact ih _ h1

/-- If no task fails every slot of a scheduled task holds the task's result. -/
theorem poolLoop_slots {α : Type} (f : Nat → Except PyErr α) (sched : List (List Nat))
    (hok : ∀ i ∈ sched.flatten, ∃ r, f i = .ok r) :
    ∀ slots : List (Option α), (poolLoop (fun c => c.mapM f) sched slots none).2 = none ∧
      (poolLoop (fun c => c.mapM f) sched slots none).1.length = slots.length ∧
      ∀ k, k < slots.length →
        (k ∈ sched.flatten → ∃ r, f k = .ok r ∧ (poolLoop (fun c => c.mapM f) sched slots none).1[k]? = some (some r)) ∧
        (k ∉ sched.flatten → (poolLoop (fun c => c.mapM f) sched slots none).1[k]? = slots[k]?) := by
  induction sched with
  | nil => intro slots; exact ⟨rfl, rfl, fun k hk => ⟨fun h => by simp at h, fun _ => rfl⟩⟩
  | cons c cs ih =>
    intro slots
    rw [poolLoop]
    rcases mapM_exc_dich f c with ⟨rs, hc⟩ | ⟨a, ha, e, he⟩
    · rw [hc]
      obtain ⟨p1, p2⟩ := putAll_spec f (mapM_exc_ok hc) slots
      obtain ⟨q1, q2, q3⟩ := ih (fun i hi => hok i (by rw [List.flatten_cons]; exact List.mem_append_right _ hi))
        (putAll c rs slots)
      refine ⟨q1, by rw [q2, p1], ?_⟩
      intro k hk
      obtain ⟨u1, u2⟩ := q3 k (by rw [p1]; exact hk)
      obtain ⟨v1, v2⟩ := p2 k hk
      rw [List.flatten_cons]
      by_cases hm : k ∈ cs.flatten
      · exact ⟨fun _ => u1 hm, fun hn => absurd (List.mem_append_right _ hm) hn⟩
      · refine ⟨?_, ?_⟩
        · intro h
          rcases List.mem_append.mp h with h | h
          · obtain ⟨r, h1, h2⟩ := v1 h
            exact ⟨r, h1, by rw [u2 hm]; exact h2⟩
          · exact absurd h hm
        · intro h
          rw [u2 hm, v2 (fun e => h (List.mem_append_left _ e))]
    · exfalso
      obtain ⟨r, hr⟩ := hok a (by rw [List.flatten_cons]; exact List.mem_append_left _ ha)
      rw [he] at hr
      cases hr

theorem mapM_id_of {α : Type} {slots : List (Option α)} {l : List α} (h : slots = l.map some) :
    slots.mapM id = some l := by
  subst h
  induction l with
  | nil => rfl
  | cons a l ih =>
    rw [List.map_cons, List.mapM_cons]
    change (some a).bind (fun b => (List.mapM id (l.map some)).bind fun bs => some (b :: bs)) = _
    rw [ih]
    rfl

/-- `Pool.map` under any chunking and schedule: the same list as running the tasks in order, or an error of one
of the tasks if some task fails. -/
theorem poolMap_spec {α : Type} (f : Nat → Except PyErr α) (n : Nat) (sched : List (List Nat)) (hs : Schedule n sched) :
    (∀ rs, (List.range n).mapM f = .ok rs → poolMap n (fun c => c.mapM f) sched = .ok rs) ∧
    (∀ e, (List.range n).mapM f = .error e →
      ∃ e' i, i < n ∧ f i = .error e' ∧ poolMap n (fun c => c.mapM f) sched = .error e') := by
  have hmem : ∀ k, k ∈ sched.flatten ↔ k < n := fun k => by rw [List.Perm.mem_iff hs, List.mem_range]
  constructor
  · intro rs hrs
    have hF := mapM_exc_ok hrs
    have hlen : rs.length = n := by rw [← hF.length_eq, List.length_range]
    have hget : ∀ (k : Nat), k < n → ∃ r, f k = .ok r ∧ rs[k]? = some r := by
      intro k hk
      have h1 : k < rs.length := by omega
      refine ⟨rs[k], ?_, List.getElem?_eq_getElem h1⟩
      have := hF.get (i := k) (by rw [List.length_range]; exact hk) h1
      simpa using this
    obtain ⟨a, b, c⟩ := poolLoop_slots f sched
      (fun i hi => by obtain ⟨r, hr, _⟩ := hget i ((hmem i).mp hi); exact ⟨r, hr⟩) (List.replicate n none)
    rw [poolMap]
    have hslots : (poolLoop (fun c => c.mapM f) sched (List.replicate n none) none).1 = rs.map some := by
      apply List.ext_getElem?
      intro k
      by_cases hk : k < n
      · obtain ⟨r, h1, h2⟩ := hget k hk
        obtain ⟨r', h3, h4⟩ := (c k (by rw [List.length_replicate]; exact hk)).1 ((hmem k).mpr hk)
        rw [h4, List.getElem?_map, h2]
        rw [h1] at h3
        cases h3
        rfl
      · rw [List.getElem?_eq_none (by rw [b, List.length_replicate]; omega),
          List.getElem?_eq_none (by rw [List.length_map]; omega)]
    generalize poolLoop (fun c => c.mapM f) sched (List.replicate n none) none = p at a hslots
    obtain ⟨s, er⟩ := p
    simp only at a hslots
    subst a
    simp only [mapM_id_of hslots]
  · intro e he
    obtain ⟨i, hi, hf⟩ := mapM_exc_err he
    obtain ⟨e', h'⟩ := poolLoop_fails f sched i e hf (List.replicate n none) ((hmem i).mpr (List.mem_range.mp hi))
    obtain ⟨j, hj, hfj⟩ := poolLoop_err_of f sched _ e' h'
    refine ⟨e', j, (hmem j).mp hj, hfj, ?_⟩
    rw [poolMap]
    generalize poolLoop (fun c => c.mapM f) sched (List.replicate n none) none = p at h'
    obtain ⟨s, er⟩ := p
    simp only at h'
    subst h'
    rfl

/-! ## C58 -/

theorem range_mapM_iff {α : Type} (f : Nat → Except PyErr α) (n : Nat) (rs : List α) :
    (List.range n).mapM f = .ok rs ↔ rs.length = n ∧ ∀ (i : Nat), i < n → ∃ r, f i = .ok r ∧ rs[i]? = some r := by
  constructor
  · intro h
    have hF := mapM_exc_ok h
    have hlen : rs.length = n := by rw [← hF.length_eq, List.length_range]
    refine ⟨hlen, ?_⟩
    intro k hk
    have h1 : k < rs.length := by omega
    refine ⟨rs[k], ?_, List.getElem?_eq_getElem h1⟩
    have := hF.get (i := k) (by rw [List.length_range]; exact hk) h1
    simpa using this
  · rintro ⟨hl, h⟩
    apply mapM_exc_of
    rw [List.forall₂_iff_get]
    refine ⟨by rw [List.length_range, hl], ?_⟩
    intro i h1 h2
    obtain ⟨r, hr, hg⟩ := h i (by rwa [List.length_range] at h1)
    rw [List.getElem?_eq_getElem h2] at hg
    cases hg
    simpa using hr

/-- **C58** (serial run): a run returns `rs` exactly if `rs` has one entry per simulation, entry `i` being what
simulation `i` gives (`none` for a caught `ValueError`) with the options in which only the directory entry is
changed, to the directory of `i`. -/
theorem C58_serial (sims : List (PyDict → Except PyErr R)) (nl : Bool) (base : List Char) (ca : Bool) (opts : PyDict) :
    ∃ o : Nat → PyDict,
      (∀ i, IsUpdate opts (o i) (if nl then "sim_dir" else "output_dir") (.str (simDir base sims.length i))) ∧
      ∀ rs, (batchRunSerial sims nl base ca opts).1 = .ok rs ↔
        rs.length = sims.length ∧ ∀ (i : Nat) (hi : i < sims.length), ∃ r, outcome sims[i] (o i) ca = .ok r ∧ rs[i]? = some r := by
  refine ⟨fun i => dictSet opts (dirKey nl) (.str (simDir base sims.length i)), fun i => dictSet_update opts _ _, ?_⟩
  intro rs
  rw [batchRunSerial, runSeq_eq, range_mapM_iff]
  refine and_congr_right fun _ => forall_congr' fun i => forall_congr' fun hi => ?_
  rw [taskOf, runSingle_eq sims nl base ca i opts hi]

/-- **C58** (errors): a serial run that raises does so because a simulation raised, and not with a `ValueError`
that was to be caught. -/
theorem C58_errors (sims : List (PyDict → Except PyErr R)) (nl : Bool) (base : List Char) (ca : Bool) (opts : PyDict)
    (e : PyErr) (h : (batchRunSerial sims nl base ca opts).1 = .error e) :
    (∃ f ∈ sims, ∃ o, f o = .error e) ∧ (ca = true → e ≠ .valueError) := by
  rw [batchRunSerial, runSeq_eq] at h
  obtain ⟨i, hi, hf⟩ := mapM_exc_err h
  have hi' := List.mem_range.mp hi
  rw [taskOf, runSingle_eq sims nl base ca i opts hi'] at hf
  generalize dictSet opts (dirKey nl) (.str (simDir base sims.length i)) = o at hf
  have hm : sims[i] ∈ sims := List.getElem_mem hi'
  generalize sims[i] = f at hf hm
  unfold outcome at hf
  cases hr : f o with
  | ok r => rw [hr] at hf; cases hf
  | error e' =>
    rw [hr] at hf
    refine ⟨⟨f, hm, o, ?_⟩, ?_⟩
    · cases e' <;> cases ca <;> simp_all
    · intro hca
      subst hca
      rintro rfl
      cases e' <;> simp_all

/-- **C58** (schedules): without `show_fig`, a parallel run under any chunking and any order in which the chunks
finish gives what the serial run gives; if simulations raise, it raises the error of one of them. -/
theorem C58_parallel_partial (sims : List (PyDict → Except PyErr R)) (plot : R → Except PyErr Unit) (nl : Bool)
    (base : List Char) (ca : Bool) (opts : PyDict) (sched : List (List Nat)) (hs : Schedule sims.length sched)
    (hfig : dictGet opts "show_fig" ≠ some (.bool true)) :
    (∀ rs, (batchRunSerial sims nl base ca opts).1 = .ok rs ↔
      (batchRunParallel sims plot nl base ca opts sched).1 = .ok rs) ∧
    (∀ e, (batchRunParallel sims plot nl base ca opts sched).1 = .error e →
      (∃ f ∈ sims, ∃ o, f o = .error e) ∧ (ca = true → e ≠ .valueError)) := by
  have hfun : (fun c => (runSeq sims nl base ca c opts).1) = fun c => List.mapM (taskOf sims nl base ca opts) c := by
    funext c
    exact runSeq_eq sims nl base ca c opts
  obtain ⟨h1, h2⟩ := poolMap_spec (taskOf sims nl base ca opts) sims.length sched hs
  have hp : (batchRunParallel sims plot nl base ca opts sched).1 =
      poolMap sims.length (fun c => List.mapM (taskOf sims nl base ca opts) c) sched := by
    simp only [batchRunParallel, hfun, if_neg hfig]
    cases poolMap sims.length (fun c => List.mapM (taskOf sims nl base ca opts) c) sched <;> rfl
  have hser : (batchRunSerial sims nl base ca opts).1 = (List.range sims.length).mapM (taskOf sims nl base ca opts) := by
    rw [batchRunSerial, runSeq_eq]
  rw [hp, hser]
  constructor
  · intro rs
    refine ⟨h1 rs, ?_⟩
    intro h
    cases hm : (List.range sims.length).mapM (taskOf sims nl base ca opts) with
    | ok rs' =>
      have := h1 rs' hm
      rw [h] at this
      cases this
      rfl
    | error e =>
      obtain ⟨e', i, _, _, he⟩ := h2 e hm
      rw [h] at he
      cases he
  · intro e h
    cases hm : (List.range sims.length).mapM (taskOf sims nl base ca opts) with
    | ok rs' =>
      have := h1 rs' hm
      rw [h] at this
      cases this
    | error e0 =>
      obtain ⟨e', i, hi, hf, he⟩ := h2 e0 hm
      rw [h] at he
      cases he
      have : (runSeq sims nl base ca [i] opts).1 = .error e := by
        rw [runSeq_eq, List.mapM_cons, hf]
        rfl
      -- one task alone
      rw [taskOf, runSingle_eq sims nl base ca i opts hi] at hf
      generalize dictSet opts (dirKey nl) (.str (simDir base sims.length i)) = o at hf
      have hmem : sims[i] ∈ sims := List.getElem_mem hi
      generalize sims[i] = f at hf hmem
      unfold outcome at hf
      cases hr : f o with
      | ok r => rw [hr] at hf; cases hf
      | error e' =>
        rw [hr] at hf
        refine ⟨⟨f, hmem, o, ?_⟩, ?_⟩
        · cases e' <;> cases ca <;> simp_all
        · intro hca
          subst hca
          rintro rfl
          cases e' <;> simp_all

/-- **C58** (with figures): if no simulation failed and plotting works, `show_fig` changes nothing. -/
theorem C58_figures_partial (sims : List (PyDict → Except PyErr R)) (plot : R → Except PyErr Unit) (nl : Bool)
    (base : List Char) (ca : Bool) (opts : PyDict) (sched : List (List Nat)) (hs : Schedule sims.length sched)
    (hplot : ∀ r, plot r = .ok ()) (rs : List R)
    (hser : (batchRunSerial sims nl base ca opts).1 = .ok (rs.map some)) :
    (batchRunParallel sims plot nl base ca opts sched).1 = .ok (rs.map some) := by
  have hfun : (fun c => (runSeq sims nl base ca c opts).1) = fun c => List.mapM (taskOf sims nl base ca opts) c := by
    funext c
    exact runSeq_eq sims nl base ca c opts
  rw [batchRunSerial, runSeq_eq] at hser
  have h1 := (poolMap_spec (taskOf sims nl base ca opts) sims.length sched hs).1 _ hser
  have hpl : ∀ l : List R, plotAll plot (l.map some) = .ok () := by
    intro l
    induction l with
    | nil => rfl
    | cons a l ih => rw [List.map_cons, plotAll, hplot]; exact ih
  simp only [batchRunParallel, hfun, h1, hpl]
  split <;> rfl

/-- **C58 is violated** by parallel runs with `show_fig` and caught errors: whenever the serial run returns a list
with a `None` in it, the parallel run raises (an `AttributeError`, unless plotting an earlier result raised). -/
theorem C58_figures_violated (sims : List (PyDict → Except PyErr R)) (plot : R → Except PyErr Unit) (nl : Bool)
    (base : List Char) (ca : Bool) (opts : PyDict) (sched : List (List Nat)) (hs : Schedule sims.length sched)
    (hfig : dictGet opts "show_fig" = some (.bool true)) (hplot : ∀ r, plot r = .ok ()) (rs : List (Option R))
    (hser : (batchRunSerial sims nl base ca opts).1 = .ok rs) (hnone : none ∈ rs) :
    (batchRunParallel sims plot nl base ca opts sched).1 = .error .attributeError := by
  have hfun : (fun c => (runSeq sims nl base ca c opts).1) = fun c => List.mapM (taskOf sims nl base ca opts) c := by
    funext c
    exact runSeq_eq sims nl base ca c opts
  rw [batchRunSerial, runSeq_eq] at hser
  have h1 := (poolMap_spec (taskOf sims nl base ca opts) sims.length sched hs).1 _ hser
  have hpl : ∀ l : List (Option R), none ∈ l → plotAll plot l = .error .attributeError := by
    intro l
    induction l with
    | nil => intro h; simp at h
    | cons a l ih =>
      intro h
      cases a with
      | none => rfl
      | some r =>
        rw [plotAll, hplot]
        exact ih (by simpa using h)
  simp only [batchRunParallel, hfun, h1, hpl rs hnone, if_pos hfig]

/-! ### The directories -/

/-- The number a string of decimal digits stands for. -/
def Spec.decVal (s : List Char) : Nat := s.foldl (fun a c => 10 * a + (c.toNat - '0'.toNat)) 0

theorem digitChar_val : ∀ d, d < 10 → (Nat.digitChar d).toNat - '0'.toNat = d := by decide

theorem decVal_from (l : List Nat) (hl : ∀ d ∈ l, d < 10) :
    ((l.reverse).map Nat.digitChar).foldl (fun a c => 10 * a + (c.toNat - '0'.toNat)) 0 = Nat.ofDigits 10 l := by
  induction l with
  | nil => rfl
  | cons d l ih =>
    rw [List.reverse_cons, List.map_append, List.foldl_append, ih (fun x hx => hl x (List.mem_cons_of_mem _ hx)),
      Nat.ofDigits_cons]
    simp only [List.map_cons, List.map_nil, List.foldl_cons, List.foldl_nil]
    rw [digitChar_val d (hl d List.mem_cons_self)]
    try simp only [Nat.cast_id]
    omega

theorem decVal_pyStr (n : Nat) : Spec.decVal (pyStr n) = n := by
  rw [pyStr]
  split
  · rename_i h; subst h; rfl
  · rw [Spec.decVal, decVal_from _ (fun d hd => Nat.digits_lt_base (by omega) hd), Nat.ofDigits_digits]

theorem decVal_zeros (k : Nat) (s : List Char) : Spec.decVal (List.replicate k '0' ++ s) = Spec.decVal s := by
  induction k with
  | zero => rfl
  | succ k ih =>
    rw [List.replicate_succ, List.cons_append, ← ih]
    rfl

theorem pyStr_length_mono {i n : Nat} (h : i ≤ n) : (pyStr i).length ≤ (pyStr n).length := by
  have hz : (pyStr 0).length = 1 := rfl
  have hne : ∀ m, m ≠ 0 → (pyStr m).length = (Nat.digits 10 m).length := by
    intro m hm
    rw [pyStr, if_neg hm, List.length_map, List.length_reverse]
  by_cases hi : i = 0
  · subst hi
    by_cases hn : n = 0
    · subst hn; exact le_refl _
    · rw [hz, hne n hn]
      have : (Nat.digits 10 n) ≠ [] := Nat.digits_ne_nil_iff_ne_zero.mpr hn
      exact Nat.one_le_iff_ne_zero.mpr (by simpa using this)
  · have hn : n ≠ 0 := by omega
    rw [hne i hi, hne n hn]
    exact Nat.le_length_digits_le 10 i n h

/-- **C58** (directories): the name of a simulation's directory is its number in the batch, all names have the
same length, and different simulations get different directories. -/
theorem C58_directories (base : List Char) (n i j : Nat) (hi : i < n) (hj : j < n) :
    Spec.decVal (rjust0 (pyStr n).length (pyStr i)) = i ∧
    (rjust0 (pyStr n).length (pyStr i)).length = (pyStr n).length ∧
    (simDir base n i = simDir base n j → i = j) := by
  have hval : ∀ m, Spec.decVal (rjust0 (pyStr n).length (pyStr m)) = m := by
    intro m
    rw [rjust0, decVal_zeros, decVal_pyStr]
  refine ⟨hval i, ?_, ?_⟩
  · have := pyStr_length_mono (le_of_lt hi)
    rw [rjust0, List.length_append, List.length_replicate]
    omega
  · intro h
    have h2 : rjust0 (pyStr n).length (pyStr i) = rjust0 (pyStr n).length (pyStr j) := by
      unfold simDir pathJoin at h
      split at h
      · exact List.append_cancel_left h
      · exact (List.cons.inj (List.append_cancel_left h)).2
    rw [← hval i, ← hval j, h2]

/-- **C58** (what is accepted): a batch is a non-empty list of simulations of one and the same class. -/
theorem C58_init (l : Option (List SimKind)) (k : SimKind) :
    batchInit l = .ok k ↔ ∃ ks, l = some ks ∧ ks ≠ [] ∧ k ≠ .notSim ∧ ∀ j ∈ ks, j = k := by
  constructor
  · intro h
    match l, h with
    | none, h => cases h
    | some [], h => cases h
    | some (k0 :: ks), h =>
      rw [batchInit] at h
      by_cases c : k0 = .notSim
      · rw [if_pos c] at h; cases h
      · rw [if_neg c] at h
        by_cases c2 : (k0 :: ks).all (fun j => decide (j = k0)) = true
        · rw [if_pos c2] at h
          cases h
          refine ⟨_, rfl, by simp, c, ?_⟩
          intro j hj
          exact of_decide_eq_true (List.all_eq_true.mp c2 j hj)
        · rw [if_neg c2] at h; cases h
  · rintro ⟨ks, rfl, hne, hk, hall⟩
    cases ks with
    | nil => exact absurd rfl hne
    | cons k0 ks =>
      have e : k0 = k := hall k0 List.mem_cons_self
      subst e
      rw [batchInit, if_neg hk, if_pos (List.all_eq_true.mpr fun j hj => decide_eq_true (hall j hj))]

/-! ## C59 -/

theorem runSeq_opts_other (sims : List (PyDict → Except PyErr R)) (nl : Bool) (base : List Char) (ca : Bool) (is : List Nat)
    (k : String) (hk : k ≠ dirKey nl) : ∀ opts, dictGet (runSeq sims nl base ca is opts).2 k = dictGet opts k := by
  induction is with
  | nil => intro opts; rfl
  | cons i is ih =>
    intro opts
    have h1 : dictGet (runSingle sims nl base ca i opts).2 k = dictGet opts k := by
      rw [runSingle_opts]
      exact (dictSet_update opts _ _).2 k hk
    rw [runSeq]
    simp only
    cases (runSingle sims nl base ca i opts).1 with
    | error e => exact h1
    | ok r =>
      have h2 := ih (runSingle sims nl base ca i opts).2
      simp only
      cases (runSeq sims nl base ca is (runSingle sims nl base ca i opts).2).1 <;> exact h2.trans h1

/-- **C59** (partial): a parallel run leaves the options as they were, under any schedule; a serial run leaves every
entry but the directory as it was. -/
theorem C59_options_partial (sims : List (PyDict → Except PyErr R)) (plot : R → Except PyErr Unit) (nl : Bool)
    (base : List Char) (ca : Bool) (opts : PyDict) (sched : List (List Nat)) (k : String)
    (hk : k ≠ if nl then "sim_dir" else "output_dir") :
    (batchRunParallel sims plot nl base ca opts sched).2 = opts ∧
    dictGet (batchRunSerial sims nl base ca opts).2 k = dictGet opts k :=
  ⟨rfl, runSeq_opts_other sims nl base ca _ k hk opts⟩

theorem runSeq_last (sims : List (PyDict → Except PyErr R)) (nl : Bool) (base : List Char) (ca : Bool) (is : List Nat) (m : Nat) :
    ∀ opts rs, (runSeq sims nl base ca (is ++ [m]) opts).1 = .ok rs →
      dictGet (runSeq sims nl base ca (is ++ [m]) opts).2 (dirKey nl) = some (.str (simDir base sims.length m)) := by
  induction is with
  | nil =>
    intro opts rs h
    rw [List.nil_append, runSeq] at h ⊢
    simp only at h ⊢
    have := (dictSet_update opts (dirKey nl) (.str (simDir base sims.length m))).1
    rw [← runSingle_opts sims nl base ca m opts] at this
    cases hr : (runSingle sims nl base ca m opts).1 with
    | error e => rw [hr] at h; cases h
    | ok r => exact this
  | cons i is ih =>
    intro opts rs h
    rw [List.cons_append, runSeq] at h ⊢
    simp only at h ⊢
    cases hr : (runSingle sims nl base ca i opts).1 with
    | error e => rw [hr] at h; cases h
    | ok r =>
      rw [hr] at h
      simp only at h ⊢
      cases hq : (runSeq sims nl base ca (is ++ [m]) (runSingle sims nl base ca i opts).2).1 with
      | error e => rw [hq] at h; cases h
      | ok q => exact ih _ q hq

/-- **C59 is violated**: after a serial run that returns, the options hold the directory of the last simulation, so
they are changed unless the caller happened to ask for just that directory. -/
theorem C59_options_violated (sims : List (PyDict → Except PyErr R)) (nl : Bool) (base : List Char) (ca : Bool)
    (opts : PyDict) (rs : List (Option R)) (hne : sims ≠ []) (h : (batchRunSerial sims nl base ca opts).1 = .ok rs) :
    dictGet (batchRunSerial sims nl base ca opts).2 (if nl then "sim_dir" else "output_dir")
      = some (.str (simDir base sims.length (sims.length - 1))) ∧
    (dictGet opts (if nl then "sim_dir" else "output_dir") = none → (batchRunSerial sims nl base ca opts).2 ≠ opts) := by
  have hl : List.range sims.length = List.range (sims.length - 1) ++ [sims.length - 1] := by
    have : sims.length = (sims.length - 1) + 1 := by
      have := List.length_pos_of_ne_nil hne
      omega
    conv_lhs => rw [this]
    exact List.range_succ
  have h1 : dictGet (batchRunSerial sims nl base ca opts).2 (dirKey nl)
      = some (.str (simDir base sims.length (sims.length - 1))) := by
    rw [batchRunSerial, hl] at h ⊢
    exact runSeq_last sims nl base ca _ _ opts rs h
  refine ⟨h1, ?_⟩
  intro hnone heq
  rw [heq] at h1
  unfold dirKey at h1
  rw [hnone] at h1
  cases h1

/-! ### A batch of twelve -/

/-- Simulation 5 fails, the others return the directory they were given. -/
def exSims : List (PyDict → Except PyErr OptVal) :=
  (List.range 12).map fun i => fun o =>
    if i = 5 then .error .valueError
    else match dictGet o "output_dir" with
      | some v => .ok v
      | none => .error .keyError

example : simDir "out".toList 12 7 = "out/07".toList := by decide +kernel
example : simDir "./".toList 1234 7 = "./0007".toList := by decide +kernel

example : ((batchRunSerial exSims false "o".toList true []).1.toOption.map fun l => (l.drop 4).take 3)
    = some [some (.str "o/04".toList), none, some (.str "o/06".toList)] := by decide +kernel

example : (batchRunParallel exSims (fun _ => .ok ()) false "o".toList true [] [[8, 9, 10, 11], [0, 1, 2, 3], [4, 5, 6, 7]]).1
    = (batchRunSerial exSims false "o".toList true []).1 := by decide +kernel

example : (batchRunParallel exSims (fun _ => .ok ()) false "o".toList true [("show_fig", .bool true)]
    [[8, 9, 10, 11], [0, 1, 2, 3], [4, 5, 6, 7]]).1 = .error .attributeError := by decide +kernel

example : (batchRunSerial exSims false "o".toList false []).1 = .error .valueError := by decide +kernel
example : (batchRunSerial exSims false "o".toList true []).2 = [("output_dir", .str "o/11".toList)] := by decide +kernel

end Verif
