import Verif.Props.Containers

/-!
Exact extent of C13, C14 and C15: which single operations keep the invariant of a container or of a parameter object.
-/

set_option linter.unusedSectionVars false
set_option linter.unusedVariables false

namespace Verif

open Spec

variable {P : Type} [DecidableEq P]

/-! ## C14 -/

/-- What an operation must satisfy for the number of layers and the types of the elements to stay right: an assigned
object is of the class of the container, a slice is replaced by as many objects, exactly one element is deleted. -/
def Spec.keepsLayers (ec : PCls) (n : Nat) : PLOp P → Prop
  | .set i x => (0 ≤ i ∧ i < n) ∨ (i < 0 ∧ -(n : Int) ≤ i) → x.cls = ec
  | .setRange a b xs => (∀ x ∈ xs, x.cls = ec) ∧ xs.length = min b n - min a n
  | .delSlice s => ∀ idx, sliceIdx n s = .ok idx → idx.length = 1
  | _ => True

/-- C14, exactly: the operations which keep the layer count and the element types right. -/
theorem C14_step_exact (m : PMulti P) (h : PInv m) (op : PLOp P) :
    PInv (m.step op).1 ↔ keepsLayers m.ec m.items.length op := by
  obtain ⟨cls, ec, l, n⟩ := m
  have h' := h
  obtain ⟨hc, ht⟩ := h
  simp only at hc ht
  subst hc
  cases op with
  | get i =>
    simp only [PMulti.step, keepsLayers, iff_true]
    split
    · exact h'
    · split <;> exact h'
  | getSlice s =>
    simp only [PMulti.step, keepsLayers, iff_true]
    split
    · exact h'
    · cases cls with
      | base => exact h'
      | hh => simp only; split <;> exact h'
      | mkz => simp only; split <;> exact h'
  | getBad => simp only [PMulti.step, keepsLayers, iff_true]; exact h'
  | set i x =>
    simp only [PMulti.step, keepsLayers, pyIndex]
    by_cases h1 : 0 ≤ i ∧ i < (l.length : Int)
    · rw [if_pos h1]
      simp only [h1, and_self, true_or, forall_const]
      have hk : i.toNat < l.length := by omega
      constructor
      · intro hp; exact hp.typed x (by simp only; exact List.mem_set hk x)
      · intro hx
        refine ⟨by simp, ?_⟩
        intro d hd
        rcases List.mem_or_eq_of_mem_set hd with h | rfl
        · exact ht d h
        · exact hx
    · rw [if_neg h1]
      by_cases h2 : i < 0 ∧ -(l.length : Int) ≤ i
      · rw [if_pos h2]
        simp only [h2, and_self, or_true, forall_const]
        have hk : (i + l.length).toNat < l.length := by omega
        constructor
        · intro hp; exact hp.typed x (by simp only; exact List.mem_set hk x)
        · intro hx
          refine ⟨by simp, ?_⟩
          intro d hd
          rcases List.mem_or_eq_of_mem_set hd with h | rfl
          · exact ht d h
          · exact hx
      · rw [if_neg h2]
        exact ⟨fun _ hc => absurd hc (by tauto), fun _ => h'⟩
  | setRange a b xs =>
    simp only [PMulti.step, keepsLayers]
    have hlen : (l.take a ++ xs ++ l.drop (max (min a l.length) (min b l.length))).length =
        min a l.length + xs.length + (l.length - max (min a l.length) (min b l.length)) := by simp; omega
    constructor
    · intro hp
      refine ⟨fun x hx => hp.typed x (by simp [hx]), ?_⟩
      have := hp.count
      simp only at this
      rw [hlen] at this
      omega
    · rintro ⟨hx, hn⟩
      refine ⟨?_, ?_⟩
      · simp only; rw [hlen]; omega
      · intro d hd
        simp only [List.mem_append] at hd
        rcases hd with (hd | hd) | hd
        · exact ht d (List.mem_of_mem_take hd)
        · exact hx d hd
        · exact ht d (List.mem_of_mem_drop hd)
  | del i =>
    simp only [PMulti.step, keepsLayers, iff_true, pyIndex_pos]
    cases hp : pos l.length i with
    | none => exact h'
    | some k =>
      have hk := pos_lt hp
      refine ⟨?_, ?_⟩
      · simp only [List.length_eraseIdx, hk, if_true]; omega
      · intro d hd; exact ht d (List.mem_of_mem_eraseIdx hd)
  | delSlice s =>
    simp only [PMulti.step, keepsLayers]
    cases hs : sliceIdx l.length s with
    | error e => simp only [reduceCtorEq, false_implies, implies_true, iff_true]; exact h'
    | ok idx =>
      have hl := delIdx_length l idx (sliceIdx_props hs).1 (sliceIdx_props hs).2
      simp only [Except.ok.injEq, forall_eq']
      constructor
      · intro hp
        have := hp.count
        simp only at this
        omega
      · intro h1
        refine ⟨by simp only; omega, ?_⟩
        intro d hd
        unfold delIdx at hd
        obtain ⟨q, hq, rfl⟩ := List.mem_map.1 hd
        have := (List.mem_filter.1 hq).1
        obtain ⟨i, hi⟩ := List.mem_iff_getElem?.1 this
        rw [List.getElem?_zipIdx] at hi
        cases hli : l[i]? with
        | none => rw [hli] at hi; cases hi
        | some y => rw [hli] at hi; cases hi; exact ht y (List.mem_of_getElem? hli)
  | len => simp only [PMulti.step, keepsLayers, iff_true]; split_ifs <;> exact h'
  | contains x => simp only [PMulti.step, keepsLayers, iff_true]; exact h'

/-- C14 for whole histories, exactly: if every operation is one of those, taken at the state it is applied to, the
container stays right. -/
theorem C14_history_exact_partial (ops : List (PLOp P)) : ∀ (m : PMulti P), PInv m →
    (∀ (pre : List (PLOp P)) op suf, ops = pre ++ op :: suf →
      keepsLayers (m.run pre).1.ec (m.run pre).1.items.length op) → PInv (m.run ops).1 := by
  induction ops with
  | nil => intro m h _; exact h
  | cons op ops ih =>
    intro m h hops
    have h1 : PInv (m.step op).1 := (C14_step_exact m h op).2 (hops [] op ops rfl)
    rw [PMulti.run]
    refine ih (m.step op).1 h1 ?_
    intro pre o suf he
    have := hops (op :: pre) o suf (by rw [he]; rfl)
    rwa [PMulti.run] at this

example : keepsLayers (P := Nat) .hh 3 (.setRange 1 2 [⟨.hh, 5⟩]) ∧ ¬ keepsLayers (P := Nat) .hh 3 (.setRange 1 2 []) ∧
    ¬ keepsLayers (P := Nat) .hh 3 (.set (-1) ⟨.mkz, 5⟩) := by
  refine ⟨by simp [keepsLayers], by simp [keepsLayers], by simp [keepsLayers]⟩

/-! ## C15 -/

variable {V : Type}

/-- C15, exactly: an operation keeps the set of keys unless it is `|=` with a foreign key. -/
theorem C15_step_exact (p : Param V) (h : KInv p) (op : DOp V) :
    KInv (p.step op).1 ↔ ∀ kv, op = .ior kv → ∀ k ∈ kv.map Prod.fst, k ∈ p.allow := by
  by_cases hi : isIor op
  · cases op with
    | ior kv =>
      obtain ⟨h1, h2⟩ := foldl_put_keys kv p.data h.nodup
      simp only [Param.step, DOp.ior.injEq, forall_eq']
      constructor
      · intro hk k hm
        exact (hk.keys k).1 ((h2 k).2 (.inr hm))
      · intro hk
        refine ⟨h1, fun k => ?_⟩
        simp only
        rw [h2 k, h.keys k]
        exact ⟨fun hc => hc.elim id (hk k), .inl⟩
    | _ => exact absurd hi (by simp [isIor])
  · constructor
    · rintro _ kv rfl
      exact absurd trivial hi
    · intro _
      have := (C15_history_partial [op] p h (by simpa using hi)).1
      simpa [Param.run] using this

/-- `update` with a foreign key: the entries before it are assigned, the rest is not, and the KeyError is raised: C15 is
violated whenever one of the entries before changes something. -/
theorem C15_update_all_violated (p : Param V) (good rest : Dict V) (k : String) (v : V)
    (hg : ∀ q ∈ good, q.1 ∈ p.allow) (hk : k ∉ p.allow) :
    p.step (.update (good ++ (k, v) :: rest)) =
      ({ p with data := good.foldl (fun acc q => acc.put q.1 q.2) p.data }, .err .keyError) := by
  have : p.update (good ++ (k, v) :: rest) =
      ({ p with data := good.foldl (fun acc q => acc.put q.1 q.2) p.data }, .error .keyError) := by
    induction good generalizing p with
    | nil => simp [Param.update, Param.setItem, hk]
    | cons q good ih =>
      obtain ⟨j, w⟩ := q
      have hj : j ∈ p.allow := hg (j, w) (by simp)
      simp only [List.cons_append, Param.update, Param.setItem, hj, if_true, List.foldl_cons]
      exact ih { p with data := p.data.put j w } (fun q hq => hg q (by simp [hq])) hk
  simp only [Param.step, this]

/-- `update` with allowed keys assigns every entry. -/
theorem C15_update (p : Param V) (kv : Dict V) (hg : ∀ q ∈ kv, q.1 ∈ p.allow) :
    p.step (.update kv) = ({ p with data := kv.foldl (fun acc q => acc.put q.1 q.2) p.data }, .unit) := by
  have : p.update kv = ({ p with data := kv.foldl (fun acc q => acc.put q.1 q.2) p.data }, .ok ()) := by
    induction kv generalizing p with
    | nil => rfl
    | cons q kv ih =>
      obtain ⟨j, w⟩ := q
      have hj : j ∈ p.allow := hg (j, w) (by simp)
      simp only [Param.update, Param.setItem, hj, if_true, List.foldl_cons]
      exact ih { p with data := p.data.put j w } (fun q hq => hg q (by simp [hq]))
  simp only [Param.step, this]

/-- The value of a key after a sequence of assignments is the last one assigned to it, if any. -/
theorem C15_update_values (kv d : Dict V) (k : String) :
    (kv.foldl (fun acc q => acc.put q.1 q.2) d).look k =
      match kv.reverse.find? (fun q => decide (q.1 = k)) with
      | some q => .ok q.2
      | none => d.look k := by
  have hput : ∀ (d : Dict V) (j : String) (v : V), (d.put j v).look k = if j = k then .ok v else d.look k := by
    intro d j v
    unfold Dict.put
    split_ifs with hm hjk hjk
    · subst hjk
      unfold Dict.look
      induction d with
      | nil => simp at hm
      | cons q d ih =>
        by_cases hq : q.1 = j
        · simp [hq]
        · have : j ∈ d.map Prod.fst := by
            simp only [List.map_cons, List.mem_cons] at hm
            exact hm.resolve_left (Ne.symm hq)
          simp only [List.map_cons, hq, if_false, List.find?_cons, decide_false]
          exact ih this
    · unfold Dict.look
      clear hm
      induction d with
      | nil => rfl
      | cons q d ih =>
        by_cases hq : q.1 = j
        · simp only [List.map_cons, hq, if_true, List.find?_cons, decide_eq_false hjk]
          exact ih
        · by_cases hqk : q.1 = k
          · simp only [List.map_cons, List.find?_cons, if_neg hq, decide_eq_true hqk]
          · simp only [List.map_cons, List.find?_cons, if_neg hq, decide_eq_false hqk]
            exact ih
    · subst hjk
      unfold Dict.look
      have : d.find? (fun p => decide (p.1 = j)) = none := by
        rw [List.find?_eq_none]
        intro q hq he
        simp only [decide_eq_true_eq] at he
        exact hm (he ▸ List.mem_map_of_mem hq)
      rw [List.find?_append, this]
      simp
    · unfold Dict.look
      rw [List.find?_append]
      cases hf : d.find? (fun p => decide (p.1 = k)) with
      | none => simp [hjk]
      | some q => simp
  induction kv generalizing d with
  | nil => rfl
  | cons q kv ih =>
    rw [List.foldl_cons, ih, List.reverse_cons, List.find?_append]
    cases hf : kv.reverse.find? (fun q => decide (q.1 = k)) with
    | some r => simp
    | none =>
      simp only [Option.none_or, List.find?_cons, List.find?_nil, hput]
      by_cases hq : q.1 = k
      · simp [hq]
      · simp [hq]

example : ∃ p : Param Nat, KInv p ∧ p.step (.update [("s", 7), ("foo", 1), ("beta", 9)]) =
    ({ p with data := [("gamma_ref", 1), ("s", 7), ("beta", 3), ("Gmax", 4)] }, .err .keyError) :=
  ⟨⟨mkzKeys, [("gamma_ref", 1), ("s", 2), ("beta", 3), ("Gmax", 4)]⟩, ⟨by decide, by intro k; simp [mkzKeys]⟩, by decide⟩

end Verif
