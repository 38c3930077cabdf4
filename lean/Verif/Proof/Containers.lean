import Verif.Spec.Containers
import Mathlib.Data.List.Nodup
import Mathlib.Data.List.Perm.Basic
import Mathlib.Tactic.Linarith

set_option linter.unusedSectionVars false
set_option linter.unusedVariables false

namespace Verif

open Spec

theorem pyIndex_pos (n : Nat) (i : Int) :
    pyIndex n i = match pos n i with | some k => .ok k | none => .error .indexError := by
  unfold pyIndex pos
  split_ifs with h1 h2 h3 h4 h5 h6 h7 <;> first | rfl | omega | skip
  · simp only [Except.ok.injEq]; omega

theorem pos_lt {n : Nat} {i : Int} {k : Nat} (h : pos n i = some k) : k < n := by
  unfold pos at h
  split_ifs at h <;> (cases h; omega)

theorem clipBound_false (n : Nat) (x : Int) : 0 ≤ clipBound n false x ∧ clipBound n false x ≤ n := by
  unfold clipBound; simp only [Bool.false_eq_true, if_false]; split_ifs <;> omega

theorem clipBound_true (n : Nat) (x : Int) : -1 ≤ clipBound n true x ∧ clipBound n true x ≤ (n : Int) - 1 := by
  unfold clipBound; simp only [if_true]; split_ifs <;> omega

theorem sliceIdx_props {n : Nat} {s : Slice} {idx : List Nat} (h : sliceIdx n s = .ok idx) :
    idx.Nodup ∧ ∀ i ∈ idx, i < n := by
  unfold sliceIdx at h
  simp only at h
  split_ifs at h with h0 h1
  · -- positive step
    set st := s.step.getD 1 with hst
    have ha : 0 ≤ (s.start.map (clipBound n false)).getD 0 := by
      cases s.start <;> simp [(clipBound_false n _).1]
    have hb : (s.stop.map (clipBound n false)).getD (n : Int) ≤ n := by
      cases s.stop <;> simp [(clipBound_false n _).2]
    set a := (s.start.map (clipBound n false)).getD 0
    set b := (s.stop.map (clipBound n false)).getD (n : Int)
    have key : ∀ k : Nat, k < ((b - a + st - 1) / st).toNat → 0 ≤ a + k * st ∧ a + k * st < b := by
      intro k hk
      have h2 : ((k : Int) + 1) ≤ (b - a + st - 1) / st := by omega
      rw [Int.le_ediv_iff_mul_le h1] at h2
      have h3 : 0 ≤ (k : Int) * st := by positivity
      constructor <;> nlinarith
    cases h
    constructor
    · rw [List.nodup_map_iff_inj_on List.nodup_range]
      intro x hx y hy hxy
      have hx' := key x (List.mem_range.1 hx)
      have hy' := key y (List.mem_range.1 hy)
      have : (x : Int) * st = y * st := by omega
      have := mul_right_cancel₀ h0 this
      omega
    · intro i hi
      obtain ⟨k, hk, rfl⟩ := List.mem_map.1 hi
      have := key k (List.mem_range.1 hk)
      omega
  · set st := s.step.getD 1 with hst
    have hneg : 0 < -st := by omega
    have ha : (s.start.map (clipBound n true)).getD ((n : Int) - 1) ≤ n - 1 := by
      cases s.start with
      | none => simp
      | some x => simpa using (clipBound_true n x).2
    have hb : -1 ≤ (s.stop.map (clipBound n true)).getD (-1) := by
      cases s.stop with
      | none => simp
      | some x => simpa using (clipBound_true n x).1
    set a := (s.start.map (clipBound n true)).getD ((n : Int) - 1)
    set b := (s.stop.map (clipBound n true)).getD (-1)
    have key : ∀ k : Nat, k < ((a - b + (-st) - 1) / (-st)).toNat → 0 ≤ a + k * st ∧ a + k * st < n := by
      intro k hk
      have h2 : ((k : Int) + 1) ≤ (a - b + (-st) - 1) / (-st) := by omega
      rw [Int.le_ediv_iff_mul_le hneg] at h2
      have h3 : 0 ≤ (k : Int) * (-st) := by positivity
      constructor <;> nlinarith
    cases h
    constructor
    · rw [List.nodup_map_iff_inj_on List.nodup_range]
      intro x hx y hy hxy
      have hx' := key x (List.mem_range.1 hx)
      have hy' := key y (List.mem_range.1 hy)
      have : (x : Int) * st = y * st := by omega
      have := mul_right_cancel₀ h0 this
      omega
    · intro i hi
      obtain ⟨k, hk, rfl⟩ := List.mem_map.1 hi
      have := key k (List.mem_range.1 hk)
      omega

theorem delIdx_length {α : Type*} (l : List α) (idx : List Nat) (hn : idx.Nodup) (hb : ∀ i ∈ idx, i < l.length) :
    (delIdx l idx).length + idx.length = l.length := by
  have h1 : (delIdx l idx).length = ((List.range l.length).filter fun i => decide (i ∉ idx)).length := by
    unfold delIdx
    rw [List.length_map]
    have : (List.range l.length) = l.zipIdx.map Prod.snd := by
      rw [List.zipIdx_map_snd, List.range_eq_range']
    rw [this, List.filter_map, List.length_map]
    rfl
  have h2 : ((List.range l.length).filter fun i => decide (i ∈ idx)).length = idx.length := by
    apply List.Perm.length_eq
    rw [List.perm_ext_iff_of_nodup (List.Nodup.filter _ List.nodup_range) hn]
    intro i
    simp only [List.mem_filter, List.mem_range, decide_eq_true_eq]
    exact ⟨fun h => h.2, fun h => ⟨hb i h, h⟩⟩
  have h3 := List.length_eq_length_filter_add (l := List.range l.length) (fun i => decide (i ∈ idx))
  rw [List.length_range] at h3
  have h4 : ((List.range l.length).filter fun i => decide (i ∉ idx)) =
      (List.range l.length).filter fun i => !decide (i ∈ idx) := by
    apply List.filter_congr
    intro x _; simp
  rw [h1, h4]; omega

theorem mem_delIdx {α : Type*} {l : List α} {idx : List Nat} {x : α} (h : x ∈ delIdx l idx) : x ∈ l := by
  unfold delIdx at h
  obtain ⟨p, hp, rfl⟩ := List.mem_map.1 h
  exact List.fst_mem_of_mem_zipIdx (List.mem_of_mem_filter hp)

theorem mem_getIdx {α : Type*} {l : List α} {idx : List Nat} {x : α} (h : x ∈ getIdx l idx) : x ∈ l := by
  unfold getIdx at h
  obtain ⟨i, _, hi⟩ := List.mem_filterMap.1 h
  exact List.mem_of_getElem? hi

theorem set_eq_take_drop {α : Type*} (l : List α) (k : Nat) (c : α) (h : k < l.length) :
    l.set k c = l.take k ++ [c] ++ l.drop (k + 1) := by
  rw [List.set_eq_take_append_cons_drop, if_pos h]; simp

theorem mapM_obj {P : Type} (ec : CurveCls) (conv : CurveCls → P → Except PyErr P) (l : List (CurveObj P))
    (h : ∀ c ∈ l, c.cls.isInst ec = true) : (l.map CurveArg.obj).mapM (convArg ec conv) = .ok l := by
  induction l with
  | nil => rfl
  | cons c l ih =>
    rw [List.map_cons, List.mapM_cons, ih (fun x hx => h x (by simp [hx]))]
    simp [convArg, h c (by simp), bind, Except.bind, pure, Except.pure]

theorem mapM_pobj {P : Type} (ec : PCls) (conv : PCls → P → Except PyErr P) (l : List (PObj P))
    (h : ∀ c ∈ l, c.cls = ec) : (l.map PArg.obj).mapM (convPArg ec conv) = .ok l := by
  induction l with
  | nil => rfl
  | cons c l ih =>
    rw [List.map_cons, List.mapM_cons, ih (fun x hx => h x (by simp [hx]))]
    simp [convPArg, h c (by simp), bind, Except.bind, pure, Except.pure]

end Verif
