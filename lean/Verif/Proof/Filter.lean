import Verif.Model.Filter
import Verif.Proof.Motion

set_option linter.unusedSectionVars false
set_option linter.unusedVariables false

namespace Verif

open Spec (times vals Uniform)

variable {K : Type} [Field K] [LinearOrder K]

/-- `a • x + b • y`, elementwise. -/
def lin2 (a b : K) (x y : List K) : List K := List.zipWith (fun p q => a * p + b * q) x y

theorem sectFrom_length (c : Sect K) (z : K × K) (x : List K) : (sectFrom c z x).length = x.length := by
  induction x generalizing z with
  | nil => rfl
  | cons a x ih => simp [sectFrom, ih]

theorem sosfilt_nil (sos : List (Sect K)) : sosfilt sos [] = [] := by
  unfold sosfilt
  induction sos with
  | nil => rfl
  | cons c s ih => exact ih

theorem sosfilt_cons (c : Sect K) (s : List (Sect K)) (x : List K) :
    sosfilt (c :: s) x = sosfilt s (sectFrom c (0, 0) x) := rfl

theorem sosfilt_length (sos : List (Sect K)) (x : List K) : (sosfilt sos x).length = x.length := by
  induction sos generalizing x with
  | nil => rfl
  | cons c s ih => rw [sosfilt_cons, ih, sectFrom_length]

theorem sectFrom_lin (c : Sect K) (a b : K) (z w : K × K) (x y : List K) :
    sectFrom c (a * z.1 + b * w.1, a * z.2 + b * w.2) (lin2 a b x y)
      = lin2 a b (sectFrom c z x) (sectFrom c w y) := by
  induction x generalizing z w y with
  | nil => rfl
  | cons p x ih =>
    cases y with
    | nil => rfl
    | cons q y =>
      simp only [lin2, List.zipWith_cons_cons, sectFrom]
      refine congrArg₂ List.cons (by ring) ?_
      have := ih (c.b1 * p - c.a1 * (c.b0 * p + z.1) + z.2, c.b2 * p - c.a2 * (c.b0 * p + z.1))
        (c.b1 * q - c.a1 * (c.b0 * q + w.1) + w.2, c.b2 * q - c.a2 * (c.b0 * q + w.1)) y
      simp only [lin2] at this
      rw [← this]
      congr 1
      refine Prod.ext ?_ ?_ <;> (dsimp only; ring)

theorem sosfilt_lin (sos : List (Sect K)) (a b : K) (x y : List K) :
    sosfilt sos (lin2 a b x y) = lin2 a b (sosfilt sos x) (sosfilt sos y) := by
  induction sos generalizing x y with
  | nil => rfl
  | cons c s ih =>
    rw [sosfilt_cons, sosfilt_cons, sosfilt_cons, ← ih, ← sectFrom_lin]
    simp

theorem lin2_self (a : K) (x : List K) : lin2 a 0 x x = x.map (a * ·) := by
  induction x with
  | nil => rfl
  | cons p x ih => rw [lin2, List.zipWith_cons_cons, ← lin2, ih]; simp

theorem sosfilt_smul (sos : List (Sect K)) (a : K) (x : List K) :
    sosfilt sos (x.map (a * ·)) = (sosfilt sos x).map (a * ·) := by
  rw [← lin2_self, sosfilt_lin, lin2_self]

theorem sosfilt_zero (sos : List (Sect K)) (n : Nat) : sosfilt sos (List.replicate n (0 : K)) = List.replicate n 0 := by
  have h := sosfilt_smul sos 0 (List.replicate n (0 : K))
  have h1 : (List.replicate n (0 : K)).map (0 * ·) = List.replicate n 0 := by simp
  rw [h1] at h
  rw [h]
  refine List.eq_replicate_iff.2 ⟨by rw [List.length_map, sosfilt_length, List.length_replicate], ?_⟩
  intro b hb
  obtain ⟨c, _, rfl⟩ := List.mem_map.1 hb
  exact zero_mul c

theorem sectFrom_take (c : Sect K) (z : K × K) (x : List K) (k : Nat) :
    (sectFrom c z x).take k = sectFrom c z (x.take k) := by
  induction x generalizing z k with
  | nil => simp [sectFrom]
  | cons a x ih =>
    cases k with
    | zero => simp [sectFrom]
    | succ k => simp [sectFrom, ih]

/-- Causality. -/
theorem sosfilt_take (sos : List (Sect K)) (x : List K) (k : Nat) :
    (sosfilt sos x).take k = sosfilt sos (x.take k) := by
  induction sos generalizing x with
  | nil => rfl
  | cons c s ih => rw [sosfilt_cons, sosfilt_cons, ih, sectFrom_take]

/-- A section at rest ignores leading zeros. -/
theorem sectFrom_zeros (c : Sect K) (n : Nat) (x : List K) :
    sectFrom c (0, 0) (List.replicate n 0 ++ x) = List.replicate n 0 ++ sectFrom c (0, 0) x := by
  induction n with
  | zero => rfl
  | succ n ih =>
    rw [List.replicate_succ, List.cons_append, sectFrom]
    simp only [mul_zero, add_zero, sub_zero, List.cons_append]
    rw [ih]

/-- Time invariance. -/
theorem sosfilt_zeros (sos : List (Sect K)) (n : Nat) (x : List K) :
    sosfilt sos (List.replicate n 0 ++ x) = List.replicate n 0 ++ sosfilt sos x := by
  induction sos generalizing x with
  | nil => rfl
  | cons c s ih => rw [sosfilt_cons, sosfilt_cons, sectFrom_zeros, ih]

/-- The direct gain of a cascade. -/
def directGain (sos : List (Sect K)) : K := (sos.map Sect.b0).prod

theorem sosfilt_head (sos : List (Sect K)) (a : K) (x : List K) :
    ∃ y, sosfilt sos (a :: x) = directGain sos * a :: y := by
  induction sos generalizing a x with
  | nil => exact ⟨x, by simp [sosfilt, directGain]⟩
  | cons c s ih =>
    rw [sosfilt_cons, sectFrom]
    obtain ⟨y, hy⟩ := ih (c.b0 * a + 0) (sectFrom c (c.b1 * a - c.a1 * (c.b0 * a + 0) + 0, c.b2 * a - c.a2 * (c.b0 * a + 0)) x)
    refine ⟨y, ?_⟩
    rw [hy]
    simp only [directGain, List.map_cons, List.prod_cons, add_zero]
    rw [show (s.map Sect.b0).prod * (c.b0 * a) = c.b0 * (s.map Sect.b0).prod * a by ring]

/-- A causal filter that treats both directions of time alike is a multiplication. -/
theorem sosfilt_symmetric (sos : List (Sect K)) (h : ∀ x : List K, sosfilt sos x.reverse = (sosfilt sos x).reverse)
    (x : List K) : sosfilt sos x = x.map (directGain sos * ·) := by
  induction x using List.reverseRecOn with
  | nil => exact sosfilt_nil sos
  | append_singleton x a ih =>
    have h1 : (sosfilt sos (x ++ [a])).take x.length = sosfilt sos x := by
      rw [sosfilt_take]; simp
    have h2 := h (x ++ [a])
    rw [List.reverse_append] at h2
    obtain ⟨y, hy⟩ := sosfilt_head sos a x.reverse
    have h3 : sosfilt sos (x ++ [a]) = y.reverse ++ [directGain sos * a] := by
      have h4 := congrArg List.reverse h2
      rw [List.reverse_reverse] at h4
      rw [← h4]
      show (sosfilt sos (a :: x.reverse)).reverse = _
      rw [hy, List.reverse_cons]
    have hl : y.reverse.length = x.length := by
      have := congrArg List.length hy
      rw [sosfilt_length] at this
      simp at this
      simp [this]
    rw [h3, List.take_left' hl] at h1
    rw [h3, h1, ih, List.map_append]
    rfl

/-! ### the dispatch -/

theorem applyFilter_ok {design : Design K} {n : Nat} {ft : FType} {wn : List K} {x r : Rec K}
    (h : applyFilter design n ft wn x = .ok r) :
    ∃ sos, design n ft wn = .ok sos ∧ r = (times x).zip (sosfilt sos (vals x)) := by
  unfold applyFilter at h
  cases hd : design n ft wn with
  | error e => rw [hd] at h; cases h
  | ok sos =>
    rw [hd] at h
    refine ⟨sos, rfl, ?_⟩
    simp only [bind, Except.bind, colStack] at h
    rw [if_neg (by simp [sosfilt_length])] at h
    exact (Except.ok.inj h).symm

theorem applyFilter_of {design : Design K} {n : Nat} {ft : FType} {wn : List K} (x : Rec K) {sos : List (Sect K)}
    (hd : design n ft wn = .ok sos) :
    applyFilter design n ft wn x = .ok ((times x).zip (sosfilt sos (vals x))) := by
  unfold applyFilter
  rw [hd]
  simp only [bind, Except.bind, colStack]
  rw [if_neg (by simp [sosfilt_length])]
  rfl

theorem dtOf_times {x y : Rec K} (h : times x = times y) : dtOf x = dtOf y := by
  match x, y, h with
  | [], [], _ => rfl
  | [_], [_], _ => rfl
  | r :: s :: _, r' :: s' :: _, h =>
    simp only [times, List.map_cons, List.cons.injEq] at h
    simp [dtOf, h.1, h.2.1]
  | [], _ :: _, h => simp [times] at h
  | _ :: _, [], h => simp [times] at h
  | [_], _ :: _ :: _, h => simp [times] at h
  | _ :: _ :: _, [_], h => simp [times] at h

theorem times_length (x : Rec K) : (times x).length = x.length := by simp [times]
theorem vals_length (x : Rec K) : (vals x).length = x.length := by simp [vals]
theorem zip_times_vals (x : Rec K) : (times x).zip (vals x) = x := by
  induction x with
  | nil => rfl
  | cons p x ih => simp only [times, vals, List.map_cons, List.zip_cons_cons] at ih ⊢; rw [ih]

/-- What a filter request amounts to, whatever the values: an error, or one cascade for the values. -/
def Uses (r : Rec K → Except PyErr (Rec K)) (t : List K) : Prop :=
  (∃ e, ∀ x, times x = t → r x = .error e) ∨
  ∃ sos : List (Sect K), ∀ x, times x = t → r x = .ok ((times x).zip (sosfilt sos (vals x)))

theorem uses_id (t : List K) : Uses (fun x => .ok x) t :=
  .inr ⟨[], fun x _ => by rw [sosfilt, List.foldl_nil, zip_times_vals]⟩

theorem uses_err (e : PyErr) (t : List K) : Uses (fun _ => .error e) t := .inl ⟨e, fun _ _ => rfl⟩

theorem uses_apply (design : Design K) (n : Nat) (ft : FType) (wn : List K) (t : List K) :
    Uses (fun x => applyFilter design n ft wn x) t := by
  cases hd : design n ft wn with
  | error e => exact .inl ⟨e, fun x _ => by show applyFilter design n ft wn x = _; rw [applyFilter, hd]; rfl⟩
  | ok sos => exact .inr ⟨sos, fun x _ => applyFilter_of x hd⟩

theorem Uses.congr {r s : Rec K → Except PyErr (Rec K)} {t : List K} (h : Uses s t) (hrs : ∀ x, times x = t → r x = s x) :
    Uses r t := by
  rcases h with ⟨e, h⟩ | ⟨sos, h⟩
  · exact .inl ⟨e, fun x hx => (hrs x hx).trans (h x hx)⟩
  · exact .inr ⟨sos, fun x hx => (hrs x hx).trans (h x hx)⟩

/-- The time step of a time column. -/
def dtT (t : List K) : Except PyErr K := dtOf (t.map fun s => (s, s))

theorem dtOf_dtT (x : Rec K) : dtOf x = dtT (times x) := by
  match x with
  | [] => rfl
  | [_] => rfl
  | _ :: _ :: _ => rfl

theorem uses_filterOne (design : Design K) (n : Nat) (high : Bool) (c : K) (t : List K) :
    Uses (filterOne design n high c) t := by
  cases hd : dtT t with
  | error e =>
    refine (uses_err e t).congr fun x hx => ?_
    rw [filterOne, dtOf_dtT, hx, hd]; rfl
  | ok d =>
    by_cases h0 : d = 0
    · refine (uses_err .nonFinite t).congr fun x hx => ?_
      rw [filterOne, dtOf_dtT, hx, hd]
      simp only [bind, Except.bind]
      rw [if_pos h0]
    · have key : ∀ x, times x = t → filterOne design n high c x = if high then
          if c ≤ 0 then .ok x else applyFilter design n .highpass [c / (1 / d / 2)] x
        else if 1 / d / 2 ≤ c then .ok x else applyFilter design n .lowpass [c / (1 / d / 2)] x := by
        intro x hx
        rw [filterOne, dtOf_dtT, hx, hd]
        simp only [bind, Except.bind]
        rw [if_neg h0]
      refine Uses.congr ?_ key
      cases high
      · by_cases hc : 1 / d / 2 ≤ c
        · exact (uses_id t).congr fun x _ => by rw [if_neg (by decide), if_pos hc]
        · exact (uses_apply _ _ _ _ t).congr fun x _ => by rw [if_neg (by decide), if_neg hc]
      · by_cases hc : c ≤ 0
        · exact (uses_id t).congr fun x _ => by rw [if_pos rfl, if_pos hc]
        · exact (uses_apply _ _ _ _ t).congr fun x _ => by rw [if_pos rfl, if_neg hc]

theorem uses_filterTwo (design : Design K) (n : Nat) (stop : Bool) (a b : K) (t : List K) :
    Uses (filterTwo design n stop a b) t := by
  cases hd : dtT t with
  | error e =>
    refine (uses_err e t).congr fun x hx => ?_
    rw [filterTwo, dtOf_dtT, hx, hd]; rfl
  | ok d =>
    by_cases h0 : d = 0
    · refine (uses_err .nonFinite t).congr fun x hx => ?_
      rw [filterTwo, dtOf_dtT, hx, hd]
      simp only [bind, Except.bind]
      rw [if_pos h0]
    · have key : ∀ x, times x = t → filterTwo design n stop a b x =
          if 1 / d / 2 * (9999 / 10000) ≤ b then filterOne design n (!stop) a x
          else if a ≤ 1 / ((t.length : K) * d) then filterOne design n stop b x
          else applyFilter design n (if stop then .bandstop else .bandpass) [a / (1 / d / 2), b / (1 / d / 2)] x := by
        intro x hx
        rw [filterTwo, dtOf_dtT, hx, hd, ← times_length x, hx]
        simp only [bind, Except.bind]
        rw [if_neg h0]
      refine Uses.congr ?_ key
      by_cases hb : 1 / d / 2 * (9999 / 10000) ≤ b
      · exact (uses_filterOne design n (!stop) a t).congr fun x _ => by rw [if_pos hb]
      · by_cases ha : a ≤ 1 / ((t.length : K) * d)
        · exact (uses_filterOne design n stop b t).congr fun x _ => by rw [if_neg hb, if_pos ha]
        · exact (uses_apply _ _ _ _ t).congr fun x _ => by rw [if_neg hb, if_neg ha]

/-- For a given request and time axis, filtering is an error or one fixed cascade. -/
theorem uses_filterKernel (design : Design K) (n : Nat) (ft : FType) (cut : Cut K) (t : List K) :
    Uses (filterKernel design n ft cut) t := by
  cases ft with
  | bad => exact uses_err _ t
  | lowpass => cases cut with
    | num c => exact uses_filterOne _ _ _ _ t
    | pair => exact uses_err _ t
    | seq => exact uses_err _ t
    | other => exact uses_err _ t
  | highpass => cases cut with
    | num c => exact uses_filterOne _ _ _ _ t
    | pair => exact uses_err _ t
    | seq => exact uses_err _ t
    | other => exact uses_err _ t
  | bandpass => cases cut with
    | num c => exact uses_err _ t
    | pair a b =>
      by_cases h : b ≤ a
      · exact (uses_err .valueError t).congr fun x _ => by rw [filterKernel]; simp [h]
      · exact (uses_filterTwo design n false a b t).congr fun x _ => by rw [filterKernel]; simp [h]
    | seq => exact uses_err _ t
    | other => exact uses_err _ t
  | bandstop => cases cut with
    | num c => exact uses_err _ t
    | pair a b =>
      by_cases h : b ≤ a
      · exact (uses_err .valueError t).congr fun x _ => by rw [filterKernel]; simp [h]
      · exact (uses_filterTwo design n true a b t).congr fun x _ => by rw [filterKernel]; simp [h]
    | seq => exact uses_err _ t
    | other => exact uses_err _ t

end Verif
