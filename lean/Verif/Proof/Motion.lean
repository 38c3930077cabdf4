import Verif.Spec.Motion
import Verif.Proof.VsProfile

set_option linter.unusedSectionVars false
set_option linter.unusedVariables false

namespace Verif

open Spec

variable {K : Type} [Field K] [LinearOrder K]

theorem diff_cumsumFrom (s a : K) (l : List K) : diff (cumsumFrom s (a :: l)) = l := by
  induction l generalizing s a with
  | nil => rfl
  | cons b l ih =>
    have := ih (s + a) b
    simp only [cumsumFrom, diff] at this ⊢
    rw [this]; congr 1; ring

theorem cumsumFrom_diff (s x : K) (l : List K) : cumsumFrom s (diff (x :: l)) = l.map (fun y => s + (y - x)) := by
  induction l generalizing s x with
  | nil => rfl
  | cons y l ih =>
    rw [diff, cumsumFrom, ih, List.map_cons]
    congr 1
    apply List.map_congr_left
    intro z _; ring

theorem diff_map_mul (d : K) (l : List K) : diff (l.map (· * d)) = (diff l).map (· * d) := by
  induction l with
  | nil => rfl
  | cons x l ih =>
    cases l with
    | nil => rfl
    | cons y l =>
      simp only [List.map_cons, diff] at ih ⊢
      rw [ih]; congr 1; ring

theorem cumsumFrom_length (s : K) (l : List K) : (cumsumFrom s l).length = l.length := by
  induction l generalizing s with
  | nil => rfl
  | cons a l ih => simp [cumsumFrom, ih]

theorem diff_length (l : List K) : (diff l).length = l.length - 1 := by
  induction l with
  | nil => rfl
  | cons x l ih =>
    cases l with
    | nil => rfl
    | cons y l => simp only [diff, List.length_cons] at ih ⊢; rw [ih]; omega

theorem cumsumFrom_map_mul (s d : K) (l : List K) :
    cumsumFrom (s * d) (l.map (· * d)) = (cumsumFrom s l).map (· * d) := by
  induction l generalizing s with
  | nil => rfl
  | cons a l ih => simp only [List.map_cons, cumsumFrom, ← add_mul]; rw [ih]

theorem diff_uniform (d : K) (t : List K) (h : Uniform d t) : diff t = List.replicate (t.length - 1) d := by
  induction t with
  | nil => rfl
  | cons x t ih =>
    cases t with
    | nil => rfl
    | cons y t =>
      rw [diff, ih (fun i a b h1 h2 => h (i + 1) a b (by simpa using h1) (by simpa using h2))]
      rw [h 0 x y rfl rfl]
      rfl

theorem zip_fst {α β : Type} (t : List α) (v : List β) (h : t.length = v.length) : (t.zip v).map Prod.fst = t :=
  List.map_fst_zip h.le

theorem zip_snd {α β : Type} (t : List α) (v : List β) (h : t.length = v.length) : (t.zip v).map Prod.snd = v :=
  List.map_snd_zip h.ge

theorem zipWith_div_replicate (l : List K) (d : K) (n : Nat) (h : l.length = n) :
    List.zipWith (· / ·) l (List.replicate n d) = l.map (· / d) := by
  subst h
  induction l with
  | nil => rfl
  | cons a l ih => rw [List.length_cons, List.replicate_succ, List.zipWith_cons_cons, ih, List.map_cons]

theorem uniform_dtOf {d : K} {x : Rec K} (h : Uniform d (times x)) (h2 : 2 ≤ x.length) : dtOf x = .ok d := by
  match x, h2 with
  | r :: s :: x, _ => rw [dtOf, h 0 r.1 s.1 rfl rfl]

theorem numInt_ok (d : K) (x : Rec K) (h : dtOf x = .ok d) :
    numInt x = .ok ((times x).zip ((cumsum (vals x)).map (· * d)),
      (times x).zip ((cumsum ((cumsum (vals x)).map (· * d))).map (· * d))) := by
  unfold numInt
  rw [h]; rfl

theorem numDiff_uniform (d : K) (hd : d ≠ 0) (x : Rec K) (h : Uniform d (times x)) (hne : x ≠ []) :
    numDiff x = .ok ((times x).zip (0 :: (diff (vals x)).map (· / d))) := by
  unfold numDiff
  have h1 : diff (x.map Prod.fst) = List.replicate (x.length - 1) d := by
    have := diff_uniform d _ h
    simpa [times] using this
  simp only [h1]
  have hl : (diff (x.map Prod.snd)).length = x.length - 1 := by rw [diff_length, List.length_map]
  rw [if_neg (by intro hm; exact hd (List.eq_of_mem_replicate hm).symm), zipWith_div_replicate _ _ _ hl]
  unfold colStack
  have := List.length_pos_iff.2 hne
  rw [if_neg]
  · rfl
  · simp [hl]; omega

/-! ### maxAbs -/

variable [IsStrictOrderedRing K]

theorem maxAbs_nonneg (l : List K) : 0 ≤ maxAbs l := by
  induction l with
  | nil => exact le_rfl
  | cons x l ih => exact le_max_of_le_right ih

theorem le_maxAbs {l : List K} {x : K} (h : x ∈ l) : |x| ≤ maxAbs l := by
  induction l with
  | nil => simp at h
  | cons y l ih =>
    rcases List.mem_cons.1 h with rfl | h
    · exact le_max_left _ _
    · exact le_max_of_le_right (ih h)

theorem maxAbs_mem {l : List K} (h : l ≠ []) : ∃ x ∈ l, |x| = maxAbs l := by
  induction l with
  | nil => exact absurd rfl h
  | cons y l ih =>
    by_cases hl : l = []
    · subst hl; exact ⟨y, by simp, by simp [maxAbs]⟩
    · obtain ⟨x, hx, he⟩ := ih hl
      rcases le_total |y| (maxAbs l) with h1 | h1
      · exact ⟨x, by simp [hx], by rw [he]; exact (max_eq_right h1).symm⟩
      · exact ⟨y, by simp, (max_eq_left h1).symm⟩

theorem isPeak_maxAbs {l : List K} (h : l ≠ []) : IsPeak (maxAbs l) l := ⟨maxAbs_mem h, fun _ hx => le_maxAbs hx⟩

theorem maxAbs_map_mul (c : K) (l : List K) : maxAbs (l.map (fun x => c * x)) = |c| * maxAbs l := by
  induction l with
  | nil => simp [maxAbs]
  | cons x l ih =>
    have : maxAbs (c * x :: l.map (fun x => c * x)) = max |c * x| (maxAbs (l.map (fun x => c * x))) := rfl
    rw [List.map_cons, this, ih, abs_mul, ← mul_max_of_nonneg _ _ (abs_nonneg c)]
    rfl

/-! ### arias -/

theorem ariasFrom_length (c dt s : K) (l : List K) : (ariasFrom c dt s l).length = l.length := by
  induction l generalizing s with
  | nil => rfl
  | cons a l ih => simp [ariasFrom, ih]

theorem ariasFrom_getElem? (c dt s : K) (l : List K) (i : Nat) (h : i < l.length) :
    (ariasFrom c dt s l)[i]? = some (s + c * dt * ((l.take i).map (fun a => a ^ 2)).sum) := by
  induction l generalizing s i with
  | nil => simp at h
  | cons a l ih =>
    cases i with
    | zero => simp [ariasFrom]
    | succ i =>
      rw [ariasFrom, List.getElem?_cons_succ, ih _ _ (by simpa using h)]
      simp; ring

theorem sumSq_mono (l : List K) {i j : Nat} (h : i ≤ j) :
    ((l.take i).map (fun a => a ^ 2)).sum ≤ ((l.take j).map (fun a => a ^ 2)).sum := by
  obtain ⟨k, rfl⟩ := Nat.exists_eq_add_of_le h
  rw [List.take_add, List.map_append, List.sum_append]
  have : 0 ≤ ((List.take k (List.drop i l)).map (fun a => a ^ 2)).sum := by
    apply List.sum_nonneg
    intro x hx
    obtain ⟨y, _, rfl⟩ := List.mem_map.1 hx
    positivity
  linarith

/-! ### bounds loop -/

/-- On a non-decreasing series the loop keeps the first crossing of each threshold. -/
theorem boundsLoop_spec (low high prev : K) (acc : K × K) (tn : List (K × K))
    (hm : NonDecr (prev :: tn.map Prod.snd)) :
    (∀ pre t x post, tn = pre ++ (t, x) :: post → low ≤ x → (∀ p ∈ pre, p.2 < low) → prev < low →
      (boundsLoop low high prev acc tn).1 = t) ∧
    (((∀ p ∈ tn, p.2 < low) ∨ low ≤ prev) → (boundsLoop low high prev acc tn).1 = acc.1) ∧
    (∀ pre t x post, tn = pre ++ (t, x) :: post → high ≤ x → (∀ p ∈ pre, p.2 < high) → prev < high →
      (boundsLoop low high prev acc tn).2 = t) ∧
    (((∀ p ∈ tn, p.2 < high) ∨ high ≤ prev) → (boundsLoop low high prev acc tn).2 = acc.2) := by
  induction tn generalizing prev acc with
  | nil => exact ⟨by intro pre t x post h; simp at h, fun _ => rfl, by intro pre t x post h; simp at h, fun _ => rfl⟩
  | cons q tn ih =>
    obtain ⟨t0, x0⟩ := q
    have hm' : NonDecr (x0 :: tn.map Prod.snd) :=
      fun i j a b hij h1 h2 => hm (i + 1) (j + 1) a b (by omega) (by simpa using h1) (by simpa using h2)
    have hp : prev ≤ x0 := hm 0 1 prev x0 (by omega) rfl rfl
    rw [boundsLoop]
    set acc2 : K × K := if high ≤ x0 ∧ prev < high then
        ((if low ≤ x0 ∧ prev < low then (t0, acc.2) else acc).1, t0)
      else (if low ≤ x0 ∧ prev < low then (t0, acc.2) else acc) with hacc
    have e1 : acc2.1 = if low ≤ x0 ∧ prev < low then t0 else acc.1 := by rw [hacc]; split_ifs <;> rfl
    have e2 : acc2.2 = if high ≤ x0 ∧ prev < high then t0 else acc.2 := by rw [hacc]; split_ifs <;> rfl
    obtain ⟨i1, i2, i3, i4⟩ := ih x0 acc2 hm'
    refine ⟨?_, ?_, ?_, ?_⟩
    · intro pre t x post he hx hpre hprev
      cases pre with
      | nil =>
        simp only [List.nil_append, List.cons.injEq, Prod.mk.injEq] at he
        obtain ⟨⟨rfl, rfl⟩, rfl⟩ := he
        rw [i2 (Or.inr hx), e1, if_pos ⟨hx, hprev⟩]
      | cons q pre =>
        simp only [List.cons_append, List.cons.injEq] at he
        obtain ⟨rfl, rfl⟩ := he
        exact i1 pre t x post rfl hx (fun p h => hpre p (by simp [h])) (hpre (t0, x0) (by simp))
    · intro h
      rcases h with h | h
      · rw [i2 (Or.inl fun p hp' => h p (by simp [hp'])), e1]
        have := h (t0, x0) (by simp)
        rw [if_neg (by rintro ⟨h1, _⟩; exact absurd this (not_lt.2 h1))]
      · rw [i2 (Or.inr (h.trans hp)), e1, if_neg (by rintro ⟨_, h1⟩; exact absurd h1 (not_lt.2 h))]
    · intro pre t x post he hx hpre hprev
      cases pre with
      | nil =>
        simp only [List.nil_append, List.cons.injEq, Prod.mk.injEq] at he
        obtain ⟨⟨rfl, rfl⟩, rfl⟩ := he
        rw [i4 (Or.inr hx), e2, if_pos ⟨hx, hprev⟩]
      | cons q pre =>
        simp only [List.cons_append, List.cons.injEq] at he
        obtain ⟨rfl, rfl⟩ := he
        exact i3 pre t x post rfl hx (fun p h => hpre p (by simp [h])) (hpre (t0, x0) (by simp))
    · intro h
      rcases h with h | h
      · rw [i4 (Or.inl fun p hp' => h p (by simp [hp'])), e2]
        have := h (t0, x0) (by simp)
        rw [if_neg (by rintro ⟨h1, _⟩; exact absurd this (not_lt.2 h1))]
      · rw [i4 (Or.inr (h.trans hp)), e2, if_neg (by rintro ⟨_, h1⟩; exact absurd h1 (not_lt.2 h))]

/-- A series that reaches a threshold has a first place where it does. -/
theorem first_reach (low : K) (tn : List (K × K)) (h : ∃ p ∈ tn, low ≤ p.2) :
    ∃ pre t x post, tn = pre ++ (t, x) :: post ∧ low ≤ x ∧ ∀ p ∈ pre, p.2 < low := by
  induction tn with
  | nil => simp at h
  | cons q tn ih =>
    by_cases hq : low ≤ q.2
    · exact ⟨[], q.1, q.2, tn, rfl, hq, by simp⟩
    · obtain ⟨p, hp, hl⟩ := h
      rcases List.mem_cons.1 hp with rfl | hp
      · exact absurd hl hq
      · obtain ⟨pre, t, x, post, rfl, hx, hpre⟩ := ih ⟨p, hp, hl⟩
        refine ⟨q :: pre, t, x, post, rfl, hx, ?_⟩
        intro p hp
        rcases List.mem_cons.1 hp with rfl | hp
        · exact not_le.1 hq
        · exact hpre p hp

/-! ### stepping -/

theorem stepFrom_length (k : Coefs K) (s : K × K) (l : List K) : (stepFrom k s l).length = l.length := by
  induction l generalizing s with
  | nil => rfl
  | cons a l ih =>
    cases l with
    | nil => rfl
    | cons b l => rw [stepFrom, List.length_cons, ih]; rfl

theorem stepFrom_scale (k : Coefs K) (c : K) (s : K × K) (l : List K) :
    stepFrom k (c * s.1, c * s.2) (l.map (fun a => c * a)) = (stepFrom k s l).map (fun p => (c * p.1, c * p.2)) := by
  induction l generalizing s with
  | nil => rfl
  | cons a l ih =>
    cases l with
    | nil => rfl
    | cons b l =>
      simp only [List.map_cons] at ih ⊢
      rw [stepFrom, stepFrom, List.map_cons]
      congr 1
      rw [← ih]
      congr 1
      ext <;> simp <;> ring

end Verif
