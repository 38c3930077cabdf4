import Mathlib.Tactic.Linarith
import Mathlib.Tactic.Ring
import Mathlib.Tactic.NormNum
import Mathlib.Tactic.Positivity
import Mathlib.Tactic.GCongr
import Mathlib.Tactic.FieldSimp
import Verif.Proof.FloatProfile
import Verif.Model.FloatInt
import Verif.Props.FloatMotion

set_option linter.unusedSectionVars false
set_option linter.unusedVariables false

/-!
C183: integration and differentiation of records in double precision.
-/

namespace Verif

open Spec

section
variable {K : Type} [Field K] [LinearOrder K] [IsStrictOrderedRing K] [FloorRing K]

theorem fcumsum_length (s : K) (l : List K) : (fcumsumFrom s l).length = l.length := by
  induction l generalizing s with
  | nil => rfl
  | cons a as ih => simp [fcumsumFrom, ih]

theorem fcumsum_get : ∀ (l : List K) (s : K) (i : ℕ), i < l.length → (fcumsumFrom s l)[i]? = some ((l.take (i + 1)).foldl fadd s)
  | [], _, i, h => by simp at h
  | a :: as, s, 0, _ => by simp [fcumsumFrom]
  | a :: as, s, i + 1, h => by
    simp only [fcumsumFrom, List.getElem?_cons_succ, List.take_succ_cons, List.foldl_cons]
    exact fcumsum_get as _ i (by simpa using h)

theorem abs_sum_le_sum (l : List K) : |l.sum| ≤ (l.map abs).sum := by
  induction l with
  | nil => simp
  | cons a l ih =>
    simp only [List.sum_cons, List.map_cons]
    exact le_trans (abs_add_le _ _) (by linarith)

theorem sum_abs_nonneg (l : List K) : 0 ≤ (l.map abs).sum := le_trans (abs_nonneg _) (abs_sum_le_sum l)

/-- Error of adding doubles one after the other. -/
theorem fold_err : ∀ (l : List K) (s S A : K) (k : ℕ), (∀ a ∈ l, IsDouble a) → IsDouble s → |S| ≤ A → (k + l.length : ℕ) ≤ 2 ^ 52 →
    |s - S| ≤ A * (2 * k / 2 ^ 53) →
    |l.foldl fadd s - (S + l.sum)| ≤ (A + (l.map abs).sum) * (2 * (k + l.length) / 2 ^ 53)
  | [], s, S, A, k, _, _, _, _, h => by simpa using h
  | a :: as, s, S, A, k, hl, hs, hA, hk, h => by
    have hr := fl_rel_add hs (hl a (List.mem_cons_self ..))
    have hA0 : 0 ≤ A := le_trans (abs_nonneg _) hA
    have hk0 : (0 : K) ≤ k := Nat.cast_nonneg _
    have hk1 : (k : K) ≤ 2 ^ 52 := by
      have : k ≤ 2 ^ 52 := by omega
      exact_mod_cast this
    have hq : (2 * k / 2 ^ 53 : K) ≤ 1 := by rw [div_le_one (by norm_num)]; linarith
    have hq0 : (0 : K) ≤ 2 * k / 2 ^ 53 := by positivity
    have h1 : |s + a| ≤ 2 * (A + |a|) := by
      have e : s + a = (s - S) + (S + a) := by ring
      have b1 := abs_add_le (s - S) (S + a)
      have b2 := abs_add_le S a
      have b3 : A * (2 * k / 2 ^ 53) ≤ A * 1 := by gcongr
      rw [e]
      linarith [abs_nonneg a]
    have h2 : |fadd s a - (S + a)| ≤ (A + |a|) * (2 * ((k + 1 : ℕ) : K) / 2 ^ 53) := by
      have e : fadd s a - (S + a) = -(s + a - fl (s + a)) + (s - S) := by unfold fadd; ring
      rw [e]
      have b1 := abs_add_le (-(s + a - fl (s + a))) (s - S)
      rw [abs_neg] at b1
      have b2 : |s + a| / 2 ^ 53 ≤ 2 * (A + |a|) / 2 ^ 53 := by gcongr
      have b3 : A * (2 * k / 2 ^ 53) ≤ (A + |a|) * (2 * k / 2 ^ 53) := by
        have : A ≤ A + |a| := by linarith [abs_nonneg a]
        gcongr
      have e2 : (A + |a|) * (2 * ((k + 1 : ℕ) : K) / 2 ^ 53) = (A + |a|) * (2 * k / 2 ^ 53) + 2 * (A + |a|) / 2 ^ 53 := by
        push_cast; ring
      rw [e2]; linarith
    have ih := fold_err as (fadd s a) (S + a) (A + |a|) (k + 1) (fun x hx => hl x (List.mem_cons_of_mem _ hx)) (fl_double _)
      (by have := abs_add_le S a; linarith) (by simp only [List.length_cons] at hk; omega) h2
    simp only [List.foldl_cons, List.sum_cons, List.map_cons, List.length_cons]
    have e1 : S + (a + as.sum) = S + a + as.sum := by ring
    have e2 : A + (|a| + (as.map abs).sum) = A + |a| + (as.map abs).sum := by ring
    have e3 : (k : K) + ((as.length + 1 : ℕ) : K) = ((k + 1 : ℕ) : K) + as.length := by push_cast; ring
    rw [e1, e2, e3]
    exact ih

/-- C183: each velocity computed in doubles is the time step times the sum of the accelerations so far, up to 2^-52 of the sum of their
absolute values per sample (and 2^-1075 for underflow). -/
theorem C183_velocity (r s : K × K) (x : Rec K) (ha : ∀ p ∈ r :: s :: x, IsDouble p.2) (hn : (r :: s :: x).length ≤ 2 ^ 51) :
    ∃ v u, fNumInt (r :: s :: x) = .ok (v, u) ∧ v.map Prod.fst = (r :: s :: x).map Prod.fst ∧
      u.map Prod.fst = (r :: s :: x).map Prod.fst ∧
      ∀ (i : ℕ) vi, (v.map Prod.snd)[i]? = some vi →
        |vi - fsub s.1 r.1 * (((r :: s :: x).map Prod.snd).take (i + 1)).sum| ≤
          |fsub s.1 r.1| * ((((r :: s :: x).map Prod.snd).take (i + 1)).map abs).sum * (2 * (i + 2) / 2 ^ 53) + (2 : K) ^ (-1075 : ℤ) := by
  refine ⟨_, _, rfl, ?_, ?_, ?_⟩
  · rw [List.map_fst_zip]; simp [fcumsum_length]
  · rw [List.map_fst_zip]; simp [fcumsum_length]
  intro i vi hvi
  rw [List.map_snd_zip (by simp [fcumsum_length]), List.getElem?_map, Option.map_eq_some_iff] at hvi
  obtain ⟨w, hw, rfl⟩ := hvi
  generalize hl : (r :: s :: x).map Prod.snd = l at *
  have hlen : l.length = (r :: s :: x).length := by rw [← hl, List.length_map]
  have hil : i < l.length := by
    have := (List.getElem?_eq_some_iff.1 hw).1
    rwa [fcumsum_length] at this
  rw [fcumsum_get l 0 i hil, Option.some.injEq] at hw
  have hd : ∀ a ∈ l.take (i + 1), IsDouble a := by
    intro a ha'
    have := List.mem_of_mem_take ha'
    rw [← hl] at this
    obtain ⟨p, hp, rfl⟩ := List.mem_map.1 this
    exact ha p hp
  have htl : (l.take (i + 1)).length = i + 1 := by rw [List.length_take]; omega
  have hE := fold_err (l.take (i + 1)) 0 0 0 0 hd double_zero (by simp) (by rw [htl]; omega) (by simp)
  rw [hw, htl, zero_add, zero_add, Nat.cast_zero, zero_add] at hE
  set A := ((l.take (i + 1)).map abs).sum with hA
  set S := (l.take (i + 1)).sum with hS
  have hSA : |S| ≤ A := abs_sum_le_sum _
  have hA0 : 0 ≤ A := le_trans (abs_nonneg _) hSA
  generalize fsub s.1 r.1 = dt at *
  have hi0 : (0 : K) ≤ i := Nat.cast_nonneg _
  have hi1 : (((i + 1 : ℕ) : K)) ≤ 2 ^ 51 := by
    have : i + 1 ≤ 2 ^ 51 := by omega
    exact_mod_cast this
  have hw2 : |w| ≤ 2 * A := by
    have b1 := abs_sub_abs_le_abs_sub w S
    have b2 : A * (2 * ((i + 1 : ℕ) : K) / 2 ^ 53) ≤ A * 1 := by
      have : (2 * ((i + 1 : ℕ) : K) / 2 ^ 53) ≤ 1 := by rw [div_le_one (by norm_num)]; linarith
      gcongr
    linarith
  have hf := fl_abs_err (w * dt)
  have e : fmul w dt - dt * S = -(w * dt - fl (w * dt)) + dt * (w - S) := by unfold fmul; ring
  rw [e]
  have b1 := abs_add_le (-(w * dt - fl (w * dt))) (dt * (w - S))
  rw [abs_neg, abs_mul dt] at b1
  have b2 : |dt| * |w - S| ≤ |dt| * (A * (2 * ((i + 1 : ℕ) : K) / 2 ^ 53)) := by gcongr
  have b3 : |w * dt| / 2 ^ 53 ≤ 2 * A * |dt| / 2 ^ 53 := by rw [abs_mul]; gcongr
  have e2 : |dt| * A * (2 * ((i : K) + 2) / 2 ^ 53) = |dt| * (A * (2 * ((i + 1 : ℕ) : K) / 2 ^ 53)) + 2 * A * |dt| / 2 ^ 53 := by
    push_cast; ring
  rw [e2]; linarith

theorem fcumsum_mono : ∀ (l : List K) (s : K), IsDouble s → (∀ a ∈ l, 0 ≤ a) →
    (fcumsumFrom s l).Pairwise (· ≤ ·) ∧ ∀ x ∈ fcumsumFrom s l, s ≤ x
  | [], _, _, _ => by simp [fcumsumFrom]
  | a :: as, s, hs, h => by
    have h1 : s ≤ fadd s a := le_fl_of (by linarith [h a (List.mem_cons_self ..)]) hs
    obtain ⟨p, q⟩ := fcumsum_mono as (fadd s a) (fl_double _) (fun x hx => h x (List.mem_cons_of_mem _ hx))
    refine ⟨?_, ?_⟩
    · simp only [fcumsumFrom]; exact List.pairwise_cons.2 ⟨q, p⟩
    · intro x hx
      simp only [fcumsumFrom] at hx
      rcases List.mem_cons.1 hx with rfl | hx
      · exact h1
      · exact le_trans h1 (q x hx)

/-- C183: accelerations that are never negative give velocities and displacements that never decrease and are not negative — in doubles,
without tolerance. -/
theorem C183_sign (r s : K × K) (x : Rec K) (ht : r.1 ≤ s.1) (ha : ∀ p ∈ r :: s :: x, 0 ≤ p.2) :
    ∃ v u, fNumInt (r :: s :: x) = .ok (v, u) ∧ (v.map Prod.snd).Pairwise (· ≤ ·) ∧ (∀ w ∈ v.map Prod.snd, 0 ≤ w) ∧
      (u.map Prod.snd).Pairwise (· ≤ ·) ∧ ∀ w ∈ u.map Prod.snd, 0 ≤ w := by
  have hdt : 0 ≤ fsub s.1 r.1 := fl_nonneg (by linarith)
  have key : ∀ l : List K, (∀ a ∈ l, 0 ≤ a) →
      ((fcumsumFrom 0 l).map fun w => fmul w (fsub s.1 r.1)).Pairwise (· ≤ ·) ∧
      ∀ w ∈ (fcumsumFrom 0 l).map fun w => fmul w (fsub s.1 r.1), 0 ≤ w := by
    intro l hl
    obtain ⟨p, q⟩ := fcumsum_mono l 0 double_zero hl
    refine ⟨?_, ?_⟩
    · rw [List.pairwise_map]
      exact p.imp fun hab => fl_mono (mul_le_mul_of_nonneg_right hab hdt)
    · intro w hw
      obtain ⟨y, hy, rfl⟩ := List.mem_map.1 hw
      exact fl_nonneg (mul_nonneg (q y hy) hdt)
  have h0 : ∀ a ∈ (r :: s :: x).map Prod.snd, 0 ≤ a := by
    intro a h
    obtain ⟨p, hp, rfl⟩ := List.mem_map.1 h
    exact ha p hp
  have hv := key _ h0
  have hu := key _ hv.2
  refine ⟨_, _, rfl, ?_⟩
  rw [List.map_snd_zip (by simp [fcumsum_length]), List.map_snd_zip (by simp [fcumsum_length])]
  exact ⟨hv.1, hv.2, hu.1, hu.2⟩

theorem fcumsum_neg : ∀ (l : List K) (s : K), fcumsumFrom (-s) (l.map Neg.neg) = (fcumsumFrom s l).map Neg.neg
  | [], _ => rfl
  | a :: as, s => by
    simp only [List.map_cons, fcumsumFrom]
    have : fadd (-s) (-a) = -fadd s a := by unfold fadd; rw [← fl_neg]; congr 1; ring
    rw [this, fcumsum_neg as]

/-- C183: reversing the sign of the accelerations reverses the sign of the velocities and displacements, without tolerance. -/
theorem C183_negate (r s : K × K) (x : Rec K) :
    ∃ v u, fNumInt (r :: s :: x) = .ok (v, u) ∧
      fNumInt ((r :: s :: x).map fun p => (p.1, -p.2)) = .ok (v.map fun p => (p.1, -p.2), u.map fun p => (p.1, -p.2)) := by
  refine ⟨_, _, rfl, ?_⟩
  have h1 : ((r :: s :: x).map fun p => (p.1, -p.2)).map Prod.snd = ((r :: s :: x).map Prod.snd).map Neg.neg := by
    simp [List.map_map, Function.comp_def]
  have h2 : ((r :: s :: x).map fun p => (p.1, -p.2)).map Prod.fst = (r :: s :: x).map Prod.fst := by
    simp [List.map_map, Function.comp_def]
  have key : ∀ l : List K, ((fcumsumFrom 0 (l.map Neg.neg)).map fun w => fmul w (fsub s.1 r.1))
      = ((fcumsumFrom 0 l).map fun w => fmul w (fsub s.1 r.1)).map Neg.neg := by
    intro l
    have := fcumsum_neg l 0
    rw [neg_zero] at this
    rw [this, List.map_map, List.map_map]
    apply List.map_congr_left
    intro w _
    simp only [Function.comp]
    unfold fmul
    rw [← fl_neg]; congr 1; ring
  have hz : ∀ a b : List K, a.zip (b.map Neg.neg) = (a.zip b).map fun p => (p.1, -p.2) := by
    intro a b
    rw [List.zip_map_right]; rfl
  have e : fNumInt ((r :: s :: x).map fun p => (p.1, -p.2))
      = .ok ((((r :: s :: x).map fun p => (p.1, -p.2)).map Prod.fst).zip
          ((fcumsumFrom 0 (((r :: s :: x).map fun p => (p.1, -p.2)).map Prod.snd)).map fun w => fmul w (fsub s.1 r.1)),
        (((r :: s :: x).map fun p => (p.1, -p.2)).map Prod.fst).zip
          ((fcumsumFrom 0 ((fcumsumFrom 0 (((r :: s :: x).map fun p => (p.1, -p.2)).map Prod.snd)).map
            fun w => fmul w (fsub s.1 r.1))).map fun w => fmul w (fsub s.1 r.1))) := rfl
  rw [e, h1, h2, key, key, hz, hz]

theorem fdiff_get : ∀ (l : List K) (i : ℕ) (a b : K), l[i]? = some a → l[i + 1]? = some b → (fdiff l)[i]? = some (fsub b a)
  | [], i, a, b, h, _ => by simp at h
  | [_], i, a, b, _, h => by simp at h
  | x :: y :: l, 0, a, b, h1, h2 => by
    simp only [List.getElem?_cons_zero, Option.some.injEq, List.getElem?_cons_succ] at h1 h2
    subst h1 h2; rfl
  | x :: y :: l, i + 1, a, b, h1, h2 => by
    simp only [List.getElem?_cons_succ] at h1 h2
    simp only [fdiff, List.getElem?_cons_succ]
    exact fdiff_get (y :: l) i a b (by simpa using h1) (by simpa using h2)

theorem fdiff_length : ∀ l : List K, (fdiff l).length = l.length - 1
  | [] => rfl
  | [_] => rfl
  | x :: y :: l => by
    simp only [fdiff, List.length_cons]
    rw [fdiff_length (y :: l)]; simp

/-- C183, partial: differentiating the velocity in doubles: each acceleration times the computed difference of its times is the original
one times the time step, up to 25·2^-53 of the sum of the absolute accelerations so far times the time step (and terms of underflow).
Missing: that the accelerations come back unchanged; they do not (`C183_roundtrip_violated`), not even nearly if they are small next to
earlier ones (`C183_absorbed_violated`). -/
theorem C183_roundtrip_partial (r s : K × K) (x : Rec K) (ha : ∀ p ∈ r :: s :: x, IsDouble p.2) (hn : (r :: s :: x).length ≤ 2 ^ 51)
    (ht : (0 : K) ∉ fdiff ((r :: s :: x).map Prod.fst)) :
    ∃ v u d, fNumInt (r :: s :: x) = .ok (v, u) ∧ fNumDiff v = .ok d ∧ d.map Prod.fst = (r :: s :: x).map Prod.fst ∧
      (d.map Prod.snd)[0]? = some 0 ∧
      ∀ (i : ℕ) a a' ta tb, ((r :: s :: x).map Prod.snd)[i + 1]? = some a → (d.map Prod.snd)[i + 1]? = some a' →
        ((r :: s :: x).map Prod.fst)[i]? = some ta → ((r :: s :: x).map Prod.fst)[i + 1]? = some tb →
        |a' * fsub tb ta - a * fsub s.1 r.1| ≤
          25 / 2 ^ 53 * (|fsub s.1 r.1| * ((((r :: s :: x).map Prod.snd).take (i + 2)).map abs).sum) +
            (5 + |fsub tb ta|) * (2 : K) ^ (-1075 : ℤ) := by
  have hlen1 : ((r :: s :: x).map Prod.fst).length = ((r :: s :: x).map Prod.snd).length := by simp
  have hda : ∀ a ∈ (r :: s :: x).map Prod.snd, IsDouble a := by
    intro a h
    obtain ⟨p, hp, rfl⟩ := List.mem_map.1 h
    exact ha p hp
  have hnl : ((r :: s :: x).map Prod.snd).length ≤ 2 ^ 51 := by simpa using hn
  have hne : 0 < ((r :: s :: x).map Prod.fst).length := by simp
  have e0 : fNumInt (r :: s :: x) = .ok (((r :: s :: x).map Prod.fst).zip
        ((fcumsumFrom 0 ((r :: s :: x).map Prod.snd)).map fun w => fmul w (fsub s.1 r.1)),
      ((r :: s :: x).map Prod.fst).zip ((fcumsumFrom 0 ((fcumsumFrom 0 ((r :: s :: x).map Prod.snd)).map
        fun w => fmul w (fsub s.1 r.1))).map fun w => fmul w (fsub s.1 r.1))) := rfl
  generalize (r :: s :: x).map Prod.fst = t at *
  generalize (r :: s :: x).map Prod.snd = l at *
  generalize fsub s.1 r.1 = dt at *
  have hvl : t.length = ((fcumsumFrom 0 l).map fun w => fmul w dt).length := by simp [fcumsum_length, hlen1]
  have hvt : (t.zip ((fcumsumFrom 0 l).map fun w => fmul w dt)).map Prod.fst = t := List.map_fst_zip hvl.le
  have hvv : (t.zip ((fcumsumFrom 0 l).map fun w => fmul w dt)).map Prod.snd = (fcumsumFrom 0 l).map fun w => fmul w dt :=
    List.map_snd_zip hvl.ge
  have hdl : t.length = (0 :: List.zipWith fdiv (fdiff ((fcumsumFrom 0 l).map fun w => fmul w dt)) (fdiff t)).length := by
    simp only [List.length_cons, List.length_zipWith, fdiff_length, List.length_map, fcumsum_length, ← hlen1]
    omega
  refine ⟨_, _, t.zip (0 :: List.zipWith fdiv (fdiff ((fcumsumFrom 0 l).map fun w => fmul w dt)) (fdiff t)), e0, ?_, ?_, ?_, ?_⟩
  · unfold fNumDiff
    rw [hvt, hvv, if_neg ht]
    unfold colStack
    rw [if_neg (not_not.2 hdl)]
  · exact List.map_fst_zip hdl.le
  · rw [List.map_snd_zip hdl.ge]; rfl
  intro i a a' ta tb h1 h2 h3 h4
  rw [List.map_snd_zip hdl.ge, List.getElem?_cons_succ] at h2
  have hi1 : i + 1 < l.length := (List.getElem?_eq_some_iff.1 h1).1
  have g0 := fcumsum_get l 0 i (by omega)
  have g1 := fcumsum_get l 0 (i + 1) hi1
  have etake : l.take (i + 2) = l.take (i + 1) ++ [a] := by
    rw [List.take_succ, h1]; rfl
  have efold : (l.take (i + 1 + 1)).foldl fadd 0 = fadd ((l.take (i + 1)).foldl fadd 0) a := by
    rw [show i + 1 + 1 = i + 2 from rfl, etake, List.foldl_append]; rfl
  rw [efold] at g1
  -- the sums
  have hdt1 : ∀ b ∈ l.take (i + 1), IsDouble b := fun b hb => hda b (List.mem_of_mem_take hb)
  have htl : (l.take (i + 1)).length = i + 1 := by rw [List.length_take]; omega
  have hE := fold_err (l.take (i + 1)) 0 0 0 0 hdt1 double_zero (by simp) (by rw [htl]; omega) (by simp)
  rw [htl, zero_add, zero_add, Nat.cast_zero, zero_add] at hE
  have hSA := abs_sum_le_sum (l.take (i + 1))
  have hS0d : IsDouble ((l.take (i + 1)).foldl fadd 0) := by
    rw [List.take_succ, List.foldl_append]
    cases hli : l[i]? with
    | none => exact absurd (List.getElem?_eq_none_iff.1 hli) (by omega)
    | some b => simp only [Option.toList, List.foldl_cons, List.foldl_nil]; exact fl_double _
  have had : IsDouble a := hda a (List.mem_of_getElem? h1)
  have hA2 : ((l.take (i + 2)).map abs).sum = ((l.take (i + 1)).map abs).sum + |a| := by
    rw [etake, List.map_append, List.sum_append]; simp
  have hA10 := sum_abs_nonneg (l.take (i + 1))
  rw [hA2]
  generalize ((l.take (i + 1)).map abs).sum = A1 at *
  generalize (l.take (i + 1)).sum = S at *
  generalize (l.take (i + 1)).foldl fadd 0 = s0 at *
  have hcast : (((i + 1 : ℕ) : K)) ≤ 2 ^ 51 := by
    have : i + 1 ≤ 2 ^ 51 := by omega
    exact_mod_cast this
  have hs0 : |s0| ≤ 2 * A1 := by
    have b1 := abs_sub_abs_le_abs_sub s0 S
    have b2 : A1 * (2 * ((i + 1 : ℕ) : K) / 2 ^ 53) ≤ A1 * 1 := by
      have : (2 * ((i + 1 : ℕ) : K) / 2 ^ 53) ≤ 1 := by rw [div_le_one (by norm_num)]; linarith
      gcongr
    linarith
  -- the rounded quotient
  have q0 : ((fcumsumFrom 0 l).map fun w => fmul w dt)[i]? = some (fmul s0 dt) := by rw [List.getElem?_map, g0]; rfl
  have q1 : ((fcumsumFrom 0 l).map fun w => fmul w dt)[i + 1]? = some (fmul (fadd s0 a) dt) := by rw [List.getElem?_map, g1]; rfl
  have hdv := fdiff_get _ i _ _ q0 q1
  have hdt := fdiff_get t i ta tb h3 h4
  rw [List.getElem?_zipWith, hdv, hdt, Option.some.injEq] at h2
  have hΔ : fsub tb ta ≠ 0 := by
    intro h0
    rw [h0] at hdt
    exact ht (List.mem_of_getElem? hdt)
  -- errors
  have hη : (0 : K) < (2 : K) ^ (-1075 : ℤ) := zpow_pos (by norm_num) _
  have r1 := fl_rel_add hS0d had
  have r2 := fl_abs_err (s0 * dt)
  have r3 := fl_abs_err (fadd s0 a * dt)
  have r4 := fl_rel_sub (fl_double (fadd s0 a * dt)) (fl_double (s0 * dt))
  have r5 := fl_abs_err (fsub (fmul (fadd s0 a) dt) (fmul s0 dt) / fsub tb ta)
  have k1 : |s0 + a| ≤ 2 * (A1 + |a|) := by
    have := abs_add_le s0 a
    linarith [abs_nonneg a]
  change |s0 + a - fadd s0 a| ≤ _ at r1
  change |s0 * dt - fmul s0 dt| ≤ _ at r2
  change |fadd s0 a * dt - fmul (fadd s0 a) dt| ≤ _ at r3
  change |fmul (fadd s0 a) dt - fmul s0 dt - fsub (fmul (fadd s0 a) dt) (fmul s0 dt)| ≤ |fmul (fadd s0 a) dt - fmul s0 dt| / 2 ^ 53 at r4
  have h2' : fl (fsub (fmul (fadd s0 a) dt) (fmul s0 dt) / fsub tb ta) = a' := h2
  rw [h2'] at r5
  generalize fsub tb ta = Δ at *
  generalize fsub (fmul (fadd s0 a) dt) (fmul s0 dt) = D at *
  generalize fmul (fadd s0 a) dt = v1 at *
  generalize fmul s0 dt = v0 at *
  generalize fadd s0 a = s1 at *
  generalize (2 : K) ^ (-1075 : ℤ) = η at *
  have hu1 : (1 / 2 ^ 53 : K) ≤ 1 / 64 := by norm_num
  have hu0 : (0 : K) < 1 / 2 ^ 53 := by norm_num
  rw [div_eq_mul_one_div] at r1 r2 r3 r4
  rw [div_eq_mul_one_div |D / Δ|] at r5
  rw [show (25 / 2 ^ 53 : K) = 25 * (1 / 2 ^ 53) by ring]
  generalize (1 / 2 ^ 53 : K) = u at *
  have hd0 := abs_nonneg dt
  have ha0 := abs_nonneg a
  set A := A1 + |a| with hAdef
  have hA : A1 ≤ A := by linarith
  have hA0 : 0 ≤ A := by linarith
  have hP : 0 ≤ |dt| * A := by positivity
  have m1 : |s0 * dt| ≤ 2 * (|dt| * A) := by
    rw [abs_mul]
    have : |s0| * |dt| ≤ 2 * A * |dt| := by
      have : |s0| ≤ 2 * A := by linarith
      gcongr
    linarith
  have r1' : |s0 + a - s1| ≤ 2 * A * u := le_trans r1 (by gcongr)
  have hs1 : |s1| ≤ 3 * A := by
    have b1 := abs_sub_abs_le_abs_sub s1 (s0 + a)
    rw [abs_sub_comm] at b1
    have b2 : 2 * A * u ≤ 2 * A * (1 / 64) := by gcongr
    linarith
  have m2 : |s1 * dt| ≤ 3 * (|dt| * A) := by
    rw [abs_mul]
    have : |s1| * |dt| ≤ 3 * A * |dt| := by gcongr
    linarith
  have r2' : |s0 * dt - v0| ≤ 2 * (|dt| * A) * u + η := by
    have : |s0 * dt| * u ≤ 2 * (|dt| * A) * u := by gcongr
    linarith
  have r3' : |s1 * dt - v1| ≤ 3 * (|dt| * A) * u + η := by
    have : |s1 * dt| * u ≤ 3 * (|dt| * A) * u := by gcongr
    linarith
  have hPu : |dt| * A * u ≤ |dt| * A * (1 / 64) := by gcongr
  have m3 : |v1 - v0 - a * dt| ≤ 7 * (|dt| * A) * u + 2 * η := by
    have e : v1 - v0 - a * dt = -(s1 * dt - v1) + (s0 * dt - v0) - (s0 + a - s1) * dt := by ring
    rw [e]
    have b1 := abs_sub (-(s1 * dt - v1) + (s0 * dt - v0)) ((s0 + a - s1) * dt)
    have b2 := abs_add_le (-(s1 * dt - v1)) (s0 * dt - v0)
    rw [abs_neg] at b2
    have b3 : |(s0 + a - s1) * dt| ≤ 2 * A * u * |dt| := by rw [abs_mul]; gcongr
    linarith
  have m4 : |v1 - v0| ≤ 6 * (|dt| * A) + 2 * η := by
    have e : v1 - v0 = -(s1 * dt - v1) + (s0 * dt - v0) + (s1 * dt - s0 * dt) := by ring
    rw [e]
    have b1 := abs_add_le (-(s1 * dt - v1) + (s0 * dt - v0)) (s1 * dt - s0 * dt)
    have b2 := abs_add_le (-(s1 * dt - v1)) (s0 * dt - v0)
    rw [abs_neg] at b2
    have b3 := abs_sub (s1 * dt) (s0 * dt)
    linarith
  have r4' : |v1 - v0 - D| ≤ 6 * (|dt| * A) * u + η := by
    have : |v1 - v0| * u ≤ (6 * (|dt| * A) + 2 * η) * u := by gcongr
    have : η * u ≤ η * (1 / 64) := by gcongr
    linarith
  have m5 : |D| ≤ 7 * (|dt| * A) + 4 * η := by
    have b1 := abs_sub_abs_le_abs_sub D (v1 - v0)
    rw [abs_sub_comm D] at b1
    linarith
  have m6 : |a' * Δ - D| ≤ |D| * u + η * |Δ| := by
    have e : a' * Δ - D = -((D / Δ - a') * Δ) := by field_simp; ring
    rw [e, abs_neg, abs_mul]
    have b1 : |D / Δ - a'| * |Δ| ≤ (|D / Δ| * u + η) * |Δ| := by gcongr
    have b2 : |D / Δ| * |Δ| = |D| := by rw [← abs_mul, div_mul_cancel₀ _ hΔ]
    have e2 : (|D / Δ| * u + η) * |Δ| = |D / Δ| * |Δ| * u + η * |Δ| := by ring
    rw [e2, b2] at b1
    exact b1
  have m7 : |D| * u ≤ (7 * (|dt| * A) + 4 * η) * u := by gcongr
  have m8 : η * u ≤ η * (1 / 64) := by gcongr
  have e : a' * Δ - a * dt = (a' * Δ - D) - (v1 - v0 - D) + (v1 - v0 - a * dt) := by ring
  rw [e]
  have b1 := abs_add_le ((a' * Δ - D) - (v1 - v0 - D)) (v1 - v0 - a * dt)
  have b2 := abs_sub (a' * Δ - D) (v1 - v0 - D)
  have hPu0 : 0 ≤ |dt| * A * u := by positivity
  linarith

/-- Two doubles that differ are not closer than about 2^-54 of their size. -/
theorem double_apart {A z : K} (hA : IsDouble A) (hz : IsDouble z) (h2 : |A| / 2 ≤ |z|) (hne : z ≠ A) : |A| / 2 ^ 54 < |z - A| := by
  by_cases hA0 : A = 0
  · subst hA0
    rw [abs_zero, zero_div, sub_zero]
    exact abs_pos.2 hne
  have hx : A / 2 ≠ 0 := div_ne_zero hA0 (by norm_num)
  have hlog := log2_le hx
  have hab : |A / 2| = |A| / 2 := by rw [abs_div, abs_of_pos (show (0 : K) < 2 by norm_num)]
  obtain ⟨n, hn⟩ := double_mult (x := A / 2) hz (fun h => absurd (le_trans hlog (by rw [hab]; exact h2)) (not_le.2 h))
  obtain ⟨m, hm⟩ := double_mult (x := A / 2) hA (fun h => absurd (le_trans hlog (by rw [hab]; linarith [abs_nonneg A])) (not_le.2 h))
  have hnm : n ≠ m := by rintro rfl; exact hne (hn.trans hm.symm)
  have hu : |A| / 2 ^ 54 < ulp (A / 2) := by
    have h3 := lt_log2 (A / 2)
    have h4 : (2 : K) ^ (Int.log 2 |A / 2| + 1) ≤ ulp (A / 2) * 2 ^ 53 := by
      unfold ulp ulpExp
      rw [← zpow_natCast (2 : K) 53, ← zpow_add₀ (by norm_num : (2 : K) ≠ 0)]
      apply two_zpow_le
      push_cast
      omega
    rw [hab] at h3 h4
    rw [div_lt_iff₀ (by norm_num)]
    linarith [h3, h4]
  have h5 : (1 : K) ≤ |((n - m : ℤ) : K)| := by
    rw [← Int.cast_abs]
    have : (1 : ℤ) ≤ |n - m| := Int.one_le_abs (sub_ne_zero.2 hnm)
    exact_mod_cast this
  have e : z - A = ((n - m : ℤ) : K) * ulp (A / 2) := by
    push_cast; rw [sub_mul, ← hn, ← hm]
  rw [e, abs_mul, abs_of_pos (ulp_pos (A / 2))]
  have : 1 * ulp (A / 2) ≤ |((n - m : ℤ) : K)| * ulp (A / 2) := by
    have := (ulp_pos (A / 2)).le
    gcongr
  linarith

theorem fadd_absorb {A a : K} (hA : IsDouble A) (h : |a| ≤ |A| / 2 ^ 55) : fadd A a = A := by
  by_contra hne
  have hnear := fl_near (x := A + a) hA
  rw [add_sub_cancel_left] at hnear
  have h1 : |fadd A a - A| ≤ 2 * |a| := by
    have e : fadd A a - A = -(A + a - fl (A + a)) + a := by unfold fadd; ring
    rw [e]
    have := abs_add_le (-(A + a - fl (A + a))) a
    rw [abs_neg] at this
    linarith
  have h2 : |A| / 2 ≤ |fadd A a| := by
    have := abs_sub_abs_le_abs_sub A (fadd A a)
    rw [abs_sub_comm] at this
    have h3 : |A| / 2 ^ 55 ≤ |A| / 8 := by
      apply div_le_div_of_nonneg_left (abs_nonneg _) (by norm_num) (by norm_num)
    linarith [abs_nonneg A]
  have h3 := double_apart hA (fl_double (A + a)) h2 hne
  have h4 : |A| / 2 ^ 54 = 2 * (|A| / 2 ^ 55) := by ring
  change |A| / 2 ^ 54 < |fadd A a - A| at h3
  linarith

/-- C183, violated: an acceleration that follows one 2^55 times as large is lost: differentiating the velocity gives 0 instead of it. -/
theorem C183_absorbed_violated (t0 t1 A a : K) (hA : IsDouble A) (ha : a ≠ 0) (h : |a| ≤ |A| / 2 ^ 55) (ht : fsub t1 t0 ≠ 0) :
    ∃ v u d, fNumInt [(t0, A), (t1, a)] = .ok (v, u) ∧ fNumDiff v = .ok d ∧ (d.map Prod.snd)[1]? = some 0 := by
  have h1 : fadd 0 A = A := by unfold fadd; rw [zero_add, fl_of_double hA]
  have h2 : fadd A a = A := fadd_absorb hA h
  have hv : fNumInt [(t0, A), (t1, a)] = .ok ([(t0, fmul A (fsub t1 t0)), (t1, fmul A (fsub t1 t0))],
      [(t0, fmul (fadd 0 (fmul A (fsub t1 t0))) (fsub t1 t0)),
        (t1, fmul (fadd (fadd 0 (fmul A (fsub t1 t0))) (fmul A (fsub t1 t0))) (fsub t1 t0))]) := by
    simp [fNumInt, fcumsumFrom, h1, h2]
  refine ⟨_, _, [(t0, 0), (t1, 0)], hv, ?_, ?_⟩
  · have h3 : fsub (fmul A (fsub t1 t0)) (fmul A (fsub t1 t0)) = 0 := by unfold fsub; rw [sub_self, fl_zero]
    have h4 : fdiv 0 (fsub t1 t0) = 0 := by unfold fdiv; rw [zero_div, fl_zero]
    simp [fNumDiff, fdiff, h3, h4, colStack, ht.symm]
  · simp

end

/-- C183, violated: a constant acceleration of 1 m/s/s sampled every 0.01 s does not come back from its velocity. -/
theorem C183_roundtrip_violated :
    ∃ d : Rec ℚ, (fNumInt [(0, 1), (fl (1 / 100), 1), (fl (2 / 100), 1), (fl (3 / 100), 1)] >>= fun vu => fNumDiff vu.1) = .ok d ∧
      (d.map Prod.snd)[2]? ≠ some 1 ∧ (d.map Prod.snd)[3]? ≠ some 1 := by
  refine ⟨[(fl (0 / 100), 0), (fl (1 / 100), 1), (fl (2 / 100), 4503599627370495 / 4503599627370496), (fl (3 / 100), 2251799813685249 / 2251799813685248)], ?_, ?_, ?_⟩ <;> decide +kernel

/-- The velocity and displacement of four samples. -/
example : fNumInt [(0, 1), (1 / 4, 2), (1 / 2, -1), (3 / 4, 4)] =
    .ok ([(0, 1 / 4), (1 / 4, 3 / 4), (1 / 2, 1 / 2), (3 / 4, 3 / 2)],
      [(0, 1 / 16), (1 / 4, 1 / 4), (1 / 2, 3 / 8), ((3 / 4 : ℚ), 3 / 4)]) := by decide +kernel

end Verif
