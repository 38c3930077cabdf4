import Verif.Model.Wavelet
import Verif.Props.ScoresScale
import Mathlib.Data.List.GetD
import Mathlib.Tactic.Ring
import Mathlib.Tactic.Linarith
import Mathlib.Tactic.FieldSimp
import Mathlib.Tactic.Positivity
import Mathlib.Algebra.BigOperators.Intervals

/-!
C124 (wavelet baseline correction): the rows of the multiresolution analysis add up to the signal, the correction is linear,
ignores constant offsets, returns zero-mean signals and commutes with circular shifts.
-/

set_option linter.unusedSectionVars false
set_option linter.unusedVariables false

namespace Verif

namespace Spec

/-- The filter `h` with step `s` applied to a two-sided sequence: `Σ h_i f(z - s i)`. -/
def act (s : ℤ) : List ℝ → (ℤ → ℝ) → ℤ → ℝ
  | [], _, _ => 0
  | a :: h, f, z => a * f z + act s h f (z - s)

/-- `Σ h_i h_{i+k}`. -/
def autocorr (h : List ℝ) (k : ℕ) : ℝ := ∑ i ∈ Finset.range h.length, h.getD i 0 * h.getD (i + k) 0

/-- The filters of an orthogonal wavelet: their autocorrelations add up to twice the unit impulse. -/
def Quadrature (h g : List ℝ) : Prop := ∀ k, autocorr h k + autocorr g k = if k = 0 then 2 else 0

end Spec

open Spec (act autocorr Quadrature)

/-! ## Filters as operators -/

theorem act_sum (s : ℤ) : ∀ (h : List ℝ) (n : ℕ) (f : ℤ → ℝ) (z : ℤ), h.length ≤ n →
    act s h f z = ∑ i ∈ Finset.range n, h.getD i 0 * f (z - s * i)
  | [], n, f, z, _ => by simp [act]
  | a :: h, 0, f, z, hn => by simp at hn
  | a :: h, n + 1, f, z, hn => by
    rw [act, act_sum s h n f (z - s) (by simpa using hn), Finset.sum_range_succ', add_comm]
    congr 1
    · apply Finset.sum_congr rfl
      intro i _
      rw [List.getD_cons_succ]
      congr 2
      push_cast; ring
    · simp

theorem act_lin (s : ℤ) : ∀ (h : List ℝ) (c d : ℝ) (f g : ℤ → ℝ) (z : ℤ),
    act s h (fun z => c * f z + d * g z) z = c * act s h f z + d * act s h g z
  | [], c, d, f, g, z => by simp [act]
  | a :: h, c, d, f, g, z => by
    simp only [act]
    rw [act_lin s h c d f g (z - s)]; ring

theorem act_smul (s : ℤ) (h : List ℝ) (c : ℝ) (f : ℤ → ℝ) (z : ℤ) : act s h (fun z => c * f z) z = c * act s h f z := by
  have := act_lin s h c 0 f f z
  simpa using this

theorem act_fadd (s : ℤ) (h : List ℝ) (f g : ℤ → ℝ) (z : ℤ) : act s h (fun z => f z + g z) z = act s h f z + act s h g z := by
  have := act_lin s h 1 1 f g z
  simpa using this

theorem act_fdiv (s : ℤ) (h : List ℝ) (c : ℝ) (f : ℤ → ℝ) (z : ℤ) : act s h (fun z => f z / c) z = act s h f z / c := by
  have := act_smul s h c⁻¹ f z
  simp only [div_eq_inv_mul]
  exact this

theorem act_shift (s t : ℤ) : ∀ (h : List ℝ) (f : ℤ → ℝ) (z : ℤ), act s h (fun z => f (z + t)) z = act s h f (z + t)
  | [], f, z => rfl
  | a :: h, f, z => by
    simp only [act]
    rw [act_shift s t h f (z - s)]
    congr 2
    ring

theorem act_comm (s t : ℤ) (g : List ℝ) : ∀ (h : List ℝ) (f : ℤ → ℝ) (z : ℤ), act s h (act t g f) z = act t g (act s h f) z
  | [], f, z => by
    simp only [act]
    have := act_smul t g 0 (fun _ => (0 : ℝ)) z
    simp only [mul_zero, zero_mul] at this
    exact this.symm
  | a :: h, f, z => by
    rw [act, act_comm s t g h f (z - s)]
    have e : act s (a :: h) f = fun z => a * f z + act s h f (z + -s) := by
      funext w; simp only [act]; rw [sub_eq_add_neg]
    rw [e, act_fadd, act_smul, act_shift t (-s) g (act s h f) z, sub_eq_add_neg]

theorem act_append (s : ℤ) : ∀ (a b : List ℝ) (f : ℤ → ℝ) (z : ℤ),
    act s (a ++ b) f z = act s a f z + act s b f (z - s * a.length)
  | [], b, f, z => by simp [act]
  | x :: a, b, f, z => by
    rw [List.cons_append]
    simp only [act]
    rw [act_append s a b f (z - s), add_assoc, List.length_cons]
    congr 3
    push_cast; ring

theorem act_zeros (s : ℤ) : ∀ (n : ℕ) (f : ℤ → ℝ) (z : ℤ), act s (List.replicate n 0) f z = 0
  | 0, f, z => rfl
  | n + 1, f, z => by
    rw [List.replicate_succ]
    simp only [act]
    rw [act_zeros s n f (z - s)]; simp

theorem act_map_div (s : ℤ) (c : ℝ) : ∀ (h : List ℝ) (f : ℤ → ℝ) (z : ℤ), act s (h.map (· / c)) f z = act s h f z / c
  | [], f, z => by simp [act]
  | a :: h, f, z => by
    rw [List.map_cons]
    simp only [act]
    rw [act_map_div s c h f (z - s)]; ring

theorem act_zipAdd (s : ℤ) : ∀ (a b : List ℝ) (f : ℤ → ℝ) (z : ℤ), a.length = b.length →
    act s (List.zipWith (· + ·) a b) f z = act s a f z + act s b f z
  | [], [], f, z, _ => by simp [act]
  | x :: a, y :: b, f, z, h => by
    rw [List.zipWith_cons_cons]
    simp only [act]
    rw [act_zipAdd s a b f (z - s) (by simpa using h)]; ring
  | [], _ :: _, _, _, h => by simp at h
  | _ :: _, [], _, _, h => by simp at h

theorem act_spread (s : ℤ) (m : ℕ) (hm : 1 ≤ m) : ∀ (h : List ℝ) (f : ℤ → ℝ) (z : ℤ), act s (spread m h) f z = act (s * m) h f z
  | [], f, z => rfl
  | [x], f, z => rfl
  | x :: y :: h, f, z => by
    rw [spread]
    show x * f z + act s (List.replicate (m - 1) 0 ++ spread m (y :: h)) f (z - s) = x * f z + act (s * m) (y :: h) f (z - s * m)
    rw [act_append, act_zeros, act_spread s m hm (y :: h), List.length_replicate, zero_add]
    congr 2
    rw [Nat.cast_sub hm]; push_cast; ring

theorem act_flat (s : ℤ) (m : ℕ) (hm : 1 ≤ m) : ∀ (h : List ℝ) (f : ℤ → ℝ) (z : ℤ),
    act s (h.flatMap fun x => x :: List.replicate (m - 1) 0) f z = act (s * m) h f z
  | [], f, z => rfl
  | x :: h, f, z => by
    rw [List.flatMap_cons, List.cons_append]
    simp only [act]
    rw [act_append, act_zeros, act_flat s m hm h, List.length_replicate, zero_add]
    congr 2
    rw [Nat.cast_sub hm]; push_cast; ring

/-- Coefficients of a product. -/
theorem act_convFull (s : ℤ) (b : List ℝ) (hb : b ≠ []) : ∀ (a : List ℝ) (n : ℕ) (f : ℤ → ℝ) (z : ℤ), a.length + b.length ≤ n + 1 →
    ∑ k ∈ Finset.range n, (∑ i ∈ Finset.range a.length, a.getD i 0 * (if i ≤ k then b.getD (k - i) 0 else 0)) * f (z - s * k) =
      act s a (act s b f) z
  | [], n, f, z, _ => by simp [act]
  | x :: a, 0, f, z, h => by
    exfalso
    have := List.length_pos_of_ne_nil hb
    simp only [List.length_cons] at h
    omega
  | x :: a, n + 1, f, z, h => by
    have hbl := List.length_pos_of_ne_nil hb
    simp only [act]
    rw [← act_convFull s b hb a n f (z - s) (by simp only [List.length_cons] at h; omega),
      act_sum s b (n + 1) f z (by simp only [List.length_cons] at h; omega), Finset.mul_sum]
    have hstep : ∀ k, (∑ i ∈ Finset.range (x :: a).length, (x :: a).getD i 0 * (if i ≤ k then b.getD (k - i) 0 else 0)) =
        x * b.getD k 0 + ∑ i ∈ Finset.range a.length, a.getD i 0 * (if i + 1 ≤ k then b.getD (k - (i + 1)) 0 else 0) := by
      intro k
      rw [List.length_cons, Finset.sum_range_succ', add_comm]
      simp
    simp only [hstep, add_mul, Finset.sum_add_distrib]
    congr 1
    · apply Finset.sum_congr rfl
      intro k _; ring
    · rw [Finset.sum_range_succ']
      simp only [Nat.le_zero, Nat.add_eq_zero_iff, one_ne_zero, and_false, if_false, mul_zero, Finset.sum_const_zero, zero_mul, add_zero]
      apply Finset.sum_congr rfl
      intro k _
      congr 1
      · apply Finset.sum_congr rfl
        intro i _
        by_cases hik : i ≤ k
        · rw [if_pos (by omega), if_pos hik, show k + 1 - (i + 1) = k - i by omega]
        · rw [if_neg (by omega), if_neg hik]
      · congr 1
        push_cast; ring

theorem convFull_length (a b : List ℝ) : (convFull a b).length = a.length + b.length - 1 := by simp [convFull]

theorem act_conv (s : ℤ) (a b : List ℝ) (hb : b ≠ []) (f : ℤ → ℝ) (z : ℤ) :
    act s (convFull a b) f z = act s a (act s b f) z := by
  have hbl := List.length_pos_of_ne_nil hb
  rw [act_sum s (convFull a b) (a.length + b.length - 1) f z (by rw [convFull_length]),
    ← act_convFull s b hb a (a.length + b.length - 1) f z (by omega)]
  apply Finset.sum_congr rfl
  intro k hk
  rw [Finset.mem_range] at hk
  congr 1
  rw [convFull, List.getD_eq_getElem _ _ (by simpa using hk)]
  simp

theorem act_upArrow (s : ℤ) (h : List ℝ) (j : ℕ) (f : ℤ → ℝ) (z : ℤ) :
    act s (upArrow h j) f z = if j = 0 then f z else act (s * 2 ^ (j - 1)) h f z := by
  unfold upArrow
  by_cases hj : j = 0
  · rw [if_pos hj, if_pos hj]; simp [act]
  · rw [if_neg hj, if_neg hj, act_spread s _ Nat.one_le_two_pow]; push_cast; rfl

theorem act_colSums (s : ℤ) (N : ℕ) (f : ℤ → ℝ) (hf : ∀ z, f (z - s * N) = f z) : ∀ (m : ℕ) (li : List ℝ) (z : ℤ),
    li.length = m * N → (colSums N m li).length = N ∧ act s (colSums N m li) f z = act s li f z
  | 0, li, z, h => by
    have : li = [] := List.length_eq_zero_iff.1 (by simpa using h)
    subst this
    exact ⟨by simp [colSums], by rw [colSums, act_zeros]; rfl⟩
  | m + 1, li, z, h => by
    have hper : ∀ (l : List ℝ) z, act s l f (z - s * N) = act s l f z := by
      intro l z
      rw [sub_eq_add_neg, ← act_shift s (-(s * N)) l f z]
      congr 1
      funext w
      rw [← sub_eq_add_neg]; exact hf w
    have h1 : (li.take N).length = N := by rw [List.length_take, h, add_mul]; simp
    have h2 : (li.drop N).length = m * N := by rw [List.length_drop, h, add_mul]; simp
    obtain ⟨i1, i2⟩ := act_colSums s N f hf m (li.drop N) z h2
    refine ⟨by rw [colSums, List.length_zipWith, h1, i1, min_self], ?_⟩
    rw [colSums, act_zipAdd s _ _ f z (by rw [h1, i1]), i2]
    conv_rhs => rw [← List.take_append_drop N li, act_append, h1, hper]

theorem act_period (s : ℤ) (N : ℕ) (hN : 0 < N) (f : ℤ → ℝ) (hf : ∀ z, f (z - s * N) = f z) (li : List ℝ) (z : ℤ) :
    (periodList li N).length = N ∧ act s (periodList li N) f z = act s li f z := by
  have hfull : ∀ n z, act s (li ++ List.replicate n 0) f z = act s li f z := by
    intro n z; rw [act_append, act_zeros, add_zero]
  have hmod := Nat.mod_lt li.length hN
  have hdm := Nat.div_add_mod li.length N
  have hlen : (li ++ List.replicate (N - li.length % N) (0 : ℝ)).length = (li.length / N + 1) * N := by
    rw [List.length_append, List.length_replicate, add_mul, one_mul, mul_comm]; omega
  unfold periodList
  simp only
  by_cases hc : (li ++ List.replicate (N - li.length % N) (0 : ℝ)).length < 2 * N
  · rw [if_pos hc]
    refine ⟨?_, hfull _ z⟩
    rw [hlen] at hc ⊢
    have h2 : li.length / N + 1 < 2 := Nat.lt_of_mul_lt_mul_right hc
    have h0 : li.length / N = 0 := Nat.lt_one_iff.1 (Nat.lt_of_succ_lt_succ h2)
    rw [h0]; simp
  · rw [if_neg hc]
    have e : (li ++ List.replicate (N - li.length % N) (0 : ℝ)).length / N = li.length / N + 1 := by
      rw [hlen]; exact Nat.mul_div_cancel _ hN
    rw [e]
    obtain ⟨i1, i2⟩ := act_colSums s N f hf (li.length / N + 1) _ z hlen
    exact ⟨i1, i2.trans (hfull _ z)⟩

/-! ## Arrays as periodic sequences -/

/-- The array of the first `N` values of a sequence. -/
def ofSeq (N : ℕ) (F : ℤ → ℝ) : List ℝ := (List.range N).map fun (l : ℕ) => F l

theorem wrap_ofSeq (N : ℕ) (hN : 0 < N) (F : ℤ → ℝ) (hF : ∀ z, F (z + N) = F z) (z : ℤ) : wrapGet (ofSeq N F) z = F z := by
  unfold wrapGet ofSeq
  have hl : ((List.range N).map fun (l : ℕ) => F l).length = N := by simp
  rw [hl]
  have h0 : 0 ≤ z % (N : ℤ) := Int.emod_nonneg _ (by omega)
  have h1 : z % (N : ℤ) < N := Int.emod_lt_of_pos _ (by omega)
  rw [List.getD_eq_getElem _ _ (by rw [hl]; omega), List.getElem_map, List.getElem_range, Int.toNat_of_nonneg h0]
  have hmul : ∀ (k : ℕ) z, F (z + k * N) = F z := by
    intro k
    induction k with
    | zero => intro z; simp
    | succ k ih =>
      intro z
      have := hF (z + k * N)
      rw [ih z] at this
      rw [← this]
      congr 1
      push_cast; ring
  have hz := Int.emod_add_mul_ediv z N
  rcases le_or_gt 0 (z / (N : ℤ)) with hq | hq
  · obtain ⟨k, hk⟩ := Int.eq_ofNat_of_zero_le hq
    rw [hk] at hz
    conv_rhs => rw [← hz, mul_comm (N : ℤ)]
    exact (hmul k _).symm
  · obtain ⟨k, hk⟩ := Int.eq_ofNat_of_zero_le (show 0 ≤ -(z / (N : ℤ)) by omega)
    have : z % (N : ℤ) = z + k * N := by rw [← hk]; linarith
    rw [this]
    exact hmul k z

theorem wrapGet_period (v : List ℝ) (z : ℤ) : wrapGet v (z + v.length) = wrapGet v z := by
  unfold wrapGet
  rw [Int.add_emod_right]

theorem wrapGet_nat (v : List ℝ) (l : ℕ) (hl : l < v.length) : wrapGet v l = v[l] := by
  unfold wrapGet
  have : ((l : ℤ) % (v.length : ℤ)).toNat = l := by
    rw [Int.emod_eq_of_lt (by omega) (by exact_mod_cast hl)]; simp
  rw [this, List.getD_eq_getElem]

theorem act_periodic (s : ℤ) (N : ℕ) (f : ℤ → ℝ) (hf : ∀ z, f (z + N) = f z) (h : List ℝ) (z : ℤ) :
    act s h f (z + N) = act s h f z := by
  rw [← act_shift s N h f z]
  congr 1
  funext w
  exact hf w

theorem circD_eq (h v : List ℝ) (j : ℕ) (hne : h ≠ []) (heven : h.length % 2 = 0) :
    circD h v (j + 1) = .ok (ofSeq v.length (act (2 ^ j) h (wrapGet v))) := by
  unfold circD
  simp only [Nat.add_sub_cancel]
  set ker := h.flatMap fun x => x :: List.replicate (2 ^ j - 1) 0 with hker
  have hlen : ker.length = h.length * 2 ^ j := by
    rw [hker, List.length_flatMap]
    have : (h.map fun x => (x :: List.replicate (2 ^ j - 1) (0 : ℝ)).length) = List.replicate h.length (2 ^ j) := by
      rw [List.eq_replicate_iff]
      refine ⟨by simp, ?_⟩
      intro b hb
      obtain ⟨x, _, rfl⟩ := List.mem_map.1 hb
      have : 1 ≤ 2 ^ j := Nat.one_le_two_pow
      rw [List.length_cons, List.length_replicate]; omega
    rw [this, List.sum_replicate, smul_eq_mul]
  have hpos : 0 < ker.length := by
    rw [hlen]; exact Nat.mul_pos (List.length_pos_of_ne_nil hne) (Nat.two_pow_pos j)
  have hke : ker.length % 2 = 0 := by rw [hlen, Nat.mul_mod, heven, zero_mul, Nat.zero_mod]
  have hker0 : ker ≠ [] := List.ne_nil_of_length_pos hpos
  unfold convolveWrap
  rw [if_neg hker0, if_pos hke, if_neg (by omega)]
  congr 1
  unfold ofSeq
  apply List.map_congr_left
  intro l _
  rw [← one_mul ((2 : ℤ) ^ j)]
  have := act_flat 1 (2 ^ j) Nat.one_le_two_pow h (wrapGet v) l
  push_cast at this
  rw [← this, ← hker, act_sum 1 ker ker.length _ _ le_rfl]
  apply Finset.sum_congr rfl
  intro i _
  congr 2
  omega

theorem circD_odd (h v : List ℝ) (hodd : h.length % 2 = 1) : circD h v 1 = .error .valueError := by
  unfold circD
  have e : (h.flatMap fun x => x :: List.replicate (2 ^ (1 - 1) - 1) (0 : ℝ)) = h := by simp
  simp only [e]
  have hne : h ≠ [] := by rintro rfl; simp at hodd
  unfold convolveWrap
  rw [if_neg hne, if_neg (show ¬ h.length % 2 = 0 by omega), if_pos]
  right
  omega

theorem circMra_eq (h w : List ℝ) (hl : h.length = w.length) (hN : 0 < w.length) :
    circMra h w = .ok (ofSeq w.length (act (-1) h (wrapGet w))) := by
  unfold circMra convolveWrap
  have hne : h.reverse ≠ [] := by
    intro hc
    rw [List.reverse_eq_nil_iff] at hc
    rw [hc] at hl
    simp at hl
    omega
  rw [if_neg hne]
  simp only [List.length_reverse]
  rw [if_neg (by split_ifs <;> omega)]
  congr 1
  unfold ofSeq
  apply List.map_congr_left
  intro l _
  rw [act_sum (-1) h h.length _ _ le_rfl, ← Finset.sum_range_reflect]
  apply Finset.sum_congr rfl
  intro i hi
  rw [Finset.mem_range] at hi
  congr 1
  · rw [List.getD_eq_getElem _ _ (by rw [List.length_reverse]; omega), List.getElem_reverse, List.getD_eq_getElem _ _ hi]
    congr 1
    omega
  · congr 1
    omega


/-! ## The analysis -/

namespace Spec

/-- Sum of the details of the levels from `j` on: `P` is the filter back from level `j`. -/
noncomputable def detSum (h g : List ℝ) : ℕ → ℕ → List ℝ → (ℤ → ℝ) → ℤ → ℝ
  | 0, _, _, _, _ => 0
  | n + 1, j, P, f, z => act (-1) P (act (-2 ^ j) h (act (2 ^ j) h f)) z / Real.sqrt 2 ^ (j + 2) +
      detSum h g n (j + 1) (convFull P (upArrow g (j + 1))) (fun z => act (2 ^ j) g f z / Real.sqrt 2) z

/-- The smooth part left after the levels from `j` on. -/
noncomputable def smoothOf (g : List ℝ) : ℕ → ℕ → List ℝ → (ℤ → ℝ) → ℤ → ℝ
  | 0, j, P, f, z => act (-1) P f z / Real.sqrt 2 ^ j
  | n + 1, j, P, f, z => smoothOf g n (j + 1) (convFull P (upArrow g (j + 1))) (fun z => act (2 ^ j) g f z / Real.sqrt 2) z

end Spec

open Spec (detSum smoothOf)

theorem sqrt2_pow (j : ℕ) : (2 : ℝ) ^ ((j : ℝ) / 2) = Real.sqrt 2 ^ j := by
  rw [Real.sqrt_eq_rpow, ← Real.rpow_natCast, ← Real.rpow_mul (by norm_num)]
  congr 1; ring

theorem upArrow_ne (g : List ℝ) (hg : g ≠ []) (j : ℕ) : upArrow g j ≠ [] := by
  unfold upArrow
  split_ifs
  · simp
  · match g, hg with
    | [x], _ => simp [spread]
    | x :: y :: l, _ => simp [spread]

theorem act_next (g : List ℝ) (hg : g ≠ []) (P : List ℝ) (j : ℕ) (f : ℤ → ℝ) (z : ℤ) :
    act (-1) (convFull P (upArrow g (j + 1))) f z = act (-1) P (act (-2 ^ j) g f) z := by
  rw [act_conv _ _ _ (upArrow_ne g hg _)]
  congr 1
  funext w
  rw [act_upArrow, if_neg (by omega), Nat.add_sub_cancel, neg_one_mul]

theorem analysis_loop (h g : List ℝ) (hh : h ≠ []) (hg : g ≠ []) (he : h.length % 2 = 0) (hge : g.length % 2 = 0) (N : ℕ) (hN : 0 < N) :
    ∀ (n j : ℕ) (v part : List ℝ), v.length = N → (j = 0 → ∀ f z, act (-1) (convFull part (upArrow g j)) f z = f z) →
      ∃ rows vlast Ds last,
        modwtLoop (h.map (· / Real.sqrt 2)) (g.map (· / Real.sqrt 2)) n j v = .ok (rows ++ [vlast]) ∧ rows.length = n ∧
        vlast.length = N ∧ mraLoop h g N j part rows = .ok (Ds, last) ∧ Ds.length = n ∧ (∀ D ∈ Ds, D.length = N) ∧
        (∀ z, (Ds.map (wrapGet · z)).sum = detSum h g n j (convFull part (upArrow g j)) (wrapGet v) z) ∧
        (∀ z, act (-1) (convFull last (upArrow g (j + n))) (wrapGet vlast) z / Real.sqrt 2 ^ (j + n) =
          smoothOf g n j (convFull part (upArrow g j)) (wrapGet v) z)
  | 0, j, v, part, hv, _ => ⟨[], v, [], part, rfl, rfl, hv, rfl, rfl, by simp, fun z => rfl, fun z => rfl⟩
  | n + 1, j, v, part, hv, hj0 => by
    set P := convFull part (upArrow g j) with hP
    have hr : Real.sqrt 2 ≠ 0 := by positivity
    have hper : ∀ z, wrapGet v (z + N) = wrapGet v z := by
      intro z; rw [← hv]; exact wrapGet_period v z
    -- the two filtered arrays
    have hD : ∀ q : List ℝ, q ≠ [] → q.length % 2 = 0 →
        circD (q.map (· / Real.sqrt 2)) v (j + 1) = .ok (ofSeq N fun z => act (2 ^ j) q (wrapGet v) z / Real.sqrt 2) := by
      intro q hq hq2
      rw [circD_eq _ v j (by simpa using hq) (by simpa using hq2), hv]
      congr 2
      funext z
      exact act_map_div _ _ _ _ _
    have hget : ∀ (q : List ℝ) z, wrapGet (ofSeq N fun z => act (2 ^ j) q (wrapGet v) z / Real.sqrt 2) z =
        act (2 ^ j) q (wrapGet v) z / Real.sqrt 2 := by
      intro q z
      apply wrap_ofSeq N hN (fun z => act (2 ^ j) q (wrapGet v) z / Real.sqrt 2)
      intro z
      rw [act_periodic (2 ^ j) N _ hper]
    set w := ofSeq N fun z => act (2 ^ j) h (wrapGet v) z / Real.sqrt 2 with hw
    set v' := ofSeq N fun z => act (2 ^ j) g (wrapGet v) z / Real.sqrt 2 with hv'
    have hwl : w.length = N := by simp [hw, ofSeq]
    obtain ⟨rows, vlast, Ds, last, i1, i2, i3, i4, i5, i6, i7, i8⟩ :=
      analysis_loop h g hh hg he hge N hN n (j + 1) v' P (by simp [hv', ofSeq]) (by intro hc; omega)
    -- the detail of this level
    set hjt := if j = 0 then h.map (· / Real.sqrt 2) else
      (convFull P (upArrow h (j + 1))).map (· / (2 : ℝ) ^ (((j : ℝ) + 1) / 2)) with hhjt
    have hact : ∀ f z, act (-1) hjt f z = act (-1) P (act (-2 ^ j) h f) z / Real.sqrt 2 ^ (j + 1) := by
      intro f z
      rw [hhjt]
      by_cases hj : j = 0
      · rw [if_pos hj, act_map_div, hj0 hj, hj]; simp
      · rw [if_neg hj, act_map_div, act_next h hh]
        congr 1
        rw [← sqrt2_pow]; push_cast; rfl
    have hwper : ∀ z, wrapGet w (z - (-1) * N) = wrapGet w z := by
      intro z
      have := wrapGet_period w z
      rw [hwl] at this
      rw [← this]; congr 1; ring
    have hDj : circMra (periodList hjt N) w = .ok (ofSeq N (act (-1) hjt (wrapGet w))) := by
      have hl := (act_period (-1) N hN (wrapGet w) hwper hjt 0).1
      rw [circMra_eq _ _ (by rw [hl, hwl]) (by omega), hwl]
      congr 2
      funext z
      exact (act_period (-1) N hN (wrapGet w) hwper hjt z).2
    refine ⟨w :: rows, vlast, ofSeq N (act (-1) hjt (wrapGet w)) :: Ds, last, ?_, by simp [i2], i3, ?_, by simp [i5], ?_, ?_, ?_⟩
    · rw [modwtLoop]
      simp only [bind, Except.bind, hD h hh he, hD g hg hge, ← hw, ← hv', i1, pure, Except.pure, List.cons_append]
    · rw [mraLoop]
      simp only [bind, Except.bind, ← hP, ← hhjt, hDj, i4, pure, Except.pure]
    · intro D hD
      rcases List.mem_cons.1 hD with rfl | hD
      · simp [ofSeq]
      · exact i6 D hD
    · intro z
      rw [List.map_cons, List.sum_cons, i7 z, detSum]
      congr 1
      · rw [wrap_ofSeq N hN _ (act_periodic (-1) N _ (by
          intro z; have := wrapGet_period w z; rw [hwl] at this; exact this) hjt), hact]
        have e : wrapGet w = fun z => act (2 ^ j) h (wrapGet v) z / Real.sqrt 2 := by funext z; exact hget h z
        rw [e]
        have e2 : act (-2 ^ j) h (fun z => act (2 ^ j) h (wrapGet v) z / Real.sqrt 2) =
            fun z => act (-2 ^ j) h (act (2 ^ j) h (wrapGet v)) z / Real.sqrt 2 := by
          funext z; exact act_fdiv _ _ _ _ _
        rw [e2, act_fdiv, div_div, ← pow_succ']
      · congr 1
        funext z; exact hget g z
    · intro z
      have e : j + (n + 1) = j + 1 + n := by omega
      rw [e, i8 z, smoothOf]
      congr 1
      funext z; exact hget g z

/-! ## Perfect reconstruction -/

theorem autocorr_cons (a : ℝ) (t : List ℝ) : autocorr (a :: t) 0 = a * a + autocorr t 0 ∧
    ∀ k, autocorr (a :: t) (k + 1) = a * t.getD k 0 + autocorr t (k + 1) := by
  constructor
  · unfold autocorr
    rw [List.length_cons, Finset.sum_range_succ', add_comm]
    simp
  · intro k
    unfold autocorr
    rw [List.length_cons, Finset.sum_range_succ', add_comm]
    congr 1
    · simp
    · apply Finset.sum_congr rfl
      intro x _
      rw [List.getD_cons_succ, show x + 1 + (k + 1) = x + (k + 1) + 1 by omega, List.getD_cons_succ]

theorem act_autocorr (s : ℤ) : ∀ (h : List ℝ) (n : ℕ) (f : ℤ → ℝ) (z : ℤ), h.length ≤ n + 1 →
    act (-s) h (act s h f) z = autocorr h 0 * f z +
      ∑ k ∈ Finset.range n, autocorr h (k + 1) * (f (z - s * (k + 1)) + f (z + s * (k + 1)))
  | [], n, f, z, _ => by simp [act, autocorr]
  | a :: t, n, f, z, hn => by
    obtain ⟨c0, c1⟩ := autocorr_cons a t
    have hn' : t.length ≤ n := by simpa using hn
    have e : act s (a :: t) f = fun w => a * f w + act s t f (w + -s) := by
      funext w; simp only [act]; rw [sub_eq_add_neg]
    have e1 : act (-s) (a :: t) (act s (a :: t) f) z = a * (a * f z + act s t f (z - s)) +
        (a * act (-s) t f (z + s) + act (-s) t (act s t f) z) := by
      rw [act, e, act_fadd, act_smul, act_shift (-s) (-s) t (act s t f)]
      congr 2
      · rw [sub_neg_eq_add]
      · congr 1; ring
    rw [e1, act_autocorr s t n f z (by omega), act_sum s t n f (z - s) hn', act_sum (-s) t n f (z + s) hn', c0]
    simp only [c1, add_mul, Finset.sum_add_distrib, mul_add, Finset.mul_sum]
    have q1 : ∀ k : ℕ, z - s - s * (k : ℤ) = z - (s * k + s * 1) := by intro k; ring
    have q2 : ∀ k : ℕ, z + s - -s * (k : ℤ) = z + (s * k + s * 1) := by intro k; ring
    simp only [q1, q2, ← mul_assoc]
    ring

theorem quadrature_act (h g : List ℝ) (hq : Quadrature h g) (s : ℤ) (f : ℤ → ℝ) (z : ℤ) :
    act (-s) h (act s h f) z + act (-s) g (act s g f) z = 2 * f z := by
  rw [act_autocorr s h (h.length + g.length) f z (by omega), act_autocorr s g (h.length + g.length) f z (by omega)]
  have q0 := hq 0
  rw [if_pos rfl] at q0
  have : ∑ k ∈ Finset.range (h.length + g.length), autocorr h (k + 1) * (f (z - s * (k + 1)) + f (z + s * (k + 1))) +
      ∑ k ∈ Finset.range (h.length + g.length), autocorr g (k + 1) * (f (z - s * (k + 1)) + f (z + s * (k + 1))) = 0 := by
    rw [← Finset.sum_add_distrib]
    apply Finset.sum_eq_zero
    intro k _
    have := hq (k + 1)
    rw [if_neg (by omega)] at this
    rw [← add_mul, this, zero_mul]
  rw [add_add_add_comm, this, ← add_mul, q0, add_zero]

theorem reconstruct (h g : List ℝ) (hg : g ≠ []) (hq : Quadrature h g) : ∀ (n j : ℕ) (P : List ℝ) (f : ℤ → ℝ) (z : ℤ),
    detSum h g n j P f z + smoothOf g n j P f z = act (-1) P f z / Real.sqrt 2 ^ j
  | 0, j, P, f, z => by rw [detSum, smoothOf, zero_add]
  | n + 1, j, P, f, z => by
    have hr : Real.sqrt 2 ≠ 0 := by positivity
    rw [detSum, smoothOf, add_assoc, reconstruct h g hg hq n (j + 1), act_next g hg]
    have e2 : act (-2 ^ j) g (fun z => act (2 ^ j) g f z / Real.sqrt 2) =
        fun z => act (-2 ^ j) g (act (2 ^ j) g f) z / Real.sqrt 2 := by
      funext z; exact act_fdiv _ _ _ _ _
    rw [e2, act_fdiv, div_div, ← pow_succ', ← add_div, ← act_fadd]
    have e3 : (fun z => act (-2 ^ j) h (act (2 ^ j) h f) z + act (-2 ^ j) g (act (2 ^ j) g f) z) = fun z => 2 * f z := by
      funext z; exact quadrature_act h g hq (2 ^ j) f z
    rw [e3, act_smul]
    have h2 : Real.sqrt 2 * Real.sqrt 2 = 2 := Real.mul_self_sqrt (by norm_num)
    have : Real.sqrt 2 ^ (j + 1 + 1) = Real.sqrt 2 ^ j * 2 := by rw [pow_succ, pow_succ, mul_assoc, h2]
    rw [show j + 2 = j + 1 + 1 from rfl, this]
    field_simp

/-! ## Arrays -/

theorem sumRows_eq (N : ℕ) : ∀ (rows : List (List ℝ)), (∀ r ∈ rows, r.length = N) →
    sumRows N rows = ofSeq N fun z => (rows.map (wrapGet · z)).sum
  | [], _ => by
    simp only [sumRows, ofSeq, List.map_nil, List.sum_nil]
    rw [List.map_const', List.length_range]
  | r :: rs, h => by
    have hr := h r List.mem_cons_self
    rw [sumRows, sumRows_eq N rs fun x hx => h x (List.mem_cons_of_mem _ hx)]
    apply List.ext_getElem
    · simp [ofSeq, hr]
    · intro i h1 h2
      simp only [List.getElem_zipWith, ofSeq, List.getElem_map, List.getElem_range, List.map_cons, List.sum_cons]
      rw [wrapGet_nat r i (by rw [List.length_zipWith, hr] at h1; omega)]

theorem ofSeq_wrap (v : List ℝ) : ofSeq v.length (wrapGet v) = v := by
  apply List.ext_getElem
  · simp [ofSeq]
  · intro i h1 h2
    simp only [ofSeq, List.getElem_map, List.getElem_range]
    exact wrapGet_nat v i h2

/-- The filter back from level 0 does nothing. -/
theorem act_start (g : List ℝ) (f : ℤ → ℝ) (z : ℤ) : act (-1) (convFull [1] (upArrow g 0)) f z = f z := by
  rw [act_conv _ _ _ (by simp [upArrow])]
  simp [act, upArrow]

theorem analysis (h g : List ℝ) (hh : h ≠ []) (hg : g ≠ []) (he : h.length % 2 = 0) (hge : g.length % 2 = 0) (x : List ℝ) (hx : x ≠ [])
    (level : ℕ) :
    ∃ coeffs Ds S, modwt h g x level = .ok coeffs ∧ coeffs.length = level + 1 ∧ modwtmra h g coeffs = .ok (Ds ++ [S]) ∧
      Ds.length = level ∧ (∀ D ∈ Ds ++ [S], D.length = x.length) ∧
      (∀ z, (Ds.map (wrapGet · z)).sum = detSum h g level 0 (convFull [1] (upArrow g 0)) (wrapGet x) z) ∧
      ∀ z, wrapGet S z = smoothOf g level 0 (convFull [1] (upArrow g 0)) (wrapGet x) z := by
  have hN := List.length_pos_of_ne_nil hx
  obtain ⟨rows, vlast, Ds, last, i1, i2, i3, i4, i5, i6, i7, i8⟩ :=
    analysis_loop h g hh hg he hge x.length hN level 0 x [1] rfl (fun _ => act_start g)
  have hvper : ∀ z, wrapGet vlast (z + x.length) = wrapGet vlast z := by
    intro z; have := wrapGet_period vlast z; rw [i3] at this; exact this
  have hvper' : ∀ z, wrapGet vlast (z - (-1) * x.length) = wrapGet vlast z := by
    intro z; rw [← hvper z]; congr 1; ring
  set gjt := (convFull last (upArrow g level)).map (· / (2 : ℝ) ^ ((level : ℝ) / 2)) with hgjt
  have hl := (act_period (-1) x.length hN (wrapGet vlast) hvper' gjt 0).1
  have hS : circMra (periodList gjt x.length) vlast = .ok (ofSeq x.length (act (-1) gjt (wrapGet vlast))) := by
    rw [circMra_eq _ _ (by rw [hl, i3]) (by omega), i3]
    congr 2
    funext z
    exact (act_period (-1) x.length hN (wrapGet vlast) hvper' gjt z).2
  refine ⟨rows ++ [vlast], Ds, ofSeq x.length (act (-1) gjt (wrapGet vlast)), i1, by simp [i2], ?_, i5, ?_, i7, ?_⟩
  · unfold modwtmra
    rw [List.getLast?_concat]
    simp only [List.dropLast_concat, List.length_append, List.length_singleton, Nat.add_sub_cancel, i2, i3, i4, bind,
      Except.bind, ← hgjt, hS, pure, Except.pure]
  · intro D hD
    rcases List.mem_append.1 hD with hD | hD
    · exact i6 D hD
    · rw [List.mem_singleton.1 hD]; simp [ofSeq]
  · intro z
    rw [wrap_ofSeq x.length hN _ (act_periodic (-1) x.length _ hvper gjt), ← i8 z, hgjt, act_map_div, sqrt2_pow, zero_add]

/-! ## C124 -/

/-- The analysis of a signal at any level with the filters of an orthogonal wavelet succeeds, has one row per level and one
for the rest, each as long as the signal, and the rows add up to the signal. -/
theorem C124_reconstruct (h g : List ℝ) (hh : h ≠ []) (hg : g ≠ []) (he : h.length % 2 = 0) (hge : g.length % 2 = 0)
    (hq : Quadrature h g) (x : List ℝ) (hx : x ≠ []) (level : ℕ) :
    ∃ coeffs mra, modwt h g x level = .ok coeffs ∧ modwtmra h g coeffs = .ok mra ∧ mra.length = level + 1 ∧
      (∀ r ∈ mra, r.length = x.length) ∧ sumRows x.length mra = x := by
  obtain ⟨coeffs, Ds, S, a1, a2, a3, a4, a5, a6, a7⟩ := analysis h g hh hg he hge x hx level
  refine ⟨coeffs, Ds ++ [S], a1, a3, by simp [a4], a5, ?_⟩
  rw [sumRows_eq x.length _ a5]
  conv_rhs => rw [← ofSeq_wrap x]
  congr 1
  funext z
  rw [List.map_append, List.sum_append, a6 z, List.map_singleton, List.sum_singleton, a7 z, reconstruct h g hg hq, act_start,
    pow_zero, div_one]

theorem baseline_eq (h g : List ℝ) (hh : h ≠ []) (hg : g ≠ []) (he : h.length % 2 = 0) (hge : g.length % 2 = 0)
    (x : List (ℝ × ℝ)) (hx : x ≠ []) (level : ℕ) :
    baselineWavelet h g level x = .ok ((x.map Prod.fst).zip
      (ofSeq x.length (detSum h g level 0 (convFull [1] (upArrow g 0)) (wrapGet (x.map Prod.snd))))) := by
  obtain ⟨coeffs, Ds, S, a1, a2, a3, a4, a5, a6, a7⟩ := analysis h g hh hg he hge (x.map Prod.snd) (by simpa using hx) level
  unfold baselineWavelet
  rw [if_neg hx]
  simp only [a1, a3, bind, Except.bind, pure, Except.pure, List.dropLast_concat]
  rw [sumRows_eq x.length]
  · congr 3
    funext z
    rw [List.map_append, List.sum_append, a6 z, List.map_singleton, List.sum_singleton]
    have : wrapGet (List.replicate x.length (0 : ℝ)) z = 0 := by
      unfold wrapGet
      rw [List.getD_eq_getElem?_getD, List.getElem?_replicate]
      split_ifs <;> rfl
    rw [this, add_zero]
  · intro r hr
    rcases List.mem_append.1 hr with hr | hr
    · rw [a5 r (List.mem_append_left _ hr), List.length_map]
    · rw [List.mem_singleton.1 hr, List.length_replicate]

/-- The correction keeps the times and subtracts the last row of the analysis, the smooth part, from the signal. -/
theorem C124_removes (h g : List ℝ) (hh : h ≠ []) (hg : g ≠ []) (he : h.length % 2 = 0) (hge : g.length % 2 = 0)
    (hq : Quadrature h g) (x : List (ℝ × ℝ)) (hx : x ≠ []) (level : ℕ) :
    ∃ coeffs mra S y, modwt h g (x.map Prod.snd) level = .ok coeffs ∧ modwtmra h g coeffs = .ok mra ∧ mra.getLast? = some S ∧
      baselineWavelet h g level x = .ok y ∧ y.map Prod.fst = x.map Prod.fst ∧
      y.map Prod.snd = List.zipWith (fun p s => p.2 - s) x S := by
  obtain ⟨coeffs, Ds, S, a1, a2, a3, a4, a5, a6, a7⟩ := analysis h g hh hg he hge (x.map Prod.snd) (by simpa using hx) level
  have hSl : S.length = x.length := by rw [a5 S (by simp), List.length_map]
  refine ⟨coeffs, Ds ++ [S], S, _, a1, a3, by simp, baseline_eq h g hh hg he hge x hx level, ?_, ?_⟩
  · rw [List.map_fst_zip]; simp [ofSeq]
  · rw [List.map_snd_zip (by simp [ofSeq])]
    apply List.ext_getElem
    · simp [ofSeq, hSl]
    · intro i h1 h2
      simp only [ofSeq, List.getElem_map, List.getElem_range, List.getElem_zipWith]
      have hi : i < x.length := by simpa [ofSeq] using h1
      have r := reconstruct h g hg hq level 0 (convFull [1] (upArrow g 0)) (wrapGet (x.map Prod.snd)) i
      rw [act_start, pow_zero, div_one, ← a7 i, wrapGet_nat S i (by omega), wrapGet_nat _ i (by simpa using hi),
        List.getElem_map] at r
      linarith

theorem detSum_lin (h g : List ℝ) : ∀ (n j : ℕ) (P : List ℝ) (c d : ℝ) (f f' : ℤ → ℝ) (z : ℤ),
    detSum h g n j P (fun z => c * f z + d * f' z) z = c * detSum h g n j P f z + d * detSum h g n j P f' z
  | 0, j, P, c, d, f, f', z => by simp [detSum]
  | n + 1, j, P, c, d, f, f', z => by
    simp only [detSum]
    have e : ∀ (s : ℤ) (q : List ℝ) (f f' : ℤ → ℝ), act s q (fun z => c * f z + d * f' z) = fun z => c * act s q f z + d * act s q f' z := by
      intro s q f f'; funext z; exact act_lin s q c d f f' z
    have e2 : (fun z => act (2 ^ j) g (fun z => c * f z + d * f' z) z / Real.sqrt 2) =
        fun z => c * (act (2 ^ j) g f z / Real.sqrt 2) + d * (act (2 ^ j) g f' z / Real.sqrt 2) := by
      funext z; rw [act_lin]; ring
    rw [e2, detSum_lin h g n (j + 1), e, e, e]
    ring

/-- The correction is linear. -/
theorem C124_linear (h g : List ℝ) (hh : h ≠ []) (hg : g ≠ []) (he : h.length % 2 = 0) (hge : g.length % 2 = 0)
    (x x' : List (ℝ × ℝ)) (hx : x ≠ []) (hl : x'.map Prod.fst = x.map Prod.fst) (level : ℕ) (c d : ℝ) :
    ∃ y y', baselineWavelet h g level x = .ok y ∧ baselineWavelet h g level x' = .ok y' ∧ y.length = x.length ∧
      y'.length = x.length ∧
      baselineWavelet h g level (List.zipWith (fun p q => (p.1, c * p.2 + d * q.2)) x x') =
        .ok (List.zipWith (fun p q => (p.1, c * p.2 + d * q.2)) y y') := by
  have hlen : x'.length = x.length := by have := congrArg List.length hl; simpa using this
  have hx' : x' ≠ [] := by intro e; rw [e] at hlen; exact hx (List.length_eq_zero_iff.1 hlen.symm)
  have hpos := List.length_pos_of_ne_nil hx
  refine ⟨_, _, baseline_eq h g hh hg he hge x hx level, baseline_eq h g hh hg he hge x' hx' level, by simp [ofSeq],
    by simp [ofSeq, hlen], ?_⟩
  rw [baseline_eq h g hh hg he hge _ (by
    intro e; have := congrArg List.length e; simp only [List.length_zipWith, List.length_nil, hlen, min_self] at this; omega) level]
  congr 1
  have hw : ∀ z, wrapGet ((List.zipWith (fun p q => (p.1, c * p.2 + d * q.2)) x x').map Prod.snd) z =
      c * wrapGet (x.map Prod.snd) z + d * wrapGet (x'.map Prod.snd) z := by
    intro z
    unfold wrapGet
    simp only [List.length_map, List.length_zipWith, hlen, min_self]
    have h0 : 0 ≤ z % (x.length : ℤ) := Int.emod_nonneg _ (by omega)
    have h1 : z % (x.length : ℤ) < x.length := Int.emod_lt_of_pos _ (by omega)
    have hi : (z % (x.length : ℤ)).toNat < x.length := by omega
    rw [List.getD_eq_getElem _ _ (by simpa [hlen] using hi), List.getD_eq_getElem _ _ (by simpa using hi),
      List.getD_eq_getElem _ _ (by simpa [hlen] using hi)]
    simp
  have e : wrapGet ((List.zipWith (fun p q => (p.1, c * p.2 + d * q.2)) x x').map Prod.snd) =
      fun z => c * wrapGet (x.map Prod.snd) z + d * wrapGet (x'.map Prod.snd) z := funext hw
  rw [e]
  apply List.ext_getElem
  · simp [ofSeq, hlen]
  · intro i h1 h2
    simp only [List.getElem_zip, List.getElem_zipWith, List.getElem_map, ofSeq, List.getElem_range, detSum_lin]

theorem act_const (s : ℤ) (c : ℝ) : ∀ (h : List ℝ) (z : ℤ), act s h (fun _ => c) z = h.sum * c
  | [], z => by simp [act]
  | a :: h, z => by
    rw [act, act_const s c h, List.sum_cons]; ring

theorem detSum_const (h g : List ℝ) (hs : h.sum = 0) : ∀ (n j : ℕ) (P : List ℝ) (c : ℝ) (z : ℤ), detSum h g n j P (fun _ => c) z = 0
  | 0, j, P, c, z => rfl
  | n + 1, j, P, c, z => by
    rw [detSum]
    have e1 : act (2 ^ j) h (fun _ => c) = fun _ => 0 := by funext w; rw [act_const, hs, zero_mul]
    have e2 : (fun z => act (2 ^ j) g (fun _ => c) z / Real.sqrt 2) = fun _ => g.sum * c / Real.sqrt 2 := by
      funext w; rw [act_const]
    have e3 : act (-2 ^ j) h (fun _ => (0 : ℝ)) = fun _ => 0 := by funext w; rw [act_const, mul_zero]
    rw [e1, e2, e3, act_const, detSum_const h g hs n, mul_zero, zero_div, add_zero]

/-- A constant offset of the signal does not matter if the high-pass filter has zero sum. -/
theorem C124_offset (h g : List ℝ) (hh : h ≠ []) (hg : g ≠ []) (he : h.length % 2 = 0) (hge : g.length % 2 = 0) (hs : h.sum = 0)
    (x : List (ℝ × ℝ)) (hx : x ≠ []) (level : ℕ) (c : ℝ) :
    ∃ y, baselineWavelet h g level x = .ok y ∧ baselineWavelet h g level (x.map fun p => (p.1, p.2 + c)) = .ok y := by
  have hpos := List.length_pos_of_ne_nil hx
  refine ⟨_, baseline_eq h g hh hg he hge x hx level, ?_⟩
  rw [baseline_eq h g hh hg he hge _ (by simpa using hx) level]
  have e : wrapGet ((x.map fun p => (p.1, p.2 + c)).map Prod.snd) = fun z => 1 * wrapGet (x.map Prod.snd) z + 1 * c := by
    funext z
    unfold wrapGet
    simp only [List.length_map]
    have h0 : 0 ≤ z % (x.length : ℤ) := Int.emod_nonneg _ (by omega)
    have h1 : z % (x.length : ℤ) < x.length := Int.emod_lt_of_pos _ (by omega)
    have hi : (z % (x.length : ℤ)).toNat < x.length := by omega
    rw [List.getD_eq_getElem _ _ (by simpa using hi), List.getD_eq_getElem _ _ (by simpa using hi)]
    simp
  rw [e, List.map_map, List.length_map]
  congr 2
  apply List.map_congr_left
  intro l _
  rw [detSum_lin, detSum_const h g hs]; simp

theorem periodic_sum_shift (N : ℕ) (f : ℤ → ℝ) (hf : ∀ z, f (z + N) = f z) : ∀ (m : ℤ),
    ∑ l ∈ Finset.range N, f ((l : ℤ) + m) = ∑ l ∈ Finset.range N, f l := by
  have hstep : ∀ m : ℤ, ∑ l ∈ Finset.range N, f ((l : ℤ) + (m + 1)) = ∑ l ∈ Finset.range N, f ((l : ℤ) + m) := by
    intro m
    have h1 := Finset.sum_range_succ (fun l : ℕ => f ((l : ℤ) + m)) N
    have h2 := Finset.sum_range_succ' (fun l : ℕ => f ((l : ℤ) + m)) N
    have h3 : f ((N : ℤ) + m) = f (((0 : ℕ) : ℤ) + m) := by
      rw [add_comm, hf]; simp
    have h4 : ∀ l : ℕ, f (((l + 1 : ℕ) : ℤ) + m) = f ((l : ℤ) + (m + 1)) := by
      intro l; congr 1; push_cast; ring
    simp only [h4] at h2
    linarith
  intro m
  induction m using Int.induction_on with
  | zero => simp
  | succ k ih => rw [hstep, ih]
  | pred k ih =>
    rw [← ih, ← hstep]
    congr 1
    funext l
    congr 1
    ring

theorem act_mean (s : ℤ) (N : ℕ) (f : ℤ → ℝ) (hf : ∀ z, f (z + N) = f z) : ∀ (h : List ℝ) (m : ℤ),
    ∑ l ∈ Finset.range N, act s h f ((l : ℤ) + m) = h.sum * ∑ l ∈ Finset.range N, f l
  | [], m => by simp [act]
  | a :: h, m => by
    simp only [act]
    have e : ∀ l : ℕ, (l : ℤ) + m - s = (l : ℤ) + (m - s) := by intro l; ring
    simp only [e]
    rw [Finset.sum_add_distrib, act_mean s N f hf h, ← Finset.mul_sum, periodic_sum_shift N f hf, List.sum_cons]
    ring

theorem detSum_mean (h g : List ℝ) (hs : h.sum = 0) (N : ℕ) : ∀ (n j : ℕ) (P : List ℝ) (f : ℤ → ℝ), (∀ z, f (z + N) = f z) →
    ∑ l ∈ Finset.range N, detSum h g n j P f l = 0
  | 0, j, P, f, _ => by simp [detSum]
  | n + 1, j, P, f, hf => by
    simp only [detSum]
    have p1 := act_periodic (2 ^ j) N f hf h
    have p2 := act_periodic (-2 ^ j) N _ p1 h
    rw [Finset.sum_add_distrib, detSum_mean h g hs N n (j + 1) _ _ (fun z => by rw [act_periodic (2 ^ j) N f hf g]),
      add_zero]
    simp only [div_eq_mul_inv]
    rw [← Finset.sum_mul]
    have m1 := act_mean (-1) N _ p2 P 0
    have m2 := act_mean (-2 ^ j) N _ p1 h 0
    simp only [add_zero, hs, zero_mul] at m1 m2
    rw [m1, m2, mul_zero, zero_mul]

theorem ofSeq_sum (f : ℤ → ℝ) : ∀ (N : ℕ), (ofSeq N f).sum = ∑ l ∈ Finset.range N, f l
  | 0 => by simp [ofSeq]
  | N + 1 => by
    have := ofSeq_sum f N
    unfold ofSeq at this ⊢
    rw [List.range_succ, List.map_append, List.sum_append, this, Finset.sum_range_succ]
    simp

/-- The corrected signal has mean zero if the high-pass filter has zero sum. -/
theorem C124_mean (h g : List ℝ) (hh : h ≠ []) (hg : g ≠ []) (he : h.length % 2 = 0) (hge : g.length % 2 = 0) (hs : h.sum = 0)
    (x : List (ℝ × ℝ)) (hx : x ≠ []) (level : ℕ) (y : List (ℝ × ℝ)) (hy : baselineWavelet h g level x = .ok y) :
    (y.map Prod.snd).sum = 0 := by
  rw [baseline_eq h g hh hg he hge x hx level] at hy
  rw [← Except.ok.inj hy, List.map_snd_zip (by simp [ofSeq])]
  have := detSum_mean h g hs x.length level 0 (convFull [1] (upArrow g 0)) (wrapGet (x.map Prod.snd)) (by
    intro z; have := wrapGet_period (x.map Prod.snd) z; rw [List.length_map] at this; exact this)
  rw [← this]
  exact ofSeq_sum _ _

/-- The correction commutes with scaling, as the goodness-of-fit scores assume of it (`Homogeneous.wavelet`). -/
theorem C124_scaled (h g : List ℝ) (hh : h ≠ []) (hg : g ≠ []) (he : h.length % 2 = 0) (hge : g.length % 2 = 0) (level : ℕ) (c : ℝ)
    (x y : Rec ℝ) (hy : baselineWavelet h g level x = .ok y) :
    baselineWavelet h g level (Spec.scaled c x) = .ok (Spec.scaled c y) := by
  have hx : x ≠ [] := by
    intro e; rw [e] at hy; cases hy
  obtain ⟨y1, y2, b1, b2, b3, b4, b5⟩ := C124_linear h g hh hg he hge x x hx rfl level c 0
  have e1 : y1 = y := Except.ok.inj (b1.symm.trans hy)
  have e2 : y2 = y := Except.ok.inj (b2.symm.trans hy)
  rw [e1, e2] at b5
  have e : ∀ l : List (ℝ × ℝ), List.zipWith (fun p q => (p.1, c * p.2 + 0 * q.2)) l l = Spec.scaled c l := by
    intro l; unfold Spec.scaled
    rw [List.zipWith_self]
    apply List.map_congr_left
    intro p _; simp
  rw [e, e] at b5
  exact b5

theorem detSum_shift (h g : List ℝ) (t : ℤ) : ∀ (n j : ℕ) (P : List ℝ) (f : ℤ → ℝ) (z : ℤ),
    detSum h g n j P (fun z => f (z + t)) z = detSum h g n j P f (z + t)
  | 0, j, P, f, z => rfl
  | n + 1, j, P, f, z => by
    simp only [detSum]
    have e : ∀ (s : ℤ) (q : List ℝ) (f : ℤ → ℝ), act s q (fun z => f (z + t)) = fun z => act s q f (z + t) := by
      intro s q f; funext z; exact act_shift s t q f z
    rw [e, e, act_shift]
    congr 1
    rw [e]
    exact detSum_shift h g t n (j + 1) _ (fun z => act (2 ^ j) g f z / Real.sqrt 2) z

theorem wrap_rotate (v : List ℝ) (hv : v ≠ []) (k : ℕ) (z : ℤ) : wrapGet (v.rotate k) z = wrapGet v (z + k) := by
  have hpos := List.length_pos_of_ne_nil hv
  unfold wrapGet
  rw [List.length_rotate]
  have h0 : 0 ≤ z % (v.length : ℤ) := Int.emod_nonneg _ (by omega)
  have h1 : z % (v.length : ℤ) < v.length := Int.emod_lt_of_pos _ (by omega)
  have hi : (z % (v.length : ℤ)).toNat < v.length := by omega
  have k0 : 0 ≤ (z + k) % (v.length : ℤ) := Int.emod_nonneg _ (by omega)
  have k1 : (z + k) % (v.length : ℤ) < v.length := Int.emod_lt_of_pos _ (by omega)
  rw [List.getD_eq_getElem _ _ (by simpa using hi), List.getElem_rotate, List.getD_eq_getElem _ _ (by omega)]
  congr 1
  zify
  rw [Int.toNat_of_nonneg h0, Int.toNat_of_nonneg k0, Int.emod_add_emod]

/-- Starting the record at another sample and appending the samples before it, the correction is rotated in the same way: it
treats the record as periodic. -/
theorem C124_shift (h g : List ℝ) (hh : h ≠ []) (hg : g ≠ []) (he : h.length % 2 = 0) (hge : g.length % 2 = 0) (level : ℕ) (k : ℕ)
    (t v : List ℝ) (hl : t.length = v.length) (y : Rec ℝ) (hy : baselineWavelet h g level (t.zip v) = .ok y) :
    baselineWavelet h g level (t.zip (v.rotate k)) = .ok (t.zip ((y.map Prod.snd).rotate k)) := by
  have hx : t.zip v ≠ [] := by
    intro e; rw [e] at hy; cases hy
  have hv : v ≠ [] := by intro e; rw [e] at hx; simp at hx
  have ht : t ≠ [] := by intro e; rw [e] at hx; simp at hx
  rw [baseline_eq h g hh hg he hge _ hx] at hy
  rw [baseline_eq h g hh hg he hge _ (by
    intro e
    have h1 := congrArg List.length e
    rw [List.length_zip, List.length_rotate, hl, min_self] at h1
    exact hv (List.length_eq_zero_iff.1 h1))]
  rw [← Except.ok.inj hy]
  have l1 : (t.zip v).length = v.length := by simp [hl]
  have l2 : (t.zip (v.rotate k)).length = v.length := by simp [hl]
  have m1 : (t.zip v).map Prod.fst = t := List.map_fst_zip (by simp [hl])
  have m2 : (t.zip (v.rotate k)).map Prod.fst = t := List.map_fst_zip (by simp [hl])
  have m3 : (t.zip v).map Prod.snd = v := List.map_snd_zip (by simp [hl])
  have m4 : (t.zip (v.rotate k)).map Prod.snd = v.rotate k := List.map_snd_zip (by simp [hl])
  rw [m1, m2, m3, m4, l1, l2]
  have m5 : ∀ F : ℤ → ℝ, (t.zip (ofSeq v.length F)).map Prod.snd = ofSeq v.length F := by
    intro F; exact List.map_snd_zip (by simp [ofSeq, hl])
  rw [m5]
  congr 2
  have e : wrapGet (v.rotate k) = fun z => wrapGet v (z + k) := funext (wrap_rotate v hv k)
  rw [e]
  set F := detSum h g level 0 (convFull [1] (upArrow g 0)) (wrapGet v) with hF
  have hper : ∀ z, F (z + v.length) = F z := by
    intro z
    have := detSum_shift h g v.length level 0 (convFull [1] (upArrow g 0)) (wrapGet v) z
    rw [hF, ← this]
    congr 1
    funext w
    exact wrapGet_period v w
  apply List.ext_getElem
  · simp [ofSeq]
  · intro i h1 h2
    rw [List.getElem_rotate]
    simp only [ofSeq, List.getElem_map, List.getElem_range, List.length_map, List.length_range]
    rw [detSum_shift, ← hF]
    have hw := wrap_ofSeq v.length (List.length_pos_of_ne_nil hv) F hper
    have lo : (ofSeq v.length F).length = v.length := by simp [ofSeq]
    have := wrap_rotate (ofSeq v.length F) (by intro e; rw [e] at lo; have := List.length_pos_of_ne_nil hv; simp at lo; omega) k i
    rw [hw] at this
    rw [← this, wrapGet_nat _ i (by rw [List.length_rotate, lo]; simpa [ofSeq] using h1), List.getElem_rotate]
    simp [ofSeq]

/-- An odd filter length is refused at any level from 1 on; an empty signal always. -/
theorem C124_rejects (h g : List ℝ) (level : ℕ) (x : List (ℝ × ℝ)) :
    (h.length % 2 = 1 → x ≠ [] → 1 ≤ level → baselineWavelet h g level x = .error .valueError) ∧
    baselineWavelet h g level [] = .error .other := by
  constructor
  · intro hodd hx hl
    obtain ⟨n, rfl⟩ : ∃ n, level = n + 1 := ⟨level - 1, by omega⟩
    unfold baselineWavelet modwt
    rw [if_neg hx, modwtLoop, circD_odd _ _ (by simpa using hodd)]
    rfl
  · rfl

/-- The Haar filters satisfy the hypotheses. -/
example : Quadrature [-(1 / Real.sqrt 2), 1 / Real.sqrt 2] [1 / Real.sqrt 2, 1 / Real.sqrt 2] ∧
    [-(1 / Real.sqrt 2), 1 / Real.sqrt 2].sum = 0 := by
  have h2 : Real.sqrt 2 * Real.sqrt 2 = 2 := Real.mul_self_sqrt (by norm_num)
  have h3 : 1 / Real.sqrt 2 * (1 / Real.sqrt 2) = 1 / 2 := by rw [div_mul_div_comm, h2]; norm_num
  refine ⟨?_, by simp⟩
  intro k
  match k with
  | 0 =>
    simp only [autocorr, List.length_cons, List.length_nil, zero_add, Finset.sum_range_succ, Finset.sum_range_zero, Nat.reduceAdd,
      add_zero, List.getD_cons_zero, List.getD_cons_succ, neg_mul_neg, h3, if_true]
    norm_num
  | 1 =>
    simp [autocorr, Finset.sum_range_succ]
  | k + 2 =>
    simp [autocorr, Finset.sum_range_succ]

end Verif
