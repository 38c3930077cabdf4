import Verif.Model.Amplify
import Mathlib.Algebra.Field.GeomSum
import Mathlib.Analysis.SpecialFunctions.Complex.Log
import Mathlib.Data.List.GetD
import Mathlib.Algebra.BigOperators.Field

/-!
Inversion and symmetry of the discrete Fourier transform on lists.
-/

set_option linter.unusedSectionVars false
set_option linter.unusedVariables false

open Complex ComplexConjugate

namespace Verif

/-- Powers of the root of unity sum to zero. -/
theorem root_sum (n : Nat) (hn : 0 < n) (d : ℤ) :
    ∑ k ∈ Finset.range n, exp (2 * Real.pi * I * d * k / n) = if (n : ℤ) ∣ d then (n : ℂ) else 0 := by
  have hnc : (n : ℂ) ≠ 0 := by exact_mod_cast hn.ne'
  have hterm : ∀ k : Nat, exp (2 * Real.pi * I * d * k / n) = exp (2 * Real.pi * I * d / n) ^ k := by
    intro k; rw [← Complex.exp_nat_mul]; congr 1; ring
  simp only [hterm]
  split_ifs with h
  · obtain ⟨m, rfl⟩ := h
    have : exp (2 * Real.pi * I * ((n * m : ℤ) : ℂ) / n) = 1 := by
      rw [Complex.exp_eq_one_iff]
      refine ⟨m, ?_⟩
      push_cast; field_simp
    rw [this]; simp
  · have hz : exp (2 * Real.pi * I * d / n) ≠ 1 := by
      intro h1
      rw [Complex.exp_eq_one_iff] at h1
      obtain ⟨m, hm⟩ := h1
      apply h
      refine ⟨m, ?_⟩
      have hpi : (2 * Real.pi * I : ℂ) ≠ 0 := Complex.two_pi_I_ne_zero
      have : (d : ℂ) = (n : ℂ) * m := by
        field_simp at hm
        exact hm
      exact_mod_cast this
    have hpow : exp (2 * Real.pi * I * d / n) ^ n = 1 := by
      rw [← Complex.exp_nat_mul, Complex.exp_eq_one_iff]
      exact ⟨d, by field_simp⟩
    rw [geom_sum_eq hz, hpow]; simp

theorem fftL_length (a : List ℂ) : (fftL a).length = a.length := by simp [fftL]

theorem ifftL_length (a : List ℂ) : (ifftL a).length = a.length := by simp [ifftL]

theorem getD_map_range (n : Nat) (f : Nat → ℂ) (k : Nat) (h : k < n) :
    ((List.range n).map f).getD k 0 = f k := by
  simp [List.getD_eq_getElem?_getD, h]

theorem fftL_getD (a : List ℂ) (k : Nat) (h : k < a.length) :
    (fftL a).getD k 0 = ∑ j ∈ Finset.range a.length, a.getD j 0 * exp (-(2 * Real.pi * I * j * k / a.length)) :=
  getD_map_range _ _ _ h

theorem ifftL_getD (a : List ℂ) (k : Nat) (h : k < a.length) :
    (ifftL a).getD k 0
      = (∑ j ∈ Finset.range a.length, a.getD j 0 * exp (2 * Real.pi * I * j * k / a.length)) / a.length :=
  getD_map_range _ _ _ h

theorem list_ext_getD {a b : List ℂ} (hl : a.length = b.length) (h : ∀ k < a.length, a.getD k 0 = b.getD k 0) :
    a = b := by
  apply List.ext_getElem hl
  intro k h1 h2
  have := h k h1
  rwa [List.getD_eq_getElem _ _ h1, List.getD_eq_getElem _ _ h2] at this

theorem dvd_sub_iff_eq {n j k : Nat} (hj : j < n) (hk : k < n) : (n : ℤ) ∣ (k : ℤ) - j ↔ j = k := by
  constructor
  · intro ⟨m, hm⟩
    have h1 : (k : ℤ) - j < n := by omega
    have h2 : -(n : ℤ) < (k : ℤ) - j := by omega
    have : m = 0 := by
      by_contra hne
      rcases lt_or_gt_of_ne hne with h | h
      · have : (n : ℤ) * m ≤ n * (-1) := by
          apply mul_le_mul_of_nonneg_left <;> omega
        omega
      · have : (n : ℤ) * 1 ≤ n * m := by
          apply mul_le_mul_of_nonneg_left <;> omega
        omega
    rw [this] at hm; omega
  · rintro rfl; simp

theorem ifft_fft (a : List ℂ) : ifftL (fftL a) = a := by
  apply list_ext_getD (by rw [ifftL_length, fftL_length])
  intro k hk
  rw [ifftL_length, fftL_length] at hk
  have hn : 0 < a.length := by omega
  have hnc : (a.length : ℂ) ≠ 0 := by exact_mod_cast hn.ne'
  rw [ifftL_getD _ _ (by rwa [fftL_length]), fftL_length]
  have h1 : ∑ j ∈ Finset.range a.length, (fftL a).getD j 0 * exp (2 * Real.pi * I * j * k / a.length)
      = ∑ m ∈ Finset.range a.length, a.getD m 0 *
        ∑ j ∈ Finset.range a.length, exp (2 * Real.pi * I * ((k : ℤ) - (m : ℤ) : ℤ) * j / a.length) := by
    have : ∀ j ∈ Finset.range a.length, (fftL a).getD j 0 * exp (2 * Real.pi * I * j * k / a.length)
        = ∑ m ∈ Finset.range a.length, a.getD m 0 *
          exp (2 * Real.pi * I * ((k : ℤ) - (m : ℤ) : ℤ) * j / a.length) := by
      intro j hj
      rw [fftL_getD _ _ (Finset.mem_range.1 hj), Finset.sum_mul]
      apply Finset.sum_congr rfl
      intro m _
      rw [mul_assoc, ← Complex.exp_add]
      congr 2
      push_cast; ring
    rw [Finset.sum_congr rfl this, Finset.sum_comm]
    apply Finset.sum_congr rfl
    intro m _
    rw [Finset.mul_sum]
  rw [h1]
  have h2 : ∀ m ∈ Finset.range a.length, a.getD m 0 *
      ∑ j ∈ Finset.range a.length, exp (2 * Real.pi * I * ((k : ℤ) - (m : ℤ) : ℤ) * j / a.length)
      = if m = k then a.getD m 0 * a.length else 0 := by
    intro m hm
    rw [root_sum _ hn]
    by_cases hmk : m = k
    · rw [if_pos hmk, if_pos ((dvd_sub_iff_eq (Finset.mem_range.1 hm) hk).2 hmk)]
    · rw [if_neg hmk, if_neg (fun h => hmk ((dvd_sub_iff_eq (Finset.mem_range.1 hm) hk).1 h)), mul_zero]
  rw [Finset.sum_congr rfl h2, Finset.sum_ite_eq' (Finset.range a.length) k, if_pos (Finset.mem_range.2 hk)]
  field_simp

theorem fft_ifft (a : List ℂ) : fftL (ifftL a) = a := by
  apply list_ext_getD (by rw [fftL_length, ifftL_length])
  intro k hk
  rw [fftL_length, ifftL_length] at hk
  have hn : 0 < a.length := by omega
  have hnc : (a.length : ℂ) ≠ 0 := by exact_mod_cast hn.ne'
  rw [fftL_getD _ _ (by rwa [ifftL_length]), ifftL_length]
  have h1 : ∑ j ∈ Finset.range a.length, (ifftL a).getD j 0 * exp (-(2 * Real.pi * I * j * k / a.length))
      = ∑ m ∈ Finset.range a.length, a.getD m 0 / a.length *
        ∑ j ∈ Finset.range a.length, exp (2 * Real.pi * I * ((m : ℤ) - (k : ℤ) : ℤ) * j / a.length) := by
    have : ∀ j ∈ Finset.range a.length, (ifftL a).getD j 0 * exp (-(2 * Real.pi * I * j * k / a.length))
        = ∑ m ∈ Finset.range a.length, a.getD m 0 / a.length *
          exp (2 * Real.pi * I * ((m : ℤ) - (k : ℤ) : ℤ) * j / a.length) := by
      intro j hj
      rw [ifftL_getD _ _ (Finset.mem_range.1 hj), Finset.sum_div, Finset.sum_mul]
      apply Finset.sum_congr rfl
      intro m _
      rw [show a.getD m 0 * exp (2 * Real.pi * I * m * j / a.length) / a.length *
        exp (-(2 * Real.pi * I * j * k / a.length)) = a.getD m 0 / a.length *
        (exp (2 * Real.pi * I * m * j / a.length) * exp (-(2 * Real.pi * I * j * k / a.length))) by ring,
        ← Complex.exp_add]
      congr 2
      push_cast; ring
    rw [Finset.sum_congr rfl this, Finset.sum_comm]
    apply Finset.sum_congr rfl
    intro m _
    rw [Finset.mul_sum]
  rw [h1]
  have h2 : ∀ m ∈ Finset.range a.length, a.getD m 0 / a.length *
      ∑ j ∈ Finset.range a.length, exp (2 * Real.pi * I * ((m : ℤ) - (k : ℤ) : ℤ) * j / a.length)
      = if m = k then a.getD m 0 else 0 := by
    intro m hm
    rw [root_sum _ hn]
    by_cases hmk : m = k
    · rw [if_pos hmk, if_pos ((dvd_sub_iff_eq hk (Finset.mem_range.1 hm)).2 hmk.symm)]
      field_simp
    · rw [if_neg hmk, if_neg (fun h => hmk ((dvd_sub_iff_eq hk (Finset.mem_range.1 hm)).1 h).symm), mul_zero]
  rw [Finset.sum_congr rfl h2, Finset.sum_ite_eq' (Finset.range a.length) k, if_pos (Finset.mem_range.2 hk)]

/-- Conjugate symmetry of a two-sided spectrum. -/
def Spec.Hermitian (H : List ℂ) : Prop :=
  (∀ z, H[0]? = some z → z.im = 0) ∧
  ∀ (k : Nat) z, 0 < k → H[k]? = some z → H[H.length - k]? = some (conj z)

open Spec

theorem hermitian_getD {H : List ℂ} (h : Hermitian H) {k : Nat} (hk : k < H.length) (h0 : 0 < k) :
    H.getD (H.length - k) 0 = conj (H.getD k 0) := by
  have := h.2 k H[k] h0 (List.getElem?_eq_getElem hk)
  rw [List.getD_eq_getElem _ _ hk, List.getD_eq_getElem?_getD, this]; rfl

theorem exp_reflect (n j k : Nat) (hn : 0 < n) (hj : j ≤ n) (s : ℂ) (hs : s = 1 ∨ s = -1) :
    exp (s * (2 * Real.pi * I * ((n - j : Nat) : ℂ) * k / n)) = exp (-(s * (2 * Real.pi * I * j * k / n))) := by
  have hnc : (n : ℂ) ≠ 0 := by exact_mod_cast hn.ne'
  rw [Nat.cast_sub hj]
  rw [show s * (2 * Real.pi * I * ((n : ℂ) - j) * k / n) = s * ((k : ℂ) * (2 * Real.pi * I))
    + -(s * (2 * Real.pi * I * j * k / n)) by field_simp; ring, Complex.exp_add]
  have : exp (s * ((k : ℂ) * (2 * Real.pi * I))) = 1 := by
    rw [Complex.exp_eq_one_iff]
    rcases hs with rfl | rfl
    · exact ⟨k, by push_cast; ring⟩
    · exact ⟨-k, by push_cast; ring⟩
  rw [this, one_mul]

/-- The spectrum of a real signal is conjugate symmetric. -/
theorem fft_real_hermitian (a : List ℝ) : Hermitian (fftL (a.map fun x : ℝ => (x : ℂ))) := by
  set b : List ℂ := a.map fun x : ℝ => (x : ℂ) with hb
  have hbl : b.length = a.length := by simp [hb]
  have hreal : ∀ j, conj (b.getD j 0) = b.getD j 0 := by
    intro j
    rw [List.getD_eq_getElem?_getD, hb, List.getElem?_map]
    cases a[j]? <;> simp
  have hconj : ∀ k, k < b.length → conj ((fftL b).getD k 0)
      = ∑ j ∈ Finset.range b.length, b.getD j 0 * exp (2 * Real.pi * I * j * k / b.length) := by
    intro k hk
    rw [fftL_getD _ _ hk, map_sum]
    apply Finset.sum_congr rfl
    intro j _
    rw [map_mul, hreal, ← Complex.exp_conj]
    congr 2
    simp [Complex.conj_ofNat]
    ring
  constructor
  · intro z hz
    obtain ⟨hl, hz'⟩ := List.getElem?_eq_some_iff.1 hz
    have hk : 0 < b.length := by rwa [fftL_length] at hl
    have h1 := hconj 0 hk
    have h2 := fftL_getD b 0 hk
    rw [List.getD_eq_getElem _ _ hl, hz'] at h1 h2
    have : conj z = z := by rw [h1, h2]; simp
    exact Complex.conj_eq_iff_im.1 this
  · intro k z hk0 hz
    obtain ⟨hl, hz'⟩ := List.getElem?_eq_some_iff.1 hz
    have hk : k < b.length := by rwa [fftL_length] at hl
    have hkl : b.length - k < b.length := by omega
    have h1 := hconj k hk
    have h2 := fftL_getD b (b.length - k) hkl
    rw [List.getD_eq_getElem _ _ hl, hz'] at h1
    rw [fftL_length, List.getElem?_eq_getElem (by rwa [fftL_length])]
    rw [List.getD_eq_getElem _ _ (by rwa [fftL_length])] at h2
    congr 1
    rw [h2, h1]
    apply Finset.sum_congr rfl
    intro j _
    congr 1
    have := exp_reflect b.length k j (by omega) hk.le (-1) (Or.inr rfl)
    rw [show -(2 * Real.pi * I * (j : ℂ) * ((b.length - k : Nat) : ℂ) / b.length)
      = -1 * (2 * Real.pi * I * ((b.length - k : Nat) : ℂ) * j / b.length) by ring, this]
    congr 1; ring

/-- The inverse transform of a conjugate symmetric spectrum is real. -/
theorem ifft_hermitian_real {H : List ℂ} (h : Hermitian H) :
    ((ifftL H).map Complex.re).map (fun x : ℝ => (x : ℂ)) = ifftL H := by
  have key : ∀ k, k < H.length → conj ((ifftL H).getD k 0) = (ifftL H).getD k 0 := by
    intro k hk
    have hn : 0 < H.length := by omega
    rw [ifftL_getD _ _ hk, map_div₀, map_sum, Complex.conj_natCast]
    congr 1
    obtain ⟨m, hm⟩ : ∃ m, H.length = m + 1 := ⟨H.length - 1, by omega⟩
    have hterm : ∀ j, conj (H.getD j 0 * exp (2 * Real.pi * I * j * k / H.length))
        = conj (H.getD j 0) * exp (-(2 * Real.pi * I * j * k / H.length)) := by
      intro j
      rw [map_mul, ← Complex.exp_conj]; congr 2; simp [Complex.conj_ofNat]; ring
    simp only [hterm]
    have h0 : conj (H.getD 0 0) = H.getD 0 0 := by
      rw [List.getD_eq_getElem _ _ hn]
      exact Complex.conj_eq_iff_im.2 (h.1 _ (List.getElem?_eq_getElem hn))
    have hL : ∑ j ∈ Finset.range H.length, conj (H.getD j 0) * exp (-(2 * Real.pi * I * j * k / H.length))
        = (∑ j ∈ Finset.range m, conj (H.getD (j + 1) 0) *
            exp (-(2 * Real.pi * I * ((j + 1 : Nat) : ℂ) * k / H.length))) + H.getD 0 0 := by
      rw [hm, Finset.sum_range_succ', h0]
      simp
    have hR : ∑ j ∈ Finset.range H.length, H.getD j 0 * exp (2 * Real.pi * I * j * k / H.length)
        = (∑ j ∈ Finset.range m, H.getD (j + 1) 0 *
            exp (2 * Real.pi * I * ((j + 1 : Nat) : ℂ) * k / H.length)) + H.getD 0 0 := by
      rw [hm, Finset.sum_range_succ']
      simp
    rw [hL, hR, ← Finset.sum_range_reflect]
    congr 1
    apply Finset.sum_congr rfl
    intro j hj
    have hj := Finset.mem_range.1 hj
    have e1 : m - 1 - j + 1 = H.length - (j + 1) := by omega
    have e2 : H.length - (H.length - (j + 1)) = j + 1 := by omega
    have hh := hermitian_getD h (k := H.length - (j + 1)) (by omega) (by omega)
    rw [e2] at hh
    rw [e1, ← hh]
    congr 1
    have := exp_reflect H.length (j + 1) k hn (by omega) (-1) (Or.inr rfl)
    rw [show -(2 * Real.pi * I * ((H.length - (j + 1) : Nat) : ℂ) * k / H.length)
      = -1 * (2 * Real.pi * I * ((H.length - (j + 1) : Nat) : ℂ) * k / H.length) by ring, this]
    congr 1; ring
  apply list_ext_getD (by simp [ifftL_length])
  intro k hk
  have hk' : k < (ifftL H).length := by simpa using hk
  have := key k (by rwa [ifftL_length] at hk')
  rw [List.getD_eq_getElem _ _ hk, List.getD_eq_getElem _ _ hk']
  rw [List.getD_eq_getElem _ _ hk'] at this
  simp only [List.getElem_map]
  exact Complex.conj_eq_iff_re.1 this

end Verif
