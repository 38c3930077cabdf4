import Verif.Proof.FloatProfile
import Verif.Props.FloatDepth
import Verif.Props.ProfileGeometry

set_option linter.unusedSectionVars false
set_option linter.unusedVariables false

/-!
C181: VsZ in double precision.  C182: velocities at depths and basin depths in double precision.
-/

namespace Verif

open Spec

namespace Spec

/-- The depth of the top of layer `i` when the thicknesses are added one after the other in doubles. -/
def roundedTop {K : Type} [_root_.Field K] [LinearOrder K] [FloorRing K] (thk : List K) (i : ℕ) : K := (thk.take i).foldl fadd 0

end Spec

section
variable {K : Type} [Field K] [LinearOrder K] [IsStrictOrderedRing K] [FloorRing K]

theorem vz_quot {Z c T e : K} (hZ : 0 < Z) (hT : 0 < T) (he0 : 60 / 2 ^ 53 ≤ 2 * e) (he : e ≤ 1 / 4) (hc : |c - T| ≤ e * T)
    (hlow : (2 : K) ^ (-1000 : ℤ) ≤ Z / T) : c ≠ 0 ∧ |fdiv Z c - Z / T| ≤ Z / T * (2 * e) := by
  have he00 : 0 < e := by
    have : (0 : K) < 60 / 2 ^ 53 := by norm_num
    linarith
  obtain ⟨c1, c2⟩ := abs_le.1 hc
  have h34 : 3 / 4 * T ≤ c := by
    have : e * T ≤ 1 / 4 * T := by gcongr
    linarith
  have hc0 : 0 < c := lt_of_lt_of_le (by positivity) h34
  have hq : 0 < Z / T := by positivity
  have hq' : 0 < Z / c := by positivity
  have b1 : Z / c ≤ 4 / 3 * (Z / T) := by
    rw [div_le_iff₀ hc0]
    have h1 : Z / T * (3 / 4 * T) ≤ Z / T * c := by gcongr
    have h2 : Z / T * (3 / 4 * T) = 3 / 4 * Z := by field_simp
    linarith
  have b1' : 4 / 5 * (Z / T) ≤ Z / c := by
    rw [le_div_iff₀ hc0]
    have h0 : c ≤ 5 / 4 * T := by
      have : e * T ≤ 1 / 4 * T := by gcongr
      linarith
    have h1 : Z / T * c ≤ Z / T * (5 / 4 * T) := by gcongr
    have h2 : Z / T * (5 / 4 * T) = 5 / 4 * Z := by field_simp
    linarith
  have b2 : |Z / c - Z / T| ≤ 4 / 3 * e * (Z / T) := by
    have e1 : Z / c - Z / T = Z / c * ((T - c) / T) := by field_simp
    rw [e1, abs_mul, abs_of_pos hq', abs_div, abs_of_pos hT, abs_sub_comm T c]
    have h1 : |c - T| / T ≤ e := by rw [div_le_iff₀ hT]; exact hc
    have : Z / c * (|c - T| / T) ≤ 4 / 3 * (Z / T) * e := by gcongr
    linarith
  have b3 := fl_rel (x := Z / c) (by
    rw [abs_of_pos hq']
    have h1 : (2 : K) ^ (-1022 : ℤ) ≤ 4 / 5 * (2 : K) ^ (-1000 : ℤ) := by
      have : (2 : K) ^ (-1001 : ℤ) ≤ 4 / 5 * (2 : K) ^ (-1000 : ℤ) := by
        rw [show (-1000 : ℤ) = 1 + -1001 by norm_num, zpow_add₀ (by norm_num : (2 : K) ≠ 0), zpow_one]
        have : (0 : K) < (2 : K) ^ (-1001 : ℤ) := zpow_pos (by norm_num) _
        linarith
      exact le_trans (two_zpow_le (by norm_num)) this
    have h2 : 4 / 5 * (2 : K) ^ (-1000 : ℤ) ≤ 4 / 5 * (Z / T) := by gcongr
    linarith)
  rw [abs_of_pos hq'] at b3
  refine ⟨hc0.ne', ?_⟩
  have e2 : fdiv Z c - Z / T = -(Z / c - fl (Z / c)) + (Z / c - Z / T) := by unfold fdiv; ring
  rw [e2]
  have b4 := abs_add_le (-(Z / c - fl (Z / c))) (Z / c - Z / T)
  rw [abs_neg] at b4
  have b5 : Z / c / 2 ^ 53 ≤ 4 / 3 * (Z / T) / 2 ^ 53 := by gcongr
  have b6 : 4 / 3 * (Z / T) / 2 ^ 53 ≤ 2 / 3 * e * (Z / T) := by
    have h1 : (2 / 2 ^ 53 : K) ≤ e := by linarith [show (60 / 2 ^ 53 : K) = 30 * (2 / 2 ^ 53) by ring, show (0:K) < 2 / 2 ^ 53 by norm_num]
    have h2 : 4 / 3 * (Z / T) / 2 ^ 53 = 2 / 3 * (2 / 2 ^ 53) * (Z / T) := by ring
    rw [h2]; gcongr
  linarith

/-- C181, partial: in double precision, VsZ (with the last layer continuing downwards) is the depth divided by the travel time, up to
a relative error of 60·(layers + 1)·2^-53, times the largest velocity divided by the smallest, times the thickness of the profile
divided by `Z` (if that is more than 1).  Layers may have thickness 0.  Missing: that the computed number is the nearest double; it is
not (`C181_homogeneous_violated`). -/
theorem C181_accuracy_partial (p : List (K × K)) (Z vlo vhi : K) (hp : SaneLayers vlo vhi p) (hne : p ≠ []) (hZ : IsDouble Z)
    (hZ0 : (2 : K) ^ (-500 : ℤ) ≤ Z) (ε : K)
    (hε : ε = 60 * (p.length + 1) / 2 ^ 53 * (vhi / vlo) * (max (fsum (p.map Prod.fst)) Z / Z)) (hε1 : ε ≤ 1 / 2) :
    ∃ V, fVsZ p Z 1 = .ok V ∧ |V - Z / travelTime p Z| ≤ Z / travelTime p Z * ε := by
  obtain ⟨hlo, hhi, hthk, hvs⟩ := hp
  have p0 : (0 : K) < (2 : K) ^ (-400 : ℤ) := zpow_pos (by norm_num) _
  have p5 : (0 : K) < (2 : K) ^ (-500 : ℤ) := zpow_pos (by norm_num) _
  have hZp : 0 < Z := lt_of_lt_of_le p5 hZ0
  have hv0 : 0 < vlo := lt_of_lt_of_le p0 hlo
  obtain ⟨r0, hr0⟩ := List.exists_mem_of_ne_nil p hne
  have hlh : vlo ≤ vhi := le_trans (hvs r0 hr0).1 (hvs r0 hr0).2
  have hh : 0 < vhi := lt_of_lt_of_le hv0 hlh
  have hnn : ∀ r ∈ p, 0 ≤ r.1 := by
    intro r hr
    rcases (hthk r hr).2 with h | h
    exacts [h.ge, le_trans p5.le h]
  set W := max (fsum (p.map Prod.fst)) Z with hWdef
  have hW1 : fsum (p.map Prod.fst) ≤ W := le_max_left _ _
  have hZW : Z ≤ W := le_max_right _ _
  have hR1 : 1 ≤ vhi / vlo := by rw [le_div_iff₀ hv0]; linarith
  have hw1 : 1 ≤ W / Z := by rw [le_div_iff₀ hZp]; linarith
  have hlen : (0 : K) ≤ (p.length : K) := Nat.cast_nonneg _
  have hRw : 1 ≤ vhi / vlo * (W / Z) := by
    have : 1 * 1 ≤ vhi / vlo * (W / Z) := by gcongr
    linarith
  have hn1 : 60 * ((p.length : K) + 1) / 2 ^ 53 ≤ ε := by
    rw [hε, mul_assoc]
    have : 60 * ((p.length : K) + 1) / 2 ^ 53 * 1 ≤ 60 * ((p.length : K) + 1) / 2 ^ 53 * (vhi / vlo * (W / Z)) := by gcongr
    linarith
  have hB2 : (1 + 1 / 2 ^ 53) ^ 3 * vzRho ^ p.length ≤ (2 : K) := by
    apply vzRho_pow
    have h1 : 60 * ((p.length : K) + 1) / 2 ^ 53 ≤ 1 / 2 := le_trans hn1 hε1
    rw [div_le_iff₀ (by norm_num)] at h1
    linarith
  have acc := vz_acc hlo hhi hZ0 hZ hZW p hne 0 0 ((1 + 1 / 2 ^ 53) ^ 3) hthk hvs double_zero double_zero (le_refl _) hZp (le_refl _)
    hB2 (le_refl _) (by simp) hW1
  rw [zero_add] at acc
  have hT : ttRec Z 0 p = travelTime p Z := (travelTime_eq_ttRec p Z).symm
  rw [hT] at acc
  obtain ⟨t1, t2⟩ := ttRec_bounds Z 0 p hne hnn hZp.le vlo vhi hv0 hvs
  rw [hT, sub_zero] at t1 t2
  have hTp : 0 < travelTime p Z := lt_of_lt_of_le (by positivity) t1
  have hc : |fTravel Z 0 0 p hne - travelTime p Z| ≤ ε / 2 * travelTime p Z := by
    refine le_trans acc ?_
    have h1 : ε / 2 * (Z / vhi) ≤ ε / 2 * travelTime p Z := by
      have : 0 ≤ ε / 2 := by
        have : 0 ≤ 60 * ((p.length : K) + 1) / 2 ^ 53 := by positivity
        linarith
      gcongr
    have h2 : ε / 2 * (Z / vhi) = 30 * ((p.length : K) + 1) * (1 / 2 ^ 53 * W * (1 / vlo)) := by
      rw [hε]; field_simp; ring
    linarith
  have hlow : (2 : K) ^ (-1000 : ℤ) ≤ Z / travelTime p Z := by
    have h1 : vlo ≤ Z / travelTime p Z := by
      rw [le_div_iff₀ hTp]
      have := mul_le_mul_of_nonneg_left t2 hv0.le
      rwa [mul_div_cancel₀ _ hv0.ne'] at this
    exact le_trans (le_trans (two_zpow_le (by norm_num)) hlo) h1
  have he0 : (60 / 2 ^ 53 : K) ≤ 2 * (ε / 2) := by
    have : (60 / 2 ^ 53 : K) ≤ 60 * ((p.length : K) + 1) / 2 ^ 53 := by
      gcongr; linarith
    linarith
  obtain ⟨q1, q2⟩ := vz_quot hZp hTp he0 (by linarith) hc hlow
  refine ⟨fdiv Z (fTravel Z 0 0 p hne), ?_, ?_⟩
  · unfold fVsZ
    simp only [if_true]
    have hs : fsum (p.map Prod.fst) = (p.map Prod.fst).foldl fadd 0 := rfl
    unfold fTravel at q1 ⊢
    rw [← hs] at q1 ⊢
    by_cases hlt : fsum (p.map Prod.fst) < Z
    · rw [if_pos hlt] at q1 ⊢
      rw [if_pos hlt, List.getLast?_eq_some_getLast hne]
      simp only
      rw [if_neg q1]
    · rw [if_neg hlt] at q1 ⊢
      rw [if_neg hlt, if_neg q1]
  · rw [show 2 * (ε / 2) = ε by ring] at q2; exact q2

/-- C181, partial: up to the same relative error, VsZ lies between the smallest and the largest velocity.  Missing: exactly between them;
`C181_homogeneous_violated` is a profile for which it does not. -/
theorem C181_between_partial (p : List (K × K)) (Z vlo vhi : K) (hp : SaneLayers vlo vhi p) (hne : p ≠ []) (hZ : IsDouble Z)
    (hZ0 : (2 : K) ^ (-500 : ℤ) ≤ Z) (ε : K)
    (hε : ε = 60 * (p.length + 1) / 2 ^ 53 * (vhi / vlo) * (max (fsum (p.map Prod.fst)) Z / Z)) (hε1 : ε ≤ 1 / 2) :
    ∃ V, fVsZ p Z 1 = .ok V ∧ vlo * (1 - ε) ≤ V ∧ V ≤ vhi * (1 + ε) := by
  obtain ⟨V, h1, h2⟩ := C181_accuracy_partial p Z vlo vhi hp hne hZ hZ0 ε hε hε1
  refine ⟨V, h1, ?_⟩
  obtain ⟨hlo, hhi, hthk, hvs⟩ := hp
  have p0 : (0 : K) < (2 : K) ^ (-400 : ℤ) := zpow_pos (by norm_num) _
  have p5 : (0 : K) < (2 : K) ^ (-500 : ℤ) := zpow_pos (by norm_num) _
  have hZp : 0 < Z := lt_of_lt_of_le p5 hZ0
  have hv0 : 0 < vlo := lt_of_lt_of_le p0 hlo
  obtain ⟨r0, hr0⟩ := List.exists_mem_of_ne_nil p hne
  have hh : 0 < vhi := lt_of_lt_of_le hv0 (le_trans (hvs r0 hr0).1 (hvs r0 hr0).2)
  have hnn : ∀ r ∈ p, 0 ≤ r.1 := by
    intro r hr
    rcases (hthk r hr).2 with h | h
    exacts [h.ge, le_trans p5.le h]
  obtain ⟨t1, t2⟩ := ttRec_bounds Z 0 p hne hnn hZp.le vlo vhi hv0 hvs
  rw [← travelTime_eq_ttRec, sub_zero] at t1 t2
  have hTp : 0 < travelTime p Z := lt_of_lt_of_le (by positivity) t1
  have a1 : vlo ≤ Z / travelTime p Z := by
    rw [le_div_iff₀ hTp]
    have := mul_le_mul_of_nonneg_left t2 hv0.le
    rwa [mul_div_cancel₀ _ hv0.ne'] at this
  have a2 : Z / travelTime p Z ≤ vhi := by
    rw [div_le_iff₀ hTp]
    have := mul_le_mul_of_nonneg_left t1 hh.le
    rwa [mul_div_cancel₀ _ hh.ne'] at this
  have hεnn : 0 ≤ ε := by
    have := le_trans (abs_nonneg _) h2
    exact nonneg_of_mul_nonneg_right this (by positivity)
  obtain ⟨b1, b2⟩ := abs_le.1 h2
  constructor
  · have : vlo * (1 - ε) ≤ Z / travelTime p Z * (1 - ε) := mul_le_mul_of_nonneg_right a1 (by linarith)
    linarith
  · have : Z / travelTime p Z * (1 + ε) ≤ vhi * (1 + ε) := mul_le_mul_of_nonneg_right a2 (by linarith)
    linarith

/-- C181: for up to 1000 layers, velocities within a factor of 100 of each other and a profile at most 1000 times as thick as `Z`, the
relative error of VsZ is below 10^-6. -/
theorem C181_practical (p : List (K × K)) (Z vlo vhi : K) (hp : SaneLayers vlo vhi p) (hne : p ≠ []) (hZ : IsDouble Z)
    (hZ0 : (2 : K) ^ (-500 : ℤ) ≤ Z) (hn : p.length ≤ 1000) (hv : vhi ≤ 100 * vlo)
    (ht : fsum (p.map Prod.fst) ≤ 1000 * Z) :
    ∃ V, fVsZ p Z 1 = .ok V ∧ |V - Z / travelTime p Z| ≤ Z / travelTime p Z * (1 / 10 ^ 6) := by
  have p5 : (0 : K) < (2 : K) ^ (-500 : ℤ) := zpow_pos (by norm_num) _
  have hZp : 0 < Z := lt_of_lt_of_le p5 hZ0
  have hv0 : 0 < vlo := lt_of_lt_of_le (zpow_pos (by norm_num) _) hp.lo
  have hR : vhi / vlo ≤ 100 := by rw [div_le_iff₀ hv0]; exact hv
  obtain ⟨r0, hr0⟩ := List.exists_mem_of_ne_nil p hne
  have hh : 0 < vhi := lt_of_lt_of_le hv0 (le_trans (hp.vs r0 hr0).1 (hp.vs r0 hr0).2)
  have hw : max (fsum (p.map Prod.fst)) Z / Z ≤ 1000 := by
    rw [div_le_iff₀ hZp]; exact max_le ht (by linarith)
  have hw0 : 0 ≤ max (fsum (p.map Prod.fst)) Z / Z := div_nonneg (le_trans hZp.le (le_max_right _ _)) hZp.le
  have hn' : (p.length : K) ≤ 1000 := by exact_mod_cast hn
  have hbig : 60 * ((p.length : K) + 1) / 2 ^ 53 * (vhi / vlo) * (max (fsum (p.map Prod.fst)) Z / Z) ≤ 1 / 10 ^ 6 := by
    have h1 : 60 * ((p.length : K) + 1) / 2 ^ 53 ≤ 60 * (1000 + 1) / 2 ^ 53 := by gcongr
    have h2 : 60 * ((p.length : K) + 1) / 2 ^ 53 * (vhi / vlo) ≤ 60 * (1000 + 1) / 2 ^ 53 * 100 := by gcongr
    have h3 : 60 * ((p.length : K) + 1) / 2 ^ 53 * (vhi / vlo) * (max (fsum (p.map Prod.fst)) Z / Z)
        ≤ 60 * (1000 + 1) / 2 ^ 53 * 100 * 1000 := by gcongr
    refine le_trans h3 (by norm_num)
  obtain ⟨V, h1, h2⟩ := C181_accuracy_partial p Z vlo vhi hp hne hZ hZ0 _ rfl (le_trans hbig (by norm_num))
  refine ⟨V, h1, le_trans h2 ?_⟩
  have hnn : ∀ r ∈ p, 0 ≤ r.1 := by
    intro r hr
    rcases (hp.thk r hr).2 with h | h
    exacts [h.ge, le_trans p5.le h]
  have t1 := (ttRec_bounds Z 0 p hne hnn hZp.le vlo vhi hv0 hp.vs).1
  rw [← travelTime_eq_ttRec, sub_zero] at t1
  have hTp : 0 < travelTime p Z := lt_of_lt_of_le (by positivity) t1
  gcongr

/-- C181: if the computed thickness of the profile reaches `Z`, the two options give the same number; any other option is refused,
whatever the profile. -/
theorem C181_options (p : List (K × K)) (Z : K) : (Z ≤ fsum (p.map Prod.fst) → fVsZ p Z 2 = fVsZ p Z 1) ∧
    ∀ o : Int, o ≠ 1 → o ≠ 2 → fVsZ p Z o = .error .unboundLocal := by
  unfold fVsZ
  constructor
  · intro h
    simp only [if_true, if_neg (not_lt.2 h), min_eq_right h]
    rfl
  · intro o h1 h2
    simp only [if_neg h1, if_neg h2]

/-! ## C182 -/

theorem fold_rel : ∀ (l : List K) (d D : K) (a b : K), (∀ t ∈ l, IsDouble t ∧ 0 ≤ t) → IsDouble d → 0 ≤ D → 0 < a → a ≤ 1 → 1 ≤ b →
    a * D ≤ d → d ≤ b * D →
    a * (1 - 1 / 2 ^ 53) ^ l.length * (D + l.sum) ≤ l.foldl fadd d ∧ l.foldl fadd d ≤ b * (1 + 1 / 2 ^ 53) ^ l.length * (D + l.sum)
  | [], d, D, a, b, _, _, _, _, _, _, h1, h2 => by simpa using ⟨h1, h2⟩
  | t :: ts, d, D, a, b, hl, hd, hD, ha, ha1, hb, h1, h2 => by
    obtain ⟨htd, ht⟩ := hl t (List.mem_cons_self ..)
    have hd0 : 0 ≤ d := le_trans (by positivity) h1
    have hr := fl_rel_add hd htd
    rw [abs_of_nonneg (add_nonneg hd0 ht)] at hr
    obtain ⟨c1, c2⟩ := abs_le.1 hr
    have k1 : a * (D + t) ≤ d + t := by
      have : a * t ≤ 1 * t := by gcongr
      linarith
    have k2 : d + t ≤ b * (D + t) := by
      have : 1 * t ≤ b * t := by gcongr
      linarith
    have e1 : a * (1 - 1 / 2 ^ 53) * (D + t) ≤ fadd d t := by
      have : (1 - 1 / 2 ^ 53) * (a * (D + t)) ≤ (1 - 1 / 2 ^ 53) * (d + t) := mul_le_mul_of_nonneg_left k1 (by norm_num)
      unfold fadd
      linarith
    have e2 : fadd d t ≤ b * (1 + 1 / 2 ^ 53) * (D + t) := by
      have : (1 + 1 / 2 ^ 53) * (d + t) ≤ (1 + 1 / 2 ^ 53) * (b * (D + t)) := mul_le_mul_of_nonneg_left k2 (by norm_num)
      unfold fadd
      linarith
    have ih := fold_rel ts (fadd d t) (D + t) (a * (1 - 1 / 2 ^ 53)) (b * (1 + 1 / 2 ^ 53))
      (fun x hx => hl x (List.mem_cons_of_mem _ hx)) (fl_double _) (by linarith) (mul_pos ha (by norm_num))
      (by
        have : a * (1 - 1 / 2 ^ 53) ≤ 1 * 1 := mul_le_mul ha1 (by norm_num) (by norm_num) (by norm_num)
        linarith)
      (by
        have : 1 * 1 ≤ b * (1 + 1 / 2 ^ 53) := mul_le_mul hb (by norm_num) (by norm_num) (by linarith)
        linarith)
      e1 e2
    simp only [List.foldl_cons, List.sum_cons, List.length_cons, pow_succ]
    constructor
    · refine le_trans (le_of_eq ?_) ih.1; ring
    · refine le_trans ih.2 (le_of_eq ?_); ring

/-- C182: the depth of a layer computed in doubles differs from the sum of the thicknesses above it by a relative error of at most
2^-52 per layer. -/
theorem C182_depth_error (thk : List K) (hthk : ∀ t ∈ thk, IsDouble t ∧ 0 ≤ t) (i : ℕ) (hi : i ≤ thk.length) (hn : i ≤ 2 ^ 52) :
    |roundedTop thk i - topDepth thk i| ≤ topDepth thk i * (2 * i / 2 ^ 53) := by
  have h := fold_rel (thk.take i) 0 0 1 1 (fun t ht => hthk t (List.mem_of_mem_take ht)) double_zero (le_refl _) one_pos (le_refl _)
    (le_refl _) (by simp) (by simp)
  have hlen : (thk.take i).length = i := by rw [List.length_take]; omega
  rw [hlen, one_mul, one_mul, zero_add] at h
  have e : topDepth thk i = (thk.take i).sum := rfl
  have hT : 0 ≤ topDepth thk i := by
    rw [e]; exact List.sum_nonneg (fun t ht => (hthk t (List.mem_of_mem_take ht)).2)
  rw [← e] at h
  obtain ⟨h1, h2⟩ := h
  have hiK : (i : K) ≤ 2 ^ 52 := by exact_mod_cast hn
  have hi0 : (0 : K) ≤ i := Nat.cast_nonneg _
  have b1 : (1 : K) + i * (-(1 / 2 ^ 53)) ≤ (1 + -(1 / 2 ^ 53)) ^ i := one_add_mul_le_pow (by norm_num) i
  rw [← sub_eq_add_neg] at b1
  have hhalf : (i : K) * (1 / 2 ^ 53) ≤ 1 / 2 := by
    have : (i : K) * (1 / 2 ^ 53) ≤ 2 ^ 52 * (1 / 2 ^ 53) := by gcongr
    refine le_trans this (by norm_num)
  have b2 : ((1 + 1 / 2 ^ 53 : K)) ^ i ≤ 1 + 2 * i / 2 ^ 53 := by
    have h3 : (1 - 1 / 2 ^ 53 : K) ^ i * (1 + 1 / 2 ^ 53) ^ i ≤ 1 := by
      rw [← mul_pow]; exact pow_le_one₀ (by norm_num) (by norm_num)
    have h4 : (0 : K) ≤ (1 + 1 / 2 ^ 53) ^ i := by positivity
    have h5 : ((1 : K) - i * (1 / 2 ^ 53)) * (1 + 1 / 2 ^ 53) ^ i ≤ 1 := by
      refine le_trans (mul_le_mul_of_nonneg_right ?_ h4) h3
      linarith
    have h6 : (1 : K) ≤ (1 - i * (1 / 2 ^ 53)) * (1 + 2 * i / 2 ^ 53) := by
      have e : (1 - (i : K) * (1 / 2 ^ 53)) * (1 + 2 * i / 2 ^ 53) = 1 + (i * (1 / 2 ^ 53)) * (1 - 2 * (i * (1 / 2 ^ 53))) := by ring
      rw [e]
      have : 0 ≤ ((i : K) * (1 / 2 ^ 53)) * (1 - 2 * (i * (1 / 2 ^ 53))) := mul_nonneg (by positivity) (by linarith)
      linarith
    have h7 : (0 : K) < 1 - i * (1 / 2 ^ 53) := by linarith
    exact le_of_mul_le_mul_left (le_trans h5 h6) h7
  rw [abs_le]
  constructor
  · have : (1 - (i : K) * (1 / 2 ^ 53)) * topDepth thk i ≤ roundedTop thk i := by
      refine le_trans (mul_le_mul_of_nonneg_right ?_ hT) h1
      linarith
    have e2 : topDepth thk i * (2 * i / 2 ^ 53) = 2 * (i * (1 / 2 ^ 53) * topDepth thk i) := by ring
    have : 0 ≤ (i : K) * (1 / 2 ^ 53) * topDepth thk i := by positivity
    rw [e2]; linarith
  · have : roundedTop thk i ≤ (1 + 2 * i / 2 ^ 53) * topDepth thk i := le_trans h2 (mul_le_mul_of_nonneg_right b2 hT)
    linarith

theorem fzTop_get : ∀ (l : List K) (z : K) (i : ℕ), i < l.length → (fzTop z l)[i]? = some ((l.take i).foldl fadd z)
  | [], _, i, h => by simp at h
  | t :: ts, z, 0, _ => by simp [fzTop]
  | t :: ts, z, i + 1, h => by
    simp only [fzTop, List.getElem?_cons_succ, List.take_succ_cons, List.foldl_cons]
    exact fzTop_get ts _ i (by simpa using h)

theorem sorted_count (z : K) : ∀ (l : List K), l.Pairwise (· ≤ ·) → ∀ (j : ℕ) x, l[j]? = some x →
    (x ≤ z ↔ j < searchsortedRight l z)
  | [], _, j, x, h => by simp at h
  | a :: l, hs, j, x, h => by
    obtain ⟨h1, h2⟩ := List.pairwise_cons.1 hs
    unfold searchsortedRight
    by_cases ha : a ≤ z
    · rw [List.filter_cons_of_pos (by simpa using ha), List.length_cons]
      cases j with
      | zero =>
        simp only [List.getElem?_cons_zero, Option.some.injEq] at h
        subst h
        exact ⟨fun _ => Nat.succ_pos _, fun _ => ha⟩
      | succ j =>
        simp only [List.getElem?_cons_succ] at h
        rw [sorted_count z l h2 j x h]
        unfold searchsortedRight
        omega
    · have hnil : (a :: l).filter (fun x => decide (x ≤ z)) = [] := by
        rw [List.filter_eq_nil_iff]
        intro y hy
        rcases List.mem_cons.1 hy with rfl | hy
        · simpa using ha
        · have := h1 y hy
          have := lt_of_lt_of_le (not_le.1 ha) this
          simpa using this
      rw [hnil]
      have hax : a ≤ x := by
        rcases List.mem_cons.1 (List.mem_of_getElem? h) with rfl | hy
        · exact le_refl _
        · exact h1 x hy
      constructor
      · intro hx; exact absurd (le_trans hax hx) ha
      · intro hj; simp at hj

theorem fzTop_sorted : ∀ (l : List K) (z : K), (∀ t ∈ l, 0 ≤ t) → IsDouble z → (fzTop z l).Pairwise (· ≤ ·) ∧ ∀ x ∈ fzTop z l, z ≤ x
  | [], _, _, _ => by simp [fzTop]
  | t :: ts, z, h, hz => by
    have h1 : z ≤ fadd z t := le_fl_of (by linarith [h t (List.mem_cons_self ..)]) hz
    obtain ⟨a, b⟩ := fzTop_sorted ts (fadd z t) (fun x hx => h x (List.mem_cons_of_mem _ hx)) (fl_double _)
    refine ⟨?_, ?_⟩
    · simp only [fzTop]
      exact List.pairwise_cons.2 ⟨fun x hx => le_trans h1 (b x hx), a⟩
    · intro x hx
      simp only [fzTop] at hx
      rcases List.mem_cons.1 hx with rfl | hx
      · exact le_refl _
      · exact le_trans h1 (b x hx)

/-- C182: the velocity at a depth is that of the layer whose top, as computed in doubles, is the last one not below the depth. -/
theorem C182_query (p : List (K × K)) (z : K) (hne : p ≠ []) (hthk : ∀ r ∈ p, 0 ≤ r.1) (hz : 0 ≤ z) :
    ∃ i v, i < p.length ∧ (p.map Prod.snd)[i]? = some v ∧ fQueryVs p z = .ok v ∧ roundedTop (p.map Prod.fst) i ≤ z ∧
      ∀ j, i < j → j < p.length → z < roundedTop (p.map Prod.fst) j := by
  set thk := p.map Prod.fst with hthkdef
  have hnn : ∀ t ∈ thk, 0 ≤ t := by
    intro t ht
    obtain ⟨r, hr, rfl⟩ := List.mem_map.1 ht
    exact hthk r hr
  have hne' : thk ≠ [] := by simpa [hthkdef] using hne
  have hlen : thk.length = p.length := by simp [hthkdef]
  obtain ⟨hs, _⟩ := fzTop_sorted thk 0 hnn double_zero
  have hget := fun i (hi : i < thk.length) => fzTop_get thk 0 i hi
  have hcount := fun i (hi : i < thk.length) => sorted_count z _ hs i _ (hget i hi)
  have hpos : 0 < thk.length := List.length_pos_iff.2 hne'
  have hk1 : 0 < searchsortedRight (fzTop 0 thk) z := (hcount 0 hpos).1 (by simpa using hz)
  have hkn : searchsortedRight (fzTop 0 thk) z ≤ thk.length := by
    unfold searchsortedRight
    refine le_trans (List.length_filter_le _ _) ?_
    rw [fzTop_length]
  set k := searchsortedRight (fzTop 0 thk) z with hk
  have hi : k - 1 < (p.map Prod.snd).length := by rw [List.length_map, ← hlen]; omega
  refine ⟨k - 1, (p.map Prod.snd)[k - 1], by rw [← hlen]; omega, List.getElem?_eq_getElem hi, ?_, ?_, ?_⟩
  · unfold fQueryVs fthk2dep
    rw [if_neg (not_lt.2 hz), if_neg hne']
    simp only
    rw [← hthkdef, ← hk, List.getElem?_eq_getElem hi]
  · exact (hcount (k - 1) (by omega)).2 (by omega)
  · intro j hj hjn
    by_contra hc
    have := (hcount j (by omega)).1 (not_lt.1 hc)
    omega

/-- C182, partial: at a depth that is farther from every interface than the rounding errors (2^-52 of the depth of the interface per
layer), the velocity is that of the layer which contains the depth.  Missing: depths at an interface and next to it, for which the
neighbouring layer may be returned (`C182_interface_violated`). -/
theorem C182_query_partial (p : List (K × K)) (z : K) (hne : p ≠ []) (hthk : ∀ r ∈ p, IsDouble r.1 ∧ 0 ≤ r.1) (hz : 0 ≤ z)
    (hn : p.length ≤ 2 ^ 52)
    (hfar : ∀ j, 0 < j → j < p.length → topDepth (p.map Prod.fst) j * (2 * j / 2 ^ 53) < |z - topDepth (p.map Prod.fst) j|) :
    ∃ v, fQueryVs p z = .ok v ∧ HasAt p z v := by
  obtain ⟨i, v, hi, hv, hq, h1, h2⟩ := C182_query p z hne (fun r hr => (hthk r hr).2) hz
  refine ⟨v, hq, i, ⟨by simpa using hi, ?_, ?_⟩, hv⟩
  · rcases Nat.eq_zero_or_pos i with h0 | h0
    · subst h0; simpa [topDepth] using hz
    · by_contra hc
      have hc := not_le.1 hc
      have hf := hfar i h0 hi
      have he := C182_depth_error (p.map Prod.fst) (by
        intro t ht
        obtain ⟨r, hr, rfl⟩ := List.mem_map.1 ht
        exact hthk r hr) i (by simp; omega) (by omega)
      rw [abs_of_neg (by linarith)] at hf
      have := (abs_le.1 he).1
      linarith
  · intro hlt
    have hlt' : i + 1 < p.length := by simpa using hlt
    have h3 := h2 (i + 1) (by omega) hlt'
    by_contra hc
    have hc := not_lt.1 hc
    have hf := hfar (i + 1) (by omega) hlt'
    have he := C182_depth_error (p.map Prod.fst) (by
      intro t ht
      obtain ⟨r, hr, rfl⟩ := List.mem_map.1 ht
      exact hthk r hr) (i + 1) (by simp; omega) (by omega)
    rw [abs_of_nonneg (by linarith)] at hf
    have := (abs_le.1 he).2
    linarith

theorem basinLoop_shape (bed T : K) (dep : ℕ → K) : ∀ (l : List (K × K)) (k : ℕ), (∀ i (h : i < l.length), l[i].1 = dep (k + i)) →
    (∃ i, ∃ h : i < l.length, bed ≤ l[i].2 ∧ (∀ j (hj : j < i), l[j].2 < bed) ∧ basinLoop bed T l = dep (k + i)) ∨
    ((∀ r ∈ l, r.2 < bed) ∧ basinLoop bed T l = T)
  | [], k, _ => Or.inr ⟨by simp, rfl⟩
  | (z, v) :: l, k, h => by
    by_cases hv : bed ≤ v
    · left
      refine ⟨0, by simp, by simpa using hv, by simp, ?_⟩
      simp only [basinLoop, if_pos hv]
      exact h 0 (by simp)
    · rcases basinLoop_shape bed T dep l (k + 1) (fun i hi => by
        have := h (i + 1) (by simpa using hi)
        simp only [List.getElem_cons_succ] at this
        rw [this]; congr 1; omega) with ⟨i, hi, h1, h2, h3⟩ | ⟨h1, h2⟩
      · left
        refine ⟨i + 1, by simpa using hi, by simpa using h1, ?_, ?_⟩
        · intro j hj
          cases j with
          | zero => simpa using not_le.1 hv
          | succ j => simpa using h2 j (by omega)
        · simp only [basinLoop, if_neg hv]
          rw [h3]; congr 1; omega
      · right
        refine ⟨?_, by simp only [basinLoop, if_neg hv]; exact h2⟩
        intro r hr
        rcases List.mem_cons.1 hr with rfl | hr
        · exact not_le.1 hv
        · exact h1 r hr

/-- C182: the basin depth computed in doubles is the depth of the first layer whose velocity reaches that of the bedrock — the layer is
found without rounding — up to a relative error of 2^-52 per layer; if no layer reaches it, the thickness of the profile up to such an
error. -/
theorem C182_basin (p : List (K × K)) (bed : K) (hne : p ≠ []) (hthk : ∀ r ∈ p, IsDouble r.1 ∧ 0 ≤ r.1) (hn : p.length ≤ 2 ^ 52) :
    ∃ b, fBasinDepth p bed = .ok b ∧
      ((∃ i, ∃ h : i < p.length, bed ≤ p[i].2 ∧ (∀ j (hj : j < i), p[j].2 < bed) ∧
        |b - topDepth (p.map Prod.fst) i| ≤ topDepth (p.map Prod.fst) i * (2 * i / 2 ^ 53)) ∨
      ((∀ r ∈ p, r.2 < bed) ∧ |b - (p.map Prod.fst).sum| ≤ (p.map Prod.fst).sum * (2 * p.length / 2 ^ 53))) := by
  have hne' : p.map Prod.fst ≠ [] := by simpa using hne
  have hd : ∀ t ∈ p.map Prod.fst, IsDouble t ∧ 0 ≤ t := by
    intro t ht
    obtain ⟨r, hr, rfl⟩ := List.mem_map.1 ht
    exact hthk r hr
  refine ⟨_, by unfold fBasinDepth fthk2dep; rw [if_neg hne'], ?_⟩
  have hl : ((fzTop 0 (p.map Prod.fst)).zip (p.map Prod.snd)).length = p.length := by
    simp [fzTop_length]
  have hget1 : ∀ i (h : i < ((fzTop 0 (p.map Prod.fst)).zip (p.map Prod.snd)).length),
      ((fzTop 0 (p.map Prod.fst)).zip (p.map Prod.snd))[i].1 = roundedTop (p.map Prod.fst) (0 + i) := by
    intro i h
    rw [List.getElem_zip]
    have := fzTop_get (p.map Prod.fst) 0 i (by simpa [hl] using h)
    rw [zero_add]
    exact Option.some.inj ((List.getElem?_eq_getElem (by rw [fzTop_length]; simpa [hl] using h)).symm.trans this)
  have hget2 : ∀ i (h : i < ((fzTop 0 (p.map Prod.fst)).zip (p.map Prod.snd)).length),
      ((fzTop 0 (p.map Prod.fst)).zip (p.map Prod.snd))[i].2 = (p[i]'(by rw [← hl]; exact h)).2 := by
    intro i h
    rw [List.getElem_zip]; simp
  rcases basinLoop_shape bed (fsum (p.map Prod.fst)) (roundedTop (p.map Prod.fst)) _ 0 hget1 with ⟨i, hi, h1, h2, h3⟩ | ⟨h1, h2⟩
  · left
    have hip : i < p.length := by rw [← hl]; exact hi
    refine ⟨i, hip, by rw [hget2] at h1; exact h1, ?_, ?_⟩
    · intro j hj
      have := h2 j hj
      rw [hget2] at this; exact this
    · rw [h3, zero_add]
      exact C182_depth_error _ hd i (by simp; omega) (by omega)
  · right
    constructor
    · intro r hr
      obtain ⟨i, hi, rfl⟩ := List.mem_iff_getElem.1 hr
      have := h1 _ (List.getElem_mem (h := (by rw [hl]; exact hi : i < ((fzTop 0 (p.map Prod.fst)).zip (p.map Prod.snd)).length)))
      rw [hget2] at this; exact this
    · rw [h2]
      have := C182_depth_error _ hd p.length (by simp) hn
      have e1 : roundedTop (p.map Prod.fst) p.length = fsum (p.map Prod.fst) := by
        unfold roundedTop fsum
        rw [List.take_of_length_le (by simp)]
      have e2 : topDepth (p.map Prod.fst) p.length = (p.map Prod.fst).sum := by
        unfold topDepth
        rw [List.take_of_length_le (by simp)]
      rw [e1, e2] at this
      exact this

end

/-- C181, violated: VsZ of a homogeneous soil is not its velocity.  30 m of soil of 180 m/s (the boundary between the site classes
D and E) have a Vs30 below 180 m/s, 30 m of soil of 360 m/s (between C and D) a Vs30 below 360 m/s. -/
theorem C181_homogeneous_violated :
    (∃ V : ℚ, fVsZ [(30, 180)] 30 1 = .ok V ∧ V < 180) ∧ (∃ V : ℚ, fVsZ [(30, 360)] 30 1 = .ok V ∧ V < 360) ∧
    (∃ V : ℚ, fVsZ [(30, 107)] 30 1 = .ok V ∧ 107 < V) := by
  refine ⟨⟨6333186975989759 / 35184372088832, ?_, by norm_num⟩, ⟨6333186975989759 / 17592186044416, ?_, by norm_num⟩,
    ⟨7529455627010049 / 70368744177664, ?_, by norm_num⟩⟩ <;> decide +kernel

/-- C182, violated: layers of 0.1 m and 0.2 m over a third one: at 0.3 m, where the third layer begins, the velocity of the second one is
returned, since the sum of 0.1 and 0.2 is the double above 0.3. -/
theorem C182_interface_violated :
    fQueryVs [(fl (1 / 10), 100), (fl (2 / 10), 200), (fl (3 / 10), 400)] (fl (3 / 10)) = .ok (200 : ℚ) := by decide +kernel

/-- The VsZ of three layers, 12 m thick, down to 10 m. -/
example : fVsZ [(4, 128), (4, 256), (4, 512)] 10 1 = .ok (6928614811339225 / 35184372088832 : ℚ) := by decide +kernel

example : fBasinDepth [(4, 128), (4, 256), (4, 1024)] 1000 = .ok (8 : ℚ) := by decide +kernel

end Verif
