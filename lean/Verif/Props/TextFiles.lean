import Verif.Model.TextFiles
import Verif.Proof.NumFormat
import Verif.Proof.VsProfile
import Verif.Props.MotionMethods
import Verif.Props.Figures

/-!
C162-C164: the numbers in text files.
-/

set_option linter.unusedSectionVars false
set_option linter.unusedVariables false

namespace Verif

namespace Spec

/-- A decimal number of at most `p` digits. -/
def IsDecimal {K : Type} [_root_.Field K] (p : Nat) (x : K) : Prop := ∃ n k : ℤ, |n| < 10 ^ p ∧ x = n * (10 : K) ^ k

/-- `y` is a decimal number of at most `p` digits and none is nearer to `x`. -/
def NearestDecimal {K : Type} [_root_.Field K] [LinearOrder K] (p : Nat) (x y : K) : Prop :=
  IsDecimal p y ∧ ∀ z, IsDecimal p z → |x - y| ≤ |x - z|

end Spec

open Spec (IsDecimal NearestDecimal IsDouble Valid5 times vals)

variable {K : Type} [Field K] [LinearOrder K] [IsStrictOrderedRing K] [FloorRing K]

/-! ## C162 -/

theorem map_fix_iff {α : Type} (f : α → α) (l : List α) : l.map f = l ↔ ∀ x ∈ l, f x = x := by
  induction l with
  | nil => simp
  | cons a l ih => simp [ih]

theorem fmtG_near (p : Nat) (hp : 0 < p) (x z : K) (hz : IsDecimal p z) : |x - fmtG p x| ≤ |x - z| := by
  by_cases hx : x = 0
  · rw [hx, fmtG_zero, sub_self, abs_zero]; exact abs_nonneg _
  have hxp : 0 < |x| := abs_pos.2 hx
  obtain ⟨hlo, hhi⟩ := log10_bounds hxp
  have hu := unitG_pos p x
  have mult : ∀ n : ℤ, |x - fmtG p x| ≤ |x - n * unitG p x| := by
    intro n
    have h := mul_le_mul_of_nonneg_right (rhe_nearest (x / unitG p x) n) hu.le
    have e : ∀ m : ℤ, |x - m * unitG p x| = |x / unitG p x - (m : K)| * unitG p x := by
      intro m
      rw [← abs_of_pos hu, ← abs_mul, abs_of_pos hu, sub_mul, div_mul_cancel₀ _ hu.ne']
    rw [fmtG_eq p hx]
    unfold roundTo
    rw [e, e]
    exact h
  obtain ⟨q, rfl⟩ : ∃ q, p = q + 1 := ⟨p - 1, by omega⟩
  have hdec : (10 : K) ^ Int.log 10 |x| = ((10 ^ q : ℤ) : K) * unitG (q + 1) x := by
    unfold unitG
    push_cast
    rw [← zpow_natCast, ← zpow_add₀ (by norm_num)]
    congr 1
    push_cast
    ring
  by_cases hzl : (10 : K) ^ Int.log 10 |x| ≤ |z|
  · obtain ⟨n, k, hn, rfl⟩ := hz
    have hk := ten_zpow_pos (K := K) k
    have hlt : |(n : K) * 10 ^ k| < 10 ^ (((q + 1 : Nat) : ℤ) + k) := by
      rw [abs_mul, abs_of_pos hk, zpow_add₀ (by norm_num), zpow_natCast]
      apply mul_lt_mul_of_pos_right _ hk
      have : ((|n| : ℤ) : K) < ((10 ^ (q + 1) : ℤ) : K) := by exact_mod_cast hn
      push_cast at this
      exact this
    have hek : Int.log 10 |x| < ((q + 1 : Nat) : ℤ) + k := by
      by_contra hc
      push Not at hc
      have := zpow_le_zpow_right₀ (show (1 : K) ≤ 10 by norm_num) hc
      linarith
    obtain ⟨j, hj⟩ : ∃ j : Nat, k = (Int.log 10 |x| - ((q + 1 : Nat) : ℤ) + 1) + j :=
      ⟨(k - (Int.log 10 |x| - ((q + 1 : Nat) : ℤ) + 1)).toNat, by omega⟩
    have hm : (n : K) * 10 ^ k = ((n * 10 ^ j : ℤ) : K) * unitG (q + 1) x := by
      unfold unitG
      rw [hj, zpow_add₀ (by norm_num), zpow_natCast]
      push_cast
      ring
    rw [hm]
    exact mult _
  · push Not at hzl
    have h1 : |x| - |z| ≤ |x - z| := abs_sub_abs_le_abs_sub x z
    rcases lt_or_gt_of_ne hx with hneg | hpos
    · have h2 := mult (-(10 ^ q))
      have e : |x - ((-(10 ^ q) : ℤ) : K) * unitG (q + 1) x| = |x| - 10 ^ Int.log 10 |x| := by
        rw [hdec]
        push_cast at hdec ⊢
        rw [neg_mul, sub_neg_eq_add, ← hdec, abs_of_nonpos (by rw [abs_of_neg hneg] at hlo ⊢; linarith), abs_of_neg hneg]
        ring
      rw [e] at h2
      linarith
    · have h2 := mult (10 ^ q)
      have e : |x - ((10 ^ q : ℤ) : K) * unitG (q + 1) x| = |x| - 10 ^ Int.log 10 |x| := by
        rw [← hdec, abs_of_nonneg (by rw [abs_of_pos hpos] at hlo ⊢; linarith), abs_of_pos hpos]
      rw [e] at h2
      linarith

/-- Every table written with `'%.pg'` has the shape of the given one; each number is the nearest decimal number of `p` digits,
differs from the given one by at most 5·10^-p of it, has its sign, and is zero only if it is. -/
theorem C162_written (p : Nat) (hp : 0 < p) (t : List (List K)) :
    List.Forall₂ (List.Forall₂ fun x y => NearestDecimal p x y ∧ |y - x| ≤ 5 / 10 ^ p * |x| ∧ (0 < x ↔ 0 < y) ∧ (x = 0 ↔ y = 0))
      t (writeTable p t) := by
  unfold writeTable
  rw [List.forall₂_map_right_iff]
  apply List.forall₂_same.2
  intro r _
  rw [List.forall₂_map_right_iff]
  apply List.forall₂_same.2
  intro x _
  refine ⟨⟨fmtG_digits p hp x, fun z hz => fmtG_near p hp x z hz⟩, ?_, ?_, (fmtG_eq_zero p hp x).symm⟩
  · have := fmtG_err p x
    calc |fmtG p x - x| ≤ |x| * 5 / 10 ^ p := this
      _ = 5 / 10 ^ p * |x| := by ring
  · constructor
    · exact fmtG_pos p hp
    · intro h
      by_contra hc
      push Not at hc
      have := fmtG_mono p hp hc
      rw [fmtG_zero] at this
      linarith

/-- The order of the numbers is kept. -/
theorem C162_order (p : Nat) (hp : 0 < p) (x y : K) (h : x ≤ y) : fmtG p x ≤ fmtG p y := fmtG_mono p hp h

/-- The numbers that come back unchanged are exactly those of at most `p` digits; in particular a file that is read and written
again is the same file. -/
theorem C162_exact (p : Nat) (hp : 0 < p) (t : List (List K)) :
    (writeTable p t = t ↔ ∀ r ∈ t, ∀ x ∈ r, IsDecimal p x) ∧ writeTable p (writeTable p t) = writeTable p t := by
  have one : ∀ x : K, fmtG p x = x ↔ IsDecimal p x := by
    intro x
    constructor
    · intro h
      have := fmtG_digits p hp x
      rwa [h] at this
    · rintro ⟨n, k, h, rfl⟩
      exact fmtG_exact p n k h
  have row : ∀ r : List K, r.map (fmtG p) = r ↔ ∀ x ∈ r, IsDecimal p x := by
    intro r
    rw [map_fix_iff]
    exact ⟨fun h x hx => (one x).1 (h x hx), fun h x hx => (one x).2 (h x hx)⟩
  have tab : ∀ t : List (List K), writeTable p t = t ↔ ∀ r ∈ t, ∀ x ∈ r, IsDecimal p x := by
    intro t
    unfold writeTable
    rw [map_fix_iff]
    exact ⟨fun h r hr => (row r).1 (h r hr), fun h r hr => (row r).2 (h r hr)⟩
  refine ⟨tab t, (tab _).2 ?_⟩
  intro r hr x hx
  obtain ⟨r', _, rfl⟩ := List.mem_map.1 hr
  obtain ⟨x', _, rfl⟩ := List.mem_map.1 hx
  exact fmtG_digits p hp x'

/-- A number that has more digits than are written does not come back: the table read differs from the one saved.  (The files of
calibrated parameters and of simulation results have six digits, those of `save_txt` five.) -/
theorem C162_digits_lost_violated (p : Nat) (hp : 0 < p) (t : List (List K)) (r : List K) (hr : r ∈ t) (x : K) (hx : x ∈ r)
    (hd : ¬ IsDecimal p x) : writeTable p t ≠ t :=
  fun h => hd ((C162_exact p hp t).1.1 h r hr x hx)

/-- Two different doubles differ by at least 2^-53 of either. -/
theorem double_gap {x z : K} (hx : IsDouble x) (hz : IsDouble z) (hne : z ≠ x) : |x| / 2 ^ 53 ≤ |z - x| := by
  by_cases hx0 : x = 0
  · rw [hx0, abs_zero, zero_div]; exact abs_nonneg _
  by_cases hb : |z| < (2 : K) ^ (Int.log 2 |x|) → Int.log 2 |x| ≤ -1022
  · -- both are multiples of the ulp of `x`
    obtain ⟨n, hn⟩ := double_mult (x := x) hz hb
    obtain ⟨m, hm⟩ := double_mult (x := x) hx (fun h => absurd (log2_le hx0) (not_le.2 h))
    have hu := ulp_pos x
    have h1 : ulp x ≤ |z - x| := by
      have e : z - x = ((n - m : ℤ) : K) * ulp x := by rw [hn]; nth_rewrite 2 [hm]; push_cast; ring
      rw [e, abs_mul, abs_of_pos hu]
      have h0 : n - m ≠ 0 := by
        intro h
        apply hne
        have : n = m := by omega
        rw [hn, this, ← hm]
      have : (1 : ℤ) ≤ |n - m| := Int.one_le_abs h0
      have : (1 : K) ≤ |((n - m : ℤ) : K)| := by exact_mod_cast this
      nlinarith
    have h2 : |x| / 2 ^ 53 ≤ ulp x := by
      have := (lt_log2 x).le
      have h3 : (2 : K) ^ (Int.log 2 |x| + 1) ≤ ulp x * 2 ^ 53 := by
        unfold ulp ulpExp
        rw [← zpow_natCast (2 : K) 53, ← zpow_add₀ (by norm_num : (2 : K) ≠ 0)]
        apply two_zpow_le
        push_cast
        omega
      rw [div_le_iff₀ (by positivity)]
      linarith
    linarith
  · -- `z` is below the binade of `x`
    push Not at hb
    obtain ⟨hzl, hxl⟩ := hb
    -- both `z` and the power of two are multiples of half an ulp of x
    obtain ⟨m, e, hm, he, rfl⟩ := hz
    have hlow := log2_le hx0
    set L := Int.log 2 |x| with hL
    have hz2 : ∃ n : ℤ, (m : K) * 2 ^ e = n * (2 : K) ^ (L - 53) ∨ |(m : K) * 2 ^ e| ≤ (2 : K) ^ (L - 1) := by
      by_cases hcmp : L - 53 ≤ e
      · obtain ⟨n, hn⟩ := mult_of_exp (K := K) hcmp m
        exact ⟨n, Or.inl hn⟩
      · refine ⟨0, Or.inr ?_⟩
        have := (abs_mant (K := K) (e := e) hm).le
        exact this.trans (two_zpow_le (by omega))
    have hup : |x| / 2 ^ 53 ≤ |(m : K) * 2 ^ e - x| := by
      have htri : |x| - |(m : K) * 2 ^ e| ≤ |(m : K) * 2 ^ e - x| := by
        rw [abs_sub_comm]; exact abs_sub_abs_le_abs_sub _ _
      have hxge : (2 : K) ^ L - 2 ^ (L - 53) ≥ |(m : K) * 2 ^ e| := by
        obtain ⟨n, hn | hn⟩ := hz2
        · rw [hn] at hzl ⊢
          have hp : (0 : K) < 2 ^ (L - 53) := zpow_pos (by norm_num) _
          rw [abs_mul, abs_of_pos hp] at hzl ⊢
          have e1 : (2 : K) ^ L = ((2 ^ 53 : ℤ) : K) * 2 ^ (L - 53) := by
            rw [Int.cast_pow, Int.cast_ofNat, ← zpow_natCast (2 : K) 53, ← zpow_add₀ (by norm_num : (2 : K) ≠ 0)]
            congr 1
            push_cast
            ring
          rw [e1] at hzl ⊢
          have h1 : |(n : K)| < ((2 ^ 53 : ℤ) : K) := lt_of_mul_lt_mul_right hzl hp.le
          have h2 : |n| + 1 ≤ 2 ^ 53 := by
            have : ((|n| : ℤ) : K) < ((2 ^ 53 : ℤ) : K) := by rw [Int.cast_abs]; exact h1
            have := Int.cast_lt.1 this
            omega
          have h3 : |(n : K)| + 1 ≤ ((2 ^ 53 : ℤ) : K) := by
            rw [← Int.cast_abs]
            exact_mod_cast h2
          nlinarith
        · have h1 : (2 : K) ^ (L - 1) + 2 ^ (L - 1) = 2 ^ L := by
            rw [← two_mul, ← zpow_one_add₀ (by norm_num : (2 : K) ≠ 0)]
            congr 1
            ring
          have h2 : (2 : K) ^ (L - 53) ≤ 2 ^ (L - 1) := two_zpow_le (by omega)
          linarith
      -- |x| - |z| ≥ |x| - 2^L + 2^(L-53) ≥ |x| 2^-53
      have e2 : (2 : K) ^ (L - 53) = 2 ^ L / 2 ^ 53 := by
        rw [zpow_sub₀ (by norm_num : (2 : K) ≠ 0)]
        congr 1
        norm_num
      rw [e2] at hxge
      have h53 : (0 : K) < 2 ^ 53 := by positivity
      have : |x| / 2 ^ 53 - 2 ^ L / 2 ^ 53 ≤ |x| - 2 ^ L := by
        rw [← sub_div]
        apply div_le_self (by linarith)
        exact one_le_pow₀ (by norm_num)
      linarith
    exact hup

/-- The files handed to the compiled nonlinear simulation (`tabk.dat`, `profile.dat`, `incident.dat`, `curve.dat`, `HH_G.dat`,
`HH_x.dat`) are written with numpy's default format of 19 digits: whoever reads the numbers as doubles gets exactly the doubles
that were written.  The same holds from 17 digits on. -/
theorem C162_default_format (p : Nat) (hp : 17 ≤ p) (t : List (List K)) (hd : ∀ r ∈ t, ∀ x ∈ r, IsDouble x) :
    (writeTable p t).map (fun r => r.map fl) = t := by
  have one : ∀ x : K, IsDouble x → fl (fmtG p x) = x := by
    intro x hx
    by_contra hne
    have h1 := fmtG_err p x
    have h2 := fl_near (x := fmtG p x) hx
    have h3 := double_gap hx (fl_double (fmtG p x)) hne
    by_cases h0 : x = 0
    · rw [h0, fmtG_zero, fl_zero] at hne
      exact hne rfl
    have hxp : 0 < |x| := abs_pos.2 h0
    have h4 : |fl (fmtG p x) - x| ≤ |fmtG p x - fl (fmtG p x)| + |fmtG p x - x| := by
      have := abs_add_le (fl (fmtG p x) - fmtG p x) (fmtG p x - x)
      rw [sub_add_sub_cancel] at this
      rwa [abs_sub_comm (fl (fmtG p x)) (fmtG p x)] at this
    have h5 : (10 : K) ^ 17 ≤ 10 ^ p := pow_le_pow_right₀ (by norm_num) hp
    have h6 : |x| * 5 / 10 ^ p ≤ |x| * 5 / 10 ^ 17 := div_le_div_of_nonneg_left (by positivity) (by positivity) h5
    have h7 : |x| / 2 ^ 53 ≤ 2 * (|x| * 5 / 10 ^ 17) := by linarith
    have h8 : 2 * (|x| * 5 / 10 ^ 17) < |x| / 2 ^ 53 := by
      rw [div_eq_mul_inv, div_eq_mul_inv]
      have : (2 : K) * (5 * (10 ^ 17)⁻¹) < (2 ^ 53)⁻¹ := by norm_num
      nlinarith
    linarith
  unfold writeTable
  rw [List.map_map]
  conv_rhs => rw [← List.map_id t]
  apply List.map_congr_left
  intro r hr
  simp only [Function.comp_apply, List.map_map, id_eq]
  conv_rhs => rw [← List.map_id r]
  apply List.map_congr_left
  intro x hx
  exact one x (hd r hr x hx)

/-- The re-discretised profile in the folder of results is again a profile that is accepted on reading, if there are fewer
than a million materials. -/
theorem C162_profile (rows : List (Row K)) (hv : Valid5 rows) (hm : ∀ r ∈ rows, r.mat < 10 ^ 6) :
    checkVsFormat (.five (rows.map (writeRowG 6))) = .ok () := by
  rw [checkVsFormat_five_ok]
  have hmat : ∀ r ∈ rows, fmtG 6 r.mat = r.mat := by
    intro r hr
    obtain ⟨n, hn⟩ := hv.mat_int r hr
    have h0 := hv.mat_nonneg r hr
    have h1 := hm r hr
    rw [hn] at h0 h1 ⊢
    have := fmtG_exact (K := K) 6 n 0 (by
      rw [abs_of_nonneg (by exact_mod_cast h0)]
      exact_mod_cast h1)
    simpa using this
  have hmem : ∀ r ∈ (rows.map (writeRowG 6)).dropLast, ∃ s ∈ rows.dropLast, r = writeRowG 6 s := by
    intro r hr
    rw [← List.map_dropLast] at hr
    obtain ⟨s, hs, rfl⟩ := List.mem_map.1 hr
    exact ⟨s, hs, rfl⟩
  refine ⟨by simpa using hv.nonempty, ?_, ?_, ?_, ?_, ?_, ?_⟩
  · intro r hr
    obtain ⟨s, hs, rfl⟩ := hmem r hr
    exact fmtG_pos 6 (by norm_num) (hv.thk_pos s hs)
  · intro r hr
    obtain ⟨s, hs, rfl⟩ := List.mem_map.1 hr
    have := fmtG_mono 6 (by norm_num) (hv.thk_nonneg s hs)
    rwa [fmtG_zero] at this
  · intro r hr
    obtain ⟨s, hs, rfl⟩ := List.mem_map.1 hr
    obtain ⟨a, b, c⟩ := hv.pos s hs
    exact ⟨fmtG_pos 6 (by norm_num) a, fmtG_pos 6 (by norm_num) b, fmtG_pos 6 (by norm_num) c⟩
  · intro r hr
    obtain ⟨s, hs, rfl⟩ := List.mem_map.1 hr
    show ∃ n : ℤ, fmtG 6 s.mat = n
    rw [hmat s hs]
    exact hv.mat_int s hs
  · intro r hr
    obtain ⟨s, hs, rfl⟩ := hmem r hr
    show 0 < fmtG 6 s.mat
    rw [hmat s (List.mem_of_mem_dropLast hs)]
    exact hv.mat_pos s hs
  · intro r hr
    obtain ⟨s, hs, rfl⟩ := List.mem_map.1 hr
    show 0 ≤ fmtG 6 s.mat
    rw [hmat s hs]
    exact hv.mat_nonneg s hs

example : writeTable 6 [[(1234567 : ℚ), 1 / 3, -2 / 3, 0]] = [[1234570, 333333 / 1000000, -666667 / 1000000, 0]] := by
  have h1 : fmtG 6 (1234567 : ℚ) = 1234570 := by
    rw [fmtG_eq 6 (by norm_num)]
    have hl : Int.log 10 |(1234567 : ℚ)| = 6 := by
      rw [abs_of_pos (by norm_num)]
      exact log10_eq (by norm_num) (by norm_num) (by norm_num)
    have : unitG 6 (1234567 : ℚ) = 10 := by unfold unitG; rw [hl]; norm_num
    rw [this]
    decide +kernel
  have h2 : fmtG 6 (1 / 3 : ℚ) = 333333 / 1000000 := by
    rw [fmtG_eq 6 (by norm_num)]
    have hl : Int.log 10 |(1 / 3 : ℚ)| = -1 := by
      rw [abs_of_pos (by norm_num)]
      exact log10_eq (by norm_num) (by norm_num) (by norm_num)
    have : unitG 6 (1 / 3 : ℚ) = 1 / 1000000 := by unfold unitG; rw [hl]; norm_num
    rw [this]
    decide +kernel
  have h3 : fmtG 6 (-2 / 3 : ℚ) = -666667 / 1000000 := by
    rw [fmtG_eq 6 (by norm_num)]
    have hl : Int.log 10 |(-2 / 3 : ℚ)| = -1 := by
      rw [abs_of_neg (by norm_num)]
      exact log10_eq (by norm_num) (by norm_num) (by norm_num)
    have : unitG 6 (-2 / 3 : ℚ) = 1 / 1000000 := by unfold unitG; rw [hl]; norm_num
    rw [this]
    decide +kernel
  simp only [writeTable, List.map_cons, List.map_nil, h1, h2, h3, fmtG_zero]

end Verif
