import Verif.Model.NumFormat
import Verif.Proof.Float

/-!
Facts about the number formats of `Verif.Model.NumFormat`.
-/

set_option linter.unusedSectionVars false
set_option linter.unusedVariables false

namespace Verif

variable {K : Type} [Field K] [LinearOrder K] [IsStrictOrderedRing K] [FloorRing K]

theorem rhe_mono {x y : K} (h : x ≤ y) : roundHalfEven x ≤ roundHalfEven y := by
  rcases eq_or_lt_of_le h with rfl | hlt
  · exact le_rfl
  by_contra hc
  push Not at hc
  have h1 := rhe_err x
  have h2 := rhe_err y
  have hc' : (roundHalfEven y : K) + 1 ≤ (roundHalfEven x : K) := by exact_mod_cast hc
  rw [abs_le] at h1 h2
  linarith [h1.1, h2.2]

theorem roundTo_err {u : K} (hu : 0 < u) (x : K) : |roundTo u x - x| ≤ u / 2 := by
  have h := rhe_err (x / u)
  have : roundTo u x - x = -((x / u - (roundHalfEven (x / u) : K)) * u) := by
    unfold roundTo
    field_simp
    ring
  rw [this, abs_neg, abs_mul, abs_of_pos hu]
  have := mul_le_mul_of_nonneg_right h hu.le
  linarith

theorem roundTo_mono {u : K} (hu : 0 < u) {x y : K} (h : x ≤ y) : roundTo u x ≤ roundTo u y := by
  unfold roundTo
  have : roundHalfEven (x / u) ≤ roundHalfEven (y / u) := rhe_mono (div_le_div_of_nonneg_right h hu.le)
  have : (roundHalfEven (x / u) : K) ≤ (roundHalfEven (y / u) : K) := by exact_mod_cast this
  exact mul_le_mul_of_nonneg_right this hu.le

theorem roundTo_mul {u : K} (hu : 0 < u) (n : ℤ) : roundTo u ((n : K) * u) = (n : K) * u := by
  unfold roundTo
  rw [mul_div_assoc, div_self hu.ne', mul_one, rhe_int]

theorem roundTo_neg (u x : K) : roundTo u (-x) = -roundTo u x := by
  unfold roundTo
  rw [neg_div, rhe_neg]
  push_cast
  ring

/-- Two different values differ by at least the unit. -/
theorem roundTo_gap {u : K} (hu : 0 < u) {x y : K} (h : roundTo u x < roundTo u y) : roundTo u x + u ≤ roundTo u y := by
  unfold roundTo at h ⊢
  have h' : (roundHalfEven (x / u) : K) < (roundHalfEven (y / u) : K) := lt_of_mul_lt_mul_right h hu.le
  have : roundHalfEven (x / u) + 1 ≤ roundHalfEven (y / u) := by exact_mod_cast h'
  have : (roundHalfEven (x / u) : K) + 1 ≤ (roundHalfEven (y / u) : K) := by exact_mod_cast this
  have := mul_le_mul_of_nonneg_right this hu.le
  linarith

theorem ten_zpow_pos (e : ℤ) : (0 : K) < 10 ^ e := zpow_pos (by norm_num) e

theorem log10_bounds {x : K} (h : 0 < x) : (10 : K) ^ Int.log 10 x ≤ x ∧ x < 10 ^ (Int.log 10 x + 1) := by
  have h1 := Int.zpow_log_le_self (b := 10) (r := x) (by norm_num) h
  have h2 := Int.lt_zpow_succ_log_self (b := 10) (by norm_num) x
  push_cast at h1 h2
  exact ⟨h1, h2⟩

theorem log10_eq {x : K} (h : 0 < x) {e : ℤ} (h1 : (10 : K) ^ e ≤ x) (h2 : x < 10 ^ (e + 1)) : Int.log 10 x = e := by
  have a := (Int.zpow_le_iff_le_log (b := 10) (by norm_num) h (x := e)).1 (by push_cast; exact h1)
  have b := (Int.lt_zpow_iff_log_lt (b := 10) (by norm_num) h (x := e + 1)).1 (by push_cast; exact h2)
  omega

theorem fmtG_zero (p : Nat) : fmtG p (0 : K) = 0 := by simp [fmtG]

theorem fmtG_neg (p : Nat) (x : K) : fmtG p (-x) = -fmtG p x := by
  unfold fmtG
  by_cases h : x = 0
  · simp [h]
  · rw [if_neg h, if_neg (by simpa using h), abs_neg, roundTo_neg]

/-- The unit in the last place written. -/
def unitG (p : Nat) (x : K) : K := 10 ^ (Int.log 10 |x| - (p : ℤ) + 1)

theorem unitG_pos (p : Nat) (x : K) : 0 < unitG p x := ten_zpow_pos _

theorem fmtG_eq (p : Nat) {x : K} (h : x ≠ 0) : fmtG p x = roundTo (unitG p x) x := by
  unfold fmtG unitG
  rw [if_neg h]

theorem unitG_le (p : Nat) {x : K} (h : x ≠ 0) : unitG p x ≤ |x| * 10 / 10 ^ p := by
  have hx : 0 < |x| := abs_pos.2 h
  have h1 := (log10_bounds hx).1
  unfold unitG
  rw [zpow_add₀ (by norm_num), zpow_sub₀ (by norm_num), zpow_one, zpow_natCast]
  have hp : (0 : K) < 10 ^ p := by positivity
  have := mul_le_mul_of_nonneg_right h1 (show (0 : K) ≤ 10 / 10 ^ p by positivity)
  calc (10 : K) ^ Int.log 10 |x| / 10 ^ p * 10 = 10 ^ Int.log 10 |x| * (10 / 10 ^ p) := by ring
    _ ≤ |x| * (10 / 10 ^ p) := this
    _ = |x| * 10 / 10 ^ p := by ring

theorem fmtG_err (p : Nat) (x : K) : |fmtG p x - x| ≤ |x| * 5 / 10 ^ p := by
  by_cases h : x = 0
  · simp [h, fmtG_zero]
  · rw [fmtG_eq p h]
    have h1 := roundTo_err (unitG_pos p x) x
    have h2 := unitG_le p h
    have : |x| * 10 / 10 ^ p = 2 * (|x| * 5 / 10 ^ p) := by ring
    linarith

/-- A number of at most `p` digits is written exactly. -/
theorem fmtG_exact (p : Nat) (n k : ℤ) (hn : |n| < 10 ^ p) : fmtG p ((n : K) * 10 ^ k) = (n : K) * 10 ^ k := by
  by_cases h0 : n = 0
  · simp [h0, fmtG_zero]
  have hk := ten_zpow_pos (K := K) k
  have hx : (n : K) * 10 ^ k ≠ 0 := mul_ne_zero (by exact_mod_cast h0) hk.ne'
  rw [fmtG_eq p hx]
  have hpos : 0 < |(n : K) * 10 ^ k| := abs_pos.2 hx
  set e := Int.log 10 |(n : K) * 10 ^ k| with he
  have hlt : |(n : K) * 10 ^ k| < 10 ^ ((p : ℤ) + k) := by
    rw [abs_mul, abs_of_pos hk, zpow_add₀ (by norm_num), zpow_natCast]
    apply mul_lt_mul_of_pos_right _ hk
    have : ((|n| : ℤ) : K) < ((10 ^ p : ℤ) : K) := by exact_mod_cast hn
    push_cast at this
    exact this
  have hle := (log10_bounds hpos).1
  rw [← he] at hle
  have hek : e < (p : ℤ) + k := by
    by_contra hc
    push Not at hc
    have := zpow_le_zpow_right₀ (show (1 : K) ≤ 10 by norm_num) hc
    linarith
  obtain ⟨j, hj⟩ : ∃ j : Nat, k = (e - (p : ℤ) + 1) + j := ⟨(k - (e - (p : ℤ) + 1)).toNat, by omega⟩
  have hm : (n : K) * 10 ^ k = ((n * 10 ^ j : ℤ) : K) * unitG p ((n : K) * 10 ^ k) := by
    unfold unitG
    rw [← he]
    conv_lhs => rw [hj, zpow_add₀ (by norm_num), zpow_natCast]
    push_cast
    ring
  have hu := unitG_pos p ((n : K) * 10 ^ k)
  conv_lhs => rw [show roundTo (unitG p ((n : K) * 10 ^ k)) ((n : K) * 10 ^ k) =
    roundTo (unitG p ((n : K) * 10 ^ k)) (((n * 10 ^ j : ℤ) : K) * unitG p ((n : K) * 10 ^ k)) from by rw [← hm]]
  rw [roundTo_mul hu, ← hm]

/-- What is written of a positive number lies in the same decade. -/
theorem fmtG_decade (p : Nat) (hp : 0 < p) {x : K} (h : 0 < x) :
    (10 : K) ^ Int.log 10 x ≤ fmtG p x ∧ fmtG p x ≤ 10 ^ (Int.log 10 x + 1) := by
  obtain ⟨h1, h2⟩ := log10_bounds h
  rw [fmtG_eq p h.ne']
  have hu := unitG_pos p x
  obtain ⟨q, rfl⟩ : ∃ q, p = q + 1 := ⟨p - 1, by omega⟩
  have ha : (10 : K) ^ Int.log 10 x = ((10 ^ q : ℤ) : K) * unitG (q + 1) x := by
    unfold unitG
    rw [abs_of_pos h]
    push_cast
    rw [← zpow_natCast, ← zpow_add₀ (by norm_num)]
    congr 1
    push_cast
    ring
  have hb : (10 : K) ^ (Int.log 10 x + 1) = ((10 ^ (q + 1) : ℤ) : K) * unitG (q + 1) x := by
    unfold unitG
    rw [abs_of_pos h]
    push_cast
    rw [← zpow_natCast, ← zpow_add₀ (by norm_num)]
    congr 1
    push_cast
    ring
  constructor
  · rw [ha] at h1
    have := roundTo_mono hu h1
    rw [roundTo_mul hu] at this
    rw [ha]
    exact this
  · rw [hb] at h2
    have := roundTo_mono hu h2.le
    rw [roundTo_mul hu] at this
    rw [hb]
    exact this

theorem fmtG_pos (p : Nat) (hp : 0 < p) {x : K} (h : 0 < x) : 0 < fmtG p x :=
  lt_of_lt_of_le (ten_zpow_pos _) (fmtG_decade p hp h).1

theorem fmtG_mono (p : Nat) (hp : 0 < p) {x y : K} (h : x ≤ y) : fmtG p x ≤ fmtG p y := by
  have key : ∀ {x y : K}, 0 < x → x ≤ y → fmtG p x ≤ fmtG p y := by
    intro x y hx hxy
    have hy := lt_of_lt_of_le hx hxy
    rcases lt_or_eq_of_le (Int.log_mono_right (b := 10) hx hxy) with hlt | heq
    · have h1 := (fmtG_decade p hp hx).2
      have h2 := (fmtG_decade p hp hy).1
      exact h1.trans ((zpow_le_zpow_right₀ (by norm_num) (by omega)).trans h2)
    · rw [fmtG_eq p hx.ne', fmtG_eq p hy.ne']
      have : unitG p x = unitG p y := by
        unfold unitG
        rw [abs_of_pos hx, abs_of_pos hy, heq]
      rw [this]
      exact roundTo_mono (unitG_pos p y) hxy
  rcases lt_trichotomy x 0 with hx | rfl | hx
  · rcases lt_trichotomy y 0 with hy | rfl | hy
    · have := key (x := -y) (y := -x) (by linarith) (by linarith)
      rw [fmtG_neg, fmtG_neg] at this
      linarith
    · rw [fmtG_zero]
      have := fmtG_pos p hp (x := -x) (by linarith)
      rw [fmtG_neg] at this
      linarith
    · have h1 := fmtG_pos p hp (x := -x) (by linarith)
      rw [fmtG_neg] at h1
      have h2 := fmtG_pos p hp hy
      linarith
  · rw [fmtG_zero]
    rcases eq_or_lt_of_le h with rfl | hy
    · rw [fmtG_zero]
    · exact (fmtG_pos p hp hy).le
  · exact key hx h

theorem fmtG_eq_zero (p : Nat) (hp : 0 < p) (x : K) : fmtG p x = 0 ↔ x = 0 := by
  constructor
  · intro h
    by_contra hx
    rcases lt_or_gt_of_ne hx with hx | hx
    · have := fmtG_pos p hp (x := -x) (by linarith)
      rw [fmtG_neg, h] at this
      linarith
    · have := fmtG_pos p hp hx
      rw [h] at this
      exact lt_irrefl _ this
  · rintro rfl; exact fmtG_zero p

/-- What is written has at most `p` digits. -/
theorem fmtG_digits (p : Nat) (hp : 0 < p) (x : K) : ∃ n k : ℤ, |n| < 10 ^ p ∧ fmtG p x = (n : K) * 10 ^ k := by
  have key : ∀ {x : K}, 0 < x → ∃ n k : ℤ, |n| < 10 ^ p ∧ fmtG p x = (n : K) * 10 ^ k := by
    intro x hx
    have hu := unitG_pos p x
    have hd := (fmtG_decade p hp hx).2
    have hpos := fmtG_pos p hp hx
    rw [fmtG_eq p hx.ne'] at hd hpos ⊢
    unfold roundTo at hd hpos ⊢
    set n := roundHalfEven (x / unitG p x)
    have hn0 : 0 < n := by
      have : (0 : K) < (n : K) := (mul_pos_iff_of_pos_right hu).1 hpos
      exact_mod_cast this
    have hle : n ≤ 10 ^ p := by
      have e : (10 : K) ^ (Int.log 10 x + 1) = 10 ^ p * unitG p x := by
        unfold unitG
        rw [abs_of_pos hx, ← zpow_natCast, ← zpow_add₀ (by norm_num)]
        congr 1
        ring
      rw [e] at hd
      have := le_of_mul_le_mul_right hd hu
      exact_mod_cast this
    rcases lt_or_eq_of_le hle with hlt | heq
    · exact ⟨n, _, by rw [abs_of_pos hn0]; exact hlt, rfl⟩
    · refine ⟨1, Int.log 10 x + 1, ?_, ?_⟩
      · rw [abs_one]
        exact one_lt_pow₀ (by norm_num) hp.ne'
      · rw [heq]
        unfold unitG
        rw [abs_of_pos hx]
        push_cast
        rw [← zpow_natCast, ← zpow_add₀ (by norm_num), one_mul]
        congr 1
        ring
  rcases lt_trichotomy x 0 with hx | rfl | hx
  · obtain ⟨n, k, h1, h2⟩ := key (x := -x) (by linarith)
    refine ⟨-n, k, by rwa [abs_neg], ?_⟩
    rw [fmtG_neg] at h2
    push_cast
    linarith
  · exact ⟨0, 0, by simp, by simp [fmtG_zero]⟩
  · exact key hx

theorem fmtG_idem (p : Nat) (hp : 0 < p) (x : K) : fmtG p (fmtG p x) = fmtG p x := by
  obtain ⟨n, k, h1, h2⟩ := fmtG_digits p hp x
  rw [h2]
  exact fmtG_exact p n k h1

/-! `%.nf` -/

theorem unitF_pos (n : Nat) : (0 : K) < 1 / 10 ^ n := by positivity

theorem fmtF_err (n : Nat) (x : K) : |fmtF n x - x| ≤ 1 / (2 * 10 ^ n) := by
  have := roundTo_err (unitF_pos (K := K) n) x
  unfold fmtF
  have e : (1 : K) / 10 ^ n / 2 = 1 / (2 * 10 ^ n) := by field_simp
  rwa [e] at this

theorem fmtF_mono (n : Nat) {x y : K} (h : x ≤ y) : fmtF n x ≤ fmtF n y := roundTo_mono (unitF_pos n) h

theorem fmtF_exact (n : Nat) (m : ℤ) : fmtF n ((m : K) / 10 ^ n) = (m : K) / 10 ^ n := by
  have := roundTo_mul (unitF_pos (K := K) n) m
  unfold fmtF
  rw [show (m : K) / 10 ^ n = (m : K) * (1 / 10 ^ n) by ring]
  exact this

theorem fmtF_digits (n : Nat) (x : K) : ∃ m : ℤ, fmtF n x = (m : K) / 10 ^ n :=
  ⟨roundHalfEven (x / (1 / 10 ^ n)), by unfold fmtF roundTo; ring⟩

theorem fmtF_idem (n : Nat) (x : K) : fmtF n (fmtF n x) = fmtF n x := by
  obtain ⟨m, h⟩ := fmtF_digits n x
  rw [h]
  exact fmtF_exact n m

theorem fmtF_zero (n : Nat) : fmtF n (0 : K) = 0 := by
  have := fmtF_exact (K := K) n 0
  simpa using this

theorem fmtF_nonneg (n : Nat) {x : K} (h : 0 ≤ x) : 0 ≤ fmtF n x := by
  have := fmtF_mono n h
  rwa [fmtF_zero] at this

/-- Positive numbers of at most half a unit vanish. -/
theorem fmtF_vanish (n : Nat) {x : K} (h0 : 0 ≤ x) (h : x ≤ 1 / (2 * 10 ^ n)) : fmtF n x = 0 := by
  unfold fmtF roundTo
  have hp : (0 : K) < 10 ^ n := by positivity
  have : x / (1 / 10 ^ n) ≤ 1 / 2 := by
    rw [div_le_iff₀ (unitF_pos n)]
    calc x ≤ 1 / (2 * 10 ^ n) := h
      _ = 1 / 2 * (1 / 10 ^ n) := by field_simp
  have h2 : (0 : K) ≤ x / (1 / 10 ^ n) := by positivity
  have h3 : roundHalfEven (x / (1 / 10 ^ n)) = 0 := by
    have hf : ⌊x / (1 / 10 ^ n)⌋ = 0 := Int.floor_eq_iff.2 ⟨by simpa using h2, by push_cast; linarith⟩
    unfold roundHalfEven
    simp only [hf, Int.cast_zero, sub_zero]
    split_ifs with a b c
    · rfl
    · linarith
    · rfl
    · exact absurd (by norm_num : (0 : ℤ) % 2 = 0) c
  rw [h3]
  simp

/-- Larger ones do not. -/
theorem fmtF_pos (n : Nat) {x : K} (h : 1 / (2 * 10 ^ n) < x) : 0 < fmtF n x := by
  have hx := fmtF_err n x
  rw [abs_le] at hx
  linarith [hx.1]

/-! `%d` -/

theorem fmtD_int (n : ℤ) : fmtD (n : K) = n := by
  unfold fmtD
  split_ifs <;> simp

end Verif
