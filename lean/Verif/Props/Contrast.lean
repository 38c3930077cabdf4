import Verif.Props.Transfer

/-!
C207: the amplification of a profile is bounded by its impedance contrasts and decays with frequency at the rate of the damping along the
travel path (`helper_site_response.py` L1285-1340).
-/

set_option linter.unusedSectionVars false
set_option linter.unusedVariables false

open Complex

namespace Verif

namespace Spec

noncomputable section

/-- Impedance of a layer. -/
def impedance (l : Lay) : ℝ := l.rho * l.vs

/-- Travel time of a vertical shear wave from the base to the surface. -/
def pathTime (ls : List Lay) : ℝ := (ls.dropLast.map fun l => l.h / l.vs).sum

/-- Product over the interfaces of the impedance ratios larger than one (below to above). -/
def gains (ls : List Lay) : ℝ := (List.zipWith (fun l m => max 1 (impedance m / impedance l)) ls ls.tail).prod

/-- Product over the interfaces of the impedance ratios smaller than one (below to above). -/
def losses (ls : List Lay) : ℝ := (List.zipWith (fun l m => min 1 (impedance m / impedance l)) ls ls.tail).prod

/-- A layer with damping `x`. -/
def LayOf (x : ℝ) (l : Lay) : Prop := 0 ≤ l.h ∧ 0 < l.vs ∧ 0 < l.rho ∧ l.xi = x

end

end Spec

open Spec

/-- Decay per unit of phase of a wave in a material with damping `x`. -/
noncomputable def lossRate (x : ℝ) : ℝ := (csqrt (1 + 2 * I * x)).im / ‖csqrt (1 + 2 * I * x)‖ ^ 2

theorem lossRate_bounds (x : ℝ) (hx : 0 ≤ x) : x / (1 + 4 * x ^ 2) ≤ lossRate x ∧ lossRate x ≤ x ∧ 0 ≤ lossRate x := by
  have hr : 0 < (csqrt (1 + 2 * I * x)).re := csqrt_re_pos (Or.inr (by simp))
  have e := csqrt_sq (1 + 2 * I * x)
  have e1 : (csqrt (1 + 2 * I * x)).re ^ 2 - (csqrt (1 + 2 * I * x)).im ^ 2 = 1 := by
    have := congrArg Complex.re e
    simp [pow_two] at this
    nlinarith
  have e2 : (csqrt (1 + 2 * I * x)).re * (csqrt (1 + 2 * I * x)).im = x := by
    have := congrArg Complex.im e
    simp [pow_two] at this
    nlinarith
  have hn : ‖csqrt (1 + 2 * I * x)‖ ^ 2 = (csqrt (1 + 2 * I * x)).re ^ 2 + (csqrt (1 + 2 * I * x)).im ^ 2 := by
    rw [← Complex.normSq_eq_norm_sq, Complex.normSq_apply]; ring
  unfold lossRate
  rw [hn]
  generalize (csqrt (1 + 2 * I * x)).re = a at *
  generalize (csqrt (1 + 2 * I * x)).im = b at *
  have hb : 0 ≤ b := by
    by_contra hc
    push Not at hc
    nlinarith
  have ha : 1 ≤ a := by nlinarith [sq_nonneg b]
  have hN : 1 ≤ a ^ 2 + b ^ 2 := by nlinarith [sq_nonneg b]
  have e3 : 1 + 4 * x ^ 2 = (a ^ 2 + b ^ 2) ^ 2 := by
    rw [← e2]; linear_combination (-(a ^ 2 - b ^ 2) - 1) * e1
  refine ⟨?_, ?_, by positivity⟩
  · rw [e3, ← e2, div_le_div_iff₀ (by positivity) (by positivity)]
    have : a ≤ a ^ 2 + b ^ 2 := by nlinarith [sq_nonneg b]
    have h1 : a * (b * (a ^ 2 + b ^ 2)) ≤ (a ^ 2 + b ^ 2) * (b * (a ^ 2 + b ^ 2)) := mul_le_mul_of_nonneg_right this (by positivity)
    nlinarith
  · rw [div_le_iff₀ (by linarith), ← e2]
    have h1 : b ≤ a * b := by nlinarith
    nlinarith [mul_nonneg (by linarith : (0 : ℝ) ≤ a) hb]

theorem vsStar_of {x : ℝ} {l : Lay} (h : LayOf x l) : vsStar l = (l.vs : ℂ) * csqrt (1 + 2 * I * x) := by
  unfold vsStar; rw [h.2.2.2]

theorem kStar_im_of {w x : ℝ} {l : Lay} (h : LayOf x l) : (kStar w l).im = -(w * lossRate x / l.vs) := by
  have hv := h.2.1.ne'
  have e : kStar w l = ((w / l.vs : ℝ) : ℂ) * (csqrt (1 + 2 * I * x))⁻¹ := by
    unfold kStar
    rw [vsStar_of h]; push_cast
    rw [div_mul_eq_div_div, div_eq_mul_inv]
  rw [e, Complex.im_ofReal_mul, Complex.inv_im, Complex.normSq_eq_norm_sq]
  unfold lossRate
  ring

theorem alpha_of {x : ℝ} {l m : Lay} (hl : LayOf x l) (hm : LayOf x m) :
    alphaStar l m = ((impedance l / impedance m : ℝ) : ℂ) := by
  have hc : csqrt (1 + 2 * I * x) ≠ 0 := by
    intro h
    have hr : 0 < (csqrt (1 + 2 * I * x)).re := csqrt_re_pos (Or.inr (by simp))
    rw [h] at hr; simp at hr
  unfold alphaStar impedance
  rw [vsStar_of hl, vsStar_of hm]
  push_cast
  rw [← mul_assoc, ← mul_assoc, mul_div_mul_right _ _ hc]

theorem norm_exp_up (k : ℂ) (h : ℝ) : ‖exp (I * k * h)‖ = Real.exp (-k.im * h) ∧ ‖exp (-I * k * h)‖ = Real.exp (-(-k.im * h)) := by
  rw [Complex.norm_exp, Complex.norm_exp]
  constructor
  · congr 1; simp
  · congr 1; simp

/-- Passing an interface with a real impedance ratio. -/
theorem interface_step (a : ℝ) (ha : 0 < a) (A B : ℂ) (h : ‖B‖ ≤ ‖A‖) :
    ‖A‖ ≤ ‖1 / 2 * ((1 + a) * A) + 1 / 2 * ((1 - a) * B)‖ * max 1 a⁻¹ ∧
    ‖1 / 2 * ((1 + a) * A) + 1 / 2 * ((1 - a) * B)‖ * min 1 a⁻¹ ≤ ‖A‖ ∧
    ‖1 / 2 * ((1 - a) * A) + 1 / 2 * ((1 + a) * B)‖ ≤ ‖1 / 2 * ((1 + a) * A) + 1 / 2 * ((1 - a) * B)‖ := by
  set P := 1 / 2 * ((1 + a) * A) + 1 / 2 * ((1 - a) * B) with hP
  set Q := 1 / 2 * ((1 - a) * A) + 1 / 2 * ((1 + a) * B) with hQ
  have n1 : ‖(1 / 2 : ℂ) * ((1 + a) * A)‖ = (1 + a) / 2 * ‖A‖ := by
    have : (1 / 2 : ℂ) * ((1 + a) * A) = (((1 + a) / 2 : ℝ) : ℂ) * A := by push_cast; ring
    rw [this, norm_mul, Complex.norm_real, Real.norm_of_nonneg (by linarith)]
  have n2 : ‖(1 / 2 : ℂ) * ((1 - a) * B)‖ = |1 - a| / 2 * ‖B‖ := by
    have : (1 / 2 : ℂ) * ((1 - a) * B) = (((1 - a) / 2 : ℝ) : ℂ) * B := by push_cast; ring
    rw [this, norm_mul, Complex.norm_real, Real.norm_eq_abs, abs_div, abs_two]
  have hA := norm_nonneg A
  have hup : ‖P‖ ≤ (1 + a) / 2 * ‖A‖ + |1 - a| / 2 * ‖A‖ := by
    have := norm_add_le ((1 / 2 : ℂ) * ((1 + a) * A)) ((1 / 2 : ℂ) * ((1 - a) * B))
    rw [n1, n2] at this
    have h2 := mul_le_mul_of_nonneg_left h (show 0 ≤ |1 - a| / 2 by positivity)
    linarith
  have hlo : (1 + a) / 2 * ‖A‖ - |1 - a| / 2 * ‖A‖ ≤ ‖P‖ := by
    have := norm_sub_le_norm_add ((1 / 2 : ℂ) * ((1 + a) * A)) ((1 / 2 : ℂ) * ((1 - a) * B))
    rw [n1, n2] at this
    have h2 := mul_le_mul_of_nonneg_left h (show 0 ≤ |1 - a| / 2 by positivity)
    linarith
  refine ⟨?_, ?_, ?_⟩
  · rcases le_total a 1 with h1 | h1
    · rw [abs_of_nonneg (by linarith)] at hlo
      have h2 : 1 ≤ a⁻¹ := (one_le_inv₀ ha).2 h1
      rw [max_eq_right h2, ← div_eq_mul_inv, le_div_iff₀ ha]
      linarith
    · rw [abs_of_nonpos (by linarith)] at hlo
      have h2 : a⁻¹ ≤ 1 := inv_le_one_of_one_le₀ h1
      rw [max_eq_left h2]
      linarith
  · rcases le_total a 1 with h1 | h1
    · rw [abs_of_nonneg (by linarith)] at hup
      have h2 : 1 ≤ a⁻¹ := (one_le_inv₀ ha).2 h1
      rw [min_eq_left h2]
      linarith
    · rw [abs_of_nonpos (by linarith)] at hup
      have h2 : a⁻¹ ≤ 1 := inv_le_one_of_one_le₀ h1
      rw [min_eq_right h2, ← div_eq_mul_inv, div_le_iff₀ ha]
      linarith
  · have e : ‖P‖ ^ 2 - ‖Q‖ ^ 2 = a * (‖A‖ ^ 2 - ‖B‖ ^ 2) := by
      rw [← Complex.normSq_eq_norm_sq, ← Complex.normSq_eq_norm_sq, ← Complex.normSq_eq_norm_sq, ← Complex.normSq_eq_norm_sq,
        Complex.normSq_apply, Complex.normSq_apply, Complex.normSq_apply, Complex.normSq_apply]
      have p1 : P.re = (1 + a) / 2 * A.re + (1 - a) / 2 * B.re := by
        have : P = (((1 + a) / 2 : ℝ) : ℂ) * A + (((1 - a) / 2 : ℝ) : ℂ) * B := by rw [hP]; push_cast; ring
        rw [this, Complex.add_re, Complex.re_ofReal_mul, Complex.re_ofReal_mul]
      have p2 : P.im = (1 + a) / 2 * A.im + (1 - a) / 2 * B.im := by
        have : P = (((1 + a) / 2 : ℝ) : ℂ) * A + (((1 - a) / 2 : ℝ) : ℂ) * B := by rw [hP]; push_cast; ring
        rw [this, Complex.add_im, Complex.im_ofReal_mul, Complex.im_ofReal_mul]
      have q1 : Q.re = (1 - a) / 2 * A.re + (1 + a) / 2 * B.re := by
        have : Q = (((1 - a) / 2 : ℝ) : ℂ) * A + (((1 + a) / 2 : ℝ) : ℂ) * B := by rw [hQ]; push_cast; ring
        rw [this, Complex.add_re, Complex.re_ofReal_mul, Complex.re_ofReal_mul]
      have q2 : Q.im = (1 - a) / 2 * A.im + (1 + a) / 2 * B.im := by
        have : Q = (((1 - a) / 2 : ℝ) : ℂ) * A + (((1 + a) / 2 : ℝ) : ℂ) * B := by rw [hQ]; push_cast; ring
        rw [this, Complex.add_im, Complex.im_ofReal_mul, Complex.im_ofReal_mul]
      rw [p1, p2, q1, q2]; ring
    have h1 : 0 ≤ ‖A‖ ^ 2 - ‖B‖ ^ 2 := by nlinarith [norm_nonneg B]
    refine abs_le_of_sq_le_sq' ?_ (norm_nonneg P) |>.2
    have := mul_nonneg ha.le h1
    linarith

theorem column_bounds {w x : ℝ} (hw : 0 ≤ w) (hx : 0 ≤ x) : ∀ (ls : List Lay) (l : Lay) (p : ℂ × ℂ), (∀ m ∈ l :: ls, LayOf x m) →
    ‖p.2‖ ≤ ‖p.1‖ →
    ‖p.1‖ * Real.exp (w * lossRate x * pathTime (l :: ls)) ≤ ‖((eMat w (l :: ls)).app p).1‖ * gains (l :: ls) ∧
    ‖((eMat w (l :: ls)).app p).1‖ * losses (l :: ls) ≤ ‖p.1‖ * Real.exp (w * lossRate x * pathTime (l :: ls)) ∧
    ‖((eMat w (l :: ls)).app p).2‖ ≤ ‖((eMat w (l :: ls)).app p).1‖
  | [], l, p, hl, hp => by
    rw [eMat_one, M2.app_id]
    simp [pathTime, gains, losses, hp]
  | m :: ls, l, p, hl, hp => by
    have h1 := hl l (by simp)
    have h2 := hl m (by simp)
    have z1 : 0 < impedance l := mul_pos h1.2.2.1 h1.2.1
    have z2 : 0 < impedance m := mul_pos h2.2.2.1 h2.2.1
    set a := impedance l / impedance m with ha
    have ha0 : 0 < a := div_pos z1 z2
    have hinv : a⁻¹ = impedance m / impedance l := by rw [ha, inv_div]
    obtain ⟨l1, l2, l3⟩ := lossRate_bounds x hx
    obtain ⟨x1, x2⟩ := norm_exp_up (kStar w l) l.h
    rw [kStar_im_of h1] at x1 x2
    set r := w * lossRate x / l.vs * l.h with hr
    have hr0 : 0 ≤ r := by
      have := h1.1; have := h1.2.1
      positivity
    rw [neg_neg, ← hr] at x1 x2
    set A := exp (I * kStar w l * l.h) * p.1 with hA
    set B := exp (-I * kStar w l * l.h) * p.2 with hB
    have nA : ‖A‖ = Real.exp r * ‖p.1‖ := by rw [hA, norm_mul, x1]
    have nB : ‖B‖ ≤ ‖A‖ := by
      rw [nA, hB, norm_mul, x2]
      have : Real.exp (-r) ≤ Real.exp r := Real.exp_le_exp.2 (by linarith)
      exact mul_le_mul this hp (norm_nonneg _) (Real.exp_pos _).le
    obtain ⟨s1, s2, s3⟩ := interface_step a ha0 A B nB
    have happ : (dMat w l m).app p = (1 / 2 * ((1 + a) * A) + 1 / 2 * ((1 - a) * B), 1 / 2 * ((1 - a) * A) + 1 / 2 * ((1 + a) * B)) := by
      have : alphaStar l m = (a : ℂ) := alpha_of h1 h2
      unfold M2.app dMat
      rw [this, hA, hB]
      ext <;> simp only <;> ring
    have ih := column_bounds hw hx ls m ((dMat w l m).app p) (fun y hy => hl y (by simp at hy ⊢; tauto)) (by rw [happ]; exact s3)
    rw [happ] at ih
    set P := 1 / 2 * ((1 + a) * A) + 1 / 2 * ((1 - a) * B)
    have ecl : (eMat w (l :: m :: ls)).app p
        = (eMat w (m :: ls)).app (P, 1 / 2 * ((1 - a) * A) + 1 / 2 * ((1 + a) * B)) := by
      rw [eMat_cons, M2.app_dot, happ]
    obtain ⟨i1, i2, i3⟩ := ih
    rw [← ecl] at i1 i2 i3
    set Z := ‖((eMat w (l :: m :: ls)).app p).1‖ with hZ
    have hZ0 : 0 ≤ Z := norm_nonneg _
    have et : pathTime (l :: m :: ls) = l.h / l.vs + pathTime (m :: ls) := by simp [pathTime]
    have eg : gains (l :: m :: ls) = max 1 a⁻¹ * gains (m :: ls) := by rw [hinv]; simp [gains]
    have el : losses (l :: m :: ls) = min 1 a⁻¹ * losses (m :: ls) := by rw [hinv]; simp [losses]
    have ee : Real.exp (w * lossRate x * pathTime (l :: m :: ls)) = Real.exp r * Real.exp (w * lossRate x * pathTime (m :: ls)) := by
      rw [et, ← Real.exp_add, hr]; congr 1; ring
    simp only at i1 i2
    set T := Real.exp (w * lossRate x * pathTime (m :: ls))
    have hT : 0 < T := Real.exp_pos _
    have hmax : 0 < max 1 a⁻¹ := lt_max_of_lt_left one_pos
    have hmin : 0 < min 1 a⁻¹ := lt_min one_pos (inv_pos.2 ha0)
    rw [nA] at s1 s2
    refine ⟨?_, ?_, i3⟩
    · rw [ee, eg]
      have a1 := mul_le_mul_of_nonneg_right s1 hT.le
      have a2 := mul_le_mul_of_nonneg_left i1 hmax.le
      calc ‖p.1‖ * (Real.exp r * T) = Real.exp r * ‖p.1‖ * T := by ring
        _ ≤ ‖P‖ * max 1 a⁻¹ * T := a1
        _ = max 1 a⁻¹ * (‖P‖ * T) := by ring
        _ ≤ max 1 a⁻¹ * (Z * gains (m :: ls)) := a2
        _ = Z * (max 1 a⁻¹ * gains (m :: ls)) := by ring
    · rw [ee, el]
      have a1 := mul_le_mul_of_nonneg_right s2 hT.le
      have a2 := mul_le_mul_of_nonneg_left i2 hmin.le
      calc Z * (min 1 a⁻¹ * losses (m :: ls)) = min 1 a⁻¹ * (Z * losses (m :: ls)) := by ring
        _ ≤ min 1 a⁻¹ * (‖P‖ * T) := a2
        _ = ‖P‖ * min 1 a⁻¹ * T := by ring
        _ ≤ Real.exp r * ‖p.1‖ * T := a1
        _ = ‖p.1‖ * (Real.exp r * T) := by ring

theorem gains_pos : ∀ ls : List Lay, 0 < gains ls := by
  intro ls
  unfold gains
  refine List.prod_pos ?_
  intro y hy
  obtain ⟨i, hi, rfl⟩ := List.getElem_of_mem hy
  rw [List.getElem_zipWith]
  exact lt_max_of_lt_left one_pos

theorem pathTime_nonneg {x : ℝ} {ls : List Lay} (h : ∀ m ∈ ls, LayOf x m) : 0 ≤ pathTime ls := by
  unfold pathTime
  refine List.sum_nonneg fun y hy => ?_
  obtain ⟨l, hl, rfl⟩ := List.mem_map.1 hy
  have := h l (List.mem_of_mem_dropLast hl)
  exact div_nonneg this.1 this.2.1.le

/-- C207: in a profile of layers with one damping ratio `x` (which may be 0) the amplification relative to rock outcrop lies, at every
frequency, between the product of the impedance ratios below one and the product of those above one, times the decay `exp (-w x T)` along the
travel path; `T` is the travel time, and the decay of the upper bound differs from it by the factor `1 + 4 x²` only. -/
theorem C207_bounds (w x : ℝ) (hw : 0 ≤ w) (hx : 0 ≤ x) (ls : List Lay) (hne : ls ≠ []) (hl : ∀ l ∈ ls, LayOf x l) :
    losses ls * Real.exp (-(w * x * pathTime ls)) ≤ ‖tfRo w ls‖ ∧
    ‖tfRo w ls‖ ≤ gains ls * Real.exp (-(w * (x / (1 + 4 * x ^ 2)) * pathTime ls)) := by
  obtain ⟨l, rest, rfl⟩ := List.exists_cons_of_ne_nil hne
  obtain ⟨c1, c2, -⟩ := column_bounds hw hx rest l (1, 1) hl le_rfl
  obtain ⟨l1, l2, l3⟩ := lossRate_bounds x hx
  have hT := pathTime_nonneg hl
  have hg := gains_pos (l :: rest)
  rw [← (eMat_den w (l :: rest)).1] at c1 c2
  simp only [norm_one, one_mul] at c1 c2
  unfold tfRo
  rw [norm_div, norm_one]
  set Z := ‖(eMat w (l :: rest)).a + (eMat w (l :: rest)).b‖
  set T := pathTime (l :: rest)
  set E := Real.exp (w * lossRate x * T) with hE
  have hE0 : 0 < E := Real.exp_pos _
  have hZ : 0 < Z := by
    by_contra hc
    have : Z * gains (l :: rest) ≤ 0 := mul_nonpos_of_nonpos_of_nonneg (not_lt.1 hc) hg.le
    linarith
  constructor
  · have h1 : Real.exp (-(w * x * T)) ≤ E⁻¹ := by
      rw [hE, ← Real.exp_neg]
      refine Real.exp_le_exp.2 (neg_le_neg ?_)
      exact mul_le_mul_of_nonneg_right (mul_le_mul_of_nonneg_left l2 hw) hT
    have hl0 : 0 ≤ losses (l :: rest) := by
      unfold losses
      refine List.prod_nonneg ?_
      intro y hy
      obtain ⟨i, hi, rfl⟩ := List.getElem_of_mem hy
      rw [List.getElem_zipWith]
      refine le_min zero_le_one ?_
      have g1 := hl _ (List.getElem_mem (l := l :: rest) (by simp at hi ⊢; omega : i < (l :: rest).length))
      have g2 := hl _ (List.mem_of_mem_tail (List.getElem_mem (l := (l :: rest).tail) (by simp at hi ⊢; omega : i < (l :: rest).tail.length)))
      exact div_nonneg (mul_pos g2.2.2.1 g2.2.1).le (mul_pos g1.2.2.1 g1.2.1).le
    refine (mul_le_mul_of_nonneg_left h1 hl0).trans ?_
    rw [le_div_iff₀ hZ, ← div_eq_mul_inv, div_mul_eq_mul_div, div_le_one hE0]
    linarith
  · have h1 : E⁻¹ ≤ Real.exp (-(w * (x / (1 + 4 * x ^ 2)) * T)) := by
      rw [hE, ← Real.exp_neg]
      refine Real.exp_le_exp.2 (neg_le_neg ?_)
      exact mul_le_mul_of_nonneg_right (mul_le_mul_of_nonneg_left l1 hw) hT
    refine le_trans ?_ (mul_le_mul_of_nonneg_left h1 hg.le)
    rw [← div_eq_mul_inv, div_le_div_iff₀ hZ hE0]
    linarith

theorem gains_increasing {x : ℝ} : ∀ (ls : List Lay) (l m : Lay), (∀ y ∈ l :: ls, LayOf x y) → (l :: ls).getLast? = some m →
    (l :: ls).Pairwise (fun a b => impedance a ≤ impedance b) → gains (l :: ls) = impedance m / impedance l ∧ losses (l :: ls) = 1
  | [], l, m, hl, hm, _ => by
    obtain rfl : l = m := by simpa using hm
    have h1 := hl l (by simp)
    have z1 : impedance l ≠ 0 := (mul_pos h1.2.2.1 h1.2.1).ne'
    rw [div_self z1]; simp [gains, losses]
  | n :: ls, l, m, hl, hm, hp => by
    have h1 := hl l (by simp)
    have h2 := hl n (by simp)
    have z1 : 0 < impedance l := mul_pos h1.2.2.1 h1.2.1
    have z2 : 0 < impedance n := mul_pos h2.2.2.1 h2.2.1
    obtain ⟨p1, p2⟩ := List.pairwise_cons.1 hp
    obtain ⟨i1, i2⟩ := gains_increasing ls n m (fun y hy => hl y (by simp at hy ⊢; tauto)) (by rw [← hm]; simp) p2
    have h3 : 1 ≤ impedance n / impedance l := (one_le_div z1).2 (p1 n (by simp))
    have eg : gains (l :: n :: ls) = max 1 (impedance n / impedance l) * gains (n :: ls) := by simp [gains]
    have el : losses (l :: n :: ls) = min 1 (impedance n / impedance l) * losses (n :: ls) := by simp [losses]
    rw [eg, el, i1, i2, max_eq_right h3, min_eq_left h3]
    refine ⟨?_, by ring⟩
    field_simp

/-- C207, impedance growing with depth: no frequency is amplified by more than the ratio of the impedance of the rock to the one of the
uppermost layer, and none is reduced by more than the damping along the travel path. -/
theorem C207_increasing (w x : ℝ) (hw : 0 ≤ w) (hx : 0 ≤ x) (l m : Lay) (ls : List Lay) (hl : ∀ y ∈ l :: ls, LayOf x y)
    (hm : (l :: ls).getLast? = some m) (hp : (l :: ls).Pairwise (fun a b => impedance a ≤ impedance b)) :
    Real.exp (-(w * x * pathTime (l :: ls))) ≤ ‖tfRo w (l :: ls)‖ ∧ ‖tfRo w (l :: ls)‖ ≤ impedance m / impedance l := by
  obtain ⟨g1, g2⟩ := gains_increasing ls l m hl hm hp
  obtain ⟨b1, b2⟩ := C207_bounds w x hw hx (l :: ls) (by simp) hl
  have hT := pathTime_nonneg hl
  have hpos := gains_pos (l :: ls)
  rw [g2, one_mul] at b1
  refine ⟨b1, b2.trans ?_⟩
  rw [← g1]
  refine mul_le_of_le_one_right hpos.le (Real.exp_le_one_iff.2 ?_)
  have : 0 ≤ w * (x / (1 + 4 * x ^ 2)) * pathTime (l :: ls) := by positivity
  linarith

/-- C207, sharpness: an undamped layer of impedance below that of the rock is amplified by the full contrast at the frequency at which it is a
quarter of a wave length thick. -/
theorem C207_sharp (l m : Lay) (hl : LayOf 0 l) (hm : LayOf 0 m) (hh : 0 < l.h) :
    ‖tfRo (Real.pi / 2 * l.vs / l.h) [l, m]‖ = impedance m / impedance l := by
  set w := Real.pi / 2 * l.vs / l.h with hw
  have hv := hl.2.1
  have z1 : 0 < impedance l := mul_pos hl.2.2.1 hl.2.1
  have z2 : 0 < impedance m := mul_pos hm.2.2.1 hm.2.1
  have hvs : vsStar l = l.vs := by
    rw [vsStar_of hl]; unfold csqrt; simp
  have hk : kStar w l * l.h = ((Real.pi / 2 : ℝ) : ℂ) := by
    unfold kStar
    rw [hvs, hw]; push_cast
    have a1 : (l.vs : ℂ) ≠ 0 := by exact_mod_cast hv.ne'
    have a2 : (l.h : ℂ) ≠ 0 := by exact_mod_cast hh.ne'
    field_simp
  have e1 : exp (I * kStar w l * l.h) = I := by
    rw [show I * kStar w l * (l.h : ℂ) = kStar w l * l.h * I by ring, hk]
    have := Complex.exp_mul_I ((Real.pi / 2 : ℝ) : ℂ)
    rw [this, ← Complex.ofReal_cos, ← Complex.ofReal_sin]; simp
  have e2 : exp (-I * kStar w l * l.h) = -I := by
    rw [show -I * kStar w l * (l.h : ℂ) = -(I * kStar w l * l.h) by ring, Complex.exp_neg, e1, Complex.inv_I]
  have e3 : (eMat w [l, m]).a + (eMat w [l, m]).b = I * ((impedance l / impedance m : ℝ) : ℂ) := by
    rw [(eMat_den _ _).1, eMat_cons, eMat_one, M2.id_dot]
    simp only [M2.app, dMat]
    rw [e1, e2, alpha_of hl hm]; ring
  unfold tfRo
  rw [e3, norm_div, norm_one, norm_mul, Complex.norm_I, one_mul, Complex.norm_real, Real.norm_of_nonneg (by positivity), one_div_div]

/-- C207 in the table returned by `linear_tf`. -/
theorem C207_table (ls : List Lay) (x df fmax : ℝ) (hx : 0 ≤ x) (hdf : 0 < df) (hne : ls ≠ []) (hl : ∀ l ∈ ls, LayOf x l) :
    ∀ row ∈ linearTf ls df fmax, losses ls * Real.exp (-(2 * Real.pi * row.1 * x * pathTime ls)) ≤ row.2.2.1 ∧
      row.2.2.1 ≤ gains ls * Real.exp (-(2 * Real.pi * row.1 * (x / (1 + 4 * x ^ 2)) * pathTime ls)) := by
  intro row hrow
  obtain ⟨i, hi⟩ := List.mem_iff_getElem?.1 hrow
  obtain ⟨r1, r2, r3⟩ := (C33_grid ls df fmax hdf i).2 row hi
  have h0 : 0 ≤ row.1 := by rw [r1]; positivity
  have := Real.pi_pos
  rw [r3, r2]
  exact C207_bounds (2 * Real.pi * row.1) x (by positivity) hx ls hne hl

/-- Non-vacuity: 30 m of soil with 180 m/s over 20 m with 400 m/s on rock with 1000 m/s, all with 2 % damping; no frequency is amplified more than
eight-fold. -/
example (w : ℝ) (hw : 0 ≤ w) :
    ‖tfRo w [⟨30, 180, 1 / 50, 1800⟩, ⟨20, 400, 1 / 50, 1900⟩, ⟨0, 1000, 1 / 50, 2400⟩]‖ ≤ 8 := by
  refine (C207_increasing w (1 / 50) hw (by norm_num) _ ⟨0, 1000, 1 / 50, 2400⟩ _ ?_ (by simp) ?_).2.trans ?_
  · intro y hy
    simp only [List.mem_cons, List.not_mem_nil, or_false] at hy
    rcases hy with rfl | rfl | rfl <;> refine ⟨?_, ?_, ?_, ?_⟩ <;> norm_num
  · simp [impedance]; norm_num
  · simp only [impedance]; norm_num

end Verif
