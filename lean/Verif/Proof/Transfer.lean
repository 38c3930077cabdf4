import Verif.Spec.Transfer
import Mathlib.Analysis.SpecialFunctions.ExpDeriv
import Mathlib.Analysis.Calculus.Deriv.MeanValue
import Mathlib.Analysis.Calculus.Deriv.Star
import Mathlib.Analysis.Complex.Basic
import Mathlib.Analysis.Complex.RealDeriv

/-!
Facts about the complex velocities, the matrix recursion and the energy flux used for
the transfer-function properties.
-/

set_option linter.unusedSectionVars false
set_option linter.unusedVariables false

open Complex

namespace Verif

open Spec

/-! ## Square roots -/

theorem csqrt_sq (z : ℂ) : csqrt z ^ 2 = z := by
  have := Complex.cpow_nat_inv_pow z (n := 2) (by norm_num)
  unfold csqrt
  rw [one_div]; exact_mod_cast this

theorem csqrt_ne_zero {z : ℂ} (h : z ≠ 0) : csqrt z ≠ 0 := by
  intro hc; apply h; rw [← csqrt_sq z, hc]; simp

theorem csqrt_re_pos {z : ℂ} (h : 0 < z.im ∨ 0 < z.re) : 0 < (csqrt z).re := by
  have hz : z ≠ 0 := by
    rintro rfl; simp at h
  unfold csqrt
  rw [Complex.cpow_def_of_ne_zero hz, Complex.exp_re]
  apply mul_pos (Real.exp_pos _)
  have him : (Complex.log z * (1 / 2 : ℂ)).im = Complex.arg z / 2 := by
    rw [show (1 / 2 : ℂ) = ((1 / 2 : ℝ) : ℂ) by push_cast; rfl, Complex.im_mul_ofReal, Complex.log_im]
    ring
  rw [him]
  apply Real.cos_pos_of_mem_Ioo
  have h1 := Complex.neg_pi_lt_arg z
  have h2 := Complex.arg_le_pi z
  have h3 : Complex.arg z ≠ Real.pi := by
    intro hp
    rw [Complex.arg_eq_pi_iff] at hp
    rcases h with h | h <;> linarith [hp.1, hp.2]
  constructor
  · linarith
  · have := lt_of_le_of_ne h2 h3; linarith

theorem csqrt_ofReal_sq_mul {r : ℝ} (hr : 0 < r) {z : ℂ} (hz : z ≠ 0) :
    csqrt (((r ^ 2 : ℝ) : ℂ) * z) = (r : ℂ) * csqrt z := by
  have hr2 : 0 < r ^ 2 := by positivity
  have hrc : (r : ℂ) ≠ 0 := by exact_mod_cast hr.ne'
  have hr2c : ((r ^ 2 : ℝ) : ℂ) ≠ 0 := by exact_mod_cast hr2.ne'
  unfold csqrt
  rw [Complex.cpow_def_of_ne_zero (mul_ne_zero hr2c hz), Complex.cpow_def_of_ne_zero hz,
    Complex.log_ofReal_mul hr2 hz, Real.log_pow]
  rw [show ((((2 : ℕ) : ℝ) * Real.log r : ℝ) + Complex.log z) * (1 / 2 : ℂ)
    = (Real.log r : ℂ) + Complex.log z * (1 / 2) by push_cast; ring, Complex.exp_add,
    ← Complex.ofReal_exp, Real.exp_log hr]

/-! ## Complex velocity -/

theorem one_add_xi_ne (x : ℝ) : (1 + 2 * I * (x : ℂ)) ≠ 0 := by
  intro h
  have := congrArg Complex.re h
  simp at this

theorem vsStar_sq (l : Lay) : vsStar l ^ 2 = (l.vs : ℂ) ^ 2 * (1 + 2 * I * (l.xi : ℂ)) := by
  unfold vsStar; rw [mul_pow, csqrt_sq]

theorem modulus_eq (l : Lay) : modulus l = (l.rho : ℂ) * vsStar l ^ 2 := by
  rw [vsStar_sq]; unfold modulus; ring

theorem vsStar_re_pos {l : Lay} (h : 0 < l.vs) : 0 < (vsStar l).re := by
  unfold vsStar
  rw [Complex.re_ofReal_mul]
  exact mul_pos h (csqrt_re_pos (Or.inr (by simp)))

theorem vsStar_ne {l : Lay} (h : 0 < l.vs) : vsStar l ≠ 0 := by
  intro hc; have := vsStar_re_pos h; rw [hc] at this; simp at this

theorem kStar_re_pos {w : ℝ} {l : Lay} (hw : 0 < w) (h : 0 < l.vs) : 0 < (kStar w l).re := by
  unfold kStar
  rw [div_eq_mul_inv, Complex.re_ofReal_mul, Complex.inv_re]
  exact mul_pos hw (div_pos (vsStar_re_pos h) (Complex.normSq_pos.2 (vsStar_ne h)))

theorem kStar_ne {w : ℝ} {l : Lay} (hw : 0 < w) (h : 0 < l.vs) : kStar w l ≠ 0 := by
  intro hc; have := kStar_re_pos hw h; rw [hc] at this; simp at this

theorem kStar_mul {w : ℝ} {l : Lay} (h : 0 < l.vs) : kStar w l * vsStar l = w := by
  unfold kStar; exact div_mul_cancel₀ _ (vsStar_ne h)

theorem modulus_ne {l : Lay} (h : 0 < l.vs) (hr : 0 < l.rho) : modulus l ≠ 0 := by
  rw [modulus_eq]
  exact mul_ne_zero (by exact_mod_cast hr.ne') (pow_ne_zero _ (vsStar_ne h))

theorem kStar_waveNumber {w : ℝ} {l : Lay} (hw : 0 < w) (h : 0 < l.vs) :
    WaveNumber w l (kStar w l) := by
  refine ⟨?_, kStar_re_pos hw h⟩
  have := kStar_mul (w := w) h
  rw [modulus_eq, ← this]; ring

theorem waveNumber_unique {w : ℝ} {l : Lay} (hw : 0 < w) (h : 0 < l.vs) (hr : 0 < l.rho)
    {k : ℂ} (hk : WaveNumber w l k) : k = kStar w l := by
  obtain ⟨h1, h2⟩ := kStar_waveNumber hw h (l := l)
  have hs : k ^ 2 = kStar w l ^ 2 := mul_left_cancel₀ (modulus_ne h hr) (hk.1.trans h1.symm)
  rcases sq_eq_sq_iff_eq_or_eq_neg.1 hs with h' | h'
  · exact h'
  · exfalso
    have := hk.2
    rw [h', Complex.neg_re] at this
    linarith

theorem impedance_ne {l : Lay} (h : 0 < l.vs) (hr : 0 < l.rho) :
    (l.rho : ℂ) * vsStar l ≠ 0 :=
  mul_ne_zero (by exact_mod_cast hr.ne') (vsStar_ne h)

/-! ## The matrix recursion -/

/-- Matrix times vector. -/
noncomputable def M2.app (x : M2) (p : ℂ × ℂ) : ℂ × ℂ :=
  (x.a * p.1 + x.b * p.2, x.c * p.1 + x.d * p.2)

theorem M2.app_dot (x y : M2) (p : ℂ × ℂ) : (x.dot y).app p = x.app (y.app p) := by
  unfold M2.app M2.dot; ext <;> simp <;> ring

theorem M2.dot_assoc (x y z : M2) : (x.dot y).dot z = x.dot (y.dot z) := by
  unfold M2.dot; ext <;> simp <;> ring

theorem M2.id_dot (x : M2) : M2.id.dot x = x := by
  unfold M2.dot M2.id; ext <;> simp

theorem M2.dot_id (x : M2) : x.dot M2.id = x := by
  unfold M2.dot M2.id; ext <;> simp

theorem M2.app_id (p : ℂ × ℂ) : M2.id.app p = p := by
  unfold M2.app M2.id; ext <;> simp

theorem eMat_nil (w : ℝ) : eMat w [] = M2.id := rfl

theorem eMat_one (w : ℝ) (l : Lay) : eMat w [l] = M2.id := rfl

theorem eMat_cons (w : ℝ) (l m : Lay) (rest : List Lay) :
    eMat w (l :: m :: rest) = (eMat w (m :: rest)).dot (dMat w l m) := by
  unfold eMat dMats
  simp [List.foldl_append]

theorem eMat_den (w : ℝ) (ls : List Lay) :
    (eMat w ls).a + (eMat w ls).b = ((eMat w ls).app (1, 1)).1 ∧
    (eMat w ls).a + (eMat w ls).c + (eMat w ls).b + (eMat w ls).d
      = ((eMat w ls).app (1, 1)).1 + ((eMat w ls).app (1, 1)).2 := by
  unfold M2.app; constructor <;> simp <;> ring

theorem app_smul (x : M2) (c : ℂ) (p : ℂ × ℂ) :
    x.app (c * p.1, c * p.2) = (c * (x.app p).1, c * (x.app p).2) := by
  unfold M2.app; ext <;> simp <;> ring

/-- The step across the bottom of a layer in terms of displacement and stress. -/
theorem dMat_app (w : ℝ) (l m : Lay) (p : ℂ × ℂ) :
    let q := (dMat w l m).app p
    q.1 + q.2 = p.1 * exp (I * kStar w l * l.h) + p.2 * exp (-I * kStar w l * l.h) ∧
    q.1 - q.2 = alphaStar l m * (p.1 * exp (I * kStar w l * l.h) - p.2 * exp (-I * kStar w l * l.h)) := by
  unfold M2.app dMat; constructor <;> simp <;> ring

theorem alphaStar_mul {l m : Lay} (hm : 0 < m.vs) (hr : 0 < m.rho) :
    ((m.rho : ℂ) * vsStar m) * alphaStar l m = (l.rho : ℂ) * vsStar l := by
  unfold alphaStar; exact mul_div_cancel₀ _ (impedance_ne hm hr)

/-! ## Solutions of the wave equation -/

theorem const_of_deriv_zero {f : ℝ → ℂ} (h : ∀ z, HasDerivAt f 0 z) (x : ℝ) : f x = f 0 :=
  is_const_of_deriv_eq_zero (fun z => (h z).differentiableAt) (fun z => (h z).deriv) x 0

theorem exp_lin_deriv (c : ℂ) (z : ℝ) :
    HasDerivAt (fun z : ℝ => exp (c * (z : ℂ))) (exp (c * (z : ℂ)) * c) z := by
  have h1 : HasDerivAt (fun z : ℝ => c * (z : ℂ)) (c * 1) z :=
    (Complex.ofRealCLM.hasDerivAt (x := z)).const_mul c
  rw [mul_one] at h1
  exact h1.cexp

/-- Every solution is a sum of an up- and a downgoing wave. -/
theorem wave_form {w : ℝ} {l : Lay} (hw : 0 < w) (hv : 0 < l.vs) (hr : 0 < l.rho) {f : Field}
    (h : Wave w l f) (z : ℝ) :
    let k := kStar w l
    let A := upgoing k f
    let B := f.u 0 - A
    f.u z = A * exp (I * k * z) + B * exp (-I * k * z) ∧
    f.du z = I * k * (A * exp (I * k * z) - B * exp (-I * k * z)) := by
  intro k A B
  have hk0 : k ≠ 0 := kStar_ne hw hv
  have hik : I * k ≠ 0 := mul_ne_zero I_ne_zero hk0
  have hkk := (kStar_waveNumber hw hv (l := l)).1
  have hdd : ∀ z, HasDerivAt f.du (-(k ^ 2) * f.u z) z := by
    intro z
    obtain ⟨a, ha, he⟩ := (h z).2
    have : a = -(k ^ 2) * f.u z := by
      apply mul_left_cancel₀ (modulus_ne hv hr)
      rw [he]
      have : modulus l * (-(k ^ 2) * f.u z) = -(modulus l * k ^ 2) * f.u z := by ring
      rw [this, hkk]
    rw [← this]; exact ha
  have hp : ∀ c : ℂ, c ^ 2 = -(k ^ 2) → ∀ z : ℝ,
      (f.du z + c * f.u z) * exp (-c * (z : ℂ)) = f.du 0 + c * f.u 0 := by
    intro c hc z
    have := const_of_deriv_zero (f := fun z : ℝ => (f.du z + c * f.u z) * exp (-c * (z : ℂ))) (by
      intro z
      have := ((hdd z).add ((h z).1.const_mul c)).mul (exp_lin_deriv (-c) z)
      refine this.congr_deriv ?_
      show (-(k ^ 2) * f.u z + c * f.du z) * exp (-c * (z : ℂ))
        + (f.du z + c * f.u z) * (exp (-c * (z : ℂ)) * -c) = 0
      rw [← hc]; ring) z
    simpa using this
  have e1 : f.du z + I * k * f.u z = (f.du 0 + I * k * f.u 0) * exp (I * k * z) := by
    have := hp (I * k) (by rw [mul_pow, I_sq]; ring) z
    rw [← this, mul_assoc _ (exp _) (exp _), ← Complex.exp_add]
    simp
  have e2 : f.du z - I * k * f.u z = (f.du 0 - I * k * f.u 0) * exp (-I * k * z) := by
    have := hp (-(I * k)) (by rw [neg_sq, mul_pow, I_sq]; ring) z
    have h2 : f.du 0 - I * k * f.u 0 = f.du 0 + -(I * k) * f.u 0 := by ring
    rw [h2, ← this, mul_assoc _ (exp _) (exp _), ← Complex.exp_add]
    simp
    ring
  have hA : 2 * (I * k) * A = f.du 0 + I * k * f.u 0 := by
    simp only [A, upgoing]
    rw [show 2 * (I * k) * ((f.u 0 + f.du 0 / (I * k)) / 2)
      = I * k * f.u 0 + (I * k) * (f.du 0 / (I * k)) by ring, mul_div_cancel₀ _ hik]
    ring
  have hB : 2 * (I * k) * B = I * k * f.u 0 - f.du 0 := by
    simp only [B]; rw [mul_sub, hA]; ring
  constructor
  · apply mul_left_cancel₀ (mul_ne_zero two_ne_zero hik)
    have : 2 * (I * k) * f.u z = (f.du z + I * k * f.u z) - (f.du z - I * k * f.u z) := by ring
    rw [this, e1, e2, ← hA]
    rw [mul_add, ← mul_assoc _ A, ← mul_assoc _ B, hB]; ring
  · apply mul_left_cancel₀ (two_ne_zero (α := ℂ))
    have : 2 * f.du z = (f.du z + I * k * f.u z) + (f.du z - I * k * f.u z) := by ring
    rw [this, e1, e2, ← hA]
    rw [show 2 * (I * k * (A * exp (I * k * ↑z) - B * exp (-I * k * ↑z)))
      = 2 * (I * k) * A * exp (I * k * ↑z) - 2 * (I * k) * B * exp (-I * k * ↑z) by ring, hB]
    ring

/-- Amplitudes of a field. -/
noncomputable def ampl (w : ℝ) (l : Lay) (f : Field) : ℂ × ℂ :=
  (upgoing (kStar w l) f, f.u 0 - upgoing (kStar w l) f)

theorem ampl_sum (w : ℝ) (l : Lay) (f : Field) : (ampl w l f).1 + (ampl w l f).2 = f.u 0 := by
  unfold ampl; simp

theorem ampl_diff {w : ℝ} {l : Lay} (hw : 0 < w) (hv : 0 < l.vs) (f : Field) :
    I * kStar w l * ((ampl w l f).1 - (ampl w l f).2) = f.du 0 := by
  have hik : I * kStar w l ≠ 0 := mul_ne_zero I_ne_zero (kStar_ne hw hv)
  unfold ampl upgoing
  simp only
  rw [show I * kStar w l * ((f.u 0 + f.du 0 / (I * kStar w l)) / 2 -
    (f.u 0 - (f.u 0 + f.du 0 / (I * kStar w l)) / 2)) = (I * kStar w l) * (f.du 0 / (I * kStar w l)) by ring,
    mul_div_cancel₀ _ hik]

theorem ampl_interface {w : ℝ} {l m : Lay} (hw : 0 < w) (hv : 0 < l.vs) (hr : 0 < l.rho)
    (hv' : 0 < m.vs) (hr' : 0 < m.rho) {f g : Field} (hf : Wave w l f)
    (hi : Interface l m f g) : ampl w m g = (dMat w l m).app (ampl w l f) := by
  obtain ⟨hu, ht⟩ := hi
  obtain ⟨w1, w2⟩ := wave_form hw hv hr hf l.h
  obtain ⟨d1, d2⟩ := dMat_app w l m (ampl w l f)
  have s1 := ampl_sum w m g
  have s2 := ampl_diff hw hv' g (l := m)
  have hZ := impedance_ne hv' hr' (l := m)
  have hwc : (w : ℂ) ≠ 0 := by exact_mod_cast hw.ne'
  -- differences agree
  have hd : (ampl w m g).1 - (ampl w m g).2
      = ((dMat w l m).app (ampl w l f)).1 - ((dMat w l m).app (ampl w l f)).2 := by
    rw [d2]
    apply mul_left_cancel₀ (mul_ne_zero (mul_ne_zero I_ne_zero hwc) hZ)
    have hG : ∀ l : Lay, 0 < l.vs → modulus l * kStar w l = w * ((l.rho : ℂ) * vsStar l) := by
      intro l h
      rw [modulus_eq, ← kStar_mul (w := w) h]; ring
    have lhs : I * (w : ℂ) * ((m.rho : ℂ) * vsStar m) * ((ampl w m g).1 - (ampl w m g).2)
        = modulus m * g.du 0 := by
      rw [← s2, ← mul_assoc (modulus m), show modulus m * (I * kStar w m) = I * (modulus m * kStar w m) by ring,
        hG m hv']; ring
    rw [lhs, ← ht, w2]
    have : I * (w : ℂ) * ((m.rho : ℂ) * vsStar m) * (alphaStar l m *
        ((ampl w l f).1 * exp (I * kStar w l * l.h) - (ampl w l f).2 * exp (-I * kStar w l * l.h)))
        = I * (w : ℂ) * ((m.rho : ℂ) * vsStar m * alphaStar l m) *
        ((ampl w l f).1 * exp (I * kStar w l * l.h) - (ampl w l f).2 * exp (-I * kStar w l * l.h)) := by ring
    rw [this, alphaStar_mul hv' hr', show I * (w : ℂ) * (↑l.rho * vsStar l) = I * (w * (↑l.rho * vsStar l)) by ring,
      ← hG l hv]
    unfold ampl; ring
  have hs : (ampl w m g).1 + (ampl w m g).2
      = ((dMat w l m).app (ampl w l f)).1 + ((dMat w l m).app (ampl w l f)).2 := by
    rw [d1, s1, ← hu, w1]; rfl
  ext
  · have : (ampl w m g).1 = (((ampl w m g).1 + (ampl w m g).2) + ((ampl w m g).1 - (ampl w m g).2)) / 2 := by ring
    rw [this, hs, hd]; ring
  · have : (ampl w m g).2 = (((ampl w m g).1 + (ampl w m g).2) - ((ampl w m g).1 - (ampl w m g).2)) / 2 := by ring
    rw [this, hs, hd]; ring

/-- The matrix product carries the amplitudes of the top layer to those of the bottom
layer. -/
theorem eMat_ampl {w : ℝ} (hw : 0 < w) : ∀ (ls : List Lay) (fs : List Field) (l : Lay) (f : Field),
    (∀ x ∈ l :: ls, 0 < x.vs ∧ 0 < x.rho) →
    List.Forall₂ (Wave w) (l :: ls) (f :: fs) →
    (∀ (k : Nat) a b x y, (l :: ls)[k]? = some a → (l :: ls)[k + 1]? = some b →
      (f :: fs)[k]? = some x → (f :: fs)[k + 1]? = some y → Interface a b x y) →
    ∃ (m : Lay) (g : Field), (l :: ls).getLast? = some m ∧ (f :: fs).getLast? = some g ∧ Wave w m g ∧
      (eMat w (l :: ls)).app (ampl w l f) = ampl w m g := by
  intro ls
  induction ls with
  | nil =>
    intro fs l f hp hf hi
    cases hf with
    | cons h1 h2 =>
      cases h2
      exact ⟨l, f, rfl, rfl, h1, by rw [eMat_one, M2.app_id]⟩
  | cons m ls ih =>
    intro fs l f hp hf hi
    cases hf with
    | cons h1 h2 =>
      cases fs with
      | nil => cases h2
      | cons g fs =>
        have hI := hi 0 l m f g rfl rfl rfl rfl
        obtain ⟨m', g', hm, hg, hw', he⟩ := ih fs m g (fun x hx => hp x (by simp [hx])) h2
          (fun k a b x y ha hb hx hy => hi (k + 1) a b x y (by simpa using ha) (by simpa using hb)
            (by simpa using hx) (by simpa using hy))
        refine ⟨m', g', by simpa using hm, by simpa using hg, hw', ?_⟩
        rw [eMat_cons, M2.app_dot]
        have hl := hp l (by simp)
        have hmm := hp m (by simp)
        rw [← ampl_interface hw hl.1 hl.2 hmm.1 hmm.2 h1 hI, he]

end Verif
