import Verif.Proof.Transfer

/-!
Energy flux through a damped column: it grows downwards, so the denominators of the
transfer functions do not vanish.
-/

set_option linter.unusedSectionVars false
set_option linter.unusedVariables false

open Complex ComplexConjugate

namespace Verif

open Spec

/-- Energy flux (up to a positive factor) at depth `z` of a layer with amplitudes `p`. -/
noncomputable def fluxAt (w : ℝ) (l : Lay) (p : ℂ × ℂ) (z : ℝ) : ℝ :=
  (conj (p.1 * exp (I * kStar w l * z) + p.2 * exp (-I * kStar w l * z)) *
    (I * w * ((l.rho : ℂ) * vsStar l) *
      (p.1 * exp (I * kStar w l * z) - p.2 * exp (-I * kStar w l * z)))).im

theorem fluxAt_deriv {w : ℝ} {l : Lay} (hv : 0 < l.vs) (p : ℂ × ℂ) (z : ℝ) :
    HasDerivAt (fluxAt w l p)
      (w * normSq (p.1 * exp (I * kStar w l * z) - p.2 * exp (-I * kStar w l * z)) *
        (conj (kStar w l) * ((l.rho : ℂ) * vsStar l)).im) z := by
  set k := kStar w l with hk
  set Z := (l.rho : ℂ) * vsStar l with hZ
  have hkZ : k * Z = (l.rho : ℂ) * w := by
    rw [hZ, ← kStar_mul (w := w) hv, ← hk]; ring
  have ha : HasDerivAt (fun z : ℝ => p.1 * exp (I * k * (z : ℂ))) (p.1 * (exp (I * k * (z : ℂ)) * (I * k))) z :=
    (exp_lin_deriv (I * k) z).const_mul p.1
  have hb : HasDerivAt (fun z : ℝ => p.2 * exp (-I * k * (z : ℂ))) (p.2 * (exp (-I * k * (z : ℂ)) * (-I * k))) z :=
    (exp_lin_deriv (-I * k) z).const_mul p.2
  have hu := ha.add hb
  have ht := (ha.sub hb).const_mul (I * w * Z)
  have hcu := hu.star
  have hprod := hcu.mul ht
  have him := Complex.imCLM.hasFDerivAt.comp_hasDerivAt z hprod
  refine HasDerivAt.congr_deriv (f' := _) him ?_
  set a := p.1 * exp (I * k * (z : ℂ)) with hadef
  set b := p.2 * exp (-I * k * (z : ℂ)) with hbdef
  have e1 : p.1 * (exp (I * k * (z : ℂ)) * (I * k)) = I * k * a := by rw [hadef]; ring
  have e2 : p.2 * (exp (-I * k * (z : ℂ)) * (-I * k)) = -(I * k * b) := by rw [hbdef]; ring
  show (conj (p.1 * (exp (I * k * (z : ℂ)) * (I * k)) + p.2 * (exp (-I * k * (z : ℂ)) * (-I * k))) *
      (I * w * Z * (a - b)) + conj (a + b) * (I * w * Z *
        (p.1 * (exp (I * k * (z : ℂ)) * (I * k)) - p.2 * (exp (-I * k * (z : ℂ)) * (-I * k))))).im = _
  rw [e1, e2]
  have h1 : conj (I * k * a + -(I * k * b)) * (I * w * Z * (a - b))
      = ((w * normSq (a - b) : ℝ) : ℂ) * (conj k * Z) := by
    rw [show I * k * a + -(I * k * b) = I * k * (a - b) by ring, map_mul, map_mul, Complex.conj_I]
    push_cast
    rw [Complex.normSq_eq_conj_mul_self]
    linear_combination (-(conj k * conj (a - b) * w * Z * (a - b))) * I_sq
  have h2 : conj (a + b) * (I * w * Z * (I * k * a - -(I * k * b)))
      = ((-(w * l.rho * w * normSq (a + b)) : ℝ) : ℂ) := by
    push_cast
    rw [Complex.normSq_eq_conj_mul_self]
    linear_combination (conj (a + b) * w * Z * k * (a + b)) * I_sq - (conj (a + b) * (a + b) * w) * hkZ
  rw [h1, h2, Complex.add_im, Complex.ofReal_im, add_zero, Complex.im_ofReal_mul]

theorem dissipation_pos {w : ℝ} {l : Lay} (hw : 0 < w) (hl : DampedLay l) :
    0 < (conj (kStar w l) * ((l.rho : ℂ) * vsStar l)).im := by
  obtain ⟨_, hv, hr, hx⟩ := hl
  have hn := vsStar_ne hv
  have hn' : conj (vsStar l) ≠ 0 := by simpa using hn
  have hpos : 0 < normSq (vsStar l) := Complex.normSq_pos.2 hn
  have : conj (kStar w l) * ((l.rho : ℂ) * vsStar l)
      = ((w * l.rho / normSq (vsStar l) : ℝ) : ℂ) * vsStar l ^ 2 := by
    unfold kStar
    push_cast
    rw [map_div₀, Complex.conj_ofReal, Complex.normSq_eq_conj_mul_self]
    field_simp
  rw [this, Complex.im_ofReal_mul, vsStar_sq]
  have h2 : ((l.vs : ℂ) ^ 2 * (1 + 2 * I * (l.xi : ℂ))).im = 2 * l.vs ^ 2 * l.xi := by
    rw [← Complex.ofReal_pow, Complex.im_ofReal_mul]
    simp
    ring
  rw [h2]
  positivity

theorem kStar_im_neg {w : ℝ} {l : Lay} (hw : 0 < w) (hl : DampedLay l) : (kStar w l).im < 0 := by
  have h := dissipation_pos hw hl
  obtain ⟨_, hv, hr, hx⟩ := hl
  have hk := kStar_re_pos hw hv (l := l)
  have hvr := vsStar_re_pos hv (l := l)
  -- the imaginary part of k * vsStar vanishes
  have h0 := congrArg Complex.im (kStar_mul (w := w) hv)
  rw [Complex.mul_im, Complex.ofReal_im] at h0
  rw [show conj (kStar w l) * ((l.rho : ℂ) * vsStar l) = (l.rho : ℂ) * (conj (kStar w l) * vsStar l) by ring,
    Complex.im_ofReal_mul, Complex.mul_im, Complex.conj_re, Complex.conj_im] at h
  by_contra hc
  push Not at hc
  have h3 : 0 ≤ (kStar w l).im * (vsStar l).re := mul_nonneg hc hvr.le
  have h4 : (kStar w l).re * (vsStar l).im + -(kStar w l).im * (vsStar l).re ≤ 0 := by linarith
  have : l.rho * ((kStar w l).re * (vsStar l).im + -(kStar w l).im * (vsStar l).re) ≤ 0 :=
    mul_nonpos_of_nonneg_of_nonpos hr.le h4
  linarith

theorem fluxAt_mono {w : ℝ} {l : Lay} (hw : 0 < w) (hl : DampedLay l) (p : ℂ × ℂ) :
    Monotone (fluxAt w l p) := by
  apply monotone_of_deriv_nonneg (fun z => (fluxAt_deriv hl.2.1 p z).differentiableAt)
  intro z
  rw [(fluxAt_deriv hl.2.1 p z).deriv]
  exact mul_nonneg (mul_nonneg hw.le (Complex.normSq_nonneg _)) (dissipation_pos hw hl).le

theorem fluxAt_strict {w : ℝ} {l : Lay} (hw : 0 < w) (hl : DampedLay l) {c : ℂ} (hc : c ≠ 0)
    (hh : 0 < l.h) : 0 < fluxAt w l (c, c) l.h := by
  have h0 : fluxAt w l (c, c) 0 = 0 := by unfold fluxAt; simp
  rw [← h0]
  have hs : StrictMonoOn (fluxAt w l (c, c)) (Set.Ici 0) := by
    apply strictMonoOn_of_deriv_pos (convex_Ici 0)
    · exact fun z _ => (fluxAt_deriv hl.2.1 (c, c) z).continuousAt.continuousWithinAt
    · intro z hz
      rw [interior_Ici] at hz
      have hz : 0 < z := hz
      rw [(fluxAt_deriv hl.2.1 (c, c) z).deriv]
      refine mul_pos (mul_pos hw (Complex.normSq_pos.2 ?_)) (dissipation_pos hw hl)
      simp only
      rw [← mul_sub]
      refine mul_ne_zero hc ?_
      intro he
      have := congrArg norm (sub_eq_zero.1 he)
      rw [Complex.norm_exp, Complex.norm_exp] at this
      have h2 := Real.exp_injective this
      have hk := kStar_im_neg hw hl
      have e1 : (I * kStar w l * (z : ℂ)).re = -((kStar w l).im * z) := by simp
      have e2 : (-I * kStar w l * (z : ℂ)).re = (kStar w l).im * z := by simp
      rw [e1, e2] at h2
      have : (kStar w l).im * z < 0 := mul_neg_of_neg_of_pos hk hz
      linarith
  exact hs (Set.mem_Ici.2 le_rfl) (Set.mem_Ici.2 hh.le) hh

theorem flux_interface {w : ℝ} {l m : Lay} (hv : 0 < m.vs) (hr : 0 < m.rho) (p : ℂ × ℂ) :
    fluxAt w m ((dMat w l m).app p) 0 = fluxAt w l p l.h := by
  obtain ⟨d1, d2⟩ := dMat_app w l m p
  unfold fluxAt
  simp only [Complex.ofReal_zero, mul_zero, Complex.exp_zero, mul_one]
  rw [d1, d2]
  congr 2
  rw [← alphaStar_mul hv hr (l := l)]
  ring

/-- State carried down the column. -/
def Flows (w : ℝ) (l : Lay) (p : ℂ × ℂ) : Prop := 0 < fluxAt w l p 0 ∨ (p.1 = p.2 ∧ p.1 ≠ 0)

theorem flows_step {w : ℝ} {l m : Lay} (hw : 0 < w) (hl : DampedLay l) (hm : DampedLay m)
    {p : ℂ × ℂ} (h : Flows w l p) : Flows w m ((dMat w l m).app p) := by
  rcases h with h | ⟨h1, h2⟩
  · left
    rw [flux_interface hm.2.1 hm.2.2.1]
    exact lt_of_lt_of_le h (fluxAt_mono hw hl p hl.1)
  · have hp : p = (p.1, p.1) := by ext <;> simp [h1]
    rcases hl.1.eq_or_lt with hz | hz
    · right
      obtain ⟨d1, d2⟩ := dMat_app w l m p
      rw [← hz] at d1 d2
      simp only [Complex.ofReal_zero, mul_zero, Complex.exp_zero, mul_one] at d1 d2
      rw [← h1, sub_self, mul_zero, sub_eq_zero] at d2
      refine ⟨d2, ?_⟩
      intro hc
      rw [← d2, hc, ← h1] at d1
      apply h2
      have : p.1 + p.1 = 0 := by rw [← d1]; ring
      linear_combination this / 2
    · left
      rw [flux_interface hm.2.1 hm.2.2.1, hp]
      exact fluxAt_strict hw hl h2 hz

theorem flows_eMat {w : ℝ} (hw : 0 < w) : ∀ (ls : List Lay) (l : Lay) (p : ℂ × ℂ),
    (∀ x ∈ l :: ls, DampedLay x) → Flows w l p →
    ∃ m ∈ l :: ls, Flows w m ((eMat w (l :: ls)).app p) := by
  intro ls
  induction ls with
  | nil => intro l p h hp; exact ⟨l, by simp, by rw [eMat_one, M2.app_id]; exact hp⟩
  | cons m ls ih =>
    intro l p h hp
    obtain ⟨m', hm', hf⟩ := ih m _ (fun x hx => h x (by simp [hx]))
      (flows_step hw (h l (by simp)) (h m (by simp)) hp)
    refine ⟨m', by simp at hm' ⊢; tauto, ?_⟩
    rw [eMat_cons, M2.app_dot]; exact hf

theorem flows_ne {w : ℝ} {l : Lay} (hw : 0 < w) (hl : DampedLay l) {p : ℂ × ℂ}
    (h : Flows w l p) : p.1 ≠ 0 ∧ p.1 + p.2 ≠ 0 := by
  rcases h with h | ⟨h1, h2⟩
  · unfold fluxAt at h
    simp only [Complex.ofReal_zero, mul_zero, Complex.exp_zero, mul_one] at h
    constructor
    · intro hc
      rw [hc] at h
      have : conj (0 + p.2) * (I * w * ((l.rho : ℂ) * vsStar l) * (0 - p.2))
          = ((-(w * l.rho * normSq p.2) : ℝ) : ℂ) * (I * vsStar l) := by
        push_cast
        rw [Complex.normSq_eq_conj_mul_self, zero_add]; ring
      rw [this, Complex.im_ofReal_mul] at h
      have h3 : (I * vsStar l).im = (vsStar l).re := by simp
      rw [h3] at h
      have h4 : 0 ≤ w * l.rho * normSq p.2 := mul_nonneg (mul_nonneg hw.le hl.2.2.1.le) (Complex.normSq_nonneg _)
      have := mul_nonneg h4 (vsStar_re_pos hl.2.1).le
      linarith
    · intro hc
      rw [hc] at h; simp at h
  · refine ⟨h2, ?_⟩
    rw [← h1]
    intro hc; apply h2
    linear_combination hc / 2

/-- The denominators of the transfer functions. -/
theorem den_ne {w : ℝ} (hw : 0 < w) {ls : List Lay} (hne : ls ≠ []) (h : ∀ x ∈ ls, DampedLay x) :
    (eMat w ls).a + (eMat w ls).b ≠ 0 ∧
    (eMat w ls).a + (eMat w ls).c + (eMat w ls).b + (eMat w ls).d ≠ 0 := by
  match ls, hne with
  | l :: ls, _ =>
    obtain ⟨m, hm, hf⟩ := flows_eMat hw ls l (1, 1) h (Or.inr ⟨rfl, one_ne_zero⟩)
    obtain ⟨h1, h2⟩ := flows_ne hw (h m hm) hf
    obtain ⟨e1, e2⟩ := eMat_den w (l :: ls)
    rw [e1, e2]
    exact ⟨h1, h2⟩

end Verif
