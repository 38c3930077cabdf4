import Verif.Proof.Flux
import Verif.Props.MotionObj
import Verif.Proof.Stratify

/-!
Properties C33, C34, C35 and C79: the linear solvers.
-/

set_option linter.unusedSectionVars false
set_option linter.unusedVariables false

open Complex

namespace Verif

open Spec

/-! ## C33: consistency of the transfer functions -/

/-- C33: the incident-motion function is twice the outcrop function. -/
theorem C33_ratio (w : ℝ) (ls : List Lay) : tfIn w ls = 2 * tfRo w ls := by
  unfold tfIn tfRo; ring

/-- C33: a uniform half space does not amplify. -/
theorem C33_uniform (w : ℝ) (l : Lay) :
    tfRo w [l] = 1 ∧ tfIn w [l] = 2 ∧ tfBh w [l] = 1 := by
  unfold tfRo tfIn tfBh
  rw [eMat_one]
  unfold M2.id
  norm_num

/-- C33: for every harmonic motion of the column with a free surface, TF_ro is the ratio
of the surface displacement to the rock-outcrop displacement (twice the incident
amplitude), TF_in its ratio to the incident amplitude and TF_bh its ratio to the total
displacement at the base. -/
theorem C33_wave (w : ℝ) (hw : 0 < w) (ls : List Lay) (hd : ∀ l ∈ ls, DampedLay l)
    (fs : List Spec.Field) (hs : SiteResponse w ls fs)
    (f g : Spec.Field) (m : Lay) (hf : fs.head? = some f) (hg : fs.getLast? = some g)
    (hm : ls.getLast? = some m) (k : ℂ) (hk : WaveNumber w m k) :
    tfRo w ls * (2 * upgoing k g) = f.u 0 ∧ tfIn w ls * upgoing k g = f.u 0 ∧
    tfBh w ls * g.u 0 = f.u 0 := by
  match fs, hf with
  | f' :: fs, hf =>
  obtain rfl : f' = f := by simpa using hf
  match ls, hs.wave with
  | l :: ls, hwv =>
  obtain ⟨m', g', hm', hg', -, he⟩ := eMat_ampl hw ls fs l f'
    (fun x hx => ⟨(hd x hx).2.1, (hd x hx).2.2.1⟩) hwv hs.interfaces
  obtain rfl : m' = m := by rw [hm'] at hm; simpa using hm
  obtain rfl : g' = g := by rw [hg'] at hg; simpa using hg
  have hmd := hd m' (List.mem_of_getLast? hm')
  rw [waveNumber_unique hw hmd.2.1 hmd.2.2.1 hk]
  have hl := hd l (by simp)
  -- the surface amplitudes are equal
  have h0 := hs.surface f' rfl
  have hdiff := ampl_diff hw hl.2.1 f' (l := l)
  rw [h0] at hdiff
  have hik : I * kStar w l ≠ 0 := mul_ne_zero I_ne_zero (kStar_ne hw hl.2.1)
  have hab : (ampl w l f').1 = (ampl w l f').2 := by
    rcases mul_eq_zero.1 hdiff with h | h
    · exact absurd h hik
    · exact sub_eq_zero.1 h
  have hsum := ampl_sum w l f'
  set c := (ampl w l f').1 with hc
  have hamp : ampl w l f' = (c * ((1, 1) : ℂ × ℂ).1, c * ((1, 1) : ℂ × ℂ).2) := by
    ext
    · simp [hc]
    · simp [hab]
  rw [hamp, app_smul] at he
  obtain ⟨n1, n2⟩ := den_ne hw (by simp) hd
  obtain ⟨e1, e2⟩ := eMat_den w (l :: ls)
  have hu : upgoing (kStar w m') g' = c * ((eMat w (l :: ls)).a + (eMat w (l :: ls)).b) := by
    rw [e1]; exact (congrArg Prod.fst he).symm
  have hg0 : g'.u 0 = c * ((eMat w (l :: ls)).a + (eMat w (l :: ls)).c + (eMat w (l :: ls)).b
      + (eMat w (l :: ls)).d) := by
    rw [e2, ← ampl_sum w m' g', ← he]; simp; ring
  have hf0 : f'.u 0 = 2 * c := by rw [← hsum, ← hab]; ring
  unfold tfRo tfIn tfBh
  rw [hu, hg0, hf0]
  refine ⟨?_, ?_, ?_⟩
  · field_simp
  · field_simp
  · field_simp

/-- Field of given amplitudes. -/
noncomputable def fieldOf (w : ℝ) (l : Lay) (p : ℂ × ℂ) : Spec.Field where
  u := fun z => p.1 * exp (I * kStar w l * (z : ℂ)) + p.2 * exp (-I * kStar w l * (z : ℂ))
  du := fun z => I * kStar w l *
    (p.1 * exp (I * kStar w l * (z : ℂ)) - p.2 * exp (-I * kStar w l * (z : ℂ)))

noncomputable def fieldsOf (w : ℝ) : (ℂ × ℂ) → Lay → List Lay → List Spec.Field
  | p, l, [] => [fieldOf w l p]
  | p, l, m :: ls => fieldOf w l p :: fieldsOf w ((dMat w l m).app p) m ls

theorem fieldOf_wave {w : ℝ} {l : Lay} (hw : 0 < w) (hv : 0 < l.vs) (p : ℂ × ℂ) :
    Wave w l (fieldOf w l p) := by
  intro z
  set k := kStar w l with hk
  have ha : HasDerivAt (fun z : ℝ => p.1 * exp (I * k * (z : ℂ))) (p.1 * (exp (I * k * (z : ℂ)) * (I * k))) z :=
    (exp_lin_deriv (I * k) z).const_mul p.1
  have hb : HasDerivAt (fun z : ℝ => p.2 * exp (-I * k * (z : ℂ))) (p.2 * (exp (-I * k * (z : ℂ)) * (-I * k))) z :=
    (exp_lin_deriv (-I * k) z).const_mul p.2
  refine ⟨(ha.add hb).congr_deriv ?_, _, (ha.sub hb).const_mul (I * k), ?_⟩
  · simp only [fieldOf, ← hk]; ring
  · rw [← (kStar_waveNumber hw hv (l := l)).1]
    simp only [fieldOf, ← hk]
    linear_combination (modulus l * k ^ 2 * (p.1 * exp (I * k * (z : ℂ)) + p.2 * exp (-I * k * (z : ℂ)))) * I_sq

theorem fieldsOf_spec {w : ℝ} (hw : 0 < w) : ∀ (ls : List Lay) (l : Lay) (p : ℂ × ℂ),
    (∀ x ∈ l :: ls, 0 < x.vs ∧ 0 < x.rho) →
    List.Forall₂ (Wave w) (l :: ls) (fieldsOf w p l ls) ∧
    (fieldsOf w p l ls).head? = some (fieldOf w l p) ∧
    ∀ (k : Nat) a b x y, (l :: ls)[k]? = some a → (l :: ls)[k + 1]? = some b →
      (fieldsOf w p l ls)[k]? = some x → (fieldsOf w p l ls)[k + 1]? = some y → Interface a b x y := by
  intro ls
  induction ls with
  | nil =>
    intro l p h
    refine ⟨.cons (fieldOf_wave hw (h l (by simp)).1 p) .nil, rfl, ?_⟩
    intro k a b x y ha hb
    simp at hb
  | cons m ls ih =>
    intro l p h
    obtain ⟨i1, i2, i3⟩ := ih m ((dMat w l m).app p) (fun x hx => h x (by simp [hx]))
    refine ⟨.cons (fieldOf_wave hw (h l (by simp)).1 p) i1, rfl, ?_⟩
    intro k a b x y ha hb hx hy
    cases k with
    | zero =>
      simp only [fieldsOf, List.getElem?_cons_zero, Option.some.injEq, zero_add,
        List.getElem?_cons_succ] at ha hb hx hy
      subst ha; subst hb; subst hx
      rw [← List.head?_eq_getElem?, i2] at hy
      obtain rfl := Option.some.inj hy
      obtain ⟨d1, d2⟩ := dMat_app w l m p
      have hm := h m (by simp)
      have hl := h l (by simp)
      constructor
      · simp only [fieldOf, Complex.ofReal_zero, mul_zero, Complex.exp_zero, mul_one]
        rw [d1]
      · simp only [fieldOf, Complex.ofReal_zero, mul_zero, Complex.exp_zero, mul_one]
        rw [d2]
        have hG : ∀ l : Lay, 0 < l.vs → modulus l * kStar w l = w * ((l.rho : ℂ) * vsStar l) := by
          intro l h
          rw [modulus_eq, ← kStar_mul (w := w) h]; ring
        have e1 := hG m hm.1
        have e2 := hG l hl.1
        rw [← alphaStar_mul hm.1 hm.2 (l := l)] at e2
        linear_combination (I * (p.1 * exp (I * kStar w l * l.h) - p.2 * exp (-I * kStar w l * l.h))) * e2
          - (I * alphaStar l m * (p.1 * exp (I * kStar w l * l.h) - p.2 * exp (-I * kStar w l * l.h))) * e1
    | succ k =>
      exact i3 k a b x y (by simpa using ha) (by simpa using hb) (by simpa [fieldsOf] using hx)
        (by simpa [fieldsOf] using hy)

/-- C33, the specification is satisfiable: every column has a harmonic motion with unit
surface displacement, so the transfer functions of `C33_wave` are determined by it. -/
theorem C33_realised (w : ℝ) (hw : 0 < w) (ls : List Lay) (hne : ls ≠ [])
    (hd : ∀ l ∈ ls, 0 < l.vs ∧ 0 < l.rho) :
    ∃ fs f, SiteResponse w ls fs ∧ fs.head? = some f ∧ f.u 0 = 1 := by
  match ls, hne with
  | l :: ls, _ =>
    obtain ⟨i1, i2, i3⟩ := fieldsOf_spec hw ls l (1 / 2, 1 / 2) hd
    refine ⟨_, _, ⟨i1, ?_, i3⟩, i2, ?_⟩
    · intro f hf
      rw [i2] at hf
      obtain rfl := Option.some.inj hf
      simp [fieldOf]
    · simp [fieldOf]
      norm_num

/-- C33: at zero frequency the column moves as a rigid body. -/
theorem C33_static (ls : List Lay) : tfRo 0 ls = 1 ∧ tfIn 0 ls = 2 ∧ tfBh 0 ls = 1 := by
  have key : (eMat 0 ls).app (1, 1) = (1, 1) := by
    match ls with
    | [] => rw [eMat_nil, M2.app_id]
    | l :: ls =>
      induction ls generalizing l with
      | nil => rw [eMat_one, M2.app_id]
      | cons m ls ih =>
        rw [eMat_cons, M2.app_dot]
        have : (dMat 0 l m).app (1, 1) = (1, 1) := by
          unfold M2.app dMat kStar
          ext <;> simp <;> ring
        rw [this, ih]
  obtain ⟨e1, e2⟩ := eMat_den 0 ls
  unfold tfRo tfIn tfBh
  rw [e1, e2, key]
  norm_num

/-- C33: the amplification functions are the moduli of the transfer functions, on the
frequencies df, 2df, …, the multiples of `df` up to `fmax`. -/
theorem C33_grid (ls : List Lay) (df fmax : ℝ) (hdf : 0 < df) (i : Nat) :
    (((linearTf ls df fmax)[i]? = none) ↔ fmax < ((i : ℝ) + 1) * df) ∧
    ∀ row, (linearTf ls df fmax)[i]? = some row →
      row.1 = ((i : ℝ) + 1) * df ∧
      row.2.1 = (tfRo (2 * Real.pi * row.1) ls, tfIn (2 * Real.pi * row.1) ls, tfBh (2 * Real.pi * row.1) ls) ∧
      row.2.2 = (‖row.2.1.1‖, ‖row.2.1.2.1‖, ‖row.2.1.2.2‖) := by
  have hlen : (linearTf ls df fmax).length = ⌊fmax / df⌋.toNat := by
    unfold linearTf tfFreqs; rw [List.length_map, linspace_length]
  constructor
  · rw [List.getElem?_eq_none_iff, hlen, Int.toNat_le]
    have : (i : ℤ) + 1 > ⌊fmax / df⌋ ↔ fmax / df < (i : ℝ) + 1 := by
      have := Int.floor_lt (a := fmax / df) (z := (i : ℤ) + 1)
      push_cast at this
      exact this
    rw [← Int.lt_add_one_iff]
    constructor
    · intro h
      have := this.1 h
      rwa [div_lt_iff₀ hdf] at this
    · intro h
      apply this.2
      rwa [div_lt_iff₀ hdf]
  · intro row hrow
    have hi : i < ⌊fmax / df⌋.toNat := by
      rw [← hlen]; exact (List.getElem?_eq_some_iff.1 hrow).1
    unfold linearTf at hrow
    rw [List.getElem?_map] at hrow
    unfold tfFreqs at hrow
    rw [linspace_getElem? _ _ _ _ hi] at hrow
    simp only [Option.map_some, Option.some.injEq] at hrow
    have hf : df + (i : ℝ) * ((df * (⌊fmax / df⌋.toNat : ℝ) - df) / ((⌊fmax / df⌋.toNat : ℝ) - 1))
        = ((i : ℝ) + 1) * df := by
      rcases Nat.eq_zero_or_pos i with h0 | h0
      · subst h0; simp
      · have : ((⌊fmax / df⌋.toNat : ℝ) - 1) ≠ 0 := by
          have : (1 : ℝ) < (⌊fmax / df⌋.toNat : ℝ) := by exact_mod_cast by omega
          linarith
        rw [show df * (⌊fmax / df⌋.toNat : ℝ) - df = df * ((⌊fmax / df⌋.toNat : ℝ) - 1) by ring,
          mul_div_assoc, div_self this]
        ring
    rw [hf] at hrow
    rw [← hrow]
    exact ⟨rfl, rfl, rfl⟩

/-! ## C79: the transfer functions are finite -/

/-- C79: for a profile with positive damping no denominator vanishes at any positive
frequency, so no transfer function value is infinite or undefined. -/
theorem C79_finite (w : ℝ) (hw : 0 < w) (ls : List Lay) (hne : ls ≠ [])
    (hd : ∀ l ∈ ls, DampedLay l) :
    (eMat w ls).a + (eMat w ls).b ≠ 0 ∧
    (eMat w ls).a + (eMat w ls).c + (eMat w ls).b + (eMat w ls).d ≠ 0 :=
  den_ne hw hne hd

/-- C79: hence no transfer function value is zero either. -/
theorem C79_nonzero (w : ℝ) (hw : 0 < w) (ls : List Lay) (hne : ls ≠ [])
    (hd : ∀ l ∈ ls, DampedLay l) : tfRo w ls ≠ 0 ∧ tfIn w ls ≠ 0 ∧ tfBh w ls ≠ 0 := by
  obtain ⟨h1, h2⟩ := den_ne hw hne hd
  exact ⟨div_ne_zero one_ne_zero h1, div_ne_zero two_ne_zero h1, div_ne_zero two_ne_zero h2⟩

/-- The profile used as a witness: 10 m of soil on rock. -/
noncomputable def demoLays : List Lay := [⟨10, 200, 1 / 20, 1800⟩, ⟨0, 1000, 1 / 100, 2400⟩]

theorem demoLays_damped : ∀ l ∈ demoLays, DampedLay l := by
  intro l hl
  simp only [demoLays, List.mem_cons, List.not_mem_nil, or_false] at hl
  rcases hl with rfl | rfl <;> refine ⟨?_, ?_, ?_, ?_⟩ <;> norm_num

example : tfBh 3 demoLays ≠ 0 := (C79_nonzero 3 (by norm_num) demoLays (by simp [demoLays]) demoLays_damped).2.2

/-- C79 needs damping: an undamped layer on a base resonates, the borehole denominator
vanishes at the frequency Vs/(4h). -/
theorem C79_needs_damping :
    ∃ (w : ℝ) (ls : List Lay), 0 < w ∧ (∀ l ∈ ls, 0 ≤ l.h ∧ 0 < l.vs ∧ 0 < l.rho ∧ 0 ≤ l.xi) ∧
      (eMat w ls).a + (eMat w ls).c + (eMat w ls).b + (eMat w ls).d = 0 := by
  refine ⟨Real.pi / 2, [⟨1, 1, 0, 1⟩, ⟨0, 1, 0, 1⟩], by positivity, ?_, ?_⟩
  · intro l hl
    simp only [List.mem_cons, List.not_mem_nil, or_false] at hl
    rcases hl with rfl | rfl <;> norm_num
  · rw [(eMat_den _ _).2, eMat_cons, eMat_one, M2.id_dot, (dMat_app _ _ _ _).1]
    have hv : vsStar ⟨1, 1, 0, 1⟩ = 1 := by
      unfold vsStar csqrt; simp
    have hk : kStar (Real.pi / 2) ⟨1, 1, 0, 1⟩ = (Real.pi / 2 : ℂ) := by
      unfold kStar; rw [hv]; push_cast; simp
    simp only [hk, Complex.ofReal_one, mul_one, one_mul]
    rw [show I * (Real.pi / 2 : ℂ) = (Real.pi / 2 : ℂ) * I by ring,
      show -I * (Real.pi / 2 : ℂ) = -(Real.pi / 2 : ℂ) * I by ring]
    rw [Complex.exp_mul_I, Complex.exp_mul_I, Complex.cos_neg, Complex.sin_neg, Complex.cos_pi_div_two]
    ring

/-! ## C34: subdividing a layer -/

theorem alphaStar_self {l m : Lay} (hv : 0 < l.vs) (hr : 0 < l.rho)
    (h : m.vs = l.vs ∧ m.xi = l.xi ∧ m.rho = l.rho) : alphaStar l m = 1 := by
  obtain ⟨h1, h2, h3⟩ := h
  unfold alphaStar
  have : vsStar m = vsStar l := by unfold vsStar; rw [h1, h2]
  rw [this, h3]
  exact div_self (impedance_ne hv hr)

theorem dMat_split (w : ℝ) (l m : Lay) (a b : ℝ) (hv : 0 < l.vs) (hr : 0 < l.rho) :
    (dMat w { l with h := b } m).dot (dMat w { l with h := a } { l with h := b })
      = dMat w { l with h := a + b } m := by
  have h1 : alphaStar { l with h := a } { l with h := b } = 1 :=
    alphaStar_self (l := { l with h := a }) hv hr ⟨rfl, rfl, rfl⟩
  have ha : ∀ x, alphaStar { l with h := x } m = alphaStar l m := fun x => rfl
  have hk : ∀ x, kStar w { l with h := x } = kStar w l := fun x => rfl
  unfold M2.dot dMat
  simp only [h1, ha, hk]
  push_cast
  rw [show I * kStar w l * ((a : ℂ) + b) = I * kStar w l * b + I * kStar w l * a by ring,
    show -I * kStar w l * ((a : ℂ) + b) = -I * kStar w l * b + -I * kStar w l * a by ring,
    Complex.exp_add, Complex.exp_add]
  ext <;> simp <;> ring

theorem eMat_split (w : ℝ) (l : Lay) (hv : 0 < l.vs) (hr : 0 < l.rho) (a b : ℝ) (m : Lay) (post : List Lay) :
    ∀ pre : List Lay,
    eMat w (pre ++ { l with h := a } :: { l with h := b } :: m :: post)
      = eMat w (pre ++ { l with h := a + b } :: m :: post) := by
  intro pre
  induction pre with
  | nil =>
    simp only [List.nil_append]
    rw [eMat_cons, eMat_cons, M2.dot_assoc, dMat_split w l m a b hv hr, eMat_cons]
  | cons p pre ih =>
    match pre, ih with
    | [], ih =>
      simp only [List.nil_append, List.cons_append] at ih ⊢
      rw [eMat_cons, ih, eMat_cons w p]
      rfl
    | q :: pre, ih =>
      simp only [List.cons_append] at ih ⊢
      rw [eMat_cons, ih, eMat_cons w p]

/-- C34: splitting a layer (other than the base) into two of the same material leaves
every transfer function unchanged at every frequency. -/
theorem C34_split (w : ℝ) (pre post : List Lay) (l : Lay) (hv : 0 < l.vs) (hr : 0 < l.rho)
    (a b : ℝ) (hpost : post ≠ []) :
    tfRo w (pre ++ { l with h := a } :: { l with h := b } :: post) = tfRo w (pre ++ { l with h := a + b } :: post) ∧
    tfIn w (pre ++ { l with h := a } :: { l with h := b } :: post) = tfIn w (pre ++ { l with h := a + b } :: post) ∧
    tfBh w (pre ++ { l with h := a } :: { l with h := b } :: post) = tfBh w (pre ++ { l with h := a + b } :: post) := by
  match post, hpost with
  | m :: post, _ =>
    unfold tfRo tfIn tfBh
    rw [eMat_split w l hv hr a b m post pre]
    exact ⟨rfl, rfl, rfl⟩

/-- The sub-layers `g` make up the layer `l`. -/
def Spec.MakesUp (l : Lay) (g : List Lay) : Prop :=
  g ≠ [] ∧ (∀ s ∈ g, s.vs = l.vs ∧ s.xi = l.xi ∧ s.rho = l.rho) ∧ (g.map Lay.h).sum = l.h

theorem eMat_group (w : ℝ) (m : Lay) (post : List Lay) : ∀ (g : List Lay) (l : Lay) (pre : List Lay),
    0 < l.vs → 0 < l.rho → MakesUp l g → eMat w (pre ++ (g ++ m :: post)) = eMat w (pre ++ l :: m :: post) := by
  intro g
  induction g with
  | nil => intro l pre _ _ h; exact absurd rfl h.1
  | cons s g ih =>
    intro l pre hv hr h
    match g, ih with
    | [], ih =>
      have hs := h.2.1 s (by simp)
      have : s = l := by
        have h3 := h.2.2
        simp at h3
        cases s; cases l; simp_all
      subst this; rfl
    | t :: g, ih =>
      have hs := h.2.1 s (by simp)
      have h2 : MakesUp { l with h := l.h - s.h } (t :: g) := by
        refine ⟨by simp, fun x hx => h.2.1 x (by simp at hx ⊢; tauto), ?_⟩
        have := h.2.2
        simp only [List.map_cons, List.sum_cons] at this ⊢
        linarith
      have hi := ih { l with h := l.h - s.h } (pre ++ [s]) hv hr h2
      simp only [List.append_assoc, List.singleton_append] at hi
      rw [List.cons_append, hi]
      have hs' : s = { l with h := s.h } := by
        obtain ⟨a1, a2, a3⟩ := hs
        cases s; cases l; simp_all
      have := eMat_split w l hv hr s.h (l.h - s.h) m post pre
      rw [add_sub_cancel, ← hs'] at this
      exact this

/-- C34: replacing every layer above the base by any number of sub-layers of the same
material and total thickness leaves the matrix, hence every transfer function, unchanged. -/
theorem eMat_regroup (w : ℝ) (b : Lay) (ls : List Lay) (gs : List (List Lay))
    (hp : ∀ l ∈ ls, 0 < l.vs ∧ 0 < l.rho) (h : List.Forall₂ MakesUp ls gs) :
    ∀ pre, eMat w (pre ++ (gs.flatten ++ [b])) = eMat w (pre ++ (ls ++ [b])) := by
  induction h with
  | nil => intro pre; rfl
  | @cons l g ls gs hg hgs ih =>
    intro pre
    have hl := hp l (by simp)
    have h1 := ih (fun x hx => hp x (by simp [hx])) (pre ++ g)
    simp only [List.flatten_cons, List.append_assoc] at h1 ⊢
    rw [h1]
    have : ∃ m post, ls ++ [b] = m :: post := by
      cases ls with
      | nil => exact ⟨b, [], rfl⟩
      | cons x xs => exact ⟨x, xs ++ [b], rfl⟩
    obtain ⟨m, post, hmp⟩ := this
    rw [hmp, eMat_group w m post g l pre hl.1 hl.2 hg, List.cons_append, hmp]

/-- C34: transfer functions do not depend on how the soil above the base is divided into
layers. -/
theorem C34_subdivision (w : ℝ) (b : Lay) (ls : List Lay) (gs : List (List Lay))
    (hp : ∀ l ∈ ls, 0 < l.vs ∧ 0 < l.rho) (h : List.Forall₂ MakesUp ls gs) :
    tfRo w (gs.flatten ++ [b]) = tfRo w (ls ++ [b]) ∧ tfIn w (gs.flatten ++ [b]) = tfIn w (ls ++ [b]) ∧
    tfBh w (gs.flatten ++ [b]) = tfBh w (ls ++ [b]) := by
  have := eMat_regroup w b ls gs hp h []
  simp only [List.nil_append] at this
  unfold tfRo tfIn tfBh
  rw [this]
  exact ⟨rfl, rfl, rfl⟩

example : MakesUp ⟨10, 200, 1 / 20, 1800⟩ [⟨4, 200, 1 / 20, 1800⟩, ⟨6, 200, 1 / 20, 1800⟩] := by
  refine ⟨by simp, ?_, by norm_num⟩
  intro s hs
  simp only [List.mem_cons, List.not_mem_nil, or_false] at hs
  rcases hs with rfl | rfl <;> simp

/-- C34 concerns the soil above the base only: the thickness of the last row is ignored. -/
theorem C34_base_thickness (w : ℝ) (ls : List Lay) (b : Lay) (t : ℝ) :
    tfRo w (ls ++ [{ b with h := t }]) = tfRo w (ls ++ [b]) ∧
    tfBh w (ls ++ [{ b with h := t }]) = tfBh w (ls ++ [b]) := by
  have : eMat w (ls ++ [{ b with h := t }]) = eMat w (ls ++ [b]) := by
    induction ls with
    | nil => rfl
    | cons p ls ih =>
      match ls, ih with
      | [], ih => rfl
      | q :: ls, ih =>
        simp only [List.cons_append] at ih ⊢
        rw [eMat_cons, ih, eMat_cons]
  unfold tfRo tfBh
  rw [this]
  exact ⟨rfl, rfl⟩

/-- A profile row as a solver layer; `rest` holds damping and density. -/
def layOf (r : LRow ℝ (ℝ × ℝ)) : Lay := ⟨r.thk, r.vs, r.rest.1, r.rest.2⟩

/-- C34: the discretisation done by `stratify` before the every-layer solver runs does not
change the transfer functions of a profile ending in a zero-thickness half space, when
each layer's ratio thickness/(Vs/225) is an integer or outside numpy's tolerance band
around integers.  Missing from the full property: ratios inside the band, where
`stratify` changes the column itself (C07). -/
theorem C34_stratify_partial (w : ℝ) (rows : List (LRow ℝ (ℝ × ℝ))) (b : LRow ℝ (ℝ × ℝ))
    (hb : b.thk = 0) (hp : ∀ r ∈ rows, 0 < r.thk ∧ 0 < r.vs ∧ 0 < r.rest.2)
    (hx : ∀ r ∈ rows, ∀ m : ℤ, (m : ℝ) * (r.vs / 225) = r.thk ∨
      1 / 10 ^ 8 + 1 / 10 ^ 5 * (r.thk / (r.vs / 225)) < |(m : ℝ) - r.thk / (r.vs / 225)|) :
    let new := (stratify (rows ++ [b])).map layOf
    let old := (rows ++ [b]).map layOf
    tfRo w new = tfRo w old ∧ tfIn w new = tfIn w old ∧ tfBh w new = tfBh w old := by
  intro new old
  have h1 : stratify (rows ++ [b]) = rows.flatMap stratifyLayer ++ [b] := by
    simp [stratify, hb]
  have h2 : new = ((rows.map stratifyLayer).map (List.map layOf)).flatten ++ [layOf b] := by
    simp only [new, h1, List.map_append, List.map_cons, List.map_nil, List.flatMap_def, List.map_flatten]
  have h3 : old = rows.map layOf ++ [layOf b] := by simp [old]
  rw [h2, h3]
  apply C34_subdivision
  · intro l hl
    obtain ⟨r, hr, rfl⟩ := List.mem_map.1 hl
    exact ⟨(hp r hr).2.1, (hp r hr).2.2⟩
  · rw [List.forall₂_map_left_iff, List.map_map, List.forall₂_map_right_iff, List.forall₂_same]
    intro r hr
    obtain ⟨p1, p2, p3⟩ := hp r hr
    obtain ⟨s1, s2, -, -⟩ := stratifyLayer_spec r p1 p2
    refine ⟨by simpa using s1, ?_, ?_⟩
    · intro s hs
      simp only [Function.comp_apply, List.mem_map] at hs
      obtain ⟨a, ha, rfl⟩ := hs
      obtain ⟨q1, q2, -, -⟩ := s2 a ha
      exact ⟨q1, by simp [layOf, q2], by simp [layOf, q2]⟩
    · have := stratifyLayer_exact r p1 p2 (hx r hr)
      simp only [Function.comp_apply, List.map_map]
      exact this

/-! ## C35: the two solvers -/

theorem vsStarG_toG {l : Lay} (hv : 0 < l.vs) (hr : 0 < l.rho) : vsStarG (toG l) = vsStar l := by
  unfold vsStarG vsStar toG
  rw [← csqrt_ofReal_sq_mul hv (one_add_xi_ne l.xi)]
  congr 1
  have : (l.rho : ℂ) ≠ 0 := by exact_mod_cast hr.ne'
  push_cast
  field_simp

theorem kStarG_toG {w : ℝ} {l : Lay} (hv : 0 < l.vs) (hr : 0 < l.rho) :
    kStarG w (toG l) = kStar w l := by
  unfold kStarG kStar; rw [vsStarG_toG hv hr]; ring

theorem alphaG_toG {l m : Lay} (hv : 0 < l.vs) (hr : 0 < l.rho) (hv' : 0 < m.vs) (hr' : 0 < m.rho) :
    alphaG (toG l) (toG m) = alphaStar l m := by
  unfold alphaG alphaStar; rw [vsStarG_toG hv hr, vsStarG_toG hv' hr']; rfl

theorem abNext_toG {w : ℝ} {l m : Lay} (hv : 0 < l.vs) (hr : 0 < l.rho) (p : ℂ × ℂ) :
    abNext w (toG l) (alphaStar l m) p = (dMat w l m).app p := by
  unfold abNext M2.app dMat
  rw [kStarG_toG hv hr]
  ext <;> simp [toG] <;> ring

theorem abNext_smul (w : ℝ) (l : GLay) (al c : ℂ) (p : ℂ × ℂ) :
    abNext w l al (c * p.1, c * p.2) = (c * (abNext w l al p).1, c * (abNext w l al p).2) := by
  unfold abNext; ext <;> simp <;> ring

theorem abScan_smul (w : ℝ) (c : ℂ) : ∀ (L : List (GLay × ℂ)) (p : ℂ × ℂ),
    abScan w (c * p.1, c * p.2) L = (abScan w p L).map fun q => (c * q.1, c * q.2) := by
  intro L
  induction L with
  | nil => intro p; rfl
  | cons x L ih =>
    intro p
    obtain ⟨l, al⟩ := x
    simp only [abScan, List.map_cons]
    rw [abNext_smul, ih]

/-- Impedance ratios of the solver for a chain of layers. -/
theorem alphas_cons {l m : Lay} {ls : List Lay} (h : ∀ x ∈ l :: m :: ls, 0 < x.vs ∧ 0 < x.rho) :
    List.zipWith alphaG ((l :: m :: ls).map toG) ((l :: m :: ls).map toG).tail
      = alphaStar l m :: List.zipWith alphaG ((m :: ls).map toG) ((m :: ls).map toG).tail := by
  have hl := h l (by simp)
  have hm := h m (by simp)
  simp [alphaG_toG hl.1 hl.2 hm.1 hm.2]

theorem scan_elastic {w : ℝ} : ∀ (ls : List Lay) (l : Lay) (p : ℂ × ℂ),
    (∀ x ∈ l :: ls, 0 < x.vs ∧ 0 < x.rho) →
    (abScan w p (((l :: ls).map toG).zip
      (List.zipWith alphaG ((l :: ls).map toG) ((l :: ls).map toG).tail))).getLastD (1, 1)
      = (eMat w (l :: ls)).app p := by
  intro ls
  induction ls with
  | nil => intro l p h; rw [eMat_one, M2.app_id]; simp [abScan]
  | cons m ls ih =>
    intro l p h
    have hl := h l (by simp)
    rw [alphas_cons h, List.map_cons, List.zip_cons_cons, abScan, abNext_toG hl.1 hl.2, eMat_cons,
      M2.app_dot, ← ih m _ fun x hx => h x (by simp [hx])]
    have : ∀ (x : ℂ × ℂ) (y : List (ℂ × ℂ)), y ≠ [] → (x :: y).getLastD (1, 1) = y.getLastD (1, 1) := by
      intro x y hy
      match y, hy with
      | a :: y, _ => simp
    apply this
    generalize (List.map toG (m :: ls)).zip _ = L
    cases L with
    | nil => simp [abScan]
    | cons a L => obtain ⟨a, b⟩ := a; simp [abScan]

/-- Rigid base: replacing the last impedance ratio by zero. -/
def rigidAlphas (al : List ℂ) : List ℂ := al.dropLast ++ [0]

theorem rigid_cons (a : ℂ) (al : List ℂ) (h : al ≠ []) : rigidAlphas (a :: al) = a :: rigidAlphas al := by
  unfold rigidAlphas
  rw [List.dropLast_cons_of_ne_nil h]; rfl

theorem abScan_ne_nil (w : ℝ) (p : ℂ × ℂ) (L : List (GLay × ℂ)) : abScan w p L ≠ [] := by
  cases L with
  | nil => simp [abScan]
  | cons a L => obtain ⟨a, b⟩ := a; simp [abScan]

theorem getLastD_cons_ne (x : ℂ × ℂ) (y : List (ℂ × ℂ)) (hy : y ≠ []) (d : ℂ × ℂ) :
    (x :: y).getLastD d = y.getLastD d := by
  match y, hy with
  | a :: y, _ => simp

theorem scan_rigid {w : ℝ} : ∀ (ls : List Lay) (l m : Lay) (p : ℂ × ℂ),
    (∀ x ∈ l :: m :: ls, 0 < x.vs ∧ 0 < x.rho) →
    ((abScan w p (((l :: m :: ls).map toG).zip (rigidAlphas
      (List.zipWith alphaG ((l :: m :: ls).map toG) ((l :: m :: ls).map toG).tail)))).getLastD (1, 1)).1
      = (((eMat w (l :: m :: ls)).app p).1 + ((eMat w (l :: m :: ls)).app p).2) / 2 := by
  intro ls
  induction ls with
  | nil =>
    intro l m p h
    have hl := h l (by simp)
    rw [eMat_cons, eMat_one, M2.id_dot, (dMat_app w l m p).1]
    have hb : ((toG l).h : ℂ) = l.h := rfl
    simp [rigidAlphas, abScan, abNext, kStarG_toG hl.1 hl.2, hb]
    ring
  | cons n ls ih =>
    intro l m p h
    have hl := h l (by simp)
    rw [alphas_cons h, rigid_cons _ _ (by simp), List.map_cons, List.zip_cons_cons, abScan,
      abNext_toG hl.1 hl.2, getLastD_cons_ne _ _ (abScan_ne_nil _ _ _), eMat_cons, M2.app_dot,
      ← ih m n _ fun x hx => h x (by simp at hx ⊢; tauto)]

theorem abScan_head (w : ℝ) (p : ℂ × ℂ) (L : List (GLay × ℂ)) : (abScan w p L).head? = some p := by
  cases L with
  | nil => rfl
  | cons a L => obtain ⟨a, b⟩ := a; rfl

theorem alphasG_rigid (l m : Lay) (ls : List Lay) :
    alphasG .rigid ((l :: m :: ls).map toG) = .ok (rigidAlphas
      (List.zipWith alphaG ((l :: m :: ls).map toG) ((l :: m :: ls).map toG).tail)) := by
  unfold alphasG rigidAlphas; simp

/-- C35: the two solvers agree.  The every-layer solver halves its input motion; half
of its surface transfer function is TF_ro for an elastic base and TF_bh for a rigid one,
at every frequency. -/
theorem C35_agree (w : ℝ) (ls : List Lay) (hp : ∀ l ∈ ls, 0 < l.vs ∧ 0 < l.rho) :
    (ls ≠ [] → ∃ H, hRow .elastic w (ls.map toG) = .ok H ∧ H.head? = some (2 * tfRo w ls)) ∧
    (2 ≤ ls.length → ∃ H, hRow .rigid w (ls.map toG) = .ok H ∧ H.head? = some (2 * tfBh w ls)) ∧
    (ls.length = 1 → hRow .rigid w (ls.map toG) = .error .indexError) := by
  refine ⟨fun hne => ?_, fun hlen => ?_, fun hlen => ?_⟩
  · match ls, hne with
    | l :: ls, _ =>
      refine ⟨_, rfl, ?_⟩
      rw [List.head?_map, abScan_head, scan_elastic ls l (1, 1) hp]
      simp only [Option.map_some]
      unfold tfRo
      rw [(eMat_den w (l :: ls)).1]
      congr 1; ring
  · match ls, hlen with
    | l :: m :: ls, _ =>
      refine ⟨_, by rw [hRow, alphasG_rigid], ?_⟩
      rw [List.head?_map, abScan_head, scan_rigid ls l m (1, 1) hp]
      simp only [Option.map_some]
      unfold tfBh
      rw [(eMat_den w (l :: m :: ls)).2]
      congr 1
      rw [div_div_eq_mul_div]; ring
  · match ls, hlen with
    | [l], _ => simp [hRow, alphasG]

/-- Amplitudes of all layers of a harmonic motion, elastic base. -/
theorem scan_fields {w : ℝ} (hw : 0 < w) : ∀ (ls : List Lay) (fs : List Spec.Field) (l : Lay) (f : Spec.Field),
    (∀ x ∈ l :: ls, 0 < x.vs ∧ 0 < x.rho) →
    List.Forall₂ (Wave w) (l :: ls) (f :: fs) →
    (∀ (k : Nat) a b x y, (l :: ls)[k]? = some a → (l :: ls)[k + 1]? = some b →
      (f :: fs)[k]? = some x → (f :: fs)[k + 1]? = some y → Interface a b x y) →
    List.Forall₂ (fun (p : ℂ × ℂ) (f : Spec.Field) => p.1 + p.2 = f.u 0)
      (abScan w (ampl w l f) (((l :: ls).map toG).zip
        (List.zipWith alphaG ((l :: ls).map toG) ((l :: ls).map toG).tail))) (f :: fs) ∧
    (ls ≠ [] → List.Forall₂ (fun (p : ℂ × ℂ) (f : Spec.Field) => p.1 + p.2 = f.u 0)
      (abScan w (ampl w l f) (((l :: ls).map toG).zip
        (rigidAlphas (List.zipWith alphaG ((l :: ls).map toG) ((l :: ls).map toG).tail)))) (f :: fs)) := by
  intro ls
  induction ls with
  | nil =>
    intro fs l f hp hf hi
    cases hf with
    | cons h1 h2 =>
      cases h2
      refine ⟨?_, fun h => absurd rfl h⟩
      simp [abScan, ampl_sum]
  | cons m ls ih =>
    intro fs l f hp hf hi
    cases hf with
    | cons h1 h2 =>
      cases fs with
      | nil => cases h2
      | cons g fs =>
        have hl := hp l (by simp)
        have hm := hp m (by simp)
        have hI := hi 0 l m f g rfl rfl rfl rfl
        obtain ⟨i1, i2⟩ := ih fs m g (fun x hx => hp x (by simp [hx])) h2
          (fun k a b x y ha hb hx hy => hi (k + 1) a b x y (by simpa using ha) (by simpa using hb)
            (by simpa using hx) (by simpa using hy))
        have hg := ampl_interface hw hl.1 hl.2 hm.1 hm.2 h1 hI
        rw [alphas_cons hp]
        constructor
        · rw [List.map_cons, List.zip_cons_cons, abScan, abNext_toG hl.1 hl.2, ← hg]
          exact .cons (ampl_sum w l f) i1
        · intro _
          cases ls with
          | nil =>
            cases h2 with
            | cons _ h3 =>
              cases h3
              have hb : ((toG l).h : ℂ) = l.h := rfl
              have hd := dMat_app w l m (ampl w l f)
              rw [← hg] at hd
              have hd1 : (ampl w m g).1 + (ampl w m g).2 = _ := hd.1
              rw [ampl_sum] at hd1
              simp [rigidAlphas, abScan, abNext, kStarG_toG hl.1 hl.2, hb, ampl_sum]
              rw [hd1]; simp; ring
          | cons n ls =>
            rw [rigid_cons _ _ (by simp), List.map_cons, List.zip_cons_cons, abScan,
              abNext_toG hl.1 hl.2, ← hg]
            exact .cons (ampl_sum w l f) (i2 (by simp))

theorem forall2_scale {α β : Type*} {R : α → β → Prop} {S : α → β → Prop} (h : ∀ a b, R a b → S a b)
    {l : List α} {m : List β} (hf : List.Forall₂ R l m) : List.Forall₂ S l m := hf.imp h

/-- C35: for every harmonic motion of the column, the value that the every-layer solver
assigns to layer k, times the incident amplitude (elastic base) or half the base
displacement (rigid base), is the displacement at the top of layer k. -/
theorem C35_every_layer (w : ℝ) (hw : 0 < w) (ls : List Lay) (hd : ∀ l ∈ ls, DampedLay l)
    (fs : List Spec.Field) (hs : SiteResponse w ls fs) (g : Spec.Field) (m : Lay)
    (hg : fs.getLast? = some g) (hm : ls.getLast? = some m) (k : ℂ) (hk : WaveNumber w m k) :
    (∃ H, hRow .elastic w (ls.map toG) = .ok H ∧
      List.Forall₂ (fun Hk (f : Spec.Field) => Hk * upgoing k g = f.u 0) H fs) ∧
    (2 ≤ ls.length → ∃ H, hRow .rigid w (ls.map toG) = .ok H ∧
      List.Forall₂ (fun Hk (f : Spec.Field) => Hk * (g.u 0 / 2) = f.u 0) H fs) := by
  match ls, fs, hs.wave with
  | [], _, _ => simp at hm
  | l :: ls, f :: fs, hwv =>
  have hpos : ∀ x ∈ l :: ls, 0 < x.vs ∧ 0 < x.rho := fun x hx => ⟨(hd x hx).2.1, (hd x hx).2.2.1⟩
  obtain ⟨m', g', hm', hg', -, he⟩ := eMat_ampl hw ls fs l f hpos hwv hs.interfaces
  obtain rfl : m' = m := by rw [hm'] at hm; simpa using hm
  obtain rfl : g' = g := by rw [hg'] at hg; simpa using hg
  have hmd := hd m' (List.mem_of_getLast? hm')
  rw [waveNumber_unique hw hmd.2.1 hmd.2.2.1 hk]
  have hl := hd l (by simp)
  have h0 := hs.surface f rfl
  have hdiff := ampl_diff hw hl.2.1 f (l := l)
  rw [h0] at hdiff
  have hik : I * kStar w l ≠ 0 := mul_ne_zero I_ne_zero (kStar_ne hw hl.2.1)
  have hab : (ampl w l f).1 = (ampl w l f).2 := by
    rcases mul_eq_zero.1 hdiff with h | h
    · exact absurd h hik
    · exact sub_eq_zero.1 h
  set c := (ampl w l f).1 with hc
  have hamp : ampl w l f = (c * ((1, 1) : ℂ × ℂ).1, c * ((1, 1) : ℂ × ℂ).2) := by
    ext
    · simp [hc]
    · simp [hab]
  obtain ⟨s1, s2⟩ := scan_fields hw ls fs l f hpos hwv hs.interfaces
  rw [hamp, abScan_smul] at s1
  rw [hamp, app_smul] at he
  obtain ⟨n1, n2⟩ := den_ne hw (by simp) hd
  rw [(eMat_den w (l :: ls)).1] at n1
  rw [(eMat_den w (l :: ls)).2] at n2
  have hu : upgoing (kStar w m') g' = c * ((eMat w (l :: ls)).app (1, 1)).1 := (congrArg Prod.fst he).symm
  have hg0 : g'.u 0 = c * (((eMat w (l :: ls)).app (1, 1)).1 + ((eMat w (l :: ls)).app (1, 1)).2) := by
    rw [← ampl_sum w m' g', ← he]; simp; ring
  constructor
  · refine ⟨_, rfl, ?_⟩
    rw [List.forall₂_map_left_iff] at s1 ⊢
    refine forall2_scale ?_ s1
    intro p f' hpf
    rw [← hpf, scan_elastic ls l (1, 1) hpos, hu]
    field_simp
  · intro hlen
    match ls, hlen with
    | n :: ls, _ =>
      refine ⟨_, by rw [hRow, alphasG_rigid], ?_⟩
      have s2 := s2 (by simp)
      rw [hamp, abScan_smul] at s2
      rw [List.forall₂_map_left_iff] at s2 ⊢
      refine forall2_scale ?_ s2
      intro p f' hpf
      rw [← hpf, scan_rigid ls l n (1, 1) hpos, hg0]
      field_simp

example : ∃ H, hRow .rigid 3 (demoLays.map toG) = .ok H ∧ H.head? = some (2 * tfBh 3 demoLays) :=
  (C35_agree 3 demoLays fun l hl => ⟨(demoLays_damped l hl).2.1, (demoLays_damped l hl).2.2.1⟩).2.1 (by simp [demoLays])

end Verif
